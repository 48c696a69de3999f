import Verif.Props.SpecialBounds

set_option linter.unusedSectionVars false
set_option linter.unusedSimpArgs false

/-!
# Transforms, attributes and intersections of curves with NaN and infinite coordinates: C115
-/

namespace PathLib
open Special Special.Num

namespace Special

section field
variable {K : Type} [Field K] [LinearOrder K]

theorem mul_zero_cases (x : Num K) : (∃ y, x = fin y) ∧ mul x (fin 0) = fin 0 ∨ (∀ y, x ≠ fin y) ∧ mul x (fin 0) = nan := by
  cases x <;> simp [mul]

/-- The third entry of the row for an affine matrix. -/
theorem weight (m n s : Num K) : (∃ y, m = fin y) ∧ (∃ y, n = fin y) ∧ add (add (mul m (fin 0)) (mul n (fin 0))) (mul (fin 1) s) = add (fin 0) (mul (fin 1) s) ∨
    ((∀ y, m ≠ fin y) ∨ (∀ y, n ≠ fin y)) ∧ add (add (mul m (fin 0)) (mul n (fin 0))) (mul (fin 1) s) = nan := by
  rcases mul_zero_cases m with ⟨h1, e1⟩ | ⟨h1, e1⟩ <;> rcases mul_zero_cases n with ⟨h2, e2⟩ | ⟨h2, e2⟩ <;> rw [e1, e2]
  · exact .inl ⟨h1, h2, by simp [add]⟩
  · exact .inr ⟨.inr h2, by simp [add_nan_right, add_nan_left]⟩
  · exact .inr ⟨.inl h1, by simp [add_nan_right, add_nan_left]⟩
  · exact .inr ⟨.inl h1, by simp [add_nan_right, add_nan_left]⟩

theorem div_nan (x : Num K) : div x nan = .ok nan := by cases x <;> rfl

end field

theorem moveAndRotateOf_eq (f : Pt (Num ℝ)) (st ct : Num ℝ) : ∃ a b c d m n s, moveAndRotateOf f (fin 0, fin 0) st ct = .ok [[a, b, fin 0], [c, d, fin 0], [m, n, s]] ∧
    (s = fin 1 ∨ s = nan) ∧ ((∀ y, f.1 ≠ fin y) ∨ (∀ y, f.2 ≠ fin y) → s = nan) ∧
    (st = nan → ct = nan → b = nan ∧ d = nan ∧ n = nan) := by
  have hx : ∀ x : Num ℝ, (∀ y, x ≠ fin y) → ∀ y, sub (fin 0) x ≠ fin y := by
    intro x h y
    rcases x with x | _ | _
    · exact absurd rfl (h x)
    · simp [sub, neg, add]
    · simp [sub, neg, add]
  refine ⟨add (add (mul (fin 1) ct) (mul (fin 0) (neg st))) (mul (fin 0) (fin 0)), add (add (mul (fin 1) st) (mul (fin 0) ct)) (mul (fin 0) (fin 0)),
    add (add (mul (fin 0) ct) (mul (fin 1) (neg st))) (mul (fin 0) (fin 0)), add (add (mul (fin 0) st) (mul (fin 1) ct)) (mul (fin 0) (fin 0)),
    add (add (mul (sub (fin 0) f.1) ct) (mul (sub (fin 0) f.2) (neg st))) (mul (fin 1) (fin 0)),
    add (add (mul (sub (fin 0) f.1) st) (mul (sub (fin 0) f.2) ct)) (mul (fin 1) (fin 0)),
    add (add (mul (sub (fin 0) f.1) (fin 0)) (mul (sub (fin 0) f.2) (fin 0))) (mul (fin 1) (fin 1)), ?_, ?_⟩
  · unfold moveAndRotateOf
    simp only [multiplyRowByMatrix, List.mapM_cons, List.mapM_nil, ok_bind, pure_eq_ok, Except.ok.injEq, List.cons.injEq, and_true]
    simp [mul, add]
  · refine ⟨?_, ?_, ?_⟩
    · rcases weight (sub (fin 0) f.1) (sub (fin 0) f.2) (fin (1 : ℝ)) with ⟨-, -, e⟩ | ⟨-, e⟩
      · rw [e]; exact .inl (by simp [mul, add])
      · rw [e]; exact .inr rfl
    · intro h
      rcases weight (sub (fin 0) f.1) (sub (fin 0) f.2) (fin (1 : ℝ)) with ⟨⟨y, e1⟩, ⟨z, e2⟩, -⟩ | ⟨-, e⟩
      · rcases h with h | h
        · exact absurd e1 (hx _ h y)
        · exact absurd e2 (hx _ h z)
      · exact e
    · rintro rfl rfl
      simp [neg, mul_nan_left, mul_nan_right, add_nan_left, add_nan_right]

theorem applyToPoint_ok (a b c d m n s : Num ℝ) (hs : s = fin 1 ∨ s = nan) (p : Pt (Num ℝ)) :
    ∃ q, applyToPoint [[a, b, fin 0], [c, d, fin 0], [m, n, s]] p = .ok q ∧
      (s = nan ∨ (∀ y, p.1 ≠ fin y) ∨ (∀ y, p.2 ≠ fin y) → q = (nan, nan)) ∧ (b = nan → d = nan → n = nan → q.2 = nan) := by
  unfold applyToPoint
  simp only [multiplyRowByMatrix, ok_bind, pyGet_zero_cons, pyGet_one_cons, pyGet_two_cons]
  rcases weight p.1 p.2 s with ⟨⟨y, e1⟩, ⟨z, e2⟩, e⟩ | ⟨-, e⟩
  · rcases hs with rfl | rfl
    · rw [e]
      have hw : add (fin 0) (mul (fin 1) (fin (1 : ℝ))) = fin 1 := by simp [mul, add]
      rw [hw]
      have hd : ∀ x : Num ℝ, div x (fin 1) = .ok x := by
        rintro (x | (_ | _) | _) <;> simp [div]
      simp only [hd, ok_bind, pure_eq_ok]
      refine ⟨_, rfl, ?_, ?_⟩
      · rintro (h | h | h)
        · cases h
        · exact absurd e1 (h y)
        · exact absurd e2 (h z)
      · rintro rfl rfl rfl
        simp [mul_nan_left, mul_nan_right, add_nan_left, add_nan_right]
    · rw [e]
      simp only [mul_nan_right, add_nan_right, div_nan, ok_bind, pure_eq_ok]
      exact ⟨_, rfl, fun _ => rfl, fun _ _ _ => rfl⟩
  · rw [e]
    simp only [div_nan, ok_bind, pure_eq_ok]
    exact ⟨_, rfl, fun _ => rfl, fun _ _ _ => rfl⟩

/-- Aligning succeeds; which points become NaN. -/
theorem alignPoints_ok (ps : Segment (Num ℝ)) (first last : Pt (Num ℝ)) : ∃ qs, alignPoints ps first last = .ok qs ∧ 
    ((∀ y, first.1 ≠ fin y) ∨ (∀ y, first.2 ≠ fin y) ∨ last.1 = nan ∨ last.2 = nan → ∀ q ∈ qs, q.2 = nan) := by
  unfold alignPoints
  simp only
  generalize hang : Num.lift PathUtilities.degrees (atan2 (sub last.2 first.2) (sub last.1 first.1)) = ang
  obtain ⟨a, b, c, d, m, n, s, e, hs, hf, hn⟩ := moveAndRotateOf_eq first (Num.lift Transform.sin (neg ang)) (Num.lift Transform.cos (neg ang))
  rw [e, ok_bind]
  have h := fun p => applyToPoint_ok a b c d m n s hs p
  choose g hg using h
  have hm : List.mapM (applyToPoint [[a, b, fin 0], [c, d, fin 0], [m, n, s]]) ps = .ok (ps.map g) := mapM_ok _ _ _ fun p _ => (hg p).1
  refine ⟨_, hm, ?_⟩
  intro h q hq
  obtain ⟨p, -, rfl⟩ := List.mem_map.mp hq
  rcases h with h | h | h | h
  · exact congrArg Prod.snd ((hg p).2.1 (.inl (hf (.inl h))))
  · exact congrArg Prod.snd ((hg p).2.1 (.inl (hf (.inr h))))
  · have hang' : ang = nan := by
      rw [← hang, h, sub_nan_left]
      cases sub last.2 first.2 <;> rfl
    subst hang'
    obtain ⟨hb, hd, hn⟩ := hn rfl rfl
    exact (hg p).2.2 hb hd hn
  · have hang' : ang = nan := by
      rw [← hang, h, sub_nan_left]
      rfl
    subst hang'
    obtain ⟨hb, hd, hn⟩ := hn rfl rfl
    exact (hg p).2.2 hb hd hn

theorem computeDirection_ok (ps : Segment (Num ℝ)) (hl : 2 ≤ ps.length) (hl' : ps.length ≤ 4) : ∃ d, computeDirection ps = .ok d := by
  unfold computeDirection
  match ps, hl, hl' with
  | [a, b], _, _ =>
    simp [pyGet_zero_cons, pyGet_one_cons, ok_bind, pure_eq_ok]
    split
    · exact ⟨_, rfl⟩
    · split <;> exact ⟨_, rfl⟩
  | [a, b, c], _, _ =>
    simp [pyGet_zero_cons, pyGet_one_cons, pyGet_two_cons, ok_bind, pure_eq_ok]
    split
    · exact ⟨_, rfl⟩
    · split <;> exact ⟨_, rfl⟩
  | [a, b, c, d], _, _ =>
    simp [pyGet_zero_cons, pyGet_one_cons, pyGet_two_cons, pyGet_three_cons, ok_bind, pure_eq_ok]
    split
    · exact ⟨_, rfl⟩
    · split <;> exact ⟨_, rfl⟩

theorem new_ok (ps : Segment (Num ℝ)) (hl : 2 ≤ ps.length) (hl' : ps.length ≤ 4) : ∃ c, new ps = .ok c ∧ c.points = ps := by
  unfold new
  obtain ⟨d, e⟩ := computeDirection_ok ps hl hl'
  rw [e, ok_bind]
  match ps, hl with
  | a :: b :: l, _ =>
    obtain ⟨last, hlast⟩ : ∃ x, pyGet (a :: b :: l) (-1) = .ok x := by
      refine ⟨(b :: l)[l.length], ?_⟩
      have : ¬ ((l.length : ℤ) + 1 < 0) := by omega
      simp [pyGet, this]
    obtain ⟨qs, hq, -⟩ := alignPoints_ok (a :: b :: l) a last
    simp only [pyGet_zero_cons, pyGet_one_cons, ok_bind, hlast, hq, pure_eq_ok]
    exact ⟨_, rfl, rfl⟩

end Special

section field
variable {K : Type} [Field K] [LinearOrder K]

/-- C115: an affine transform with finite entries sends every point with a NaN or infinite coordinate to (NaN, NaN), also when the other coordinate is
finite, and also when the transform is the identity. -/
theorem C115_transform (a b c d m n : K) (p : Pt (Num K)) (h : (∀ y, p.1 ≠ fin y) ∨ (∀ y, p.2 ≠ fin y)) :
    Special.applyToPoint [[fin a, fin b, fin 0], [fin c, fin d, fin 0], [fin m, fin n, fin 1]] p = .ok (nan, nan) := by
  unfold Special.applyToPoint
  simp only [Special.multiplyRowByMatrix, ok_bind, pyGet_zero_cons, pyGet_one_cons, pyGet_two_cons]
  rcases weight p.1 p.2 (fin (1 : K)) with ⟨⟨y, e1⟩, ⟨z, e2⟩, -⟩ | ⟨-, e⟩
  · rcases h with h | h
    · exact absurd e1 (h y)
    · exact absurd e2 (h z)
  · rw [e]
    simp only [div_nan, ok_bind, pure_eq_ok]

example : Special.applyToPoint [[fin 1, fin 0, fin 0], [fin 0, fin 1, fin 0], [fin 0, fin 0, fin 1]] ((inf true : Num ℚ), fin 5) = .ok (nan, nan) := by decide +kernel

/-- C115: a line with a NaN ordinate goes down; a quadratic or cubic with one is mixed. -/
theorem C115_direction (ps : Segment (Num K)) (h : ∃ p ∈ ps, p.2 = nan) :
    (ps.length = 2 → Special.computeDirection ps = .ok .down) ∧ (ps.length = 3 ∨ ps.length = 4 → Special.computeDirection ps = .ok .mixed) := by
  have l1 : ∀ a : Num K, le a nan = false := by intro a; cases a <;> rfl
  have l2 : ∀ a : Num K, le nan a = false := by intro a; cases a <;> rfl
  have q1 : ∀ a : Num K, eq a nan = false := by intro a; cases a <;> rfl
  have q2 : ∀ a : Num K, eq nan a = false := by intro a; cases a <;> rfl
  unfold Special.computeDirection
  constructor
  · intro hl
    match ps, hl with
    | [a, b], _ =>
      simp only [List.mem_cons, List.not_mem_nil, or_false, exists_eq_or_imp, exists_eq_left] at h
      rcases h with h | h <;> simp [pyGet_zero_cons, pyGet_one_cons, ok_bind, pure_eq_ok, h, q1, q2, lt_nan_left, lt_nan_right]
  · rintro (hl | hl)
    · match ps, hl with
      | [a, b, c], _ =>
        simp only [List.mem_cons, List.not_mem_nil, or_false, exists_eq_or_imp, exists_eq_left] at h
        rcases h with h | h | h <;> simp [pyGet_zero_cons, pyGet_one_cons, pyGet_two_cons, ok_bind, pure_eq_ok, h, l1, l2]
    · match ps, hl with
      | [a, b, c, d], _ =>
        simp only [List.mem_cons, List.not_mem_nil, or_false, exists_eq_or_imp, exists_eq_left] at h
        rcases h with h | h | h | h <;> simp [pyGet_zero_cons, pyGet_one_cons, pyGet_two_cons, pyGet_three_cons, ok_bind, pure_eq_ok, h, l1, l2]

end field

/-- C115: every line, quadratic and cubic can be constructed, whatever its coordinates are. If its start is not finite or its end has a NaN coordinate it
counts as straight; if its start, its second point or its end has a NaN coordinate it does not count as clockwise. -/
theorem C115_new (ps : Segment (Num ℝ)) (hl : 2 ≤ ps.length) (hl' : ps.length ≤ 4) (first second last : Pt (Num ℝ)) (rest : Segment (Num ℝ))
    (hf : ps = first :: second :: rest) (he : ps.getLast? = some last) : ∃ c, Special.new ps = .ok c ∧ c.points = ps ∧
      ((∀ y, first.1 ≠ fin y) ∨ (∀ y, first.2 ≠ fin y) ∨ last.1 = nan ∨ last.2 = nan → c.linear = true) ∧
      ((first.1 = nan ∨ first.2 = nan ∨ second.1 = nan ∨ second.2 = nan ∨ last.1 = nan ∨ last.2 = nan) → c.clockwise = false) := by
  unfold Special.new
  obtain ⟨d, e⟩ := computeDirection_ok ps hl hl'
  rw [e, ok_bind]
  have hlast : pyGet ps (-1) = .ok last := by
    subst hf
    rw [List.getLast?_eq_getElem?] at he
    simp only [List.length_cons, Nat.add_sub_cancel] at he
    have : ¬ ((rest.length : ℤ) + 1 < 0) := by omega
    simp at he
    simp [pyGet, this, he]
  subst hf
  obtain ⟨qs, hq, hn⟩ := alignPoints_ok (first :: second :: rest) first last
  simp only [pyGet_zero_cons, pyGet_one_cons, ok_bind, hlast, hq, pure_eq_ok]
  refine ⟨_, rfl, rfl, ?_, ?_⟩
  · intro h
    have := hn h
    simp only [beq_iff_eq, List.length_eq_zero_iff, List.filter_eq_nil_iff]
    intro q hq'
    rw [this q hq']
    simp [Num.abs, lt]
  · intro h
    have : Special.angle first last second = nan := by
      unfold Special.angle
      simp only
      rcases h with h | h | h | h | h | h <;> rw [h] <;>
        simp [sub_nan_left, sub_nan_right, mul_nan_left, mul_nan_right, add_nan_left, add_nan_right, atan2]
    rw [this]
    rfl

namespace Special

theorem split_ok (b : Curve) (t : ℝ) (h : b.points.length = 3 ∨ b.points.length = 4) : ∃ l r, split b t = .ok (l, r) ∧
    (l.points.length = 3 ∨ l.points.length = 4) ∧ (r.points.length = 3 ∨ r.points.length = 4) ∧
    ((∀ p ∈ b.points, p = (nan, nan)) → (∀ p ∈ l.points, p = (nan, nan)) ∧ ∀ p ∈ r.points, p = (nan, nan)) := by
  have hln : lerp t ((nan : Num ℝ), nan) (nan, nan) = (nan, nan) := rfl
  have hmap : ∀ x : ℝ, ∃ y, butils.map x 0 1 b.t1 b.t2 = .ok y := by
    intro x; unfold butils.map; simp [pdiv, ok_bind, pure_eq_ok]
  obtain ⟨y0, m0⟩ := hmap 0
  obtain ⟨yt, mt⟩ := hmap t
  obtain ⟨y1, m1⟩ := hmap 1
  obtain ⟨ps, t1, t2, dir, lin, cw⟩ := b
  simp only at *
  unfold split
  simp only [m0, mt, m1]
  rcases h with h | h
  · match ps, h with
    | [a, b, c], _ =>
      have hh : hull [a, b, c] t = [a, b, c, lerp t a b, lerp t b c, lerp t (lerp t a b) (lerp t b c)] := by
        unfold hull; rw [hullLoop]; simp; rw [hullLoop]; simp; rw [hullLoop]; simp
      obtain ⟨l, hl, pl⟩ := new_ok [a, lerp t a b, lerp t (lerp t a b) (lerp t b c)] (by simp) (by simp)
      obtain ⟨r, hr, pr⟩ := new_ok [lerp t (lerp t a b) (lerp t b c), lerp t b c, c] (by simp) (by simp)
      rw [hh]
      have g : ∀ (x0 x1 x2 x3 x4 x5 : Pt (Num ℝ)), pyGet [x0, x1, x2, x3, x4, x5] 0 = .ok x0 ∧ pyGet [x0, x1, x2, x3, x4, x5] 2 = .ok x2 ∧
          pyGet [x0, x1, x2, x3, x4, x5] 3 = .ok x3 ∧ pyGet [x0, x1, x2, x3, x4, x5] 4 = .ok x4 ∧ pyGet [x0, x1, x2, x3, x4, x5] 5 = .ok x5 := by
        intros; exact ⟨rfl, rfl, rfl, rfl, rfl⟩
      obtain ⟨g0, g2, g3, g4, g5⟩ := g a b c (lerp t a b) (lerp t b c) (lerp t (lerp t a b) (lerp t b c))
      simp only [List.length_cons, List.length_nil, Nat.zero_add, Nat.reduceAdd, if_true, g0, g2, g3, g4, g5, ok_bind, hl, hr, pure_eq_ok]
      refine ⟨_, _, rfl, by rw [pl]; simp, by rw [pr]; simp, ?_⟩
      intro hn
      simp only [List.mem_cons, List.not_mem_nil, or_false, forall_eq_or_imp, forall_eq] at hn
      obtain ⟨rfl, rfl, rfl⟩ := hn
      rw [pl, pr]
      simp [hln]
  · match ps, h with
    | [a, b, c, d], _ =>
      have hh : hull [a, b, c, d] t = [a, b, c, d, lerp t a b, lerp t b c, lerp t c d, lerp t (lerp t a b) (lerp t b c), lerp t (lerp t b c) (lerp t c d),
          lerp t (lerp t (lerp t a b) (lerp t b c)) (lerp t (lerp t b c) (lerp t c d))] := by
        unfold hull; rw [hullLoop]; simp; rw [hullLoop]; simp; rw [hullLoop]; simp; rw [hullLoop]; simp
      obtain ⟨l, hl, pl⟩ := new_ok [a, lerp t a b, lerp t (lerp t a b) (lerp t b c), lerp t (lerp t (lerp t a b) (lerp t b c)) (lerp t (lerp t b c) (lerp t c d))] (by simp) (by simp)
      obtain ⟨r, hr, pr⟩ := new_ok [lerp t (lerp t (lerp t a b) (lerp t b c)) (lerp t (lerp t b c) (lerp t c d)), lerp t (lerp t b c) (lerp t c d), lerp t c d, d] (by simp) (by simp)
      rw [hh]
      have g : ∀ (x0 x1 x2 x3 x4 x5 x6 x7 x8 x9 : Pt (Num ℝ)), pyGet [x0, x1, x2, x3, x4, x5, x6, x7, x8, x9] 0 = .ok x0 ∧
          pyGet [x0, x1, x2, x3, x4, x5, x6, x7, x8, x9] 3 = .ok x3 ∧ pyGet [x0, x1, x2, x3, x4, x5, x6, x7, x8, x9] 4 = .ok x4 ∧
          pyGet [x0, x1, x2, x3, x4, x5, x6, x7, x8, x9] 6 = .ok x6 ∧ pyGet [x0, x1, x2, x3, x4, x5, x6, x7, x8, x9] 7 = .ok x7 ∧
          pyGet [x0, x1, x2, x3, x4, x5, x6, x7, x8, x9] 8 = .ok x8 ∧ pyGet [x0, x1, x2, x3, x4, x5, x6, x7, x8, x9] 9 = .ok x9 := by
        intros; exact ⟨rfl, rfl, rfl, rfl, rfl, rfl, rfl⟩
      obtain ⟨g0, g3, g4, g6, g7, g8, g9⟩ := g a b c d (lerp t a b) (lerp t b c) (lerp t c d) (lerp t (lerp t a b) (lerp t b c)) (lerp t (lerp t b c) (lerp t c d))
          (lerp t (lerp t (lerp t a b) (lerp t b c)) (lerp t (lerp t b c) (lerp t c d)))
      rw [if_neg (by simp)]
      simp only [g0, g3, g4, g6, g7, g8, g9, ok_bind, hl, hr, pure_eq_ok]
      refine ⟨_, _, rfl, by rw [pl]; simp, by rw [pr]; simp, ?_⟩
      intro hn
      simp only [List.mem_cons, List.not_mem_nil, or_false, forall_eq_or_imp, forall_eq] at hn
      obtain ⟨rfl, rfl, rfl, rfl⟩ := hn
      rw [pl, pr]
      simp [hln]

theorem not_lt_of_le {a b : Num ℝ} (h : le a b = true) : lt b a = false := by
  rcases a with a | (_ | _) | _ <;> rcases b with b | (_ | _) | _ <;> simp_all [le, lt, eq]
  rcases h with h | h
  · exact h.le
  · exact h.le

/-- The bounds of a curve all of whose coordinates are NaN. -/
theorem bounds_all_nan (c : Curve) (h : c.points.length = 3 ∨ c.points.length = 4) (hn : ∀ p ∈ c.points, p = (nan, nan)) :
    boundsRectangle c.points = .ok ⟨fin (-9007199254740991), fin (-9007199254740991), fin 9007199254740991, fin 9007199254740991⟩ := by
  obtain ⟨r, hr, -⟩ := C115_bounds c.points (by omega) (by omega)
  have hne : c.points ≠ [] := by rintro hc; simp [hc] at h
  have hfm := hn _ (List.head_mem hne)
  have hlm := hn _ (List.getLast_mem hne)
  obtain ⟨hx, hy⟩ := C115_bounds_nan c.points (by omega) (by omega) _ _ (List.head?_eq_some_head hne) (List.getLast?_eq_some_getLast hne) r hr
  have hx := (hx ⟨_, List.head_mem hne, by rw [hfm]⟩).1 (by rw [hfm]) (by rw [hlm])
  have hy := (hy ⟨_, List.head_mem hne, by rw [hfm]⟩).1 (by rw [hfm]) (by rw [hlm])
  rw [hr]
  obtain ⟨l, b, rr, t⟩ := r
  simp only at hx hy
  rw [hx.1, hx.2, hy.1, hy.2]

theorem overlaps_all_nan (c c' : Curve) (h : c.points.length = 3 ∨ c.points.length = 4) (h' : c'.points.length = 3 ∨ c'.points.length = 4)
    (hn : ∀ p ∈ c.points, p = (nan, nan)) : overlaps c c' = .ok true := by
  unfold overlaps
  obtain ⟨r, l, hr, rfl, h1, h2⟩ := boundsRectangle_ok' c'.points (by omega) (by omega)
  rw [bounds_all_nan c h hn, hr]
  simp only [ok_bind, pure_eq_ok, Except.ok.injEq]
  have d1 : le (rectangle l).left (fin 32768) = true := by rw [rectangle_sides]; exact (foldl_min _ _ (by simp)).2.1
  have d2 : le (fin (-32768)) (rectangle l).right = true := by rw [rectangle_sides]; exact (foldl_max _ _ (by simp)).2.1
  have d3 : le (rectangle l).bottom (fin 32768) = true := by rw [rectangle_sides]; exact (foldl_min _ _ (by simp)).2.1
  have d4 : le (fin (-32768)) (rectangle l).top = true := by rw [rectangle_sides]; exact (foldl_max _ _ (by simp)).2.1
  have key : ∀ a b : Num ℝ, le a b = true → le a (fin 32768) = true → le (fin (-32768)) b = true →
      lt (Num.min (fin 9007199254740991) b) (Num.max (fin (-9007199254740991)) a) = false := by
    intro a b h1 h2 h3
    apply not_lt_of_le
    have c1 : le (fin (32768 : ℝ)) (fin 9007199254740991) = true := by norm_num [le, lt]
    have c2 : le (fin (-9007199254740991 : ℝ)) (fin (-32768)) = true := by norm_num [le, lt]
    have c3 : le (fin (-9007199254740991 : ℝ)) (fin 9007199254740991) = true := by norm_num [le, lt]
    unfold Num.min Num.max
    split <;> split
    · exact h1
    · exact le_trans' h2 c1
    · exact le_trans' c2 h3
    · exact c3
  unfold intersection
  simp only [key _ _ h1 d1 d2, key _ _ h2 d3 d4, Bool.or_false, Bool.false_eq_true, if_false, Option.isSome_some]

end Special

/-- C115: the search for intersections with a quadratic or cubic all of whose coordinates are NaN exceeds every recursion limit, for thresholds up to
36028797018963964 and every second curve. -/
theorem C115_recursion (depth : Nat) (c c' : Special.Curve) (h : c.points.length = 3 ∨ c.points.length = 4) (h' : c'.points.length = 3 ∨ c'.points.length = 4)
    (hn : ∀ p ∈ c.points, p = (nan, nan)) (θ : ℝ) (hθ : θ ≤ 36028797018963964) :
    Special.pairiteration depth c c' θ = .error .recursionError := by
  induction depth generalizing c c' with
  | zero => rfl
  | succ depth ih =>
    unfold Special.pairiteration
    obtain ⟨r, l, hr, -⟩ := boundsRectangle_ok' c'.points (by omega) (by omega)
    obtain ⟨l1, r1, e1, a1, a2, a3⟩ := split_ok c (1 / 2) h
    obtain ⟨l2, r2, e2, b1, b2, -⟩ := split_ok c' (1 / 2) h'
    obtain ⟨n1, n2⟩ := a3 hn
    have hbig : lt (add (Special.height (⟨fin (-9007199254740991), fin (-9007199254740991), fin 9007199254740991, fin 9007199254740991⟩ : BoundsRectangle (Num ℝ)))
        (Special.width ⟨fin (-9007199254740991), fin (-9007199254740991), fin 9007199254740991, fin 9007199254740991⟩)) (fin θ) = false := by
      simp only [Special.height, Special.width, sub, neg, add, lt, decide_eq_false_iff_not, not_lt]
      linarith
    rw [bounds_all_nan c h hn, hr]
    simp only [ok_bind, hbig, Bool.false_and, Bool.false_eq_true, if_false, e1, e2]
    rw [filterM_ok _ (fun _ => true) _ (by
      intro p hp
      simp only [List.mem_cons, List.not_mem_nil, or_false] at hp
      rcases hp with rfl | rfl | rfl | rfl
      · exact overlaps_all_nan l1 l2 a1 b1 n1
      · exact overlaps_all_nan l1 r2 a1 b2 n1
      · exact overlaps_all_nan r1 r2 a2 b2 n2
      · exact overlaps_all_nan r1 l2 a2 b1 n2), ok_bind, List.filter_true, List.mapM_cons, ih l1 l2 a1 b1 n1]
    rfl

end PathLib
