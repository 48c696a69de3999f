import Verif.Props.SpecialCurve

set_option linter.unusedSectionVars false
set_option linter.unusedSimpArgs false

/-!
# Bounds, attributes and intersections of curves with NaN and infinite coordinates: C115
-/

namespace PathLib
open Special Special.Num

namespace Special

theorem div_ok (x y : Num ℝ) (h : eq y (fin 0) = false) : ∃ z, div x y = .ok z := by
  rcases y with y | _ | _
  · have hy : y ≠ 0 := by simpa [eq] using h
    cases x <;> simp [div, hy]
  · cases x <;> simp [div]
  · cases x <;> simp [div]

theorem droots_ok (p : List (Num ℝ)) : ∃ l, droots p = .ok l := by
  unfold droots
  split
  · rename_i a b c
    simp only
    split
    · rename_i h
      simp only [Bool.not_eq_true'] at h
      obtain ⟨z1, e1⟩ := div_ok (neg (add (neg (Num.sqrt (sub (mul b b) (mul a c)))) (add (neg a) b))) _ h
      obtain ⟨z2, e2⟩ := div_ok (neg (add (neg (neg (Num.sqrt (sub (mul b b) (mul a c))))) (add (neg a) b))) _ h
      rw [e1, e2]
      exact ⟨_, rfl⟩
    · split
      · rename_i h1 h2
        simp only [Bool.and_eq_true, Bool.not_eq_true'] at h2
        have : eq (mul (fin 2) (sub b c)) (fin 0) = false := by
          obtain ⟨h2, h3⟩ := h2
          rcases a with a | _ | _ <;> rcases b with b | (_ | _) | _ <;> rcases c with c | (_ | _) | _ <;>
            simp_all [eq, sub, add, neg, mul, sub_ne_zero, ← sub_eq_add_neg]
        obtain ⟨z, e⟩ := div_ok (sub (mul (fin 2) b) c) _ this
        rw [e]
        exact ⟨_, rfl⟩
      · exact ⟨_, rfl⟩
  · rename_i a b
    split
    · rename_i h
      have : eq (sub a b) (fin 0) = false := by
        rcases a with a | (_ | _) | _ <;> rcases b with b | (_ | _) | _ <;> simp_all [eq, sub, add, neg, sub_ne_zero, ← sub_eq_add_neg]
      obtain ⟨z, e⟩ := div_ok a _ this
      rw [e]
      exact ⟨_, rfl⟩
    · exact ⟨_, rfl⟩
  · exact ⟨_, rfl⟩

theorem extremaDim_ok (ps : Segment (Num ℝ)) (d : Fin 2) : ∃ l, extremaDim ps d = .ok l := by
  unfold extremaDim
  obtain ⟨l1, e1⟩ := droots_ok ((dcStep ps).map (coordinate d))
  obtain ⟨l2, e2⟩ := droots_ok ((dcStep (dcStep ps)).map (coordinate d))
  rw [e1, e2, ok_bind]
  by_cases h : ps.length = 4
  · simp only [h, if_true, ok_bind, pure_eq_ok]; exact ⟨_, rfl⟩
  · simp only [h, if_false, ok_bind, pure_eq_ok]; exact ⟨_, rfl⟩

theorem get_ok (ps : Segment (Num ℝ)) (hl : 2 ≤ ps.length) (hl' : ps.length ≤ 4) (t : ℝ) : ∃ q, Special.get ps t = .ok q := by
  unfold Special.get
  match ps, hl, hl' with
  | [a, b], _, _ =>
    split
    · exact ⟨_, rfl⟩
    · split
      · exact ⟨b, by simp [pyGet_one_cons]⟩
      · refine ⟨_, by simp [pyGet_zero_cons, pyGet_one_cons, ok_bind, pure_eq_ok]; rfl⟩
  | [a, b, c], _, _ =>
    split
    · exact ⟨_, rfl⟩
    · split
      · exact ⟨c, by simp [pyGet_two_cons]⟩
      · refine ⟨_, by simp [pyGet_zero_cons, pyGet_one_cons, pyGet_two_cons, pyGet_three_cons, ok_bind, pure_eq_ok]; rfl⟩
  | [a, b, c, e], _, _ =>
    split
    · exact ⟨_, rfl⟩
    · split
      · exact ⟨e, by simp [pyGet_three_cons]⟩
      · refine ⟨_, by simp [pyGet_zero_cons, pyGet_one_cons, pyGet_two_cons, pyGet_three_cons, ok_bind, pure_eq_ok]; rfl⟩

theorem getminmax_ok (ps : Segment (Num ℝ)) (hl : 2 ≤ ps.length) (hl' : ps.length ≤ 4) (d : Fin 2) (l : List ℝ) :
    ∃ mn mx, getminmax ps d l = .ok (mn, mx) ∧ mn ≠ nan ∧ mx ≠ nan := by
  unfold getminmax
  suffices h : ∀ (l : List ℝ) (a b : Num ℝ), a ≠ nan → b ≠ nan → ∃ mn mx, l.foldlM (fun acc t => do
      let c ← Special.get ps t
      let min := if lt (coordinate d c) acc.1 then coordinate d c else acc.1
      let max := if lt acc.2 (coordinate d c) then coordinate d c else acc.2
      return (min, max)) (a, b) = (.ok (mn, mx) : Py _) ∧ mn ≠ nan ∧ mx ≠ nan from h _ _ _ (by simp) (by simp)
  intro l
  induction l with
  | nil => intro a b ha hb; exact ⟨a, b, rfl, ha, hb⟩
  | cons t l ih =>
    intro a b ha hb
    obtain ⟨q, hq⟩ := get_ok ps hl hl' t
    rw [List.foldlM_cons, hq]
    simp only [ok_bind, pure_eq_ok]
    exact ih _ _ (min_ne_nan (coordinate d q) ha) (max_ne_nan (coordinate d q) hb)

theorem boundsRectangle_ok' (ps : Segment (Num ℝ)) (hl : 2 ≤ ps.length) (hl' : ps.length ≤ 4) :
    ∃ r l, boundsRectangle ps = .ok r ∧ r = rectangle l ∧ le r.left r.right = true ∧ le r.bottom r.top = true := by
  unfold boundsRectangle bbox
  obtain ⟨l1, e1⟩ := extremaDim_ok ps 0
  obtain ⟨l2, e2⟩ := extremaDim_ok ps 1
  obtain ⟨a, b, e3, ha, hb⟩ := getminmax_ok ps hl hl' 0 l1
  obtain ⟨c, d, e4, hc, hd⟩ := getminmax_ok ps hl hl' 1 l2
  simp only [e1, e2, e3, e4, ok_bind, pure_eq_ok]
  refine ⟨_, _, rfl, rfl, ?_, ?_⟩
  · have := ((C115_rectangle [(a, c), (b, d)]).2.1 (a, c) (by simp)).1 ha
    exact le_trans' this.1 this.2
  · have := ((C115_rectangle [(a, c), (b, d)]).2.1 (a, c) (by simp)).2 hc
    exact le_trans' this.1 this.2

/-! ## One coordinate of the derivatives -/

/-- One coordinate of `dcStep`. -/
noncomputable def dc (xs : List (Num ℝ)) : List (Num ℝ) :=
  List.zipWith (fun a b => mul (fin ((xs.length - 1 : Nat) : ℝ)) (sub b a)) xs xs.tail

theorem dcStep_coordinate (d : Fin 2) (ps : Segment (Num ℝ)) : (dcStep ps).map (coordinate d) = dc (ps.map (coordinate d)) := by
  unfold dcStep dc
  rw [List.map_zipWith, ← List.map_tail, List.zipWith_map, List.length_map]
  congr 1
  funext a b
  fin_cases d <;> rfl

theorem droots_nan2 (a b : Num ℝ) (h : a = nan ∨ b = nan) : ∃ l, droots [a, b] = .ok l ∧ keep l = [] := by
  refine ⟨[nan], ?_, rfl⟩
  unfold droots
  have h1 : eq a b = false := by
    rcases h with rfl | rfl
    · rfl
    · cases a <;> rfl
  have h2 : sub a b = nan := by rcases h with rfl | rfl <;> simp [sub_nan_left, sub_nan_right]
  have h3 : div a nan = .ok nan := by cases a <;> rfl
  simp [h1, h2, h3, ok_bind, pure_eq_ok]

theorem droots_nan3 (a b c : Num ℝ) (h : a = nan ∨ b = nan ∨ c = nan) : ∃ l, droots [a, b, c] = .ok l ∧ keep l = [] := by
  refine ⟨[nan, nan], ?_, rfl⟩
  unfold droots
  have h2 : add (sub a (mul (fin 2) b)) c = nan := by
    rcases h with rfl | rfl | rfl <;> simp [sub_nan_left, sub_nan_right, add_nan_left, add_nan_right, mul_nan_right]
  have h3 : ∀ x : Num ℝ, div x nan = .ok nan := by intro x; cases x <;> rfl
  simp [h2, h3, ok_bind, pure_eq_ok, eq]

theorem extremaDim_nan (ps : Segment (Num ℝ)) (hl : 2 ≤ ps.length) (hl' : ps.length ≤ 4) (d : Fin 2) (h : ∃ p ∈ ps, coordinate d p = nan) :
    extremaDim ps d = .ok [] := by
  have mn : ∀ x : ℝ, mul (fin x) nan = nan := fun x => rfl
  unfold extremaDim
  rw [dcStep_coordinate, dcStep_coordinate, dcStep_coordinate]
  match ps, hl, hl' with
  | [a, b], _, _ => rfl
  | [a, b, c], _, _ =>
    simp only [List.mem_cons, List.not_mem_nil, or_false, exists_eq_or_imp, exists_eq_left] at h
    obtain ⟨l, e, hk⟩ := droots_nan2 (mul (fin (((3 : Nat) - 1 : Nat) : ℝ)) (sub (coordinate d b) (coordinate d a)))
      (mul (fin (((3 : Nat) - 1 : Nat) : ℝ)) (sub (coordinate d c) (coordinate d b)))
      (by rcases h with h | h | h <;> rw [h] <;> simp [sub_nan_left, sub_nan_right, mn])
    have : dc (List.map (coordinate d) [a, b, c]) = [mul (fin (((3 : Nat) - 1 : Nat) : ℝ)) (sub (coordinate d b) (coordinate d a)),
      mul (fin (((3 : Nat) - 1 : Nat) : ℝ)) (sub (coordinate d c) (coordinate d b))] := rfl
    rw [this, e, ok_bind, if_neg (by simp)]
    simp only [pure_eq_ok, ok_bind, hk]
  | [a, b, c, f], _, _ =>
    simp only [List.mem_cons, List.not_mem_nil, or_false, exists_eq_or_imp, exists_eq_left] at h
    have e0 : dc (List.map (coordinate d) [a, b, c, f]) = [mul (fin (((4 : Nat) - 1 : Nat) : ℝ)) (sub (coordinate d b) (coordinate d a)),
      mul (fin (((4 : Nat) - 1 : Nat) : ℝ)) (sub (coordinate d c) (coordinate d b)), mul (fin (((4 : Nat) - 1 : Nat) : ℝ)) (sub (coordinate d f) (coordinate d c))] := rfl
    rw [e0]
    obtain ⟨l, e, hk⟩ := droots_nan3 (mul (fin (((4 : Nat) - 1 : Nat) : ℝ)) (sub (coordinate d b) (coordinate d a)))
      (mul (fin (((4 : Nat) - 1 : Nat) : ℝ)) (sub (coordinate d c) (coordinate d b))) (mul (fin (((4 : Nat) - 1 : Nat) : ℝ)) (sub (coordinate d f) (coordinate d c)))
      (by rcases h with h | h | h | h <;> rw [h] <;> simp [sub_nan_left, sub_nan_right, mn])
    obtain ⟨l', e', hk'⟩ := droots_nan2
      (mul (fin (((3 : Nat) - 1 : Nat) : ℝ)) (sub (mul (fin (((4 : Nat) - 1 : Nat) : ℝ)) (sub (coordinate d c) (coordinate d b))) (mul (fin (((4 : Nat) - 1 : Nat) : ℝ)) (sub (coordinate d b) (coordinate d a)))))
      (mul (fin (((3 : Nat) - 1 : Nat) : ℝ)) (sub (mul (fin (((4 : Nat) - 1 : Nat) : ℝ)) (sub (coordinate d f) (coordinate d c))) (mul (fin (((4 : Nat) - 1 : Nat) : ℝ)) (sub (coordinate d c) (coordinate d b)))))
      (by rcases h with h | h | h | h <;> rw [h] <;> simp [sub_nan_left, sub_nan_right, mn])
    have e1 : ∀ x y z : Num ℝ, dc [x, y, z] = [mul (fin (((3 : Nat) - 1 : Nat) : ℝ)) (sub y x), mul (fin (((3 : Nat) - 1 : Nat) : ℝ)) (sub z y)] := fun _ _ _ => rfl
    rw [e, ok_bind, if_pos (by simp), e1, e']
    simp only [pure_eq_ok, ok_bind]
    have : keep (l ++ l') = keep l ++ keep l' := by unfold keep; exact List.filterMap_append ..
    rw [this, hk, hk']; rfl

end Special

/-- C115: the bounds of a line, quadratic or cubic never raise an exception, whatever the coordinates are; no side is NaN, and left is at most right. -/
theorem C115_bounds (ps : Segment (Num ℝ)) (hl : 2 ≤ ps.length) (hl' : ps.length ≤ 4) :
    ∃ r, Special.boundsRectangle ps = .ok r ∧ (r.left ≠ nan ∧ r.right ≠ nan ∧ r.bottom ≠ nan ∧ r.top ≠ nan) ∧
      le r.left r.right = true ∧ le r.bottom r.top = true := by
  obtain ⟨r, l, e, rfl, h1, h2⟩ := boundsRectangle_ok' ps hl hl'
  exact ⟨_, e, (C115_rectangle l).1, h1, h2⟩

/-- The bounds in one coordinate, when this coordinate of some control point is NaN: of the two ends, and as large as possible if both ends are NaN. -/
def Spec.NaNSides (first last lo hi : Num ℝ) : Prop :=
  (first = nan → last = nan → lo = fin (-9007199254740991) ∧ hi = fin 9007199254740991) ∧
  (¬ (first = nan ∧ last = nan) → (∀ x, first = x ∨ last = x → x ≠ nan → le (fin (-32768)) x = true ∧ le x (fin 32768) = true) →
    (lo = first ∨ lo = last) ∧ (hi = first ∨ hi = last) ∧ ∀ x, first = x ∨ last = x → x ≠ nan → le lo x = true ∧ le x hi = true)

/-- C115: if one coordinate of some control point is NaN, then in this coordinate the bounds are those of the ends of the curve alone (for ends in the
design space), and if both ends are NaN there, they reach from -9007199254740991 to 9007199254740991. -/
theorem C115_bounds_nan (ps : Segment (Num ℝ)) (hl : 2 ≤ ps.length) (hl' : ps.length ≤ 4) (first last : Pt (Num ℝ)) (hf : ps.head? = some first)
    (he : ps.getLast? = some last) (r : BoundsRectangle (Num ℝ)) (hr : Special.boundsRectangle ps = .ok r) :
    ((∃ p ∈ ps, p.1 = nan) → Spec.NaNSides first.1 last.1 r.left r.right) ∧ ((∃ p ∈ ps, p.2 = nan) → Spec.NaNSides first.2 last.2 r.bottom r.top) := by
  have g0 : Special.get ps 0 = .ok first := by
    unfold Special.get
    rw [if_pos rfl]
    cases ps with
    | nil => simp at hl
    | cons a l => cases hf; exact pyGet_zero_cons ..
  have g1 : Special.get ps 1 = .ok last := by
    unfold Special.get
    rw [if_neg one_ne_zero, if_pos rfl]
    match ps, hl, hl' with
    | [a, b], _, _ => cases he; rfl
    | [a, b, c], _, _ => cases he; rfl
    | [a, b, c, d], _, _ => cases he; rfl
  have hm : ∀ d : Fin 2, getminmax ps d [] = .ok (Num.min (Num.min (fin Bezier.maxSafe) (coordinate d first)) (coordinate d last),
      Num.max (Num.max (fin Bezier.minSafe) (coordinate d first)) (coordinate d last)) := by
    intro d
    unfold getminmax
    have : Bezier.addEnds ([] : List ℝ) = [0, 1] := by simp [Bezier.addEnds]
    rw [this]
    simp only [List.foldlM_cons, List.foldlM_nil, g0, g1, ok_bind, pure_eq_ok]
    rfl
  have key : ∀ a b : Num ℝ, Spec.NaNSides a b
      (Num.min (Num.min (fin 32768) (Num.min (Num.min (fin Bezier.maxSafe) a) b)) (Num.max (Num.max (fin Bezier.minSafe) a) b))
      (Num.max (Num.max (fin (-32768)) (Num.min (Num.min (fin Bezier.maxSafe) a) b)) (Num.max (Num.max (fin Bezier.minSafe) a) b)) := by
    intro a b
    constructor
    · rintro rfl rfl
      rw [min_nan, min_nan, max_nan, max_nan]
      constructor
      · norm_num [Num.min, lt, Bezier.maxSafe, Bezier.minSafe]
      · norm_num [Num.max, lt, Bezier.maxSafe, Bezier.minSafe]
    · intro hn hd
      have hfin : ∀ x, a = x ∨ b = x → x ≠ nan → ∃ y, x = fin y ∧ -32768 ≤ y ∧ y ≤ 32768 := by
        intro x hx hxn
        obtain ⟨h1, h2⟩ := hd x hx hxn
        rcases x with y | (_ | _) | _
        · refine ⟨y, rfl, ?_, ?_⟩
          · simp [le, lt, eq] at h1; exact le_iff_lt_or_eq.mpr h1
          · simp [le, lt, eq] at h2; exact le_iff_lt_or_eq.mpr h2
        · simp [le, lt, eq] at h1
        · simp [le, lt, eq] at h2
        · exact absurd rfl hxn
      have single : ∀ y : ℝ, -32768 ≤ y → y ≤ 32768 →
          Num.min (fin Bezier.maxSafe) (fin y) = fin y ∧ Num.max (fin Bezier.minSafe) (fin y) = fin y := by
        intro y h1 h2
        constructor
        · unfold Num.min; exact if_pos (show lt (fin y) (fin Bezier.maxSafe) = true from decide_eq_true (show y < 9007199254740991 by linarith))
        · unfold Num.max; exact if_pos (show lt (fin Bezier.minSafe) (fin y) = true from decide_eq_true (show -9007199254740991 < y by linarith))
      have base : ∀ y z : ℝ, -32768 ≤ y → y ≤ 32768 → y ≤ z → z ≤ 32768 →
          Num.min (Num.min (fin 32768) (fin y)) (fin z) = fin y ∧ Num.max (Num.max (fin (-32768)) (fin y)) (fin z) = fin z := by
        intro y z h1 h2 h3 h4
        have e1 : Num.min (fin 32768) (fin y) = fin y := by
          unfold Num.min; split
          · rfl
          · rename_i h; simp [lt] at h; rw [le_antisymm h2 h]
        have e2 : Num.max (fin (-32768)) (fin y) = fin y := by
          unfold Num.max; split
          · rfl
          · rename_i h; simp [lt] at h; rw [le_antisymm h h1]
        rw [e1, e2]
        constructor
        · unfold Num.min; rw [if_neg]; simp [lt]; exact h3
        · unfold Num.max; split
          · rfl
          · rename_i h; simp [lt] at h; rw [le_antisymm h h3]
      by_cases ha : a = nan
      · subst ha
        have hb : b ≠ nan := fun h => hn ⟨rfl, h⟩
        obtain ⟨y, rfl, y1, y2⟩ := hfin b (.inr rfl) hb
        rw [min_nan, max_nan, (single y y1 y2).1, (single y y1 y2).2, (base y y y1 y2 le_rfl y2).1, (base y y y1 y2 le_rfl y2).2]
        refine ⟨.inr rfl, .inr rfl, ?_⟩
        rintro x (rfl | rfl) hx
        · exact absurd rfl hx
        · exact ⟨le_refl' hx, le_refl' hx⟩
      · obtain ⟨x, rfl, x1, x2⟩ := hfin a (.inl rfl) ha
        rw [(single x x1 x2).1, (single x x1 x2).2]
        by_cases hb : b = nan
        · subst hb
          rw [min_nan, max_nan, (base x x x1 x2 le_rfl x2).1, (base x x x1 x2 le_rfl x2).2]
          refine ⟨.inl rfl, .inl rfl, ?_⟩
          rintro y (rfl | rfl) hx
          · exact ⟨le_refl' hx, le_refl' hx⟩
          · exact absurd rfl hx
        · obtain ⟨y, rfl, y1, y2⟩ := hfin b (.inr rfl) hb
          have e1 : Num.min (fin x) (fin y) = fin (min x y) := by
            unfold Num.min; split
            · rename_i h; simp [lt] at h; rw [min_eq_right h.le]
            · rename_i h; simp [lt] at h; rw [min_eq_left h]
          have e2 : Num.max (fin x) (fin y) = fin (max x y) := by
            unfold Num.max; split
            · rename_i h; simp [lt] at h; rw [max_eq_right h.le]
            · rename_i h; simp [lt] at h; rw [max_eq_left h]
          have hb' := base (min x y) (max x y) (le_min x1 y1) (min_le_of_left_le x2) (min_le_max) (max_le x2 y2)
          rw [e1, e2, hb'.1, hb'.2]
          refine ⟨?_, ?_, ?_⟩
          · rcases min_choice x y with h | h <;> rw [h] <;> simp
          · rcases max_choice x y with h | h <;> rw [h] <;> simp
          · rintro z (rfl | rfl) -
            · simp only [le, lt, eq, Bool.or_eq_true, decide_eq_true_eq]
              exact ⟨le_iff_lt_or_eq.mp (min_le_left _ _), le_iff_lt_or_eq.mp (le_max_left _ _)⟩
            · simp only [le, lt, eq, Bool.or_eq_true, decide_eq_true_eq]
              exact ⟨le_iff_lt_or_eq.mp (min_le_right _ _), le_iff_lt_or_eq.mp (le_max_right _ _)⟩
  unfold Special.boundsRectangle Special.bbox at hr
  obtain ⟨l1, e1⟩ := extremaDim_ok ps 0
  obtain ⟨l2, e2⟩ := extremaDim_ok ps 1
  obtain ⟨a, b, e3, -, -⟩ := getminmax_ok ps hl hl' 0 l1
  obtain ⟨c, d, e4, -, -⟩ := getminmax_ok ps hl hl' 1 l2
  simp only [e1, e2, e3, e4, ok_bind, pure_eq_ok] at hr
  cases hr
  constructor
  · intro h
    have := extremaDim_nan ps hl hl' 0 h
    rw [this] at e1; cases e1
    rw [hm] at e3; cases e3
    exact key _ _
  · intro h
    have := extremaDim_nan ps hl hl' 1 h
    rw [this] at e2; cases e2
    rw [hm] at e4; cases e4
    exact key _ _

end PathLib
