import Verif.Props.SpecialFiniteRun

/-!
# Which curves with NaN and infinite coordinates count as straight: C115
-/

namespace PathLib
open Special Special.Num Transform

namespace Special

/-- Where `_align` sends a point. -/
noncomputable def aligned (a : Pt ℝ) (angle : ℝ) : Pt (Num ℝ) → Pt (Num ℝ)
  | (fin x, fin y) => pt (Bezier.alignMap a angle (x, y))
  | _ => (nan, nan)

theorem alignPoints_mixed (ps : Segment (Num ℝ)) (a : Pt ℝ) (last : Pt (Num ℝ)) (α : ℝ)
    (h : Num.lift PathUtilities.degrees (atan2 (sub last.2 (fin a.2)) (sub last.1 (fin a.1))) = fin α) :
    alignPoints ps (pt a) last = .ok (ps.map (aligned a α)) := by
  unfold alignPoints
  have h' : Num.lift PathUtilities.degrees (atan2 (sub last.2 (pt a).2) (sub last.1 (pt a).1)) = fin α := h
  simp only [h']
  simp only [neg, Num.lift]
  generalize hs : Transform.sin (-α) = s
  generalize hc : Transform.cos (-α) = c
  have hm : moveAndRotateOf (pt a) (fin 0, fin 0) (fin s) (fin c) =
      .ok [[fin c, fin s, fin 0], [fin (-s), fin c, fin 0], [fin (-a.1 * c + a.2 * s), fin (-a.1 * s - a.2 * c), fin 1]] := by
    simp only [moveAndRotateOf, multiplyRowByMatrix, List.mapM_cons, List.mapM_nil, ok_bind, pure_eq_ok, pt, sub, neg, mul, add]
    simp
    ring
  rw [hm, ok_bind]
  apply mapM_ok
  intro p _
  obtain ⟨x, y⟩ := p
  rcases x with x | sx | _
  · rcases y with y | sy | _
    · show applyToPoint _ (fin x, fin y) = .ok (pt (Bezier.alignMap a α (x, y)))
      simp only [applyToPoint, multiplyRowByMatrix, ok_bind, pyGet_zero_cons, pyGet_one_cons, pyGet_two_cons, mul, add, div, Bezier.alignMap, pt, hs, hc]
      simp [ok_bind, pure_eq_ok]
      constructor <;> ring
    · exact C115_transform _ _ _ _ _ _ _ (.inr (by simp))
    · exact C115_transform _ _ _ _ _ _ _ (.inr (by simp))
  · exact C115_transform _ _ _ _ _ _ _ (.inl (by simp))
  · exact C115_transform _ _ _ _ _ _ _ (.inl (by simp))

theorem linear_mixed (ps : Segment (Num ℝ)) (hl : 2 ≤ ps.length) (hl' : ps.length ≤ 4) (a : Pt ℝ) (last : Pt (Num ℝ)) (α : ℝ)
    (hf : ps.head? = some (pt a)) (he : ps.getLast? = some last)
    (h : Num.lift PathUtilities.degrees (atan2 (sub last.2 (fin a.2)) (sub last.1 (fin a.1))) = fin α) :
    ∃ c, Special.new ps = .ok c ∧ (c.linear = true ↔ ∀ x y, (fin x, fin y) ∈ ps → |(Bezier.alignMap a α (x, y)).2| ≤ 1 / 10000) := by
  unfold Special.new
  obtain ⟨d, e⟩ := computeDirection_ok ps hl hl'
  rw [e, ok_bind]
  match ps, hl with
  | first :: second :: rest, _ =>
    have hlast : pyGet (first :: second :: rest) (-1) = .ok last := by
      rw [List.getLast?_eq_getElem?] at he
      simp only [List.length_cons, Nat.add_sub_cancel] at he
      have : ¬ ((rest.length : ℤ) + 1 < 0) := by omega
      simp at he
      simp [pyGet, this, he]
    simp only [List.head?_cons, Option.some.injEq] at hf
    subst hf
    simp only [pyGet_zero_cons, pyGet_one_cons, ok_bind, hlast, alignPoints_mixed _ a last α h, pure_eq_ok]
    refine ⟨_, rfl, ?_⟩
    simp only [beq_iff_eq, List.length_eq_zero_iff, List.filter_eq_nil_iff]
    constructor
    · intro hx x y hp
      have := hx _ (List.mem_map_of_mem hp)
      simpa [aligned, pt, Num.abs, lt] using this
    · intro hx q hq
      obtain ⟨⟨x, y⟩, hp, rfl⟩ := List.mem_map.mp hq
      rcases x with x | sx | _ <;> rcases y with y | sy | _ <;> simp [aligned, pt, Num.abs, lt]
      exact by simpa using hx x y hp

theorem radians_degrees (x : ℝ) : Transform.radians (-PathUtilities.degrees x) = -x := by
  unfold Transform.radians PathUtilities.degrees
  field_simp

theorem alignMap_degrees (a : Pt ℝ) (θ x y : ℝ) : (Bezier.alignMap a (PathUtilities.degrees θ) (x, y)).2 =
    Transform.round15 (-Real.sin θ) * (x - a.1) + Transform.round15 (Real.cos θ) * (y - a.2) := by
  simp only [Bezier.alignMap, Transform.sin, Transform.cos, radians_degrees, Real.sin_neg, Real.cos_neg]

end Special

/-- The points of a list whose coordinates are finite. -/
def Spec.finitePoints (ps : Segment (Num ℝ)) : Segment ℝ := ps.filterMap fun p =>
  match p with
  | (fin x, fin y) => some (x, y)
  | _ => none

namespace Special

theorem mem_finitePoints (ps : Segment (Num ℝ)) (x y : ℝ) : (fin x, fin y) ∈ (Spec.finitePoints ps).map pt ↔ (fin x, fin y) ∈ ps := by
  unfold Spec.finitePoints
  simp only [List.mem_map, List.mem_filterMap]
  constructor
  · rintro ⟨q, ⟨⟨u, v⟩, hp, hq⟩, e⟩
    rcases u with u | su | _ <;> rcases v with v | sv | _ <;> simp at hq
    subst hq
    rw [← e]; exact hp
  · intro h
    exact ⟨(x, y), ⟨_, h, rfl⟩, rfl⟩

theorem finitePoints_ends (ps : Segment (Num ℝ)) (hl : 2 ≤ ps.length) (hl' : ps.length ≤ 4) (a b : Pt ℝ) (hf : ps.head? = some (pt a))
    (he : ps.getLast? = some (pt b)) : 2 ≤ (Spec.finitePoints ps).length ∧ (Spec.finitePoints ps).length ≤ 4 ∧
      ((Spec.finitePoints ps).map pt).head? = some (pt a) ∧ ((Spec.finitePoints ps).map pt).getLast? = some (pt b) := by
  obtain ⟨l, rfl⟩ : ∃ l, ps = pt a :: (l ++ [pt b]) := by
    match ps, hl with
    | p :: q :: rest, _ =>
      simp only [List.head?_cons, Option.some.injEq] at hf
      rw [List.getLast?_cons_cons] at he
      obtain ⟨l, e⟩ := List.getLast?_eq_some_iff.mp he
      exact ⟨l, by rw [hf, e]⟩
  have e : Spec.finitePoints (pt a :: (l ++ [pt b])) = a :: (Spec.finitePoints l ++ [b]) := by
    simp [Spec.finitePoints, pt, List.filterMap_append]
  have hle : (Spec.finitePoints l).length ≤ l.length := List.length_filterMap_le _ _
  simp only [List.length_cons, List.length_append, List.length_nil] at hl'
  rw [e]
  refine ⟨by simp, by simp; omega, by simp, by simp [List.getLast?_cons]⟩

end Special

/-- C115: control points with a NaN or infinite coordinate do not matter for the question whether a curve with finite ends is straight: it counts as straight exactly
if the curve through its finite control points does. -/
theorem C115_straight (ps : Segment (Num ℝ)) (hl : 2 ≤ ps.length) (hl' : ps.length ≤ 4) (a b : Pt ℝ) (hf : ps.head? = some (fin a.1, fin a.2))
    (he : ps.getLast? = some (fin b.1, fin b.2)) :
    ∃ c d, Special.new ps = .ok c ∧ Bezier.new (Spec.finitePoints ps) = .ok d ∧ c.linear = d.linear := by
  have hα : Num.lift PathUtilities.degrees (atan2 (sub (fin b.2) (fin a.2)) (sub (fin b.1) (fin a.1))) =
      fin (PathUtilities.degrees (butils.atan2 (b.2 - a.2) (b.1 - a.1))) := by
    simp only [sub_fin, atan2, Num.lift]
  obtain ⟨g1, g2, g3, g4⟩ := finitePoints_ends ps hl hl' a b hf he
  obtain ⟨c, hc, ic⟩ := linear_mixed ps hl hl' a _ _ hf he hα
  obtain ⟨c', hc', ic'⟩ := linear_mixed ((Spec.finitePoints ps).map pt) (by simpa using g1) (by simpa using g2) a _ _ g3 g4 hα
  rw [new_fin _ g1 g2] at hc'
  cases hd : Bezier.new (Spec.finitePoints ps) with
  | error e => rw [hd] at hc'; cases hc'
  | ok d =>
    rw [hd] at hc'
    cases hc'
    refine ⟨c, d, hc, rfl, ?_⟩
    rw [Bool.eq_iff_iff, ic]
    simp only [mem_finitePoints] at ic'
    exact ic'.symm

/-- C115: a curve with a finite start whose end is infinitely far to the left or right counts as straight exactly if its finite control points are at most 1/10000 above or
below the start; if the end is infinitely far above or below, at most 1/10000 to the left or right of it. -/
theorem C115_straight_infinite (ps : Segment (Num ℝ)) (hl : 2 ≤ ps.length) (hl' : ps.length ≤ 4) (a : Pt ℝ) (s : Bool) (z : ℝ)
    (hf : ps.head? = some (fin a.1, fin a.2)) :
    (ps.getLast? = some (inf s, fin z) →
      ∃ c, Special.new ps = .ok c ∧ (c.linear = true ↔ ∀ x y, (fin x, fin y) ∈ ps → |y - a.2| ≤ 1 / 10000)) ∧
    (ps.getLast? = some (fin z, inf s) →
      ∃ c, Special.new ps = .ok c ∧ (c.linear = true ↔ ∀ x y, (fin x, fin y) ∈ ps → |x - a.1| ≤ 1 / 10000)) := by
  constructor
  · intro he
    have hα : ∃ θ, Num.lift PathUtilities.degrees (atan2 (sub (fin z) (fin a.2)) (sub (inf s) (fin a.1))) = fin (PathUtilities.degrees θ) ∧
        Real.sin θ = 0 ∧ (Real.cos θ = 1 ∨ Real.cos θ = -1) := by
      cases s
      · by_cases h : 0 ≤ z - a.2
        · exact ⟨Real.pi, by simp [sub, neg, add, atan2, Num.lift, ← sub_eq_add_neg, h], by simp, by simp⟩
        · exact ⟨-Real.pi, by simp [sub, neg, add, atan2, Num.lift, ← sub_eq_add_neg, h], by simp, by simp⟩
      · exact ⟨0, by simp [sub, neg, add, atan2, Num.lift], by simp, by simp⟩
    obtain ⟨θ, hα, h1, h2⟩ := hα
    obtain ⟨c, hc, ic⟩ := linear_mixed ps hl hl' a _ _ hf he hα
    refine ⟨c, hc, ic.trans ?_⟩
    simp only [alignMap_degrees, h1, neg_zero, round15_zero, zero_mul, zero_add]
    rcases h2 with h2 | h2 <;> simp only [h2, round15_one, round15_neg_one, one_mul, neg_mul, abs_neg]
  · intro he
    have hα : ∃ θ, Num.lift PathUtilities.degrees (atan2 (sub (inf s) (fin a.2)) (sub (fin z) (fin a.1))) = fin (PathUtilities.degrees θ) ∧
        Real.cos θ = 0 ∧ (Real.sin θ = 1 ∨ Real.sin θ = -1) := by
      cases s
      · exact ⟨-(Real.pi / 2), by simp [sub, neg, add, atan2, Num.lift], by simp, by simp⟩
      · exact ⟨Real.pi / 2, by simp [sub, neg, add, atan2, Num.lift], by simp, by simp⟩
    obtain ⟨θ, hα, h1, h2⟩ := hα
    obtain ⟨c, hc, ic⟩ := linear_mixed ps hl hl' a _ _ hf he hα
    refine ⟨c, hc, ic.trans ?_⟩
    simp only [alignMap_degrees, h1, round15_zero, zero_mul, add_zero]
    rcases h2 with h2 | h2 <;> simp only [h2, neg_neg, round15_one, round15_neg_one, one_mul, neg_mul, abs_neg]

private theorem roundHalfEven_neg (x : ℝ) : Transform.roundHalfEven (-x) = -Transform.roundHalfEven x := by
  unfold Transform.roundHalfEven
  have h0 := Int.floor_le x
  have h1 := Int.lt_floor_add_one x
  rcases h0.eq_or_lt with h | h
  · have e1 : ⌊-x⌋ = -⌊x⌋ := by rw [Int.floor_eq_iff]; push_cast; constructor <;> linarith
    simp only [e1]
    push_cast
    rw [if_pos (by linarith), if_pos (by linarith)]
  · have e1 : ⌊-x⌋ = -⌊x⌋ - 1 := by rw [Int.floor_eq_iff]; push_cast; constructor <;> linarith
    simp only [e1]
    push_cast
    rcases lt_trichotomy (x - ⌊x⌋) (1 / 2) with h2 | h2 | h2
    · have a1 : ¬ -x - (-(⌊x⌋ : ℝ) - 1) < 1 / 2 := by linarith
      have a2 : 1 / 2 < -x - (-(⌊x⌋ : ℝ) - 1) := by linarith
      simp only [if_pos h2, if_neg a1, if_pos a2]; ring
    · have a1 : ¬ -x - (-(⌊x⌋ : ℝ) - 1) < 1 / 2 := by linarith
      have a2 : ¬ 1 / 2 < -x - (-(⌊x⌋ : ℝ) - 1) := by linarith
      have a3 : ¬ x - ⌊x⌋ < 1 / 2 := by linarith
      have a4 : ¬ 1 / 2 < x - ⌊x⌋ := by linarith
      simp only [if_neg a1, if_neg a2, if_neg a3, if_neg a4]
      split_ifs <;> omega
    · have a1 : -x - (-(⌊x⌋ : ℝ) - 1) < 1 / 2 := by linarith
      have a3 : ¬ x - ⌊x⌋ < 1 / 2 := by linarith
      simp only [if_pos a1, if_neg a3, if_pos h2]; ring

/-- C115: if the end is infinitely far in both directions, the finite control points must be near the diagonal through the start. The number `k` is the sine of 45 degrees, rounded. -/
theorem C115_straight_diagonal (ps : Segment (Num ℝ)) (hl : 2 ≤ ps.length) (hl' : ps.length ≤ 4) (a : Pt ℝ) (s s' : Bool)
    (hf : ps.head? = some (fin a.1, fin a.2)) (he : ps.getLast? = some (inf s, inf s')) :
    ∃ c k, Special.new ps = .ok c ∧ |k - Real.sqrt 2 / 2| ≤ 5e-16 ∧
      (c.linear = true ↔ ∀ x y, (fin x, fin y) ∈ ps → k * |(y - a.2) - (if s = s' then 1 else -1) * (x - a.1)| ≤ 1 / 10000) := by
  have hk := abs_round15_sub_le (Real.sqrt 2 / 2)
  have hneg : round15 (-(Real.sqrt 2 / 2)) = -round15 (Real.sqrt 2 / 2) := by
    unfold round15
    rw [neg_mul, roundHalfEven_neg]
    push_cast
    ring
  have hpos : 0 ≤ round15 (Real.sqrt 2 / 2) := by
    have h1 : (1:ℝ) ≤ Real.sqrt 2 := by rw [Real.one_le_sqrt]; norm_num
    have := (abs_le.mp hk).1
    norm_num at this ⊢
    linarith
  have s3 : Real.sin (3 * Real.pi / 4) = Real.sqrt 2 / 2 := by
    rw [show 3 * Real.pi / 4 = Real.pi - Real.pi / 4 by ring, Real.sin_pi_sub, Real.sin_pi_div_four]
  have c3 : Real.cos (3 * Real.pi / 4) = -(Real.sqrt 2 / 2) := by
    rw [show 3 * Real.pi / 4 = Real.pi - Real.pi / 4 by ring, Real.cos_pi_sub, Real.cos_pi_div_four]
  have hα : ∃ θ, Num.lift PathUtilities.degrees (atan2 (sub (inf s') (fin a.2)) (sub (inf s) (fin a.1))) = fin (PathUtilities.degrees θ) ∧
      Real.cos θ = (if s then Real.sqrt 2 / 2 else -(Real.sqrt 2 / 2)) ∧ Real.sin θ = (if s' then Real.sqrt 2 / 2 else -(Real.sqrt 2 / 2)) := by
    cases s <;> cases s'
    · exact ⟨-(3 * Real.pi / 4), by simp [sub, neg, add, atan2, Num.lift], by simp [Real.cos_neg, c3], by simp [Real.sin_neg, s3]⟩
    · exact ⟨3 * Real.pi / 4, by simp [sub, neg, add, atan2, Num.lift], by simp [c3], by simp [s3]⟩
    · exact ⟨-(Real.pi / 4), by simp [sub, neg, add, atan2, Num.lift], by simp, by simp⟩
    · exact ⟨Real.pi / 4, by simp [sub, neg, add, atan2, Num.lift], by simp, by simp⟩
  obtain ⟨θ, hα, h1, h2⟩ := hα
  obtain ⟨c, hc, ic⟩ := linear_mixed ps hl hl' a _ _ hf he hα
  refine ⟨c, _, hc, hk, ic.trans ?_⟩
  have key : ∀ x y, |round15 (-Real.sin θ) * (x - a.1) + round15 (Real.cos θ) * (y - a.2)| =
      round15 (Real.sqrt 2 / 2) * |(y - a.2) - (if s = s' then 1 else -1) * (x - a.1)| := by
    intro x y
    rw [h1, h2]
    generalize hr : round15 (Real.sqrt 2 / 2) = k at hneg hpos ⊢
    have e : ∀ z : ℝ, k * |z| = |k * z| := fun z => by rw [abs_mul, abs_of_nonneg hpos]
    rw [e]
    cases s <;> cases s' <;> simp only [Bool.false_eq_true, if_false, if_true, neg_neg, hneg, hr, reduceCtorEq]
    · rw [← abs_neg]; congr 1; ring
    · rw [← abs_neg]; congr 1; ring
    · congr 1; ring
    · congr 1; ring
  simp only [alignMap_degrees, key]

/-- A parabola with its middle point at infinity counts as straight. -/
example : ∃ c, Special.new [(fin 0, fin 0), (fin 1, inf true), (fin 2, fin 0)] = .ok c ∧ c.linear = true := by
  obtain ⟨c, d, hc, hd, e⟩ := C115_straight [(fin 0, fin 0), (fin 1, inf true), (fin 2, fin 0)] (by simp) (by simp) (0, 0) (2, 0) rfl rfl
  refine ⟨c, hc, e.trans ?_⟩
  obtain ⟨θ, h1, -, -, h4⟩ := C49_flat (Spec.finitePoints [(fin 0, fin 0), (fin 1, inf true), (fin 2, fin 0)]) (by simp [Spec.finitePoints]) d hd
  have hp : Spec.finitePoints [(fin 0, fin 0), (fin 1, inf true), (fin 2, fin 0)] = [(0, 0), (2, 0)] := rfl
  simp only [hp] at h1 h4
  simp only [List.head_cons, List.getLast_cons_cons, List.getLast_singleton] at h1 h4
  obtain ⟨h1, -⟩ := h1 (by simp)
  apply h4
  intro p hp'
  simp only [List.mem_cons, List.not_mem_nil, or_false] at hp'
  rcases hp' with rfl | rfl
  · simp [Spec.signedDist]
  · rw [h1]; norm_num

/-- Towards (inf, -inf): the point (5, -5) is on the way, (5, 5) is not. -/
example : (∃ c, Special.new [(fin 0, fin 0), (fin 5, fin (-5)), (inf true, inf false)] = .ok c ∧ c.linear = true) ∧
    (∃ c, Special.new [(fin 0, fin 0), (fin 5, fin 5), (inf true, inf false)] = .ok c ∧ c.linear = false) := by
  constructor
  · obtain ⟨c, k, hc, -, h⟩ := C115_straight_diagonal [(fin 0, fin 0), (fin 5, fin (-5)), (inf true, inf false)] (by simp) (by simp) (0, 0) true false rfl rfl
    refine ⟨c, hc, h.mpr ?_⟩
    intro x y hp
    simp at hp
    rcases hp with ⟨rfl, rfl⟩ | ⟨rfl, rfl⟩ <;> norm_num
  · obtain ⟨c, k, hc, hk, h⟩ := C115_straight_diagonal [(fin 0, fin 0), (fin 5, fin 5), (inf true, inf false)] (by simp) (by simp) (0, 0) true false rfl rfl
    refine ⟨c, hc, ?_⟩
    rw [← Bool.not_eq_true, h]
    intro h
    have := h 5 5 (by simp)
    have h1 : (1:ℝ) ≤ Real.sqrt 2 := by rw [Real.one_le_sqrt]; norm_num
    have h2 := (abs_le.mp hk).1
    norm_num at this h2
    linarith

/-- A curve that goes up and then right forever does not count as straight, one that goes right at once does. -/
example : (∃ c, Special.new [(fin 0, fin 0), (fin 0, fin 1), (inf true, fin 1)] = .ok c ∧ c.linear = false) ∧
    (∃ c, Special.new [(fin 0, fin 0), (fin 5, fin 0), (inf true, fin 1)] = .ok c ∧ c.linear = true) := by
  constructor
  · obtain ⟨c, hc, h⟩ := (C115_straight_infinite [(fin 0, fin 0), (fin 0, fin 1), (inf true, fin 1)] (by simp) (by simp) (0, 0) true 1 rfl).1 rfl
    refine ⟨c, hc, ?_⟩
    rw [← Bool.not_eq_true, h]
    intro h
    have := h 0 1 (by simp)
    norm_num at this
  · obtain ⟨c, hc, h⟩ := (C115_straight_infinite [(fin 0, fin 0), (fin 5, fin 0), (inf true, fin 1)] (by simp) (by simp) (0, 0) true 1 rfl).1 rfl
    refine ⟨c, hc, h.mpr ?_⟩
    intro x y hp
    simp at hp
    rcases hp with ⟨-, rfl⟩ | ⟨-, rfl⟩ <;> norm_num

end PathLib
