import Verif.Model.RoundedGeometry
import Verif.Lemmas.Relative
import Verif.Lemmas.Rounding
import Verif.Lemmas.Float
import Verif.Lemmas.Grid

/-!
# Lines in floating point: C92

Font coordinates are integers of 16 bits. On these the functions on lines lose nothing to rounding.
-/

set_option linter.unusedSectionVars false
set_option linter.unusedSimpArgs false

namespace PathLib

open Spec PathUtilities

namespace Spec

/-- The nearest point with representable coordinates. -/
def roundPoint (R : Rounding) (p : Pt ℝ) : Pt ℝ := (R.rnd p.1, R.rnd p.2)

end Spec

/-- C92: without rounding the functions are those of the exact model. -/
theorem C92_exact (l1 l2 : Segment ℝ) (p : Pt ℝ) :
    Rounded.lli Rounding.exact l1 l2 = butils.lli l1 l2 ∧
    Rounded.intersectionPoint Rounding.exact l1 l2 = intersectionPoint l1 l2 ∧
    Rounded.getDeltas Rounding.exact l1 = getDeltas l1 ∧
    Rounded.slope Rounding.exact l1 = slope l1 ∧
    Rounded.pointOnLine Rounding.exact p l1 = pointOnLine p l1 := by
  refine ⟨rfl, ?_, rfl, rfl, rfl⟩
  unfold Rounded.intersectionPoint intersectionPoint
  rw [show Rounded.lli Rounding.exact l1 l2 = butils.lli l1 l2 from rfl]
  rcases butils.lli l1 l2 with e | _ | q <;> rfl

/-- C92: whatever the coordinates and the rounding, `isVerticalLine`, `isHorizontalLine` and `isDiagonalLine` answer as in exact
arithmetic. -/
theorem C92_kinds (R : Rounding) (hu : R.u < 1) (s : Segment ℝ) :
    Rounded.isVerticalLine R s = isVerticalLine s ∧ Rounded.isHorizontalLine R s = isHorizontalLine s ∧
    Rounded.isDiagonalLine R s = isDiagonalLine s := by
  have z : ∀ x : ℝ, R.rnd x = 0 ↔ x = 0 := fun x => Rounding.Rel.ne_zero hu (Rounding.Rel.rnd hu x)
  unfold Rounded.isVerticalLine Rounded.isHorizontalLine Rounded.isDiagonalLine isVerticalLine isHorizontalLine isDiagonalLine
    Rounded.getDeltas getDeltas Rounding.sub
  rcases endPoints s with e | ⟨a, b, c, d⟩
  · exact ⟨rfl, rfl, rfl⟩
  · simp only [bind, Except.bind, pure, Except.pure, z, ne_eq, and_self]

section grid

private theorem pyGet_mem {α : Type} {l : List α} {i : Int} {a : α} (h : pyGet l i = .ok a) : a ∈ l := by
  unfold pyGet at h
  simp only at h
  split_ifs at h
  · split at h
    · cases h; exact List.mem_of_getElem? (by assumption)
    · cases h
  · split at h
    · cases h; exact List.mem_of_getElem? (by assumption)
    · cases h

/-- `lli8` on integers: numerators and determinant are exact. -/
private theorem lli8_int (x1 y1 x2 y2 x3 y3 x4 y4 : ℤ) (a1 : |x1| ≤ 32768) (b1 : |y1| ≤ 32768) (a2 : |x2| ≤ 32768)
    (b2 : |y2| ≤ 32768) (a3 : |x3| ≤ 32768) (b3 : |y3| ≤ 32768) (a4 : |x4| ≤ 32768) (b4 : |y4| ≤ 32768) :
    ∃ nx ny d : ℤ, |d| ≤ 2 ^ 33 ∧
      butils.lli8 (x1:ℝ) y1 x2 y2 x3 y3 x4 y4 = (if (d:ℝ) = 0 then none else some ((nx:ℝ) / d, (ny:ℝ) / d)) ∧
      Rounded.lli8 float (x1:ℝ) y1 x2 y2 x3 y3 x4 y4 = (if (d:ℝ) = 0 then none else some (float.rnd ((nx:ℝ) / d), float.rnd ((ny:ℝ) / d))) := by
  obtain ⟨p1, q1⟩ := mul_int a1 b2 (by norm_num)
  obtain ⟨p2, q2⟩ := mul_int b1 a2 (by norm_num)
  obtain ⟨p3, q3⟩ := sub_int q1 q2 (by norm_num)
  obtain ⟨p4, q4⟩ := sub_int a3 a4 (by norm_num)
  obtain ⟨p5, q5⟩ := sub_int a1 a2 (by norm_num)
  obtain ⟨p6, q6⟩ := mul_int a3 b4 (by norm_num)
  obtain ⟨p7, q7⟩ := mul_int b3 a4 (by norm_num)
  obtain ⟨p8, q8⟩ := sub_int q6 q7 (by norm_num)
  obtain ⟨p9, q9⟩ := sub_int b3 b4 (by norm_num)
  obtain ⟨p10, q10⟩ := sub_int b1 b2 (by norm_num)
  obtain ⟨p11, q11⟩ := mul_int q3 q4 (by norm_num)
  obtain ⟨p12, q12⟩ := mul_int q5 q8 (by norm_num)
  obtain ⟨p13, -⟩ := sub_int q11 q12 (by norm_num)
  obtain ⟨p14, q14⟩ := mul_int q3 q9 (by norm_num)
  obtain ⟨p15, q15⟩ := mul_int q10 q8 (by norm_num)
  obtain ⟨p16, -⟩ := sub_int q14 q15 (by norm_num)
  obtain ⟨p17, q17⟩ := mul_int q5 q9 (by norm_num)
  obtain ⟨p18, q18⟩ := mul_int q10 q4 (by norm_num)
  obtain ⟨p19, q19⟩ := sub_int q17 q18 (by norm_num)
  refine ⟨(x1 * y2 - y1 * x2) * (x3 - x4) - (x1 - x2) * (x3 * y4 - y3 * x4),
    (x1 * y2 - y1 * x2) * (y3 - y4) - (y1 - y2) * (x3 * y4 - y3 * x4), _, q19.trans (by norm_num), ?_, ?_⟩
  rotate_left
  · unfold Rounded.lli8
    simp only [p1, p2, p3, p4, p5, p6, p7, p8, p9, p10, p11, p12, p13, p14, p15, p16, p17, p18, p19]
    rfl
  · unfold butils.lli8
    push_cast
    rfl

/-- C92: `lli` on grid points: `None` as in exact arithmetic, and otherwise the exact point, rounded once. -/
theorem C92_lli (l1 l2 : Segment ℝ) (h1 : ∀ p ∈ l1, OnGrid p) (h2 : ∀ p ∈ l2, OnGrid p) :
    Rounded.lli float l1 l2 = (butils.lli l1 l2).map (Option.map (roundPoint float)) := by
  have g : ∀ (l : Segment ℝ) (i : Int) (p : Pt ℝ), pyGet l i = .ok p → p ∈ l := fun l i p h => pyGet_mem h
  unfold Rounded.lli butils.lli
  rcases e1 : pyGet l1 0 with x | p1
  · rfl
  rcases e2 : pyGet l1 1 with x | p2
  · rfl
  rcases e3 : pyGet l2 0 with x | p3
  · rfl
  rcases e4 : pyGet l2 1 with x | p4
  · rfl
  simp only [ok_bind, pure_eq_ok, Except.map]
  obtain ⟨x1, y1, a1, b1, rfl⟩ := h1 _ (g _ _ _ e1)
  obtain ⟨x2, y2, a2, b2, rfl⟩ := h1 _ (g _ _ _ e2)
  obtain ⟨x3, y3, a3, b3, rfl⟩ := h2 _ (g _ _ _ e3)
  obtain ⟨x4, y4, a4, b4, rfl⟩ := h2 _ (g _ _ _ e4)
  unfold Rounded.lli4 butils.lli4
  obtain ⟨nx, ny, d, -, r1, r2⟩ := lli8_int x1 y1 x2 y2 x3 y3 x4 y4 a1 b1 a2 b2 a3 b3 a4 b4
  rw [r1, r2]
  split_ifs <;> rfl

/-- A quotient of integers with a small denominator stays on its side of an integer when it is rounded. -/
private theorem round_le (n d c : ℤ) (hd : |d| ≤ 2 ^ 33) (h0 : d ≠ 0) (hc : |c| ≤ 32768) :
    (float.rnd ((n:ℝ) / d) ≤ c ↔ (n:ℝ) / d ≤ c) ∧ ((c:ℝ) ≤ float.rnd ((n:ℝ) / d) ↔ (c:ℝ) ≤ (n:ℝ) / d) := by
  have ec := rnd_int c (hc.trans (by norm_num))
  have gap : ∀ m : ℤ, 0 < m → (m:ℝ) / |(d:ℝ)| ≥ 1 / 2 ^ 33 := by
    intro m hm
    have hd' : |(d:ℝ)| ≤ 2 ^ 33 := by exact_mod_cast hd
    have d0 : 0 < |(d:ℝ)| := abs_pos.mpr (by exact_mod_cast h0)
    have m1 : (1:ℝ) ≤ m := by exact_mod_cast hm
    exact div_le_div₀ (by linarith) m1 d0 hd'
  have repr : ∀ s : ℤ, |s| ≤ 1 → float.rnd ((c:ℝ) + s / 2 ^ 33) = c + s / 2 ^ 33 := by
    intro s hs
    have k : |c * 2 ^ 33 + s| ≤ 2 ^ 53 := by
      have := abs_add_le (c * 2 ^ 33) s
      rw [abs_mul] at this
      norm_num at this ⊢
      omega
    have := roundBits_repr 53 (by omega) (c * 2 ^ 33 + s) (-33) k
    have e : (((c * 2 ^ 33 + s : ℤ) : ℝ)) * 2 ^ (-33 : ℤ) = (c:ℝ) + s / 2 ^ 33 := by
      push_cast
      rw [zpow_neg]
      norm_num
      ring
    rw [e] at this
    exact this
  have key : (n:ℝ) / d - c = ((n * d.sign - c * |d| : ℤ) : ℝ) / |(d:ℝ)| := by
    have d0 : (d:ℝ) ≠ 0 := by exact_mod_cast h0
    rcases lt_or_gt_of_ne h0 with h | h
    · have h' : (d:ℝ) < 0 := by exact_mod_cast h
      rw [Int.sign_eq_neg_one_of_neg h, abs_of_neg h, abs_of_neg h']
      push_cast
      field_simp
      ring
    · have h' : (0:ℝ) < d := by exact_mod_cast h
      rw [Int.sign_eq_one_of_pos h, abs_of_pos h, abs_of_pos h']
      push_cast
      field_simp
  have d0 : 0 < |(d:ℝ)| := abs_pos.mpr (by exact_mod_cast h0)
  constructor
  · constructor
    · intro h
      by_contra hn
      have pos : 0 < (n:ℝ) / d - c := by linarith [not_le.mp hn]
      rw [key] at pos
      have i : 0 < n * d.sign - c * |d| := by
        by_contra hi
        have : (((n * d.sign - c * |d| : ℤ)) : ℝ) ≤ 0 := by exact_mod_cast not_lt.mp hi
        exact absurd pos (not_lt.mpr (div_nonpos_of_nonpos_of_nonneg this d0.le))
      have := gap _ i
      rw [← key] at this
      have m := (binary 52).mono ((c:ℝ) + (1:ℤ) / 2 ^ 33) ((n:ℝ) / d) (by push_cast; linarith)
      have r := repr 1 (by norm_num)
      rw [r] at m
      push_cast at m
      have : (0:ℝ) < 1 / 2 ^ 33 := by positivity
      linarith
    · intro h
      have := (binary 52).mono _ _ h
      rwa [ec] at this
  · constructor
    · intro h
      by_contra hn
      have pos : (n:ℝ) / d - c < 0 := by linarith [not_le.mp hn]
      rw [key] at pos
      have i : 0 < -(n * d.sign - c * |d|) := by
        by_contra hi
        have : (0:ℝ) ≤ (((n * d.sign - c * |d| : ℤ)) : ℝ) := by
          have : 0 ≤ n * d.sign - c * |d| := by omega
          exact_mod_cast this
        exact absurd pos (not_lt.mpr (div_nonneg this d0.le))
      have := gap _ i
      rw [Int.cast_neg, neg_div, ← key] at this
      have m := (binary 52).mono ((n:ℝ) / d) ((c:ℝ) + ((-1:ℤ):ℝ) / 2 ^ 33) (by push_cast; linarith)
      have r := repr (-1) (by norm_num)
      rw [r] at m
      push_cast at m
      have : (0:ℝ) < 1 / 2 ^ 33 := by positivity
      linarith
    · intro h
      have := (binary 52).mono _ _ h
      rwa [ec] at this

/-- The edges of the bounds of grid points are integers in the design space. -/
private theorem edges (l : Segment ℝ) (h : ∀ p ∈ l, OnGrid p) :
    ∃ a b c d : ℤ, |a| ≤ 32768 ∧ |b| ≤ 32768 ∧ |c| ≤ 32768 ∧ |d| ≤ 32768 ∧
      BoundsRectangle.new l = ⟨(a:ℝ), (b:ℝ), (c:ℝ), (d:ℝ)⟩ := by
  have step : ∀ (l : Segment ℝ), (∀ p ∈ l, OnGrid p) → ∀ a b c d : ℤ, |a| ≤ 32768 → |b| ≤ 32768 → |c| ≤ 32768 → |d| ≤ 32768 →
      ∃ a' b' c' d' : ℤ, |a'| ≤ 32768 ∧ |b'| ≤ 32768 ∧ |c'| ≤ 32768 ∧ |d'| ≤ 32768 ∧
        l.foldl BoundsRectangle.addPoint ⟨(a:ℝ), (b:ℝ), (c:ℝ), (d:ℝ)⟩ = ⟨(a':ℝ), (b':ℝ), (c':ℝ), (d':ℝ)⟩ := by
    intro l
    induction l with
    | nil => intro _ a b c d ha hb hc hd; exact ⟨a, b, c, d, ha, hb, hc, hd, rfl⟩
    | cons p l ih =>
      intro hl a b c d ha hb hc hd
      obtain ⟨m, n, hm, hn, rfl⟩ := hl p (by simp)
      have mn : ∀ x y : ℤ, |x| ≤ 32768 → |y| ≤ 32768 → |min x y| ≤ 32768 ∧ |max x y| ≤ 32768 := by
        intro x y hx hy
        rcases le_total x y with h | h
        · rw [min_eq_left h, max_eq_right h]; exact ⟨hx, hy⟩
        · rw [min_eq_right h, max_eq_left h]; exact ⟨hy, hx⟩
      obtain ⟨a', b', c', d', r⟩ := ih (fun q hq => hl q (by simp [hq])) (min a m) (min b n) (max c m) (max d n)
        (mn a m ha hm).1 (mn b n hb hn).1 (mn c m hc hm).2 (mn d n hd hn).2
      refine ⟨a', b', c', d', r.1, r.2.1, r.2.2.1, r.2.2.2.1, ?_⟩
      rw [← r.2.2.2.2, List.foldl_cons]
      congr 1
      unfold BoundsRectangle.addPoint
      simp only [pyMin_eq, pyMax_eq, Int.cast_min, Int.cast_max]
  obtain ⟨a, b, c, d, r⟩ := step l h 32768 32768 (-32768) (-32768) (by norm_num) (by norm_num) (by norm_num) (by norm_num)
  refine ⟨a, b, c, d, r.1, r.2.1, r.2.2.1, r.2.2.2.1, ?_⟩
  rw [← r.2.2.2.2]
  unfold BoundsRectangle.new BoundsRectangle.init
  push_cast
  rfl

private theorem pick (b b' : Bool) (h : b = b') (p : Pt ℝ) :
    (Except.ok (if b' = true then some (roundPoint float p) else none) : Py (Option (Pt ℝ))) =
      (Except.ok (if b = true then some p else none) : Py (Option (Pt ℝ))).map (Option.map (roundPoint float)) := by
  subst h; cases b <;> rfl

/-- C92: `intersectionPoint` on grid points: in floating point the same segments meet as in exact arithmetic, and the point returned is
the exact one, rounded once. -/
theorem C92_intersectionPoint (l1 l2 : Segment ℝ) (h1 : ∀ p ∈ l1, OnGrid p) (h2 : ∀ p ∈ l2, OnGrid p) :
    Rounded.intersectionPoint float l1 l2 = (intersectionPoint l1 l2).map (Option.map (roundPoint float)) := by
  have g : ∀ (l : Segment ℝ) (i : Int) (p : Pt ℝ), pyGet l i = .ok p → p ∈ l := fun l i p h => pyGet_mem h
  obtain ⟨c1, c2, c3, c4, k1, k2, k3, k4, eb1⟩ := edges l1 h1
  obtain ⟨d1, d2, d3, d4, m1, m2, m3, m4, eb2⟩ := edges l2 h2
  unfold Rounded.intersectionPoint intersectionPoint
  rw [eb1, eb2]
  unfold Rounded.lli butils.lli
  rcases e1 : pyGet l1 0 with x | p1
  · rfl
  rcases e2 : pyGet l1 1 with x | p2
  · rfl
  rcases e3 : pyGet l2 0 with x | p3
  · rfl
  rcases e4 : pyGet l2 1 with x | p4
  · rfl
  simp only [ok_bind, pure_eq_ok]
  obtain ⟨x1, y1, a1, b1, rfl⟩ := h1 _ (g _ _ _ e1)
  obtain ⟨x2, y2, a2, b2, rfl⟩ := h1 _ (g _ _ _ e2)
  obtain ⟨x3, y3, a3, b3, rfl⟩ := h2 _ (g _ _ _ e3)
  obtain ⟨x4, y4, a4, b4, rfl⟩ := h2 _ (g _ _ _ e4)
  unfold Rounded.lli4 butils.lli4
  obtain ⟨nx, ny, d, hd, r1, r2⟩ := lli8_int x1 y1 x2 y2 x3 y3 x4 y4 a1 b1 a2 b2 a3 b3 a4 b4
  rw [r1, r2]
  by_cases h0 : (d:ℝ) = 0
  · rw [if_pos h0, if_pos h0]; rfl
  · rw [if_neg h0, if_neg h0]
    have h0' : d ≠ 0 := by intro h; exact h0 (by rw [h]; norm_num)
    have X := fun c hc => round_le nx d c hd h0' hc
    have Y := fun c hc => round_le ny d c hd h0' hc
    refine pick _ _ ?_ ((nx:ℝ) / d, (ny:ℝ) / d)
    simp only [BoundsRectangle.enclosesPoint, (X c1 k1).2, (X c3 k3).1, (Y c2 k2).2, (Y c4 k4).1, (X d1 m1).2, (X d3 m3).1,
      (Y d2 m2).2, (Y d4 m4).1]

/-- Two quotients of small integers that differ still differ after rounding. -/
private theorem round_ne (a b c d : ℤ) (ha : |a| ≤ 2 ^ 16) (hb : |b| ≤ 2 ^ 16) (hc : |c| ≤ 2 ^ 16) (hd : |d| ≤ 2 ^ 16) (b0 : b ≠ 0)
    (d0 : d ≠ 0) : float.rnd ((a:ℝ) / b) = float.rnd ((c:ℝ) / d) ↔ (a:ℝ) / b = (c:ℝ) / d := by
  refine ⟨fun h => ?_, fun h => by rw [h]⟩
  by_contra hne
  have u : float.u = 2 ^ (-53 : ℤ) := rfl
  have size : ∀ m n : ℤ, |m| ≤ 2 ^ 16 → n ≠ 0 → |(m:ℝ) / n| ≤ 2 ^ 16 := by
    intro m n hm hn
    rw [abs_div]
    have hm' : |(m:ℝ)| ≤ 2 ^ 16 := by exact_mod_cast hm
    have hn' : (1:ℝ) ≤ |(n:ℝ)| := by exact_mod_cast Int.one_le_abs hn
    exact (div_le_self (abs_nonneg _) hn').trans hm'
  have e1 := float.error ((a:ℝ) / b)
  have e2 := float.error ((c:ℝ) / d)
  rw [u] at e1 e2
  have s1 := size a b ha b0
  have s2 := size c d hc d0
  have B : (b:ℝ) ≠ 0 := by exact_mod_cast b0
  have D : (d:ℝ) ≠ 0 := by exact_mod_cast d0
  have diff : (a:ℝ) / b - c / d = ((a * d - c * b : ℤ) : ℝ) / (b * d : ℝ) := by
    push_cast
    field_simp
  have ne : a * d - c * b ≠ 0 := by
    intro h
    rw [h] at diff
    simp only [Int.cast_zero, zero_div] at diff
    exact hne (by linarith)
  have far : 1 / 2 ^ 32 ≤ |(a:ℝ) / b - c / d| := by
    rw [diff, abs_div]
    have n1 : (1:ℝ) ≤ |((a * d - c * b : ℤ) : ℝ)| := by exact_mod_cast Int.one_le_abs ne
    have n2 : |(b * d : ℝ)| ≤ 2 ^ 32 := by
      rw [abs_mul]
      have hb' : |(b:ℝ)| ≤ 2 ^ 16 := by exact_mod_cast hb
      have hd' : |(d:ℝ)| ≤ 2 ^ 16 := by exact_mod_cast hd
      calc _ ≤ (2:ℝ) ^ 16 * 2 ^ 16 := mul_le_mul hb' hd' (abs_nonneg _) (by positivity)
        _ = 2 ^ 32 := by norm_num
    exact div_le_div₀ (abs_nonneg _) n1 (abs_pos.mpr (mul_ne_zero B D)) n2
  have e3 : |(a:ℝ) / b - c / d| ≤ |float.rnd ((a:ℝ) / b) - a / b| + |float.rnd ((c:ℝ) / d) - c / d| := by
    rw [h, abs_sub_comm (float.rnd ((c:ℝ) / d)) (a / b)]
    have := abs_add_le ((a:ℝ) / b - float.rnd ((c:ℝ) / d)) (float.rnd ((c:ℝ) / d) - c / d)
    rwa [sub_add_sub_cancel] at this
  have t1 : (2:ℝ) ^ (-53 : ℤ) * |(a:ℝ) / b| ≤ 2 ^ (-53 : ℤ) * 2 ^ 16 := mul_le_mul_of_nonneg_left s1 (by positivity)
  have t2 : (2:ℝ) ^ (-53 : ℤ) * |(c:ℝ) / d| ≤ 2 ^ (-53 : ℤ) * 2 ^ 16 := mul_le_mul_of_nonneg_left s2 (by positivity)
  have : (2:ℝ) ^ (-53 : ℤ) * 2 ^ 16 + 2 ^ (-53 : ℤ) * 2 ^ 16 < 1 / 2 ^ 32 := by norm_num
  linarith

/-- The slope of a line between grid points: the exact one, rounded once. -/
private theorem slope_int (p q : Pt ℝ) (hp : OnGrid p) (hq : OnGrid q) :
    ∃ a b : ℤ, |a| ≤ 2 ^ 16 ∧ |b| ≤ 2 ^ 16 ∧
      slope [p, q] = .ok (if (b:ℝ) = 0 then .inf else .fin ((a:ℝ) / b)) ∧
      Rounded.slope float [p, q] = .ok (if (b:ℝ) = 0 then .inf else .fin (float.rnd ((a:ℝ) / b))) := by
  obtain ⟨x1, y1, a1, b1, rfl⟩ := hp
  obtain ⟨x2, y2, a2, b2, rfl⟩ := hq
  obtain ⟨p1, q1⟩ := sub_int a2 a1 (by norm_num)
  obtain ⟨p2, q2⟩ := sub_int b2 b1 (by norm_num)
  have last : ∀ p q : Pt ℝ, pyGet [p, q] (-1) = .ok q := fun _ _ => rfl
  refine ⟨_, _, q2.trans (by norm_num), q1.trans (by norm_num), ?_, ?_⟩
  rotate_left
  · unfold Rounded.slope Rounded.getDeltas endPoints
    simp only [pyGet_zero_cons, last, ok_bind, pure_eq_ok, p1, p2]
    split_ifs <;> rfl
  · unfold slope getDeltas endPoints
    push_cast
    simp only [pyGet_zero_cons, last, ok_bind, pure_eq_ok]
    split_ifs <;> rfl

/-- C92: `pointOnLine` on grid points answers as in exact arithmetic. -/
theorem C92_pointOnLine (p a b : Pt ℝ) (hp : OnGrid p) (ha : OnGrid a) (hb : OnGrid b) :
    Rounded.pointOnLine float p [a, b] = pointOnLine p [a, b] := by
  obtain ⟨m, n, hm, hn, s1, r1⟩ := slope_int a b ha hb
  obtain ⟨m', n', hm', hn', s2, r2⟩ := slope_int a p ha hp
  unfold Rounded.pointOnLine pointOnLine
  simp only [pyGet_zero_cons, ok_bind, s1, r1, s2, r2]
  split
  · congr 1
    rw [Bool.eq_iff_iff, decide_eq_true_iff, decide_eq_true_iff]
    by_cases z : (n:ℝ) = 0 <;> by_cases z' : (n':ℝ) = 0
    · simp only [if_pos z, if_pos z']
    · simp only [if_pos z, if_neg z', reduceCtorEq]
    · simp only [if_neg z, if_pos z', reduceCtorEq]
    · simp only [if_neg z, if_neg z', Slope.fin.injEq]
      exact round_ne m n m' n' hm hn hm' hn' (by intro h; exact z (by rw [h]; norm_num)) (by intro h; exact z' (by rw [h]; norm_num))
  · rfl

/-- (0,0)-(3,2) and (0,2)-(3,0) are on the grid and meet in (3/2, 1); (4,6) is on the line from (0,0) to (6,9) and (4,5) is not. -/
example : Rounded.intersectionPoint float [(0, 0), (3, 2)] [(0, 2), (3, 0)] = .ok (some (3 / 2, 1)) ∧
    Rounded.pointOnLine float (4, 6) [(0, 0), (6, 9)] = .ok true ∧ Rounded.pointOnLine float (4, 5) [(0, 0), (6, 9)] = .ok false := by
  have g : ∀ m n : ℤ, |m| ≤ 32768 → |n| ≤ 32768 → OnGrid ((m:ℝ), (n:ℝ)) := fun m n hm hn => ⟨m, n, hm, hn, rfl⟩
  have g1 := g 0 0 (by norm_num) (by norm_num)
  have g2 := g 3 2 (by norm_num) (by norm_num)
  have g3 := g 0 2 (by norm_num) (by norm_num)
  have g4 := g 3 0 (by norm_num) (by norm_num)
  have g5 := g 6 9 (by norm_num) (by norm_num)
  have g6 := g 4 6 (by norm_num) (by norm_num)
  have g7 := g 4 5 (by norm_num) (by norm_num)
  norm_num at g1 g2 g3 g4 g5 g6 g7
  refine ⟨?_, ?_, ?_⟩
  · rw [C92_intersectionPoint _ _ (by simp [g1, g2]) (by simp [g3, g4])]
    have : intersectionPoint [((0:ℝ), (0:ℝ)), (3, 2)] [(0, 2), (3, 0)] = .ok (some (3 / 2, 1)) := by
      have e : butils.lli [((0:ℝ), (0:ℝ)), (3, 2)] [(0, 2), (3, 0)] = .ok (some (3 / 2, 1)) := by
        show (.ok (butils.lli8 (0:ℝ) 0 3 2 0 2 3 0) : Py (Option (Pt ℝ))) = _
        unfold butils.lli8
        norm_num
      unfold intersectionPoint
      rw [e]
      simp only [ok_bind, pure_eq_ok]
      rw [if_pos]
      simp [BoundsRectangle.new, BoundsRectangle.addPoint, BoundsRectangle.init, BoundsRectangle.enclosesPoint]
      norm_num
    rw [this]
    have a := float_rnd (3 / 2)
    have b := float_rnd 1
    rw [show fl (3 / 2) = 3 / 2 by decide +kernel] at a
    rw [show fl 1 = 1 by decide +kernel] at b
    push_cast at a b
    simp [Except.map, roundPoint, a, b]
  · rw [C92_pointOnLine _ _ _ g6 g1 g5]
    unfold pointOnLine
    simp [BoundsRectangle.new, BoundsRectangle.addPoint, BoundsRectangle.init, BoundsRectangle.enclosesPoint, slope, getDeltas,
      endPoints, pyGet, pure_eq_ok, ok_bind]
    norm_num
  · rw [C92_pointOnLine _ _ _ g7 g1 g5]
    unfold pointOnLine
    simp [BoundsRectangle.new, BoundsRectangle.addPoint, BoundsRectangle.init, BoundsRectangle.enclosesPoint, slope, getDeltas,
      endPoints, pyGet, pure_eq_ok, ok_bind]
    norm_num

/-- C92: off the grid rounding changes the answers. With `e = 2 ^ -60`, (1/2, 1/2) is not on the line from (e, 0) to (1, 1), but
`pointOnLine` says so; and the lines (0,0)-(1,1) and (e,0)-(1,1) meet in (1, 1), but `lli` takes them for parallel. -/
theorem C92_counterexample :
    (Rounded.pointOnLine float (1 / 2, 1 / 2) [(1 / 2 ^ 60, 0), (1, 1)] = .ok true ∧
      pointOnLine ((1 / 2 : ℝ), (1 / 2 : ℝ)) [(1 / 2 ^ 60, 0), (1, 1)] = .ok false) ∧
    (Rounded.lli float [(0, 0), (1, 1)] [(1 / 2 ^ 60, 0), (1, 1)] = .ok none ∧
      butils.lli [((0:ℝ), (0:ℝ)), (1, 1)] [(1 / 2 ^ 60, 0), (1, 1)] = .ok (some (1, 1))) := by
  have sub : ∀ a b c : ℚ, fl (a - b) = c → float.sub (a : ℝ) b = c := fun a b c h => by rw [float_sub, h]
  have mul : ∀ a b c : ℚ, fl (a * b) = c → float.mul (a : ℝ) b = c := fun a b c h => by rw [float_mul, h]
  have div : ∀ a b c : ℚ, fl (a / b) = c → float.div (a : ℝ) b = c := fun a b c h => by rw [float_div, h]
  have s1 := sub 1 (1 / 2 ^ 60) 1 (by decide +kernel)
  have s2 := sub (1 / 2) (1 / 2 ^ 60) (1 / 2) (by decide +kernel)
  have s3 := sub 1 0 1 (by decide +kernel)
  have s4 := sub (1 / 2) 0 (1 / 2) (by decide +kernel)
  have s5 := sub 0 1 (-1) (by decide +kernel)
  have s6 := sub (1 / 2 ^ 60) 1 (-1) (by decide +kernel)
  have s7 := sub 1 1 0 (by decide +kernel)
  have m1 := mul (-1) (-1) 1 (by decide +kernel)
  have d1 := div 1 1 1 (by decide +kernel)
  have d2 := div (1 / 2) (1 / 2) 1 (by decide +kernel)
  push_cast at s1 s2 s3 s4 s5 s6 s7 m1 d1 d2
  have inside : (BoundsRectangle.new [((1 / 2 ^ 60 : ℝ), (0:ℝ)), (1, 1)]).enclosesPoint (1 / 2, 1 / 2) = true := by
    simp [BoundsRectangle.new, BoundsRectangle.addPoint, BoundsRectangle.init, BoundsRectangle.enclosesPoint]
    norm_num
  have last : ∀ p q : Pt ℝ, pyGet [p, q] (-1) = .ok q := fun _ _ => rfl
  refine ⟨⟨?_, ?_⟩, ?_, ?_⟩
  · unfold Rounded.pointOnLine Rounded.slope Rounded.getDeltas endPoints
    simp only [inside, pyGet_zero_cons, last, ok_bind, pure_eq_ok, s1, s2, s3, s4, d1, d2]
    norm_num
  · unfold pointOnLine slope getDeltas endPoints
    simp only [inside, pyGet_zero_cons, last, ok_bind, pure_eq_ok]
    norm_num
  · show (.ok (Rounded.lli8 float 0 0 1 1 (1 / 2 ^ 60) 0 1 1) : Py (Option (Pt ℝ))) = _
    unfold Rounded.lli8
    simp only [s5, s6, m1, s7, if_true]
  · show (.ok (butils.lli8 (0:ℝ) 0 1 1 (1 / 2 ^ 60) 0 1 1) : Py (Option (Pt ℝ))) = _
    unfold butils.lli8
    norm_num

end grid

end PathLib
