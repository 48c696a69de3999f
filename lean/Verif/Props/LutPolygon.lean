import Verif.Props.BContourNear

/-!
# The polygon through the samples of a curve: C118
-/

namespace PathLib

open Bezier Spec

/-- The order times one less times the largest second difference of the control points: a bound on the second derivative. -/
def Spec.BendAtMost (ps : Segment ℝ) (M : ℝ) : Prop :=
  0 ≤ M ∧ ∀ i (h : i + 2 < ps.length), ((ps.length : ℝ) - 1) * ((ps.length : ℝ) - 2) *
    distance (ps[i].1 + ps[i + 2].1, ps[i].2 + ps[i + 2].2) (2 * ps[i + 1].1, 2 * ps[i + 1].2) ≤ M

/-- The point at the ratio `r` between two points. -/
def Spec.onChord (p q : Pt ℝ) (r : ℝ) : Pt ℝ := ((1 - r) * p.1 + r * q.1, (1 - r) * p.2 + r * q.2)

theorem len_scale (c x y : ℝ) (hc : 0 ≤ c) : Real.sqrt ((c * x) ^ 2 + (c * y) ^ 2) = c * Real.sqrt (x ^ 2 + y ^ 2) := by
  rw [show (c * x) ^ 2 + (c * y) ^ 2 = c ^ 2 * (x ^ 2 + y ^ 2) by ring, Real.sqrt_mul (sq_nonneg c), Real.sqrt_sq hc]

private theorem len_mix (s x y z w : ℝ) (h0 : 0 ≤ s) (h1 : s ≤ 1) (m : ℝ) (hx : Real.sqrt (x ^ 2 + y ^ 2) ≤ m) (hz : Real.sqrt (z ^ 2 + w ^ 2) ≤ m) :
    Real.sqrt (((1 - s) * x + s * z) ^ 2 + ((1 - s) * y + s * w) ^ 2) ≤ m := by
  have hm : 0 ≤ m := (Real.sqrt_nonneg _).trans hx
  rw [Real.sqrt_le_left hm] at hx hz ⊢
  nlinarith [mul_nonneg h0 (sub_nonneg.mpr h1), sq_nonneg (x - z), sq_nonneg (y - w), mul_nonneg (mul_nonneg h0 (sub_nonneg.mpr h1)) (add_nonneg (sq_nonneg (x - z)) (sq_nonneg (y - w))),
    mul_le_mul_of_nonneg_left hx (sub_nonneg.mpr h1), mul_le_mul_of_nonneg_left hz h0]

/-- C118: on an arc of a line, quadratic or cubic the curve and the point moving evenly along the chord are never further apart than the bound on the second
derivative times half the product of the distances, in parameters, to the two ends. -/
theorem C118_chord (ps : Segment ℝ) (h2 : 2 ≤ ps.length) (h4 : ps.length ≤ 4) (M : ℝ) (hM : BendAtMost ps M) (a b r : ℝ) (ha : 0 ≤ a) (hab : a ≤ b) (hb : b ≤ 1)
    (hr0 : 0 ≤ r) (hr1 : r ≤ 1) :
    ∃ p q m, Bezier.get ps a = .ok p ∧ Bezier.get ps b = .ok q ∧ Bezier.get ps ((1 - r) * a + r * b) = .ok m ∧
      distance m (Spec.onChord p q r) ≤ M * (r * (1 - r) / 2 * (b - a) ^ 2) := by
  have hne : ps ≠ [] := by intro e; rw [e] at h2; simp at h2
  refine ⟨_, _, _, get_ok ps hne _, get_ok ps hne _, get_ok ps hne _, ?_⟩
  have hk : 0 ≤ r * (1 - r) / 2 * (b - a) ^ 2 := by have := mul_nonneg hr0 (sub_nonneg.mpr hr1); positivity
  obtain ⟨hM0, hM⟩ := hM
  match ps, h2, h4 with
  | [A, B], _, _ =>
    have : curve [A, B] ((1 - r) * a + r * b) = Spec.onChord (curve [A, B] a) (curve [A, B] b) r := by
      simp only [curve_two, Spec.onChord]; ext <;> simp <;> ring
    rw [this]
    simp only [distance, sub_self]
    norm_num
    exact mul_nonneg hM0 hk
  | [A, B, C], _, _ =>
    have h := hM 0 (by simp)
    simp [distance] at h
    norm_num at h
    unfold distance
    rw [show (curve [A, B, C] ((1 - r) * a + r * b)).1 - (Spec.onChord (curve [A, B, C] a) (curve [A, B, C] b) r).1 =
        -((r * (1 - r) / 2 * (b - a) ^ 2) * (2 * (A.1 + C.1 - 2 * B.1))) by simp only [curve_three, Spec.onChord]; ring,
      show (curve [A, B, C] ((1 - r) * a + r * b)).2 - (Spec.onChord (curve [A, B, C] a) (curve [A, B, C] b) r).2 =
        -((r * (1 - r) / 2 * (b - a) ^ 2) * (2 * (A.2 + C.2 - 2 * B.2))) by simp only [curve_three, Spec.onChord]; ring, neg_sq, neg_sq, len_scale _ _ _ hk,
        len_scale _ _ _ (by norm_num), mul_comm M]
    exact mul_le_mul_of_nonneg_left h hk
  | [A, B, C, D], _, _ =>
    have h := hM 0 (by simp)
    have h' := hM 1 (by simp)
    simp [distance] at h h'
    norm_num at h h'
    unfold distance
    -- the parameter at which the second derivative is taken
    have s0 : 0 ≤ (a + b + ((1 - r) * a + r * b)) / 3 := by
      have := mul_nonneg (sub_nonneg.mpr hr1) ha
      have := mul_nonneg hr0 (ha.trans hab)
      linarith
    have s1 : (a + b + ((1 - r) * a + r * b)) / 3 ≤ 1 := by nlinarith
    rw [show (curve [A, B, C, D] ((1 - r) * a + r * b)).1 - (Spec.onChord (curve [A, B, C, D] a) (curve [A, B, C, D] b) r).1 =
        -((r * (1 - r) / 2 * (b - a) ^ 2) * ((1 - (a + b + ((1 - r) * a + r * b)) / 3) * (6 * (A.1 + C.1 - 2 * B.1)) +
          (a + b + ((1 - r) * a + r * b)) / 3 * (6 * (B.1 + D.1 - 2 * C.1)))) by simp only [curve_four, Spec.onChord]; ring,
      show (curve [A, B, C, D] ((1 - r) * a + r * b)).2 - (Spec.onChord (curve [A, B, C, D] a) (curve [A, B, C, D] b) r).2 =
        -((r * (1 - r) / 2 * (b - a) ^ 2) * ((1 - (a + b + ((1 - r) * a + r * b)) / 3) * (6 * (A.2 + C.2 - 2 * B.2)) +
          (a + b + ((1 - r) * a + r * b)) / 3 * (6 * (B.2 + D.2 - 2 * C.2)))) by simp only [curve_four, Spec.onChord]; ring,
      neg_sq, neg_sq, len_scale _ _ _ hk, mul_comm M]
    refine mul_le_mul_of_nonneg_left (len_mix _ _ _ _ _ s0 s1 M ?_ ?_) hk
    · rw [len_scale _ _ _ (by norm_num)]; exact h
    · rw [len_scale _ _ _ (by norm_num)]; exact h'

/-- C118: every point of the curve is within an eighth of the bound, divided by the square of the number of gaps, of the polygon through the samples of
`getLUT(steps)`, between the two samples next to it. -/
theorem C118_polygon (ps : Segment ℝ) (h2 : 2 ≤ ps.length) (h4 : ps.length ≤ 4) (M : ℝ) (hM : BendAtMost ps M) (n : Nat) (hn : 2 ≤ n) :
    ∃ l, lutOf ps n = .ok l ∧ l.length = n ∧ ∀ t, 0 ≤ t → t ≤ 1 → ∃ p i, ∃ hi : i + 1 < l.length, ∃ r, 0 ≤ r ∧ r ≤ 1 ∧
      (i : ℝ) ≤ t * ((n : ℝ) - 1) ∧ t * ((n : ℝ) - 1) ≤ i + 1 ∧
      Bezier.get ps t = .ok p ∧ distance p (Spec.onChord l[i] l[i + 1] r) ≤ M / (8 * ((n : ℝ) - 1) ^ 2) := by
  have hne : ps ≠ [] := by intro e; rw [e] at h2; simp at h2
  obtain ⟨l, e, hl, hs⟩ := C40_samples ps hne n hn
  refine ⟨l, e, hl, fun t h0 h1 => ?_⟩
  have hc : ((n - 1 : Nat) : ℝ) = (n : ℝ) - 1 := by rw [Nat.cast_sub (by omega)]; simp
  have hN : (0:ℝ) < (n : ℝ) - 1 := by rw [← hc]; exact_mod_cast (by omega : 0 < n - 1)
  have key : ∃ i : Nat, i + 1 < n ∧ (i : ℝ) ≤ t * ((n : ℝ) - 1) ∧ t * ((n : ℝ) - 1) ≤ i + 1 := by
    rcases eq_or_lt_of_le h1 with rfl | h1
    · refine ⟨n - 2, by omega, ?_, ?_⟩
      · rw [Nat.cast_sub (by omega)]; push_cast; linarith
      · rw [Nat.cast_sub (by omega)]; push_cast; linarith
    · have hp : 0 ≤ t * ((n : ℝ) - 1) := mul_nonneg h0 hN.le
      refine ⟨⌊t * ((n : ℝ) - 1)⌋₊, ?_, Nat.floor_le hp, (Nat.lt_floor_add_one _).le⟩
      have : ⌊t * ((n : ℝ) - 1)⌋₊ < n - 1 := by
        rw [Nat.floor_lt hp, hc]
        nlinarith
      omega
  obtain ⟨i, hi, hi0, hi1⟩ := key
  obtain ⟨p, q, m, hp, hq, hm, hd⟩ := C118_chord ps h2 h4 M hM ((i : ℝ) / ((n : ℝ) - 1)) (((i + 1 : Nat) : ℝ) / ((n : ℝ) - 1)) (t * ((n : ℝ) - 1) - i)
    (by positivity) (by gcongr; omega) (by
      rw [div_le_one hN, ← hc]; exact_mod_cast (by omega : i + 1 ≤ n - 1)) (by linarith) (by linarith)
  have ht : (1 - (t * ((n : ℝ) - 1) - i)) * ((i : ℝ) / ((n : ℝ) - 1)) + (t * ((n : ℝ) - 1) - i) * (((i + 1 : Nat) : ℝ) / ((n : ℝ) - 1)) = t := by
    push_cast
    field_simp
    ring
  rw [ht] at hm
  have p1 := hs i (by omega)
  have p2 := hs (i + 1) (by omega)
  rw [hc, hp] at p1
  rw [hc, hq] at p2
  refine ⟨m, i, by omega, t * ((n : ℝ) - 1) - i, by linarith, by linarith, hi0, hi1, hm, ?_⟩
  rw [← Except.ok.inj p1, ← Except.ok.inj p2]
  refine hd.trans ?_
  have hr : (t * ((n : ℝ) - 1) - i) * (1 - (t * ((n : ℝ) - 1) - i)) ≤ 1 / 4 := by
    nlinarith [sq_nonneg ((t * ((n : ℝ) - 1) - i) - 1 / 2)]
  have hg : (((i + 1 : Nat) : ℝ) / ((n : ℝ) - 1) - (i : ℝ) / ((n : ℝ) - 1)) ^ 2 = 1 / ((n : ℝ) - 1) ^ 2 := by
    push_cast
    field_simp
    ring
  rw [hg, show M / (8 * ((n : ℝ) - 1) ^ 2) = M * (1 / 4 / 2 * (1 / ((n : ℝ) - 1) ^ 2)) by field_simp; ring]
  refine mul_le_mul_of_nonneg_left ?_ hM.1
  exact mul_le_mul_of_nonneg_right (by linarith) (by positivity)

/-- C118: the bound is attained: halfway between two samples a quadratic is exactly that far from the middle of the chord. -/
theorem C118_sharp (A B C : Pt ℝ) (n : Nat) (hn : 2 ≤ n) (i : Nat) (hi : i + 1 < n) :
    BendAtMost [A, B, C] (2 * distance (A.1 + C.1, A.2 + C.2) (2 * B.1, 2 * B.2)) ∧
    ∃ l m, ∃ h : i + 1 < l.length, lutOf [A, B, C] n = .ok l ∧ Bezier.get [A, B, C] (((i : ℝ) + 1 / 2) / ((n : ℝ) - 1)) = .ok m ∧
      distance m (Spec.onChord l[i] l[i + 1] (1 / 2)) = 2 * distance (A.1 + C.1, A.2 + C.2) (2 * B.1, 2 * B.2) / (8 * ((n : ℝ) - 1) ^ 2) := by
  constructor
  · refine ⟨mul_nonneg two_pos.le (Real.sqrt_nonneg _), fun j hj => ?_⟩
    have : j = 0 := by simp at hj; omega
    subst this
    simp
    norm_num
  · obtain ⟨l, e, hl, hs⟩ := C40_samples [A, B, C] (by simp) n hn
    have hc : ((n - 1 : Nat) : ℝ) = (n : ℝ) - 1 := by rw [Nat.cast_sub (by omega)]; simp
    have hN : (0:ℝ) < (n : ℝ) - 1 := by rw [← hc]; exact_mod_cast (by omega : 0 < n - 1)
    have p1 := hs i (by omega)
    have p2 := hs (i + 1) (by omega)
    rw [hc, get_ok _ (by simp)] at p1 p2
    refine ⟨l, _, by omega, e, get_ok _ (by simp) _, ?_⟩
    rw [← Except.ok.inj p1, ← Except.ok.inj p2]
    unfold distance
    have hk : 0 ≤ 1 / (4 * ((n : ℝ) - 1) ^ 2) := by positivity
    rw [show (curve [A, B, C] (((i : ℝ) + 1 / 2) / ((n : ℝ) - 1))).1 - (Spec.onChord (curve [A, B, C] ((i : ℝ) / ((n : ℝ) - 1))) (curve [A, B, C] (((i + 1 : Nat) : ℝ) / ((n : ℝ) - 1))) (1 / 2)).1 =
        -(1 / (4 * ((n : ℝ) - 1) ^ 2) * (A.1 + C.1 - 2 * B.1)) by simp only [curve_three, Spec.onChord]; push_cast; field_simp; ring,
      show (curve [A, B, C] (((i : ℝ) + 1 / 2) / ((n : ℝ) - 1))).2 - (Spec.onChord (curve [A, B, C] ((i : ℝ) / ((n : ℝ) - 1))) (curve [A, B, C] (((i + 1 : Nat) : ℝ) / ((n : ℝ) - 1))) (1 / 2)).2 =
        -(1 / (4 * ((n : ℝ) - 1) ^ 2) * (A.2 + C.2 - 2 * B.2)) by simp only [curve_three, Spec.onChord]; push_cast; field_simp; ring,
      neg_sq, neg_sq, len_scale _ _ _ hk]
    field_simp
    ring

/-- C118: how many steps are enough for a given tolerance. -/
theorem C118_tolerance (ps : Segment ℝ) (h2 : 2 ≤ ps.length) (h4 : ps.length ≤ 4) (M : ℝ) (hM : BendAtMost ps M) (tolerance : ℝ) (ht : 0 < tolerance)
    (n : Nat) (hn : 2 ≤ n) (hs : M / (8 * tolerance) ≤ ((n : ℝ) - 1) ^ 2) :
    ∃ l, lutOf ps n = .ok l ∧ ∀ t, 0 ≤ t → t ≤ 1 → ∃ p i, ∃ hi : i + 1 < l.length, ∃ r, 0 ≤ r ∧ r ≤ 1 ∧
      Bezier.get ps t = .ok p ∧ distance p (Spec.onChord l[i] l[i + 1] r) ≤ tolerance := by
  obtain ⟨l, e, -, h⟩ := C118_polygon ps h2 h4 M hM n hn
  refine ⟨l, e, fun t h0 h1 => ?_⟩
  obtain ⟨p, i, hi, r, r0, r1, -, -, hp, hd⟩ := h t h0 h1
  refine ⟨p, i, hi, r, r0, r1, hp, hd.trans ?_⟩
  have hN : (0:ℝ) < (n : ℝ) - 1 := by
    have : (2:ℝ) ≤ n := by exact_mod_cast hn
    linarith
  rw [div_le_iff₀ (by positivity)] at hs ⊢
  nlinarith

theorem arch_bend : BendAtMost [((0:ℝ), 0), (500, 1000), (1000, 0)] 4000 := by
  refine ⟨by norm_num, fun i hi => ?_⟩
  have : i = 0 := by simp at hi; omega
  subst this
  simp [distance]
  norm_num
  have : Real.sqrt 4000000 = 2000 := by rw [show (4000000:ℝ) = 2000 ^ 2 by norm_num, Real.sqrt_sq (by norm_num)]
  rw [this]
  norm_num

/-- An arch 1000 wide and 500 high: 41 steps keep the polygon within half a unit. -/
example : ∃ l, lutOf [((0:ℝ), 0), (500, 1000), (1000, 0)] 41 = .ok l ∧ ∀ t, 0 ≤ t → t ≤ 1 → ∃ p i, ∃ hi : i + 1 < l.length, ∃ r, 0 ≤ r ∧ r ≤ 1 ∧
    Bezier.get [((0:ℝ), 0), (500, 1000), (1000, 0)] t = .ok p ∧ distance p (Spec.onChord l[i] l[i + 1] r) ≤ 1 / 2 :=
  C118_tolerance _ (by simp) (by simp) 4000 arch_bend _ (by norm_num) 41 (by norm_num) (by norm_num)

end PathLib
