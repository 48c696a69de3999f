import Verif.Props.LutPolygon
import Verif.Props.BezierQuadrature
import Mathlib.MeasureTheory.Integral.IntervalIntegral.FundThmCalculus

/-!
# The length of the polygon through the samples of a curve: C118
-/

namespace PathLib

open Bezier Spec

private noncomputable def cplx (p : Pt ℝ) : ℂ := ⟨p.1, p.2⟩

private theorem cplx_distance (p q : Pt ℝ) : ‖cplx p - cplx q‖ = distance p q := by
  rw [Complex.norm_def, Complex.normSq_apply]
  unfold distance cplx
  congr 1
  simp only [Complex.sub_re, Complex.sub_im]
  ring

private theorem cplx_dist (p q : Pt ℝ) : ‖cplx q - cplx p‖ = Spec.dist p q := by
  rw [Complex.norm_def, Complex.normSq_apply]
  unfold Spec.dist vlen cplx
  rfl

private theorem cplx_deriv (ps : Segment ℝ) (h2 : 2 ≤ ps.length) (t : ℝ) : HasDerivAt (fun t => cplx (curve ps t)) (cplx (curve (dcStep ps) t)) t := by
  obtain ⟨h1, h2⟩ := hasDerivAt_curve_step ps h2 t
  have e : (fun t => cplx (curve ps t)) = fun t => ((curve ps t).1 : ℂ) + ((curve ps t).2 : ℂ) * Complex.I := by
    funext t; apply Complex.ext <;> simp [cplx]
  have e' : cplx (curve (dcStep ps) t) = ((curve (dcStep ps) t).1 : ℂ) + ((curve (dcStep ps) t).2 : ℂ) * Complex.I := by
    apply Complex.ext <;> simp [cplx]
  rw [e, e']
  exact h1.ofReal_comp.add (h2.ofReal_comp.mul_const _)

private theorem speed_norm (ps : Segment ℝ) (h2 : 2 ≤ ps.length) (t : ℝ) : speed ps t = ‖cplx (curve (dcStep ps) t)‖ := by
  obtain ⟨h1, h2⟩ := hasDerivAt_curve_step ps h2 t
  unfold speed
  rw [h1.deriv, h2.deriv, Complex.norm_def, Complex.normSq_apply]
  unfold vlen cplx
  congr 1

private theorem bend_speed (ps : Segment ℝ) (h3 : 3 ≤ ps.length) (M : ℝ) (hM : BendAtMost ps M) : SpeedAtMost (dcStep ps) M := by
  intro i hi
  rw [dcStep_length] at hi
  have h := hM.2 i (by omega)
  refine le_trans (le_of_eq ?_) h
  have hc : ((ps.length - 1 : Nat) : ℝ) = (ps.length : ℝ) - 1 := by rw [Nat.cast_sub (by omega)]; simp
  have h0 : (0 : ℝ) ≤ (ps.length : ℝ) - 1 := by rw [← hc]; positivity
  rw [dcStep_length, hc]
  simp only [dcStep, List.getElem_zipWith, List.getElem_tail]
  unfold distance
  rw [show ∀ a b : ℝ, ((ps.length - 1 : Nat) : ℝ) * a - ((ps.length - 1 : Nat) : ℝ) * b = -(((ps.length : ℝ) - 1) * (b - a)) by rw [hc]; intros; ring,
    show ∀ a b : ℝ, ((ps.length - 1 : Nat) : ℝ) * a - ((ps.length - 1 : Nat) : ℝ) * b = -(((ps.length : ℝ) - 1) * (b - a)) by rw [hc]; intros; ring,
    neg_sq, neg_sq, len_scale _ _ _ h0]
  rw [show ∀ x y z : ℝ, (x - 1 - 1) * ((x - 1) * y) = (x - 1) * (x - 2) * y by intros; ring]
  · congr 3 <;> ring
  · exact 0


/-- The derivative changes by at most the bound times the difference of the parameters. -/
private theorem velocity_lipschitz (ps : Segment ℝ) (h2 : 2 ≤ ps.length) (M : ℝ) (hM : BendAtMost ps M) {s t : ℝ} (hs0 : 0 ≤ s) (hs1 : s ≤ 1)
    (ht0 : 0 ≤ t) (ht1 : t ≤ 1) : ‖cplx (curve (dcStep ps) s) - cplx (curve (dcStep ps) t)‖ ≤ M * |s - t| := by
  by_cases h3 : 3 ≤ ps.length
  · have := curve_lipschitz (by rw [dcStep_length]; omega) (bend_speed ps h3 M hM) hs0 hs1 ht0 ht1
    rw [cplx_distance]
    exact this
  · obtain ⟨A, B, rfl⟩ : ∃ A B, ps = [A, B] := by
      match ps, h2, h3 with
      | [A, B], _, _ => exact ⟨A, B, rfl⟩
      | _ :: _ :: _ :: _, _, h => simp at h
    have : ∀ t, curve (dcStep [A, B]) t = (B.1 - A.1, B.2 - A.2) := by
      intro t
      have e : dcStep [A, B] = [(B.1 - A.1, B.2 - A.2)] := by simp [dcStep]
      rw [e]
      simp [curve, bernList, bernSum, bern]
    rw [this, this, sub_self, norm_zero]
    exact mul_nonneg hM.1 (abs_nonneg _)

private theorem velocity_continuousOn (ps : Segment ℝ) (h2 : 2 ≤ ps.length) (M : ℝ) (hM : BendAtMost ps M) {a b : ℝ} (ha : 0 ≤ a) (hab : a ≤ b) (hb : b ≤ 1) :
    ContinuousOn (fun t => cplx (curve (dcStep ps) t)) (Set.uIcc a b) := by
  rw [Set.uIcc_of_le hab, Metric.continuousOn_iff]
  intro x hx ε hε
  refine ⟨ε / (M + 1), div_pos hε (by linarith [hM.1]), fun y hy hd => ?_⟩
  rw [dist_eq_norm]
  refine (velocity_lipschitz ps h2 M hM (ha.trans hy.1) (hy.2.trans hb) (ha.trans hx.1) (hx.2.trans hb)).trans_lt ?_
  rw [Real.dist_eq, lt_div_iff₀ (by linarith [hM.1])] at hd
  nlinarith [abs_nonneg (y - x), hM.1]

/-- One piece. -/
private theorem piece (ps : Segment ℝ) (h2 : 2 ≤ ps.length) (M : ℝ) (hM : BendAtMost ps M) {a b : ℝ} (ha : 0 ≤ a) (hab : a ≤ b) (hb : b ≤ 1) :
    Spec.dist (curve ps a) (curve ps b) ≤ ∫ t in a..b, speed ps t ∧
    ∫ t in a..b, speed ps t ≤ Spec.dist (curve ps a) (curve ps b) + M * (b - a) ^ 2 := by
  have hv : ∀ t, HasDerivAt (fun t => cplx (curve ps t)) (cplx (curve (dcStep ps) t)) t := cplx_deriv ps h2
  have hcont := velocity_continuousOn ps h2 M hM ha hab hb
  have hi := hcont.intervalIntegrable (μ := MeasureTheory.volume)
  have ftc : ∫ t in a..b, cplx (curve (dcStep ps) t) = cplx (curve ps b) - cplx (curve ps a) :=
    intervalIntegral.integral_eq_sub_of_hasDerivAt (fun t _ => hv t) hi
  have hs : ∫ t in a..b, speed ps t = ∫ t in a..b, ‖cplx (curve (dcStep ps) t)‖ := by
    congr 1; funext t; exact speed_norm ps h2 t
  rw [hs, ← cplx_dist, ← ftc]
  refine ⟨intervalIntegral.norm_integral_le_integral_norm hab, ?_⟩
  set w := cplx (curve (dcStep ps) ((a + b) / 2)) with hw
  have near : ∀ t ∈ Set.Icc a b, ‖cplx (curve (dcStep ps) t) - w‖ ≤ M * ((b - a) / 2) := by
    intro t ht
    refine (velocity_lipschitz ps h2 M hM (ha.trans ht.1) (ht.2.trans hb) (by linarith) (by linarith)).trans (mul_le_mul_of_nonneg_left ?_ hM.1)
    rw [abs_le]
    constructor <;> linarith [ht.1, ht.2]
  have up : ∫ t in a..b, ‖cplx (curve (dcStep ps) t)‖ ≤ ∫ _ in a..b, (‖w‖ + M * ((b - a) / 2)) := by
    refine intervalIntegral.integral_mono_on hab hi.norm (by simp) fun t ht => ?_
    have := norm_add_le w (cplx (curve (dcStep ps) t) - w)
    rw [add_sub_cancel] at this
    linarith [near t ht]
  rw [intervalIntegral.integral_const, smul_eq_mul] at up
  have low : ‖(∫ t in a..b, cplx (curve (dcStep ps) t)) - ((b - a : ℝ) : ℂ) * w‖ ≤ M * ((b - a) / 2) * (b - a) := by
    have e : ((b - a : ℝ) : ℂ) * w = ∫ _ in a..b, w := by rw [intervalIntegral.integral_const, Complex.real_smul]
    rw [e, ← intervalIntegral.integral_sub hi (by simp)]
    have := intervalIntegral.norm_integral_le_of_norm_le_const (a := a) (b := b) (C := M * ((b - a) / 2)) (f := fun t => cplx (curve (dcStep ps) t) - w)
      (fun t ht => near t (by rw [Set.uIoc_of_le hab] at ht; exact ⟨ht.1.le, ht.2⟩))
    rwa [abs_of_nonneg (by linarith)] at this
  have k : (b - a) * ‖w‖ ≤ ‖∫ t in a..b, cplx (curve (dcStep ps) t)‖ + M * ((b - a) / 2) * (b - a) := by
    have n1 : ‖((b - a : ℝ) : ℂ) * w‖ = (b - a) * ‖w‖ := by
      rw [norm_mul, Complex.norm_real, Real.norm_eq_abs, abs_of_nonneg (by linarith)]
    have := norm_sub_norm_le (((b - a : ℝ) : ℂ) * w) (∫ t in a..b, cplx (curve (dcStep ps) t))
    rw [norm_sub_rev, n1] at this
    linarith
  nlinarith

private theorem polygon_sum (f : ℕ → Pt ℝ) (n : ℕ) : polygonLength ((List.range (n + 1)).map f) = ∑ i ∈ Finset.range n, Spec.dist (f i) (f (i + 1)) := by
  induction n generalizing f with
  | zero => simp [polygonLength]
  | succ n ih =>
    rw [List.range_succ_eq_map, List.map_cons, List.map_map]
    have := ih (f ∘ Nat.succ)
    rw [List.range_succ_eq_map, List.map_cons] at this ⊢
    rw [Finset.sum_range_succ', polygonLength, this, add_comm]
    rfl

/-- C118: the polygon through the samples of `getLUT(steps)` is not longer than the curve, and shorter by at most the bound on the second derivative divided by
the number of gaps. -/
theorem C118_length (ps : Segment ℝ) (h2 : 2 ≤ ps.length) (M : ℝ) (hM : BendAtMost ps M) (n : Nat) (hn : 2 ≤ n) :
    ∃ l, lutOf ps n = .ok l ∧ polygonLength l ≤ arcLength ps ∧ arcLength ps ≤ polygonLength l + M / ((n : ℝ) - 1) := by
  have hne : ps ≠ [] := by intro e; rw [e] at h2; simp at h2
  obtain ⟨l, e, hl, hs⟩ := C40_samples ps hne n hn
  obtain ⟨k, rfl⟩ : ∃ k, n = k + 1 := ⟨n - 1, by omega⟩
  have hc : ((k + 1 - 1 : Nat) : ℝ) = (k : ℝ) := by simp
  have hk : (0:ℝ) < k := by exact_mod_cast (by omega : 0 < k)
  have el : l = (List.range (k + 1)).map fun i : ℕ => curve ps ((i : ℝ) / k) := by
    apply List.ext_getElem
    · simp [hl]
    · intro i h _
      have := hs i h
      rw [hc, get_ok ps hne] at this
      rw [← Except.ok.inj this]
      simp
  have sum : arcLength ps = ∑ i ∈ Finset.range k, ∫ t in ((i : ℕ) : ℝ) / k..((i + 1 : ℕ) : ℝ) / k, speed ps t := by
    rw [intervalIntegral.sum_integral_adjacent_intervals (a := fun i : ℕ => (i : ℝ) / k)]
    · unfold arcLength
      simp only [Nat.cast_zero, zero_div, div_self hk.ne']
    · intro i hi
      apply ContinuousOn.intervalIntegrable
      have e : speed ps = fun t => ‖cplx (curve (dcStep ps) t)‖ := funext (speed_norm ps h2)
      rw [e]
      exact (velocity_continuousOn ps h2 M hM (by positivity) (by gcongr; simp) (by rw [div_le_one hk]; exact_mod_cast hi)).norm
  have pc := fun i (hi : i ∈ Finset.range k) => piece ps h2 M hM (a := (i : ℝ) / k) (b := ((i + 1 : ℕ) : ℝ) / k) (by positivity)
    (by gcongr; simp) (by rw [div_le_one hk]; exact_mod_cast Finset.mem_range.mp hi)
  refine ⟨l, e, ?_, ?_⟩
  · rw [el, polygon_sum, sum]
    exact Finset.sum_le_sum fun i hi => (pc i hi).1
  · rw [el, polygon_sum, sum]
    refine (Finset.sum_le_sum fun i hi => (pc i hi).2).trans (le_of_eq ?_)
    rw [Finset.sum_add_distrib]
    congr 1
    rw [Finset.sum_congr rfl (g := fun _ => M * (1 / k) ^ 2) (fun i _ => by push_cast; congr 2; field_simp; ring)]
    rw [Finset.sum_const, Finset.card_range, nsmul_eq_mul]
    push_cast
    rw [add_sub_cancel_right]
    field_simp

/-- The arch: with 201 samples the polygon is at most 20 shorter. -/
example : ∃ l, lutOf [((0:ℝ), 0), (500, 1000), (1000, 0)] 201 = .ok l ∧ polygonLength l ≤ arcLength [((0:ℝ), 0), (500, 1000), (1000, 0)] ∧
    arcLength [((0:ℝ), 0), (500, 1000), (1000, 0)] ≤ polygonLength l + 20 := by
  obtain ⟨l, e, h1, h2⟩ := C118_length [((0:ℝ), 0), (500, 1000), (1000, 0)] (by simp) 4000 arch_bend 201 (by norm_num)
  refine ⟨l, e, h1, h2.trans (le_of_eq ?_)⟩
  norm_num

end PathLib
