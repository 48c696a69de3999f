import Verif.Lemmas.Bezier
import Mathlib.Analysis.Calculus.Deriv.Mul
import Mathlib.Analysis.Calculus.Deriv.MeanValue
import Mathlib.Algebra.BigOperators.Field

set_option linter.unusedSectionVars false
set_option linter.unusedSimpArgs false

namespace PathLib
open Spec Finset

namespace Spec

section field
variable {K : Type} [Field K]

/-- The other form of de Casteljau's step. -/
theorem bernSum_lerp (n : ℕ) (c : ℕ → K) (t : K) :
    bernSum (n + 1) c t = (1 - t) * bernSum n c t + t * bernSum n (fun i => c (i + 1)) t := by
  rw [bernSum_succ, bernSum_add]
  have : ∀ i, (c (i + 1) - c i) * t = t * (c (i + 1) + (-1) * c i) := fun i => by ring
  simp only [this]
  rw [bernSum_smul, bernSum_add, bernSum_smul]
  ring

theorem bernSum_sub (n : ℕ) (c d : ℕ → K) (t : K) :
    bernSum n (fun i => c i - d i) t = bernSum n c t - bernSum n d t := by
  unfold bernSum; rw [← sum_sub_distrib]; apply sum_congr rfl; intros; ring

/-- Degree elevation. -/
theorem bernSum_elevate [CharZero K] (n : ℕ) (c d : ℕ → K)
    (hd : ∀ i ≤ n + 1, d i = ((n + 1 : K) - i) / (n + 1) * (if i ≤ n then c i else 0)
      + i / (n + 1) * (if i = 0 then 0 else c (i - 1))) (t : K) :
    bernSum (n + 1) d t = bernSum n c t := by
  have hn : (n + 1 : K) ≠ 0 := by exact_mod_cast Nat.succ_ne_zero n
  have h1 : ∀ i ≤ n, bern (n + 1) i t * ((n + 1 - i) / (n + 1)) = (1 - t) * bern n i t := by
    intro i hi
    unfold bern
    have hc : ((n + 1).choose i : K) * (n + 1 - i) = (n.choose i : K) * (n + 1) := by
      have := Nat.choose_mul_succ_eq n i
      have h2 : ((n + 1 - i : ℕ) : K) = n + 1 - i := by
        rw [Nat.cast_sub (by omega)]; push_cast; ring
      rw [← h2]; exact_mod_cast this.symm
    rw [show n + 1 - i = (n - i) + 1 by omega, pow_succ]
    field_simp
    linear_combination (1 - t) ^ (n - i) * t ^ i * (1 - t) * hc
  have h2 : ∀ i, bern (n + 1) (i + 1) t * ((i + 1) / (n + 1)) = t * bern n i t := by
    intro i
    unfold bern
    have hc : ((n + 1).choose (i + 1) : K) * (i + 1) = (n + 1) * (n.choose i : K) := by
      have := Nat.add_one_mul_choose_eq n i
      exact_mod_cast this.symm
    rw [show n + 1 - (i + 1) = n - i by omega, pow_succ]
    field_simp
    linear_combination (1 - t) ^ (n - i) * t ^ i * t * hc
  have h3 : bernSum (n + 1) d t =
      ∑ i ∈ range (n + 2), bern (n + 1) i t * ((n + 1 - i) / (n + 1)) * (if i ≤ n then c i else 0)
      + ∑ i ∈ range (n + 2), bern (n + 1) i t * (i / (n + 1)) * (if i = 0 then 0 else c (i - 1)) := by
    unfold bernSum
    rw [← sum_add_distrib]
    apply sum_congr rfl
    intro i hi
    rw [hd i (by simp at hi; omega)]; ring
  rw [h3, sum_range_succ, sum_range_succ' _ (n + 1)]
  simp only [add_le_iff_nonpos_right, nonpos_iff_eq_zero, one_ne_zero, if_false, mul_zero, add_zero,
    if_true, Nat.add_eq_zero_iff, and_false, Nat.add_sub_cancel]
  unfold bernSum
  have e1 : ∑ i ∈ range (n + 1), bern (n + 1) i t * ((n + 1 - i) / (n + 1)) * (if i ≤ n then c i else 0)
      = ∑ i ∈ range (n + 1), (1 - t) * (bern n i t * c i) := by
    apply sum_congr rfl
    intro i hi
    have : i ≤ n := by simp at hi; omega
    rw [h1 i this, if_pos this]; ring
  have e2 : ∑ i ∈ range (n + 1), bern (n + 1) (i + 1) t * (((i + 1 : ℕ) : K) / (n + 1)) * c i
      = ∑ i ∈ range (n + 1), t * (bern n i t * c i) := by
    apply sum_congr rfl
    intro i hi
    push_cast
    rw [h2 i]; ring
  rw [e1, e2, ← sum_add_distrib]
  apply sum_congr rfl
  intros; ring

end field

/-- The derivative of a polynomial in Bernstein form. -/
theorem hasDerivAt_bernSum (n : ℕ) (c : ℕ → ℝ) (t : ℝ) :
    HasDerivAt (bernSum (n + 1) c) (bernSum n (fun i => (n + 1) * (c (i + 1) - c i)) t) t := by
  induction n generalizing c with
  | zero =>
    have e : bernSum (0 + 1) c = fun t => (1 - t) * c 0 + t * c 1 := by
      funext t; rw [bernSum_lerp, bernSum_zero_deg, bernSum_zero_deg]
    rw [e, bernSum_zero_deg]
    have h1 : HasDerivAt (fun t : ℝ => (1 - t) * c 0 + t * c 1) ((0 - 1) * c 0 + 1 * c 1) t :=
      (((hasDerivAt_const t (1:ℝ)).sub (hasDerivAt_id t)).mul_const _).add
        ((hasDerivAt_id t).mul_const _)
    convert h1 using 1
    simp; ring
  | succ n ih =>
    have e : bernSum (n + 1 + 1) c =
        fun t => (1 - t) * bernSum (n + 1) c t + t * bernSum (n + 1) (fun i => c (i + 1)) t := by
      funext t; rw [bernSum_lerp]
    rw [e]
    have h1 := (((hasDerivAt_const t (1:ℝ)).sub (hasDerivAt_id t)).mul (ih c)).add
        ((hasDerivAt_id t).mul (ih fun i => c (i + 1)))
    refine HasDerivAt.congr_deriv (f' := _) h1 ?_
    simp only [bernSum_smul, bernSum_sub, id]
    rw [bernSum_lerp n c t, bernSum_lerp n (fun i => c (i + 1)) t]
    simp only [Pi.sub_apply]
    push_cast
    simp only [id]
    ring

/-- A polynomial in Bernstein form with non-decreasing coefficients is non-decreasing on [0, 1]. -/
theorem bernSum_monotoneOn (n : ℕ) (c : ℕ → ℝ) (h : ∀ i < n, c i ≤ c (i + 1)) :
    MonotoneOn (bernSum n c) (Set.Icc 0 1) := by
  cases n with
  | zero => intro x _ y _ _; rw [bernSum_zero_deg, bernSum_zero_deg]
  | succ n =>
    apply monotoneOn_of_deriv_nonneg (convex_Icc 0 1)
    · intro x _
      exact (hasDerivAt_bernSum n c x).continuousAt.continuousWithinAt
    · intro x _
      exact (hasDerivAt_bernSum n c x).differentiableAt.differentiableWithinAt
    · intro x hx
      rw [interior_Icc] at hx
      rw [(hasDerivAt_bernSum n c x).deriv]
      have := bernSum_mono n (c := fun _ => 0) (d := fun i => (n + 1) * (c (i + 1) - c i)) (by
        intro i hi
        have := h i (by omega)
        have : 0 ≤ c (i + 1) - c i := by linarith
        positivity) hx.1.le hx.2.le
      rwa [bernSum_const] at this

end Spec

namespace Bezier

theorem hasDerivAt_curve_step (ps : Segment ℝ) (h : 2 ≤ ps.length) (t : ℝ) :
    HasDerivAt (fun t => (curve ps t).1) (curve (dcStep ps) t).1 t ∧
    HasDerivAt (fun t => (curve ps t).2) (curve (dcStep ps) t).2 t := by
  obtain ⟨n, hn⟩ : ∃ n, ps.length = n + 2 := ⟨ps.length - 2, by omega⟩
  have key : ∀ l m : List ℝ, l.length = n + 2 → m.length = n + 1 →
      (∀ i (h : i < n + 1), m.getD i 0 = (n + 1) * (l.getD (i + 1) 0 - l.getD i 0)) →
      HasDerivAt (bernList l) (bernList m t) t := by
    intro l m h1 h2 h3
    have e1 : bernList l = bernSum (n + 1) fun i => l.getD i 0 := by
      funext t; unfold bernList; rw [h1]; rfl
    have e2 : bernList m t = bernSum n (fun i => (n + 1) * (l.getD (i + 1) 0 - l.getD i 0)) t := by
      unfold bernList; rw [h2]
      apply bernSum_congr
      intro i hi
      exact h3 i (by omega)
    rw [e1, e2]
    exact hasDerivAt_bernSum n _ t
  unfold curve
  constructor
  · refine key _ _ (by simpa using hn) (by simp [dcStep, hn]) ?_
    intro i hi
    have a1 : i < (dcStep ps).length := by rw [dcStep_length]; omega
    have a2 : i < ps.length := by omega
    have a3 : i + 1 < ps.length := by omega
    simp only [List.getD_eq_getElem?_getD, List.getElem?_map, List.getElem?_eq_getElem a1,
      List.getElem?_eq_getElem a2, List.getElem?_eq_getElem a3, Option.map_some, Option.getD_some]
    simp [dcStep, hn]
  · refine key _ _ (by simpa using hn) (by simp [dcStep, hn]) ?_
    intro i hi
    have a1 : i < (dcStep ps).length := by rw [dcStep_length]; omega
    have a2 : i < ps.length := by omega
    have a3 : i + 1 < ps.length := by omega
    simp only [List.getD_eq_getElem?_getD, List.getElem?_map, List.getElem?_eq_getElem a1,
      List.getElem?_eq_getElem a2, List.getElem?_eq_getElem a3, Option.map_some, Option.getD_some]
    simp [dcStep, hn]

theorem dcPoints_cons (ps : Segment ℝ) (h : 2 ≤ ps.length) :
    dcPoints ps = dcStep ps :: dcPoints (dcStep ps) := by
  rw [dcPoints, if_pos (by omega)]

/-- For quadratics and cubics `_derivative` evaluates the derivative curve. -/
theorem derivative_ok (ps : Segment ℝ) (h : ps.length = 3 ∨ ps.length = 4) (t : ℝ) :
    derivative ps t = .ok (curve (dcStep ps) t) := by
  unfold derivative
  rw [dcPoints_cons ps (by omega)]
  rcases h with h | h
  · match ps, h with
    | [a, b, c], _ =>
      have e : order [a, b, c] = 2 := rfl
      simp only [pyGet_zero_cons, ok_bind, e, derivativeOf, dcStep, List.tail, List.zipWith]
      simp [curve_two]
  · match ps, h with
    | [a, b, c, d], _ =>
      have e : order [a, b, c, d] = 3 := rfl
      simp only [pyGet_zero_cons, ok_bind, e, derivativeOf, dcStep, List.tail, List.zipWith]
      simp [curve_three]
      constructor <;> ring

end Bezier
end PathLib
