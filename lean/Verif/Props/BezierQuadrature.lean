import Verif.Props.BezierLength
import Mathlib.Analysis.SpecialFunctions.Integrals.Basic
import Mathlib.Topology.Algebra.Polynomial
import Mathlib.Algebra.Polynomial.Eval.Degree
import Mathlib.Algebra.Polynomial.Degree.Operations

set_option linter.unusedSectionVars false
set_option linter.unusedSimpArgs false

/-!
# Accuracy of the curve length: C73

`length` compared with the integral of the speed.
-/

namespace PathLib
open Spec Bezier Polynomial

/-- How fast the curve is traversed at `t`: the length of the derivative of the curve. -/
noncomputable def Spec.speed (ps : Segment ℝ) (t : ℝ) : ℝ :=
  vlen (deriv (fun t => (curve ps t).1) t, deriv (fun t => (curve ps t).2) t)

/-- The arc length: the integral of the speed. -/
noncomputable def Spec.arcLength (ps : Segment ℝ) : ℝ := ∫ t in (0:ℝ)..1, speed ps t

/-- The sum of the absolute values of the coefficients. -/
noncomputable def Spec.coeffSum (p : ℝ[X]) : ℝ := p.sum fun _ a => |a|

private theorem coeffSum_range (p : ℝ[X]) (n : ℕ) (h : p.natDegree < n) :
    coeffSum p = ∑ i ∈ Finset.range n, |p.coeff i| :=
  Polynomial.sum_over_range' p (fun _ => abs_zero) n h

private theorem coeffSum_nonneg (p : ℝ[X]) : 0 ≤ coeffSum p :=
  Finset.sum_nonneg fun _ _ => abs_nonneg _

private theorem coeffSum_add (p q : ℝ[X]) : coeffSum (p + q) ≤ coeffSum p + coeffSum q := by
  set n := p.natDegree + q.natDegree + (p + q).natDegree + 1 with hn
  rw [coeffSum_range p n (by omega), coeffSum_range q n (by omega), coeffSum_range (p + q) n (by omega),
    ← Finset.sum_add_distrib]
  apply Finset.sum_le_sum
  intro i _
  rw [coeff_add]
  exact abs_add_le _ _

private theorem coeffSum_monomial (i : ℕ) (a : ℝ) : coeffSum (monomial i a) = |a| :=
  sum_monomial_index a _ abs_zero

private theorem coeffSum_zero : coeffSum 0 = 0 := by simp [coeffSum]

private theorem coeffSum_sum {ι : Type} (s : Finset ι) (f : ι → ℝ[X]) :
    coeffSum (∑ i ∈ s, f i) ≤ ∑ i ∈ s, coeffSum (f i) := by
  classical
  induction s using Finset.induction_on with
  | empty => simp [coeffSum_zero]
  | insert i s hi ih =>
    simp only [Finset.sum_insert hi]
    exact (coeffSum_add _ _).trans (add_le_add_right ih _)

private theorem coeffSum_mul (p q : ℝ[X]) : coeffSum (p * q) ≤ coeffSum p * coeffSum q := by
  rw [mul_eq_sum_sum]
  refine (coeffSum_sum _ _).trans ?_
  unfold coeffSum
  simp only [Polynomial.sum]
  rw [Finset.sum_mul]
  apply Finset.sum_le_sum
  intro i _
  refine (coeffSum_sum _ _).trans ?_
  rw [Finset.mul_sum]
  apply Finset.sum_le_sum
  intro j _
  rw [coeffSum_monomial, abs_mul]

private theorem coeffSum_C (a : ℝ) : coeffSum (C a) = |a| := coeffSum_monomial 0 a

/-- The tables integrate the powers up to 47 with an error of at most 1e-39. -/
private theorem table : ∀ k : ℕ, k < 48 → |quadQ (fun x => (2 * x - 1) ^ k) - (1 - (-1) ^ (k + 1)) / (2 * (k + 1))| ≤ 1 / 10 ^ 39 := by
  decide +kernel

private theorem power (k : ℕ) (hk : k < 48) :
    |quad (fun t => (2 * t - 1) ^ k) - ∫ t in (0:ℝ)..1, (2 * t - 1) ^ k| ≤ 1 / 10 ^ 39 := by
  have h := table k hk
  have e : ∫ t in (0:ℝ)..1, (2 * t - 1) ^ k = (1 - (-1) ^ (k + 1)) / (2 * (k + 1)) := by
    have := intervalIntegral.integral_comp_mul_sub (a := 0) (b := 1) (fun x : ℝ => x ^ k) (two_ne_zero) 1
    rw [this, integral_pow]
    norm_num
    field_simp
  rw [e, quad_cast _ (fun x => (2 * x - 1) ^ k) (by intro x; push_cast; rfl)]
  have h2 : ((|quadQ (fun x => (2 * x - 1) ^ k) - (1 - (-1) ^ (k + 1)) / (2 * (k + 1))| : ℚ) : ℝ) ≤
    ((1 / 10 ^ 39 : ℚ) : ℝ) := by exact_mod_cast h
  push_cast at h2
  exact h2

private theorem polynomial (p : ℝ[X]) (hp : p.natDegree ≤ 47) :
    |quad (fun t => p.eval (2 * t - 1)) - ∫ t in (0:ℝ)..1, p.eval (2 * t - 1)| ≤ 1 / 10 ^ 39 * coeffSum p := by
  have e : (fun t : ℝ => p.eval (2 * t - 1)) = fun t => ∑ i ∈ Finset.range 48, p.coeff i * (2 * t - 1) ^ i := by
    funext t
    exact eval_eq_sum_range' (by omega) _
  rw [e, quad_sum, intervalIntegral.integral_finsetSum, ← Finset.sum_sub_distrib, coeffSum_range p 48 (by omega),
    Finset.mul_sum]
  · refine (Finset.abs_sum_le_sum_abs _ _).trans (Finset.sum_le_sum fun i hi => ?_)
    rw [quad_smul, intervalIntegral.integral_const_mul, ← mul_sub, abs_mul, mul_comm]
    exact mul_le_mul_of_nonneg_right (power i (Finset.mem_range.mp hi)) (abs_nonneg _)
  · intro i _
    apply Continuous.intervalIntegrable
    fun_prop

private theorem quad_one : quad (fun _ => 1) ≤ 1 + 1 / 10 ^ 39 := by
  have := power 0 (by norm_num)
  simp only [pow_zero, intervalIntegral.integral_const, sub_zero, smul_eq_mul, mul_one] at this
  linarith [(abs_le.mp this).2]

/-- The quadrature of a function that is close to a polynomial. -/
private theorem approx (F : ℝ → ℝ) (hF : Continuous F) (p : ℝ[X]) (hp : p.natDegree ≤ 47) (δ : ℝ)
    (h : ∀ t, 0 ≤ t → t ≤ 1 → |F t - p.eval (2 * t - 1)| ≤ δ) :
    |quad F - ∫ t in (0:ℝ)..1, F t| ≤ (2 + 1 / 10 ^ 39) * δ + 1 / 10 ^ 39 * coeffSum p := by
  have hδ : 0 ≤ δ := (abs_nonneg _).trans (h 0 le_rfl zero_le_one)
  have hG : Continuous fun t : ℝ => p.eval (2 * t - 1) := by
    exact p.continuous.comp (by fun_prop)
  have h1 : |quad F - quad (fun t => p.eval (2 * t - 1))| ≤ δ * (1 + 1 / 10 ^ 39) := by
    have a : quad F ≤ quad (fun t => p.eval (2 * t - 1) + δ * 1) :=
      quad_mono _ _ fun t h0 h1 => by have := (abs_le.mp (h t h0.le h1.le)).2; linarith
    have b : quad (fun t => p.eval (2 * t - 1)) ≤ quad (fun t => F t + δ * 1) :=
      quad_mono _ _ fun t h0 h1 => by have := (abs_le.mp (h t h0.le h1.le)).1; linarith
    rw [quad_add, quad_smul] at a b
    have := mul_le_mul_of_nonneg_left quad_one hδ
    rw [abs_le]
    constructor <;> linarith
  have h2 : |(∫ t in (0:ℝ)..1, p.eval (2 * t - 1)) - ∫ t in (0:ℝ)..1, F t| ≤ δ := by
    rw [← intervalIntegral.integral_sub (hG.intervalIntegrable _ _) (hF.intervalIntegrable _ _)]
    have := intervalIntegral.norm_integral_le_of_norm_le_const (a := (0:ℝ)) (b := 1) (C := δ)
      (f := fun t => p.eval (2 * t - 1) - F t) (by
        intro t ht
        rw [Set.uIoc_of_le zero_le_one] at ht
        rw [Real.norm_eq_abs, abs_sub_comm]
        exact h t ht.1.le ht.2)
    simpa using this
  have h3 := polynomial p hp
  have := abs_le.mp h1
  have := abs_le.mp h2
  have := abs_le.mp h3
  rw [abs_le]
  constructor <;> linarith

private theorem speed_eq (ps : Segment ℝ) (h : 2 ≤ ps.length) (t : ℝ) : speed ps t = vlen (curve (dcStep ps) t) := by
  obtain ⟨h1, h2⟩ := hasDerivAt_curve_step ps h t
  unfold speed
  rw [h1.deriv, h2.deriv]

private theorem lengthOf_speed (ps : Segment ℝ) (h : ps.length = 3 ∨ ps.length = 4) :
    lengthOf ps = .ok (quad (speed ps)) := by
  rw [lengthOf_curve ps h]
  congr 2
  funext t
  exact (speed_eq ps (by omega) t).symm

private theorem speed_continuous (ps : Segment ℝ) (h : 2 ≤ ps.length) : Continuous (speed ps) := by
  have e : speed ps = fun t => vlen (curve (dcStep ps) t) := funext (speed_eq ps h)
  rw [e]
  unfold vlen curve bernList bernSum bern
  fun_prop

/-- C73: let the speed of a quadratic or cubic be within `δ` of a polynomial of degree at most 47 in `2 * t - 1`. The
returned length differs from the arc length by at most `2 * δ`, up to 1e-39 of `δ` and of the coefficients of the
polynomial. -/
theorem C73_approx (ps : Segment ℝ) (h : ps.length = 3 ∨ ps.length = 4) (p : ℝ[X]) (hp : p.natDegree ≤ 47) (δ : ℝ)
    (hδ : ∀ t, 0 ≤ t → t ≤ 1 → |speed ps t - p.eval (2 * t - 1)| ≤ δ) :
    ∃ l, lengthOf ps = .ok l ∧ |l - arcLength ps| ≤ (2 + 1e-39) * δ + 1e-39 * coeffSum p := by
  refine ⟨_, lengthOf_speed ps h, ?_⟩
  have := approx (speed ps) (speed_continuous ps (by omega)) p hp δ hδ
  norm_num at this ⊢
  exact this

/-- C73: when the speed is a polynomial of degree at most 47 the returned length is the arc length, up to 1e-39 of the
coefficients. -/
theorem C73_polynomial_speed (ps : Segment ℝ) (h : ps.length = 3 ∨ ps.length = 4) (p : ℝ[X]) (hp : p.natDegree ≤ 47)
    (hs : ∀ t, 0 ≤ t → t ≤ 1 → speed ps t = p.eval (2 * t - 1)) :
    ∃ l, lengthOf ps = .ok l ∧ |l - arcLength ps| ≤ 1e-39 * coeffSum p := by
  obtain ⟨l, e, hl⟩ := C73_approx ps h p hp 0 (fun t h0 h1 => by rw [hs t h0 h1]; simp)
  exact ⟨l, e, by simpa using hl⟩

/-- The polynomial with the coefficients `l` at `u`. -/
private noncomputable def horner (l : List ℚ) (u : ℝ) : ℝ := l.foldr (fun (a : ℚ) s => (a : ℝ) + u * s) 0

private noncomputable def hornerPoly (l : List ℚ) (u : ℝ[X]) : ℝ[X] := l.foldr (fun (a : ℚ) s => C (a : ℝ) + u * s) 0

private def hornerQ (l : List ℚ) (u : ℚ) : ℚ := l.foldr (fun (a : ℚ) s => |a| + u * s) 0

private theorem horner_abs (l : List ℚ) (u : ℝ) (U : ℚ) (h : |u| ≤ U) : |horner l u| ≤ hornerQ l U := by
  induction l with
  | nil => simp [horner, hornerQ]
  | cons a l ih =>
    simp only [horner, hornerQ, List.foldr_cons] at *
    push_cast
    refine (abs_add_le _ _).trans (add_le_add_right ?_ _)
    rw [abs_mul]
    exact mul_le_mul h ih (abs_nonneg _) ((abs_nonneg _).trans h)

private theorem hornerPoly_eval (l : List ℚ) (u : ℝ[X]) (x : ℝ) : (hornerPoly l u).eval x = horner l (u.eval x) := by
  induction l with
  | nil => simp [horner, hornerPoly]
  | cons a l ih =>
    simp only [horner, hornerPoly, List.foldr_cons] at *
    rw [eval_add, eval_mul, eval_C, ih]

private theorem hornerPoly_degree (l : List ℚ) (u : ℝ[X]) : (hornerPoly l u).natDegree ≤ (l.length - 1) * u.natDegree := by
  induction l with
  | nil => simp [hornerPoly]
  | cons a l ih =>
    simp only [hornerPoly, List.foldr_cons] at *
    refine (natDegree_add_le _ _).trans (max_le (by simp) ?_)
    cases l with
    | nil => simp
    | cons b l =>
      refine natDegree_mul_le.trans ?_
      simp only [List.length_cons, Nat.add_sub_cancel] at *
      rw [add_mul, one_mul, add_comm]
      exact Nat.add_le_add_right ih _

private theorem hornerPoly_coeffSum (l : List ℚ) (u : ℝ[X]) (U : ℚ) (h : coeffSum u ≤ U) :
    coeffSum (hornerPoly l u) ≤ hornerQ l U := by
  induction l with
  | nil => simp [hornerPoly, hornerQ, coeffSum_zero]
  | cons a l ih =>
    simp only [hornerPoly, hornerQ, List.foldr_cons] at *
    push_cast
    refine (coeffSum_add _ _).trans ?_
    rw [coeffSum_C]
    refine add_le_add_right ((coeffSum_mul _ _).trans ?_) _
    exact mul_le_mul h ih (coeffSum_nonneg _) ((coeffSum_nonneg _).trans h)

private def root12 : List ℚ := [1, 1/2, -1/8, 1/16, -5/128, 7/256, -21/1024, 33/2048, -429/32768, 715/65536, -2431/262144, 4199/524288]

private def rest12 : List ℚ := [29393/2097152, -11305/2097152, 26163/8388608, -4199/2097152, 1440257/1073741824, -980343/1073741824, 665665/1073741824, -221221/536870912, 17918901/68719476736, -10207769/68719476736, 17631601/274877906944]

private def root24 : List ℚ := [1, 1/2, -1/8, 1/16, -5/128, 7/256, -21/1024, 33/2048, -429/32768, 715/65536, -2431/262144, 4199/524288, -29393/4194304, 52003/8388608, -185725/33554432, 334305/67108864, -9694845/2147483648, 17678835/4294967296, -64822395/17179869184, 119409675/34359738368, -883631595/274877906944, 1641030105/549755813888, -6116566755/2199023255552, 11435320455/4398046511104]

private def rest24 : List ℚ := [171529806825/35184372088832, -75473115003/35184372088832, 99751179969/70368744177664, -36651668125/35184372088832, 1810592405375/2251799813685248, -1437301484775/2251799813685248, 4645500354495/9007199254740992, -474750239535/1125899906842624, 1602282058430625/4611686018427387904, -1326783055791375/4611686018427387904, 550782209715075/2305843009213693952, -228786456343185/1152921504606846976, 12148278379407885/73786976294838206464, -10045117730090625/73786976294838206464, 33035597707831875/295147905179352825856, -6732610890883875/73786976294838206464, 5551710940622843325/75557863725914323419136, -4393350264756056175/75557863725914323419136, 6779861519685271875/151115727451828646838272, -2517760079648116875/75557863725914323419136, 112475209376280421125/4835703278458516698824704, -69944900927824473525/4835703278458516698824704, 130766553908541407025/19342813113834066795298816]

private theorem root12_sq (u : ℝ) : horner root12 u ^ 2 = 1 + u + u ^ 12 * horner rest12 u := by
  simp only [horner, root12, rest12, List.foldr_cons, List.foldr_nil]
  push_cast
  ring

private theorem root24_sq (u : ℝ) : horner root24 u ^ 2 = 1 + u + u ^ 24 * horner rest24 u := by
  simp only [horner, root24, rest24, List.foldr_cons, List.foldr_nil]
  push_cast
  ring

private theorem sqrt_near (u P R r b : ℝ) (n : ℕ) (hu : -1 ≤ u) (hb : 0 < b) (hP : b ≤ P)
    (h : P ^ 2 = 1 + u + u ^ n * R) (hR : |R| ≤ r) : |Real.sqrt (1 + u) - P| ≤ r / b * |u| ^ n := by
  set s := Real.sqrt (1 + u) with hs
  have s0 : 0 ≤ s := Real.sqrt_nonneg _
  have s2 : s ^ 2 = 1 + u := Real.sq_sqrt (by linarith)
  have e : (s - P) * (s + P) = -(u ^ n * R) := by linear_combination s2 - h
  have e2 : |s - P| * (s + P) = |u| ^ n * |R| := by
    rw [← abs_of_pos (show 0 < s + P by linarith), ← abs_mul, e, abs_neg, abs_mul, abs_pow]
  have h1 : |s - P| * b ≤ |u| ^ n * r := by
    refine (mul_le_mul_of_nonneg_left (by linarith) (abs_nonneg _)).trans (e2.le.trans ?_)
    exact mul_le_mul_of_nonneg_left hR (by positivity)
  rw [div_mul_eq_mul_div, le_div_iff₀ hb]
  linarith

private theorem root12_near (u : ℝ) (hu : |u| ≤ 1) : |Real.sqrt (1 + u) - horner root12 u| ≤ 17 / 100 * |u| ^ 12 := by
  have k1 : hornerQ root12.tail 1 ≤ 0.832 := by decide +kernel
  have k2 : hornerQ rest12 1 ≤ 0.0284 := by decide +kernel
  have a1 := horner_abs root12.tail u 1 (by exact_mod_cast hu)
  have a2 := horner_abs rest12 u 1 (by exact_mod_cast hu)
  have k1' : ((hornerQ root12.tail 1 : ℚ) : ℝ) ≤ 0.832 := by
    have : ((hornerQ root12.tail 1 : ℚ) : ℝ) ≤ ((0.832 : ℚ) : ℝ) := by exact_mod_cast k1
    norm_num at this ⊢; exact this
  have k2' : ((hornerQ rest12 1 : ℚ) : ℝ) ≤ 0.0284 := by
    have : ((hornerQ rest12 1 : ℚ) : ℝ) ≤ ((0.0284 : ℚ) : ℝ) := by exact_mod_cast k2
    norm_num at this ⊢; exact this
  have e : horner root12 u = 1 + u * horner root12.tail u := by
    simp [horner, root12]
  have b : |u * horner root12.tail u| ≤ 0.832 := by
    rw [abs_mul]
    have := mul_le_mul hu (a1.trans k1') (abs_nonneg _) zero_le_one
    linarith
  have := sqrt_near u (horner root12 u) (horner rest12 u) 0.0284 0.168 12 (abs_le.mp hu).1 (by norm_num)
    (by rw [e]; have := (abs_le.mp b).1; norm_num at this ⊢; linarith) (root12_sq u) (a2.trans k2')
  refine this.trans (mul_le_mul_of_nonneg_right (by norm_num) (by positivity))

private theorem root24_near (u : ℝ) (hu : |u| ≤ 1) : |Real.sqrt (1 + u) - horner root24 u| ≤ 12 / 100 * |u| ^ 24 := by
  have k1 : hornerQ root24.tail 1 ≤ 0.883 := by decide +kernel
  have k2 : hornerQ rest24 1 ≤ 0.0137 := by decide +kernel
  have a1 := horner_abs root24.tail u 1 (by exact_mod_cast hu)
  have a2 := horner_abs rest24 u 1 (by exact_mod_cast hu)
  have k1' : ((hornerQ root24.tail 1 : ℚ) : ℝ) ≤ 0.883 := by
    have : ((hornerQ root24.tail 1 : ℚ) : ℝ) ≤ ((0.883 : ℚ) : ℝ) := by exact_mod_cast k1
    norm_num at this ⊢; exact this
  have k2' : ((hornerQ rest24 1 : ℚ) : ℝ) ≤ 0.0137 := by
    have : ((hornerQ rest24 1 : ℚ) : ℝ) ≤ ((0.0137 : ℚ) : ℝ) := by exact_mod_cast k2
    norm_num at this ⊢; exact this
  have e : horner root24 u = 1 + u * horner root24.tail u := by
    simp [horner, root24]
  have b : |u * horner root24.tail u| ≤ 0.883 := by
    rw [abs_mul]
    have := mul_le_mul hu (a1.trans k1') (abs_nonneg _) zero_le_one
    linarith
  have := sqrt_near u (horner root24 u) (horner rest24 u) 0.0137 0.117 24 (abs_le.mp hu).1 (by norm_num)
    (by rw [e]; have := (abs_le.mp b).1; norm_num at this ⊢; linarith) (root24_sq u) (a2.trans k2')
  refine this.trans (mul_le_mul_of_nonneg_right (by norm_num) (by positivity))

/-- A curve whose squared speed is `c * (1 + U)` for a polynomial `U` with values of at most `q`. -/
private theorem accuracy (ps : Segment ℝ) (h : ps.length = 3 ∨ ps.length = 4) (c q : ℝ) (U : ℝ[X]) (root : List ℚ)
    (n : ℕ) (K B : ℚ) (hc : 0 ≤ c) (hq : q ≤ 1) (hK : (0:ℝ) ≤ K)
    (near : ∀ u : ℝ, |u| ≤ 1 → |Real.sqrt (1 + u) - horner root u| ≤ K * |u| ^ n)
    (deg : (root.length - 1) * U.natDegree ≤ 47) (hB : coeffSum U ≤ B)
    (hU : ∀ t, 0 ≤ t → t ≤ 1 → |U.eval (2 * t - 1)| ≤ q)
    (hs : ∀ t, 0 ≤ t → t ≤ 1 → speed ps t ^ 2 = c * (1 + U.eval (2 * t - 1))) :
    ∃ l, lengthOf ps = .ok l ∧
      |l - arcLength ps| ≤ Real.sqrt c * ((2 + 1e-39) * K * q ^ n + 1e-39 * hornerQ root B) := by
  have dp : (C (Real.sqrt c) * hornerPoly root U).natDegree ≤ 47 := by
    refine (natDegree_C_mul_le _ _).trans ((hornerPoly_degree _ _).trans deg)
  obtain ⟨l, e, hl⟩ := C73_approx ps h (C (Real.sqrt c) * hornerPoly root U) dp (Real.sqrt c * (K * q ^ n)) (by
    intro t h0 h1
    have hu := hU t h0 h1
    have s0 : 0 ≤ speed ps t := vlen_nonneg _
    have e : speed ps t = Real.sqrt c * Real.sqrt (1 + U.eval (2 * t - 1)) := by
      rw [← Real.sqrt_mul hc, ← hs t h0 h1, Real.sqrt_sq s0]
    rw [e, eval_mul, eval_C, hornerPoly_eval, ← mul_sub, abs_mul, abs_of_nonneg (Real.sqrt_nonneg _)]
    refine mul_le_mul_of_nonneg_left ((near _ (hu.trans hq)).trans ?_) (Real.sqrt_nonneg _)
    exact mul_le_mul_of_nonneg_left (pow_le_pow_left₀ (abs_nonneg _) hu _) hK)
  refine ⟨l, e, hl.trans ?_⟩
  have k : coeffSum (C (Real.sqrt c) * hornerPoly root U) ≤ Real.sqrt c * hornerQ root B := by
    refine (coeffSum_mul _ _).trans ?_
    rw [coeffSum_C, abs_of_nonneg (Real.sqrt_nonneg _)]
    exact mul_le_mul_of_nonneg_left (hornerPoly_coeffSum _ _ _ hB) (Real.sqrt_nonneg _)
  norm_num at k ⊢
  nlinarith [k]

/-- The squared speed relative to its middle value, for least and greatest speeds `v` and `V`. -/
private theorem relative (v V s : ℝ) (h0 : 0 ≤ v) (hV : 0 < V) (h1 : v ≤ s) (h2 : s ≤ V) :
    |s ^ 2 / ((V ^ 2 + v ^ 2) / 2) - 1| ≤ (V ^ 2 - v ^ 2) / (V ^ 2 + v ^ 2) := by
  have p : 0 < V ^ 2 + v ^ 2 := by positivity
  have a : v ^ 2 ≤ s ^ 2 := pow_le_pow_left₀ h0 h1 2
  have b : s ^ 2 ≤ V ^ 2 := pow_le_pow_left₀ (h0.trans h1) h2 2
  have e : s ^ 2 / ((V ^ 2 + v ^ 2) / 2) - 1 = (2 * s ^ 2 - (V ^ 2 + v ^ 2)) / (V ^ 2 + v ^ 2) := by field_simp
  rw [e, abs_div, abs_of_pos p]
  apply div_le_div_of_nonneg_right _ p.le
  rw [abs_le]
  constructor <;> linarith

private theorem middle (v V : ℝ) (h0 : 0 ≤ v) (hV : 0 < V) (h : v ≤ V) : Real.sqrt ((V ^ 2 + v ^ 2) / 2) ≤ V := by
  rw [Real.sqrt_le_left hV.le]
  have a : v ^ 2 ≤ V ^ 2 := pow_le_pow_left₀ h0 h 2
  linarith

private theorem ratio (v V : ℝ) (h0 : 0 ≤ v) (hV : 0 < V) (h : v ≤ V) :
    0 ≤ (V ^ 2 - v ^ 2) / (V ^ 2 + v ^ 2) ∧ (V ^ 2 - v ^ 2) / (V ^ 2 + v ^ 2) ≤ 1 := by
  have p : 0 < V ^ 2 + v ^ 2 := by positivity
  have a : v ^ 2 ≤ V ^ 2 := pow_le_pow_left₀ h0 h 2
  constructor
  · apply div_nonneg <;> linarith
  · rw [div_le_one p]; nlinarith [sq_nonneg v]

private theorem speed_quadratic (a b c : Pt ℝ) : ∃ g0 g1 g2 : ℝ, ∀ t,
    speed [a, b, c] t ^ 2 = g0 + g1 * (2 * t - 1) + g2 * (2 * t - 1) ^ 2 := by
  refine ⟨(c.1 - a.1) ^ 2 + (c.2 - a.2) ^ 2,
    2 * ((c.1 - a.1) * (a.1 - 2 * b.1 + c.1) + (c.2 - a.2) * (a.2 - 2 * b.2 + c.2)),
    (a.1 - 2 * b.1 + c.1) ^ 2 + (a.2 - 2 * b.2 + c.2) ^ 2, fun t => ?_⟩
  rw [speed_eq _ (by simp), sq, vlen_sq]
  simp [dcStep, curve_two]
  ring

private theorem speed_cubic (a b c d : Pt ℝ) : ∃ g0 g1 g2 g3 g4 : ℝ, ∀ t,
    speed [a, b, c, d] t ^ 2 = g0 + g1 * (2 * t - 1) + g2 * (2 * t - 1) ^ 2 + g3 * (2 * t - 1) ^ 3 +
      g4 * (2 * t - 1) ^ 4 := by
  have key : ∀ (A B C t : ℝ), (1 - t) ^ 2 * A + 2 * (1 - t) * t * B + t ^ 2 * C =
      (A + 2 * B + C) / 4 + (C - A) / 2 * (2 * t - 1) + (A - 2 * B + C) / 4 * (2 * t - 1) ^ 2 := by
    intros; ring
  have k2 : ∀ (e0 e1 e2 f0 f1 f2 x : ℝ), (e0 + e1 * x + e2 * x ^ 2) * (e0 + e1 * x + e2 * x ^ 2) +
      (f0 + f1 * x + f2 * x ^ 2) * (f0 + f1 * x + f2 * x ^ 2) =
      (e0 ^ 2 + f0 ^ 2) + (2 * e0 * e1 + 2 * f0 * f1) * x + (e1 ^ 2 + 2 * e0 * e2 + f1 ^ 2 + 2 * f0 * f2) * x ^ 2 +
      (2 * e1 * e2 + 2 * f1 * f2) * x ^ 3 + (e2 ^ 2 + f2 ^ 2) * x ^ 4 := by
    intros; ring
  have hx : ∃ e0 e1 e2 f0 f1 f2 : ℝ, ∀ t, speed [a, b, c, d] t ^ 2 =
      (e0 + e1 * (2 * t - 1) + e2 * (2 * t - 1) ^ 2) * (e0 + e1 * (2 * t - 1) + e2 * (2 * t - 1) ^ 2) +
      (f0 + f1 * (2 * t - 1) + f2 * (2 * t - 1) ^ 2) * (f0 + f1 * (2 * t - 1) + f2 * (2 * t - 1) ^ 2) := by
    refine ⟨(3 * (b.1 - a.1) + 2 * (3 * (c.1 - b.1)) + 3 * (d.1 - c.1)) / 4,
      (3 * (d.1 - c.1) - 3 * (b.1 - a.1)) / 2,
      (3 * (b.1 - a.1) - 2 * (3 * (c.1 - b.1)) + 3 * (d.1 - c.1)) / 4,
      (3 * (b.2 - a.2) + 2 * (3 * (c.2 - b.2)) + 3 * (d.2 - c.2)) / 4,
      (3 * (d.2 - c.2) - 3 * (b.2 - a.2)) / 2,
      (3 * (b.2 - a.2) - 2 * (3 * (c.2 - b.2)) + 3 * (d.2 - c.2)) / 4, fun t => ?_⟩
    rw [speed_eq _ (by simp), sq, vlen_sq, ← key, ← key]
    simp [dcStep, curve_three]
  obtain ⟨e0, e1, e2, f0, f1, f2, hx⟩ := hx
  exact ⟨_, _, _, _, _, fun t => (hx t).trans (k2 _ _ _ _ _ _ _)⟩

private theorem monomial_le (a : ℝ) (n : ℕ) : coeffSum (C a * X ^ n) = |a| := by
  rw [C_mul_X_pow_eq_monomial, coeffSum_monomial]

/-- C73: let the speed of a quadratic stay between `v` and `V`. The returned length differs from the arc length by at most
`V * (q ^ 24 / 4 + 1e-20)`, `q = (V² - v²) / (V² + v²)`. -/
theorem C73_quadratic (ps : Segment ℝ) (h : ps.length = 3) (v V : ℝ) (h0 : 0 ≤ v) (hV : 0 < V)
    (hs : ∀ t, 0 ≤ t → t ≤ 1 → v ≤ speed ps t ∧ speed ps t ≤ V) :
    ∃ l, lengthOf ps = .ok l ∧
      |l - arcLength ps| ≤ V * (((V ^ 2 - v ^ 2) / (V ^ 2 + v ^ 2)) ^ 24 / 4 + 1e-20) := by
  match ps, h with
  | [a, b, c], _ =>
    obtain ⟨g0, g1, g2, hg⟩ := speed_quadratic a b c
    have hvV : v ≤ V := (hs 0 le_rfl zero_le_one).1.trans (hs 0 le_rfl zero_le_one).2
    set m := (V ^ 2 + v ^ 2) / 2 with hm
    set q := (V ^ 2 - v ^ 2) / (V ^ 2 + v ^ 2) with hq
    have mp : 0 < m := by positivity
    obtain ⟨q0, q1⟩ := ratio v V h0 hV hvV
    set U : ℝ[X] := C (g0 / m - 1) + C (g1 / m) * X ^ 1 + C (g2 / m) * X ^ 2 with hUdef
    have ev : ∀ t, U.eval (2 * t - 1) = speed [a, b, c] t ^ 2 / m - 1 := by
      intro t
      rw [hg t]
      simp only [U, eval_add, eval_mul, eval_C, eval_pow, eval_X]
      field_simp
      ring
    have hU : ∀ t, 0 ≤ t → t ≤ 1 → |U.eval (2 * t - 1)| ≤ q := by
      intro t t0 t1
      rw [ev t]
      exact relative v V _ h0 hV (hs t t0 t1).1 (hs t t0 t1).2
    have hB : coeffSum U ≤ ((4 : ℚ) : ℝ) := by
      have b : coeffSum U ≤ |g0 / m - 1| + |g1 / m| + |g2 / m| := by
        refine (coeffSum_add _ _).trans (add_le_add ((coeffSum_add _ _).trans (add_le_add ?_ ?_)) ?_)
        · rw [coeffSum_C]
        · rw [monomial_le]
        · rw [monomial_le]
      have u1 := abs_le.mp ((hU 0 le_rfl zero_le_one).trans q1)
      have u2 := abs_le.mp ((hU (1/2) (by norm_num) (by norm_num)).trans q1)
      have u3 := abs_le.mp ((hU 1 zero_le_one le_rfl).trans q1)
      simp only [U, eval_add, eval_mul, eval_C, eval_pow, eval_X] at u1 u2 u3
      norm_num at u1 u2 u3
      have b0 : |g0 / m - 1| ≤ 1 := abs_le.mpr ⟨by linarith, by linarith⟩
      have b1 : |g1 / m| ≤ 1 := abs_le.mpr ⟨by linarith, by linarith⟩
      have b2 : |g2 / m| ≤ 2 := abs_le.mpr ⟨by linarith, by linarith⟩
      push_cast
      linarith
    have dU : U.natDegree ≤ 2 := by
      rw [hUdef]
      compute_degree
    obtain ⟨l, e, hl⟩ := accuracy [a, b, c] (by simp) m q U root24 24 (12 / 100) 4 mp.le q1 (by norm_num)
      (by intro u hu; push_cast; exact root24_near u hu)
      (by have : root24.length = 24 := rfl
          rw [this]; omega)
      hB hU (by intro t _ _; rw [ev t]; field_simp; ring)
    refine ⟨l, e, hl.trans ?_⟩
    have k : hornerQ root24 4 ≤ 10 ^ 19 := by decide +kernel
    have k' : ((hornerQ root24 4 : ℚ) : ℝ) ≤ 10 ^ 19 := by exact_mod_cast k
    have p24 : 0 ≤ q ^ 24 := pow_nonneg q0 _
    refine mul_le_mul (middle v V h0 hV hvV) ?_ ?_ hV.le
    · push_cast
      norm_num at k' ⊢
      nlinarith
    · have : (0:ℝ) ≤ ((hornerQ root24 4 : ℚ) : ℝ) := by
        have : 0 ≤ hornerQ root24 4 := by decide +kernel
        exact_mod_cast this
      positivity

/-- C73: let the speed of a cubic stay between `v` and `V`. The returned length differs from the arc length by at most
`V * (0.35 * q ^ 12 + 1e-20)`, `q = (V² - v²) / (V² + v²)`. -/
theorem C73_cubic (ps : Segment ℝ) (h : ps.length = 4) (v V : ℝ) (h0 : 0 ≤ v) (hV : 0 < V)
    (hs : ∀ t, 0 ≤ t → t ≤ 1 → v ≤ speed ps t ∧ speed ps t ≤ V) :
    ∃ l, lengthOf ps = .ok l ∧
      |l - arcLength ps| ≤ V * (0.35 * ((V ^ 2 - v ^ 2) / (V ^ 2 + v ^ 2)) ^ 12 + 1e-20) := by
  match ps, h with
  | [a, b, c, d], _ =>
    obtain ⟨g0, g1, g2, g3, g4, hg⟩ := speed_cubic a b c d
    have hvV : v ≤ V := (hs 0 le_rfl zero_le_one).1.trans (hs 0 le_rfl zero_le_one).2
    set m := (V ^ 2 + v ^ 2) / 2 with hm
    set q := (V ^ 2 - v ^ 2) / (V ^ 2 + v ^ 2) with hq
    have mp : 0 < m := by positivity
    obtain ⟨q0, q1⟩ := ratio v V h0 hV hvV
    set U : ℝ[X] := C (g0 / m - 1) + C (g1 / m) * X ^ 1 + C (g2 / m) * X ^ 2 + C (g3 / m) * X ^ 3 +
      C (g4 / m) * X ^ 4 with hUdef
    have ev : ∀ t, U.eval (2 * t - 1) = speed [a, b, c, d] t ^ 2 / m - 1 := by
      intro t
      rw [hg t]
      simp only [U, eval_add, eval_mul, eval_C, eval_pow, eval_X]
      field_simp
      ring
    have hU : ∀ t, 0 ≤ t → t ≤ 1 → |U.eval (2 * t - 1)| ≤ q := by
      intro t t0 t1
      rw [ev t]
      exact relative v V _ h0 hV (hs t t0 t1).1 (hs t t0 t1).2
    have hB : coeffSum U ≤ ((33 : ℚ) : ℝ) := by
      have b : coeffSum U ≤ |g0 / m - 1| + |g1 / m| + |g2 / m| + |g3 / m| + |g4 / m| := by
        refine (coeffSum_add _ _).trans (add_le_add ((coeffSum_add _ _).trans (add_le_add
          ((coeffSum_add _ _).trans (add_le_add ((coeffSum_add _ _).trans (add_le_add ?_ ?_)) ?_)) ?_)) ?_)
        · rw [coeffSum_C]
        all_goals rw [monomial_le]
      have u1 := abs_le.mp ((hU 0 le_rfl zero_le_one).trans q1)
      have u2 := abs_le.mp ((hU (1/2) (by norm_num) (by norm_num)).trans q1)
      have u3 := abs_le.mp ((hU 1 zero_le_one le_rfl).trans q1)
      have u4 := abs_le.mp ((hU (1/4) (by norm_num) (by norm_num)).trans q1)
      have u5 := abs_le.mp ((hU (3/4) (by norm_num) (by norm_num)).trans q1)
      simp only [U, eval_add, eval_mul, eval_C, eval_pow, eval_X] at u1 u2 u3 u4 u5
      norm_num at u1 u2 u3 u4 u5
      have b0 : |g0 / m - 1| ≤ 1 := abs_le.mpr ⟨by linarith, by linarith⟩
      have b1 : |g1 / m| ≤ 3 := abs_le.mpr ⟨by linarith, by linarith⟩
      have b2 : |g2 / m| ≤ 34 / 3 := abs_le.mpr ⟨by linarith, by linarith⟩
      have b3 : |g3 / m| ≤ 4 := abs_le.mpr ⟨by linarith, by linarith⟩
      have b4 : |g4 / m| ≤ 40 / 3 := abs_le.mpr ⟨by linarith, by linarith⟩
      push_cast
      linarith
    have dU : U.natDegree ≤ 4 := by
      rw [hUdef]
      compute_degree
    obtain ⟨l, e, hl⟩ := accuracy [a, b, c, d] (by simp) m q U root12 12 (17 / 100) 33 mp.le q1 (by norm_num)
      (by intro u hu; push_cast; exact root12_near u hu)
      (by have : root12.length = 12 := rfl
          rw [this]; omega)
      hB hU (by intro t _ _; rw [ev t]; field_simp; ring)
    refine ⟨l, e, hl.trans ?_⟩
    have k : hornerQ root12 33 ≤ 10 ^ 18 := by decide +kernel
    have k' : ((hornerQ root12 33 : ℚ) : ℝ) ≤ 10 ^ 18 := by exact_mod_cast k
    have p12 : 0 ≤ q ^ 12 := pow_nonneg q0 _
    refine mul_le_mul (middle v V h0 hV hvV) ?_ ?_ hV.le
    · push_cast
      norm_num at k' ⊢
      nlinarith
    · have : (0:ℝ) ≤ ((hornerQ root12 33 : ℚ) : ℝ) := by
        have : 0 ≤ hornerQ root12 33 := by decide +kernel
        exact_mod_cast this
      positivity

/-- C73 on a quadratic whose speed grows from 2 to the root of 8. -/
example : ∃ l, lengthOf [(0, 0), (1, 0), (2, 1)] = .ok l ∧
    |l - arcLength [(0, 0), (1, 0), (2, 1)]| ≤ 3 * (((3 ^ 2 - 2 ^ 2) / (3 ^ 2 + 2 ^ 2)) ^ 24 / 4 + 1e-20) := by
  refine C73_quadratic _ rfl 2 3 (by norm_num) (by norm_num) ?_
  intro t h0 h1
  have h : speed [(0, 0), (1, 0), (2, 1)] t = Real.sqrt (4 + 4 * t ^ 2) := by
    rw [speed_eq _ (by simp), vlen]
    simp [dcStep, curve_two]
    congr 1; ring
  rw [h]
  exact ⟨Real.le_sqrt_of_sq_le (by nlinarith), Real.sqrt_le_iff.mpr ⟨by norm_num, by nlinarith⟩⟩

/-- C73 on a cubic whose speed grows from 3 to the root of 18. -/
example : ∃ l, lengthOf [(0, 0), (1, 0), (2, 0), (3, 1)] = .ok l ∧
    |l - arcLength [(0, 0), (1, 0), (2, 0), (3, 1)]| ≤
      5 * (0.35 * ((5 ^ 2 - 3 ^ 2) / (5 ^ 2 + 3 ^ 2)) ^ 12 + 1e-20) := by
  refine C73_cubic _ rfl 3 5 (by norm_num) (by norm_num) ?_
  intro t h0 h1
  have h : speed [(0, 0), (1, 0), (2, 0), (3, 1)] t = Real.sqrt (9 + 9 * t ^ 4) := by
    rw [speed_eq _ (by simp), vlen]
    simp [dcStep, curve_three]
    congr 1; ring
  have h4 : t ^ 4 ≤ 1 := pow_le_one₀ h0 h1
  rw [h]
  exact ⟨Real.le_sqrt_of_sq_le (by nlinarith [pow_nonneg h0 4]), Real.sqrt_le_iff.mpr ⟨by norm_num, by nlinarith⟩⟩

/-- C73 on a cubic whose speed is the polynomial `1 + t ^ 2`. -/
example : ∃ l, lengthOf [(0, 0), (1 / 3, 0), (2 / 3, 1 / 3), (2 / 3, 1)] = .ok l ∧
    |l - arcLength [(0, 0), (1 / 3, 0), (2 / 3, 1 / 3), (2 / 3, 1)]| ≤
      1e-39 * coeffSum (C (5 / 4 : ℝ) + C (1 / 2) * X + C (1 / 4) * X ^ 2) := by
  refine C73_polynomial_speed _ (Or.inr rfl) _ (le_trans (b := 2) (by compute_degree) (by norm_num)) ?_
  intro t h0 h1
  rw [speed_eq _ (by simp), vlen]
  simp only [eval_add, eval_mul, eval_C, eval_pow, eval_X]
  rw [show (5 / 4 + 1 / 2 * (2 * t - 1) + 1 / 4 * (2 * t - 1) ^ 2 : ℝ) = 1 + t ^ 2 by ring]
  rw [← Real.sqrt_sq (show (0:ℝ) ≤ 1 + t ^ 2 by positivity)]
  simp [dcStep, curve_three]
  congr 1; ring

end PathLib
