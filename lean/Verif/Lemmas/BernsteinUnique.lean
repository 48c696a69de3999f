import Verif.Lemmas.Bernstein
import Mathlib.Algebra.Polynomial.Roots
import Mathlib.Algebra.CharZero.Infinite

/-!
# A polynomial has only one list of Bernstein coefficients of a given length
-/

namespace PathLib.Spec
open Finset Polynomial

variable {K : Type} [Field K]

private theorem poly_zero (n : ℕ) (a : ℕ → K) (h : ∑ i ∈ range (n + 1), C (a i) * (1 - X) ^ (n - i) * X ^ i = (0 : K[X])) :
    ∀ i ≤ n, a i = 0 := by
  induction n generalizing a with
  | zero =>
    intro i hi
    obtain rfl : i = 0 := by omega
    simpa using h
  | succ n ih =>
    have h0 : a 0 = 0 := by
      have := congrArg (Polynomial.eval 0) h
      rw [Polynomial.eval_finsetSum, sum_range_succ'] at this
      simpa using this
    rw [sum_range_succ', h0] at h
    have h1 : (X : K[X]) * ∑ i ∈ range (n + 1), C (a (i + 1)) * (1 - X) ^ (n - i) * X ^ i = 0 := by
      rw [mul_sum, ← h]
      simp only [C_0, zero_mul, add_zero]
      apply sum_congr rfl
      intro i _
      rw [Nat.add_sub_add_right, pow_succ]
      ring
    have h2 := ih (fun i => a (i + 1)) ((mul_eq_zero.mp h1).resolve_left X_ne_zero)
    intro i hi
    rcases i with _ | i
    · exact h0
    · exact h2 i (by omega)

theorem bernSum_unique [CharZero K] (n : ℕ) (c d : ℕ → K) (h : ∀ t, bernSum n c t = bernSum n d t) : ∀ i ≤ n, c i = d i := by
  have hz : ∑ i ∈ range (n + 1), C ((n.choose i : K) * (c i - d i)) * (1 - X) ^ (n - i) * X ^ i = (0 : K[X]) := by
    apply Polynomial.funext
    intro t
    have := h t
    unfold bernSum bern at this
    rw [← sub_eq_zero, ← sum_sub_distrib] at this
    rw [Polynomial.eval_finsetSum, eval_zero, ← this]
    apply sum_congr rfl
    intro i _
    simp only [eval_mul, eval_C, eval_pow, eval_sub, eval_one, eval_X]
    ring
  intro i hi
  have h1 := poly_zero n _ hz i hi
  have h2 : (n.choose i : K) ≠ 0 := by exact_mod_cast (Nat.choose_pos hi).ne'
  exact sub_eq_zero.mp ((mul_eq_zero.mp h1).resolve_left h2)

/-- Two lists of control points of the same length describe the same curve only if they are equal. -/
theorem curve_unique [CharZero K] (ps qs : List (Pt K)) (hl : ps.length = qs.length) (h : ∀ t, curve ps t = curve qs t) :
    ps = qs := by
  rcases Nat.eq_zero_or_pos ps.length with h0 | h0
  · rw [List.length_eq_zero_iff.mp h0, List.length_eq_zero_iff.mp (hl.symm.trans h0)]
  have key : ∀ f : Pt K → K, (∀ t, bernList (ps.map f) t = bernList (qs.map f) t) → ps.map f = qs.map f := by
    intro f hf
    unfold bernList at hf
    simp only [List.length_map, ← hl] at hf
    have := bernSum_unique _ _ _ hf
    apply List.ext_getElem (by simp [hl])
    intro i h1 h2
    have h3 := this i (by simp at h1; omega)
    rw [List.length_map] at h1 h2
    simpa [List.getD_eq_getElem?_getD, List.getElem?_eq_getElem h1, List.getElem?_eq_getElem h2] using h3
  have e1 := key Prod.fst fun t => congrArg Prod.fst (h t)
  have e2 := key Prod.snd fun t => congrArg Prod.snd (h t)
  apply List.ext_getElem hl
  intro i h1 h2
  apply Prod.ext
  · have := List.getElem_of_eq e1 (by simpa using h1)
    simpa using this
  · have := List.getElem_of_eq e2 (by simpa using h1)
    simpa using this

end PathLib.Spec
