import Verif.Spec.Bernstein
import Mathlib.Algebra.BigOperators.Ring.Finset
import Mathlib.Algebra.Order.BigOperators.Group.Finset

set_option linter.unusedSectionVars false
set_option linter.unusedSimpArgs false

namespace PathLib.Spec
open Finset
variable {K : Type} [Field K]

theorem bernList_one (a t : K) : bernList [a] t = a := by
  simp [bernList, bernSum, bern]

theorem bernList_two (a b t : K) : bernList [a, b] t = (1 - t) * a + t * b := by
  simp [bernList, bernSum, bern, sum_range_succ]

theorem bernList_three (a b c t : K) :
    bernList [a, b, c] t = (1 - t) ^ 2 * a + 2 * (1 - t) * t * b + t ^ 2 * c := by
  simp [bernList, bernSum, bern, sum_range_succ]

theorem bernList_four (a b c d t : K) :
    bernList [a, b, c, d] t =
      (1 - t) ^ 3 * a + 3 * (1 - t) ^ 2 * t * b + 3 * (1 - t) * t ^ 2 * c + t ^ 3 * d := by
  have : Nat.choose 3 2 = 3 := rfl
  simp [bernList, bernSum, bern, sum_range_succ, this]

theorem bern_succ_zero (n : ℕ) (t : K) : bern (n + 1) 0 t = (1 - t) * bern n 0 t := by
  simp [bern, pow_succ]; ring

theorem bern_gt {n i : ℕ} (h : n < i) (t : K) : bern n i t = 0 := by
  simp [bern, Nat.choose_eq_zero_of_lt h]

theorem bern_succ_succ (n i : ℕ) (t : K) :
    bern (n + 1) (i + 1) t = t * bern n i t + (1 - t) * bern n (i + 1) t := by
  rcases lt_trichotomy i n with h | h | h
  · unfold bern
    rw [Nat.choose_succ_succ, show n + 1 - (i + 1) = (n - (i + 1)) + 1 by omega,
      show n - i = (n - (i + 1)) + 1 by omega]
    push_cast
    ring
  · subst h
    rw [bern_gt (Nat.lt_succ_self i)]
    simp [bern, pow_succ]; ring
  · rw [bern_gt (by omega), bern_gt h, bern_gt (by omega)]; ring

theorem bernSum_congr {n : ℕ} {c d : ℕ → K} (h : ∀ i ≤ n, c i = d i) (t : K) :
    bernSum n c t = bernSum n d t := by
  unfold bernSum
  apply sum_congr rfl
  intro i hi
  rw [h i (by simp at hi; omega)]

/-- One step of de Casteljau's algorithm does not change the point. -/
theorem bernSum_succ (n : ℕ) (c : ℕ → K) (t : K) :
    bernSum (n + 1) c t = bernSum n (fun i => c i + (c (i + 1) - c i) * t) t := by
  unfold bernSum
  have h1 : ∑ i ∈ range (n + 1), bern n i t * (c i + (c (i + 1) - c i) * t) =
      t * ∑ i ∈ range (n + 1), bern n i t * c (i + 1)
        + (1 - t) * ∑ i ∈ range (n + 1), bern n i t * c i := by
    rw [mul_sum, mul_sum, ← sum_add_distrib]
    apply sum_congr rfl; intros; ring
  have h2 : ∑ i ∈ range (n + 1), bern n i t * c i
      = ∑ i ∈ range (n + 1), bern n (i + 1) t * c (i + 1) + bern n 0 t * c 0 := by
    rw [← sum_range_succ' (fun i => bern n i t * c i) (n + 1), sum_range_succ _ (n + 1),
      bern_gt (Nat.lt_succ_self n)]; ring
  rw [h1, h2, sum_range_succ', bern_succ_zero, mul_add, mul_sum, mul_sum, ← add_assoc,
    ← sum_add_distrib]
  congr 1
  · apply sum_congr rfl; intro i _; rw [bern_succ_succ]; ring
  · ring

theorem bernSum_zero_deg (c : ℕ → K) (t : K) : bernSum 0 c t = c 0 := by
  simp [bernSum, bern]

theorem bernSum_at_zero (n : ℕ) (c : ℕ → K) : bernSum n c 0 = c 0 := by
  unfold bernSum
  rw [sum_eq_single 0]
  · simp [bern]
  · intro i _ hi; simp [bern, hi]
  · simp

theorem bernSum_at_one (n : ℕ) (c : ℕ → K) : bernSum n c 1 = c n := by
  unfold bernSum
  rw [sum_eq_single n]
  · simp [bern]
  · intro i h1 hi
    have : n - i ≠ 0 := by simp at h1; omega
    simp [bern, this]
  · simp

theorem bernSum_add (n : ℕ) (c d : ℕ → K) (t : K) :
    bernSum n (fun i => c i + d i) t = bernSum n c t + bernSum n d t := by
  unfold bernSum; rw [← sum_add_distrib]; apply sum_congr rfl; intros; ring

theorem bernSum_smul (n : ℕ) (a : K) (c : ℕ → K) (t : K) :
    bernSum n (fun i => a * c i) t = a * bernSum n c t := by
  unfold bernSum; rw [mul_sum]; apply sum_congr rfl; intros; ring

theorem bernSum_const (n : ℕ) (a t : K) : bernSum n (fun _ => a) t = a := by
  induction n with
  | zero => exact bernSum_zero_deg _ _
  | succ n ih => rw [bernSum_succ]; simpa using ih

/-- `bernSum` is a convex combination on [0, 1]. -/
theorem bern_nonneg [LinearOrder K] [IsStrictOrderedRing K] (n i : ℕ) {t : K} (h0 : 0 ≤ t)
    (h1 : t ≤ 1) : 0 ≤ bern n i t := by
  unfold bern
  have := sub_nonneg.mpr h1
  positivity

theorem bernSum_mono [LinearOrder K] [IsStrictOrderedRing K] (n : ℕ) {c d : ℕ → K}
    (h : ∀ i ≤ n, c i ≤ d i) {t : K} (h0 : 0 ≤ t) (h1 : t ≤ 1) :
    bernSum n c t ≤ bernSum n d t := by
  unfold bernSum
  apply sum_le_sum
  intro i hi
  exact mul_le_mul_of_nonneg_left (h i (by simp at hi; omega)) (bern_nonneg n i h0 h1)

/-! ### Lists -/

theorem bernList_at_zero (l : List K) : bernList l 0 = l.getD 0 0 := bernSum_at_zero _ _

theorem bernList_at_one (l : List K) : bernList l 1 = l.getD (l.length - 1) 0 := bernSum_at_one _ _

theorem bernList_step (l : List K) (h : 2 ≤ l.length) (t : K) :
    bernList (List.zipWith (fun a b => a + (b - a) * t) l l.tail) t = bernList l t := by
  unfold bernList
  have e : (List.zipWith (fun a b => a + (b - a) * t) l l.tail).length = l.length - 1 := by simp
  rw [e]
  obtain ⟨n, hn⟩ : ∃ n, l.length = n + 2 := ⟨l.length - 2, by omega⟩
  rw [hn, show n + 2 - 1 = n + 1 by omega, show n + 1 - 1 = n by omega, bernSum_succ]
  apply bernSum_congr
  intro i hi
  have hi1 : i < (List.zipWith (fun a b => a + (b - a) * t) l l.tail).length := by rw [e]; omega
  have hi2 : i < l.length := by omega
  have hi3 : i + 1 < l.length := by omega
  simp only [List.getD_eq_getElem?_getD, List.getElem?_eq_getElem hi1, List.getElem?_eq_getElem hi2,
    List.getElem?_eq_getElem hi3, Option.getD_some, List.getElem_zipWith, List.getElem_tail]

theorem bernList_map_affine (a b : K) (l : List K) (h : l ≠ []) (t : K) :
    bernList (l.map fun x => a * x + b) t = a * bernList l t + b := by
  unfold bernList
  rw [List.length_map, ← bernSum_smul]
  conv_rhs => rw [← bernSum_const (l.length - 1) b t, ← bernSum_add]
  apply bernSum_congr
  intro i hi
  have : 0 < l.length := List.length_pos_iff.mpr h
  have hi2 : i < l.length := by omega
  simp [List.getD_eq_getElem?_getD, List.getElem?_eq_getElem hi2]

theorem bernList_le [LinearOrder K] [IsStrictOrderedRing K] {l : List K} {M : K} (h : l ≠ [])
    (hM : ∀ x ∈ l, x ≤ M) {t : K} (h0 : 0 ≤ t) (h1 : t ≤ 1) : bernList l t ≤ M := by
  unfold bernList
  conv_rhs => rw [← bernSum_const (l.length - 1) M t]
  apply bernSum_mono _ _ h0 h1
  intro i hi
  have : 0 < l.length := List.length_pos_iff.mpr h
  have hi2 : i < l.length := by omega
  simp only [List.getD_eq_getElem?_getD, List.getElem?_eq_getElem hi2, Option.getD_some]
  exact hM _ (List.getElem_mem _)

theorem le_bernList [LinearOrder K] [IsStrictOrderedRing K] {l : List K} {m : K} (h : l ≠ [])
    (hm : ∀ x ∈ l, m ≤ x) {t : K} (h0 : 0 ≤ t) (h1 : t ≤ 1) : m ≤ bernList l t := by
  unfold bernList
  conv_lhs => rw [← bernSum_const (l.length - 1) m t]
  apply bernSum_mono _ _ h0 h1
  intro i hi
  have : 0 < l.length := List.length_pos_iff.mpr h
  have hi2 : i < l.length := by omega
  simp only [List.getD_eq_getElem?_getD, List.getElem?_eq_getElem hi2, Option.getD_some]
  exact hm _ (List.getElem_mem _)

end PathLib.Spec
