import Verif.Lemmas.Matrix
import Verif.Lemmas.Bernstein
import Mathlib.Data.Nat.Choose.Sum

set_option linter.unusedSectionVars false
set_option linter.unusedSimpArgs false

namespace PathLib
open Spec Finset

/-- The first `N` rows of Pascal's triangle. -/
def Spec.pascal (N : ℕ) : List (List Int) :=
  (List.range N).map fun i => (List.range (i + 1)).map fun j => ((i.choose j : ℕ) : Int)

namespace CurveFitting

@[simp] theorem pascal_length (N : ℕ) : (pascal N).length = N := by simp [pascal]

theorem pascal_succ (N : ℕ) : pascal (N + 1) =
    pascal N ++ [(List.range (N + 1)).map fun j => ((N.choose j : ℕ) : Int)] := by
  simp [pascal, List.range_succ]

theorem pyGet_pascal {N i : ℕ} (h : i < N) :
    pyGet (pascal N) (i : Int) = .ok ((List.range (i + 1)).map fun j => ((i.choose j : ℕ) : Int)) := by
  unfold pascal
  rw [pyGet_map_range _ h]

theorem nextRow_pascal {N : ℕ} (h : 1 ≤ N) :
    nextRow (pascal N) = .ok ((List.range (N + 1)).map fun j => ((N.choose j : ℕ) : Int)) := by
  obtain ⟨M, rfl⟩ : ∃ M, N = M + 1 := ⟨N - 1, by omega⟩
  unfold nextRow
  rw [pascal_length, show ((M + 1 : ℕ) : Int) - 1 = (M : Int) by push_cast; ring]
  have hp := pyGet_pascal (N := M + 1) (i := M) (by omega)
  simp only [hp, ok_bind, Nat.add_sub_cancel]
  rw [mapM_ok _ (fun i => (((M + 1).choose i : ℕ) : Int))]
  · simp only [ok_bind, pure_eq_ok, Except.ok.injEq]
    apply List.ext_getElem
    · simp
    · intro i h1 h2
      simp only [List.length_append, List.length_cons, List.length_map, List.length_range',
        List.length_nil, List.length_range] at h1 h2
      rcases Nat.eq_zero_or_pos i with h0 | h0
      · subst h0; simp
      · obtain ⟨j, rfl⟩ : ∃ j, i = j + 1 := ⟨i - 1, by omega⟩
        rcases Nat.lt_or_ge j M with hj | hj
        · simp [List.getElem_append, hj, Nat.add_comm 1 j]
        · have : j = M := by omega
          subst this
          simp [List.getElem_append]
  · intro i hi
    rw [List.mem_range'] at hi
    obtain ⟨j, hj, rfl⟩ := hi
    have e1 : ((1 + 1 * j : ℕ) : Int) - 1 = (j : Int) := by push_cast; ring
    rw [e1, pyGet_map_range _ (by omega), pyGet_map_range _ (by omega)]
    simp only [ok_bind, pure_eq_ok, Except.ok.injEq]
    rw [show 1 + 1 * j = j + 1 by ring, Nat.choose_succ_succ]
    push_cast; ring

theorem grow_pascal (n : Int) (N : ℕ) (h : 1 ≤ N) :
    grow n (pascal N) = (.ok (), pascal (max N (n + 1).toNat)) := by
  generalize hm : (n + 1 - N).toNat = m
  induction m generalizing N with
  | zero =>
    rw [grow]
    rw [pascal_length, if_neg (by omega)]
    congr 2; omega
  | succ m ih =>
    rw [grow]
    rw [pascal_length, if_pos (by omega), nextRow_pascal h]
    simp only
    rw [← pascal_succ, ih (N + 1) (by omega) (by push_cast; omega)]
    congr 2; omega

/-- The table after a call to `binomial` is a (possibly longer) Pascal triangle. -/
theorem binomial_table (N : ℕ) (h : 1 ≤ N) (n k : Int) :
    ∃ N', N ≤ N' ∧ (binomial (pascal N) n k).2 = pascal N' := by
  unfold binomial
  split_ifs with h0
  · exact ⟨N, le_rfl, rfl⟩
  · rw [grow_pascal n N h]
    exact ⟨_, le_max_left _ _, rfl⟩

/-- The result of a call with `0 ≤ k ≤ n`. -/
theorem binomial_value (N : ℕ) (h : 1 ≤ N) (n k : ℕ) (hk : k ≤ n) :
    (binomial (pascal N) n k).1 = .ok ((n.choose k : ℕ) : Int) := by
  unfold binomial
  split_ifs with h0
  · have : n = 0 := by omega
    subst this
    have : k = 0 := by omega
    subst this; simp
  · rw [grow_pascal _ N h]
    simp only
    rw [pyGet_pascal (by omega), ok_bind, pyGet_map_range _ (by omega)]

theorem binomial_eq (N : ℕ) (h : 1 ≤ N) (n k : ℕ) (hk : k ≤ n) :
    ∃ N', N ≤ N' ∧ binomial (pascal N) n k = (.ok ((n.choose k : ℕ) : Int), pascal N') := by
  obtain ⟨N', h1, h2⟩ := binomial_table N h n k
  exact ⟨N', h1, Prod.ext (binomial_value N h n k hk) h2⟩

theorem initialTable_eq : initialTable = pascal 7 := by decide +kernel

/-! ### basisMatrix -/

theorem diagonalLoop_eq (k : ℕ) (is : List ℕ) (hk : ∀ i ∈ is, i ≤ k) (m : ℕ → ℕ → Int) (N : ℕ)
    (hN : 1 ≤ N) : ∃ N' m', N ≤ N' ∧ diagonalLoop (k : Int) is m (pascal N) = (.ok m', pascal N') ∧
      ∀ r c, m' r c = if r = c ∧ r ∈ is then ((k.choose r : ℕ) : Int) else m r c := by
  induction is generalizing m N with
  | nil => exact ⟨N, m, le_rfl, rfl, by simp⟩
  | cons i is ih =>
    obtain ⟨N1, h1, e1⟩ := binomial_eq N hN k i (hk i (by simp))
    obtain ⟨N2, m', h2, e2, hm⟩ := ih (fun j hj => hk j (by simp [hj]))
      (MatrixInversion.set2 m i i ((k.choose i : ℕ) : Int)) N1 (by omega)
    refine ⟨N2, m', by omega, ?_, ?_⟩
    · rw [diagonalLoop, e1]; exact e2
    · intro r c
      rw [hm]
      unfold MatrixInversion.set2
      by_cases hrc : r = c
      · subst hrc
        by_cases hi : r = i
        · subst hi; simp
        · simp [hi]
      · have : ¬ (r = i ∧ c = i) := by rintro ⟨rfl, rfl⟩; exact hrc rfl
        simp [hrc, this]

/-- The factor in front of the diagonal entry. -/
def signedChoose (r c : ℕ) : Int := (if (r + c) % 2 = 0 then 1 else -1) * ((r.choose c : ℕ) : Int)

theorem fillLoop_eq (crs : List (ℕ × ℕ)) (hcr : ∀ p ∈ crs, p.1 < p.2) (m : ℕ → ℕ → Int) (N : ℕ)
    (hN : 1 ≤ N) : ∃ N' m', N ≤ N' ∧ fillLoop crs m (pascal N) = (.ok m', pascal N') ∧
      ∀ r c, m' r c = if (c, r) ∈ crs then signedChoose r c * m r r else m r c := by
  induction crs generalizing m N with
  | nil => exact ⟨N, m, le_rfl, rfl, by simp⟩
  | cons p crs ih =>
    obtain ⟨c0, r0⟩ := p
    have hlt : c0 < r0 := hcr (c0, r0) (by simp)
    obtain ⟨N1, h1, e1⟩ := binomial_eq N hN r0 c0 (by omega)
    obtain ⟨N2, m', h2, e2, hm⟩ := ih (fun j hj => hcr j (by simp [hj]))
      (MatrixInversion.set2 m r0 c0
        ((if (r0 + c0) % 2 = 0 then 1 else -1) * (((r0.choose c0 : ℕ) : Int) * m r0 r0))) N1 (by omega)
    refine ⟨N2, m', by omega, ?_, ?_⟩
    · rw [fillLoop, e1]; exact e2
    · intro r c
      rw [hm]
      have hd : MatrixInversion.set2 m r0 c0
        ((if (r0 + c0) % 2 = 0 then 1 else -1) * (((r0.choose c0 : ℕ) : Int) * m r0 r0)) r r
          = m r r := by
        unfold MatrixInversion.set2
        rw [if_neg (by omega)]
      rw [hd]
      by_cases hmem : (c, r) ∈ crs
      · simp [hmem]
      · by_cases h3 : c = c0 ∧ r = r0
        · obtain ⟨rfl, rfl⟩ := h3
          simp only [hmem, if_false, List.mem_cons, true_or, if_true, MatrixInversion.set2,
            and_self, signedChoose]
          ring
        · have h4 : ¬ (r = r0 ∧ c = c0) := by tauto
          simp [hmem, h3, h4, MatrixInversion.set2]

theorem mem_fillOrder (n c r : ℕ) : (c, r) ∈ fillOrder n ↔ c < r ∧ r < n := by
  unfold fillOrder
  simp only [List.mem_flatMap, List.mem_range, List.mem_map, List.mem_range', Prod.mk.injEq]
  constructor
  · rintro ⟨c', h1, r', ⟨i, hi, rfl⟩, rfl, rfl⟩; omega
  · rintro ⟨h1, h2⟩
    exact ⟨c, by omega, r, ⟨r - (c + 1), by omega, by omega⟩, rfl, rfl⟩

/-- The entries of `basisMatrix(n)`. -/
def basisEntry (n r c : ℕ) : Int :=
  if c ≤ r then signedChoose r c * (((n - 1).choose r : ℕ) : Int) else 0

theorem basisMatrix_eq (n N : ℕ) (hN : 1 ≤ N) :
    ∃ N', N ≤ N' ∧ basisMatrix (pascal N) n = (.ok (tab n n (basisEntry n)), pascal N') := by
  rcases Nat.eq_zero_or_pos n with h0 | hn
  · subst h0
    exact ⟨N, le_rfl, rfl⟩
  have ek : ((n : ℕ) : Int) - 1 = ((n - 1 : ℕ) : Int) := by omega
  obtain ⟨N1, m1, h1, e1, hm1⟩ := diagonalLoop_eq (n - 1) (List.range n)
    (fun i hi => by simp at hi; omega) (fun _ _ => 0) N hN
  obtain ⟨N2, m2, h2, e2, hm2⟩ := fillLoop_eq (fillOrder n)
    (fun p hp => ((mem_fillOrder n p.1 p.2).mp hp).1) m1 N1 (by omega)
  refine ⟨N2, by omega, ?_⟩
  unfold basisMatrix
  simp only [ek, e1, e2]
  congr 2
  apply tab_congr
  intro r hr c hc
  rw [hm2, hm1, hm1]
  simp only [mem_fillOrder, List.mem_range, hr, and_true]
  unfold basisEntry
  rcases Nat.lt_trichotomy c r with h | h | h
  · simp [h, h.le]
  · subst h
    have : (c + c) % 2 = 0 := by omega
    simp [signedChoose, this]
  · have a1 : ¬ c < r := by omega
    have a2 : ¬ c ≤ r := by omega
    have a3 : ¬ r = c := by omega
    simp [a1, a2, a3]

section
variable {K : Type} [Field K]

theorem signedChoose_cast (r c : ℕ) (h : c ≤ r) :
    ((signedChoose r c : Int) : K) = (-1) ^ (r - c) * (r.choose c : K) := by
  unfold signedChoose
  have : ((if (r + c) % 2 = 0 then 1 else -1 : Int) : K) = (-1) ^ (r - c) := by
    split_ifs with h2
    · have : Even (r - c) := by rw [Nat.even_iff]; omega
      simp [this.neg_one_pow]
    · have : Odd (r - c) := by rw [Nat.odd_iff]; omega
      simp [this.neg_one_pow]
  rw [Int.cast_mul, this]
  simp

/-- The columns of the basis matrix are the Bernstein polynomials in the monomial basis. -/
theorem basis_bern (n c : ℕ) (hc : c < n) (t : K) :
    ∑ r ∈ range n, t ^ r * ((basisEntry n r c : Int) : K) = bern (n - 1) c t := by
  obtain ⟨k, rfl⟩ : ∃ k, n = k + 1 := ⟨n - 1, by omega⟩
  have hck : c ≤ k := by omega
  simp only [Nat.add_sub_cancel]
  have e1 : ∑ r ∈ range (k + 1), t ^ r * ((basisEntry (k + 1) r c : Int) : K) =
      ∑ r ∈ Ico c (k + 1), t ^ r * ((basisEntry (k + 1) r c : Int) : K) := by
    rw [range_eq_Ico, ← sum_Ico_consecutive _ (Nat.zero_le c) (by omega : c ≤ k + 1)]
    rw [sum_eq_zero, zero_add]
    intro r hr
    rw [mem_Ico] at hr
    unfold basisEntry
    rw [if_neg (by omega)]; simp
  rw [e1, sum_Ico_eq_sum_range]
  unfold bern
  have e2 : (1 - t) ^ (k - c) = ∑ j ∈ range (k - c + 1), (-t) ^ j * ((k - c).choose j : K) := by
    rw [sub_eq_neg_add, add_pow]
    apply sum_congr rfl; intro j _; simp
  rw [e2, show k + 1 - c = k - c + 1 by omega, mul_sum, sum_mul]
  apply sum_congr rfl
  intro j hj
  have hj' : j ≤ k - c := by simpa [Nat.lt_succ_iff] using hj
  unfold basisEntry
  rw [if_pos (by omega), Int.cast_mul, signedChoose_cast _ _ (by omega)]
  simp only [Nat.add_sub_cancel]
  have e3 : (k.choose (c + j) * (c + j).choose c : ℕ) = k.choose c * (k - c).choose j := by
    rw [Nat.choose_mul (by omega)]
    congr 2; omega
  have e3' : (k.choose (c + j) : K) * ((c + j).choose c : K) = (k.choose c : K) * ((k - c).choose j : K) := by
    rw [← Nat.cast_mul, ← Nat.cast_mul, e3]
  rw [show c + j - c = j by omega, Int.cast_natCast]
  calc t ^ (c + j) * ((-1) ^ j * ((c + j).choose c : K) * (k.choose (c + j) : K))
      = t ^ c * (t ^ j * (-1) ^ j) * ((k.choose (c + j) : K) * ((c + j).choose c : K)) := by
        rw [pow_add]; ring
    _ = _ := by rw [e3', ← mul_pow, mul_neg_one]; ring

end
end CurveFitting
end PathLib
