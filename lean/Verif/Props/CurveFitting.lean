import Verif.Lemmas.CurveFitting
import Mathlib.LinearAlgebra.Vandermonde
import Mathlib.LinearAlgebra.Matrix.Block

/-!
# Property theorems about `MatrixInversion` and `CurveFitting` (C19-C25)
-/

set_option linter.unusedSectionVars false
set_option linter.unusedSimpArgs false

namespace PathLib
open Spec Finset MatrixInversion CurveFitting

/-- A failing `mapM` fails at one of its elements. -/
theorem mapM_error {α β : Type} (f : α → Py β) (l : List α) (e : PyErr) (h : l.mapM f = .error e) :
    ∃ a ∈ l, f a = .error e := by
  induction l with
  | nil => simp at h
  | cons a l ih =>
    rw [List.mapM_cons] at h
    cases h1 : f a with
    | error e1 => rw [h1] at h; simp at h; exact ⟨a, by simp, by rw [h1, h]⟩
    | ok v =>
      rw [h1, ok_bind] at h
      cases h2 : l.mapM f with
      | error e2 =>
        rw [h2] at h; simp at h; subst h
        obtain ⟨b, hb, hf⟩ := ih h2
        exact ⟨b, by simp [hb], hf⟩
      | ok w => rw [h2] at h; simp at h

section
variable {K : Type} [Field K] [LinearOrder K]

/-! ## C22 (used by the others) -/

/-- C22: `multiply` is the matrix product, for all compatible sizes. -/
theorem C22_multiply (m k n : ℕ) (hk : 0 < k) (A B : Mat K) (hA : IsMat m k A) (hB : IsMat k n B) :
    ∃ P, multiply A B = .ok P ∧ IsMat m n P ∧
      toMatrix m n P = toMatrix m k A * toMatrix k n B := by
  rw [isMat_eq_tab hA, isMat_eq_tab hB, multiply_tab hk]
  refine ⟨_, rfl, tab_isMat _ _ _, ?_⟩
  rw [toMatrix_tab, toMatrix_tab, toMatrix_tab]
  ext i j
  rw [Matrix.mul_apply]
  exact (Fin.sum_univ_eq_sum_range (fun l => entry A i l * entry B l j) k).symm

/-- C22: `transpose` is the transposed matrix, and an involution. -/
theorem C22_transpose (m n : ℕ) (hm : 0 < m) (A : Mat K) (hA : IsMat m n A) :
    ∃ T, transpose A = .ok T ∧ IsMat n m T ∧ toMatrix n m T = (toMatrix m n A).transpose ∧
      (0 < n → transpose T = .ok A) := by
  rw [isMat_eq_tab hA, transpose_tab hm]
  refine ⟨_, rfl, tab_isMat _ _ _, ?_, ?_⟩
  · rw [toMatrix_tab, toMatrix_tab]; rfl
  · intro hn; rw [transpose_tab hn]

/-- C22: `multiply` is associative. -/
theorem C22_assoc (a b c d : ℕ) (hb : 0 < b) (hc : 0 < c) (A B C : Mat K)
    (hA : IsMat a b A) (hB : IsMat b c B) (hC : IsMat c d C) :
    (multiply A B >>= fun P => multiply P C) = (multiply B C >>= fun P => multiply A P) := by
  obtain ⟨P, e1, h1, m1⟩ := C22_multiply a b c hb A B hA hB
  obtain ⟨Q, e2, h2, m2⟩ := C22_multiply b c d hc B C hB hC
  obtain ⟨R, e3, h3, m3⟩ := C22_multiply a c d hc P C h1 hC
  obtain ⟨S, e4, h4, m4⟩ := C22_multiply a b d hb A Q hA h2
  rw [e1, e2, ok_bind, ok_bind, e3, e4]
  congr 1
  apply toMatrix_inj h3 h4
  rw [m3, m4, m1, m2, Matrix.mul_assoc]

/-- C22: the identity is neutral on both sides. -/
theorem C22_identity (m n : ℕ) (hm : 0 < m) (hn : 0 < n) (A : Mat K) (hA : IsMat m n A) :
    multiply (idRows m) A = .ok A ∧ multiply A (idRows n) = .ok A := by
  constructor
  · obtain ⟨P, e, h, hm⟩ := C22_multiply m m n hm (idRows m) A (tab_isMat _ _ _) hA
    rw [e]; congr 1
    apply toMatrix_inj h hA
    rw [hm, toMatrix_idRows, Matrix.one_mul]
  · obtain ⟨P, e, h, hm⟩ := C22_multiply m n n hn A (idRows n) hA (tab_isMat _ _ _)
    rw [e]; congr 1
    apply toMatrix_inj h hA
    rw [hm, toMatrix_idRows, Matrix.mul_one]

/-- C22: transposing a product. -/
theorem C22_transpose_mul (m k n : ℕ) (hm : 0 < m) (hk : 0 < k) (A B : Mat K)
    (hA : IsMat m k A) (hB : IsMat k n B) :
    ∃ P TP TA TB, multiply A B = .ok P ∧ transpose P = .ok TP ∧ transpose A = .ok TA ∧
      transpose B = .ok TB ∧ multiply TB TA = .ok TP := by
  obtain ⟨P, e1, h1, m1⟩ := C22_multiply m k n hk A B hA hB
  obtain ⟨TP, e2, h2, m2, -⟩ := C22_transpose m n hm P h1
  obtain ⟨TA, e3, h3, m3, -⟩ := C22_transpose m k hm A hA
  obtain ⟨TB, e4, h4, m4, -⟩ := C22_transpose k n hk B hB
  obtain ⟨Q, e5, h5, m5⟩ := C22_multiply n k m hk TB TA h4 h3
  refine ⟨P, TP, TA, TB, e1, e2, e3, e4, ?_⟩
  rw [e5]; congr 1
  apply toMatrix_inj h5 h2
  rw [m5, m2, m3, m4, m1, Matrix.transpose_mul]

/-- C22: the empty matrix cannot be transposed; a row longer than the second factor's column raises. -/
theorem C22_errors (a b c : K) :
    transpose ([] : Mat K) = .error .indexError ∧
    multiply [[a, b]] [[c]] = .error .indexError ∧
    multiply [[a]] ([] : Mat K) = .error .indexError := by
  refine ⟨by simp [transpose], ?_, by simp [multiply]⟩
  have : pyGet [c] 1 = .error .indexError := rfl
  simp [multiply, col, dotLoop, List.range_succ, this]

example : multiply [[(1:ℚ), 2], [3, 4]] [[5], [6]] = .ok [[17], [39]] := by decide +kernel
example : transpose [[(1:ℚ), 2, 3], [4, 5, 6]] = .ok [[1, 4], [2, 5], [3, 6]] := by decide +kernel

/-! ## C19 -/

/-- C19: a returned matrix is a two-sided inverse (in the code's own matrix product). -/
theorem C19_inverse (n : ℕ) (M I : Mat K) (hM : IsMat n n M)
    (h : matrixInvert M = .ok (some I)) :
    IsMat n n I ∧ multiply I M = .ok (idRows n) ∧ multiply M I = .ok (idRows n) := by
  rcases Nat.eq_zero_or_pos n with h0 | hn
  · subst h0
    have : M = [] := List.length_eq_zero_iff.mp hM.1
    subst this
    simp [matrixInvert] at h
  · rcases matrixInvert_spec hn M hM with ⟨I', e, hI, hmul, -⟩ | ⟨e, -⟩
    · rw [h] at e
      simp only [Except.ok.injEq, Option.some.injEq] at e
      subst e
      refine ⟨hI, ?_, ?_⟩
      · obtain ⟨P, e, h, hm⟩ := C22_multiply n n n hn I M hI hM
        rw [e]; congr 1
        apply toMatrix_inj h (tab_isMat _ _ _)
        rw [hm, hmul]; exact (toMatrix_idRows n).symm
      · obtain ⟨P, e, h, hm⟩ := C22_multiply n n n hn M I hM hI
        rw [e]; congr 1
        apply toMatrix_inj h (tab_isMat _ _ _)
        rw [hm, mul_eq_one_comm.mp hmul]; exact (toMatrix_idRows n).symm
    · rw [h] at e; simp at e

/-- C19: the same in terms of Mathlib's matrices. -/
theorem C19_inverse_matrix (n : ℕ) (M I : Mat K) (hM : IsMat n n M)
    (h : matrixInvert M = .ok (some I)) :
    toMatrix n n I * toMatrix n n M = 1 ∧ toMatrix n n M * toMatrix n n I = 1 := by
  rcases Nat.eq_zero_or_pos n with h0 | hn
  · subst h0
    have : M = [] := List.length_eq_zero_iff.mp hM.1
    subst this
    simp [matrixInvert] at h
  · rcases matrixInvert_spec hn M hM with ⟨I', e, hI, hmul, -⟩ | ⟨e, -⟩
    · rw [h] at e
      simp only [Except.ok.injEq, Option.some.injEq] at e
      subst e
      exact ⟨hmul, mul_eq_one_comm.mp hmul⟩
    · rw [h] at e; simp at e

/-- C19: inverting twice gives the matrix back. -/
theorem C19_involution (n : ℕ) (hn : 0 < n) (M I : Mat K) (hM : IsMat n n M)
    (h : matrixInvert M = .ok (some I)) : matrixInvert I = .ok (some M) := by
  obtain ⟨hI, -, -⟩ := C19_inverse n M I hM h
  obtain ⟨h1, h2⟩ := C19_inverse_matrix n M I hM h
  rcases matrixInvert_spec hn I hI with ⟨J, e, hJ, hmul, -⟩ | ⟨e, hdet⟩
  · rw [e]; congr 2
    apply toMatrix_inj hJ hM
    calc toMatrix n n J = toMatrix n n J * (toMatrix n n I * toMatrix n n M) := by
          rw [h1, Matrix.mul_one]
      _ = _ := by rw [← Matrix.mul_assoc, hmul, Matrix.one_mul]
  · exfalso
    have := congrArg Matrix.det h1
    rw [Matrix.det_mul, hdet, zero_mul, Matrix.det_one] at this
    exact zero_ne_one this

example : matrixInvert [[(0:ℚ), 2, 0], [1, 0, 0], [0, 0, 4]] =
    .ok (some [[0, 1, 0], [1/2, 0, 0], [0, 0, 1/4]]) := by decide +kernel

/-! ## C20 -/

/-- C20: for a square matrix `None` is returned exactly when the determinant is zero, and nothing is raised. -/
theorem C20_none_iff_singular (n : ℕ) (hn : 0 < n) (M : Mat K) (hM : IsMat n n M) :
    (matrixInvert M = .ok none ↔ (toMatrix n n M).det = 0) ∧ (∃ o, matrixInvert M = .ok o) := by
  rcases matrixInvert_spec hn M hM with ⟨I, e, -, -, hdet⟩ | ⟨e, hdet⟩
  · rw [e]; exact ⟨by simp [hdet], _, rfl⟩
  · rw [e]; exact ⟨by simp [hdet], _, rfl⟩

/-- C20: `None` when the number of rows differs from the length of the first row. -/
theorem C20_non_square (r : Row K) (M : Mat K) (h : M.length + 1 ≠ r.length) :
    matrixInvert (r :: M) = .ok none := by
  simp [matrixInvert, h]

/-- C20: the empty matrix raises `IndexError`. -/
theorem C20_empty : matrixInvert ([] : Mat K) = .error .indexError := by simp [matrixInvert]

/-- C20: entries beyond column `n` of the later rows are ignored. -/
theorem C20_extra_columns (n : ℕ) (M : Mat K) (hlen : M.length = n)
    (h0 : ∀ r, M.head? = some r → r.length = n) (hr : ∀ r ∈ M, n ≤ r.length) :
    matrixInvert M = matrixInvert (M.map (List.take n)) := by
  match M, hlen with
  | [], _ => rfl
  | r0 :: M, hlen =>
    have e0 : r0.length = n := h0 r0 rfl
    have ht : r0.take n = r0 := by rw [← e0]; exact List.take_length
    unfold matrixInvert
    simp only [pyGet_zero_cons, ok_bind, List.map_cons, ht, List.length_cons, List.length_map]
    have hl : M.length + 1 = n := hlen
    simp only [hl, e0, ne_eq, not_true, if_false]
    congr 1
    apply congrArg₂ _ _ rfl
    funext row
    by_cases hrow : row < n
    · have hrow' : row < (r0 :: M).length := by rw [hlen]; exact hrow
      have hrow2 : row < ((r0 :: M).map (List.take n)).length := by simpa using hrow'
      have e2 : (r0 :: M.map (List.take n)) = (r0 :: M).map (List.take n) := by simp [ht]
      rw [e2, pyGet_nat_lt _ _ hrow', pyGet_nat_lt _ _ hrow2]
      simp only [ok_bind, List.getElem_map]
      rw [mapM_ok _ (fun c => ((r0 :: M)[row]).getD c 0), mapM_ok _ (fun c => ((r0 :: M)[row]).getD c 0)]
      · intro c hc
        have hc' : c < n := by simpa using hc
        have := hr _ (List.getElem_mem hrow')
        rw [pyGet_nat_lt _ _ (by rw [List.length_take]; omega), List.getElem_take]
        simp [List.getD_eq_getElem?_getD, List.getElem?_eq_getElem (show c < ((r0 :: M)[row]).length by omega)]
      · intro c hc
        have hc' : c < n := by simpa using hc
        have := hr _ (List.getElem_mem hrow')
        rw [pyGet_nat_lt _ _ (by omega)]
        simp [List.getD_eq_getElem?_getD, List.getElem?_eq_getElem (show c < ((r0 :: M)[row]).length by omega)]
    · have hrow' : ¬ row < (r0 :: M).length := by rw [hlen]; exact hrow
      have e1 : ∀ (l : Mat K), ¬ row < l.length → pyGet l (row : Int) = .error .indexError := by
        intro l hl; rw [pyGet_nat, List.getElem?_eq_none (by omega)]
      rw [e1 _ hrow', e1 _ (by simp; omega)]

/-- C20: a later row that is too short raises `IndexError`. -/
theorem C20_ragged (n : ℕ) (M : Mat K) (hlen : M.length = n)
    (h0 : ∀ r, M.head? = some r → r.length = n) (r : Row K) (hr : r ∈ M) (hs : r.length < n) :
    matrixInvert M = .error .indexError := by
  have hne : M ≠ [] := by rintro rfl; simp at hr
  obtain ⟨r0, hr0⟩ : ∃ r0, M.head? = some r0 := ⟨M.head hne, List.head?_eq_some_head hne⟩
  have hp : pyGet M 0 = .ok r0 := by
    match M, hne with
    | a :: M, _ => simp at hr0; simp [hr0]
  unfold matrixInvert
  rw [hp, ok_bind, hlen, h0 r0 hr0]
  simp only [ne_eq, not_true, if_false]
  have g : ∀ {α : Type} (l : List α) (i : Int) (e : PyErr), pyGet l i = .error e → e = .indexError := by
    intro α l i e h
    unfold pyGet at h
    simp only at h
    split_ifs at h with h1 h2
    · simpa using h.symm
    · cases hh : l[(i + l.length).toNat]? <;> rw [hh] at h <;> simp at h; exact h.symm
    · cases hh : l[i.toNat]? <;> rw [hh] at h <;> simp at h; exact h.symm
  have main : (List.range n).mapM (fun (row : Nat) => (List.range n).mapM fun (col : Nat) => do
      pyGet (← pyGet M (row : Int)) (col : Int)) = .error .indexError := by
    cases hm : (List.range n).mapM (fun (row : Nat) => (List.range n).mapM fun (col : Nat) => do
      pyGet (← pyGet M (row : Int)) (col : Int)) with
    | ok C =>
      exfalso
      rw [mapM_eq_ok_iff] at hm
      obtain ⟨i, hi, rfl⟩ := List.getElem_of_mem hr
      have hin : i < (List.range n).length := by simpa [hlen] using hi
      have hlen2 := hm.length_eq
      have := List.Forall₂.get hm hin (by omega)
      simp only [List.get_eq_getElem, List.getElem_range] at this
      rw [mapM_eq_ok_iff] at this
      have hcl := this.length_eq
      have hsl : M[i].length < (List.range n).length := by simpa using hs
      have := List.Forall₂.get this hsl (by omega)
      simp only [List.get_eq_getElem, List.getElem_range] at this
      rw [pyGet_nat_lt _ _ hi, ok_bind, pyGet_nat, List.getElem?_eq_none le_rfl] at this
      simp at this
    | error e =>
      congr 1
      obtain ⟨row, -, h1⟩ := mapM_error _ _ _ hm
      obtain ⟨col, -, h2⟩ := mapM_error _ _ _ h1
      cases hrow : pyGet M (row : Int) with
      | error e1 => rw [hrow] at h2; simp at h2; rw [← h2]; exact g _ _ _ hrow
      | ok rr => rw [hrow, ok_bind] at h2; exact g _ _ _ h2
  rw [main]; rfl

example : matrixInvert [[(1:ℚ), 2], [2, 4]] = .ok none := by decide +kernel
example : IsMat 2 2 [[(1:ℚ), 2], [2, 4]] := ⟨rfl, by simp⟩

end

/-! ## C21 -/

/-- The table after a history of calls. -/
def Spec.tableAfter (calls : List (Int × Int)) : List (List Int) :=
  calls.foldl (fun lut c => (binomial lut c.1 c.2).2) initialTable

/-- C21: after every history of calls the shared table is Pascal's triangle (never shorter than initially). -/
theorem C21_table (calls : List (Int × Int)) : ∃ N, 7 ≤ N ∧ tableAfter calls = pascal N := by
  have : ∀ (N : ℕ), 7 ≤ N → ∃ N', 7 ≤ N' ∧
      calls.foldl (fun lut c => (binomial lut c.1 c.2).2) (pascal N) = pascal N' := by
    induction calls with
    | nil => intro N h; exact ⟨N, h, rfl⟩
    | cons c calls ih =>
      intro N h
      obtain ⟨N1, h1, e1⟩ := binomial_table N (by omega) c.1 c.2
      rw [List.foldl_cons, e1]
      exact ih N1 (by omega)
  unfold tableAfter
  rw [initialTable_eq]
  exact this 7 le_rfl

/-- C21: after every history, `binomial(n, k)` with `0 ≤ k ≤ n` is the binomial coefficient. -/
theorem C21_value (calls : List (Int × Int)) (n k : ℕ) (h : k ≤ n) :
    (binomial (tableAfter calls) n k).1 = .ok ((n.choose k : ℕ) : Int) := by
  obtain ⟨N, hN, e⟩ := C21_table calls
  rw [e]; exact binomial_value N (by omega) n k h

/-- C21: `n == 0` answers 1 whatever `k` is; `k > n > 0` raises `IndexError`; a negative `k` counts from the end
of the row. -/
theorem C21_other_k (calls : List (Int × Int)) :
    (∀ k, (binomial (tableAfter calls) 0 k).1 = .ok 1) ∧
    (∀ n k : ℕ, 0 < n → n < k → (binomial (tableAfter calls) n k).1 = .error .indexError) ∧
    (∀ n k : ℕ, 0 < n → k ≤ n →
      (binomial (tableAfter calls) n (-((k : Int) + 1))).1 = .ok ((n.choose k : ℕ) : Int)) := by
  obtain ⟨N, hN, e⟩ := C21_table calls
  rw [e]
  refine ⟨fun k => by simp [binomial], ?_, ?_⟩
  · intro n k hn hk
    unfold binomial
    rw [if_neg (by omega), grow_pascal _ N (by omega)]
    simp only
    rw [pyGet_pascal (by omega), ok_bind, pyGet_nat, List.getElem?_eq_none (by simp; omega)]
  · intro n k hn hk
    unfold binomial
    rw [if_neg (by omega), grow_pascal _ N (by omega)]
    simp only
    rw [pyGet_pascal (by omega), ok_bind]
    unfold pyGet
    have h1 : (-((k : Int) + 1)) < 0 := by omega
    have h2 : ¬ ((-((k : Int) + 1)) + ((n + 1 : ℕ) : Int) < 0) := by push_cast; omega
    have h3 : ((-((k : Int) + 1)) + ((n + 1 : ℕ) : Int)).toNat = n - k := by push_cast; omega
    simp only [List.length_map, List.length_range, h1, if_true, h2, if_false, h3]
    rw [List.getElem?_map, List.getElem?_range (by omega)]
    simp only [Option.map_some]
    rw [Nat.choose_symm hk]

/-- C21: calls to `basisMatrix` and `fit` also leave Pascal's triangle behind. -/
theorem C21_table_fit (calls : List (Int × Int)) (n : ℕ) (points : List (Pt ℝ)) (polygonal : Bool) :
    (∃ N, 7 ≤ N ∧ (basisMatrix (tableAfter calls) n).2 = pascal N) ∧
    (∃ N, 7 ≤ N ∧ (fit (tableAfter calls) points polygonal).2 = pascal N) := by
  obtain ⟨N, hN, e⟩ := C21_table calls
  rw [e]
  constructor
  · obtain ⟨N', h1, h2⟩ := basisMatrix_eq n N (by omega)
    exact ⟨N', by omega, by rw [h2]⟩
  · obtain ⟨N', h1, h2⟩ := basisMatrix_eq points.length N (by omega)
    refine ⟨N', by omega, ?_⟩
    unfold fit
    simp only [h2]

example : (binomial (tableAfter [(9, 3), (-2, 1), (20, 30)]) 10 3).1 = .ok 120 := C21_value _ 10 3 (by omega)

/-! ## C23 -/

/-- C23: `basisMatrix(n)` succeeds after every history, and `[1, t, …, t^(n-1)]` times it is the vector of the
Bernstein polynomials of degree `n-1`. -/
theorem C23_basis {K : Type} [Field K] (calls : List (Int × Int)) (n : ℕ) (t : K) :
    ∃ m, (basisMatrix (tableAfter calls) n).1 = .ok m ∧ m.length = n ∧ (∀ r ∈ m, r.length = n) ∧
      ∀ c < n, ∑ r ∈ range n, t ^ r * (((m.getD r []).getD c 0 : Int) : K) = bern (n - 1) c t := by
  obtain ⟨N, hN, e⟩ := C21_table calls
  obtain ⟨N', -, h2⟩ := basisMatrix_eq n N (by omega)
  rw [e, h2]
  refine ⟨_, rfl, by simp, ?_, ?_⟩
  · intro r hr
    simp only [tab, List.mem_map] at hr
    obtain ⟨i, _, rfl⟩ := hr; simp
  · intro c hc
    rw [← basis_bern n c hc t]
    apply sum_congr rfl
    intro r hr
    rw [tab_getD _ (mem_range.mp hr)]
    simp [List.getD_eq_getElem?_getD, hc]

/-- C23: the entries: lower triangular, with the binomial coefficients on the diagonal. -/
theorem C23_entries (calls : List (Int × Int)) (n : ℕ) :
    ∃ m, (basisMatrix (tableAfter calls) n).1 = .ok m ∧
      ∀ r < n, ∀ c < n, (m.getD r []).getD c 0 =
        if c ≤ r then (-1) ^ (r - c) * ((r.choose c : ℕ) : Int) * (((n - 1).choose r : ℕ) : Int) else 0 := by
  obtain ⟨N, hN, e⟩ := C21_table calls
  obtain ⟨N', -, h2⟩ := basisMatrix_eq n N (by omega)
  rw [e, h2]
  refine ⟨_, rfl, ?_⟩
  intro r hr c hc
  rw [tab_getD _ hr]
  simp only [List.getD_eq_getElem?_getD, List.getElem?_map, List.getElem?_range hc, Option.map_some,
    Option.getD_some, basisEntry]
  split_ifs with h
  · congr 1
    have := signedChoose_cast (K := ℚ) r c h
    have h2 : ((signedChoose r c : Int) : ℚ) = (((-1) ^ (r - c) * ((r.choose c : ℕ) : Int) : Int) : ℚ) := by
      rw [this]; push_cast; ring
    exact_mod_cast h2
  · rfl

/-- C23: the matrix is invertible (over any field of characteristic 0). -/
theorem C23_det {K : Type} [Field K] [CharZero K] (calls : List (Int × Int)) (n : ℕ) :
    ∃ m, (basisMatrix (tableAfter calls) n).1 = .ok m ∧
      (toMatrix n n (m.map fun r => r.map fun (v : Int) => (v : K))).det ≠ 0 := by
  obtain ⟨N, hN, e⟩ := C21_table calls
  obtain ⟨N', -, h2⟩ := basisMatrix_eq n N (by omega)
  rw [e, h2]
  refine ⟨_, rfl, ?_⟩
  have et : ((tab n n (basisEntry n)).map fun r => r.map fun (v : Int) => (v : K)) =
      tab n n fun i j => ((basisEntry n i j : Int) : K) := by
    simp [tab, Function.comp_def]
  rw [et, toMatrix_tab, Matrix.det_of_isLowerTriangular]
  · rw [Finset.prod_ne_zero_iff]
    intro i _
    simp only [Matrix.of_apply, basisEntry, le_refl, if_true, signedChoose]
    have : (i.1 + i.1) % 2 = 0 := by omega
    simp only [this, if_true, Nat.choose_self]
    have h3 : 0 < (n - 1).choose i := Nat.choose_pos (by omega)
    push_cast
    simpa using h3.ne'
  · intro i j hij
    have : i.1 < j.1 := hij
    simp only [Matrix.of_apply, basisEntry]
    rw [if_neg (by omega)]; simp

example : (basisMatrix initialTable 4).1 =
    .ok [[1, 0, 0, 0], [-3, 3, 0, 0], [3, -6, 3, 0], [-1, 3, -3, 1]] := by
  obtain ⟨N', -, h2⟩ := basisMatrix_eq 4 7 (by omega)
  rw [initialTable_eq, h2]; rfl

end PathLib
