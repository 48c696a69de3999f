import Verif.Props.CurveFit
import Mathlib.LinearAlgebra.Matrix.ToLinearEquiv
import Mathlib.Algebra.Polynomial.Roots
import Mathlib.LinearAlgebra.Matrix.DotProduct

/-!
# `CurveFitting.bestFit` with fewer control points than data points (C79)
-/

set_option linter.unusedSectionVars false
set_option linter.unusedSimpArgs false

namespace PathLib
open Spec Finset MatrixInversion CurveFitting

/-- The sum of the squared distances between the points `P` and the points of the curve `C` at the times `S`. -/
noncomputable def Spec.sqErr (P : List (Pt ℝ)) (S : List ℝ) (C : List (Pt ℝ)) : ℝ :=
  ∑ i ∈ range P.length, (((curve C (S.getD i 0)).1 - (P.getD i 0).1) ^ 2 +
    ((curve C (S.getD i 0)).2 - (P.getD i 0).2) ^ 2)

/-- Pythagoras: a solution of the normal equations is as close as possible. -/
theorem normal_equations {m n : ℕ} (V : Matrix (Fin m) (Fin n) ℝ) (x y : Fin n → ℝ) (X : Fin m → ℝ)
    (h : V.transpose.mulVec (V.mulVec x - X) = 0) :
    ∑ i, ((V.mulVec y - X) i) ^ 2 = ∑ i, ((V.mulVec x - X) i) ^ 2 + ∑ i, (V.mulVec (y - x) i) ^ 2 := by
  have h0 : ∑ i, V.mulVec (y - x) i * (V.mulVec x - X) i = 0 := by
    have : V.mulVec (y - x) ⬝ᵥ (V.mulVec x - X) = (y - x) ⬝ᵥ V.transpose.mulVec (V.mulVec x - X) := by
      rw [Matrix.dotProduct_mulVec, Matrix.vecMul_transpose]
    rw [h, dotProduct_zero] at this
    exact this
  have e : ∀ i, ((V.mulVec y - X) i) ^ 2 = ((V.mulVec x - X) i) ^ 2 + (V.mulVec (y - x) i) ^ 2 +
      2 * (V.mulVec (y - x) i * (V.mulVec x - X) i) := by
    intro i
    rw [Matrix.mulVec_sub]
    simp only [Pi.sub_apply]; ring
  rw [sum_congr rfl fun i _ => e i, sum_add_distrib, sum_add_distrib, ← mul_sum, h0, mul_zero, add_zero]

/-- The matrix of the powers of the times. -/
def powers (S : List ℝ) (m n : ℕ) : Matrix (Fin m) (Fin n) ℝ := Matrix.of fun i j => (S.getD i 0) ^ (j : ℕ)

theorem powers_mulVec (S : List ℝ) (m n : ℕ) (x : Fin n → ℝ) (i : Fin m) :
    (powers S m n).mulVec x i = (∑ j : Fin n, Polynomial.C (x j) * Polynomial.X ^ (j : ℕ)).eval (S.getD i 0) := by
  simp only [Matrix.mulVec, dotProduct, powers, Matrix.of_apply, Polynomial.eval_finsetSum,
    Polynomial.eval_mul, Polynomial.eval_C, Polynomial.eval_pow, Polynomial.eval_X]
  exact sum_congr rfl fun j _ => mul_comm _ _

theorem coeff_fin_sum (n : ℕ) (x : Fin n → ℝ) (k : Fin n) :
    (∑ j : Fin n, Polynomial.C (x j) * Polynomial.X ^ (j : ℕ)).coeff k = x k := by
  simp only [Polynomial.finsetSum_coeff, Polynomial.coeff_C_mul, Polynomial.coeff_X_pow]
  rw [sum_eq_single k]
  · simp
  · intro b _ hb
    rw [if_neg (fun h => hb (Fin.ext h.symm)), mul_zero]
  · simp

/-- With `n` distinct times, only the zero vector is mapped to zero. -/
theorem powers_injective (S : List ℝ) (n : ℕ) (hd : n ≤ S.toFinset.card) (x : Fin n → ℝ)
    (h : (powers S S.length n).mulVec x = 0) : x = 0 := by
  set p : Polynomial ℝ := ∑ j : Fin n, Polynomial.C (x j) * Polynomial.X ^ (j : ℕ) with hp
  have hz : p = 0 := by
    rcases Nat.eq_zero_or_pos n with h0 | hn
    · subst h0; simp [hp]
    apply Polynomial.eq_zero_of_natDegree_lt_card_of_eval_eq_zero' p S.toFinset
    · intro s hs
      obtain ⟨i, hi, rfl⟩ := List.getElem_of_mem (List.mem_toFinset.mp hs)
      have := congrFun h ⟨i, hi⟩
      rw [powers_mulVec] at this
      simpa [List.getD_eq_getElem?_getD, List.getElem?_eq_getElem hi] using this
    · refine lt_of_lt_of_le ?_ hd
      rw [hp]
      have : ∀ j ∈ (Finset.univ : Finset (Fin n)),
          (Polynomial.C (x j) * Polynomial.X ^ (j : ℕ)).natDegree ≤ n - 1 := by
        intro j _
        refine (Polynomial.natDegree_C_mul_X_pow_le _ _).trans ?_
        have := j.2; omega
      have := Polynomial.natDegree_sum_le_of_forall_le _ _ this
      omega
  funext k
  rw [← coeff_fin_sum n x k, ← hp, hz]; simp

/-- With fewer than `n` distinct times, some other vector is mapped to zero. -/
theorem powers_not_injective (S : List ℝ) (n : ℕ) (hd : S.toFinset.card < n) :
    ∃ x : Fin n → ℝ, x ≠ 0 ∧ (powers S S.length n).mulVec x = 0 := by
  set p : Polynomial ℝ := ∏ s ∈ S.toFinset, (Polynomial.X - Polynomial.C s) with hp
  have hmonic : p.Monic := Polynomial.monic_prod_of_monic _ _ fun s _ => Polynomial.monic_X_sub_C s
  have hdeg : p.natDegree = S.toFinset.card := by
    rw [hp, Polynomial.natDegree_prod_of_monic _ _ fun s _ => Polynomial.monic_X_sub_C s]
    simp
  have hsum : ∑ j : Fin n, Polynomial.C (p.coeff j) * Polynomial.X ^ (j : ℕ) = p := by
    rw [Fin.sum_univ_eq_sum_range (fun j => Polynomial.C (p.coeff j) * Polynomial.X ^ j) n]
    rw [← Polynomial.as_sum_range_C_mul_X_pow' p (by omega : p.natDegree < n)]
  refine ⟨fun j => p.coeff j, ?_, ?_⟩
  · intro h
    have := congrFun h ⟨S.toFinset.card, hd⟩
    simp only [Pi.zero_apply] at this
    rw [← hdeg] at this
    have := hmonic.coeff_natDegree
    simp_all
  · funext i
    rw [powers_mulVec, hsum, hp, Polynomial.eval_prod]
    apply prod_eq_zero (i := S.getD i 0)
    · rw [List.mem_toFinset, List.getD_eq_getElem?_getD, List.getElem?_eq_getElem i.2]
      exact List.getElem_mem _
    · simp

theorem gram_det (S : List ℝ) (n : ℕ) :
    ((powers S S.length n).transpose * powers S S.length n).det ≠ 0 ↔ n ≤ S.toFinset.card := by
  constructor
  · intro h
    by_contra hn
    obtain ⟨x, hx, hz⟩ := powers_not_injective S n (by omega)
    apply h
    rw [← Matrix.exists_mulVec_eq_zero_iff]
    exact ⟨x, hx, by rw [← Matrix.mulVec_mulVec, hz, Matrix.mulVec_zero]⟩
  · intro hd h
    rw [← Matrix.exists_mulVec_eq_zero_iff] at h
    obtain ⟨x, hx, hz⟩ := h
    apply hx
    apply powers_injective S n hd
    rw [← Matrix.mulVec_mulVec] at hz
    have : (powers S S.length n).mulVec x ⬝ᵥ (powers S S.length n).mulVec x = 0 := by
      have e : (powers S S.length n).mulVec x ⬝ᵥ (powers S S.length n).mulVec x =
          x ⬝ᵥ (powers S S.length n).transpose.mulVec ((powers S S.length n).mulVec x) := by
        rw [Matrix.dotProduct_mulVec x, Matrix.vecMul_transpose]
      rw [e, hz, dotProduct_zero]
    exact dotProduct_self_eq_zero.mp this

theorem formTMatrix_tab (S : List ℝ) (n : ℕ) (hn : 0 < n) :
    formTMatrix S (some n) =
      .ok (tab n S.length fun i j => (S.getD j 0) ^ i, tab S.length n fun i j => (S.getD i 0) ^ j) := by
  have e : (List.range n).map (fun i => raiseRowPower S i) = tab n S.length fun i j => (S.getD j 0) ^ i := by
    unfold tab raiseRowPower
    apply List.map_congr_left
    intro i _
    apply List.ext_getElem
    · simp
    · intro j h1 h2
      simp only [List.length_map] at h1
      simp [List.getD_eq_getElem?_getD, List.getElem?_eq_getElem h1]
  obtain ⟨m, rfl⟩ : ∃ m, n = m + 1 := ⟨n - 1, by omega⟩
  unfold formTMatrix
  simp only [e]
  rw [transpose_tab (by omega)]
  rfl

/-- The value at time `s` of the combination `C` of the basis functions given by the columns of `M`. -/
noncomputable def Spec.combination (M : Mat ℝ) (n : ℕ) (c : ℕ → ℝ) (s : ℝ) : ℝ :=
  ∑ j ∈ range n, (∑ r ∈ range n, s ^ r * entry M r j) * c j

/-- What `bestFit` computes when the times suffice: the solution of the normal equations. -/
theorem bestFit_normal (P : List (Pt ℝ)) (M : Mat ℝ) (S : List ℝ) (n : ℕ) (hn : 0 < n)
    (hM : IsMat n n M) (hdet : (toMatrix n n M).det ≠ 0)
    (hS : S.length = P.length) (hd : n ≤ S.toFinset.card) :
    ∃ Cx Cy : Mat ℝ, bestFit P M S (some n) = .ok (Cx, Cy) ∧ IsMat n 1 Cx ∧ IsMat n 1 Cy ∧
      (powers S S.length n).transpose * (powers S S.length n * (toMatrix n n M * toMatrix n 1 Cx)) =
        (powers S S.length n).transpose * toMatrix S.length 1 (columnX P) ∧
      (powers S S.length n).transpose * (powers S S.length n * (toMatrix n n M * toMatrix n 1 Cy)) =
        (powers S S.length n).transpose * toMatrix S.length 1 (columnY P) := by
  have hm : 0 < S.length := by
    have := S.toFinset_card_le; omega
  set m := S.length with hmdef
  set Tt : Mat ℝ := tab n m fun i j => (S.getD j 0) ^ i with hTt
  set T : Mat ℝ := tab m n fun i j => (S.getD i 0) ^ j with hT
  have iT : IsMat m n T := tab_isMat _ _ _
  have iTt : IsMat n m Tt := tab_isMat _ _ _
  set V := powers S m n with hV
  have mT : toMatrix m n T = V := by
    rw [hT, toMatrix_tab]; ext i j; simp [hV, powers]
  have mTt : toMatrix n m Tt = V.transpose := by
    rw [hTt, toMatrix_tab]; ext i j; simp [hV, powers]
  obtain ⟨M1, eM1, iM1, mM1⟩ : ∃ M1, matrixInvert M = .ok (some M1) ∧ IsMat n n M1 ∧
      toMatrix n n M1 * toMatrix n n M = 1 := by
    rcases matrixInvert_spec hn M hM with ⟨I, e, hI, h, -⟩ | ⟨-, h⟩
    · exact ⟨I, e, hI, h⟩
    · exact absurd h hdet
  obtain ⟨Q, eQ, iQ, mQ⟩ := C22_multiply n m n hm Tt T iTt iT
  obtain ⟨I, eI, iI, mI⟩ : ∃ I, matrixInvert Q = .ok (some I) ∧ IsMat n n I ∧
      toMatrix n n I * toMatrix n n Q = 1 := by
    rcases matrixInvert_spec hn Q iQ with ⟨I, e, hI, h, -⟩ | ⟨-, h⟩
    · exact ⟨I, e, hI, h⟩
    · exfalso
      rw [mQ, mTt, mT] at h
      exact (gram_det S n).mpr hd h
  obtain ⟨s1, es1, is1, ms1⟩ := C22_multiply n n m hn I Tt iI iTt
  obtain ⟨s2, es2, is2, ms2⟩ := C22_multiply n n m hn M1 s1 iM1 is1
  have iX : IsMat m 1 (columnX P) := by
    have := col_isMat (P.map Prod.fst)
    simpa [columnX, Function.comp_def, hS] using this
  have iY : IsMat m 1 (columnY P) := by
    have := col_isMat (P.map Prod.snd)
    simpa [columnY, Function.comp_def, hS] using this
  obtain ⟨Cx, ex, ix, mx⟩ := C22_multiply n m 1 hm s2 (columnX P) is2 iX
  obtain ⟨Cy, ey, iy, my⟩ := C22_multiply n m 1 hm s2 (columnY P) is2 iY
  have key : ∀ (C X : Mat ℝ), toMatrix n 1 C = toMatrix n m s2 * toMatrix m 1 X →
      V.transpose * (V * (toMatrix n n M * toMatrix n 1 C)) = V.transpose * toMatrix m 1 X := by
    intro C X h
    have e2 : V.transpose * V * toMatrix n n I = 1 := by
      apply mul_eq_one_comm.mp
      rw [← mI, mQ, mTt, mT]
    rw [h, ms2, ms1, mTt]
    calc V.transpose * (V * (toMatrix n n M * (toMatrix n n M1 * (toMatrix n n I * V.transpose) * toMatrix m 1 X)))
        = V.transpose * V * ((toMatrix n n M * toMatrix n n M1) * (toMatrix n n I * V.transpose) * toMatrix m 1 X) := by
          simp only [Matrix.mul_assoc]
      _ = (V.transpose * V * toMatrix n n I) * (V.transpose * toMatrix m 1 X) := by
          rw [mul_eq_one_comm.mp mM1, Matrix.one_mul]; simp only [Matrix.mul_assoc]
      _ = _ := by rw [e2, Matrix.one_mul]
  refine ⟨Cx, Cy, ?_, ix, iy, key _ _ mx, key _ _ my⟩
  obtain ⟨n', rfl⟩ : ∃ k, n = k + 1 := ⟨n - 1, by omega⟩
  unfold bestFit
  simp only
  rw [formTMatrix_tab S _ hn, ok_bind]
  simp only [← hmdef, ← hTt, ← hT, eM1, ok_bind, eQ, eI, multiplyOpt, es1, es2, ex, ey, pure_eq_ok]

/-- C79: with too few distinct times, `bestFit` raises `TypeError` (the inverse it needs is `None`). -/
theorem C79_too_few_times (P : List (Pt ℝ)) (M : Mat ℝ) (S : List ℝ) (n : ℕ)
    (hM : IsMat n n M) (hS : S ≠ []) (hd : S.toFinset.card < n) :
    bestFit P M S (some n) = .error .typeError := by
  have hn : 0 < n := by omega
  have hm : 0 < S.length := List.length_pos_iff.mpr hS
  set m := S.length with hmdef
  set Tt : Mat ℝ := tab n m fun i j => (S.getD j 0) ^ i with hTt
  set T : Mat ℝ := tab m n fun i j => (S.getD i 0) ^ j with hT
  have mT : toMatrix m n T = powers S m n := by
    rw [hT, toMatrix_tab]; ext i j; simp [powers]
  have mTt : toMatrix n m Tt = (powers S m n).transpose := by
    rw [hTt, toMatrix_tab]; ext i j; simp [powers]
  obtain ⟨o, eo⟩ := (C20_none_iff_singular n hn M hM).2
  obtain ⟨Q, eQ, iQ, mQ⟩ := C22_multiply n m n hm Tt T (tab_isMat _ _ _) (tab_isMat _ _ _)
  have eN : matrixInvert Q = .ok none := by
    rw [(C20_none_iff_singular n hn Q iQ).1, mQ, mTt, mT]
    by_contra h
    have := (gram_det S n).mp h
    omega
  obtain ⟨n', rfl⟩ : ∃ k, n = k + 1 := ⟨n - 1, by omega⟩
  unfold bestFit
  simp only
  rw [formTMatrix_tab S _ hn, ok_bind]
  simp only [← hmdef, ← hTt, ← hT, eo, ok_bind, eQ, eN, multiplyOpt, error_bind]

/-- One coordinate: the combination that satisfies the normal equations is the closest one. -/
theorem combination_best (M : Mat ℝ) (S : List ℝ) (n : ℕ) (X : Mat ℝ) (C : Mat ℝ)
    (hne : (powers S S.length n).transpose * (powers S S.length n * (toMatrix n n M * toMatrix n 1 C)) =
        (powers S S.length n).transpose * toMatrix S.length 1 X) (d : ℕ → ℝ) :
    ∃ e : Fin S.length → ℝ,
      ∑ i ∈ range S.length, (combination M n d (S.getD i 0) - entry X i 0) ^ 2 =
      ∑ i ∈ range S.length, (combination M n (fun j => entry C j 0) (S.getD i 0) - entry X i 0) ^ 2 +
        ∑ i, (e i) ^ 2 ∧
      e = (powers S S.length n).mulVec ((toMatrix n n M).mulVec (fun j => d j - entry C j 0)) := by
  set V := powers S S.length n with hV
  set x : Fin n → ℝ := (toMatrix n n M).mulVec (fun j => entry C j 0) with hx
  set y : Fin n → ℝ := (toMatrix n n M).mulVec (fun j => d j) with hy
  have cv : ∀ (c : ℕ → ℝ) (i : Fin S.length),
      V.mulVec ((toMatrix n n M).mulVec (fun j => c j)) i = combination M n c (S.getD i 0) := by
    intro c i
    rw [Matrix.mulVec_mulVec]
    unfold combination
    simp only [Matrix.mulVec, dotProduct, Matrix.mul_apply, hV, powers, Matrix.of_apply, toMatrix_apply]
    rw [← Fin.sum_univ_eq_sum_range (fun j => (∑ r ∈ range n, (S.getD i 0) ^ r * entry M r j) * c j) n]
    apply sum_congr rfl
    intro j _
    rw [← Fin.sum_univ_eq_sum_range (fun r => (S.getD i 0) ^ r * entry M r j) n]
  have h : V.transpose.mulVec (V.mulVec x - fun i : Fin S.length => entry X i 0) = 0 := by
    rw [Matrix.mulVec_sub, sub_eq_zero]
    funext i
    have := congrFun (congrFun hne i) 0
    simpa [Matrix.mul_apply, Matrix.mulVec, dotProduct, hx, toMatrix_apply, entry] using this
  have := normal_equations V x y _ h
  refine ⟨V.mulVec (y - x), ?_, ?_⟩
  · rw [← Fin.sum_univ_eq_sum_range (fun i => (combination M n d (S.getD i 0) - entry X i 0) ^ 2),
      ← Fin.sum_univ_eq_sum_range
        (fun i => (combination M n (fun j => entry C j 0) (S.getD i 0) - entry X i 0) ^ 2)]
    simp only [← cv, Pi.sub_apply] at this ⊢
    exact this
  · rw [hx, hy, ← Matrix.mulVec_sub]
    rfl

/-- A curve is the combination of its control points given by the basis matrix. -/
theorem curve_combination (n : ℕ) (hn : 0 < n) (D : List (Pt ℝ)) (hD : D.length = n) (s : ℝ) :
    curve D s = (combination (tab n n fun i j => ((basisEntry n i j : Int) : ℝ)) n (fun j => (D.getD j 0).1) s,
      combination (tab n n fun i j => ((basisEntry n i j : Int) : ℝ)) n (fun j => (D.getD j 0).2) s) := by
  have hcol : ∀ c < n, ∑ r ∈ range n, s ^ r * entry (tab n n fun i j => ((basisEntry n i j : Int) : ℝ)) r c =
      bern (n - 1) c s := by
    intro c hc
    rw [← basis_bern n c hc]
    apply sum_congr rfl
    intro r hr
    rw [entry_tab _ (mem_range.mp hr) hc]
  have hn1 : n - 1 + 1 = n := by omega
  have main : ∀ (f : Pt ℝ → ℝ), bernList (D.map f) s =
      combination (tab n n fun i j => ((basisEntry n i j : Int) : ℝ)) n (fun j => f (D.getD j 0)) s := by
    intro f
    unfold bernList bernSum combination
    simp only [List.length_map, hD, hn1]
    apply sum_congr rfl
    intro c hc
    have hc' : c < D.length := by rw [hD]; exact mem_range.mp hc
    rw [hcol c (mem_range.mp hc)]
    simp [List.getD_eq_getElem?_getD, List.getElem?_eq_getElem hc']
  unfold curve
  exact Prod.ext (main _) (main _)

/-- C79: given at least `n` distinct times, `bestFit` with the basis matrix for `n` control points returns the
curve with `n` control points whose sum of squared distances to the data is the smallest, and no other curve
attains it. -/
theorem C79_least_squares (calls : List (Int × Int)) (P : List (Pt ℝ)) (S : List ℝ) (n : ℕ) (hn : 0 < n)
    (hS : S.length = P.length) (hd : n ≤ S.toFinset.card) :
    ∃ m C, (basisMatrix (tableAfter calls) n).1 = .ok m ∧
      bestFit P (m.map fun r => r.map fun (v : Int) => (v : ℝ)) S (some n) =
        .ok (C.map fun p => [p.1], C.map fun p => [p.2]) ∧
      C.length = n ∧
      ∀ D : List (Pt ℝ), D.length = n → sqErr P S C ≤ sqErr P S D ∧
        (sqErr P S D = sqErr P S C → D = C) := by
  obtain ⟨N, hN, e⟩ := C21_table calls
  obtain ⟨N', -, h2⟩ := basisMatrix_eq n N (by omega)
  obtain ⟨m, hm, hdet⟩ := C23_det (K := ℝ) calls n
  rw [e, h2] at hm
  simp only [Except.ok.injEq] at hm
  set M : Mat ℝ := m.map fun r => r.map fun (v : Int) => (v : ℝ) with hMdef
  have eM : M = tab n n fun i j => ((basisEntry n i j : Int) : ℝ) := by
    rw [hMdef, ← hm]; simp [tab, Function.comp_def]
  have iM : IsMat n n M := by rw [eM]; exact tab_isMat _ _ _
  obtain ⟨Cx, Cy, eB, ix, iy, nx, ny⟩ := bestFit_normal P M S n hn iM hdet hS hd
  set C : List (Pt ℝ) := (List.range n).map fun i => (entry Cx i 0, entry Cy i 0) with hC
  have hCl : C.length = n := by simp [hC]
  have getC : ∀ c < n, C.getD c 0 = (entry Cx c 0, entry Cy c 0) := by
    intro c hc
    rw [hC, List.getD_eq_getElem?_getD, List.getElem?_map, List.getElem?_range hc]; rfl
  refine ⟨m, C, by rw [e, h2, ← hm], ?_, hCl, ?_⟩
  · rw [eB, hC, List.map_map, List.map_map]
    congr 1
    exact Prod.ext (isMat_one ix) (isMat_one iy)
  intro D hD
  have eX : ∀ i < S.length, entry (columnX P) i 0 = (P.getD i 0).1 := by
    intro i hi
    rw [hS] at hi
    simp [entry, columnX, hi, List.getD_eq_getElem?_getD]
  have eY : ∀ i < S.length, entry (columnY P) i 0 = (P.getD i 0).2 := by
    intro i hi
    rw [hS] at hi
    simp [entry, columnY, hi, List.getD_eq_getElem?_getD]
  have err : ∀ E : List (Pt ℝ), E.length = n → sqErr P S E =
      ∑ i ∈ range S.length, (combination M n (fun j => (E.getD j 0).1) (S.getD i 0) - entry (columnX P) i 0) ^ 2 +
      ∑ i ∈ range S.length, (combination M n (fun j => (E.getD j 0).2) (S.getD i 0) - entry (columnY P) i 0) ^ 2 := by
    intro E hE
    unfold sqErr
    rw [← sum_add_distrib, ← hS]
    apply sum_congr rfl
    intro i hi
    rw [curve_combination n hn E hE, eX i (mem_range.mp hi), eY i (mem_range.mp hi), eM]
  have cC : ∀ (f : Pt ℝ → ℝ) (A : Mat ℝ), (∀ j < n, f (C.getD j 0) = entry A j 0) → ∀ s,
      combination M n (fun j => f (C.getD j 0)) s = combination M n (fun j => entry A j 0) s := by
    intro f A h s
    unfold combination
    apply sum_congr rfl
    intro j hj
    simp only [h j (mem_range.mp hj)]
  obtain ⟨e1, h1, d1⟩ := combination_best M S n (columnX P) Cx nx (fun j => (D.getD j 0).1)
  obtain ⟨e2, h2', d2⟩ := combination_best M S n (columnY P) Cy ny (fun j => (D.getD j 0).2)
  have tot : sqErr P S D = sqErr P S C + (∑ i, (e1 i) ^ 2 + ∑ i, (e2 i) ^ 2) := by
    rw [err D hD, err C hCl, h1, h2']
    simp only [cC Prod.fst Cx fun j hj => by rw [getC j hj], cC Prod.snd Cy fun j hj => by rw [getC j hj]]
    ring
  have p1 : 0 ≤ ∑ i, (e1 i) ^ 2 := sum_nonneg fun i _ => sq_nonneg _
  have p2 : 0 ≤ ∑ i, (e2 i) ^ 2 := sum_nonneg fun i _ => sq_nonneg _
  refine ⟨by linarith, fun heq => ?_⟩
  have zero : ∀ (e : Fin S.length → ℝ) (d : Fin n → ℝ), ∑ i, (e i) ^ 2 = 0 →
      e = (powers S S.length n).mulVec ((toMatrix n n M).mulVec d) → d = 0 := by
    intro e d hs he
    have h0 : e = 0 := by
      funext i
      have := (sum_eq_zero_iff_of_nonneg fun i _ => sq_nonneg (e i)).mp hs i (mem_univ _)
      simpa using this
    rw [he] at h0
    have := powers_injective S n hd _ h0
    exact Matrix.eq_zero_of_mulVec_eq_zero hdet this
  have z1 := zero e1 _ (by linarith) d1
  have z2 := zero e2 _ (by linarith) d2
  apply List.ext_getElem (by rw [hD, hCl])
  intro j hj1 hj2
  have hj : j < n := by omega
  have g : D.getD j 0 = C.getD j 0 := by
    rw [getC j hj]
    have a1 := congrFun z1 ⟨j, hj⟩
    have a2 := congrFun z2 ⟨j, hj⟩
    simp only [Pi.zero_apply, sub_eq_zero] at a1 a2
    exact Prod.ext a1 a2
  simpa [List.getD_eq_getElem?_getD, List.getElem?_eq_getElem hj1, List.getElem?_eq_getElem hj2] using g

/-- C25: `fit` by length along the polygon raises `TypeError` when some but not all consecutive points coincide. -/
theorem C25_repeated (calls : List (Int × Int)) (P : List (Pt ℝ)) (i j : ℕ) (hi : i + 1 < P.length)
    (hj : j + 1 < P.length) (heq : P.getD i 0 = P.getD (i + 1) 0) (hne : P.getD j 0 ≠ P.getD (j + 1) 0) :
    (fit (tableAfter calls) P true).1 = .error .typeError := by
  obtain ⟨N, hN, e⟩ := C21_table calls
  obtain ⟨N', -, h2⟩ := basisMatrix_eq P.length N (by omega)
  have hpos : pathLen P (P.length - 1) ≠ 0 := by
    have h1 := pathLen_lt_succ P j hne
    have h2 := pathLen_mono P (show j + 1 ≤ P.length - 1 by omega)
    have h3 := pathLen_mono P (Nat.zero_le j)
    rw [pathLen_zero] at h3
    linarith
  have hs := C24_polygonal_value P hpos
  set S := (List.range P.length).map fun i => pathLen P i / pathLen P (P.length - 1) with hSdef
  have hlen : S.length = P.length := by simp [hSdef]
  have hcard : S.toFinset.card < P.length := by
    rw [← hlen]
    refine lt_of_le_of_ne S.toFinset_card_le fun h => ?_
    have hnd : S.Nodup := by
      rw [List.card_toFinset] at h
      rw [← List.dedup_eq_self]
      exact (List.dedup_sublist S).eq_of_length h
    have : i = i + 1 := by
      apply (List.Nodup.getElem_inj_iff hnd (hi := by omega) (hj := by omega)).mp
      simp only [hSdef, List.getElem_map, List.getElem_range]
      rw [(pathLen_eq_succ_iff P i).mpr heq]
    omega
  have := C79_too_few_times P ((tab P.length P.length (basisEntry P.length)).map fun r => r.map fun (v : Int) => (v : ℝ))
    S P.length (by
      have : ((tab P.length P.length (basisEntry P.length)).map fun r => r.map fun (v : Int) => (v : ℝ)) =
        tab P.length P.length fun i j => ((basisEntry P.length i j : Int) : ℝ) := by simp [tab, Function.comp_def]
      rw [this]; exact tab_isMat _ _ _) (by intro h; rw [h] at hlen; simp at hlen; omega) hcard
  have hb : ∀ M, bestFit P M S = bestFit P M S (some P.length) := by
    intro M
    unfold bestFit
    cases P.length <;> rfl
  unfold fit
  simp only [e, h2, hs, ok_bind, hb, this, error_bind]

/-- C79: a missing or zero `n` means as many control points as data points. -/
theorem C79_default (P : List (Pt ℝ)) (M : Mat ℝ) (S : List ℝ) :
    bestFit P M S = bestFit P M S (some P.length) ∧ bestFit P M S (some 0) = bestFit P M S (some P.length) := by
  constructor <;> (unfold bestFit; cases P.length <;> rfl)

/-- The straight line fitted to three points that are not on a line: the best line through `(0,0), (1,1), (2,0)` at
the times `0, 1/2, 1` is the horizontal line at height one third. -/
example : bestFit [((0 : ℚ), (0 : ℚ)), (1, 1), (2, 0)] [[1, 0], [-1, 1]] [0, 1/2, 1] (some 2) =
    .ok ([[0], [2]], [[1/3], [1/3]]) := by decide +kernel
example : ([0, 1/2, 1] : List ℝ).toFinset.card = 3 := by
  rw [List.toFinset_card_of_nodup] <;> norm_num
/-- Only one distinct time for a line. -/
example : bestFit [((0 : ℚ), (0 : ℚ)), (1, 1), (2, 0)] [[1, 0], [-1, 1]] [1/2, 1/2, 1/2] (some 2) =
    .error .typeError := by decide +kernel

end PathLib
