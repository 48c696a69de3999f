import Verif.Props.CurveFitting
import Mathlib.Algebra.BigOperators.Group.List.Lemmas

/-!
# Property theorems about `CurveFitting.computeTimeValues` and `fit` (C24, C25)
-/

set_option linter.unusedSectionVars false
set_option linter.unusedSimpArgs false

namespace PathLib
open Spec Finset MatrixInversion CurveFitting

/-- Length of the polygon through the first `i + 1` points. -/
noncomputable def Spec.pathLen (p : List (Pt ℝ)) (i : ℕ) : ℝ :=
  ∑ j ∈ range i, Real.sqrt (((p.getD j 0).1 - (p.getD (j + 1) 0).1) ^ 2 +
    ((p.getD j 0).2 - (p.getD (j + 1) 0).2) ^ 2)

theorem pathLen_succ (p : List (Pt ℝ)) (i : ℕ) : pathLen p (i + 1) = pathLen p i +
    Real.sqrt (((p.getD i 0).1 - (p.getD (i + 1) 0).1) ^ 2 +
    ((p.getD i 0).2 - (p.getD (i + 1) 0).2) ^ 2) := by
  unfold pathLen; rw [sum_range_succ]

theorem pathLen_mono (p : List (Pt ℝ)) : Monotone (pathLen p) := by
  apply monotone_nat_of_le_succ
  intro i
  rw [pathLen_succ]
  have := Real.sqrt_nonneg (((p.getD i 0).1 - (p.getD (i + 1) 0).1) ^ 2 +
    ((p.getD i 0).2 - (p.getD (i + 1) 0).2) ^ 2)
  linarith

theorem pathLen_zero (p : List (Pt ℝ)) : pathLen p 0 = 0 := by simp [pathLen]

theorem pathLen_lt_succ (p : List (Pt ℝ)) (i : ℕ) (h : p.getD i 0 ≠ p.getD (i + 1) 0) :
    pathLen p i < pathLen p (i + 1) := by
  rw [pathLen_succ]
  have : 0 < Real.sqrt (((p.getD i 0).1 - (p.getD (i + 1) 0).1) ^ 2 +
    ((p.getD i 0).2 - (p.getD (i + 1) 0).2) ^ 2) := by
    apply Real.sqrt_pos.mpr
    by_contra hn
    have h1 := sq_nonneg ((p.getD i 0).1 - (p.getD (i + 1) 0).1)
    have h2 := sq_nonneg ((p.getD i 0).2 - (p.getD (i + 1) 0).2)
    have e1 : ((p.getD i 0).1 - (p.getD (i + 1) 0).1) ^ 2 = 0 := by linarith
    have e2 : ((p.getD i 0).2 - (p.getD (i + 1) 0).2) ^ 2 = 0 := by linarith
    apply h
    apply Prod.ext
    · exact sub_eq_zero.mp (pow_eq_zero_iff (two_ne_zero) |>.mp e1)
    · exact sub_eq_zero.mp (pow_eq_zero_iff (two_ne_zero) |>.mp e2)
  linarith

theorem pathLen_eq_succ_iff (p : List (Pt ℝ)) (i : ℕ) :
    pathLen p (i + 1) = pathLen p i ↔ p.getD i 0 = p.getD (i + 1) 0 := by
  constructor
  · intro h
    by_contra hne
    exact absurd h (pathLen_lt_succ p i hne).ne'
  · intro h
    rw [pathLen_succ, h]; simp

theorem cumulative_eq (p : List (Pt ℝ)) (m : ℕ) (hm : m + 1 ≤ p.length) :
    cumulative p (List.range' 1 m) [0] = .ok ((List.range (m + 1)).map (pathLen p)) := by
  induction m with
  | zero => simp [cumulative, List.range_succ, pathLen_zero]
  | succ m ih =>
    have := ih (by omega)
    unfold cumulative at this ⊢
    rw [List.range'_1_concat, List.foldlM_append, this, ok_bind]
    simp only [List.foldlM_cons, List.foldlM_nil]
    have e : ((1 + m : ℕ) : Int) - 1 = (m : ℕ) := by push_cast; ring
    rw [e, pyGet_map_range _ (by omega), ok_bind, pyGet_nat_lt _ _ (by omega), ok_bind,
      pyGet_nat_lt _ _ (by omega), ok_bind]
    simp only [pure_eq_ok, ok_bind]
    rw [List.range_succ (n := m + 1), List.map_append]
    congr 2
    simp only [List.map_cons, List.map_nil, pathLen_succ]
    have h1 : p.getD m 0 = p[m] := by simp [List.getD_eq_getElem?_getD, List.getElem?_eq_getElem (show m < p.length by omega)]
    have h2 : p.getD (m+1) 0 = p[1+m] := by
      rw [List.getD_eq_getElem?_getD, List.getElem?_eq_getElem (show m + 1 < p.length by omega)]
      simp [add_comm]
    rw [h1, h2]
    simp only [CurveFitting.dist, butils.hypot, sq]

/-! ## C24 -/

/-- C24: the polygonal time values are the normalised path lengths, whenever the polygon has non-zero length. -/
theorem C24_polygonal_value (p : List (Pt ℝ)) (h : pathLen p (p.length - 1) ≠ 0) :
    computeTimeValues p none true =
      .ok ((List.range p.length).map fun i => pathLen p i / pathLen p (p.length - 1)) := by
  have hp : 2 ≤ p.length := by
    by_contra hn
    have : p.length - 1 = 0 := by omega
    rw [this, pathLen_zero] at h; exact h rfl
  unfold computeTimeValues
  simp only [if_true, Int.toNat_natCast]
  rw [cumulative_eq p _ (by omega), ok_bind]
  have e : ((p.length : Int) - 1) = ((p.length - 1 : ℕ) : Int) := by omega
  rw [e, pyGet_map_range _ (by omega), ok_bind, show p.length - 1 + 1 = p.length by omega]
  rw [mapM_ok _ (fun v => v / pathLen p (p.length - 1)) _ (fun v _ => pdiv_of_ne v h)]
  simp [Function.comp_def]

/-- C24: `ZeroDivisionError` exactly when all consecutive points coincide (in particular for 0 or 1 points). -/
theorem C24_zero_division (p : List (Pt ℝ)) :
    computeTimeValues p none true = .error .zeroDivisionError ↔
      ∀ i, i + 1 < p.length → p.getD i 0 = p.getD (i + 1) 0 := by
  constructor
  · intro h
    by_contra hn
    push Not at hn
    obtain ⟨i, hi, hne⟩ := hn
    have h1 := pathLen_lt_succ p i hne
    have h2 := pathLen_mono p (show i + 1 ≤ p.length - 1 by omega)
    have h3 := pathLen_mono p (Nat.zero_le i)
    rw [pathLen_zero] at h3
    rw [C24_polygonal_value p (by linarith)] at h
    simp at h
  · intro h
    have hz : ∀ i, i + 1 ≤ p.length → pathLen p i = 0 := by
      intro i
      induction i with
      | zero => intro _; exact pathLen_zero p
      | succ i ih =>
        intro hi
        rw [(pathLen_eq_succ_iff p i).mpr (h i (by omega)), ih (by omega)]
    unfold computeTimeValues
    simp only [if_true, Int.toNat_natCast]
    rcases Nat.eq_zero_or_pos p.length with h0 | hp
    · have : p = [] := List.length_eq_zero_iff.mp h0
      subst this
      simp [cumulative, pyGet_neg_one]
    · rw [cumulative_eq p _ (by omega), ok_bind]
      have e : ((p.length : Int) - 1) = ((p.length - 1 : ℕ) : Int) := by omega
      rw [e, pyGet_map_range _ (by omega), ok_bind, hz _ (by omega)]
      rw [List.range_succ_eq_map, List.map_cons, List.mapM_cons]
      simp

/-- C24: there are as many time values as points, the first is 0, the last is 1, they increase strictly. -/
theorem C24_polygonal (p : List (Pt ℝ)) (h2 : 2 ≤ p.length)
    (h : ∀ i, i + 1 < p.length → p.getD i 0 ≠ p.getD (i + 1) 0) :
    ∃ s, computeTimeValues p none true = .ok s ∧ s.length = p.length ∧ s.getD 0 0 = 0 ∧
      s.getD (p.length - 1) 0 = 1 ∧ s.Pairwise (· < ·) := by
  have hmono : ∀ i j, i < j → j < p.length → pathLen p i < pathLen p j := by
    intro i j hij hj
    have h1 := pathLen_lt_succ p i (h i (by omega))
    have h2 := pathLen_mono p (show i + 1 ≤ j by omega)
    linarith
  have hpos : 0 < pathLen p (p.length - 1) := by
    have := hmono 0 (p.length - 1) (by omega) (by omega)
    rwa [pathLen_zero] at this
  refine ⟨_, C24_polygonal_value p hpos.ne', by simp, ?_, ?_, ?_⟩
  · rw [List.getD_eq_getElem?_getD, List.getElem?_map, List.getElem?_range (by omega)]
    simp [pathLen_zero]
  · rw [List.getD_eq_getElem?_getD, List.getElem?_map, List.getElem?_range (by omega)]
    simp [hpos.ne']
  · rw [List.pairwise_iff_getElem]
    intro i j hi hj hij
    simp only [List.length_map, List.length_range] at hi hj
    simp only [List.getElem_map, List.getElem_range]
    exact div_lt_div_of_pos_right (hmono i j hij hj) hpos

/-- C24: weakly increasing and inside [0, 1] as soon as the polygon has some non-zero edge. -/
theorem C24_polygonal_weak (p : List (Pt ℝ)) (s : List ℝ) (hs : computeTimeValues p none true = .ok s) :
    s.length = p.length ∧ s.Pairwise (· ≤ ·) ∧ ∀ v ∈ s, 0 ≤ v ∧ v ≤ 1 := by
  have hne : pathLen p (p.length - 1) ≠ 0 := by
    intro h0
    have : computeTimeValues p none true = .error .zeroDivisionError := by
      rw [C24_zero_division]
      intro i hi
      rw [← pathLen_eq_succ_iff]
      have a := pathLen_mono p (show i + 1 ≤ p.length - 1 by omega)
      have b := pathLen_mono p (Nat.zero_le i)
      have c := pathLen_mono p (Nat.le_succ i)
      rw [pathLen_zero] at b
      simp only [Nat.succ_eq_add_one] at c
      linarith
    rw [this] at hs; simp at hs
  rw [C24_polygonal_value p hne] at hs
  simp only [Except.ok.injEq] at hs
  subst hs
  have h0 := pathLen_mono p (Nat.zero_le (p.length - 1))
  rw [pathLen_zero] at h0
  have hpos : 0 < pathLen p (p.length - 1) := lt_of_le_of_ne h0 hne.symm
  refine ⟨by simp, ?_, ?_⟩
  · rw [List.pairwise_iff_getElem]
    intro i j hi hj hij
    simp only [List.getElem_map, List.getElem_range]
    exact div_le_div_of_nonneg_right (pathLen_mono p hij.le) hpos.le
  · intro v hv
    simp only [List.mem_map, List.mem_range] at hv
    obtain ⟨i, hi, rfl⟩ := hv
    have b := pathLen_mono p (Nat.zero_le i)
    rw [pathLen_zero] at b
    refine ⟨div_nonneg b hpos.le, ?_⟩
    rw [div_le_one hpos]
    exact pathLen_mono p (by omega)

/-- C24: the non-polygonal time values are `i / (n - 1)`. -/
theorem C24_uniform (p : List (Pt ℝ)) (h2 : 2 ≤ p.length) :
    computeTimeValues p none false =
      .ok ((List.range p.length).map fun (i : ℕ) => (i : ℝ) / ((p.length - 1 : ℕ) : ℝ)) := by
  unfold computeTimeValues
  simp only [Bool.false_eq_true, if_false, Int.toNat_natCast]
  have e : ((p.length : Int) : ℝ) - 1 = ((p.length - 1 : ℕ) : ℝ) := by
    rw [Nat.cast_sub (by omega)]; simp
  rw [e]
  have hne : ((p.length - 1 : ℕ) : ℝ) ≠ 0 := by
    rw [Nat.cast_ne_zero]; omega
  exact mapM_ok _ _ _ fun i _ => pdiv_of_ne _ hne

/-- C24: the non-polygonal variant for a single point raises `ZeroDivisionError`, for none it returns `[]`. -/
theorem C24_uniform_small (a : Pt ℝ) :
    computeTimeValues [a] none false = .error .zeroDivisionError ∧
    computeTimeValues [] none false = .ok [] := by
  constructor
  · simp [computeTimeValues, List.range_succ]
  · simp [computeTimeValues]

example : pathLen [(0, 0), (3, 4), (3, 5)] 2 = 6 := by
  have h : (5 : ℝ) = Real.sqrt 25 := by
    rw [show (25 : ℝ) = 5 ^ 2 by norm_num, Real.sqrt_sq (by norm_num)]
  simp [pathLen, sum_range_succ]
  norm_num
  rw [← h]; norm_num

/-! ## C25 -/

theorem formTMatrix_eq (S : List ℝ) (n : ℕ) (hn : 0 < n) (hS : S.length = n) :
    formTMatrix S (some n) =
      .ok (tab n n fun i j => (S.getD j 0) ^ i, tab n n fun i j => (S.getD i 0) ^ j) := by
  have e : (List.range n).map (fun i => raiseRowPower S i) = tab n n fun i j => (S.getD j 0) ^ i := by
    unfold tab raiseRowPower
    apply List.map_congr_left
    intro i _
    apply List.ext_getElem
    · simp [hS]
    · intro j h1 h2
      simp only [List.length_map] at h1
      simp [List.getD_eq_getElem?_getD, List.getElem?_eq_getElem h1]
  obtain ⟨m, rfl⟩ : ∃ m, n = m + 1 := ⟨n - 1, by omega⟩
  unfold formTMatrix
  simp only [e]
  rw [transpose_tab (by omega)]
  rfl

theorem col_isMat (P : List ℝ) : IsMat P.length 1 (P.map fun v => [v]) :=
  ⟨by simp, by intro r hr; simp only [List.mem_map] at hr; obtain ⟨v, _, rfl⟩ := hr; rfl⟩

/-- A matrix with one column is a list of values. -/
theorem isMat_one {n : ℕ} {A : Mat ℝ} (h : IsMat n 1 A) :
    A = (List.range n).map fun i => [entry A i 0] := by
  conv_lhs => rw [isMat_eq_tab h]
  simp [tab, List.range_succ]

/-- C25: `bestFit` solves the interpolation problem exactly for distinct time values and an invertible basis. -/
theorem C25_bestFit (P : List (Pt ℝ)) (M : Mat ℝ) (S : List ℝ) (hn : 0 < P.length)
    (hM : IsMat P.length P.length M) (hdet : (toMatrix P.length P.length M).det ≠ 0)
    (hS : S.length = P.length) (hinj : S.Nodup) :
    ∃ C : List (Pt ℝ), bestFit P M S = .ok (C.map fun p => [p.1], C.map fun p => [p.2]) ∧
      C.length = P.length ∧
      ∀ i < P.length,
        ∑ c ∈ range P.length, (∑ r ∈ range P.length, (S.getD i 0) ^ r * entry M r c) * (C.getD c 0).1
          = (P.getD i 0).1 ∧
        ∑ c ∈ range P.length, (∑ r ∈ range P.length, (S.getD i 0) ^ r * entry M r c) * (C.getD c 0).2
          = (P.getD i 0).2 := by
  obtain ⟨n, hPn⟩ : ∃ n, n = P.length := ⟨_, rfl⟩
  rw [← hPn] at hn hM hdet hS ⊢
  set Tt : Mat ℝ := tab n n fun i j => (S.getD j 0) ^ i with hTt
  set T : Mat ℝ := tab n n fun i j => (S.getD i 0) ^ j with hT
  have iT : IsMat n n T := tab_isMat _ _ _
  have iTt : IsMat n n Tt := tab_isMat _ _ _
  set V : Matrix (Fin n) (Fin n) ℝ := Matrix.vandermonde fun i => S.getD i 0 with hV
  have mT : toMatrix n n T = V := by
    rw [hT, toMatrix_tab]; ext i j; simp [hV, Matrix.vandermonde]
  have mTt : toMatrix n n Tt = V.transpose := by
    rw [hTt, toMatrix_tab]; ext i j; simp [hV, Matrix.vandermonde]
  have dV : V.det ≠ 0 := by
    rw [hV, Matrix.det_vandermonde_ne_zero_iff]
    intro i j hij
    have hi : i.1 < S.length := by omega
    have hj : j.1 < S.length := by omega
    simp only [List.getD_eq_getElem?_getD, List.getElem?_eq_getElem hi, List.getElem?_eq_getElem hj,
      Option.getD_some] at hij
    exact Fin.ext ((List.Nodup.getElem_inj_iff hinj).mp hij)
  -- the inverse of the basis
  obtain ⟨M1, eM1, iM1, mM1⟩ : ∃ M1, matrixInvert M = .ok (some M1) ∧ IsMat n n M1 ∧
      toMatrix n n M1 * toMatrix n n M = 1 := by
    rcases matrixInvert_spec hn M hM with ⟨I, e, hI, h, -⟩ | ⟨-, h⟩
    · exact ⟨I, e, hI, h⟩
    · exact absurd h hdet
  obtain ⟨Q, eQ, iQ, mQ⟩ := C22_multiply n n n hn Tt T iTt iT
  obtain ⟨I, eI, iI, mI⟩ : ∃ I, matrixInvert Q = .ok (some I) ∧ IsMat n n I ∧
      toMatrix n n I * toMatrix n n Q = 1 := by
    rcases matrixInvert_spec hn Q iQ with ⟨I, e, hI, h, -⟩ | ⟨-, h⟩
    · exact ⟨I, e, hI, h⟩
    · exfalso
      rw [mQ, mTt, mT, Matrix.det_mul, Matrix.det_transpose] at h
      exact dV (by simpa using h)
  obtain ⟨s1, es1, is1, ms1⟩ := C22_multiply n n n hn I Tt iI iTt
  obtain ⟨s2, es2, is2, ms2⟩ := C22_multiply n n n hn M1 s1 iM1 is1
  have iX : IsMat n 1 (columnX P) := by
    have := col_isMat (P.map Prod.fst)
    simpa [columnX, Function.comp_def, hPn] using this
  have iY : IsMat n 1 (columnY P) := by
    have := col_isMat (P.map Prod.snd)
    simpa [columnY, Function.comp_def, hPn] using this
  obtain ⟨Cx, ex, ix, mx⟩ := C22_multiply n n 1 hn s2 (columnX P) is2 iX
  obtain ⟨Cy, ey, iy, my⟩ := C22_multiply n n 1 hn s2 (columnY P) is2 iY
  -- V * M * step2 = 1
  have key : V * toMatrix n n M * toMatrix n n s2 = 1 := by
    have hV1 : V * (toMatrix n n I * V.transpose) = 1 := by
      apply mul_eq_one_comm.mp
      rw [Matrix.mul_assoc, ← mI, mQ, mTt, mT]
    rw [ms2, ms1, mTt, Matrix.mul_assoc, ← Matrix.mul_assoc (toMatrix n n M),
      mul_eq_one_comm.mp mM1, Matrix.one_mul, hV1]
  have kx : V * toMatrix n n M * toMatrix n 1 Cx = toMatrix n 1 (columnX P) := by
    rw [mx, ← Matrix.mul_assoc, key, Matrix.one_mul]
  have ky : V * toMatrix n n M * toMatrix n 1 Cy = toMatrix n 1 (columnY P) := by
    rw [my, ← Matrix.mul_assoc, key, Matrix.one_mul]
  refine ⟨(List.range n).map fun i => (entry Cx i 0, entry Cy i 0), ?_, by simp, ?_⟩
  · unfold bestFit
    simp only [← hPn]
    rw [formTMatrix_eq S n hn hS, ok_bind]
    simp only [← hTt, ← hT, eM1, ok_bind, eQ, eI, multiplyOpt, es1, es2, ex, ey, pure_eq_ok]
    congr 1
    rw [List.map_map, List.map_map]
    apply Prod.ext
    · exact isMat_one ix
    · exact isMat_one iy
  · intro i hi
    have getC : ∀ c < n, ((List.range n).map fun i => (entry Cx i 0, entry Cy i 0)).getD c 0 =
        (entry Cx c 0, entry Cy c 0) := by
      intro c hc
      rw [List.getD_eq_getElem?_getD, List.getElem?_map, List.getElem?_range hc]; rfl
    have hiP : i < P.length := by omega
    have eP : P.getD i 0 = P[i] := by
      simp [List.getD_eq_getElem?_getD, List.getElem?_eq_getElem hiP]
    have gen : ∀ (C X : Mat ℝ), V * toMatrix n n M * toMatrix n 1 C = toMatrix n 1 X →
        ∑ c ∈ range n, (∑ r ∈ range n, (S.getD i 0) ^ r * entry M r c) * entry C c 0 = entry X i 0 := by
      intro C X h
      have := congrFun (congrFun h ⟨i, hi⟩) 0
      rw [Matrix.mul_apply] at this
      simp only [Matrix.mul_apply, toMatrix_apply, hV, Matrix.vandermonde_apply] at this
      rw [← Fin.sum_univ_eq_sum_range (fun c => (∑ r ∈ range n, (S.getD i 0) ^ r * entry M r c) * entry C c 0) n]
      rw [← show entry X i 0 = _ from rfl]
      refine Eq.trans ?_ this
      apply sum_congr rfl
      intro c _
      rw [← Fin.sum_univ_eq_sum_range (fun r => (S.getD i 0) ^ r * entry M r c) n]
      rfl
    constructor
    · have := gen _ _ kx
      refine Eq.trans (sum_congr rfl fun c hc => ?_) (this.trans ?_)
      · rw [getC c (mem_range.mp hc)]
      · rw [eP]; simp [entry, columnX, hiP]
    · have := gen _ _ ky
      refine Eq.trans (sum_congr rfl fun c hc => ?_) (this.trans ?_)
      · rw [getC c (mem_range.mp hc)]
      · rw [eP]; simp [entry, columnY, hiP]

/-- The fitted curve, from distinct time values. -/
theorem fit_of_times (calls : List (Int × Int)) (P : List (Pt ℝ)) (polygonal : Bool) (S : List ℝ)
    (hn : 0 < P.length) (hS : computeTimeValues P none polygonal = .ok S)
    (hlen : S.length = P.length) (hnd : S.Nodup) :
    ∃ m C, (fit (tableAfter calls) P polygonal).1 =
        .ok (P, m, S, (C.map fun p => [p.1], C.map fun p => [p.2])) ∧
      C.length = P.length ∧
      ∀ i < P.length, curve C (S.getD i 0) = P.getD i 0 := by
  obtain ⟨N, hN, e⟩ := C21_table calls
  obtain ⟨N', -, h2⟩ := basisMatrix_eq P.length N (by omega)
  obtain ⟨m, hm, hdet⟩ := C23_det (K := ℝ) calls P.length
  rw [e, h2] at hm
  simp only [Except.ok.injEq] at hm
  set n := P.length with hPn
  set M : Mat ℝ := m.map fun r => r.map fun (v : Int) => (v : ℝ) with hMdef
  have eM : M = tab n n fun i j => ((basisEntry n i j : Int) : ℝ) := by
    rw [hMdef, ← hm]; simp [tab, Function.comp_def]
  have iM : IsMat n n M := by rw [eM]; exact tab_isMat _ _ _
  obtain ⟨C, eC, hC, hint⟩ := C25_bestFit P M S hn iM hdet hlen hnd
  refine ⟨m, C, ?_, hC, ?_⟩
  · unfold fit
    simp only [← hPn, e, h2, hS, ok_bind, hm, ← hMdef, eC, pure_eq_ok]
  · intro i hi
    obtain ⟨hx, hy⟩ := hint i hi
    have hcol : ∀ c < n, ∑ r ∈ range n, (S.getD i 0) ^ r * entry M r c = bern (n - 1) c (S.getD i 0) := by
      intro c hc
      rw [← basis_bern n c hc]
      apply sum_congr rfl
      intro r hr
      rw [eM, entry_tab _ (mem_range.mp hr) hc]
    have hn1 : n - 1 + 1 = n := by omega
    have main : ∀ (f : Pt ℝ → ℝ), bernList (C.map f) (S.getD i 0) =
        ∑ c ∈ range n, bern (n - 1) c (S.getD i 0) * f (C.getD c 0) := by
      intro f
      unfold bernList bernSum
      simp only [List.length_map, hC, ← hPn, hn1]
      apply sum_congr rfl
      intro c hc
      have hc' : c < C.length := by rw [hC]; exact mem_range.mp hc
      simp [List.getD_eq_getElem?_getD, List.getElem?_eq_getElem hc']
    unfold curve
    apply Prod.ext
    · simp only [main]
      rw [← hx]
      apply sum_congr rfl
      intro c hc; rw [hcol c (mem_range.mp hc)]
    · simp only [main]
      rw [← hy]
      apply sum_congr rfl
      intro c hc; rw [hcol c (mem_range.mp hc)]

/-- C25: after every history of table growth, `fit` of at least two points, consecutive ones distinct, succeeds
and the fitted curve passes through every point at its time value. -/
theorem C25_fit (calls : List (Int × Int)) (P : List (Pt ℝ)) (h2 : 2 ≤ P.length)
    (h : ∀ i, i + 1 < P.length → P.getD i 0 ≠ P.getD (i + 1) 0) :
    ∃ m S C, (fit (tableAfter calls) P true).1 =
        .ok (P, m, S, (C.map fun p => [p.1], C.map fun p => [p.2])) ∧
      C.length = P.length ∧ S.length = P.length ∧ S.getD 0 0 = 0 ∧ S.getD (P.length - 1) 0 = 1 ∧
      ∀ i < P.length, curve C (S.getD i 0) = P.getD i 0 := by
  obtain ⟨S, hS, hl, h0, h1, hp⟩ := C24_polygonal P h2 h
  obtain ⟨m, C, e, hC, hi⟩ := fit_of_times calls P true S (by omega) hS hl (hp.imp fun h => ne_of_lt h)
  exact ⟨m, S, C, e, hC, hl, h0, h1, hi⟩

/-- C25: the same for the uniform parametrisation, without any condition on the points. -/
theorem C25_fit_uniform (calls : List (Int × Int)) (P : List (Pt ℝ)) (h2 : 2 ≤ P.length) :
    ∃ m C, (fit (tableAfter calls) P false).1 =
        .ok (P, m, (List.range P.length).map (fun (i : ℕ) => (i : ℝ) / ((P.length - 1 : ℕ) : ℝ)),
          (C.map fun p => [p.1], C.map fun p => [p.2])) ∧
      C.length = P.length ∧
      ∀ i < P.length, curve C ((i : ℝ) / ((P.length - 1 : ℕ) : ℝ)) = P.getD i 0 := by
  have hpos : (0 : ℝ) < ((P.length - 1 : ℕ) : ℝ) := by
    rw [Nat.cast_pos]; omega
  obtain ⟨m, C, e, hC, hi⟩ := fit_of_times calls P false _ (by omega) (C24_uniform P h2) (by simp) (by
    apply List.Nodup.map _ List.nodup_range
    intro a b hab
    simp only at hab
    rw [div_left_inj' hpos.ne'] at hab
    exact_mod_cast hab)
  refine ⟨m, C, e, hC, ?_⟩
  intro i hiP
  have := hi i hiP
  rwa [List.getD_eq_getElem?_getD, List.getElem?_map, List.getElem?_range hiP] at this

/-- C25: the fitted curve starts at the first and ends at the last point. -/
theorem C25_ends (calls : List (Int × Int)) (P : List (Pt ℝ)) (h2 : 2 ≤ P.length)
    (h : ∀ i, i + 1 < P.length → P.getD i 0 ≠ P.getD (i + 1) 0) :
    ∃ m S C, (fit (tableAfter calls) P true).1 =
        .ok (P, m, S, (C.map fun p => [p.1], C.map fun p => [p.2])) ∧
      curve C 0 = P.getD 0 0 ∧ curve C 1 = P.getD (P.length - 1) 0 := by
  obtain ⟨m, S, C, e, hC, hl, h0, h1, hi⟩ := C25_fit calls P h2 h
  exact ⟨m, S, C, e, by rw [← hi 0 (by omega), h0], by rw [← hi (P.length - 1) (by omega), h1]⟩

/-- C25: `fit` of fewer than two points raises `ZeroDivisionError`. -/
theorem C25_too_few (calls : List (Int × Int)) (P : List (Pt ℝ)) (h : P.length ≤ 1) :
    (fit (tableAfter calls) P true).1 = .error .zeroDivisionError := by
  obtain ⟨N, hN, e⟩ := C21_table calls
  obtain ⟨N', -, h2⟩ := basisMatrix_eq P.length N (by omega)
  have : computeTimeValues P none true = .error .zeroDivisionError := by
    rw [C24_zero_division]; intro i hi; omega
  unfold fit
  simp only [e, h2, this, error_bind]

/-- The hypotheses of `C25_fit` are met by three points that are not collinear, the first and last equal. -/
example : ∃ m S C, (fit initialTable [(0, 0), (1, 2), (0, 0)] true).1 =
      .ok ([(0, 0), (1, 2), (0, 0)], m, S, (C.map fun p => [p.1], C.map fun p => [p.2])) ∧
      curve C 0 = (0, 0) := by
  obtain ⟨m, S, C, e, h0, -⟩ := C25_ends [] [(0, 0), (1, 2), (0, 0)] (by simp) (by
    intro i hi
    match i, hi with
    | 0, _ => simp
    | 1, _ => simp)
  exact ⟨m, S, C, e, by simpa using h0⟩

end PathLib
