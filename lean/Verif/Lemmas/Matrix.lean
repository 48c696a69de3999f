import Verif.Model.CurveFitting
import Verif.Lemmas.MatrixInversion
import Mathlib.Data.Matrix.Mul

set_option linter.unusedSectionVars false
set_option linter.unusedSimpArgs false

namespace PathLib
open Spec Finset

/-- The list of rows with entries `f i j`, `i < m`, `j < n`. -/
def tab {α : Type} (m n : ℕ) (f : ℕ → ℕ → α) : List (List α) :=
  (List.range m).map fun i => (List.range n).map fun j => f i j

variable {K : Type} [Field K]

/-- The entry of a list of rows. -/
def entry (A : List (List K)) (i j : ℕ) : K := (A.getD i []).getD j 0

theorem tab_congr {α : Type} {m n : ℕ} {f g : ℕ → ℕ → α} (h : ∀ i < m, ∀ j < n, f i j = g i j) :
    tab m n f = tab m n g := by
  unfold tab
  apply List.map_congr_left
  intro i hi
  apply List.map_congr_left
  intro j hj
  exact h i (by simpa using hi) j (by simpa using hj)

@[simp] theorem tab_length {α : Type} (m n : ℕ) (f : ℕ → ℕ → α) : (tab m n f).length = m := by
  simp [tab]

theorem tab_isMat (m n : ℕ) (f : ℕ → ℕ → K) : IsMat m n (tab m n f) := by
  refine ⟨by simp, ?_⟩
  intro r hr
  simp only [tab, List.mem_map] at hr
  obtain ⟨i, _, rfl⟩ := hr
  simp

theorem tab_getD {α : Type} {m n : ℕ} (f : ℕ → ℕ → α) {i : ℕ} (hi : i < m) :
    (tab m n f).getD i [] = (List.range n).map fun j => f i j := by
  simp [tab, List.getD_eq_getElem?_getD, hi]

theorem entry_tab {m n : ℕ} (f : ℕ → ℕ → K) {i j : ℕ} (hi : i < m) (hj : j < n) :
    entry (tab m n f) i j = f i j := by
  unfold entry
  rw [tab_getD f hi]
  simp [List.getD_eq_getElem?_getD, hj]

theorem isMat_eq_tab {m n : ℕ} {A : List (List K)} (h : IsMat m n A) : A = tab m n (entry A) := by
  obtain ⟨h1, h2⟩ := h
  apply List.ext_getElem
  · simp [h1]
  · intro i hi hi'
    have hr : (A[i]).length = n := h2 _ (List.getElem_mem hi)
    apply List.ext_getElem
    · simp [tab, hr]
    · intro j hj hj'
      simp [tab, entry, List.getD_eq_getElem?_getD, hi, hj]

theorem pyGet_tab {α : Type} {m n : ℕ} (f : ℕ → ℕ → α) {i : ℕ} (hi : i < m) :
    pyGet (tab m n f) (i : Int) = .ok ((List.range n).map fun j => f i j) := by
  rw [pyGet_nat_lt _ _ (by simpa using hi)]
  simp [tab]

theorem pyGet_map_range {α : Type} {n : ℕ} (f : ℕ → α) {j : ℕ} (hj : j < n) :
    pyGet ((List.range n).map f) (j : Int) = .ok (f j) := by
  rw [pyGet_nat_lt _ _ (by simpa using hj)]
  simp

theorem pyGet_tab_zero {α : Type} {m n : ℕ} (f : ℕ → ℕ → α) (hm : 0 < m) :
    pyGet (tab m n f) 0 = .ok ((List.range n).map fun j => f 0 j) := pyGet_tab f hm

theorem toMatrix_tab (m n : ℕ) (f : ℕ → ℕ → K) :
    toMatrix m n (tab m n f) = Matrix.of fun (i : Fin m) (j : Fin n) => f i j := by
  ext i j
  exact entry_tab f i.2 j.2

theorem toMatrix_apply (m n : ℕ) (A : List (List K)) (i : Fin m) (j : Fin n) :
    toMatrix m n A i j = entry A i j := rfl

theorem toMatrix_inj {m n : ℕ} {A B : List (List K)} (hA : IsMat m n A) (hB : IsMat m n B)
    (h : toMatrix m n A = toMatrix m n B) : A = B := by
  rw [isMat_eq_tab hA, isMat_eq_tab hB]
  apply tab_congr
  intro i hi j hj
  exact congrFun (congrFun h ⟨i, hi⟩) ⟨j, hj⟩

theorem idRows_eq (n : ℕ) : idRows n = (tab n n fun i j => if i = j then (1 : K) else 0) := rfl

theorem toMatrix_idRows (n : ℕ) : toMatrix n n (idRows n : List (List K)) = 1 := by
  rw [idRows_eq, toMatrix_tab]
  ext i j
  simp [Matrix.one_apply, Fin.ext_iff]

variable [LinearOrder K]

namespace CurveFitting

theorem col_tab {m n : ℕ} (g : ℕ → ℕ → K) {c : ℕ} (hc : c < n) :
    col (tab m n g) c = .ok ((List.range m).map fun l => g l c) := by
  unfold col
  rw [mapM_ok _ (fun r => r.getD c 0)]
  · congr 1
    simp [tab, List.getD_eq_getElem?_getD, hc]
  · intro r hr
    simp only [tab, List.mem_map] at hr
    obtain ⟨i, _, rfl⟩ := hr
    rw [pyGet_map_range _ hc]
    simp [List.getD_eq_getElem?_getD, hc]

theorem dotLoop_eq (k k' : ℕ) (hk : k ≤ k') (c r : ℕ → K) :
    dotLoop ((List.range k').map c) ((List.range k).map r) = .ok (∑ l ∈ range k, r l * c l) := by
  unfold dotLoop
  rw [List.length_map, List.length_range]
  have : ∀ m ≤ k, (List.range m).foldlM (fun a (i : ℕ) => do
      let x ← pyGet ((List.range k').map c) (i : Int)
      let y ← pyGet ((List.range k).map r) (i : Int)
      return a + x * y) (0 : K) = (.ok (∑ l ∈ range m, r l * c l) : Py K) := by
    intro m
    induction m with
    | zero => intro _; simp
    | succ m ih =>
      intro hm
      rw [List.range_succ, List.foldlM_append, ih (by omega)]
      simp only [ok_bind, List.foldlM_cons, List.foldlM_nil]
      rw [pyGet_map_range _ (by omega), pyGet_map_range _ (by omega)]
      simp only [ok_bind, pure_eq_ok]
      rw [sum_range_succ]
      congr 2
      ring
  exact this k le_rfl

theorem multiply_tab {m k n : ℕ} (hk : 0 < k) (f g : ℕ → ℕ → K) :
    multiply (tab m k f) (tab k n g) = .ok (tab m n fun i j => ∑ l ∈ range k, f i l * g l j) := by
  unfold multiply
  rw [pyGet_tab_zero g hk]
  simp only [ok_bind, List.length_map, List.length_range]
  conv_lhs => unfold tab
  rw [List.mapM_map]
  rw [mapM_ok _ (fun i => (List.range n).map fun j => ∑ l ∈ range k, f i l * g l j)]
  · rfl
  · intro i _
    simp only [Function.comp]
    apply mapM_ok
    intro c hc
    change (col (tab k n g) c >>= _) = _
    rw [col_tab g (by simpa using hc), ok_bind, dotLoop_eq k k le_rfl]

theorem transpose_tab {m n : ℕ} (hm : 0 < m) (f : ℕ → ℕ → K) :
    transpose (tab m n f) = .ok (tab n m fun i j => f j i) := by
  unfold transpose
  rw [pyGet_tab_zero f hm]
  simp only [ok_bind, List.length_map, List.length_range, tab_length]
  rw [mapM_ok _ (fun i => (List.range m).map fun j => f j i)]
  · rfl
  · intro c hc
    apply mapM_ok
    intro r hr
    rw [pyGet_tab f (by simpa using hr), ok_bind, pyGet_map_range _ (by simpa using hc)]

end CurveFitting

namespace MatrixInversion

theorem ofRows_eq (A : List (List K)) : ofRows A = entry A := rfl

theorem matrixInvert_tab {n : ℕ} (hn : 0 < n) (f : ℕ → ℕ → K) :
    matrixInvert (tab n n f) = match (List.range n).foldlM (step n)
        ⟨entry (tab n n f), fun row col => if row = col then 1 else 0⟩ with
      | none => .ok none
      | some st => .ok (some (toRows n st.I)) := by
  unfold matrixInvert
  rw [pyGet_tab_zero f hn]
  simp only [ok_bind, List.length_map, List.length_range, tab_length, ne_eq, not_true, if_false]
  rw [mapM_ok _ (fun i => (List.range n).map fun j => f i j)]
  · simp only [ok_bind, pure_eq_ok]
    rfl
  · intro i hi
    apply mapM_ok
    intro j hj
    rw [pyGet_tab f (by simpa using hi), ok_bind, pyGet_map_range _ (by simpa using hj)]

/-- `matrixInvert` on a square matrix, in matrix language. -/
theorem matrixInvert_spec {n : ℕ} (hn : 0 < n) (M : Mat K) (hM : IsMat n n M) :
    (∃ I, matrixInvert M = .ok (some I) ∧ IsMat n n I ∧
      toMatrix n n I * toMatrix n n M = 1 ∧ (toMatrix n n M).det ≠ 0) ∨
    (matrixInvert M = .ok none ∧ (toMatrix n n M).det = 0) := by
  have key := loop_spec n (entry M)
  have e := matrixInvert_tab hn (entry M)
  rw [← isMat_eq_tab hM] at e
  rw [e]
  cases hl : (List.range n).foldlM (step n)
      (⟨entry M, fun row col => if row = col then 1 else 0⟩ : St K) with
  | some st =>
    rw [hl] at key
    simp only at key ⊢
    left
    have hI : toMatrix n n (toRows n st.I) * toMatrix n n M = 1 := by
      ext r c
      rw [Matrix.mul_apply]
      have h1 := key.prod r r.2 c c.2
      rw [key.unit c c.2 r r.2] at h1
      rw [Matrix.one_apply, ← Fin.sum_univ_eq_sum_range (fun k => st.I r k * entry M k c)] at *
      simp only [Fin.ext_iff]
      rw [← h1]
      apply Finset.sum_congr rfl
      intro k _
      rw [toMatrix_apply, toMatrix_apply]
      congr 1
      exact entry_tab st.I r.2 k.2
    refine ⟨_, rfl, tab_isMat n n st.I, hI, ?_⟩
    intro h0
    have := congrArg Matrix.det hI
    rw [Matrix.det_mul, h0, mul_zero, Matrix.det_one] at this
    exact zero_ne_one this
  | none =>
    rw [hl] at key
    simp only at key ⊢
    right
    refine ⟨trivial, ?_⟩
    obtain ⟨v, ⟨i, hi, hv⟩, hker⟩ := key
    rw [← Matrix.exists_mulVec_eq_zero_iff]
    refine ⟨fun k => v k, ?_, ?_⟩
    · intro h0
      exact hv (congrFun h0 ⟨i, hi⟩)
    · ext r
      have := hker r r.2
      rw [← Fin.sum_univ_eq_sum_range (fun c => entry M r c * v c)] at this
      simpa [Matrix.mulVec, dotProduct, toMatrix_apply] using this

end MatrixInversion

end PathLib
