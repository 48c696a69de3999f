import Verif.Model.RoundedFit
import Verif.Lemmas.Matrix
import Verif.Lemmas.Rounding

/-!
# Loops of the curve fitting code in rounded arithmetic
-/

set_option linter.unusedSectionVars false
set_option linter.unusedSimpArgs false

namespace PathLib
namespace Rounded
open Spec
open PathLib.MatrixInversion (St set2 pivot ofRows toRows)

variable (R : Rounding)

namespace MatrixInversion

theorem scaleRow_effect (n i : Nat) (e : ℝ) (st : St ℝ) :
    (∀ r c, (scaleRow R n i e st).C r c = if r = i ∧ c < n then R.div (st.C i c) e else st.C r c) ∧
    (∀ r c, (scaleRow R n i e st).I r c = if r = i ∧ c < n then R.div (st.I i c) e else st.I r c) := by
  induction n with
  | zero => simp [scaleRow]
  | succ n ih =>
    have e' : scaleRow R (n + 1) i e st = scaleCol R i e (scaleRow R n i e st) n := by
      simp [scaleRow, List.range_succ]
    rw [e']
    obtain ⟨hC, hI⟩ := ih
    constructor
    · intro r c
      simp only [scaleCol, set2, hC]
      by_cases hr : r = i
      · subst hr
        by_cases hc : c = n
        · subst hc; simp
        · have : c < n + 1 ↔ c < n := by omega
          simp [hc, this]
      · simp [hr]
    · intro r c
      simp only [scaleCol, set2, hI]
      by_cases hr : r = i
      · subst hr
        by_cases hc : c = n
        · subst hc; simp
        · have : c < n + 1 ↔ c < n := by omega
          simp [hc, this]
      · simp [hr]

theorem elimCols_effect (n i ii : Nat) (h : ii ≠ i) (e : ℝ) (st : St ℝ) :
    (∀ r c, ((List.range n).foldl (elimCol R i ii e) st).C r c =
      if r = ii ∧ c < n then R.sub (st.C ii c) (R.mul e (st.C i c)) else st.C r c) ∧
    (∀ r c, ((List.range n).foldl (elimCol R i ii e) st).I r c =
      if r = ii ∧ c < n then R.sub (st.I ii c) (R.mul e (st.I i c)) else st.I r c) := by
  have h' : i ≠ ii := Ne.symm h
  induction n with
  | zero => simp
  | succ n ih =>
    rw [List.range_succ, List.foldl_append]
    simp only [List.foldl_cons, List.foldl_nil]
    obtain ⟨hC, hI⟩ := ih
    constructor
    · intro r c
      simp only [elimCol, set2, hC]
      by_cases hr : r = ii
      · subst hr
        by_cases hc : c = n
        · subst hc; simp [h']
        · have : c < n + 1 ↔ c < n := by omega
          simp [hc, this]
      · simp [hr]
    · intro r c
      simp only [elimCol, set2, hI]
      by_cases hr : r = ii
      · subst hr
        by_cases hc : c = n
        · subst hc; simp [h']
        · have : c < n + 1 ↔ c < n := by omega
          simp [hc, this]
      · simp [hr]

/-- After the elimination loop over `ii < m`. -/
theorem elimRows_effect (n i m : Nat) (st : St ℝ) :
    (∀ r c, ((List.range m).foldl (elimRow R n i) st).C r c =
      if r ≠ i ∧ r < m ∧ c < n then R.sub (st.C r c) (R.mul (st.C r i) (st.C i c)) else st.C r c) ∧
    (∀ r c, ((List.range m).foldl (elimRow R n i) st).I r c =
      if r ≠ i ∧ r < m ∧ c < n then R.sub (st.I r c) (R.mul (st.C r i) (st.I i c)) else st.I r c) := by
  induction m with
  | zero => simp
  | succ m ih =>
    rw [List.range_succ, List.foldl_append]
    simp only [List.foldl_cons, List.foldl_nil]
    obtain ⟨hC, hI⟩ := ih
    by_cases hm : m = i
    · subst hm
      have key : ∀ r, (r ≠ m ∧ r < m + 1) ↔ (r ≠ m ∧ r < m) := by intro r; omega
      have key' : ∀ r (p : Prop), (r ≠ m ∧ r < m + 1 ∧ p) ↔ (r ≠ m ∧ r < m ∧ p) := by
        intro r p; rw [← and_assoc, key, and_assoc]
      simp only [elimRow, if_true, key']
      exact ⟨hC, hI⟩
    · simp only [elimRow, hm, if_false]
      obtain ⟨eC, eI⟩ := elimCols_effect R n i m hm
        (((List.range m).foldl (elimRow R n i) st).C m i) ((List.range m).foldl (elimRow R n i) st)
      constructor
      · intro r c
        rw [eC]
        by_cases hr : r = m
        · subst hr
          simp only [hC, hm, ne_eq, not_false_eq_true, lt_irrefl, false_and, and_false, if_false,
            not_true, true_and, Nat.lt_succ_self]
        · have : r < m + 1 ↔ r < m := by omega
          simp only [hr, false_and, if_false, hC, this]
      · intro r c
        rw [eI]
        by_cases hr : r = m
        · subst hr
          simp only [hC, hI, hm, ne_eq, not_false_eq_true, lt_irrefl, false_and, and_false, if_false,
            not_true, true_and, Nat.lt_succ_self]
        · have : r < m + 1 ↔ r < m := by omega
          simp only [hr, false_and, if_false, hI, this]

/-- One pass of the main loop once the pivot is in place. -/
theorem step_of_pivot (n i : Nat) (hi : i < n) (st sp : St ℝ) (hp : pivot n i st = sp) (h : sp.C i i ≠ 0) :
    ∃ st', step R n st i = some st' ∧
      (∀ r c, c < n → r < n → st'.C r c = if r = i then R.div (sp.C i c) (sp.C i i)
        else R.sub (sp.C r c) (R.mul (sp.C r i) (R.div (sp.C i c) (sp.C i i)))) ∧
      (∀ r c, c < n → r < n → st'.I r c = if r = i then R.div (sp.I i c) (sp.C i i)
        else R.sub (sp.I r c) (R.mul (sp.C r i) (R.div (sp.I i c) (sp.C i i)))) := by
  subst hp
  refine ⟨_, by unfold step; exact if_neg h, ?_, ?_⟩
  · intro r c hc hr
    obtain ⟨sC, -⟩ := scaleRow_effect R n i ((pivot n i st).C i i) (pivot n i st)
    rw [(elimRows_effect R n i n _).1]
    by_cases e : r = i
    · subst e; simp [sC, hc]
    · simp [e, hr, hc, sC]
  · intro r c hc hr
    obtain ⟨sC, sI⟩ := scaleRow_effect R n i ((pivot n i st).C i i) (pivot n i st)
    rw [(elimRows_effect R n i n _).2]
    by_cases e : r = i
    · subst e; simp [sI, hc]
    · simp [e, hr, hc, sC, sI]

theorem pivot_of_ne (n i : Nat) (st : St ℝ) (h : st.C i i ≠ 0) : pivot n i st = st := by
  unfold pivot; exact if_neg h

theorem step_of_ne (n i : Nat) (hi : i < n) (st : St ℝ) (h : st.C i i ≠ 0) :
    ∃ st', step R n st i = some st' ∧
      (∀ r c, c < n → r < n → st'.C r c = if r = i then R.div (st.C i c) (st.C i i)
        else R.sub (st.C r c) (R.mul (st.C r i) (R.div (st.C i c) (st.C i i)))) ∧
      (∀ r c, c < n → r < n → st'.I r c = if r = i then R.div (st.I i c) (st.C i i)
        else R.sub (st.I r c) (R.mul (st.C r i) (R.div (st.I i c) (st.C i i)))) :=
  step_of_pivot R n i hi st st (pivot_of_ne n i st h) h

theorem matrixInvert_tab {n : ℕ} (hn : 0 < n) (f : ℕ → ℕ → ℝ) :
    matrixInvert R (tab n n f) = match (List.range n).foldlM (step R n)
        ⟨entry (tab n n f), fun row col => if row = col then 1 else 0⟩ with
      | none => .ok none
      | some st => .ok (some (toRows n st.I)) := by
  unfold matrixInvert
  rw [pyGet_tab_zero f hn]
  simp only [ok_bind, List.length_map, List.length_range, tab_length, ne_eq, not_true, if_false]
  rw [mapM_ok _ (fun i => (List.range n).map fun j => f i j)]
  · simp only [ok_bind, pure_eq_ok]
    rfl
  · intro i hi
    apply mapM_ok
    intro j hj
    rw [pyGet_tab f (by simpa using hi), ok_bind, pyGet_map_range _ (by simpa using hj)]

end MatrixInversion

namespace CurveFitting
open PathLib.CurveFitting (transpose col columnX columnY basisMatrix col_tab)

/-- The scalar product of the first `k` entries as the loop computes it. -/
noncomputable def dot (k : ℕ) (x y : ℕ → ℝ) : ℝ :=
  (List.range k).foldl (fun a l => R.add a (R.mul (y l) (x l))) 0

theorem dotLoop_eq (k : ℕ) (c r : ℕ → ℝ) :
    dotLoop R ((List.range k).map c) ((List.range k).map r) = .ok (dot R k r c) := by
  unfold dotLoop dot
  rw [List.length_map, List.length_range]
  have : ∀ m ≤ k, (List.range m).foldlM (fun a (i : ℕ) => do
      let x ← pyGet ((List.range k).map c) (i : Int)
      let y ← pyGet ((List.range k).map r) (i : Int)
      return R.add a (R.mul x y)) (0 : ℝ) = (.ok ((List.range m).foldl (fun a l => R.add a (R.mul (c l) (r l))) 0) : Py ℝ) := by
    intro m
    induction m with
    | zero => intro _; simp
    | succ m ih =>
      intro hm
      rw [List.range_succ, List.foldlM_append, ih (by omega), List.foldl_append]
      simp only [ok_bind, List.foldlM_cons, List.foldlM_nil, List.foldl_cons, List.foldl_nil]
      rw [pyGet_map_range _ (by omega), pyGet_map_range _ (by omega)]
      simp only [ok_bind, pure_eq_ok]
  exact this k le_rfl

theorem multiply_tab {m k n : ℕ} (hk : 0 < k) (f g : ℕ → ℕ → ℝ) :
    multiply R (tab m k f) (tab k n g) = .ok (tab m n fun i j => dot R k (f i) fun l => g l j) := by
  unfold multiply
  rw [pyGet_tab_zero g hk]
  simp only [ok_bind, List.length_map, List.length_range]
  conv_lhs => unfold tab
  rw [List.mapM_map]
  rw [mapM_ok _ (fun i => (List.range n).map fun j => dot R k (f i) fun l => g l j)]
  · rfl
  · intro i _
    simp only [Function.comp]
    apply mapM_ok
    intro c hc
    change (col (tab k n g) c >>= _) = _
    rw [col_tab g (by simpa using hc), ok_bind, dotLoop_eq R k]

/-- The distances along the polygon as the loop computes them. -/
noncomputable def along (p : List (Pt ℝ)) : ℕ → ℝ
  | 0 => 0
  | i + 1 => R.add (along p i) (dist R (p.getD i 0) (p.getD (i + 1) 0))

theorem cumulative_eq (p : List (Pt ℝ)) (m : ℕ) (hm : m + 1 ≤ p.length) :
    cumulative R p (List.range' 1 m) [0] = .ok ((List.range (m + 1)).map (along R p)) := by
  induction m with
  | zero => simp [cumulative, List.range_succ, along]
  | succ m ih =>
    have := ih (by omega)
    unfold cumulative at this ⊢
    rw [List.range'_1_concat, List.foldlM_append, this, ok_bind]
    simp only [List.foldlM_cons, List.foldlM_nil]
    have e : ((1 + m : ℕ) : Int) - 1 = (m : ℕ) := by push_cast; ring
    rw [e, pyGet_map_range _ (by omega), ok_bind, pyGet_nat_lt _ _ (by omega), ok_bind,
      pyGet_nat_lt _ _ (by omega), ok_bind]
    simp only [pure_eq_ok, ok_bind]
    rw [List.range_succ (n := m + 1), List.map_append]
    congr 2
    simp only [List.map_cons, List.map_nil, along]
    have h1 : p.getD m 0 = p[m] := by simp [List.getD_eq_getElem?_getD, List.getElem?_eq_getElem (show m < p.length by omega)]
    have h2 : p.getD (m+1) 0 = p[1+m] := by
      rw [List.getD_eq_getElem?_getD, List.getElem?_eq_getElem (show m + 1 < p.length by omega)]
      simp [add_comm]
    rw [h1, h2]

theorem times_eq (p : List (Pt ℝ)) (hp : 1 ≤ p.length) (h : along R p (p.length - 1) ≠ 0) :
    computeTimeValues R p none true =
      .ok ((List.range p.length).map fun i => R.div (along R p i) (along R p (p.length - 1))) := by
  unfold computeTimeValues
  simp only [if_true, Int.toNat_natCast]
  rw [cumulative_eq R p _ (by omega), ok_bind]
  have e : ((p.length : Int) - 1) = ((p.length - 1 : ℕ) : Int) := by omega
  rw [e, pyGet_map_range _ (by omega), ok_bind, show p.length - 1 + 1 = p.length by omega]
  rw [mapM_ok _ (fun v => R.div v (along R p (p.length - 1))) _ (fun v _ => by unfold pdiv; exact if_neg h)]
  simp [Function.comp_def]

end CurveFitting
end Rounded
end PathLib
