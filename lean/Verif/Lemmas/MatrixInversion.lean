import Verif.Model.MatrixInversion
import Verif.Spec.Matrix
import Mathlib.LinearAlgebra.Matrix.ToLinearEquiv
import Mathlib.LinearAlgebra.Matrix.NonsingularInverse
import Mathlib.Algebra.BigOperators.Field

set_option linter.unusedSectionVars false
set_option linter.unusedSimpArgs false

namespace PathLib
namespace MatrixInversion
open Spec Finset

variable {K : Type} [Field K] [LinearOrder K]

/-! ### effect of the loops -/

theorem swapRows_effect (n i ii : Nat) (h : i ≠ ii) (st : St K) :
    (∀ r c, (swapRows n i ii st).C r c =
      if c < n then (if r = i then st.C ii c else if r = ii then st.C i c else st.C r c)
      else st.C r c) ∧
    (∀ r c, (swapRows n i ii st).I r c =
      if c < n then (if r = i then st.I ii c else if r = ii then st.I i c else st.I r c)
      else st.I r c) := by
  induction n with
  | zero => simp [swapRows]
  | succ n ih =>
    have e : swapRows (n + 1) i ii st = swapCol i ii (swapRows n i ii st) n := by
      simp [swapRows, List.range_succ]
    rw [e]
    obtain ⟨hC, hI⟩ := ih
    constructor
    · intro r c
      simp only [swapCol, set2, hC]
      by_cases hc : c = n
      · subst hc; by_cases h1 : r = i
        · subst h1; simp [h]
        · by_cases h2 : r = ii <;> simp [h1, h2, Ne.symm h]
      · have : c < n + 1 ↔ c < n := by omega
        simp [hc, this]
    · intro r c
      simp only [swapCol, set2, hI]
      by_cases hc : c = n
      · subst hc; by_cases h1 : r = i
        · subst h1; simp [h]
        · by_cases h2 : r = ii <;> simp [h1, h2, Ne.symm h]
      · have : c < n + 1 ↔ c < n := by omega
        simp [hc, this]

theorem scaleRow_effect (n i : Nat) (e : K) (st : St K) :
    (∀ r c, (scaleRow n i e st).C r c = if r = i ∧ c < n then st.C i c / e else st.C r c) ∧
    (∀ r c, (scaleRow n i e st).I r c = if r = i ∧ c < n then st.I i c / e else st.I r c) := by
  induction n with
  | zero => simp [scaleRow]
  | succ n ih =>
    have e' : scaleRow (n + 1) i e st = scaleCol i e (scaleRow n i e st) n := by
      simp [scaleRow, List.range_succ]
    rw [e']
    obtain ⟨hC, hI⟩ := ih
    constructor
    · intro r c
      simp only [scaleCol, set2, hC]
      by_cases hr : r = i
      · subst hr
        by_cases hc : c = n
        · subst hc; simp
        · have : c < n + 1 ↔ c < n := by omega
          simp [hc, this]
      · simp [hr]
    · intro r c
      simp only [scaleCol, set2, hI]
      by_cases hr : r = i
      · subst hr
        by_cases hc : c = n
        · subst hc; simp
        · have : c < n + 1 ↔ c < n := by omega
          simp [hc, this]
      · simp [hr]

theorem elimCols_effect (n i ii : Nat) (h : ii ≠ i) (e : K) (st : St K) :
    (∀ r c, ((List.range n).foldl (elimCol i ii e) st).C r c =
      if r = ii ∧ c < n then st.C ii c - e * st.C i c else st.C r c) ∧
    (∀ r c, ((List.range n).foldl (elimCol i ii e) st).I r c =
      if r = ii ∧ c < n then st.I ii c - e * st.I i c else st.I r c) := by
  have h' : i ≠ ii := Ne.symm h
  induction n with
  | zero => simp
  | succ n ih =>
    rw [List.range_succ, List.foldl_append]
    simp only [List.foldl_cons, List.foldl_nil]
    obtain ⟨hC, hI⟩ := ih
    constructor
    · intro r c
      simp only [elimCol, set2, hC]
      by_cases hr : r = ii
      · subst hr
        by_cases hc : c = n
        · subst hc; simp [h']
        · have : c < n + 1 ↔ c < n := by omega
          simp [hc, this]
      · simp [hr]
    · intro r c
      simp only [elimCol, set2, hI]
      by_cases hr : r = ii
      · subst hr
        by_cases hc : c = n
        · subst hc; simp [h']
        · have : c < n + 1 ↔ c < n := by omega
          simp [hc, this]
      · simp [hr]

/-- After the elimination loop over `ii < m`. -/
theorem elimRows_effect (n i m : Nat) (st : St K) :
    (∀ r c, ((List.range m).foldl (elimRow n i) st).C r c =
      if r ≠ i ∧ r < m ∧ c < n then st.C r c - st.C r i * st.C i c else st.C r c) ∧
    (∀ r c, ((List.range m).foldl (elimRow n i) st).I r c =
      if r ≠ i ∧ r < m ∧ c < n then st.I r c - st.C r i * st.I i c else st.I r c) := by
  induction m with
  | zero => simp
  | succ m ih =>
    rw [List.range_succ, List.foldl_append]
    simp only [List.foldl_cons, List.foldl_nil]
    obtain ⟨hC, hI⟩ := ih
    by_cases hm : m = i
    · subst hm
      have key : ∀ r, (r ≠ m ∧ r < m + 1) ↔ (r ≠ m ∧ r < m) := by intro r; omega
      have key' : ∀ r (p : Prop), (r ≠ m ∧ r < m + 1 ∧ p) ↔ (r ≠ m ∧ r < m ∧ p) := by
        intro r p; rw [← and_assoc, key, and_assoc]
      simp only [elimRow, if_true, key']
      exact ⟨hC, hI⟩
    · simp only [elimRow, hm, if_false]
      obtain ⟨eC, eI⟩ := elimCols_effect n i m hm
        (((List.range m).foldl (elimRow n i) st).C m i) ((List.range m).foldl (elimRow n i) st)
      constructor
      · intro r c
        rw [eC]
        by_cases hr : r = m
        · subst hr
          simp only [hC, hm, ne_eq, not_false_eq_true, lt_irrefl, false_and, and_false, if_false,
            not_true, true_and, Nat.lt_succ_self]
        · have : r < m + 1 ↔ r < m := by omega
          simp only [hr, false_and, if_false, hC, this]
      · intro r c
        rw [eI]
        by_cases hr : r = m
        · subst hr
          simp only [hC, hI, hm, ne_eq, not_false_eq_true, lt_irrefl, false_and, and_false, if_false,
            not_true, true_and, Nat.lt_succ_self]
        · have : r < m + 1 ↔ r < m := by omega
          simp only [hr, false_and, if_false, hI, this]

/-! ### the invariant -/

/-- Loop invariant before pass `i`, for the input entries `M`. -/
structure Inv (n : Nat) (M : Nat → Nat → K) (i : Nat) (st : St K) : Prop where
  /-- `I · M = C` -/
  prod : ∀ r < n, ∀ c < n, ∑ k ∈ range n, st.I r k * M k c = st.C r c
  /-- the first `i` columns of `C` are those of the identity -/
  unit : ∀ c < i, ∀ r < n, st.C r c = if r = c then 1 else 0
  /-- the kernel of `C` is contained in that of `M` -/
  ker : ∀ v : Nat → K, (∀ r < n, ∑ c ∈ range n, st.C r c * v c = 0) →
    ∀ r < n, ∑ c ∈ range n, M r c * v c = 0

theorem Inv.init (n : Nat) (M : Nat → Nat → K) :
    Inv n M 0 ⟨M, fun row col => if row = col then 1 else 0⟩ := by
  refine ⟨?_, ?_, ?_⟩
  · intro r hr c _
    simp [hr]
  · intro c hc; omega
  · intro v h; exact h

theorem Inv.pivot {n : Nat} {M : Nat → Nat → K} {i : Nat} {st : St K} (hi : i < n)
    (h : Inv n M i st) :
    Inv n M i (pivot n i st) ∧
    ((MatrixInversion.pivot n i st).C i i = 0 →
      ∀ r, i ≤ r → r < n → (MatrixInversion.pivot n i st).C r i = 0) := by
  unfold MatrixInversion.pivot
  split_ifs with h0
  · cases hf : (List.range' (i + 1) (n - (i + 1))).find? (fun ii => decide (st.C ii i ≠ 0)) with
    | none =>
      refine ⟨h, fun _ r hr hn => ?_⟩
      rcases Nat.lt_or_eq_of_le hr with hr | hr
      · have := List.find?_eq_none.mp hf r (List.mem_range'.mpr ⟨r - (i + 1), by omega, by omega⟩)
        simpa using this
      · subst hr; exact h0
    | some ii =>
      have hmem := List.mem_of_find?_eq_some hf
      have hne : st.C ii i ≠ 0 := by simpa using List.find?_some hf
      have hb : i < ii ∧ ii < n := by
        rw [List.mem_range'] at hmem; omega
      have hne' : i ≠ ii := by omega
      obtain ⟨eC, eI⟩ := swapRows_effect n i ii hne' st
      simp only
      refine ⟨⟨?_, ?_, ?_⟩, ?_⟩
      · intro r hr c hc
        rw [eC]
        have : ∀ k ∈ range n, (swapRows n i ii st).I r k * M k c =
            (if r = i then st.I ii k else if r = ii then st.I i k else st.I r k) * M k c := by
          intro k hk; rw [eI, if_pos (mem_range.mp hk)]
        rw [sum_congr rfl this]
        by_cases h1 : r = i
        · simp [h1, hc, h.prod ii hb.2 c hc]
        · by_cases h2 : r = ii
          · subst h2
            simp [h1, hc, h.prod i hi c hc]
          · simp [h1, h2, hc, h.prod r hr c hc]
      · intro c hc r hr
        rw [eC]
        have hcn : c < n := by omega
        have u := h.unit c hc
        by_cases h1 : r = i
        · subst h1
          simp only [hcn, if_true, u ii hb.2]
          have a1 : ii ≠ c := by omega
          have a2 : r ≠ c := by omega
          simp [a1, a2]
        · by_cases h2 : r = ii
          · subst h2
            have a1 : i ≠ c := by omega
            have a2 : r ≠ c := by omega
            simp [hcn, u i hi, a1, a2, h1]
          · simp [hcn, h1, h2, u r hr]
      · intro v hv
        apply h.ker v
        have ev : ∀ r, ∑ c ∈ range n, (swapRows n i ii st).C r c * v c =
            ∑ c ∈ range n,
              (if r = i then st.C ii c else if r = ii then st.C i c else st.C r c) * v c := by
          intro r; apply sum_congr rfl; intro c hc; rw [eC, if_pos (mem_range.mp hc)]
        intro r hr
        by_cases h1 : r = i
        · have := hv ii hb.2
          rw [ev] at this
          simpa [hne'.symm, h1] using this
        · by_cases h2 : r = ii
          · have := hv i hi
            rw [ev] at this
            simpa [h2] using this
          · have := hv r hr
            rw [ev] at this
            simpa [h1, h2] using this
      · intro hz
        rw [eC] at hz
        simp [hi] at hz
        exact absurd hz hne
  · exact ⟨h, fun hz => absurd hz h0⟩

theorem Inv.step {n : Nat} {M : Nat → Nat → K} {i : Nat} {st st' : St K} (hi : i < n)
    (h : Inv n M i st) (hs : step n st i = some st') : Inv n M (i + 1) st' := by
  unfold MatrixInversion.step at hs
  obtain ⟨hp, -⟩ := h.pivot hi
  set sp := MatrixInversion.pivot n i st with hsp
  simp only at hs
  split_ifs at hs with h0
  simp only [Option.some.injEq] at hs
  set e := sp.C i i with he
  obtain ⟨sC, sI⟩ := scaleRow_effect n i e sp
  set ss := scaleRow n i e sp with hss
  obtain ⟨eC, eI⟩ := elimRows_effect n i n ss
  rw [hs] at eC eI
  -- the invariant's parts after scaling
  have iprod : ∀ r < n, ∀ c < n, ∑ k ∈ range n, ss.I r k * M k c = ss.C r c := by
    intro r hr c hc
    rw [sC]
    have : ∀ k ∈ range n, ss.I r k * M k c = (if r = i then sp.I i k / e else sp.I r k) * M k c := by
      intro k hk; rw [sI]; simp [mem_range.mp hk]
    rw [sum_congr rfl this]
    by_cases h1 : r = i
    · subst h1
      simp only [if_true, hc, and_self]
      rw [← hp.prod r hr c hc, sum_div]
      apply sum_congr rfl; intro k _; ring
    · simp [h1, hp.prod r hr c hc]
  have iunit : ∀ c < i, ∀ r < n, ss.C r c = if r = c then 1 else 0 := by
    intro c hc r hr
    rw [sC]
    by_cases h1 : r = i
    · subst h1
      have : r ≠ c := by omega
      simp [hp.unit c hc r hr, this]
    · simp [h1, hp.unit c hc r hr]
  have iker : ∀ v : Nat → K, (∀ r < n, ∑ c ∈ range n, ss.C r c * v c = 0) →
      ∀ r < n, ∑ c ∈ range n, M r c * v c = 0 := by
    intro v hv
    apply hp.ker v
    intro r hr
    have := hv r hr
    by_cases h1 : r = i
    · subst h1
      have e1 : ∑ c ∈ range n, ss.C r c * v c = (∑ c ∈ range n, sp.C r c * v c) / e := by
        rw [sum_div]; apply sum_congr rfl; intro c hc
        rw [sC]; simp [mem_range.mp hc]; ring
      rw [e1] at this
      exact (div_eq_zero_iff.mp this).resolve_right h0
    · rw [← this]; apply sum_congr rfl; intro c _; rw [sC]; simp [h1]
  have ipiv : ss.C i i = 1 := by
    rw [sC]; simp [hi]; rw [← he]; exact div_self h0
  refine ⟨?_, ?_, ?_⟩
  · intro r hr c hc
    by_cases h1 : r = i
    · have e1 : ∀ k, st'.I r k = ss.I r k := by intro k; rw [eI]; simp [h1]
      have e2 : st'.C r c = ss.C r c := by rw [eC]; simp [h1]
      simp only [e1, e2]; exact iprod r hr c hc
    · have e2 : st'.C r c = ss.C r c - ss.C r i * ss.C i c := by rw [eC]; simp [h1, hr, hc]
      have e1 : ∀ k ∈ range n, st'.I r k * M k c =
          ss.I r k * M k c - ss.C r i * (ss.I i k * M k c) := by
        intro k hk; rw [eI]; simp [h1, hr, mem_range.mp hk]; ring
      rw [sum_congr rfl e1, sum_sub_distrib, ← mul_sum, iprod r hr c hc, iprod i hi c hc, e2]
  · intro c hc r hr
    have hcn : c < n := by omega
    rw [eC]
    by_cases hci : c = i
    · subst hci
      by_cases h1 : r = c
      · subst h1; simp [ipiv]
      · simp [h1, hr, hcn, ipiv]
    · have hc' : c < i := by omega
      by_cases h1 : r = i
      · simp [h1, iunit c hc' i hi]
      · simp only [h1, ne_eq, not_false_eq_true, hr, hcn, and_self, if_true]
        rw [iunit c hc' r hr, iunit c hc' i hi]
        have : i ≠ c := by omega
        simp [this]
  · intro v hv
    apply iker v
    have hvi : ∑ c ∈ range n, ss.C i c * v c = 0 := by
      rw [← hv i hi]; apply sum_congr rfl; intro c _; rw [eC]; simp
    intro r hr
    by_cases h1 : r = i
    · subst h1; exact hvi
    · have := hv r hr
      have e1 : ∀ c ∈ range n, st'.C r c * v c = ss.C r c * v c - ss.C r i * (ss.C i c * v c) := by
        intro c hc; rw [eC]; simp [h1, hr, mem_range.mp hc]; ring
      rw [sum_congr rfl e1, sum_sub_distrib, ← mul_sum, hvi] at this
      simpa using this

/-- When a pass returns `None`, the input has a non-trivial kernel. -/
theorem Inv.step_none {n : Nat} {M : Nat → Nat → K} {i : Nat} {st : St K} (hi : i < n)
    (h : Inv n M i st) (hs : MatrixInversion.step n st i = none) :
    ∃ v : Nat → K, v i = 1 ∧ ∀ r < n, ∑ c ∈ range n, M r c * v c = 0 := by
  unfold MatrixInversion.step at hs
  obtain ⟨hp, hz⟩ := h.pivot hi
  set sp := MatrixInversion.pivot n i st with hsp
  simp only at hs
  split_ifs at hs with h0
  have hz := hz h0
  refine ⟨fun c => if c < i then -sp.C c i else if c = i then 1 else 0, by simp, hp.ker _ ?_⟩
  intro r hr
  have e1 : ∀ c ∈ range n, sp.C r c * (if c < i then -sp.C c i else if c = i then 1 else 0) =
      (if c = r then (if r < i then -sp.C r i else 0) else 0) + (if c = i then sp.C r i else 0) := by
    intro c hc
    by_cases h1 : c < i
    · have hci : c ≠ i := by omega
      rw [hp.unit c h1 r hr]
      by_cases h2 : r = c
      · subst h2; simp [h1, hci]
      · simp [h1, hci, h2, Ne.symm h2]
    · by_cases h2 : c = i
      · subst h2
        by_cases h3 : c = r
        · subst h3; simp
        · simp [h3]
      · by_cases h3 : c = r
        · subst h3; simp [h1, h2]
        · simp [h1, h2, h3]
  rw [sum_congr rfl e1, sum_add_distrib, sum_ite_eq', sum_ite_eq', if_pos (mem_range.mpr hr),
    if_pos (mem_range.mpr hi)]
  by_cases h1 : r < i
  · simp [h1]
  · simp [h1, hz r (by omega) hr]

/-- The whole main loop. -/
theorem loop_spec (n : Nat) (M : Nat → Nat → K) :
    match (List.range n).foldlM (step n) ⟨M, fun row col => if row = col then 1 else 0⟩ with
    | some st => Inv n M n st
    | none => ∃ v : Nat → K, (∃ i < n, v i ≠ 0) ∧ ∀ r < n, ∑ c ∈ range n, M r c * v c = 0 := by
  have key : ∀ m ≤ n,
      match (List.range m).foldlM (step n) ⟨M, fun row col => if row = col then 1 else 0⟩ with
      | some st => Inv n M m st
      | none => ∃ v : Nat → K, (∃ i < n, v i ≠ 0) ∧
        ∀ r < n, ∑ c ∈ range n, M r c * v c = 0 := by
    intro m
    induction m with
    | zero => intro _; exact Inv.init n M
    | succ m ih =>
      intro hm
      have := ih (by omega)
      rw [List.range_succ, List.foldlM_append]
      cases hl : (List.range m).foldlM (step n)
          (⟨M, fun row col => if row = col then 1 else 0⟩ : St K) with
      | none => rw [hl] at this; exact this
      | some st =>
        rw [hl] at this
        simp only at this
        simp only [Option.bind_eq_bind, Option.bind_some, List.foldlM_cons, List.foldlM_nil]
        cases hs : step n st m with
        | none =>
          obtain ⟨v, v1, v2⟩ := this.step_none (by omega) hs
          exact ⟨v, ⟨m, by omega, by rw [v1]; exact one_ne_zero⟩, v2⟩
        | some st' => exact this.step (by omega) hs
  exact key n le_rfl

end MatrixInversion
end PathLib
