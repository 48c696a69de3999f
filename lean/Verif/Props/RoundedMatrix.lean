import Verif.Lemmas.RoundedFit
import Verif.Lemmas.FloatRun
import Verif.Lemmas.Grid
import Verif.Lemmas.Relative
import Verif.Props.CurveFitting

/-!
# C96: matrix inversion in floating point
-/

set_option linter.unusedSectionVars false
set_option linter.unusedSimpArgs false

namespace PathLib
open Spec
open PathLib.MatrixInversion (St pivot toRows swapRows)

/-- C96: without rounding this is the function of `Model/MatrixInversion.lean`. -/
theorem C96_exact (M : Mat ℝ) : Rounded.MatrixInversion.matrixInvert Rounding.exact M = MatrixInversion.matrixInvert M := by
  have h : Rounded.MatrixInversion.step Rounding.exact = MatrixInversion.step (K := ℝ) := by
    funext n st i
    rfl
  unfold Rounded.MatrixInversion.matrixInvert MatrixInversion.matrixInvert
  rw [h]
  cases pyGet M 0 with
  | error e => rfl
  | ok r0 =>
    simp only [ok_bind]
    by_cases hl : M.length ≠ r0.length
    · rw [if_pos hl, if_pos hl]
    · rw [if_neg hl, if_neg hl]
      congr 1
      funext C
      cases (List.range M.length).foldlM (MatrixInversion.step M.length)
        (⟨MatrixInversion.ofRows C, fun row col => if row = col then 1 else 0⟩ : St ℝ) <;> rfl

/-- C96: `matrixInvert` of a square matrix does not raise, however the numbers are rounded. -/
theorem C96_square (R : Rounding) (n : ℕ) (hn : 0 < n) (M : Mat ℝ) (hM : IsMat n n M) :
    ∃ o, Rounded.MatrixInversion.matrixInvert R M = .ok o ∧ ∀ I, o = some I → IsMat n n I := by
  rw [isMat_eq_tab hM, Rounded.MatrixInversion.matrixInvert_tab R hn]
  cases (List.range n).foldlM (Rounded.MatrixInversion.step R n)
    ⟨entry (tab n n (entry M)), fun row col => if row = col then 1 else 0⟩ with
  | none => exact ⟨none, rfl, by simp⟩
  | some st => exact ⟨_, rfl, by rintro I ⟨⟩; exact tab_isMat n n st.I⟩

/-! ## Triangular matrices -/

section lower
variable (B : Binary) (n : ℕ) (M : ℕ → ℕ → ℝ)

private theorem rnd0 : B.rnd 0 = 0 := B.toRounding.rnd_zero

/-- The working matrices before pass `i` for a lower triangular matrix. -/
private structure Lower (i : ℕ) (st : St ℝ) : Prop where
  C : ∀ r < n, ∀ c < n, st.C r c = if c < i then (if r = c then 1 else 0) else M r c
  upper : ∀ r < n, ∀ c < n, r < c → st.I r c = 0
  diag : ∀ r < n, st.I r r = if r < i then B.div 1 (M r r) else 1
  float : ∀ r < n, ∀ c < n, B.rnd (st.I r c) = st.I r c

private theorem Lower.step (hf : ∀ r < n, ∀ c < n, B.rnd (M r c) = M r c) (hl : ∀ r < n, ∀ c < n, r < c → M r c = 0)
    (hd : ∀ r < n, M r r ≠ 0) (i : ℕ) (hi : i < n) (st : St ℝ) (h : Lower B n M i st) :
    ∃ st', Rounded.MatrixInversion.step B.toRounding n st i = some st' ∧ Lower B n M (i + 1) st' := by
  have e : st.C i i = M i i := by rw [h.C i hi i hi]; simp
  obtain ⟨st', h1, hC, hI⟩ := Rounded.MatrixInversion.step_of_ne B.toRounding n i hi st (by rw [e]; exact hd i hi)
  refine ⟨st', h1, ?_⟩
  have r0 := rnd0 B
  have idem := B.idem
  have row : ∀ c < n, B.div (st.C i c) (st.C i i) = if c = i then 1 else 0 := by
    intro c hc
    rw [e, h.C i hi c hc]
    unfold Rounding.div
    by_cases h2 : c = i
    · subst h2; simp [hd c hc, B.one]
    · by_cases h3 : c < i
      · simp [h2, h3, Ne.symm h2, r0]
      · rw [if_neg h3, hl i hi c hc (by omega)]; simp [h2, r0]
  have col : ∀ r < n, st.C r i = M r i := by intro r hr; rw [h.C r hr i hi]; simp
  have irow : ∀ c < n, i < c → B.div (st.I i c) (st.C i i) = 0 := by
    intro c hc hic
    rw [h.upper i hi c hc hic]; simp [Rounding.div, r0]
  constructor
  · intro r hr c hc
    rw [hC r c hc hr, row c hc]
    by_cases e1 : r = i
    · subst e1
      by_cases e2 : c = r
      · subst e2; simp
      · by_cases h3 : c < r
        · simp [e2, show c < r + 1 by omega, Ne.symm e2]
        · rw [if_pos rfl, if_neg e2, if_neg (by omega), hl r hr c hc (by omega)]
    · rw [if_neg e1, col r hr]
      by_cases e2 : c = i
      · subst e2
        simp [Rounding.sub, Rounding.mul, hf r hr c hc, e1, r0, col r hr]
      · rw [if_neg e2]
        have : c < i + 1 ↔ c < i := by omega
        simp only [h.C r hr c hc, this]
        unfold Rounding.sub Rounding.mul
        rw [mul_zero, r0, sub_zero]
        split_ifs
        · exact B.one
        · exact r0
        · exact hf r hr c hc
  · intro r hr c hc hrc
    rw [hI r c hc hr]
    by_cases e1 : r = i
    · subst e1; rw [if_pos rfl, irow c hc hrc]
    · rw [if_neg e1, h.upper r hr c hc hrc]
      unfold Rounding.sub Rounding.mul
      by_cases h3 : i < c
      · rw [irow c hc h3]; simp [r0]
      · rw [col r hr, hl r hr i hi (by omega)]; simp [r0]
  · intro r hr
    rw [hI r r hr hr]
    by_cases e1 : r = i
    · subst e1; rw [if_pos rfl, h.diag r hr, e]; simp
    · rw [if_neg e1]
      unfold Rounding.sub Rounding.mul
      by_cases h3 : i < r
      · rw [irow r hr h3, mul_zero, r0, sub_zero, h.float r hr r hr, h.diag r hr, if_neg (by omega), if_neg (by omega)]
      · rw [col r hr, hl r hr i hi (by omega), zero_mul, r0, sub_zero, h.float r hr r hr, h.diag r hr, if_pos (by omega),
          if_pos (by omega)]
  · intro r hr c hc
    rw [hI r c hc hr]
    split_ifs
    · exact idem _
    · exact idem _

/-- C96: a lower triangular matrix of `float` numbers without a zero on its diagonal is inverted, and the result is lower triangular
with the rounded reciprocals on its diagonal. -/
theorem C96_lower (B : Binary) (n : ℕ) (hn : 0 < n) (M : Mat ℝ) (hM : IsMat n n M)
    (hf : ∀ i j, B.rnd (toMatrix n n M i j) = toMatrix n n M i j) (hl : ∀ i j, i < j → toMatrix n n M i j = 0)
    (hd : ∀ i, toMatrix n n M i i ≠ 0) :
    ∃ I, Rounded.MatrixInversion.matrixInvert B.toRounding M = .ok (some I) ∧ IsMat n n I ∧
      (∀ i, toMatrix n n I i i = B.div 1 (toMatrix n n M i i)) ∧ ∀ i j, i < j → toMatrix n n I i j = 0 := by
  have hfe : entry (tab n n (entry M)) = entry M := by rw [← isMat_eq_tab hM]
  have key : ∀ m ≤ n, ∃ st, (List.range m).foldlM (Rounded.MatrixInversion.step B.toRounding n)
      ⟨entry M, fun row col => if row = col then 1 else 0⟩ = some st ∧ Lower B n (entry M) m st := by
    intro m
    induction m with
    | zero =>
      intro _
      refine ⟨_, rfl, ?_, ?_, ?_, ?_⟩
      · intro r _ c _; simp
      · intro r _ c _ hrc; simp [hrc.ne]
      · intro r _; simp
      · intro r _ c _
        by_cases e : r = c
        · simp [e, B.one]
        · simp [e, rnd0 B]
    | succ m ih =>
      intro hm
      obtain ⟨st, h1, h2⟩ := ih (by omega)
      obtain ⟨st', h3, h4⟩ := Lower.step B n (entry M) (fun r hr c hc => hf ⟨r, hr⟩ ⟨c, hc⟩)
        (fun r hr c hc hrc => hl ⟨r, hr⟩ ⟨c, hc⟩ hrc) (fun r hr => hd ⟨r, hr⟩) m (by omega) st h2
      refine ⟨st', ?_, h4⟩
      rw [List.range_succ, List.foldlM_append, h1]
      simp [h3]
  obtain ⟨st, h1, h2⟩ := key n le_rfl
  refine ⟨toRows n st.I, ?_, tab_isMat n n st.I, ?_, ?_⟩
  · rw [isMat_eq_tab hM, Rounded.MatrixInversion.matrixInvert_tab _ hn, hfe, h1]
  · intro i
    have := h2.diag i i.2
    rw [if_pos i.2] at this
    rw [toMatrix_apply, toMatrix_apply, ← this]
    exact entry_tab st.I i.2 i.2
  · intro i j hij
    rw [toMatrix_apply]
    exact (entry_tab st.I i.2 j.2).trans (h2.upper i i.2 j j.2 hij)

end lower

/-- C96: the basis matrix of up to 27 points is always inverted in `float` arithmetic. -/
theorem C96_basis (calls : List (Int × Int)) (n : ℕ) (hn : 0 < n) (h27 : n ≤ 27) :
    ∃ m I, (CurveFitting.basisMatrix (tableAfter calls) n).1 = .ok m ∧
      Rounded.MatrixInversion.matrixInvert float (m.map fun r => r.map fun (v : Int) => (v : ℝ)) = .ok (some I) ∧ IsMat n n I := by
  obtain ⟨m, e1, hlen, hrow, -⟩ := C23_basis (K := ℝ) calls n 0
  obtain ⟨m', e2, hm⟩ := C23_entries calls n
  rw [e1] at e2
  obtain rfl : m = m' := Except.ok.inj e2
  have hM : IsMat n n (m.map fun r => r.map fun (v : Int) => (v : ℝ)) := by
    refine ⟨by simpa using hlen, ?_⟩
    intro r hr
    obtain ⟨r', h1, rfl⟩ := List.mem_map.mp hr
    simpa using hrow r' h1
  have he : ∀ i j : Fin n, toMatrix n n (m.map fun r => r.map fun (v : Int) => (v : ℝ)) i j =
      (((m.getD i []).getD j 0 : Int) : ℝ) := by
    intro i j
    have hi : (i:ℕ) < m.length := by rw [hlen]; exact i.2
    have hj : (j:ℕ) < (m[(i:ℕ)]).length := by rw [hrow _ (List.getElem_mem _)]; exact j.2
    simp [toMatrix, List.getD_eq_getElem?_getD, hi, hj]
  obtain ⟨I, h1, h2, -⟩ := C96_lower (binary 52) n hn _ hM
    (by
      intro i j
      rw [he, hm i i.2 j j.2]
      apply rnd_int
      split_ifs with h
      · rw [abs_mul, abs_mul, abs_pow, abs_neg, abs_one, one_pow, one_mul]
        have a : (i:ℕ).choose j ≤ 2 ^ 26 := (Nat.choose_le_two_pow _ _).trans (Nat.pow_le_pow_right (by norm_num) (by omega))
        have b : (n - 1).choose i ≤ 2 ^ 26 := (Nat.choose_le_two_pow _ _).trans (Nat.pow_le_pow_right (by norm_num) (by omega))
        have := Nat.mul_le_mul a b
        rw [Nat.abs_cast, Nat.abs_cast]
        exact_mod_cast this.trans (by norm_num)
      · norm_num)
    (by
      intro i j hij
      rw [he, hm i i.2 j j.2, if_neg (by simpa using hij)]; simp)
    (by
      intro i
      rw [he, hm i i.2 i i.2, if_pos le_rfl]
      have := Nat.choose_pos (show (i:ℕ) ≤ n - 1 by omega)
      simp; omega)
  exact ⟨m, I, e1, h1, h2⟩

/-! ## Two rows -/

private theorem two_isMat (a b c d : ℝ) : IsMat 2 2 [[a, b], [c, d]] := ⟨rfl, by simp⟩

private theorem two_start (R : Rounding) (a b c d : ℝ) :
    Rounded.MatrixInversion.matrixInvert R [[a, b], [c, d]] = match
        (Rounded.MatrixInversion.step R 2 ⟨entry [[a, b], [c, d]], fun row col => if row = col then 1 else 0⟩ 0).bind
          (fun st => Rounded.MatrixInversion.step R 2 st 1) with
      | none => .ok none
      | some st => .ok (some [[st.I 0 0, st.I 0 1], [st.I 1 0, st.I 1 1]]) := by
  have h := Rounded.MatrixInversion.matrixInvert_tab R (n := 2) (by norm_num) (entry [[a, b], [c, d]])
  rw [← isMat_eq_tab (two_isMat a b c d)] at h
  rw [h, show List.range 2 = [0, 1] from rfl]
  simp only [List.foldlM_cons, List.foldlM_nil]
  cases Rounded.MatrixInversion.step R 2 ⟨entry [[a, b], [c, d]], fun row col => if row = col then 1 else 0⟩ 0 with
  | none => rfl
  | some st =>
    change (match (Rounded.MatrixInversion.step R 2 st 1).bind some with
      | none => _ | some st => _) = _
    simp only [Option.bind_some]
    cases Rounded.MatrixInversion.step R 2 st 1 with
    | none => rfl
    | some st => rfl

private theorem step_last (R : Rounding) (st : St ℝ) (h : st.C 1 1 = 0) : Rounded.MatrixInversion.step R 2 st 1 = none := by
  have : pivot 2 1 st = st := by unfold pivot; rw [if_pos h]; rfl
  unfold Rounded.MatrixInversion.step
  simp only [this, h, if_true]

/-- C96: what `matrixInvert` computes for two rows when the first entry is not zero. -/
theorem C96_two (B : Binary) (a b c d : ℝ) (ha : a ≠ 0) :
    ∀ β δ : ℝ, β = B.div b a → δ = B.sub d (B.mul c β) →
      Rounded.MatrixInversion.matrixInvert B.toRounding [[a, b], [c, d]] = .ok (if δ = 0 then none else some
        [[B.sub (B.div 1 a) (B.mul β (B.div (B.sub 0 (B.mul c (B.div 1 a))) δ)), B.sub 0 (B.mul β (B.div 1 δ))],
         [B.div (B.sub 0 (B.mul c (B.div 1 a))) δ, B.div 1 δ]]) := by
  rintro β δ hβ hδ
  rw [two_start]
  have r0 := rnd0 B
  obtain ⟨s1, e1, hC, hI⟩ := Rounded.MatrixInversion.step_of_ne B.toRounding 2 0 (by norm_num)
    ⟨entry [[a, b], [c, d]], fun row col => if row = col then 1 else 0⟩ ha
  have z : B.div 0 a = 0 := by simp [Rounding.div, r0]
  have c01 : s1.C 0 1 = β := by rw [hC 0 1 (by norm_num) (by norm_num), if_pos rfl, hβ]; rfl
  have c11 : s1.C 1 1 = δ := by rw [hC 1 1 (by norm_num) (by norm_num), if_neg (by norm_num), hδ, hβ]; rfl
  have i00 : s1.I 0 0 = B.div 1 a := by rw [hI 0 0 (by norm_num) (by norm_num), if_pos rfl]; rfl
  have i01 : s1.I 0 1 = 0 := by rw [hI 0 1 (by norm_num) (by norm_num), if_pos rfl]; exact z
  have i10 : s1.I 1 0 = B.sub 0 (B.mul c (B.div 1 a)) := by
    rw [hI 1 0 (by norm_num) (by norm_num), if_neg (by norm_num)]; rfl
  have i11 : s1.I 1 1 = 1 := by
    rw [hI 1 1 (by norm_num) (by norm_num), if_neg (by norm_num)]
    change B.sub 1 (B.mul c (B.div 0 a)) = 1
    rw [z]; simp [Rounding.sub, Rounding.mul, r0, B.one]
  rw [e1, Option.bind_some]
  by_cases hz : δ = 0
  · rw [step_last _ _ (c11.trans hz), if_pos hz]
  · rw [if_neg hz]
    obtain ⟨s2, e2, -, hI2⟩ := Rounded.MatrixInversion.step_of_ne B.toRounding 2 1 (by norm_num) s1 (by rw [c11]; exact hz)
    rw [e2]
    simp only [hI2 0 0 (by norm_num) (by norm_num), hI2 0 1 (by norm_num) (by norm_num), hI2 1 0 (by norm_num) (by norm_num),
      hI2 1 1 (by norm_num) (by norm_num), c01, c11, i00, i01, i10, i11]
    simp

/-- C96: and when it is zero: the rows are exchanged. -/
theorem C96_two_swap (B : Binary) (b c d : ℝ) (hb : B.rnd b = b) :
    Rounded.MatrixInversion.matrixInvert B.toRounding [[0, b], [c, d]] = .ok (if b = 0 ∨ c = 0 then none else some
        [[B.sub 0 (B.mul (B.div d c) (B.div 1 b)), B.div 1 c], [B.div 1 b, 0]]) := by
  rw [two_start]
  have r0 := rnd0 B
  by_cases hc : c = 0
  · subst hc
    have : pivot 2 0 (⟨entry [[0, b], [0, d]], fun row col => if row = col then 1 else 0⟩ : St ℝ) =
        ⟨entry [[0, b], [0, d]], fun row col => if row = col then 1 else 0⟩ := by
      unfold pivot
      rw [if_pos (by rfl)]
      simp [List.range', entry]
    have : Rounded.MatrixInversion.step B.toRounding 2
        ⟨entry [[0, b], [0, d]], fun row col => if row = col then 1 else 0⟩ 0 = none := by
      unfold Rounded.MatrixInversion.step
      simp only [this]
      exact if_pos rfl
    rw [this]; simp
  · have hp : pivot 2 0 (⟨entry [[0, b], [c, d]], fun row col => if row = col then 1 else 0⟩ : St ℝ) =
        swapRows 2 0 1 ⟨entry [[0, b], [c, d]], fun row col => if row = col then 1 else 0⟩ := by
      unfold pivot
      rw [if_pos (by rfl)]
      simp [List.range', entry, hc]
    obtain ⟨wC, wI⟩ := MatrixInversion.swapRows_effect 2 0 1 (by norm_num)
      (⟨entry [[0, b], [c, d]], fun row col => if row = col then 1 else 0⟩ : St ℝ)
    obtain ⟨s1, e1, hC, hI⟩ := Rounded.MatrixInversion.step_of_pivot B.toRounding 2 0 (by norm_num) _ _ hp
      (by rw [wC]; simpa [entry] using hc)
    simp only [wC, wI] at hC hI
    have z : B.div 0 c = 0 := by simp [Rounding.div, r0]
    have c01 : s1.C 0 1 = B.div d c := by rw [hC 0 1 (by norm_num) (by norm_num)]; simp [entry]
    have c11 : s1.C 1 1 = b := by
      rw [hC 1 1 (by norm_num) (by norm_num)]; simp [entry, Rounding.sub, Rounding.mul, r0, hb]
    have i00 : s1.I 0 0 = 0 := by rw [hI 0 0 (by norm_num) (by norm_num)]; simpa [entry] using z
    have i01 : s1.I 0 1 = B.div 1 c := by rw [hI 0 1 (by norm_num) (by norm_num)]; simp [entry]
    have i10 : s1.I 1 0 = 1 := by
      rw [hI 1 0 (by norm_num) (by norm_num)]; simp [entry, Rounding.sub, Rounding.mul, r0, B.one]
    have i11 : s1.I 1 1 = 0 := by
      rw [hI 1 1 (by norm_num) (by norm_num)]; simp [entry, Rounding.sub, Rounding.mul, r0]
    rw [e1, Option.bind_some]
    by_cases hz : b = 0
    · rw [step_last _ _ (c11.trans hz), if_pos (.inl hz)]
    · rw [if_neg (by tauto)]
      obtain ⟨s2, e2, -, hI2⟩ := Rounded.MatrixInversion.step_of_ne B.toRounding 2 1 (by norm_num) s1 (by rw [c11]; exact hz)
      rw [e2]
      have q : B.rnd (B.div 1 c) = B.div 1 c := B.idem _
      simp only [hI2 0 0 (by norm_num) (by norm_num), hI2 0 1 (by norm_num) (by norm_num), hI2 1 0 (by norm_num) (by norm_num),
        hI2 1 1 (by norm_num) (by norm_num), c01, c11, i00, i01, i10, i11]
      have zb : B.div 0 b = 0 := by simp [Rounding.div, r0]
      rw [zb]
      simp [Rounding.sub, Rounding.mul, r0, q]

/-! ## Integers -/

private theorem quotient (R : Rounding) (n n' δ δ' e1 e2 : ℝ) (hδ : δ ≠ 0) (h1 : |δ' - δ| ≤ e1 * |δ|) (h2 : |n' - n| ≤ e2 * |n|)
    (he : e1 < 1) (he1 : 0 ≤ e1) (he2 : 0 ≤ e2) :
    |R.div n' δ' - n / δ| ≤ ((e1 + e2) / (1 - e1) + R.u * (1 + (e1 + e2) / (1 - e1))) * |n / δ| := by
  have dp : 0 < |δ| := abs_pos.mpr hδ
  have d' : (1 - e1) * |δ| ≤ |δ'| := by
    have := abs_sub_abs_le_abs_sub δ δ'
    rw [abs_sub_comm] at this
    linarith
  have q : 0 < (1 - e1) * |δ| := mul_pos (by linarith) dp
  have dp' : 0 < |δ'| := lt_of_lt_of_le q d'
  have hδ' : δ' ≠ 0 := abs_pos.mp dp'
  have e : n' / δ' - n / δ = ((n' - n) * δ - n * (δ' - δ)) / (δ' * δ) := by field_simp; ring
  have k : |n' / δ' - n / δ| ≤ (e1 + e2) / (1 - e1) * |n / δ| := by
    rw [e, abs_div, abs_mul, div_le_iff₀ (mul_pos dp' dp), abs_div]
    have t : |(n' - n) * δ - n * (δ' - δ)| ≤ (e1 + e2) * |n| * |δ| := by
      refine (abs_sub _ _).trans ?_
      rw [abs_mul, abs_mul]
      nlinarith [mul_le_mul_of_nonneg_right h2 dp.le, mul_le_mul_of_nonneg_left h1 (abs_nonneg n)]
    refine t.trans ?_
    have : (e1 + e2) / (1 - e1) * (|n| / |δ|) * (|δ'| * |δ|) = (e1 + e2) * |n| * (|δ'| / (1 - e1)) := by
      have : (1 - e1) ≠ 0 := by linarith
      field_simp
    rw [this]
    apply mul_le_mul_of_nonneg_left _ (by positivity)
    rw [le_div_iff₀ (by linarith)]
    linarith
  have r := R.error (n' / δ')
  have m : |n' / δ'| ≤ (1 + (e1 + e2) / (1 - e1)) * |n / δ| := by
    have := abs_sub_abs_le_abs_sub (n' / δ') (n / δ)
    linarith
  have := abs_sub_le (R.div n' δ') (n' / δ') (n / δ)
  have m' := mul_le_mul_of_nonneg_left m R.u_nonneg
  unfold Rounding.div at this ⊢
  nlinarith

/-- C96: for two rows of integers (`d` up to `2^53`, the others up to `2^15`) the determinant of which is not zero, `matrixInvert` does not return `None`, and the
second row of its result is correct up to a relative error of `2^-21`. -/
theorem C96_integers (a b c d : ℤ) (ha : |a| ≤ 2 ^ 15) (hb : |b| ≤ 2 ^ 15) (hc : |c| ≤ 2 ^ 15) (_hd : |d| ≤ 2 ^ 53)
    (h : a * d - b * c ≠ 0) :
    ∃ p q x y : ℝ, Rounded.MatrixInversion.matrixInvert float [[(a : ℝ), b], [(c : ℝ), d]] = .ok (some [[p, q], [x, y]]) ∧
      |x - (-c) / (a * d - b * c)| ≤ 2 ^ (-21 : ℤ) * |(-c) / ((a : ℝ) * d - b * c)| ∧
      |y - a / (a * d - b * c)| ≤ 2 ^ (-21 : ℤ) * |a / ((a : ℝ) * d - b * c)| := by
  have hu : float.u = 2 ^ (-53 : ℤ) := rfl
  by_cases a0 : a = 0
  · subst a0
    have hb0 : b ≠ 0 := by rintro rfl; simp at h
    have hc0 : c ≠ 0 := by rintro rfl; simp at h
    have e := C96_two_swap (binary 52) b c d (rnd_int b (hb.trans (by norm_num)))
    rw [if_neg (by simp [hb0, hc0])] at e
    refine ⟨_, _, _, _, by rw [Int.cast_zero]; exact e, ?_, by simp⟩
    have hbR : (b : ℝ) ≠ 0 := by exact_mod_cast hb0
    have hcR : (c : ℝ) ≠ 0 := by exact_mod_cast hc0
    have : -(c : ℝ) / (((0 : ℤ) : ℝ) * d - b * c) = 1 / b := by
      rw [Int.cast_zero, zero_mul, zero_sub]; field_simp
    rw [this]
    have r := float.error (1 / (b : ℝ))
    refine r.trans (mul_le_mul_of_nonneg_right ?_ (abs_nonneg _))
    rw [hu]; norm_num
  · have aR : (a : ℝ) ≠ 0 := by exact_mod_cast a0
    have ap : 0 < |(a : ℝ)| := abs_pos.mpr aR
    have detR : ((a : ℝ) * d - b * c) ≠ 0 := by exact_mod_cast h
    have det1 : 1 ≤ |(a : ℝ) * d - b * c| := by exact_mod_cast Int.one_le_abs h
    obtain ⟨β, hβ⟩ : ∃ β, β = float.div (b : ℝ) a := ⟨_, rfl⟩
    obtain ⟨δ, hδ⟩ : ∃ δ, δ = float.sub (d : ℝ) (float.mul c β) := ⟨_, rfl⟩
    have e := C96_two (binary 52) a b c d aR β δ hβ hδ
    -- the product of the off-diagonal entries
    have bcR : |(b : ℝ) * c / a| ≤ 2 ^ 30 * |((a : ℝ) * d - b * c) / a| := by
      rw [abs_div, abs_div, abs_mul, mul_div_assoc']
      apply div_le_div_of_nonneg_right _ ap.le
      have h1 : |(b : ℝ)| ≤ 2 ^ 15 := by exact_mod_cast hb
      have h2 : |(c : ℝ)| ≤ 2 ^ 15 := by exact_mod_cast hc
      nlinarith [mul_le_mul h1 h2 (abs_nonneg _) (by norm_num)]
    obtain ⟨D, hD⟩ : ∃ D, D = ((a : ℝ) * d - b * c) / a := ⟨_, rfl⟩
    have D0 : D ≠ 0 := by rw [hD]; exact div_ne_zero detR aR
    rw [← hD] at bcR
    have Dp : 0 < |D| := abs_pos.mpr D0
    obtain ⟨w, hw⟩ : ∃ w, w = (b : ℝ) * c / a := ⟨_, rfl⟩
    rw [← hw] at bcR
    have m1 : |float.mul c β - w| ≤ (2 * 2 ^ (-53 : ℤ) + 2 ^ (-106 : ℤ)) * |w| := by
      have r1 := float.error ((b : ℝ) / a)
      have r2 := float.error ((c : ℝ) * β)
      have e1 : |c * β - w| ≤ 2 ^ (-53 : ℤ) * |w| := by
        have : (c : ℝ) * β - w = c * (β - b / a) := by rw [hw]; ring
        rw [this, abs_mul]
        have e2 : |w| = |(c : ℝ)| * |(b : ℝ) / a| := by rw [hw, ← abs_mul]; congr 1; ring
        rw [e2, hβ]
        have := mul_le_mul_of_nonneg_left r1 (abs_nonneg (c : ℝ))
        rw [hu] at this
        unfold Rounding.div
        nlinarith
      have e3 : |(c : ℝ) * β| ≤ (1 + 2 ^ (-53 : ℤ)) * |w| := by
        have := abs_sub_abs_le_abs_sub ((c : ℝ) * β) w
        linarith
      have := abs_sub_le (float.mul c β) (c * β) w
      rw [hu] at r2
      unfold Rounding.mul at this ⊢
      have e4 := mul_le_mul_of_nonneg_left e3 (show (0:ℝ) ≤ 2 ^ (-53 : ℤ) by positivity)
      have e5 : (2:ℝ) ^ (-106 : ℤ) = 2 ^ (-53 : ℤ) * 2 ^ (-53 : ℤ) := by norm_num
      rw [e5]
      nlinarith
    have m2 : |δ - D| ≤ (2 ^ (-22 : ℤ) + 2 ^ (-51 : ℤ)) * |D| := by
      have r3 := float.error ((d : ℝ) - float.mul c β)
      rw [hu] at r3
      have e1 : |(d : ℝ) - float.mul c β - D| ≤ (2 ^ (-22 : ℤ) + 2 ^ (-76 : ℤ)) * |D| := by
        have : (d : ℝ) - float.mul c β - D = -(float.mul c β - w) := by
          rw [hD, hw]; field_simp; ring
        rw [this, abs_neg]
        refine m1.trans ((mul_le_mul_of_nonneg_left bcR (by positivity)).trans (le_of_eq ?_))
        norm_num; ring
      have e2 : |(d : ℝ) - float.mul c β| ≤ 2 * |D| := by
        have := abs_sub_abs_le_abs_sub ((d : ℝ) - float.mul c β) D
        have e3 : ((2:ℝ) ^ (-22 : ℤ) + 2 ^ (-76 : ℤ)) ≤ 1 := by norm_num
        nlinarith
      have := abs_sub_le δ ((d : ℝ) - float.mul c β) D
      have e4 : |δ - ((d : ℝ) - float.mul c β)| ≤ 2 ^ (-53 : ℤ) * (2 * |D|) := by
        rw [hδ]; exact r3.trans (mul_le_mul_of_nonneg_left e2 (by positivity))
      have e5 : (2:ℝ) ^ (-22 : ℤ) + 2 ^ (-76 : ℤ) + 2 * 2 ^ (-53 : ℤ) ≤ 2 ^ (-22 : ℤ) + 2 ^ (-51 : ℤ) := by norm_num
      nlinarith
    have δ0 : δ ≠ 0 := by
      rintro rfl
      rw [zero_sub, abs_neg] at m2
      have h2 : ((2:ℝ) ^ (-22 : ℤ) + 2 ^ (-51 : ℤ)) ≤ 1 / 2 := by norm_num
      exact absurd (m2.trans (mul_le_mul_of_nonneg_right h2 Dp.le)) (not_le.mpr (by linarith only [Dp]))
    rw [if_neg δ0] at e
    refine ⟨_, _, _, _, e, ?_, ?_⟩
    · -- the numerator
      have n1 : |float.sub 0 (float.mul c (float.div 1 a)) - (-c / a)| ≤ (4 * 2 ^ (-53 : ℤ)) * |-(c : ℝ) / a| := by
        have u1 : float.u < 1 := by rw [hu]; norm_num
        have q : float.Rel 3 (-((c : ℝ) * (1 / a))) (float.rnd (-(float.rnd ((c : ℝ) * float.rnd (1 / a))))) := by
          have := (Rounding.Rel.mul u1 (Rounding.Rel.refl (R := float) (c : ℝ)) (Rounding.Rel.rnd u1 (1 / (a : ℝ))))
          exact Rounding.Rel.round u1 (Rounding.Rel.neg this)
        have q' := Rounding.Rel.error u1 q
        have e1 : -((c : ℝ) * (1 / a)) = -c / a := by ring
        rw [e1] at q'
        unfold Rounding.sub Rounding.mul Rounding.div
        rw [zero_sub]
        refine q'.trans (mul_le_mul_of_nonneg_right ?_ (abs_nonneg _))
        unfold Rounding.gap
        rw [hu]; norm_num
      have k := quotient float (-c / a) _ D δ _ _ D0 m2 n1 (by norm_num) (by positivity) (by positivity)
      have e1 : -(c : ℝ) / a / D = -c / (a * d - b * c) := by rw [hD]; field_simp
      rw [e1] at k
      refine k.trans (mul_le_mul_of_nonneg_right ?_ (abs_nonneg _))
      rw [hu]; norm_num
    · have k := quotient float 1 1 D δ _ 0 D0 m2 (by simp) (by norm_num) (by positivity) le_rfl
      have e1 : 1 / D = a / ((a : ℝ) * d - b * c) := by rw [hD, one_div_div]
      rw [e1] at k
      refine k.trans (mul_le_mul_of_nonneg_right ?_ (abs_nonneg _))
      rw [hu]; norm_num

/-- C96_integers applies to a matrix with determinant 1 and large entries. -/
example : |(32767 : ℤ)| ≤ 2 ^ 15 ∧ |(32766 : ℤ)| ≤ 2 ^ 15 ∧ (32767 : ℤ) * 32765 - 32766 * 32766 ≠ 0 := by decide

/-! ## Singular matrices -/

/-- C96: the matrix with the rows (49, 1) and (49, 1) is singular; `matrixInvert` returns numbers as large as `2^53` for it. -/
theorem C96_singular_counterexample :
    MatrixInversion.matrixInvert [[(49:ℝ), 1], [49, 1]] = .ok none ∧
    ∃ p q x : ℝ, Rounded.MatrixInversion.matrixInvert float [[49, 1], [49, 1]] = .ok (some [[p, q], [x, 2 ^ 53]]) := by
  constructor
  · rw [(C20_none_iff_singular 2 (by norm_num) _ (two_isMat 49 1 49 1)).1, Matrix.det_fin_two]
    simp [toMatrix]
  · have e := C96_two (binary 52) 49 1 49 1 (by norm_num) _ _ rfl rfl
    have h49 : (49:ℝ) = ((49:ℚ):ℝ) := by norm_num
    have hδ : (binary 52).sub 1 ((binary 52).mul 49 ((binary 52).div 1 49)) = ((1 / 2 ^ 53 : ℚ) : ℝ) := by
      rw [h49, Flt.one_cast]
      have := Flt.div_run 1 49
      have h2 := Flt.mul_run 49 (Flt.div 1 49)
      have h3 := Flt.sub_run 1 (Flt.mul 49 (Flt.div 1 49))
      rw [show Flt.sub 1 (Flt.mul 49 (Flt.div 1 49)) = 1 / 2 ^ 53 by decide +kernel] at h3
      rw [this, h2, h3]
    have hy : (binary 52).div 1 ((1 / 2 ^ 53 : ℚ) : ℝ) = 2 ^ 53 := by
      rw [Flt.one_cast]
      have := Flt.div_run 1 (1 / 2 ^ 53)
      rw [show Flt.div 1 (1 / 2 ^ 53) = 2 ^ 53 by decide +kernel] at this
      rw [this]; norm_num
    rw [hδ, if_neg (by norm_num), hy] at e
    exact ⟨_, _, _, e⟩

/-- C96: the matrix with the rows (3, 1) and (1, 1/3), where 1/3 is the `float` number nearest to it, is not singular, but
`matrixInvert` returns `None`. -/
theorem C96_regular_counterexample :
    (toMatrix 2 2 [[3, 1], [1, ((fl (1 / 3) : ℚ) : ℝ)]]).det ≠ 0 ∧
    Rounded.MatrixInversion.matrixInvert float [[3, 1], [1, ((fl (1 / 3) : ℚ) : ℝ)]] = .ok none := by
  constructor
  · rw [Matrix.det_fin_two]
    have : (3 * fl (1 / 3) - 1 : ℚ) ≠ 0 := by decide +kernel
    have : ((3 * fl (1 / 3) - 1 : ℚ) : ℝ) ≠ 0 := by exact_mod_cast this
    push_cast at this
    simpa [toMatrix] using this
  · have e := C96_two (binary 52) 3 1 1 ((fl (1 / 3) : ℚ) : ℝ) (by norm_num) _ _ rfl rfl
    have hδ : (binary 52).sub ((fl (1 / 3) : ℚ) : ℝ) ((binary 52).mul 1 ((binary 52).div 1 3)) = 0 := by
      have h3 : (3:ℝ) = ((3:ℚ):ℝ) := by norm_num
      rw [h3, Flt.one_cast]
      have a1 := Flt.div_run 1 3
      have a2 := Flt.mul_run 1 (Flt.div 1 3)
      have a3 := Flt.sub_run (fl (1 / 3)) (Flt.mul 1 (Flt.div 1 3))
      rw [show Flt.sub (fl (1 / 3)) (Flt.mul 1 (Flt.div 1 3)) = 0 by decide +kernel] at a3
      rw [a1, a2, a3]; simp
    rw [hδ, if_pos rfl] at e
    exact e

end PathLib
