import Verif.Lemmas.RoundedFit
import Verif.Lemmas.FloatRun

/-!
# Running the rounded curve fitting

As in `Lemmas/FloatRun.lean`: functions on rational numbers that compute what the functions of `Model/RoundedFit.lean` do in Python's
`float` arithmetic, and the theorems that say so.
-/

set_option linter.unusedSectionVars false
set_option linter.unusedSimpArgs false

namespace PathLib
namespace Flt
open Spec
open PathLib.MatrixInversion (St pivot ofRows toRows)

/-- A matrix with rational entries. -/
def mat (A : Mat ℚ) : Mat ℝ := A.map fun r => r.map fun (x : ℚ) => (x : ℝ)

theorem mat_tab (m n : ℕ) (f : ℕ → ℕ → ℚ) : mat (tab m n f) = tab m n fun i j => ((f i j : ℚ) : ℝ) := by
  simp [mat, tab, Function.comp_def]

theorem entry_mat (A : Mat ℚ) (i j : ℕ) : entry (mat A) i j = ((entry A i j : ℚ) : ℝ) := by
  unfold entry mat
  simp only [List.getD_eq_getElem?_getD, List.getElem?_map]
  cases h : A[i]? with
  | none => simp
  | some r =>
    simp only [Option.map_some, Option.getD_some, List.getElem?_map]
    cases r[j]? <;> simp

/-- One pass of the main loop of `matrixInvert`, for a pivot that is not zero. -/
def invStep (n i : ℕ) (C I : Mat ℚ) : Mat ℚ × Mat ℚ :=
  let e := entry C i i
  let rowC := (List.range n).map fun c => div (entry C i c) e
  let rowI := (List.range n).map fun c => div (entry I i c) e
  (tab n n fun r c => if r = i then rowC.getD c 0 else sub (entry C r c) (mul (entry C r i) (rowC.getD c 0)),
   tab n n fun r c => if r = i then rowI.getD c 0 else sub (entry I r c) (mul (entry C r i) (rowI.getD c 0)))

/-- `matrixInvert` for a matrix where no pivot is zero. -/
def invLoop (n : ℕ) : List ℕ → Mat ℚ → Mat ℚ → Option (Mat ℚ)
  | [], _, I => some I
  | i :: is, C, I => if entry C i i = 0 then none else invLoop n is (invStep n i C I).1 (invStep n i C I).2

def invert (n : ℕ) (M : Mat ℚ) : Option (Mat ℚ) := invLoop n (List.range n) M (tab n n fun r c => if r = c then 1 else 0)

theorem invLoop_run (n : ℕ) (is : List ℕ) (his : ∀ i ∈ is, i < n) : ∀ (st : St ℝ) (C I J : Mat ℚ),
    (∀ r < n, ∀ c < n, st.C r c = ((entry C r c : ℚ) : ℝ)) → (∀ r < n, ∀ c < n, st.I r c = ((entry I r c : ℚ) : ℝ)) →
    invLoop n is C I = some J → ∃ st', is.foldlM (Rounded.MatrixInversion.step F n) st = some st' ∧
      ∀ r < n, ∀ c < n, st'.I r c = ((entry J r c : ℚ) : ℝ) := by
  induction is with
  | nil =>
    intro st C I J _ hI h
    obtain rfl : I = J := Option.some.inj h
    exact ⟨st, rfl, hI⟩
  | cons i is ih =>
    intro st C I J hC hI h
    have hi := his i (by simp)
    rw [invLoop] at h
    by_cases h0 : entry C i i = 0
    · rw [if_pos h0] at h; cases h
    rw [if_neg h0] at h
    have h0' : st.C i i ≠ 0 := by rw [hC i hi i hi]; exact_mod_cast h0
    obtain ⟨s1, e1, hC1, hI1⟩ := Rounded.MatrixInversion.step_of_ne F n i hi st h0'
    have row : ∀ (A : Mat ℚ) (c : ℕ), c < n →
        ((List.range n).map fun c => div (entry A i c) (entry C i i)).getD c 0 = div (entry A i c) (entry C i i) := by
      intro A c hc; simp [List.getD_eq_getElem?_getD, hc]
    obtain ⟨st', e2, h2⟩ := ih (fun j hj => his j (by simp [hj])) s1 _ _ J
      (by
        intro r hr c hc
        rw [hC1 r c hc hr]
        simp only [invStep]
        rw [entry_tab _ hr hc]
        simp only [row _ c hc]
        rw [hC i hi c hc, hC i hi i hi, hC r hr c hc, hC r hr i hi]
        split_ifs
        · exact div_run _ _
        · rw [div_run, mul_run, sub_run])
      (by
        intro r hr c hc
        rw [hI1 r c hc hr]
        simp only [invStep]
        rw [entry_tab _ hr hc]
        simp only [row _ c hc]
        rw [hI i hi c hc, hC i hi i hi, hI r hr c hc, hC r hr i hi]
        split_ifs
        · exact div_run _ _
        · rw [div_run, mul_run, sub_run]) h
    exact ⟨st', by rw [List.foldlM_cons, e1]; exact e2, h2⟩

theorem invert_run (n : ℕ) (hn : 0 < n) (M J : Mat ℚ) (hM : IsMat n n M) (h : invert n M = some J) (hJ : IsMat n n J) :
    Rounded.MatrixInversion.matrixInvert F (mat M) = .ok (some (mat J)) := by
  obtain ⟨st', e, hI⟩ := invLoop_run n (List.range n) (fun i hi => by simpa using hi)
    ⟨entry (mat M), fun row col => if row = col then 1 else 0⟩ M _ J (fun r _ c _ => entry_mat M r c)
    (by intro r hr c hc; rw [entry_tab _ hr hc]; by_cases hrc : r = c <;> simp [hrc]) h
  have hm : mat M = tab n n (entry (mat M)) := by
    apply isMat_eq_tab
    refine ⟨by simpa [mat] using hM.1, ?_⟩
    intro r hr
    obtain ⟨r', h1, rfl⟩ := List.mem_map.mp hr
    simpa using hM.2 r' h1
  have t := Rounded.MatrixInversion.matrixInvert_tab F hn (entry (mat M))
  rw [← hm] at t
  have e3 : toRows n st'.I = mat J := by
    conv_rhs => rw [isMat_eq_tab hJ, mat_tab]
    exact tab_congr hI
  rw [t, e, ← e3]

/-- The scalar product of row `i` of `A` and column `j` of `B`. -/
def dot (k : ℕ) (A B : Mat ℚ) (i j : ℕ) : ℚ := (List.range k).foldl (fun a l => add a (mul (entry B l j) (entry A i l))) 0

/-- `multiply`. -/
def mulM (m k n : ℕ) (A B : Mat ℚ) : Mat ℚ := tab m n fun i j => dot k A B i j

theorem dot_run (k : ℕ) (A B : Mat ℚ) (i j : ℕ) : Rounded.CurveFitting.dot F k (entry (mat A) i) (fun l => entry (mat B) l j) =
    ((dot k A B i j : ℚ) : ℝ) := by
  unfold Rounded.CurveFitting.dot dot
  have : ∀ (l : List ℕ) (x : ℚ), l.foldl (fun a l => F.add a (F.mul (entry (mat B) l j) (entry (mat A) i l))) (x : ℝ) =
      ((l.foldl (fun a l => add a (mul (entry B l j) (entry A i l))) x : ℚ) : ℝ) := by
    intro l
    induction l with
    | nil => intro x; rfl
    | cons a l ih =>
      intro x
      rw [List.foldl_cons, List.foldl_cons, ← ih, entry_mat, entry_mat, mul_run, add_run]
  have := this (List.range k) 0
  rwa [Rat.cast_zero] at this

theorem mat_isMat {m n : ℕ} {A : Mat ℚ} (h : IsMat m n A) : IsMat m n (mat A) := by
  refine ⟨by simpa [mat] using h.1, ?_⟩
  intro r hr
  obtain ⟨r', h1, rfl⟩ := List.mem_map.mp hr
  simpa using h.2 r' h1

theorem mulM_run {m k n : ℕ} (hk : 0 < k) (A B : Mat ℚ) (hA : IsMat m k A) (hB : IsMat k n B) :
    Rounded.CurveFitting.multiply F (mat A) (mat B) = .ok (mat (mulM m k n A B)) := by
  rw [isMat_eq_tab (mat_isMat hA), isMat_eq_tab (mat_isMat hB), Rounded.CurveFitting.multiply_tab F hk]
  rw [mulM, mat_tab]
  congr 1
  apply tab_congr
  intro i _ j _
  exact dot_run k A B i j

theorem mulM_isMat (m k n : ℕ) (A B : Mat ℚ) : IsMat m n (mulM m k n A B) := tab_isMat _ _ _

/-- The matrix that `bestFit` multiplies the coordinates of the points with. -/
def fitMatrix (n : ℕ) (M : Mat ℚ) (S : List ℚ) : Option (Mat ℚ) :=
  let Tt := tab n n fun i j => fl (S.getD j 0 ^ i)
  let T := tab n n fun i j => entry Tt j i
  match invert n M, invert n (mulM n n n Tt T) with
  | some M1, some A1 => some (mulM n n n M1 (mulM n n n A1 Tt))
  | _, _ => none

theorem invLoop_isMat (n : ℕ) (is : List ℕ) : ∀ (C I J : Mat ℚ), IsMat n n I → invLoop n is C I = some J → IsMat n n J := by
  induction is with
  | nil => intro C I J hI h; obtain rfl : I = J := Option.some.inj h; exact hI
  | cons i is ih =>
    intro C I J hI h
    rw [invLoop] at h
    split_ifs at h
    exact ih _ _ J (tab_isMat n n _) h

theorem invert_isMat (n : ℕ) (M J : Mat ℚ) (h : invert n M = some J) : IsMat n n J :=
  invLoop_isMat n _ _ _ J (tab_isMat n n _) h

theorem fitMatrix_run (n : ℕ) (hn : 0 < n) (P : List (Pt ℝ)) (M : Mat ℚ) (S : List ℚ) (hP : P.length = n) (hM : IsMat n n M)
    (hS : S.length = n) (A : Mat ℚ) (h : fitMatrix n M S = some A) :
    IsMat n n A ∧ Rounded.CurveFitting.bestFit F P (mat M) (S.map fun (x : ℚ) => (x : ℝ)) = (do
      let Cx ← Rounded.CurveFitting.multiply F (mat A) (CurveFitting.columnX P)
      let Cy ← Rounded.CurveFitting.multiply F (mat A) (CurveFitting.columnY P)
      return (Cx, Cy)) := by
  have eT : (List.range n).map (fun (i : ℕ) => Rounded.CurveFitting.raiseRowPower F (S.map fun (x : ℚ) => (x : ℝ)) i) =
      mat (tab n n fun i j => fl (S.getD j 0 ^ i)) := by
    rw [mat_tab]
    unfold tab
    apply List.map_congr_left
    intro i _
    unfold Rounded.CurveFitting.raiseRowPower
    apply List.ext_getElem
    · simp [hS]
    · intro j h1 h2
      have hj : j < S.length := by simpa using h1
      simp only [List.getElem_map, List.getElem_range, List.getD_eq_getElem?_getD, List.getElem?_eq_getElem hj,
        Option.getD_some]
      have := float_rnd (S[j] ^ i)
      push_cast at this
      exact this
  have eF : Rounded.CurveFitting.formTMatrix F (S.map fun (x : ℚ) => (x : ℝ)) (some n) =
      .ok (mat (tab n n fun i j => fl (S.getD j 0 ^ i)), mat (tab n n fun i j => fl (S.getD i 0 ^ j))) := by
    unfold Rounded.CurveFitting.formTMatrix
    obtain ⟨k, rfl⟩ : ∃ k, n = k + 1 := ⟨n - 1, by omega⟩
    simp only [eT]
    rw [mat_tab, CurveFitting.transpose_tab (by omega), mat_tab]
    rfl
  have eT' : (tab n n fun i j => entry (tab n n fun i j => fl (S.getD j 0 ^ i)) j i) = tab n n fun i j => fl (S.getD i 0 ^ j) := by
    apply tab_congr
    intro i hi j hj
    rw [entry_tab _ hj hi]
  unfold fitMatrix at h
  simp only [eT'] at h
  cases hi1 : invert n M with
  | none => rw [hi1] at h; simp at h
  | some M1 =>
    cases hi2 : invert n (mulM n n n (tab n n fun i j => fl (S.getD j 0 ^ i)) (tab n n fun i j => fl (S.getD i 0 ^ j))) with
    | none => rw [hi1, hi2] at h; simp at h
    | some A1 =>
      rw [hi1, hi2] at h
      simp only [Option.some.injEq] at h
      refine ⟨by rw [← h]; exact mulM_isMat _ _ _ _ _, ?_⟩
      unfold Rounded.CurveFitting.bestFit
      simp only [hP, eF, ok_bind]
      rw [invert_run n hn M M1 hM hi1 (invert_isMat n _ _ hi1), ok_bind,
        mulM_run hn _ _ (tab_isMat n n _) (tab_isMat n n _), ok_bind,
        invert_run n hn _ A1 (mulM_isMat _ _ _ _ _) hi2 (invert_isMat n _ _ hi2), ok_bind]
      simp only [Rounded.CurveFitting.multiplyOpt]
      rw [mulM_run hn _ _ (invert_isMat n _ _ hi2) (tab_isMat n n _), ok_bind,
        mulM_run hn _ _ (invert_isMat n _ _ hi1) (mulM_isMat _ _ _ _ _), ok_bind, h]

/-- `bestFit`. -/
def bestFit (n : ℕ) (P : List (Pt ℚ)) (M : Mat ℚ) (S : List ℚ) : Option (Mat ℚ × Mat ℚ) :=
  (fitMatrix n M S).map fun A => (mulM n n 1 A (P.map fun p => [p.1]), mulM n n 1 A (P.map fun p => [p.2]))

theorem bestFit_run (n : ℕ) (hn : 0 < n) (P : List (Pt ℚ)) (M : Mat ℚ) (S : List ℚ) (hP : P.length = n) (hM : IsMat n n M)
    (hS : S.length = n) (X Y : Mat ℚ) (h : bestFit n P M S = some (X, Y)) :
    Rounded.CurveFitting.bestFit F (seg P) (mat M) (S.map fun (x : ℚ) => (x : ℝ)) = .ok (mat X, mat Y) := by
  unfold bestFit at h
  cases hA : fitMatrix n M S with
  | none => rw [hA] at h; simp at h
  | some A =>
    rw [hA] at h
    simp only [Option.map_some, Option.some.injEq, Prod.mk.injEq] at h
    obtain ⟨hX, hY⟩ := h
    obtain ⟨iA, e⟩ := fitMatrix_run n hn (seg P) M S (by simpa [seg] using hP) hM hS A hA
    have colX : CurveFitting.columnX (seg P) = mat (P.map fun p => [p.1]) := by
      simp [CurveFitting.columnX, seg, mat, pt, Function.comp_def]
    have colY : CurveFitting.columnY (seg P) = mat (P.map fun p => [p.2]) := by
      simp [CurveFitting.columnY, seg, mat, pt, Function.comp_def]
    have iX : IsMat n 1 (P.map fun p => [p.1]) :=
      ⟨by simpa using hP, by rintro r hr; obtain ⟨p, -, rfl⟩ := List.mem_map.mp hr; rfl⟩
    have iY : IsMat n 1 (P.map fun p => [p.2]) :=
      ⟨by simpa using hP, by rintro r hr; obtain ⟨p, -, rfl⟩ := List.mem_map.mp hr; rfl⟩
    rw [e, colX, colY, mulM_run hn _ _ iA iX, ok_bind, mulM_run hn _ _ iA iY, ok_bind, hX, hY]
    rfl

/-- The distances along the polygon. -/
def along (p : List (Pt ℚ)) : ℕ → ℚ
  | 0 => 0
  | i + 1 =>
    let a := p.getD i (0, 0)
    let b := p.getD (i + 1) (0, 0)
    let dx := sub a.1 b.1
    let dy := sub a.2 b.2
    add (along p i) (flSqrt (dx * dx + dy * dy))

theorem seg_getD (p : List (Pt ℚ)) (i : ℕ) : (seg p).getD i 0 = pt (p.getD i (0, 0)) := by
  unfold seg
  simp only [List.getD_eq_getElem?_getD, List.getElem?_map]
  cases p[i]? with
  | none => simp [pt]; rfl
  | some x => rfl

theorem along_run (p : List (Pt ℚ)) (i : ℕ) : Rounded.CurveFitting.along F (seg p) i = ((along p i : ℚ) : ℝ) := by
  induction i with
  | zero => simp [Rounded.CurveFitting.along, along]
  | succ i ih =>
    rw [Rounded.CurveFitting.along, along, ih, seg_getD, seg_getD]
    simp only [Rounded.CurveFitting.dist, pt, sub_run, butils.hypot]
    rw [← Rat.cast_mul, ← Rat.cast_mul, ← Rat.cast_add]
    have := float_sqrt (sub (p.getD i (0, 0)).1 (p.getD (i + 1) (0, 0)).1 * sub (p.getD i (0, 0)).1 (p.getD (i + 1) (0, 0)).1 +
      sub (p.getD i (0, 0)).2 (p.getD (i + 1) (0, 0)).2 * sub (p.getD i (0, 0)).2 (p.getD (i + 1) (0, 0)).2)
      (add_nonneg (mul_self_nonneg _) (mul_self_nonneg _))
    rw [this, add_run]

/-- `computeTimeValues`. -/
def times (p : List (Pt ℚ)) : List ℚ := (List.range p.length).map fun i => div (along p i) (along p (p.length - 1))

theorem times_run (p : List (Pt ℚ)) (h1 : 1 ≤ p.length) (h : along p (p.length - 1) ≠ 0) :
    Rounded.CurveFitting.computeTimeValues F (seg p) none true = .ok ((times p).map fun (x : ℚ) => (x : ℝ)) := by
  have hl : (seg p).length = p.length := by simp [seg]
  rw [Rounded.CurveFitting.times_eq F (seg p) (by omega) (by rw [hl, along_run]; exact_mod_cast h), hl]
  unfold times
  simp only [along_run, div_run, List.map_map, Function.comp_def]

end Flt
end PathLib
