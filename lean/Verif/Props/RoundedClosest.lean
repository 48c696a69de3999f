import Verif.Model.RoundedClosest
import Verif.Props.Rounded
import Verif.Props.BContourNear
import Verif.Lemmas.Float

/-!
# The closest point search in floating point: C103
-/

set_option linter.unusedSectionVars false
set_option linter.unusedSimpArgs false

namespace PathLib

open Bezier Spec BContour Rounded

/-! ## Without rounding -/

section exact

private theorem pdiv_exact (a b : ℝ) : Rounded.pdiv Rounding.exact a b = PathLib.pdiv a b := rfl

private theorem lutOf_exact (ps : Segment ℝ) (steps : Int) : Rounded.lutOf Rounding.exact ps steps = Bezier.lutOf ps steps := by
  unfold Rounded.lutOf Bezier.lutOf
  simp only [pdiv_exact, C82_exact]

private theorem lutLoop_exact (steps : Int) (bs : List Bezier) (k : Nat) (lut : List (Pt ℝ)) :
    Rounded.lutLoop Rounding.exact steps bs k lut = BContour.lutLoop steps bs k lut := by
  induction bs generalizing k lut with
  | nil => rfl
  | cons b bs ih =>
    rw [Rounded.lutLoop, BContour.lutLoop, lutOf_exact]
    cases Bezier.lutOf b.controlPoints steps with
    | error e => rfl
    | ok l => exact ih _ _

private theorem getLUT_exact (steps : Int) (c : BContour) : Rounded.getLUT Rounding.exact steps c = BContour.getLUT steps c := by
  unfold Rounded.getLUT BContour.getLUT
  rw [lutLoop_exact]
  rfl

private theorem refineInner_exact (p : Pt ℝ) (ps : Segment ℝ) (t1 step : ℝ) (r : Refine) (j : Nat) :
    Rounded.refineInner Rounding.exact Hypot.exact p ps t1 step r j = BContour.refineInner p ps t1 step r j := by
  unfold Rounded.refineInner BContour.refineInner
  simp only [C82_exact]
  rfl

private theorem refineLoop_exact (p : Pt ℝ) (ps : Segment ℝ) (n : Nat) (r : Refine) :
    Rounded.refineLoop Rounding.exact Hypot.exact p ps n r = BContour.refineLoop p ps n r := by
  induction n generalizing r with
  | zero => rfl
  | succ n ih =>
    rw [Rounded.refineLoop, BContour.refineLoop]
    have h : Rounded.refineInner Rounding.exact Hypot.exact p ps = BContour.refineInner p ps := by
      funext a b c d; exact refineInner_exact _ _ _ _ _ _
    simp only [h, ih]
    rfl

private theorem refineBinary_exact (p : Pt ℝ) (ps : Segment ℝ) (lut : List (Pt ℝ)) (i : Int) :
    Rounded.refineBinary Rounding.exact Hypot.exact p ps lut i = BContour.refineBinary p ps lut i := by
  unfold Rounded.refineBinary BContour.refineBinary
  simp only [pdiv_exact, refineLoop_exact]

/-- C103: without rounding this is the search of the exact model. -/
theorem C103_exact (p : Pt ℝ) (steps : Int) (c : BContour) :
    Rounded.findClosestPoint Rounding.exact Hypot.exact p steps c = BContour.findClosestPoint p steps c := by
  have h1 : Rounded.findClosest Rounding.exact Hypot.exact p = BContour.findClosest p := rfl
  have h2 : Rounded.closestOn Rounding.exact Hypot.exact p steps = BContour.closestOn p steps := by
    funext b b2 i
    unfold Rounded.closestOn BContour.closestOn
    simp only [lutOf_exact, refineBinary_exact]
    rfl
  unfold Rounded.findClosestPoint BContour.findClosestPoint
  rw [getLUT_exact, h1, h2]
  rfl

end exact

/-! ## What is returned -/

/-- The distance of two points as it is computed. -/
noncomputable def Spec.floatDistance (R : Rounding) (H : Hypot) (q p : Pt ℝ) : ℝ := H.fn (R.sub q.1 p.1) (R.sub q.2 p.2)

section result
variable (R : Binary) (H : Hypot)

/-- What the search has found: nothing, or a point of the curve as computed, with its distance as computed. -/
private def FFound (p : Pt ℝ) (ps : Segment ℝ) (q : Pt ℝ) (d : ℝ) : Prop :=
  (q = (0, 0) ∧ d = maxSafe) ∨
    ∃ t, 0 < t ∧ t < 1 ∧ Rounded.get R.toRounding ps t = .ok q ∧ d = floatDistance R.toRounding H q p ∧ d < maxSafe

private def FGood (p : Pt ℝ) (ps : Segment ℝ) (r : Refine) : Prop :=
  FFound R H p ps r.q r.closest ∧ ∀ x ∈ r.tt, 0 ≤ x ∧ x ≤ 1

variable {R H}

private theorem FFound.le {p : Pt ℝ} {ps : Segment ℝ} {q : Pt ℝ} {d : ℝ} (h : FFound R H p ps q d) : d ≤ maxSafe := by
  rcases h with ⟨_, rfl⟩ | ⟨_, _, _, _, _, h⟩
  · exact le_rfl
  · exact h.le

/-- The parameters at which a round looks. -/
private theorem probe_range (hu : R.u ≤ 1 / 1000) {t1 t2 : ℝ} (h1 : 0 ≤ t1) (h2 : t2 ≤ 1)
    (hs : ¬ R.toRounding.div (R.toRounding.sub t2 t1) 5 < R.rnd (1 / 1000)) {j : Nat} (hj1 : 1 ≤ j) (hj3 : j ≤ 3) :
    0 < R.toRounding.add t1 (R.toRounding.mul (j : ℝ) (R.toRounding.div (R.toRounding.sub t2 t1) 5)) ∧
    R.toRounding.add t1 (R.toRounding.mul (j : ℝ) (R.toRounding.div (R.toRounding.sub t2 t1) 5)) < 1 := by
  have hu0 := R.u_nonneg
  have hj1' : (1 : ℝ) ≤ j := by exact_mod_cast hj1
  have hj3' : (j : ℝ) ≤ 3 := by exact_mod_cast hj3
  unfold Rounding.add Rounding.mul Rounding.div Rounding.sub at *
  rw [not_lt] at hs
  have e0 := R.error (1 / 1000)
  have e1 := R.error (t2 - t1)
  have e2 := R.error (R.rnd (t2 - t1) / 5)
  set D := R.rnd (t2 - t1)
  set S := R.rnd (D / 5)
  have e3 := R.error ((j : ℝ) * S)
  set M := R.rnd ((j : ℝ) * S)
  have e4 := R.error (t1 + M)
  rw [abs_of_pos (by norm_num : (0:ℝ) < 1 / 1000), abs_le] at e0
  have hS0 : 9 / 10000 ≤ S := by nlinarith [e0.1]
  -- positive steps come from positive differences
  have hD : 0 < D := by
    by_contra hD
    have : |D / 5| = -(D / 5) := abs_of_nonpos (by linarith [not_lt.mp hD])
    rw [this, abs_le] at e2
    nlinarith [e2.2]
  have hT : 0 < t2 - t1 := by
    by_contra hT
    have : |t2 - t1| = -(t2 - t1) := abs_of_nonpos (not_lt.mp hT)
    rw [this, abs_le] at e1
    nlinarith [e1.2]
  rw [abs_of_pos hT, abs_le] at e1
  rw [abs_of_pos (by linarith : 0 < D / 5), abs_le] at e2
  rw [abs_of_pos (by positivity : 0 < (j : ℝ) * S), abs_le] at e3
  have d1 : D ≤ 1001 / 1000 * (t2 - t1) := by nlinarith [e1.2]
  have s1 : S ≤ 1001 / 1000 * (D / 5) := by nlinarith [e2.2]
  have m0 : 0 < M := by nlinarith [e3.1, mul_pos (by linarith : (0:ℝ) < j) (by linarith : 0 < S)]
  have m1 : M ≤ 1001 / 1000 * ((j : ℝ) * S) := by
    nlinarith [e3.2, mul_pos (by linarith : (0:ℝ) < j) (by linarith : 0 < S)]
  have m2 : (j : ℝ) * S ≤ 3 * S := mul_le_mul_of_nonneg_right hj3' (by linarith)
  rw [abs_of_pos (by linarith : 0 < t1 + M), abs_le] at e4
  constructor
  · nlinarith [e4.1]
  · have hx : t1 + M ≤ 1 - 1 / 1000 - 1 / 10000 := by linarith
    nlinarith [e4.2]

private theorem finner_good {p : Pt ℝ} {ps : Segment ℝ} {t1 step : ℝ} {r r' : Refine} {j : Nat}
    (h : Rounded.refineInner R.toRounding H p ps t1 step r j = .ok r') (hr : FGood R H p ps r)
    (h01 : 0 < R.toRounding.add t1 (R.toRounding.mul (j : ℝ) step) ∧ R.toRounding.add t1 (R.toRounding.mul (j : ℝ) step) < 1) :
    FGood R H p ps r' := by
  unfold Rounded.refineInner at h
  simp only at h
  obtain ⟨n, hn, h⟩ := bind_eq_ok.mp h
  have htt : ∀ x ∈ r.tt ++ [R.toRounding.add t1 (R.toRounding.mul (j : ℝ) step)], 0 ≤ x ∧ x ≤ 1 := by
    intro x hx
    rcases List.mem_append.mp hx with hx | hx
    · exact hr.2 x hx
    · simp at hx; subst hx; exact ⟨h01.1.le, h01.2.le⟩
  by_cases hlt : H.fn (R.toRounding.sub n.1 p.1) (R.toRounding.sub n.2 p.2) < r.closest
  · simp only [hlt, if_true] at h
    cases h
    exact ⟨.inr ⟨_, h01.1, h01.2, hn, rfl, hlt.trans_le hr.1.le⟩, htt⟩
  · simp only [hlt, if_false] at h
    cases h
    exact ⟨hr.1, htt⟩

private theorem pyGet_mem' {α : Type} {l : List α} {i : Int} {a : α} (h : pyGet l i = .ok a) : a ∈ l := by
  unfold pyGet at h
  simp only at h
  split_ifs at h
  · split at h
    · cases h; exact List.mem_of_getElem? (by assumption)
    · cases h
  · split at h
    · cases h; exact List.mem_of_getElem? (by assumption)
    · cases h

private theorem floop_good (hu : R.u ≤ 1 / 1000) {p : Pt ℝ} {ps : Segment ℝ} (n : Nat) {r r' : Refine}
    (h : Rounded.refineLoop R.toRounding H p ps n r = .ok r') (hr : FGood R H p ps r) : FFound R H p ps r'.q r'.closest := by
  induction n generalizing r with
  | zero => cases h; exact hr.1
  | succ n ih =>
    unfold Rounded.refineLoop at h
    simp only at h
    generalize (if r.i = 0 then 0 else r.i - 1) = i1 at h
    generalize (if r.i = (r.lut.length : Int) - 1 then r.i else r.i + 1) = i2 at h
    obtain ⟨t1, ht1, h⟩ := bind_eq_ok.mp h
    obtain ⟨t2, ht2, h⟩ := bind_eq_ok.mp h
    have b1 := hr.2 _ (pyGet_mem' ht1)
    have b2 := hr.2 _ (pyGet_mem' ht2)
    by_cases hs : R.toRounding.div (R.toRounding.sub t2 t1) 5 < R.rnd (1 / 1000)
    · rw [if_pos hs] at h
      cases h
      exact hr.1
    rw [if_neg hs] at h
    obtain ⟨l1, hl1, h⟩ := bind_eq_ok.mp h
    obtain ⟨t1', ht1', h⟩ := bind_eq_ok.mp h
    obtain ⟨r1, hr1, h⟩ := bind_eq_ok.mp h
    obtain ⟨l2, hl2, h⟩ := bind_eq_ok.mp h
    obtain ⟨t2', ht2', h⟩ := bind_eq_ok.mp h
    rw [ht1] at ht1'
    cases ht1'
    rw [ht2] at ht2'
    cases ht2'
    have g0 : FGood R H p ps { r with lut := [l1], tt := [t1] } := ⟨hr.1, by intro x hx; simp at hx; subst hx; exact b1⟩
    have g1 : FGood R H p ps r1 := by
      simp only [List.foldlM_cons, List.foldlM_nil] at hr1
      obtain ⟨ra, ha, hr1⟩ := bind_eq_ok.mp hr1
      obtain ⟨rb, hb, hr1⟩ := bind_eq_ok.mp hr1
      obtain ⟨rc, hc, hr1⟩ := bind_eq_ok.mp hr1
      cases hr1
      have ga := finner_good ha g0 (probe_range hu b1.1 b2.2 hs (by omega) (by omega))
      have gb := finner_good hb ga (probe_range hu b1.1 b2.2 hs (by omega) (by omega))
      exact finner_good hc gb (probe_range hu b1.1 b2.2 hs (by omega) (by omega))
    refine ih h ⟨g1.1, ?_⟩
    intro x hx
    rcases List.mem_append.mp hx with hx | hx
    · exact g1.2 x hx
    · simp at hx; subst hx; exact b2

/-- The parameters of the samples are in `[0, 1]`. -/
private theorem sample_param (R : Binary) (n t : Nat) (ht : t < n) (h0 : (n : ℝ) - 1 ≠ 0) :
    0 ≤ R.toRounding.div (t : ℝ) ((n : ℝ) - 1) ∧ R.toRounding.div (t : ℝ) ((n : ℝ) - 1) ≤ 1 := by
  have h1 : (t : ℝ) ≤ n - 1 := by
    have : (t : ℝ) + 1 ≤ n := by exact_mod_cast ht
    linarith
  have h2 : (0 : ℝ) ≤ t := by positivity
  have h3 : (0 : ℝ) ≤ (n : ℝ) - 1 := h2.trans h1
  unfold Rounding.div
  constructor
  · rw [← R.rnd_zero]
    exact R.mono _ _ (by positivity)
  · exact (R.mono _ _ ((div_le_one (lt_of_le_of_ne h3 (Ne.symm h0))).mpr h1)).trans R.one.le

private theorem ftt_range (n : Nat) (tt : List ℝ)
    (h : (List.range n).mapM (fun (t : Nat) => Rounded.pdiv R.toRounding (t : ℝ) ((n : ℝ) - 1)) = .ok tt) :
    ∀ x ∈ tt, 0 ≤ x ∧ x ≤ 1 := by
  rw [mapM_eq_ok_iff] at h
  intro x hx
  have hf := h.flip
  have : ∃ t ∈ List.range n, Rounded.pdiv R.toRounding (t : ℝ) ((n : ℝ) - 1) = .ok x := by
    clear h
    generalize List.range n = l at hf ⊢
    induction hf with
    | nil => simp at hx
    | cons hr _ ih =>
      rcases List.mem_cons.mp hx with rfl | hx
      · exact ⟨_, by simp, hr⟩
      · obtain ⟨t, ht, e⟩ := ih hx
        exact ⟨t, by simp [ht], e⟩
  obtain ⟨t, ht, e⟩ := this
  unfold Rounded.pdiv at e
  split_ifs at e with h0
  cases e
  exact sample_param R n t (List.mem_range.mp ht) h0

private theorem frefine_found (hu : R.u ≤ 1 / 1000) {p : Pt ℝ} {ps : Segment ℝ} {lut : List (Pt ℝ)} {i : Int} {q : Pt ℝ} {d : ℝ}
    (h : Rounded.refineBinary R.toRounding H p ps lut i = .ok (q, d)) : FFound R H p ps q d := by
  unfold Rounded.refineBinary at h
  obtain ⟨tt, htt, h⟩ := bind_eq_ok.mp h
  obtain ⟨r, hr, h⟩ := bind_eq_ok.mp h
  cases h
  exact floop_good hu 25 hr ⟨.inl ⟨rfl, rfl⟩, ftt_range _ tt htt⟩

/-- C103: whatever the state of the contour, what comes back is a point computed on one of the curves for a parameter strictly
between 0 and 1, with its distance as computed, or the initial values. -/
theorem C103_result (R : Binary) (hu : R.u ≤ 1 / 1000) (H : Hypot) (p : Pt ℝ) (steps : Int) (c : BContour) (d : ℝ) (q : Pt ℝ)
    (h : (Rounded.findClosestPoint R.toRounding H p steps c).1 = .ok (d, q)) :
    (d = 9007199254740991 ∧ q = (0, 0)) ∨
    ∃ b ∈ c.iter, ∃ t, 0 < t ∧ t < 1 ∧ Rounded.get R.toRounding b.controlPoints t = .ok q ∧
      d = floatDistance R.toRounding H q p ∧ d < 9007199254740991 := by
  have key : ∀ (bs : List Bezier) (lut : List (Pt ℝ)), (do
      let (curve, curve2, i) ← pick bs steps (Rounded.findClosest R.toRounding H p lut)
      Rounded.closestOn R.toRounding H p steps curve curve2 i : Py (ℝ × Pt ℝ)) = .ok (d, q) → (d = 9007199254740991 ∧ q = (0, 0)) ∨
      ∃ b ∈ bs, ∃ t, 0 < t ∧ t < 1 ∧ Rounded.get R.toRounding b.controlPoints t = .ok q ∧
        d = floatDistance R.toRounding H q p ∧ d < 9007199254740991 := by
    intro bs lut h
    obtain ⟨⟨b, b2, i⟩, hp, h⟩ := bind_eq_ok.mp h
    obtain ⟨m1, m2⟩ := pick_mem hp
    simp only at h
    unfold Rounded.closestOn at h
    obtain ⟨l1, _, h⟩ := bind_eq_ok.mp h
    obtain ⟨⟨q1, d1⟩, hq1, h⟩ := bind_eq_ok.mp h
    have f1 := frefine_found hu hq1
    have fin : ∀ (b : Bezier), b ∈ bs → FFound R H p b.controlPoints q d → (d = 9007199254740991 ∧ q = (0, 0)) ∨
        ∃ b ∈ bs, ∃ t, 0 < t ∧ t < 1 ∧ Rounded.get R.toRounding b.controlPoints t = .ok q ∧
          d = floatDistance R.toRounding H q p ∧ d < 9007199254740991 := by
      intro b hb hf
      rcases hf with ⟨h1, h2⟩ | ⟨t, h1, h2, h3, h4, h5⟩
      · exact .inl ⟨h2, h1⟩
      · exact .inr ⟨b, hb, t, h1, h2, h3, h4, h5⟩
    cases b2 with
    | none => cases h; exact fin b m1 f1
    | some b2 =>
      simp only at h
      obtain ⟨l2, _, h⟩ := bind_eq_ok.mp h
      obtain ⟨⟨q2, d2⟩, hq2, h⟩ := bind_eq_ok.mp h
      have f2 := frefine_found hu hq2
      simp only at h
      split_ifs at h with hlt
      · cases h; exact fin b2 (m2 b2 rfl) f2
      · cases h; exact fin b m1 f1
  unfold Rounded.findClosestPoint Rounded.getLUT at h
  split_ifs at h with h1
  · exact key _ _ h
  · cases hl : Rounded.lutLoop R.toRounding steps c.beziers 0 [] with
    | mk e lut =>
      rw [hl] at h
      cases e with
      | error e => cases h
      | ok u => exact key _ _ h

end result

/-! ## How exact the computed distances are -/

section distances

private theorem distance_le {p q : Pt ℝ} {e : ℝ} (he : 0 ≤ e) (h : Close e p q) : distance p q ≤ 3 / 2 * e := by
  unfold distance
  apply Real.sqrt_le_iff.mpr
  refine ⟨by positivity, ?_⟩
  have h1 := sq_le_sq' (abs_le.mp h.1).1 (abs_le.mp h.1).2
  have h2 := sq_le_sq' (abs_le.mp h.2).1 (abs_le.mp h.2).2
  nlinarith

/-- The computed distance from a point near `q` to `p`. -/
private theorem floatDistance_error (R : Rounding) (H : Hypot) (B e : ℝ) (he : 0 ≤ e) (q q' p : Pt ℝ) (hq : Close e q' q)
    (hqB : |q.1| ≤ B ∧ |q.2| ≤ B) (hpB : |p.1| ≤ B ∧ |p.2| ≤ B) (hη : 0 ≤ H.err) :
    |floatDistance R H q' p - distance q p| ≤
      3 / 2 * (e + R.u * (2 * B + e)) * (1 + H.err) + 3 * H.err * B := by
  have hB0 : 0 ≤ B := (abs_nonneg _).trans hqB.1
  have hu0 := R.u_nonneg
  set g := e + R.u * (2 * B + e) with hg
  have hg0 : 0 ≤ g := by positivity
  have diff : ∀ x x' y : ℝ, |x' - x| ≤ e → |x| ≤ B → |y| ≤ B → |R.sub x' y - (x - y)| ≤ g := by
    intro x x' y hx hxB hyB
    have h1 := R.error (x' - y)
    have h2 : |x' - y| ≤ 2 * B + e := by
      have := abs_add_le (x' - x) (x - y)
      have := abs_sub x y
      rw [show x' - y = (x' - x) + (x - y) by ring]
      linarith
    have h3 := mul_le_mul_of_nonneg_left h2 hu0
    have h4 := abs_add_le (R.rnd (x' - y) - (x' - y)) (x' - x)
    rw [show R.rnd (x' - y) - (x' - y) + (x' - x) = R.rnd (x' - y) - (x - y) by ring] at h4
    unfold Rounding.sub
    linarith
  have d1 := diff q.1 q'.1 p.1 hq.1 hqB.1 hpB.1
  have d2 := diff q.2 q'.2 p.2 hq.2 hqB.2 hpB.2
  have hh := H.error (R.sub q'.1 p.1) (R.sub q'.2 p.2)
  unfold floatDistance
  set a := R.sub q'.1 p.1
  set b := R.sub q'.2 p.2
  have e1 : Real.sqrt (a * a + b * b) = distance (a, b) (0, 0) := by unfold distance; congr 1; simp; ring
  have e2 : distance q p = distance (q.1 - p.1, q.2 - p.2) (0, 0) := by unfold distance; simp
  have c1 : distance (a, b) (q.1 - p.1, q.2 - p.2) ≤ 3 / 2 * g := distance_le hg0 ⟨d1, d2⟩
  have c2 : distance (q.1 - p.1, q.2 - p.2) (a, b) ≤ 3 / 2 * g :=
    distance_le hg0 ⟨by rw [abs_sub_comm]; exact d1, by rw [abs_sub_comm]; exact d2⟩
  have t1 := distance_triangle (a, b) (q.1 - p.1, q.2 - p.2) (0, 0)
  have t2 := distance_triangle (q.1 - p.1, q.2 - p.2) (a, b) (0, 0)
  have hd : distance q p ≤ 3 * B := by
    have h := distance_le (p := q) (q := p) (e := 2 * B) (by positivity)
      ⟨(abs_sub _ _).trans (by linarith [hqB.1, hpB.1]), (abs_sub _ _).trans (by linarith [hqB.2, hpB.2])⟩
    linarith
  rw [e1] at hh
  rw [e2] at hd ⊢
  set A := distance (a, b) (0, 0)
  set D := distance (q.1 - p.1, q.2 - p.2) (0, 0)
  have hA : A ≤ 3 * B + 3 / 2 * g := by linarith
  have h5 := mul_le_mul_of_nonneg_left hA hη
  rw [abs_le] at hh ⊢
  constructor <;> nlinarith [hh.1, hh.2]

end distances

section near
variable {R : Binary} {H : Hypot}

/-- The curve can be evaluated, with distances to `p` that are off by at most `ε` and small enough to count. -/
private def Fine (R : Binary) (H : Hypot) (p : Pt ℝ) (ε : ℝ) (ps : Segment ℝ) : Prop :=
  ∀ t, 0 ≤ t → t ≤ 1 → ∃ q, Rounded.get R.toRounding ps t = .ok q ∧
    |floatDistance R.toRounding H q p - distance (curve ps t) p| ≤ ε ∧ floatDistance R.toRounding H q p < maxSafe

private theorem finner_ok {p : Pt ℝ} {ε : ℝ} {ps : Segment ℝ} (hf : Fine R H p ε ps) {t1 step : ℝ} {r : Refine} {j : Nat}
    (h01 : 0 < R.toRounding.add t1 (R.toRounding.mul (j : ℝ) step) ∧ R.toRounding.add t1 (R.toRounding.mul (j : ℝ) step) < 1)
    (hj : 1 ≤ j ∧ j ≤ 3) (hr : r.closest = maxSafe ∨ r.closest < maxSafe ∧ 1 ≤ r.i ∧ r.i ≤ 3) :
    ∃ r', Rounded.refineInner R.toRounding H p ps t1 step r j = .ok r' ∧ r'.closest < maxSafe ∧ 1 ≤ r'.i ∧ r'.i ≤ 3 ∧
      r'.lut.length = r.lut.length + 1 ∧ r'.tt = r.tt ++ [R.toRounding.add t1 (R.toRounding.mul (j : ℝ) step)] ∧
      r'.closest ≤ r.closest ∧
      r'.closest ≤ distance (curve ps (R.toRounding.add t1 (R.toRounding.mul (j : ℝ) step))) p + ε := by
  obtain ⟨q, hq, hd, hm⟩ := hf _ h01.1.le h01.2.le
  unfold Rounded.refineInner
  simp only [hq, ok_bind]
  have hd' := (abs_le.mp hd).2
  unfold floatDistance at hd' hm
  by_cases hlt : H.fn (R.toRounding.sub q.1 p.1) (R.toRounding.sub q.2 p.2) < r.closest
  · simp only [hlt, if_true]
    refine ⟨_, rfl, hm, ?_, ?_, by simp, rfl, hlt.le, by linarith⟩ <;> simp <;> omega
  · simp only [hlt, if_false]
    rcases hr with hr | ⟨h3, h4⟩
    · rw [hr] at hlt; exact absurd hm hlt
    · exact ⟨_, rfl, h3, h4.1, h4.2, by simp, rfl, le_rfl, by linarith [not_lt.mp hlt]⟩

private theorem floop_ok (hu : R.u ≤ 1 / 1000) {p : Pt ℝ} {ε : ℝ} {ps : Segment ℝ} (hf : Fine R H p ε ps)
    (n : Nat) (r : Refine) (hl : r.lut.length = r.tt.length) (htt : ∀ x ∈ r.tt, 0 ≤ x ∧ x ≤ 1)
    (hi : 0 ≤ r.i ∧ r.i < r.tt.length)
    (hr : r.closest = maxSafe ∨ r.closest < maxSafe ∧ 1 ≤ r.i ∧ r.i ≤ 3) :
    ∃ r', Rounded.refineLoop R.toRounding H p ps n r = .ok r' ∧ r'.closest ≤ r.closest ∧
      (n ≠ 0 → ∀ t1 t2, pyGet r.tt (if r.i = 0 then 0 else r.i - 1) = .ok t1 →
        pyGet r.tt (if r.i = r.lut.length - 1 then r.i else r.i + 1) = .ok t2 →
        ¬ R.toRounding.div (R.toRounding.sub t2 t1) 5 < R.rnd (1 / 1000) →
        r'.closest < maxSafe ∧ ∀ j : Nat, 1 ≤ j → j ≤ 3 → r'.closest ≤ distance (curve ps
          (R.toRounding.add t1 (R.toRounding.mul (j : ℝ) (R.toRounding.div (R.toRounding.sub t2 t1) 5)))) p + ε) := by
  induction n generalizing r with
  | zero => exact ⟨r, rfl, le_rfl, by simp⟩
  | succ n ih =>
    obtain ⟨i1, e1⟩ : ∃ i1 : Nat, (if r.i = 0 then 0 else r.i - 1) = (i1 : Int) :=
      ⟨(if r.i = 0 then 0 else r.i - 1).toNat, by split_ifs <;> omega⟩
    obtain ⟨i2, e2⟩ : ∃ i2 : Nat, (if r.i = r.lut.length - 1 then r.i else r.i + 1) = (i2 : Int) :=
      ⟨(if r.i = r.lut.length - 1 then r.i else r.i + 1).toNat, by split_ifs <;> omega⟩
    have hi1 : i1 < r.tt.length := by split_ifs at e1 <;> omega
    have hi2 : i2 < r.tt.length := by split_ifs at e2 <;> omega
    unfold Rounded.refineLoop
    simp only
    rw [e1, e2, pyGet_nat_lt _ _ hi1, pyGet_nat_lt _ _ hi2, pyGet_nat_lt r.lut i1 (by omega), pyGet_nat_lt r.lut i2 (by omega)]
    simp only [ok_bind]
    by_cases hs : R.toRounding.div (R.toRounding.sub r.tt[i2] r.tt[i1]) 5 < R.rnd (1 / 1000)
    · rw [if_pos hs]
      refine ⟨r, rfl, le_rfl, fun _ t1 t2 h1 h2 h => ?_⟩
      cases h1
      cases h2
      exact absurd hs h
    · rw [if_neg hs]
      have b1 := htt _ (List.getElem_mem hi1)
      have b2 := htt _ (List.getElem_mem hi2)
      set t1 := r.tt[i1]
      set t2 := r.tt[i2]
      have pr := fun (j : Nat) (h1 : 1 ≤ j) (h3 : j ≤ 3) => probe_range hu b1.1 b2.2 hs h1 h3
      obtain ⟨ra, ha, a1, a2, a3, a4, a5, a6, a7⟩ := finner_ok hf
        (r := { r with lut := [r.lut[i1]], tt := [t1] }) (pr 1 (by omega) (by omega)) (by omega) hr
      obtain ⟨rb, hb, c1, c2, c3, c4, c5, c6, c7⟩ := finner_ok hf (r := ra) (pr 2 (by omega) (by omega)) (by omega)
        (.inr ⟨a1, a2, a3⟩)
      obtain ⟨rc, hc, d1, d2, d3, d4, d5, d6, d7⟩ := finner_ok hf (r := rb) (pr 3 (by omega) (by omega)) (by omega)
        (.inr ⟨c1, c2, c3⟩)
      have hfold : [1, 2, 3].foldlM (Rounded.refineInner R.toRounding H p ps t1 (R.toRounding.div (R.toRounding.sub t2 t1) 5))
          { r with lut := [r.lut[i1]], tt := [t1] } = .ok rc := by
        simp only [List.foldlM_cons, List.foldlM_nil, ha, hb, hc, ok_bind, pure_eq_ok]
      have hgood : ∀ x ∈ rc.tt, 0 ≤ x ∧ x ≤ 1 := by
        rw [d5, c5, a5]
        intro x hx
        simp only [List.append_assoc, List.cons_append, List.nil_append, List.mem_cons, List.not_mem_nil, or_false] at hx
        rcases hx with rfl | rfl | rfl | rfl
        · exact b1
        · exact ⟨(pr 1 (by omega) (by omega)).1.le, (pr 1 (by omega) (by omega)).2.le⟩
        · exact ⟨(pr 2 (by omega) (by omega)).1.le, (pr 2 (by omega) (by omega)).2.le⟩
        · exact ⟨(pr 3 (by omega) (by omega)).1.le, (pr 3 (by omega) (by omega)).2.le⟩
      have hlen : rc.tt.length = 4 := by rw [d5, c5, a5]; simp
      rw [hfold, ok_bind]
      simp only [List.length_cons, List.length_nil] at a4
      obtain ⟨r', e, h1, _⟩ := ih { rc with lut := rc.lut ++ [r.lut[i2]], tt := rc.tt ++ [t2] }
        (by simp; omega) (by
          intro x hx
          rcases List.mem_append.mp hx with hx | hx
          · exact hgood x hx
          · simp at hx; subst hx; exact b2) (by simp; omega) (.inr ⟨d1, d2, d3⟩)
      simp only at h1 a6
      refine ⟨r', e, by linarith, fun _ s1 s2 e1 e2 _ => ?_⟩
      cases e1
      cases e2
      refine ⟨h1.trans_lt d1, fun j j1 j3 => ?_⟩
      interval_cases j
      · exact h1.trans (d6.trans (c6.trans a7))
      · exact h1.trans (d6.trans c7)
      · exact h1.trans d7

/-- The parameter at which a round looks is near the one without rounding. -/
private theorem probe_error (hu : R.u ≤ 1 / 1000) {t1 t2 τ1 τ2 : ℝ} (h1 : 0 ≤ t1 ∧ t1 ≤ 1) (h2 : 0 ≤ t2 ∧ t2 ≤ 1)
    (e1 : |t1 - τ1| ≤ R.u) (e2 : |t2 - τ2| ≤ R.u) {j : Nat} (hj3 : j ≤ 3) :
    |R.toRounding.add t1 (R.toRounding.mul (j : ℝ) (R.toRounding.div (R.toRounding.sub t2 t1) 5)) -
      (τ1 + (j : ℝ) * ((τ2 - τ1) / 5))| ≤ 6 * R.u := by
  have hu0 := R.u_nonneg
  have hj0 : (0 : ℝ) ≤ j := by positivity
  have hj3' : (j : ℝ) ≤ 3 := by exact_mod_cast hj3
  unfold Rounding.add Rounding.mul Rounding.div Rounding.sub
  have f1 := R.error (t2 - t1)
  have f2 := R.error (R.rnd (t2 - t1) / 5)
  set D := R.rnd (t2 - t1)
  set S := R.rnd (D / 5)
  have f3 := R.error ((j : ℝ) * S)
  set M := R.rnd ((j : ℝ) * S)
  have f4 := R.error (t1 + M)
  have b1 : |t2 - t1| ≤ 1 := by rw [abs_le]; constructor <;> linarith [h1.1, h1.2, h2.1, h2.2]
  have g1 : |D - (t2 - t1)| ≤ R.u := f1.trans (by nlinarith)
  have bD : |D| ≤ 1001 / 1000 := by
    have := abs_add_le (D - (t2 - t1)) (t2 - t1)
    rw [sub_add_cancel] at this
    linarith
  have g2 : |S - D / 5| ≤ R.u * (1001 / 5000) := by
    refine f2.trans (mul_le_mul_of_nonneg_left ?_ hu0)
    rw [abs_div, abs_of_pos (by norm_num : (0:ℝ) < 5)]
    linarith
  have bS : |S| ≤ 202 / 1000 := by
    have := abs_add_le (S - D / 5) (D / 5)
    rw [sub_add_cancel, abs_div, abs_of_pos (by norm_num : (0:ℝ) < 5)] at this
    nlinarith
  have bjS : |(j : ℝ) * S| ≤ 606 / 1000 := by
    rw [abs_mul, abs_of_nonneg hj0]
    have := mul_le_mul hj3' bS (abs_nonneg _) (by norm_num)
    linarith
  have g3 : |M - (j : ℝ) * S| ≤ R.u * (606 / 1000) := f3.trans (mul_le_mul_of_nonneg_left bjS hu0)
  have bM : |M| ≤ 607 / 1000 := by
    have := abs_add_le (M - (j : ℝ) * S) ((j : ℝ) * S)
    rw [sub_add_cancel] at this
    nlinarith
  have bT : |t1 + M| ≤ 1607 / 1000 := by
    have := abs_add_le t1 M
    rw [abs_of_nonneg h1.1] at this
    linarith [h1.2]
  have g4 : |R.rnd (t1 + M) - (t1 + M)| ≤ R.u * (1607 / 1000) := f4.trans (mul_le_mul_of_nonneg_left bT hu0)
  have g5 : |(j : ℝ) * (S - (τ2 - τ1) / 5)| ≤ 3 * (R.u * (1001 / 5000) + 3 * R.u / 5) := by
    rw [abs_mul, abs_of_nonneg hj0]
    refine mul_le_mul hj3' ?_ (abs_nonneg _) (by norm_num)
    rw [abs_le] at g2 g1 e1 e2 ⊢
    constructor <;> linarith [g2.1, g2.2, g1.1, g1.2, e1.1, e1.2, e2.1, e2.2]
  have e : R.rnd (t1 + M) - (τ1 + (j : ℝ) * ((τ2 - τ1) / 5)) =
      (R.rnd (t1 + M) - (t1 + M)) + (t1 - τ1) + (M - (j : ℝ) * S) + (j : ℝ) * (S - (τ2 - τ1) / 5) := by ring
  rw [e]
  have k1 := abs_add_le ((R.rnd (t1 + M) - (t1 + M)) + (t1 - τ1) + (M - (j : ℝ) * S)) ((j : ℝ) * (S - (τ2 - τ1) / 5))
  have k2 := abs_add_le ((R.rnd (t1 + M) - (t1 + M)) + (t1 - τ1)) (M - (j : ℝ) * S)
  have k3 := abs_add_le (R.rnd (t1 + M) - (t1 + M)) (t1 - τ1)
  linarith

/-- The first index at which the computed distance is minimal. -/
private theorem ffind_fold (R : Rounding) (H : Hypot) (p : Pt ℝ) (LUT : List (Pt ℝ)) (k : Nat) (hk : k ≤ LUT.length) :
    let acc := (List.range k).foldl (fun (acc : ℝ × Int) (index : Nat) =>
      let q := LUT.getD index (0, 0)
      let dist := H.fn (R.sub q.1 p.1) (R.sub q.2 p.2)
      if dist < acc.1 then (dist, (index : Int)) else acc) (maxSafe, -1)
    (acc = (maxSafe, -1) ∧ ∀ j (hj : j < LUT.length), j < k → maxSafe ≤ floatDistance R H LUT[j] p) ∨
    ∃ i, ∃ hi : i < LUT.length, i < k ∧ acc = (floatDistance R H LUT[i] p, (i : Int)) ∧ floatDistance R H LUT[i] p < maxSafe ∧
      (∀ j (hj : j < LUT.length), j < k → floatDistance R H LUT[i] p ≤ floatDistance R H LUT[j] p) := by
  induction k with
  | zero => left; simp
  | succ k ih =>
    intro acc
    have hk' : k < LUT.length := by omega
    have hacc : acc = (fun (acc : ℝ × Int) (index : Nat) =>
      let q := LUT.getD index (0, 0)
      let dist := H.fn (R.sub q.1 p.1) (R.sub q.2 p.2)
      if dist < acc.1 then (dist, (index : Int)) else acc) ((List.range k).foldl (fun (acc : ℝ × Int) (index : Nat) =>
      let q := LUT.getD index (0, 0)
      let dist := H.fn (R.sub q.1 p.1) (R.sub q.2 p.2)
      if dist < acc.1 then (dist, (index : Int)) else acc) (maxSafe, -1)) k := by
      simp only [acc, List.range_succ, List.foldl_append, List.foldl_cons, List.foldl_nil]
    have hd : LUT.getD k (0, 0) = LUT[k] := by simp [List.getD, hk']
    have hfd : ∀ q : Pt ℝ, H.fn (R.sub q.1 p.1) (R.sub q.2 p.2) = floatDistance R H q p := fun _ => rfl
    simp only [hd, hfd] at hacc
    simp only [hfd] at ih
    rcases ih (by omega) with ⟨e, h⟩ | ⟨i, hi, hik, e, h0, h1⟩
    · rw [e] at hacc
      by_cases hlt : floatDistance R H LUT[k] p < maxSafe
      · right
        rw [if_pos hlt] at hacc
        refine ⟨k, hk', by omega, hacc, hlt, ?_⟩
        intro j hj hjk
        rcases Nat.lt_succ_iff_lt_or_eq.mp hjk with h' | rfl
        · exact hlt.le.trans (h j hj h')
        · exact le_rfl
      · left
        rw [if_neg hlt] at hacc
        refine ⟨hacc, ?_⟩
        intro j hj hjk
        rcases Nat.lt_succ_iff_lt_or_eq.mp hjk with h' | rfl
        · exact h j hj h'
        · exact not_lt.mp hlt
    · rw [e] at hacc
      right
      by_cases hlt : floatDistance R H LUT[k] p < floatDistance R H LUT[i] p
      · rw [if_pos hlt] at hacc
        refine ⟨k, hk', by omega, hacc, hlt.trans h0, ?_⟩
        intro j hj hjk
        rcases Nat.lt_succ_iff_lt_or_eq.mp hjk with h' | rfl
        · exact hlt.le.trans (h1 j hj h')
        · exact le_rfl
      · rw [if_neg hlt] at hacc
        refine ⟨i, hi, by omega, hacc, h0, ?_⟩
        intro j hj hjk
        rcases Nat.lt_succ_iff_lt_or_eq.mp hjk with h' | rfl
        · exact h1 j hj h'
        · exact not_lt.mp hlt

private theorem ffind (R : Rounding) (H : Hypot) (p : Pt ℝ) (LUT : List (Pt ℝ)) (hn : ∃ q ∈ LUT, floatDistance R H q p < maxSafe) :
    ∃ i, ∃ hi : i < LUT.length, Rounded.findClosest R H p LUT = (i : Int) ∧
      ∀ j (hj : j < LUT.length), floatDistance R H LUT[i] p ≤ floatDistance R H LUT[j] p := by
  rcases ffind_fold R H p LUT LUT.length le_rfl with ⟨_, h⟩ | ⟨i, hi, _, e, _, h1⟩
  · obtain ⟨q, hq, hd⟩ := hn
    obtain ⟨j, hj, rfl⟩ := List.getElem_of_mem hq
    exact absurd (h j hj hj) (not_le.mpr hd)
  · refine ⟨i, hi, ?_, fun j hj => h1 j hj hj⟩
    unfold Rounded.findClosest
    rw [e]

/-- The point of the curve as computed. -/
private noncomputable def fpt (R : Rounding) (s : Segment ℝ) (t : ℝ) : Pt ℝ := (Rounded.get R s t).toOption.getD (0, 0)

private theorem Fine.get {p : Pt ℝ} {ε : ℝ} {s : Segment ℝ} (h : Fine R H p ε s) {t : ℝ} (h0 : 0 ≤ t) (h1 : t ≤ 1) :
    Rounded.get R.toRounding s t = .ok (fpt R.toRounding s t) ∧
      |floatDistance R.toRounding H (fpt R.toRounding s t) p - distance (curve s t) p| ≤ ε ∧
      floatDistance R.toRounding H (fpt R.toRounding s t) p < maxSafe := by
  obtain ⟨q, e, h⟩ := h t h0 h1
  have : fpt R.toRounding s t = q := by unfold fpt; rw [e]; rfl
  rw [this]
  exact ⟨e, h⟩

/-- The parameter of sample `i` as computed. -/
private noncomputable def fparam (R : Rounding) (n i : Nat) : ℝ := R.div (i : ℝ) ((n : ℝ) - 1)

private noncomputable def frow (R : Rounding) (n : Nat) (s : Segment ℝ) : List (Pt ℝ) :=
  (List.range n).map fun (i : Nat) => fpt R s (fparam R n i)

private theorem n_ne {n : Nat} (hn : 2 ≤ n) : (n : ℝ) - 1 ≠ 0 := by
  have : (2 : ℝ) ≤ n := by exact_mod_cast hn
  linarith

private theorem flutOf {p : Pt ℝ} {ε : ℝ} {s : Segment ℝ} (hf : Fine R H p ε s) (n : Nat) (hn : 2 ≤ n) :
    Rounded.lutOf R.toRounding s n = .ok (frow R.toRounding n s) := by
  unfold Rounded.lutOf frow
  simp only
  rw [show ((n : Int) - 1 + 1).toNat = n by omega]
  apply mapM_ok
  intro i hi
  have hi' := List.mem_range.mp hi
  have e : (((n : Int) - 1 : Int) : ℝ) = (n : ℝ) - 1 := by push_cast; rfl
  rw [e, Rounded.pdiv, if_neg (n_ne hn), ok_bind]
  have hr := sample_param R n i hi' (n_ne hn)
  exact (hf.get hr.1 hr.2).1

private theorem flutLoop_tail {p : Pt ℝ} {ε : ℝ} (n : Nat) (hn : 2 ≤ n) (bs : List Bezier)
    (hf : ∀ b ∈ bs, Fine R H p ε b.controlPoints) (acc : List (Pt ℝ)) :
    Rounded.lutLoop R.toRounding n bs 1 acc =
      (.ok (), acc ++ ((bs.map (·.controlPoints)).map fun s => (frow R.toRounding n s).drop 1).flatten) := by
  induction bs generalizing acc with
  | nil => simp [Rounded.lutLoop]
  | cons b bs ih =>
    unfold Rounded.lutLoop
    rw [flutOf (hf b (by simp)) n hn]
    simp only
    rw [ih (fun b hb => hf b (by simp [hb]))]
    simp

private theorem flatten_get' {α : Type} (m : Nat) (L : List (List α)) (h : ∀ x ∈ L, x.length = m) (k j : Nat) (hj : j < m) :
    L.flatten[k * m + j]? = L[k]?.bind (·[j]?) := by
  induction L generalizing k with
  | nil => simp
  | cons x L ih =>
    have hx := h x (by simp)
    cases k with
    | zero => simp [List.getElem?_append_left (show j < x.length by omega)]
    | succ k =>
      rw [List.flatten_cons, List.getElem?_append_right (by rw [hx, Nat.succ_mul]; omega)]
      have : (k + 1) * m + j - x.length = k * m + j := by rw [hx, Nat.succ_mul]; omega
      rw [this, ih (fun x hx => h x (by simp [hx]))]
      rfl

private theorem flut {p : Pt ℝ} {ε : ℝ} (n : Nat) (hn : 2 ≤ n) (bs : List Bezier) (hb : bs ≠ [])
    (hf : ∀ b ∈ bs, Fine R H p ε b.controlPoints) :
    ∃ tbl, Rounded.lutLoop R.toRounding n bs 0 [] = (.ok (), tbl) ∧ tbl.length = bs.length * (n - 1) + 1 ∧
      ∀ k (hk : k < bs.length) j, j ≤ n - 1 → (k = 0 ∨ 1 ≤ j) →
        tbl[k * (n - 1) + j]? = some (fpt R.toRounding bs[k].controlPoints (fparam R.toRounding n j)) := by
  match bs, hb with
  | b :: bs, _ =>
    have hrl : ∀ s, (frow R.toRounding n s).length = n := fun s => by simp [frow]
    refine ⟨frow R.toRounding n b.controlPoints ++
      ((bs.map (·.controlPoints)).map fun s => (frow R.toRounding n s).drop 1).flatten, ?_, ?_, ?_⟩
    · unfold Rounded.lutLoop
      rw [flutOf (hf b (by simp)) n hn]
      simp only
      rw [flutLoop_tail n hn bs (fun b hb => hf b (by simp [hb]))]
      simp
    · simp only [List.length_append, List.length_flatten, List.map_map]
      have : (List.length ∘ (fun s : Segment ℝ => (frow R.toRounding n s).drop 1) ∘ fun b : Bezier => b.controlPoints) =
          fun _ => n - 1 := by
        funext s; simp [frow]
      rw [this]
      simp [hrl, Nat.succ_mul]
      omega
    · intro k hk j hj hkj
      cases k with
      | zero =>
        simp only [Nat.zero_mul, Nat.zero_add, List.getElem_cons_zero]
        rw [List.getElem?_append_left (by rw [hrl]; omega)]
        simp [frow, show j < n by omega]
      | succ k =>
        have hj1 : 1 ≤ j := by omega
        simp only [List.getElem_cons_succ]
        rw [List.getElem?_append_right (by rw [hrl, Nat.succ_mul]; omega)]
        have e : (k + 1) * (n - 1) + j - (frow R.toRounding n b.controlPoints).length = k * (n - 1) + (j - 1) := by
          rw [hrl, Nat.succ_mul]; omega
        rw [e, flatten_get' (n - 1) _ (by simp [frow]) k (j - 1) (by omega)]
        simp only [List.length_cons, Nat.add_lt_add_iff_right] at hk
        rw [List.getElem?_map, List.getElem?_map, List.getElem?_eq_getElem hk]
        simp only [Option.map_some, Option.bind_some, List.getElem?_drop]
        rw [show 1 + (j - 1) = j by omega]
        simp [frow, show j < n by omega]

/-- The first round of the refinement is carried out, from whichever sample it starts. -/
private def Wide (R : Binary) (n : Nat) : Prop := ∀ i1 i2 : Nat, i1 + 1 ≤ i2 → i2 < n → (i1 = 0 ∨ i2 = n - 1 ∨ i1 + 2 ≤ i2) →
  ¬ R.toRounding.div (R.toRounding.sub (fparam R.toRounding n i2) (fparam R.toRounding n i1)) 5 < R.rnd (1 / 1000)

/-- Samples that are at least 1/199 apart. -/
private theorem step_large (hu : R.u ≤ 1 / 10 ^ 6) {n : Nat} (hn : 2 ≤ n) {i1 i2 : Nat} (h12 : i1 ≤ i2)
    (h : n - 1 ≤ 199 * (i2 - i1)) (h2 : i2 < n) :
    ¬ R.toRounding.div (R.toRounding.sub (fparam R.toRounding n i2) (fparam R.toRounding n i1)) 5 < R.rnd (1 / 1000) := by
  have hu0 := R.u_nonneg
  have hR : (0 : ℝ) < (n : ℝ) - 1 := by
    have : (2 : ℝ) ≤ n := by exact_mod_cast hn
    linarith
  have hR2 : (n : ℝ) - 1 ≤ 199 * ((i2 : ℝ) - i1) := by
    have h' : n + 199 * i1 ≤ 199 * i2 + 1 := by omega
    have : (n : ℝ) + 199 * i1 ≤ 199 * i2 + 1 := by exact_mod_cast h'
    linarith
  have r1 := sample_param R n i1 (by omega) (n_ne hn)
  have r2 := sample_param R n i2 (by omega) (n_ne hn)
  have hi : ∀ i : Nat, i < n → |fparam R.toRounding n i - (i : ℝ) / ((n : ℝ) - 1)| ≤ R.u := by
    intro i hi
    refine (R.error ((i : ℝ) / ((n : ℝ) - 1))).trans ?_
    have h1 : (i : ℝ) ≤ n - 1 := by
      have : (i : ℝ) + 1 ≤ n := by exact_mod_cast hi
      linarith
    rw [abs_of_nonneg (by positivity)]
    have := (div_le_one hR).mpr h1
    nlinarith
  have e1 := abs_le.mp (hi i1 (by omega))
  have e2 := abs_le.mp (hi i2 h2)
  have hd : 1 / 199 ≤ (i2 : ℝ) / ((n : ℝ) - 1) - (i1 : ℝ) / ((n : ℝ) - 1) := by
    rw [← sub_div, div_le_div_iff₀ (by norm_num) hR]
    linarith
  have f0 := abs_le.mp (R.error (1 / 1000))
  set x1 := fparam R.toRounding n i1
  set x2 := fparam R.toRounding n i2
  unfold Rounding.div Rounding.sub
  have hx : 1 / 199 - 2 * R.u ≤ x2 - x1 := by linarith [e1.1, e1.2, e2.1, e2.2]
  have hx0 : 0 < x2 - x1 := by linarith
  have f1 := R.error (x2 - x1)
  have f2 := R.error (R.rnd (x2 - x1) / 5)
  rw [abs_of_pos hx0] at f1
  have f1' := abs_le.mp f1
  set D := R.rnd (x2 - x1)
  have hD : (1 / 199 - 2 * R.u) * (1 - 1 / 10 ^ 6) ≤ D := by nlinarith [f1'.1]
  have hD0 : 0 < D := by nlinarith
  rw [abs_of_pos (by linarith : 0 < D / 5)] at f2
  have f2' := abs_le.mp f2
  rw [abs_of_pos (by norm_num : (0:ℝ) < 1 / 1000)] at f0
  rw [not_lt]
  nlinarith [f0.2, f2'.1]

private theorem fparam_error {n i : Nat} (hn : 2 ≤ n) (hi : i < n) :
    |fparam R.toRounding n i - (i : ℝ) / ((n : ℝ) - 1)| ≤ R.u := by
  have hR : (0 : ℝ) < (n : ℝ) - 1 := by
    have : (2 : ℝ) ≤ n := by exact_mod_cast hn
    linarith
  refine (R.error ((i : ℝ) / ((n : ℝ) - 1))).trans ?_
  have h1 : (i : ℝ) ≤ n - 1 := by
    have : (i : ℝ) + 1 ≤ n := by exact_mod_cast hi
    linarith
  rw [abs_of_nonneg (by positivity)]
  have := (div_le_one hR).mpr h1
  have := R.u_nonneg
  nlinarith

/-- One of the three points which the first round of the refinement looks at is near the sample it starts from. -/
private theorem frefine_near (hu : R.u ≤ 1 / 10 ^ 6) {p : Pt ℝ} {ε : ℝ} {ps : Segment ℝ} (hf : Fine R H p ε ps)
    (lut : List (Pt ℝ)) (hn : 2 ≤ lut.length) (hw : Wide R lut.length) (i : Int) (hi : 0 ≤ i ∧ i < lut.length) :
    ∃ q d, Rounded.refineBinary R.toRounding H p ps lut i = .ok (q, d) ∧ d < maxSafe ∧
      ∀ J : Nat, (i = J ∨ (i + 1 = J ∧ J < lut.length)) →
      ∃ x, 0 ≤ x ∧ x ≤ 1 ∧ d ≤ distance (curve ps x) p + ε ∧
        |x - (J : ℝ) / ((lut.length : ℝ) - 1)| ≤ 4 / 5 / ((lut.length : ℝ) - 1) + 6 * R.u := by
  have hu3 : R.u ≤ 1 / 1000 := hu.trans (by norm_num)
  have htt : (List.range lut.length).mapM (fun (t : Nat) => Rounded.pdiv R.toRounding (t : ℝ) ((lut.length : ℝ) - 1)) =
      .ok ((List.range lut.length).map fun (t : Nat) => fparam R.toRounding lut.length t) := by
    apply mapM_ok
    intro t _
    rw [Rounded.pdiv, if_neg (n_ne hn)]
    rfl
  have hget : ∀ k < lut.length, pyGet ((List.range lut.length).map fun (t : Nat) => fparam R.toRounding lut.length t) (k : Int) =
      .ok (fparam R.toRounding lut.length k) := by
    intro k hk
    rw [pyGet_nat_lt _ _ (by simpa using hk)]
    simp
  obtain ⟨r, e, _, h⟩ := floop_ok hu3 hf 25
    { i := i, lut := lut, tt := (List.range lut.length).map fun (t : Nat) => fparam R.toRounding lut.length t,
      q := (0, 0), closest := maxSafe } (by simp) (ftt_range _ _ htt) (by simpa using hi) (.inl rfl)
  unfold Rounded.refineBinary
  rw [htt, ok_bind, e]
  refine ⟨r.q, r.closest, rfl, ?_⟩
  simp only at h
  have hR : (0 : ℝ) < (lut.length : ℝ) - 1 := by
    have : (2 : ℝ) ≤ lut.length := by exact_mod_cast hn
    linarith
  obtain ⟨k, rfl⟩ : ∃ k : Nat, i = k := ⟨i.toNat, by omega⟩
  -- the points of the first round
  have h' : r.closest < maxSafe ∧ ∀ j : Nat, 1 ≤ j → j ≤ 3 → ∀ i1 i2 : Nat, (i1 : Int) = (if (k : Int) = 0 then 0 else (k : Int) - 1) →
      (i2 : Int) = (if (k : Int) = lut.length - 1 then (k : Int) else (k : Int) + 1) →
      ∃ x, 0 ≤ x ∧ x ≤ 1 ∧ r.closest ≤ distance (curve ps x) p + ε ∧
        |x - (i1 + (j : ℝ) * ((i2 - i1) / 5)) / ((lut.length : ℝ) - 1)| ≤ 6 * R.u := by
    have key : ∀ i1 i2 : Nat, (i1 : Int) = (if (k : Int) = 0 then 0 else (k : Int) - 1) →
        (i2 : Int) = (if (k : Int) = lut.length - 1 then (k : Int) else (k : Int) + 1) →
        r.closest < maxSafe ∧ ∀ j : Nat, 1 ≤ j → j ≤ 3 →
        ∃ x, 0 ≤ x ∧ x ≤ 1 ∧ r.closest ≤ distance (curve ps x) p + ε ∧
        |x - (i1 + (j : ℝ) * ((i2 - i1) / 5)) / ((lut.length : ℝ) - 1)| ≤ 6 * R.u := by
      intro i1 i2 e1 e2
      have b1 : i1 < lut.length := by split_ifs at e1 <;> omega
      have b2 : i2 < lut.length := by split_ifs at e2 <;> omega
      have b3 : i1 + 1 ≤ i2 := by split_ifs at e1 e2 <;> omega
      rw [← e1, ← e2] at h
      have hs := hw i1 i2 b3 b2 (by split_ifs at e1 e2 <;> omega)
      obtain ⟨g1, g2⟩ := h (by norm_num) _ _ (hget _ b1) (hget _ b2) hs
      have r1 := sample_param R _ i1 b1 (n_ne hn)
      have r2 := sample_param R _ i2 b2 (n_ne hn)
      refine ⟨g1, fun j j1 j3 => ?_⟩
      have pr := probe_range hu3 r1.1 r2.2 hs j1 j3
      refine ⟨_, pr.1.le, pr.2.le, g2 j j1 j3, ?_⟩
      have pe := probe_error hu3 r1 r2 (fparam_error hn b1) (fparam_error hn b2) j3
      convert pe using 3
      field_simp
    refine ⟨(key (if (k : Int) = 0 then 0 else (k : Int) - 1).toNat
      (if (k : Int) = lut.length - 1 then (k : Int) else (k : Int) + 1).toNat
      (by split_ifs <;> omega) (by split_ifs <;> omega)).1, fun j j1 j3 i1 i2 e1 e2 => (key i1 i2 e1 e2).2 j j1 j3⟩
  refine ⟨h'.1, ?_⟩
  have h' := h'.2
  intro J hJ
  have key : ∀ a : ℝ, (∃ x, 0 ≤ x ∧ x ≤ 1 ∧ r.closest ≤ distance (curve ps x) p + ε ∧
        |x - a / ((lut.length : ℝ) - 1)| ≤ 6 * R.u) → |a - J| ≤ 4 / 5 →
      ∃ x, 0 ≤ x ∧ x ≤ 1 ∧ r.closest ≤ distance (curve ps x) p + ε ∧
      |x - (J : ℝ) / ((lut.length : ℝ) - 1)| ≤ 4 / 5 / ((lut.length : ℝ) - 1) + 6 * R.u := by
    rintro a ⟨x, h0, h1, hd, hx⟩ ha
    refine ⟨x, h0, h1, hd, ?_⟩
    have h2 : |a / ((lut.length : ℝ) - 1) - (J : ℝ) / ((lut.length : ℝ) - 1)| ≤ 4 / 5 / ((lut.length : ℝ) - 1) := by
      rw [← sub_div, abs_div, abs_of_pos hR]
      exact div_le_div_of_nonneg_right ha hR.le
    have := abs_add_le (x - a / ((lut.length : ℝ) - 1)) (a / ((lut.length : ℝ) - 1) - (J : ℝ) / ((lut.length : ℝ) - 1))
    rw [sub_add_sub_cancel] at this
    linarith
  by_cases h0 : k = 0
  · subst h0
    rcases hJ with hJ | ⟨hJ, _⟩
    · refine key _ (h' 1 (by omega) (by omega) 0 1 (by simp) (by rw [if_neg (by push_cast; omega)]; norm_num)) ?_
      rw [show J = 0 by omega]; norm_num
    · refine key _ (h' 3 (by omega) (by omega) 0 1 (by simp) (by rw [if_neg (by push_cast; omega)]; norm_num)) ?_
      rw [show J = 1 by omega]; norm_num
  · have hc : ((k - 1 : Nat) : ℝ) = k - 1 := by rw [Nat.cast_sub (by omega)]; simp
    have e1 : ((k - 1 : Nat) : Int) = (if (k : Int) = 0 then 0 else (k : Int) - 1) := by rw [if_neg (by omega)]; omega
    by_cases hl : (k : Int) = lut.length - 1
    · have e2 : (k : Int) = (if (k : Int) = lut.length - 1 then (k : Int) else (k : Int) + 1) := by rw [if_pos hl]
      refine key _ (h' 3 (by omega) (by omega) (k - 1) k e1 e2) ?_
      rw [hc, show J = k by omega, abs_le]; push_cast; constructor <;> linarith
    · have e2 : ((k + 1 : Nat) : Int) = (if (k : Int) = lut.length - 1 then (k : Int) else (k : Int) + 1) := by
        rw [if_neg hl]; push_cast; rfl
      rcases hJ with hJ | ⟨hJ, _⟩
      · refine key _ (h' 2 (by omega) (by omega) (k - 1) (k + 1) e1 e2) ?_
        rw [hc, show J = k by omega, abs_le]; push_cast; constructor <;> linarith
      · refine key _ (h' 3 (by omega) (by omega) (k - 1) (k + 1) e1 e2) ?_
        rw [hc, show J = k + 1 by omega, abs_le]; push_cast; constructor <;> linarith

private theorem wide_200 (hu : R.u ≤ 1 / 10 ^ 6) {n : Nat} (hn : 2 ≤ n) (h200 : n ≤ 200) : Wide R n :=
  fun _ _ h h2 _ => step_large hu hn (by omega) (by omega) h2

private theorem float_u : (binary 52).u ≤ 1 / 10 ^ 6 := by
  show (2:ℝ) ^ (-((52 + 1 : ℕ) : ℤ)) ≤ 1 / 10 ^ 6
  norm_num

/-- With 201 samples the step at the ends is 0.001 up to rounding. It is not below the `float` nearest to 0.001. -/
private theorem wide_201 : Wide (binary 52) 201 := by
  intro i1 i2 h h2 hc
  have first : ¬ (binary 52).toRounding.div ((binary 52).toRounding.sub (fparam (binary 52).toRounding 201 1)
      (fparam (binary 52).toRounding 201 0)) 5 < (binary 52).rnd (1 / 1000) := by
    have e1 : fparam (binary 52).toRounding 201 1 = ((fl (1 / 200) : ℚ) : ℝ) := by
      rw [← float_rnd]; unfold fparam Rounding.div; norm_num
    have e0 : fparam (binary 52).toRounding 201 0 = ((0 : ℚ) : ℝ) := by
      unfold fparam Rounding.div; simp [Rounding.rnd_zero]
    rw [e1, e0, float_sub, show (5 : ℝ) = ((5 : ℚ) : ℝ) by norm_num, float_div, show (1 / 1000 : ℝ) = ((1 / 1000 : ℚ) : ℝ) by norm_num,
      float_rnd, Rat.cast_lt]
    decide +kernel
  have last : ¬ (binary 52).toRounding.div ((binary 52).toRounding.sub (fparam (binary 52).toRounding 201 200)
      (fparam (binary 52).toRounding 201 199)) 5 < (binary 52).rnd (1 / 1000) := by
    have e1 : fparam (binary 52).toRounding 201 200 = ((fl 1 : ℚ) : ℝ) := by
      rw [← float_rnd]; unfold fparam Rounding.div; norm_num
    have e0 : fparam (binary 52).toRounding 201 199 = ((fl (199 / 200) : ℚ) : ℝ) := by
      rw [← float_rnd]; unfold fparam Rounding.div; norm_num
    rw [e1, e0, float_sub, show (5 : ℝ) = ((5 : ℚ) : ℝ) by norm_num, float_div, show (1 / 1000 : ℝ) = ((1 / 1000 : ℚ) : ℝ) by norm_num,
      float_rnd, Rat.cast_lt]
    decide +kernel
  by_cases hw : i1 + 2 ≤ i2
  · exact step_large float_u (by norm_num) (by omega) (by omega) h2
  · rcases (by omega : (i1 = 0 ∧ i2 = 1) ∨ (i1 = 199 ∧ i2 = 200)) with ⟨rfl, rfl⟩ | ⟨rfl, rfl⟩
    · exact first
    · exact last

private theorem fnear_core (hu : R.u ≤ 1 / 10 ^ 6) (c : Contour ℝ) (bc : BContour) (h : BContour.new c = .ok bc) (p : Pt ℝ) (ε : ℝ)
    (hf : ∀ s ∈ c, Fine R H p ε s) (n : Nat) (hn : 2 ≤ n) (hw : Wide R n) (L : ℝ) (hL : ∀ s ∈ c, SpeedAtMost s L) :
    ∃ d q, (Rounded.findClosestPoint R.toRounding H p n bc).1 = .ok (d, q) ∧ d < maxSafe ∧
      ∀ m (hm : m < c.length) J, J ≤ n - 1 → (m = 0 ∨ 1 ≤ J) →
        d ≤ distance (curve c[m] ((J : ℝ) / ((n : ℝ) - 1))) p + 4 / 5 * (L / ((n : ℝ) - 1)) + (3 * ε + 8 * R.u * L) := by
  obtain ⟨hc, h2⟩ := (C52_new c).mp ⟨bc, h⟩
  have hpts : bc.beziers.map (·.controlPoints) = c := (C52_history c bc h []).1
  have hmem : ∀ b ∈ bc.beziers, b.controlPoints ∈ c := fun b hb => by rw [← hpts]; exact List.mem_map_of_mem hb
  have hlen : bc.beziers.length = c.length := by rw [← hpts]; simp
  have hbne : bc.beziers ≠ [] := by intro e; rw [e] at hpts; exact hc hpts.symm
  have hu0 := R.u_nonneg
  have hcb : ∀ m (hm : m < c.length), c[m] = (bc.beziers[m]'(by omega)).controlPoints := by
    intro m hm
    have e : c[m]? = (bc.beziers.map (·.controlPoints))[m]? := by rw [hpts]
    rw [List.getElem?_eq_getElem hm, List.getElem?_map, List.getElem?_eq_getElem (show m < bc.beziers.length by omega)] at e
    exact Option.some.inj e
  obtain ⟨tbl, htbl, hl, hs⟩ := flut n hn bc.beziers hbne (fun b hb => hf _ (hmem b hb))
  have hlut0 : bc.lut = [] := by
    unfold BContour.new at h
    obtain ⟨_, _, h⟩ := bind_eq_ok.mp h
    obtain ⟨_, _, h⟩ := bind_eq_ok.mp h
    obtain ⟨_, _, h⟩ := bind_eq_ok.mp h
    obtain ⟨_, _, h⟩ := bind_eq_ok.mp h
    obtain ⟨_, _, h⟩ := bind_eq_ok.mp h
    cases h
    rfl
  have hget : Rounded.getLUT R.toRounding n bc = (.ok tbl, { bc with lut := tbl }) := by
    unfold Rounded.getLUT
    rw [hlut0, if_neg (by simp; omega), htbl]
  have hpar : ∀ J, J ≤ n - 1 → 0 ≤ fparam R.toRounding n J ∧ fparam R.toRounding n J ≤ 1 :=
    fun J hJ => sample_param R n J (by omega) (n_ne hn)
  have hlen0 : 0 < bc.beziers.length := List.length_pos_iff.mpr hbne
  obtain ⟨k, hk, ek, hmin⟩ := ffind R.toRounding H p tbl
    ⟨_, List.mem_of_getElem? (hs 0 hlen0 0 (by omega) (.inl rfl)),
      ((hf _ (hmem _ (List.getElem_mem hlen0))).get (hpar 0 (by omega)).1 (hpar 0 (by omega)).2).2.2⟩
  obtain ⟨b, b2, i, hp, hi0, hi1, m, hm, hb, hidx⟩ := pick_ok bc.beziers hbne n hn k (by rw [← hl]; exact hk)
  obtain ⟨m1, m2⟩ := pick_mem hp
  have hR : (0 : ℝ) < (n : ℝ) - 1 := by
    have : (2 : ℝ) ≤ n := by exact_mod_cast hn
    linarith
  have hRc : ((n - 1 : Nat) : ℝ) = (n : ℝ) - 1 := by rw [Nat.cast_sub (by omega)]; simp
  -- the sample
  obtain ⟨J, hJ, hJn, hq⟩ : ∃ J : Nat, (i = J ∨ (i + 1 = J ∧ J < n)) ∧ J ≤ n - 1 ∧
      tbl[k] = fpt R.toRounding b.controlPoints (fparam R.toRounding n J) := by
    rcases hidx with ⟨rfl, rfl⟩ | ⟨h1, h3, h4⟩
    · have e := hs 0 hlen0 k (by omega) (.inl rfl)
      refine ⟨k, .inl rfl, by omega, ?_⟩
      rw [Nat.zero_mul, Nat.zero_add, List.getElem?_eq_getElem hk] at e
      rw [hb]
      exact Option.some.inj e
    · obtain ⟨j, rfl⟩ : ∃ j : Nat, i = j := ⟨i.toNat, by omega⟩
      have e := hs m hm (j + 1) (by omega) (.inr (by omega))
      refine ⟨j + 1, .inr ⟨by push_cast; rfl, by omega⟩, by omega, ?_⟩
      have hkk : m * (n - 1) + (j + 1) = k := by
        have : (k : Int) = ((m * (n - 1) + (j + 1) : Nat) : Int) := by push_cast; linarith
        omega
      simp only [hkk] at e
      rw [List.getElem?_eq_getElem hk] at e
      rw [hb]
      exact Option.some.inj e
  have hexact : ∀ J : Nat, J ≤ n - 1 → 0 ≤ (J : ℝ) / ((n : ℝ) - 1) ∧ (J : ℝ) / ((n : ℝ) - 1) ≤ 1 := by
    intro J hJ
    have hJR : (J : ℝ) ≤ (n : ℝ) - 1 := by rw [← hRc]; exact_mod_cast hJ
    exact ⟨by positivity, (div_le_one hR).mpr hJR⟩
  have hL0 : 0 ≤ L := by
    have hl2 := h2 _ (hmem b m1)
    refine le_trans ?_ (hL _ (hmem b m1) 0 (by omega))
    have : (2 : ℝ) ≤ (b.controlPoints.length : ℝ) := by exact_mod_cast hl2
    exact mul_nonneg (by linarith) (by unfold distance; positivity)
  -- moving the parameter of a sample
  have move : ∀ s ∈ c, ∀ x y : ℝ, 0 ≤ x ∧ x ≤ 1 → 0 ≤ y ∧ y ≤ 1 → ∀ δ, |x - y| ≤ δ →
      distance (curve s x) p ≤ distance (curve s y) p + L * δ := by
    intro s hs x y hx hy δ hδ
    have a := curve_lipschitz (h2 s hs) (hL s hs) hx.1 hx.2 hy.1 hy.2
    have b := distance_triangle (curve s x) (curve s y) p
    have d := mul_le_mul_of_nonneg_left hδ hL0
    linarith
  have fin : ∀ d : ℝ, (∃ x, 0 ≤ x ∧ x ≤ 1 ∧ d ≤ distance (curve b.controlPoints x) p + ε ∧
      |x - (J : ℝ) / ((n : ℝ) - 1)| ≤ 4 / 5 / ((n : ℝ) - 1) + 6 * R.u) →
      ∀ d' ≤ d, ∀ m (hm : m < c.length) J, J ≤ n - 1 → (m = 0 ∨ 1 ≤ J) →
        d' ≤ distance (curve c[m] ((J : ℝ) / ((n : ℝ) - 1))) p + 4 / 5 * (L / ((n : ℝ) - 1)) + (3 * ε + 8 * R.u * L) := by
    rintro d ⟨x, hx0, hx1, hd, hx⟩ d' hd' m' hm' J' hJ' hmJ
    have s1 := move _ (hmem b m1) x _ ⟨hx0, hx1⟩ (hexact J hJn) _ hx
    have s2 := move _ (hmem b m1) _ _ (hexact J hJn) (hpar J hJn) R.u
      (by rw [abs_sub_comm]; exact fparam_error hn (by omega))
    have s3 := ((hf _ (hmem b m1)).get (hpar J hJn).1 (hpar J hJn).2).2.1
    have e := hs m' (by omega) J' hJ' hmJ
    rw [← hcb m' hm'] at e
    obtain ⟨k', hk', ek'⟩ := List.getElem_of_mem (List.mem_of_getElem? e)
    have s4 := hmin k' hk'
    rw [hq, ek'] at s4
    have s5 := ((hf _ (List.getElem_mem hm')).get (hpar J' hJ').1 (hpar J' hJ').2).2.1
    have s6 := move _ (List.getElem_mem hm') _ _ (hpar J' hJ') (hexact J' hJ') _ (fparam_error hn (by omega))
    rw [abs_le] at s3 s5
    have e2 : L * (4 / 5 / ((n : ℝ) - 1) + 6 * R.u) = 4 / 5 * (L / ((n : ℝ) - 1)) + 6 * R.u * L := by ring
    linarith [s3.1, s3.2, s5.1, s5.2]
  have hrow : ∀ s, (frow R.toRounding n s).length = n := fun s => by simp [frow]
  obtain ⟨q, d, er, hd, hx⟩ := frefine_near hu (hf _ (hmem b m1)) (frow R.toRounding n b.controlPoints) (by rw [hrow]; exact hn)
    (by rw [hrow]; exact hw) i ⟨hi0, by rw [hrow]; exact hi1⟩
  have hx := hx J (by rw [hrow]; exact hJ)
  rw [hrow] at hx
  have hres : ∃ d' q', (Rounded.findClosestPoint R.toRounding H p n bc).1 = .ok (d', q') ∧ d' ≤ d := by
    unfold Rounded.findClosestPoint
    rw [hget]
    simp only
    rw [ek, hp, ok_bind]
    simp only
    unfold Rounded.closestOn
    rw [flutOf (hf _ (hmem b m1)) n hn, ok_bind, er, ok_bind]
    cases b2 with
    | none => exact ⟨d, q, rfl, le_rfl⟩
    | some b2 =>
      have hm2 := hmem b2 (m2 b2 rfl)
      obtain ⟨q', d', er', _⟩ := frefine_near hu (hf _ hm2) (frow R.toRounding n b2.controlPoints) (by rw [hrow]; exact hn)
        (by rw [hrow]; exact hw) 0 ⟨le_rfl, by rw [hrow]; omega⟩
      simp only
      rw [flutOf (hf _ hm2) n hn, ok_bind, er', ok_bind]
      simp only
      split_ifs with hlt
      · exact ⟨d', q', rfl, hlt.le⟩
      · exact ⟨d, q, rfl, le_rfl⟩
  obtain ⟨d', q', hr, hd'⟩ := hres
  exact ⟨d', q', hr, hd'.trans_lt hd, fin d hx d' hd'⟩

end near

/-! ## Python's `float` -/

section float

private theorem err_nonneg (H : Hypot) : 0 ≤ H.err := by
  have := H.error 1 0
  have h2 : (0:ℝ) ≤ H.err * Real.sqrt (1 * 1 + 0 * 0) := (abs_nonneg _).trans this
  simpa using h2

/-- The points of the curve and their distances, as computed. -/
private theorem float_point (H : Hypot) (hH : H.err ≤ 1 / 2 ^ 52) (s : Segment ℝ) (h2 : 2 ≤ s.length) (h4 : s.length ≤ 4) (B : ℝ)
    (hB : ∀ p ∈ s, |p.1| ≤ B ∧ |p.2| ≤ B) (p : Pt ℝ) (hp : |p.1| ≤ B ∧ |p.2| ≤ B) (t : ℝ) (h0 : 0 ≤ t) (h1 : t ≤ 1) :
    ∃ q, Rounded.get (binary 52).toRounding s t = .ok q ∧ Close (B / 10 ^ 15) q (curve s t) ∧
      |floatDistance (binary 52).toRounding H q p - distance (curve s t) p| ≤ 3 * B / 10 ^ 15 ∧ distance (curve s t) p ≤ 3 * B := by
  have hne : s ≠ [] := by intro e; rw [e] at h2; simp at h2
  obtain ⟨q, q', e1, e2, hc⟩ := C82_float s h2 h4 B hB t h0 h1
  rw [get_ok s hne] at e2
  cases e2
  have hB0 : 0 ≤ B := (abs_nonneg _).trans hp.1
  obtain ⟨q'', e3, hbox⟩ := C35_box s hne (-B) (-B) B B (fun p hp => by
    have := hB p hp
    exact ⟨abs_le.mp this.1, abs_le.mp this.2⟩) t h0 h1
  rw [get_ok s hne] at e3
  cases e3
  have hqB : |(curve s t).1| ≤ B ∧ |(curve s t).2| ≤ B := ⟨abs_le.mpr hbox.1, abs_le.mpr hbox.2⟩
  refine ⟨q, e1, hc, ?_, ?_⟩
  · refine (floatDistance_error _ H B (B / 10 ^ 15) (by positivity) _ q p hc hqB hp (err_nonneg H)).trans ?_
    have hu : (binary 52).u = 1 / 2 ^ 53 := by
      show (2:ℝ) ^ (-((52 + 1 : ℕ) : ℤ)) = 1 / 2 ^ 53
      norm_num
    rw [hu]
    have hη := err_nonneg H
    have a : (B / 10 ^ 15 + 1 / 2 ^ 53 * (2 * B + B / 10 ^ 15)) ≤ 13 / 10 * (B / 10 ^ 15) := by
      have : (1 : ℝ) / 2 ^ 53 * 10 ^ 15 * (2 + 1 / 10 ^ 15) ≤ 3 / 10 := by norm_num
      have := mul_le_mul_of_nonneg_right this (by positivity : 0 ≤ B / 10 ^ 15)
      have e : (1 : ℝ) / 2 ^ 53 * 10 ^ 15 * (2 + 1 / 10 ^ 15) * (B / 10 ^ 15) = 1 / 2 ^ 53 * (2 * B + B / 10 ^ 15) := by ring
      linarith
    have b : 3 / 2 * (B / 10 ^ 15 + 1 / 2 ^ 53 * (2 * B + B / 10 ^ 15)) * (1 + H.err) ≤ 3 / 2 * (13 / 10 * (B / 10 ^ 15)) * (1 + 1 / 2 ^ 52) :=
      mul_le_mul (by linarith) (by linarith) (by linarith) (by positivity)
    have c : 3 * H.err * B ≤ 3 * (1 / 2 ^ 52) * B := by
      have := mul_le_mul_of_nonneg_right hH hB0
      linarith
    have d : 3 / 2 * (13 / 10 * (B / 10 ^ 15)) * (1 + 1 / 2 ^ 52) + 3 * (1 / 2 ^ 52) * B ≤ 3 * B / 10 ^ 15 := by
      have : (3:ℝ) / 2 * (13 / 10 * (1 / 10 ^ 15)) * (1 + 1 / 2 ^ 52) + 3 * (1 / 2 ^ 52) ≤ 3 / 10 ^ 15 := by norm_num
      have := mul_le_mul_of_nonneg_right this hB0
      have e : ((3:ℝ) / 2 * (13 / 10 * (1 / 10 ^ 15)) * (1 + 1 / 2 ^ 52) + 3 * (1 / 2 ^ 52)) * B =
        3 / 2 * (13 / 10 * (B / 10 ^ 15)) * (1 + 1 / 2 ^ 52) + 3 * (1 / 2 ^ 52) * B := by ring
      have e' : (3:ℝ) / 10 ^ 15 * B = 3 * B / 10 ^ 15 := by ring
      linarith
    linarith
  · have h := distance_le (p := curve s t) (q := p) (e := 2 * B) (by positivity)
      ⟨(abs_sub _ _).trans (by linarith [hqB.1, hp.1]), (abs_sub _ _).trans (by linarith [hqB.2, hp.2])⟩
    linarith

private theorem float_fine (H : Hypot) (hH : H.err ≤ 1 / 2 ^ 52) (s : Segment ℝ) (h2 : 2 ≤ s.length) (h4 : s.length ≤ 4) (B : ℝ)
    (hB51 : B ≤ 2 ^ 51) (hB : ∀ p ∈ s, |p.1| ≤ B ∧ |p.2| ≤ B) (p : Pt ℝ) (hp : |p.1| ≤ B ∧ |p.2| ≤ B) :
    Fine (binary 52) H p (3 * B / 10 ^ 15) s := by
  intro t h0 h1
  obtain ⟨q, e, _, h3, h5⟩ := float_point H hH s h2 h4 B hB p hp t h0 h1
  refine ⟨q, e, h3, ?_⟩
  have := (abs_le.mp h3).2
  have e : 3 * B / 10 ^ 15 = 3 / 10 ^ 15 * B := by ring
  unfold maxSafe
  rw [e] at this
  have : (3:ℝ) + 3 / 10 ^ 15 ≤ 31 / 10 := by norm_num
  have hB0 : 0 ≤ B := (abs_nonneg _).trans hp.1
  have := mul_le_mul_of_nonneg_right this hB0
  norm_num at *
  linarith

private theorem float_wide {n : Nat} (hn : 2 ≤ n) (h201 : n ≤ 201) : Wide (binary 52) n := by
  by_cases h : n = 201
  · subst h; exact wide_201
  · exact wide_200 float_u hn (by omega)

private theorem float_search (c : Contour ℝ) (bc : BContour) (h : BContour.new c = .ok bc) (h4 : ∀ s ∈ c, s.length ≤ 4)
    (B : ℝ) (hB51 : B ≤ 2 ^ 51) (hB : ∀ s ∈ c, ∀ p ∈ s, |p.1| ≤ B ∧ |p.2| ≤ B) (p : Pt ℝ) (hp : |p.1| ≤ B ∧ |p.2| ≤ B)
    (H : Hypot) (hH : H.err ≤ 1 / 2 ^ 52) (n : Nat) (hn : 2 ≤ n) (h201 : n ≤ 201) (L : ℝ) (hL : ∀ s ∈ c, SpeedAtMost s L) :
    ∃ d q, (Rounded.findClosestPoint (binary 52).toRounding H p n bc).1 = .ok (d, q) ∧
      (∃ s ∈ c, ∃ t, 0 < t ∧ t < 1 ∧ ∃ q', Bezier.get s t = .ok q' ∧ Close (B / 10 ^ 15) q q' ∧
        |d - distance q' p| ≤ 3 * B / 10 ^ 15) ∧
      ∀ m (hm : m < c.length) J, J ≤ n - 1 → (m = 0 ∨ 1 ≤ J) →
        d ≤ distance (curve c[m] ((J : ℝ) / ((n : ℝ) - 1))) p + 4 / 5 * (L / ((n : ℝ) - 1)) + (9 * B + L) / 10 ^ 15 := by
  obtain ⟨hc, h2⟩ := (C52_new c).mp ⟨bc, h⟩
  have hpts : bc.beziers.map (·.controlPoints) = c := (C52_history c bc h []).1
  have hmem : ∀ b ∈ bc.beziers, b.controlPoints ∈ c := fun b hb => by rw [← hpts]; exact List.mem_map_of_mem hb
  obtain ⟨d, q, e, hd, hs⟩ := fnear_core (R := binary 52) (H := H) float_u c bc h p (3 * B / 10 ^ 15)
    (fun s hs => float_fine H hH s (h2 s hs) (h4 s hs) B hB51 (hB s hs) p hp) n hn (float_wide hn h201) L hL
  refine ⟨d, q, e, ?_, ?_⟩
  · rcases C103_result (binary 52) (float_u.trans (by norm_num)) H p n bc d q e with ⟨h', _⟩ | ⟨b, hb, t, h0, h1, hq, hd', _⟩
    · rw [h'] at hd; exact absurd hd (lt_irrefl _)
    · have hs := hmem b hb
      obtain ⟨q', e', g1, g2, _⟩ := float_point H hH _ (h2 _ hs) (h4 _ hs) B (hB _ hs) p hp t h0.le h1.le
      rw [hq] at e'
      cases e'
      have hne : b.controlPoints ≠ [] := by intro e; have := h2 _ hs; rw [e] at this; simp at this
      exact ⟨_, hs, t, h0, h1, _, get_ok _ hne t, g1, by rw [hd']; exact g2⟩
  · intro m hm J hJ hmJ
    have a := hs m hm J hJ hmJ
    have hL0 : 0 ≤ L := by
      have hl2 := h2 _ (List.getElem_mem hm)
      refine le_trans ?_ (hL _ (List.getElem_mem hm) 0 (by omega))
      have : (2 : ℝ) ≤ (c[m].length : ℝ) := by exact_mod_cast hl2
      exact mul_nonneg (by linarith) (by unfold distance; positivity)
    have hu : 8 * (binary 52).u ≤ 1 / 10 ^ 15 := by
      show 8 * (2:ℝ) ^ (-((52 + 1 : ℕ) : ℤ)) ≤ 1 / 10 ^ 15
      norm_num
    have b := mul_le_mul_of_nonneg_right hu hL0
    have e1 : (9 * B + L) / 10 ^ 15 = 3 * (3 * B / 10 ^ 15) + 1 / 10 ^ 15 * L := by ring
    linarith

/-- C103: in Python's `float` arithmetic the search finds a point on every new contour of lines, quadratics and cubics, for 2 up to 201
steps. The point returned is on one of the curves up to `B * 10 ^ -15` in each coordinate, the distance is that of the point on the
curve up to `3 * B * 10 ^ -15`, and it exceeds the distance of every point of every curve by at most 9/5 of the longest way a curve can
move between two samples and a rounding error of `(9 * B + L) * 10 ^ -15`. -/
theorem C103_any_contour (c : Contour ℝ) (bc : BContour) (h : BContour.new c = .ok bc) (h4 : ∀ s ∈ c, s.length ≤ 4)
    (B : ℝ) (hB51 : B ≤ 2 ^ 51) (hB : ∀ s ∈ c, ∀ p ∈ s, |p.1| ≤ B ∧ |p.2| ≤ B) (p : Pt ℝ) (hp : |p.1| ≤ B ∧ |p.2| ≤ B)
    (H : Hypot) (hH : H.err ≤ 1 / 2 ^ 52) (n : Nat) (hn : 2 ≤ n) (h201 : n ≤ 201) (L : ℝ) (hL : ∀ s ∈ c, SpeedAtMost s L) :
    ∃ d q, (Rounded.findClosestPoint (binary 52).toRounding H p n bc).1 = .ok (d, q) ∧
      (∃ s ∈ c, ∃ t, 0 < t ∧ t < 1 ∧ ∃ q', Bezier.get s t = .ok q' ∧ Close (B / 10 ^ 15) q q' ∧
        |d - distance q' p| ≤ 3 * B / 10 ^ 15) ∧
      ∀ s ∈ c, ∀ t, 0 ≤ t → t ≤ 1 → ∀ q', Bezier.get s t = .ok q' →
        d ≤ distance q' p + 9 / 5 * (L / ((n : ℝ) - 1)) + (9 * B + L) / 10 ^ 15 := by
  obtain ⟨hc, h2⟩ := (C52_new c).mp ⟨bc, h⟩
  have hne : ∀ s ∈ c, s ≠ [] := by intro s hs e; have := h2 s hs; rw [e] at this; simp at this
  obtain ⟨d, q, e, hr, hd⟩ := float_search c bc h h4 B hB51 hB p hp H hH n hn h201 L hL
  refine ⟨d, q, e, hr, ?_⟩
  intro s hs t h0 h1 q' hq'
  rw [get_ok _ (hne s hs)] at hq'
  cases hq'
  obtain ⟨m, hm, rfl⟩ := List.getElem_of_mem hs
  have hRc : ((n - 1 : Nat) : ℝ) = (n : ℝ) - 1 := by rw [Nat.cast_sub (by omega)]; simp
  have hR : (1 : ℝ) ≤ (n : ℝ) - 1 := by
    have : (2 : ℝ) ≤ n := by exact_mod_cast hn
    linarith
  obtain ⟨J, hJ1, hJn, hJ⟩ : ∃ J : Nat, 1 ≤ J ∧ J ≤ n - 1 ∧ |t * ((n : ℝ) - 1) - J| ≤ 1 := by
    by_cases ht : t * ((n : ℝ) - 1) ≤ 1
    · refine ⟨1, le_rfl, by omega, ?_⟩
      have : 0 ≤ t * ((n : ℝ) - 1) := by positivity
      rw [abs_le]; push_cast; constructor <;> linarith
    · have hp : 0 ≤ t * ((n : ℝ) - 1) := by positivity
      have a := Nat.floor_le hp
      have b := Nat.lt_floor_add_one (t * ((n : ℝ) - 1))
      refine ⟨⌊t * ((n : ℝ) - 1)⌋₊, Nat.le_floor (by push_cast; linarith), ?_, ?_⟩
      · apply Nat.floor_le_of_le
        rw [hRc]
        nlinarith
      · rw [abs_le]; constructor <;> linarith
  have a := hd m hm J hJn (.inr hJ1)
  have b := near_sample_of c[m] L (h2 _ hs) (hL _ hs) p n hn t h0 h1 J hJn 1 hJ
  have e3 : 9 / 5 * (L / ((n : ℝ) - 1)) = 4 / 5 * (L / ((n : ℝ) - 1)) + 1 * (L / ((n : ℝ) - 1)) := by ring
  linarith

/-- C103: on a connected contour the excess is at most 13/10 of the longest way between two samples, and the rounding error. -/
theorem C103_connected (c : Contour ℝ) (bc : BContour) (h : BContour.new c = .ok bc) (hcon : Connected c) (h4 : ∀ s ∈ c, s.length ≤ 4)
    (B : ℝ) (hB51 : B ≤ 2 ^ 51) (hB : ∀ s ∈ c, ∀ p ∈ s, |p.1| ≤ B ∧ |p.2| ≤ B) (p : Pt ℝ) (hp : |p.1| ≤ B ∧ |p.2| ≤ B)
    (H : Hypot) (hH : H.err ≤ 1 / 2 ^ 52) (n : Nat) (hn : 2 ≤ n) (h201 : n ≤ 201) (L : ℝ) (hL : ∀ s ∈ c, SpeedAtMost s L) :
    ∃ d q, (Rounded.findClosestPoint (binary 52).toRounding H p n bc).1 = .ok (d, q) ∧
      ∀ s ∈ c, ∀ t, 0 ≤ t → t ≤ 1 → ∀ q', Bezier.get s t = .ok q' →
        d ≤ distance q' p + 13 / 10 * (L / ((n : ℝ) - 1)) + (9 * B + L) / 10 ^ 15 := by
  obtain ⟨hc, h2⟩ := (C52_new c).mp ⟨bc, h⟩
  have hne : ∀ s ∈ c, s ≠ [] := by intro s hs e; have := h2 s hs; rw [e] at this; simp at this
  obtain ⟨d, q, e, hr, hd⟩ := float_search c bc h h4 B hB51 hB p hp H hH n hn h201 L hL
  refine ⟨d, q, e, ?_⟩
  intro s hs t h0 h1 q' hq'
  rw [get_ok _ (hne s hs)] at hq'
  cases hq'
  obtain ⟨m, hm, rfl⟩ := List.getElem_of_mem hs
  have hRc : ((n - 1 : Nat) : ℝ) = (n : ℝ) - 1 := by rw [Nat.cast_sub (by omega)]; simp
  have hR : (1 : ℝ) ≤ (n : ℝ) - 1 := by
    have : (2 : ℝ) ≤ n := by exact_mod_cast hn
    linarith
  obtain ⟨J, hJn, hJ⟩ : ∃ J : Nat, J ≤ n - 1 ∧ |t * ((n : ℝ) - 1) - J| ≤ 1 / 2 := by
    have hp : 0 ≤ t * ((n : ℝ) - 1) + 1 / 2 := by positivity
    have a := Nat.floor_le hp
    have b := Nat.lt_floor_add_one (t * ((n : ℝ) - 1) + 1 / 2)
    refine ⟨⌊t * ((n : ℝ) - 1) + 1 / 2⌋₊, ?_, ?_⟩
    · have : ⌊t * ((n : ℝ) - 1) + 1 / 2⌋₊ < n := by
        rw [Nat.floor_lt hp]
        nlinarith
      omega
    · rw [abs_le]; constructor <;> linarith
  have a : d ≤ distance (curve c[m] ((J : ℝ) / ((n : ℝ) - 1))) p + 4 / 5 * (L / ((n : ℝ) - 1)) + (9 * B + L) / 10 ^ 15 := by
    by_cases hcase : m = 0 ∨ 1 ≤ J
    · exact hd m hm J hJn hcase
    · push Not at hcase
      obtain ⟨m', rfl⟩ : ∃ m', m = m' + 1 := ⟨m - 1, by omega⟩
      have hJ0 : J = 0 := by omega
      subst hJ0
      obtain ⟨x, hx1, hx2⟩ := List.isChain_iff_getElem.mp hcon.2 m' (by omega)
      have em := hd m' (by omega) (n - 1) le_rfl (.inr (by omega))
      have n1 := hne _ (List.getElem_mem (show m' < c.length by omega))
      rw [hRc, div_self (by linarith), curve_at_one _ n1] at em
      rw [List.getLast?_eq_some_getLast n1] at hx1
      rw [List.head?_eq_some_head (hne _ hs)] at hx2
      rw [Nat.cast_zero, zero_div, curve_zero _ (hne _ hs), Option.some.inj hx2, ← Option.some.inj hx1]
      exact em
  have b := near_sample_of c[m] L (h2 _ hs) (hL _ hs) p n hn t h0 h1 J hJn (1 / 2) hJ
  have e3 : 13 / 10 * (L / ((n : ℝ) - 1)) = 4 / 5 * (L / ((n : ℝ) - 1)) + 1 / 2 * (L / ((n : ℝ) - 1)) := by ring
  linarith

/-- The arch over `[0, 2]` and the point `(1, 2)`, with 100 steps: the distance of the apex is 3/2, and what is found is at most
1/18 more. -/
example (H : Hypot) (hH : H.err ≤ 1 / 2 ^ 52) : ∃ bc d q, BContour.new [[((0:ℝ), 0), (1, 1), (2, 0)]] = .ok bc ∧
    (Rounded.findClosestPoint (binary 52).toRounding H (1, 2) 100 bc).1 = .ok (d, q) ∧ d ≤ 3 / 2 + 1 / 18 := by
  obtain ⟨bc, h⟩ := (C52_new [[((0:ℝ), 0), (1, 1), (2, 0)]]).mpr ⟨by simp, by simp⟩
  obtain ⟨d, q, e, _, hd⟩ := C103_any_contour _ bc h (by simp) 3 (by norm_num) (by
    intro s hs p hp
    simp at hs; subst hs
    simp at hp
    rcases hp with rfl | rfl | rfl <;> norm_num) (1, 2) (by norm_num) H hH 100 (by norm_num) (by norm_num) 3 (by
    intro s hs
    simp at hs; subst hs
    exact parabola_speed)
  have hq : Bezier.get [((0:ℝ), 0), (1, 1), (2, 0)] (1 / 2) = .ok (1, 1 / 2) := by
    norm_num [Bezier.get, order]
  have a := hd _ (by simp) (1 / 2) (by norm_num) (by norm_num) _ hq
  have ed : distance (1, 1 / 2) ((1:ℝ), 2) = 3 / 2 := by
    unfold distance
    rw [show ((1:ℝ) - 1) ^ 2 + (1 / 2 - 2) ^ 2 = (3 / 2) ^ 2 by norm_num]
    exact Real.sqrt_sq (by norm_num)
  rw [ed] at a
  refine ⟨bc, d, q, h, e, ?_⟩
  norm_num at a ⊢
  linarith

end float
end PathLib
