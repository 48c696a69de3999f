import Verif.Model.Rounded
import Verif.Lemmas.Rounding
import Verif.Props.Bezier
import Mathlib.Tactic.IntervalCases

/-!
# Properties in rounded arithmetic: C82, C83, C84, C85
-/

set_option linter.unusedSectionVars false
set_option linter.unusedSimpArgs false

namespace PathLib

open Bezier Spec

/-! ## C82: evaluating a curve -/

section exact

private theorem step_exact (t : ℝ) (ps : Segment ℝ) :
    Rounded.casteljauStep Rounding.exact t ps = Bezier.casteljauStep t ps := rfl

private theorem casteljau_exact (t : ℝ) (ps : Segment ℝ) : Rounded.casteljau Rounding.exact t ps = Bezier.casteljau t ps := by
  induction ps using Bezier.casteljau.induct (t := t) with
  | case1 ps h ih => rw [Rounded.casteljau, Bezier.casteljau, if_pos h, if_pos h, step_exact, ih]
  | case2 ps h => rw [Rounded.casteljau, Bezier.casteljau, if_neg h, if_neg h]

/-- C82: without rounding `get` is the `get` of the exact model. -/
theorem C82_exact (ps : Segment ℝ) (t : ℝ) : Rounded.get Rounding.exact ps t = Bezier.get ps t := by
  unfold Rounded.get Bezier.get
  rw [casteljau_exact]
  rfl

end exact

/-- The two points differ by at most `e` in each coordinate. -/
def Spec.Close (e : ℝ) (p q : Pt ℝ) : Prop := |p.1 - q.1| ≤ e ∧ |p.2 - q.2| ≤ e

section low
variable (R : Rounding)

private theorem mt_approx {t : ℝ} (h1 : t ≤ 1) : R.Approx 1 (1 - t) (1 - t) (R.sub 1 t) := by
  have := (Rounding.Approx.refl (R := R) (1 - t)).round
  rwa [abs_of_nonneg (by linarith)] at this

private theorem t_approx {t : ℝ} (h0 : 0 ≤ t) : R.Approx 0 t t t := by
  have := Rounding.Approx.refl (R := R) t
  rwa [abs_of_nonneg h0] at this

private theorem const_approx (c : ℝ) (h0 : 0 ≤ c) : R.Approx 0 c c c := t_approx R h0

private theorem p_approx {B x : ℝ} (h : |x| ≤ B) : R.Approx 0 B x x := (Rounding.Approx.refl (R := R) x).mono le_rfl h

private theorem linear_error {t : ℝ} (h0 : 0 ≤ t) (h1 : t ≤ 1) {B x0 x1 : ℝ} (b0 : |x0| ≤ B) (b1 : |x1| ≤ B) :
    R.Approx 9 B ((1 - t) * x0 + t * x1) (R.add (R.mul (R.sub 1 t) x0) (R.mul t x1)) := by
  have a := (mt_approx R h1).mul (p_approx R b0)
  have b := ((t_approx R h0).mul (p_approx R b1)).mono (l := 2) (by norm_num) le_rfl
  exact (a.add b).mono (by norm_num) (by linarith)

private theorem quadratic_error {t : ℝ} (h0 : 0 ≤ t) (h1 : t ≤ 1) {B x0 x1 x2 : ℝ} (b0 : |x0| ≤ B) (b1 : |x1| ≤ B)
    (b2 : |x2| ≤ B) :
    R.Approx 9 B ((1 - t) * (1 - t) * x0 + (1 - t) * t * 2 * x1 + t * t * x2 + 0 * 0)
      (R.add (R.add (R.add (R.mul (R.mul (R.sub 1 t) (R.sub 1 t)) x0) (R.mul (R.mul (R.mul (R.sub 1 t) t) 2) x1))
        (R.mul (R.mul t t) x2)) (R.mul 0 0)) := by
  have m := mt_approx R h1
  have a := (m.mul m).mul (p_approx R b0)
  have b := ((m.mul (t_approx R h0)).mul (const_approx R 2 (by norm_num))).mul (p_approx R b1)
  have c := (((t_approx R h0).mul (t_approx R h0)).mul (p_approx R b2)).mono (l := 5) (by norm_num) le_rfl
  have d := ((const_approx R 0 le_rfl).mul (const_approx R 0 le_rfl)).mono (l := 6) (by norm_num) le_rfl
  exact ((((a.add b).add c).add d)).mono (by norm_num) (by nlinarith)

private theorem cubic_error {t : ℝ} (h0 : 0 ≤ t) (h1 : t ≤ 1) {B x0 x1 x2 x3 : ℝ} (b0 : |x0| ≤ B) (b1 : |x1| ≤ B)
    (b2 : |x2| ≤ B) (b3 : |x3| ≤ B) :
    R.Approx 9 B ((1 - t) * (1 - t) * (1 - t) * x0 + (1 - t) * (1 - t) * t * 3 * x1 + (1 - t) * (t * t) * 3 * x2 + t * (t * t) * x3)
      (R.add (R.add (R.add (R.mul (R.mul (R.mul (R.sub 1 t) (R.sub 1 t)) (R.sub 1 t)) x0)
        (R.mul (R.mul (R.mul (R.mul (R.sub 1 t) (R.sub 1 t)) t) 3) x1))
        (R.mul (R.mul (R.mul (R.sub 1 t) (R.mul t t)) 3) x2)) (R.mul (R.mul t (R.mul t t)) x3)) := by
  have m := mt_approx R h1
  have s := t_approx R h0
  have a := ((m.mul m).mul m).mul (p_approx R b0)
  have b := (((m.mul m).mul s).mul (const_approx R 3 (by norm_num))).mul (p_approx R b1)
  have c := (((m.mul (s.mul s)).mul (const_approx R 3 (by norm_num))).mul (p_approx R b2)).mono (l := 7) (by norm_num) le_rfl
  have d := ((s.mul (s.mul s)).mul (p_approx R b3)).mono (l := 8) (by norm_num) le_rfl
  exact (((a.add b).add c).add d).mono (by norm_num) (by
    have : (1 - t) * (1 - t) * (1 - t) * B + (1 - t) * (1 - t) * t * 3 * B + (1 - t) * (t * t) * 3 * B + t * (t * t) * B = B := by ring
    linarith)

/-- C82: for lines, quadratics and cubics whose coordinates are at most `B`, a parameter in `[0, 1]` and relative rounding error `u`,
`get` is off by at most `((1 + u) ^ 9 - 1) * B` in each coordinate. -/
theorem C82_low_order (ps : Segment ℝ) (h2 : 2 ≤ ps.length) (h4 : ps.length ≤ 4) (B : ℝ) (hB : ∀ p ∈ ps, |p.1| ≤ B ∧ |p.2| ≤ B)
    (t : ℝ) (h0 : 0 ≤ t) (h1 : t ≤ 1) :
    ∃ p q, Rounded.get R ps t = .ok p ∧ Bezier.get ps t = .ok q ∧ Close (((1 + R.u) ^ 9 - 1) * B) p q := by
  have hB0 : 0 ≤ B := by
    obtain ⟨p, hp⟩ := List.exists_mem_of_ne_nil ps (by intro e; rw [e] at h2; simp at h2)
    exact (abs_nonneg _).trans (hB p hp).1
  have hE : 0 ≤ ((1 + R.u) ^ 9 - 1) * B := mul_nonneg (by linarith [R.one_le_pow 9]) hB0
  have same : ∀ p : Pt ℝ, Close (((1 + R.u) ^ 9 - 1) * B) p p := fun p => by simp [Close, hE]
  by_cases e0 : t = 0
  · subst e0
    obtain ⟨q, hq⟩ : ∃ q, Bezier.get ps 0 = .ok q := ⟨_, get_ok ps (by intro e; rw [e] at h2; simp at h2) 0⟩
    refine ⟨q, q, ?_, hq, same q⟩
    unfold Bezier.get at hq
    unfold Rounded.get
    rw [if_pos rfl] at hq ⊢
    exact hq
  by_cases e1 : t = 1
  · subst e1
    obtain ⟨q, hq⟩ : ∃ q, Bezier.get ps 1 = .ok q := ⟨_, get_ok ps (by intro e; rw [e] at h2; simp at h2) 1⟩
    refine ⟨q, q, ?_, hq, same q⟩
    unfold Bezier.get at hq
    unfold Rounded.get
    rw [if_neg (by norm_num), if_pos rfl] at hq ⊢
    exact hq
  match ps, h2, h4 with
  | [a, b], _, _ =>
    have ha := hB a (by simp)
    have hb := hB b (by simp)
    refine ⟨_, _, by
      unfold Rounded.get
      rw [if_neg e0, if_neg e1]
      simp only [order, List.length_cons, List.length_nil]
      norm_num [pyGet_zero_cons, pyGet_one_cons]
      rfl, by
      unfold Bezier.get
      rw [if_neg e0, if_neg e1]
      simp only [order, List.length_cons, List.length_nil]
      norm_num [pyGet_zero_cons, pyGet_one_cons]
      rfl, (linear_error R h0 h1 ha.1 hb.1).2, (linear_error R h0 h1 ha.2 hb.2).2⟩
  | [a, b, c], _, _ =>
    have ha := hB a (by simp)
    have hb := hB b (by simp)
    have hc := hB c (by simp)
    refine ⟨_, _, by
      unfold Rounded.get
      rw [if_neg e0, if_neg e1]
      simp only [order, List.length_cons, List.length_nil]
      norm_num [pyGet_zero_cons, pyGet_one_cons, pyGet_two_cons, pyGet_three_cons]
      rfl, by
      unfold Bezier.get
      rw [if_neg e0, if_neg e1]
      simp only [order, List.length_cons, List.length_nil]
      norm_num [pyGet_zero_cons, pyGet_one_cons, pyGet_two_cons, pyGet_three_cons]
      rfl, ?_⟩
    have x := (quadratic_error R h0 h1 ha.1 hb.1 hc.1).2
    have y := (quadratic_error R h0 h1 ha.2 hb.2 hc.2).2
    rw [mul_zero, add_zero] at x y
    exact ⟨x, y⟩
  | [a, b, c, d], _, _ =>
    have ha := hB a (by simp)
    have hb := hB b (by simp)
    have hc := hB c (by simp)
    have hd := hB d (by simp)
    refine ⟨_, _, by
      unfold Rounded.get
      rw [if_neg e0, if_neg e1]
      simp only [order, List.length_cons, List.length_nil]
      norm_num [pyGet_zero_cons, pyGet_one_cons, pyGet_two_cons, pyGet_three_cons]
      rfl, by
      unfold Bezier.get
      rw [if_neg e0, if_neg e1]
      simp only [order, List.length_cons, List.length_nil]
      norm_num [pyGet_zero_cons, pyGet_one_cons, pyGet_two_cons, pyGet_three_cons]
      rfl, ?_⟩
    have x := (cubic_error R h0 h1 ha.1 hb.1 hc.1 hd.1).2
    have y := (cubic_error R h0 h1 ha.2 hb.2 hc.2 hd.2).2
    exact ⟨x, y⟩

end low

section high
variable (R : Rounding)

/-- The factor by which one pass of de Casteljau's computation may increase bound plus error. -/
def Spec.growth : ℝ := 1 + 3 * ((1 + R.u) ^ 3 - 1)

private theorem one_le_growth : 1 ≤ growth R := by unfold growth; linarith [R.one_le_pow 3]

private theorem lerp_error {B e t a b a' b' : ℝ} (h0 : 0 ≤ t) (h1 : t ≤ 1) (ha : |a| ≤ B) (hb : |b| ≤ B) (ea : |a' - a| ≤ e)
    (eb : |b' - b| ≤ e) :
    |R.add a' (R.mul (R.sub b' a') t) - (a + (b - a) * t)| ≤ (B + e) * growth R - B ∧
    |R.add a' (R.mul t (R.sub b' a')) - (a + t * (b - a))| ≤ (B + e) * growth R - B := by
  have ha' : |a'| ≤ B + e := by
    have := abs_add_le a (a' - a)
    rw [add_sub_cancel] at this
    linarith
  have hb' : |b'| ≤ B + e := by
    have := abs_add_le b (b' - b)
    rw [add_sub_cancel] at this
    linarith
  have hBe : 0 ≤ B + e := (abs_nonneg _).trans ha'
  have d := (p_approx R hb').sub (p_approx R ha')
  have exact : |a' + (b' - a') * t - (a + (b - a) * t)| ≤ e := by
    have : a' + (b' - a') * t - (a + (b - a) * t) = (1 - t) * (a' - a) + t * (b' - b) := by ring
    rw [this]
    refine (abs_add_le _ _).trans ?_
    rw [abs_mul, abs_mul, abs_of_nonneg h0, abs_of_nonneg (by linarith : 0 ≤ 1 - t)]
    have x := mul_le_mul_of_nonneg_left ea (by linarith : 0 ≤ 1 - t)
    have y := mul_le_mul_of_nonneg_left eb h0
    linarith
  have fin : ∀ v : ℝ, R.Approx 3 (3 * (B + e)) (a' + (b' - a') * t) v → |v - (a + (b - a) * t)| ≤ (B + e) * growth R - B := by
    intro v hv
    have h := hv.2
    have h3 : |v - (a + (b - a) * t)| ≤ |v - (a' + (b' - a') * t)| + |a' + (b' - a') * t - (a + (b - a) * t)| := by
      have := abs_add_le (v - (a' + (b' - a') * t)) (a' + (b' - a') * t - (a + (b - a) * t))
      rwa [sub_add_sub_cancel] at this
    have : (B + e) * growth R - B = ((1 + R.u) ^ 3 - 1) * (3 * (B + e)) + e := by unfold growth; ring
    linarith
  have hle : B + e + (B + e + (B + e)) * t ≤ 3 * (B + e) := by nlinarith
  constructor
  · exact fin _ ((((p_approx R ha').mono (l := 2) (by norm_num) le_rfl).add (d.mul (t_approx R h0))).mono le_rfl hle)
  · have x := ((p_approx R ha').mono (l := 2) (by norm_num) le_rfl).add ((t_approx R h0).mul d)
    rw [mul_comm t (b' - a'), mul_comm t (B + e + (B + e))] at x
    rw [mul_comm t (b - a)]
    exact fin _ (x.mono le_rfl hle)

private def Bounded (B : ℝ) (ps : Segment ℝ) : Prop := ∀ p ∈ ps, |p.1| ≤ B ∧ |p.2| ≤ B

private theorem Bounded.step {B t : ℝ} {ps : Segment ℝ} (h : Bounded B ps) (h0 : 0 ≤ t) (h1 : t ≤ 1) :
    Bounded B (Bezier.casteljauStep t ps) := by
  intro p hp
  unfold Bezier.casteljauStep at hp
  obtain ⟨i, hi, rfl⟩ := List.getElem_of_mem hp
  simp only [List.length_zipWith, List.length_tail] at hi
  simp only [List.getElem_zipWith, List.getElem_tail]
  obtain ⟨a1, a2⟩ := h ps[i] (List.getElem_mem _)
  obtain ⟨b1, b2⟩ := h ps[i + 1] (List.getElem_mem _)
  have key : ∀ x y : ℝ, |x| ≤ B → |y| ≤ B → |x + (y - x) * t| ≤ B := by
    intro x y hx hy
    rw [abs_le] at hx hy ⊢
    constructor <;> nlinarith
  exact ⟨key _ _ a1 b1, key _ _ a2 b2⟩

private theorem step_close {B e t : ℝ} {ps qs : Segment ℝ} (h0 : 0 ≤ t) (h1 : t ≤ 1) (hb : Bounded B ps)
    (h : List.Forall₂ (Close e) qs ps) :
    List.Forall₂ (Close ((B + e) * growth R - B)) (Rounded.casteljauStep R t qs) (Bezier.casteljauStep t ps) ∧
    List.Forall₂ (Close ((B + e) * growth R - B)) (Rounded.hullStep R t qs) (Bezier.hullStep t ps) := by
  have hl := h.length_eq
  rw [List.forall₂_iff_get] at h
  constructor <;> rw [List.forall₂_iff_get]
  · refine ⟨by simp [Rounded.casteljauStep, Bezier.casteljauStep, hl], ?_⟩
    intro i i1 i2
    simp only [Rounded.casteljauStep_length, Bezier.casteljauStep_length] at i1 i2
    have x := h.2 i (by omega) (by omega)
    have y := h.2 (i + 1) (by omega) (by omega)
    have bx := hb ps[i] (List.getElem_mem _)
    have bY := hb ps[i + 1] (List.getElem_mem _)
    simp only [List.get_eq_getElem] at x y ⊢
    simp only [Rounded.casteljauStep, Bezier.casteljauStep, List.getElem_zipWith, List.getElem_tail]
    exact ⟨(lerp_error R h0 h1 bx.1 bY.1 x.1 y.1).1, (lerp_error R h0 h1 bx.2 bY.2 x.2 y.2).1⟩
  · refine ⟨by simp [Rounded.hullStep, Bezier.hullStep, hl], ?_⟩
    intro i i1 i2
    simp only [Rounded.hullStep_length, Bezier.hullStep_length] at i1 i2
    have x := h.2 i (by omega) (by omega)
    have y := h.2 (i + 1) (by omega) (by omega)
    have bx := hb ps[i] (List.getElem_mem _)
    have bY := hb ps[i + 1] (List.getElem_mem _)
    simp only [List.get_eq_getElem] at x y ⊢
    simp only [Rounded.hullStep, Bezier.hullStep, List.getElem_zipWith, List.getElem_tail, Rounded.lerp, butils.lerp]
    exact ⟨(lerp_error R h0 h1 bx.1 bY.1 x.1 y.1).2, (lerp_error R h0 h1 bx.2 bY.2 x.2 y.2).2⟩

private theorem casteljau_close {B t : ℝ} (h0 : 0 ≤ t) (h1 : t ≤ 1) (ps : Segment ℝ) (hne : ps ≠ []) (hb : Bounded B ps)
    (k : ℕ) (qs : Segment ℝ) (h : List.Forall₂ (Close ((growth R ^ k - 1) * B)) qs ps) :
    ∃ p q, Rounded.casteljau R t qs = .ok p ∧ Bezier.casteljau t ps = .ok q ∧
      Close ((growth R ^ (k + (ps.length - 1)) - 1) * B) p q := by
  induction ps using Bezier.casteljau.induct (t := t) generalizing k qs with
  | case1 ps hl ih =>
    have hl' : qs.length > 1 := by rw [h.length_eq]; exact hl
    have hlen := Bezier.casteljauStep_length t ps
    have st := (step_close R h0 h1 hb h).1
    rw [show (B + (growth R ^ k - 1) * B) * growth R - B = (growth R ^ (k + 1) - 1) * B by ring] at st
    rw [Rounded.casteljau, Bezier.casteljau, if_pos hl', if_pos hl]
    obtain ⟨p, q, e1, e2, e3⟩ := ih (by intro e; rw [e] at hlen; simp at hlen; omega) (hb.step h0 h1) (k + 1) _ st
    refine ⟨p, q, e1, e2, ?_⟩
    rwa [hlen, show k + 1 + (ps.length - 1 - 1) = k + (ps.length - 1) by omega] at e3
  | case2 ps hl =>
    have hl' : ¬ qs.length > 1 := by rw [h.length_eq]; exact hl
    rw [Rounded.casteljau, Bezier.casteljau, if_neg hl', if_neg hl]
    match ps, qs, h, hne with
    | p :: ps, q :: qs, .cons hc _, _ =>
      have : ps = [] := by simp at hl; exact hl
      subst this
      exact ⟨q, p, rfl, rfl, by simpa using hc⟩

private theorem self_close {B : ℝ} (ps : Segment ℝ) : List.Forall₂ (Close ((growth R ^ 0 - 1) * B)) ps ps := by
  rw [List.forall₂_same]
  intro p _
  simp [Close]

/-- C82: for curves of order 4 and above with coordinates at most `B`, `get` is off by at most `(g ^ order - 1) * B`, where
`g = 1 + 3 * ((1 + u) ^ 3 - 1)`. -/
theorem C82_high_order (ps : Segment ℝ) (h5 : 5 ≤ ps.length) (B : ℝ) (hB : ∀ p ∈ ps, |p.1| ≤ B ∧ |p.2| ≤ B)
    (t : ℝ) (h0 : 0 ≤ t) (h1 : t ≤ 1) :
    ∃ p q, Rounded.get R ps t = .ok p ∧ Bezier.get ps t = .ok q ∧ Close ((growth R ^ (ps.length - 1) - 1) * B) p q := by
  have hne : ps ≠ [] := by intro e; rw [e] at h5; simp at h5
  have hB0 : 0 ≤ B := by
    obtain ⟨p, hp⟩ := List.exists_mem_of_ne_nil ps hne
    exact (abs_nonneg _).trans (hB p hp).1
  have hE : 0 ≤ (growth R ^ (ps.length - 1) - 1) * B :=
    mul_nonneg (by linarith [one_le_pow₀ (one_le_growth R) (n := ps.length - 1)]) hB0
  have same : ∀ p : Pt ℝ, Close ((growth R ^ (ps.length - 1) - 1) * B) p p := fun p => by simp [Close, hE]
  by_cases e0 : t = 0
  · subst e0
    refine ⟨_, _, ?_, get_ok ps hne 0, same _⟩
    have hq := get_ok ps hne 0
    unfold Bezier.get at hq
    unfold Rounded.get
    rw [if_pos rfl] at hq ⊢
    exact hq
  by_cases e1 : t = 1
  · subst e1
    refine ⟨_, _, ?_, get_ok ps hne 1, same _⟩
    have hq := get_ok ps hne 1
    unfold Bezier.get at hq
    unfold Rounded.get
    rw [if_neg (by norm_num), if_pos rfl] at hq ⊢
    exact hq
  obtain ⟨p, q, e1', e2', e3'⟩ := casteljau_close R h0 h1 ps hne hB 0 ps (self_close R ps)
  have o : order ps = (ps.length : Int) - 1 := rfl
  refine ⟨p, q, ?_, ?_, by simpa using e3'⟩
  · unfold Rounded.get
    rw [if_neg e0, if_neg e1]
    simp only
    rw [if_neg (by omega), if_neg (by omega), if_neg (by omega)]
    exact e1'
  · unfold Bezier.get
    rw [if_neg e0, if_neg e1]
    simp only
    rw [if_neg (by omega), if_neg (by omega), if_neg (by omega)]
    exact e2'

/-- C82: at 0 and at 1 `get` returns the first and the last control point, whatever the rounding. -/
theorem C82_ends (ps : Segment ℝ) (h : ps ≠ []) :
    Rounded.get R ps 0 = .ok (ps.head h) ∧ Rounded.get R ps 1 = .ok (ps.getLast h) := by
  constructor
  · have hq := get_ok ps h 0
    rw [curve_zero ps h] at hq
    unfold Bezier.get at hq
    unfold Rounded.get
    rw [if_pos rfl] at hq ⊢
    exact hq
  · have hq := get_ok ps h 1
    rw [curve_at_one ps h] at hq
    unfold Bezier.get at hq
    unfold Rounded.get
    rw [if_neg (by norm_num), if_pos rfl] at hq ⊢
    exact hq

end high

/-- C82: in Python's `float` arithmetic, apart from overflow and underflow, `get` on a curve of order at most 3 is off by
less than `B * 10 ^ -15`. -/
theorem C82_float (ps : Segment ℝ) (h2 : 2 ≤ ps.length) (h4 : ps.length ≤ 4) (B : ℝ) (hB : ∀ p ∈ ps, |p.1| ≤ B ∧ |p.2| ≤ B)
    (t : ℝ) (h0 : 0 ≤ t) (h1 : t ≤ 1) :
    ∃ p q, Rounded.get (binary 52).toRounding ps t = .ok p ∧ Bezier.get ps t = .ok q ∧ Close (B / 10 ^ 15) p q := by
  obtain ⟨p, q, e1, e2, h⟩ := C82_low_order (binary 52).toRounding ps h2 h4 B hB t h0 h1
  have hB0 : 0 ≤ B := by
    obtain ⟨p, hp⟩ := List.exists_mem_of_ne_nil ps (by intro e; rw [e] at h2; simp at h2)
    exact (abs_nonneg _).trans (hB p hp).1
  have hu : ((1 + (binary 52).u) ^ 9 - 1) * B ≤ B / 10 ^ 15 := by
    have : ((1 + (binary 52).u) ^ 9 - 1) ≤ 1 / 10 ^ 15 := by
      show (1 + (2:ℝ) ^ (-((52 + 1 : ℕ) : ℤ))) ^ 9 - 1 ≤ 1 / 10 ^ 15
      norm_num
    calc _ ≤ 1 / 10 ^ 15 * B := mul_le_mul_of_nonneg_right this hB0
      _ = _ := by ring
  exact ⟨p, q, e1, e2, h.1.trans hu, h.2.trans hu⟩

/-- A cubic in the design space of a font, at one third. -/
example : ∃ p q, Rounded.get (binary 52).toRounding [((0:ℝ), 0), (100, 700), (400, 650), (500, -200)] (1 / 3) = .ok p ∧
    Bezier.get [((0:ℝ), 0), (100, 700), (400, 650), (500, -200)] (1 / 3) = .ok q ∧ Close (700 / 10 ^ 15) p q := by
  refine C82_float _ (by simp) (by simp) 700 ?_ _ (by norm_num) (by norm_num)
  intro p hp
  simp only [List.mem_cons, List.not_mem_nil, or_false] at hp
  rcases hp with rfl | rfl | rfl | rfl <;> norm_num [abs_le]

/-! ## C83: splitting a curve -/

section split
variable (R : Rounding)

private theorem hullLoop_exact (t : ℝ) (ps : Segment ℝ) : Rounded.hullLoop Rounding.exact t ps = Bezier.hullLoop t ps := by
  induction ps using Bezier.hullLoop.induct (t := t) with
  | case1 ps h ih =>
    rw [Rounded.hullLoop, Bezier.hullLoop, if_pos h, if_pos h]
    rw [show Rounded.hullStep Rounding.exact t ps = Bezier.hullStep t ps from rfl, ih]
  | case2 ps h => rw [Rounded.hullLoop, Bezier.hullLoop, if_neg h, if_neg h]

/-- C83: without rounding `hull` and the control points of the two parts `split` returns are those of the exact model. -/
theorem C83_exact (ps : Segment ℝ) (t : ℝ) :
    Rounded.hull Rounding.exact ps t = Bezier.hull ps t ∧
    ∀ b l r q, b.controlPoints = ps → split1 b t = .ok (l, r, q) →
      Rounded.splitPoints Rounding.exact ps t = .ok (l.controlPoints, r.controlPoints) := by
  have hh : Rounded.hull Rounding.exact ps t = Bezier.hull ps t := by
    unfold Rounded.hull Bezier.hull
    rw [hullLoop_exact]
  refine ⟨hh, ?_⟩
  rintro b l r q rfl h
  unfold Rounded.splitPoints
  rw [hh]
  unfold split1 at h
  simp only [bind_eq_ok, pure_eq_ok, map01] at h ⊢
  obtain ⟨⟨l', r'⟩, h1, _, _, _, _, _, _, _, _, e⟩ := h
  simp only [Except.ok.injEq, Prod.mk.injEq] at e
  obtain ⟨rfl, rfl, rfl⟩ := e
  simp only
  by_cases ho : order b.controlPoints = 2
  · rw [if_pos ho] at h1 ⊢
    simp only [bind_eq_ok, pure_eq_ok] at h1 ⊢
    obtain ⟨a0, g0, a3, g3, a5, g5, l2, hl, b5, k5, b4, k4, b2, k2, r2, hr, e⟩ := h1
    simp only [Except.ok.injEq, Prod.mk.injEq] at e
    obtain ⟨rfl, rfl⟩ := e
    rw [(new_controlPoints hl).1, (new_controlPoints hr).1]
    exact ⟨a0, g0, a3, g3, a5, g5, b5, k5, b4, k4, b2, k2, rfl⟩
  · rw [if_neg ho] at h1 ⊢
    simp only [bind_eq_ok, pure_eq_ok] at h1 ⊢
    obtain ⟨a0, g0, a3, g3, a5, g5, a9, g9, l2, hl, b9, k9, b5, k5, b4, k4, b2, k2, r2, hr, e⟩ := h1
    simp only [Except.ok.injEq, Prod.mk.injEq] at e
    obtain ⟨rfl, rfl⟩ := e
    rw [(new_controlPoints hl).1, (new_controlPoints hr).1]
    exact ⟨a0, g0, a3, g3, a5, g5, a9, g9, b9, k9, b5, k5, b4, k4, b2, k2, rfl⟩

private theorem Close.mono {e f : ℝ} {p q : Pt ℝ} (h : Close e p q) (hf : e ≤ f) : Close f p q := ⟨h.1.trans hf, h.2.trans hf⟩

private theorem growth_mono {B : ℝ} (hB : 0 ≤ B) {k l : ℕ} (h : k ≤ l) : (growth R ^ k - 1) * B ≤ (growth R ^ l - 1) * B :=
  mul_le_mul_of_nonneg_right (by linarith [pow_le_pow_right₀ (one_le_growth R) h]) hB

private theorem hullLoop_close {B t : ℝ} (hB0 : 0 ≤ B) (h0 : 0 ≤ t) (h1 : t ≤ 1) (ps : Segment ℝ) (hb : Bounded B ps)
    (n k : ℕ) (hn : k + (ps.length - 1) ≤ n) (qs : Segment ℝ) (h : List.Forall₂ (Close ((growth R ^ k - 1) * B)) qs ps) :
    List.Forall₂ (Close ((growth R ^ n - 1) * B)) (Rounded.hullLoop R t qs) (Bezier.hullLoop t ps) := by
  induction ps using Bezier.hullLoop.induct (t := t) generalizing k qs with
  | case1 ps hl ih =>
    have hl' : qs.length > 1 := by rw [h.length_eq]; exact hl
    have hlen := Bezier.hullStep_length t ps
    have st := (step_close R h0 h1 hb h).2
    rw [show (B + (growth R ^ k - 1) * B) * growth R - B = (growth R ^ (k + 1) - 1) * B by ring] at st
    rw [Rounded.hullLoop, Bezier.hullLoop, if_pos hl', if_pos hl]
    refine List.rel_append (st.imp fun _ _ hc => Close.mono hc (growth_mono R hB0 (by omega))) ?_
    have hb' : Bounded B (Bezier.hullStep t ps) := by
      rw [hullStep_eq]
      exact hb.step h0 h1
    exact ih hb' (k + 1) (by rw [hlen]; omega) _ st
  | case2 ps hl =>
    have hl' : ¬ qs.length > 1 := by rw [h.length_eq]; exact hl
    rw [Rounded.hullLoop, Bezier.hullLoop, if_neg hl', if_neg hl]
    exact .nil

/-- C83: every point of `hull` is off by at most `(g ^ order - 1) * B`. -/
theorem C83_hull (ps : Segment ℝ) (B : ℝ) (hB0 : 0 ≤ B) (hB : ∀ p ∈ ps, |p.1| ≤ B ∧ |p.2| ≤ B)
    (t : ℝ) (h0 : 0 ≤ t) (h1 : t ≤ 1) :
    List.Forall₂ (Close ((growth R ^ (ps.length - 1) - 1) * B)) (Rounded.hull R ps t) (Bezier.hull ps t) := by
  unfold Rounded.hull Bezier.hull
  refine List.rel_append ((self_close R ps).imp fun _ _ hc => Close.mono hc (growth_mono R hB0 (by omega))) ?_
  exact hullLoop_close R hB0 h0 h1 ps hB _ 0 (by omega) ps (self_close R ps)

private theorem rhull_three (a b c : Pt ℝ) (t : ℝ) : Rounded.hull R [a, b, c] t =
    [a, b, c, Rounded.lerp R t a b, Rounded.lerp R t b c,
      Rounded.lerp R t (Rounded.lerp R t a b) (Rounded.lerp R t b c)] := by
  unfold Rounded.hull
  rw [Rounded.hullLoop, Rounded.hullLoop, Rounded.hullLoop]
  simp [Rounded.hullStep]

private theorem rhull_four (a b c d : Pt ℝ) (t : ℝ) : Rounded.hull R [a, b, c, d] t =
    let ab := Rounded.lerp R t a b
    let bc := Rounded.lerp R t b c
    let cd := Rounded.lerp R t c d
    let abc := Rounded.lerp R t ab bc
    let bcd := Rounded.lerp R t bc cd
    [a, b, c, d, ab, bc, cd, abc, bcd, Rounded.lerp R t abc bcd] := by
  unfold Rounded.hull
  rw [Rounded.hullLoop, Rounded.hullLoop, Rounded.hullLoop, Rounded.hullLoop]
  simp [Rounded.hullStep]

private theorem rsplit_three (a b c : Pt ℝ) (t : ℝ) :
    let ab := Rounded.lerp R t a b
    let bc := Rounded.lerp R t b c
    let abc := Rounded.lerp R t ab bc
    Rounded.splitPoints R [a, b, c] t = .ok ([a, ab, abc], [abc, bc, c]) := by
  have ho : order [a, b, c] = 2 := rfl
  unfold Rounded.splitPoints
  simp only [rhull_three, ho, if_true]
  rfl

private theorem rsplit_four (a b c d : Pt ℝ) (t : ℝ) :
    let ab := Rounded.lerp R t a b
    let bc := Rounded.lerp R t b c
    let cd := Rounded.lerp R t c d
    let abc := Rounded.lerp R t ab bc
    let bcd := Rounded.lerp R t bc cd
    let abcd := Rounded.lerp R t abc bcd
    Rounded.splitPoints R [a, b, c, d] t = .ok ([a, ab, abc, abcd], [abcd, bcd, cd, d]) := by
  have ho : ¬ order [a, b, c, d] = 2 := by simp [order]
  unfold Rounded.splitPoints
  simp only [rhull_four, if_neg ho]
  rfl

/-- C83: whatever the rounding, the left part starts at the first control point, the right part ends at the last one, and the
left part ends exactly where the right part starts. -/
theorem C83_joined (ps : Segment ℝ) (hn : ps.length = 3 ∨ ps.length = 4) (t : ℝ) :
    ∃ l r, Rounded.splitPoints R ps t = .ok (l, r) ∧ l.length = ps.length ∧ r.length = ps.length ∧
      l.head? = ps.head? ∧ r.getLast? = ps.getLast? ∧ l.getLast? = r.head? := by
  rcases hn with hn | hn
  · match ps, hn with
    | [a, b, c], _ =>
      rw [rsplit_three]
      exact ⟨_, _, rfl, rfl, rfl, rfl, rfl, rfl⟩
  · match ps, hn with
    | [a, b, c, d], _ =>
      rw [rsplit_four]
      exact ⟨_, _, rfl, rfl, rfl, rfl, rfl, rfl⟩

/-- C83: every control point of the two parts is off by at most `(g ^ order - 1) * B`. -/
theorem C83_split (b : Bezier) (hn : b.controlPoints.length = 3 ∨ b.controlPoints.length = 4) (B : ℝ)
    (hB : ∀ p ∈ b.controlPoints, |p.1| ≤ B ∧ |p.2| ≤ B) (t : ℝ) (h0 : 0 ≤ t) (h1 : t ≤ 1) :
    ∃ l r q l' r', split1 b t = .ok (l, r, q) ∧ Rounded.splitPoints R b.controlPoints t = .ok (l', r') ∧
      List.Forall₂ (Close ((growth R ^ (b.controlPoints.length - 1) - 1) * B)) l' l.controlPoints ∧
      List.Forall₂ (Close ((growth R ^ (b.controlPoints.length - 1) - 1) * B)) r' r.controlPoints := by
  obtain ⟨l, r, hs, -⟩ := split1_spec b hn t
  have hx := (C83_exact b.controlPoints t).2 b l r _ rfl hs
  have hB0 : 0 ≤ B := by
    obtain ⟨p, hp⟩ := List.exists_mem_of_ne_nil b.controlPoints (by intro e; rw [e] at hn; simp at hn)
    exact (abs_nonneg _).trans (hB p hp).1
  have hc := C83_hull R b.controlPoints B hB0 hB t h0 h1
  rw [← (C83_exact b.controlPoints t).1] at hc
  generalize b.controlPoints = ps at hn hx hc ⊢
  generalize (growth R ^ (ps.length - 1) - 1) * B = e at hc ⊢
  rcases hn with hn | hn
  · match ps, hn with
    | [a, b, c], _ =>
      rw [rsplit_three] at hx ⊢
      rw [rhull_three, rhull_three] at hc
      simp only [List.forall₂_cons, List.forall₂_nil_left_iff] at hc
      have hx' := Except.ok.inj hx
      rw [Prod.mk.injEq] at hx'
      refine ⟨l, r, _, _, _, hs, rfl, ?_, ?_⟩ <;> simp only [← hx'.1, ← hx'.2] <;> simp only [List.forall₂_cons, List.forall₂_nil_left_iff] <;> tauto
  · match ps, hn with
    | [a, b, c, d], _ =>
      rw [rsplit_four] at hx ⊢
      rw [rhull_four, rhull_four] at hc
      simp only [List.forall₂_cons, List.forall₂_nil_left_iff] at hc
      have hx' := Except.ok.inj hx
      rw [Prod.mk.injEq] at hx'
      refine ⟨l, r, _, _, _, hs, rfl, ?_, ?_⟩ <;> simp only [← hx'.1, ← hx'.2] <;> simp only [List.forall₂_cons, List.forall₂_nil_left_iff] <;> tauto

/-- A quadratic split in the middle. -/
example : ∃ l r q l' r', split1 ⟨[(0, 0), (100, 700), (400, 650)], 0, 1, .mixed, false, true⟩ (1 / 2) = .ok (l, r, q) ∧
    Rounded.splitPoints (binary 52).toRounding [(0, 0), (100, 700), (400, 650)] (1 / 2) = .ok (l', r') ∧
      List.Forall₂ (Close ((growth (binary 52).toRounding ^ 2 - 1) * 700)) l' l.controlPoints ∧
      List.Forall₂ (Close ((growth (binary 52).toRounding ^ 2 - 1) * 700)) r' r.controlPoints := by
  refine C83_split _ ⟨[(0, 0), (100, 700), (400, 650)], 0, 1, .mixed, false, true⟩ (by simp) 700 ?_ _ (by norm_num) (by norm_num)
  intro p hp
  simp only [List.mem_cons, List.not_mem_nil, or_false] at hp
  rcases hp with rfl | rfl | rfl <;> norm_num [abs_le]

/-- C83: in Python's `float` arithmetic the left part of `split(1)` need not end at the end of the curve. -/
theorem C83_end_counterexample :
    ∃ l r, Rounded.splitPoints (binary 52).toRounding [(1, 0), (1, 0), ((2:ℝ) ^ (-60 : ℤ), 0)] 1 = .ok (l, r) ∧
      l.getLast? = some (0, 0) := by
  rw [rsplit_three]
  refine ⟨_, _, rfl, ?_⟩
  have r0 : (binary 52).rnd 0 = 0 := (binary 52).rnd_zero
  have r1 : (binary 52).rnd 1 = 1 := (binary 52).one
  have rm : (binary 52).rnd (-1) = -1 := by
    have := roundBits_repr 53 (by norm_num) (-1) 0 (by norm_num)
    norm_num at this ⊢
    exact this
  have rd : (binary 52).rnd ((2:ℝ) ^ (-60 : ℤ) - 1) = -1 := by
    have := roundBits_near 53 ((2:ℝ) ^ (-60 : ℤ) - 1) (-1) (-2 ^ 53) (by norm_num [abs_of_neg]) (by norm_num [abs_of_neg])
      (by norm_num)
    norm_num at this ⊢
    exact this
  have e1 : Rounded.lerp (binary 52).toRounding 1 ((1:ℝ), (0:ℝ)) (1, 0) = (1, 0) := by
    simp [Rounded.lerp, Rounding.add, Rounding.mul, Rounding.sub, r0, r1]
  have e2 : Rounded.lerp (binary 52).toRounding 1 ((1:ℝ), (0:ℝ)) ((2:ℝ) ^ (-60 : ℤ), 0) = (0, 0) := by
    simp only [Rounded.lerp, Rounding.add, Rounding.mul, Rounding.sub, rd, one_mul, rm]
    simp [r0]
  have e3 : Rounded.lerp (binary 52).toRounding 1 ((1:ℝ), (0:ℝ)) (0, 0) = (0, 0) := by
    simp [Rounded.lerp, Rounding.add, Rounding.mul, Rounding.sub, r0, r1, rm]
  rw [e1, e2, e3]
  rfl

end split

/-! ## C84: transforms -/

section transform

/-- C84: without rounding, matrix products and the application of a transform to a point are those of the exact model. -/
theorem C84_exact (m1 m2 : Mat ℝ) (T : Transform ℝ) (p : Pt ℝ) :
    Rounded.multiplyMatrixByMatrix Rounding.exact m1 m2 = Transform.multiplyMatrixByMatrix m1 m2 ∧
    Rounded.applyToPoint Rounding.exact T p = T.applyToPoint p := by
  have hr : ∀ (r : Row ℝ) (m : Mat ℝ), Rounded.multiplyRowByMatrix Rounding.exact r m = Transform.multiplyRowByMatrix r m := by
    intro r m
    unfold Rounded.multiplyRowByMatrix Transform.multiplyRowByMatrix
    split
    · rfl
    · rename_i h
      split
      · exact (h _ _ _ _ _ _ _ _ _ _ _ _ rfl rfl).elim
      · rfl
  refine ⟨by unfold Rounded.multiplyMatrixByMatrix Transform.multiplyMatrixByMatrix; simp only [hr], ?_⟩
  unfold Rounded.applyToPoint Transform.applyToPoint
  rw [hr]
  have hd : ∀ a b : ℝ, Rounded.pdiv Rounding.exact a b = PathLib.pdiv a b := by
    intro a b
    unfold Rounded.pdiv PathLib.pdiv
    by_cases h : b = 0
    · rw [if_pos h, if_pos h]
    · rw [if_neg h, if_neg h]; rfl
  simp only [hd]

/-- C84: the entries of a product of two matrices are off by at most three rounding errors of the sum of the absolute values of
the three products. -/
theorem C84_row (R : Rounding) (r1 r2 r3 m11 m12 m13 m21 m22 m23 m31 m32 m33 : ℝ) :
    ∃ x y z, Rounded.multiplyRowByMatrix R [r1, r2, r3] [[m11, m12, m13], [m21, m22, m23], [m31, m32, m33]] = .ok [x, y, z] ∧
      |x - (r1 * m11 + r2 * m21 + r3 * m31)| ≤ ((1 + R.u) ^ 3 - 1) * (|r1| * |m11| + |r2| * |m21| + |r3| * |m31|) ∧
      |y - (r1 * m12 + r2 * m22 + r3 * m32)| ≤ ((1 + R.u) ^ 3 - 1) * (|r1| * |m12| + |r2| * |m22| + |r3| * |m32|) ∧
      |z - (r1 * m13 + r2 * m23 + r3 * m33)| ≤ ((1 + R.u) ^ 3 - 1) * (|r1| * |m13| + |r2| * |m23| + |r3| * |m33|) := by
  have key : ∀ a b c d e f : ℝ, R.Approx 3 (|a| * |b| + |c| * |d| + |e| * |f|) (a * b + c * d + e * f)
      (R.add (R.add (R.mul a b) (R.mul c d)) (R.mul e f)) := by
    intro a b c d e f
    have x := (Rounding.Approx.refl (R := R) a).mul (Rounding.Approx.refl b)
    have y := (Rounding.Approx.refl (R := R) c).mul (Rounding.Approx.refl d)
    have z := ((Rounding.Approx.refl (R := R) e).mul (Rounding.Approx.refl f)).mono (l := 2) (by norm_num) le_rfl
    exact (x.add y).add z
  exact ⟨_, _, _, rfl, (key _ _ _ _ _ _).2, (key _ _ _ _ _ _).2, (key _ _ _ _ _ _).2⟩

private theorem affine_apply (R : Binary) (m11 m12 m21 m22 m31 m32 : ℝ) (p : Pt ℝ) :
    Rounded.applyToPoint R.toRounding ⟨[[m11, m12, 0], [m21, m22, 0], [m31, m32, 1]]⟩ p =
      .ok (R.add (R.add (R.mul p.1 m11) (R.mul p.2 m21)) (R.mul 1 m31), R.add (R.add (R.mul p.1 m12) (R.mul p.2 m22)) (R.mul 1 m32)) := by
  have w : R.add (R.add (R.mul p.1 0) (R.mul p.2 0)) (R.mul 1 1) = 1 := by
    simp [Rounding.add, Rounding.mul, R.rnd_zero, R.one]
  unfold Rounded.applyToPoint Rounded.multiplyRowByMatrix
  simp only [ok_bind, pyGet_zero_cons, pyGet_one_cons, pyGet_two_cons, w, Rounded.pdiv, if_neg (one_ne_zero (α := ℝ)), pure_eq_ok]
  simp only [Rounding.div, div_one, Rounding.add, R.idem]

/-- C84: applying an affine transform to a point is off by at most three rounding errors of the sum of the absolute values of
its three terms; the division by the third component adds no error. -/
theorem C84_affine (R : Binary) (m11 m12 m21 m22 m31 m32 : ℝ) (p : Pt ℝ) :
    ∃ q, Rounded.applyToPoint R.toRounding ⟨[[m11, m12, 0], [m21, m22, 0], [m31, m32, 1]]⟩ p = .ok q ∧
      |q.1 - (p.1 * m11 + p.2 * m21 + m31)| ≤ ((1 + R.u) ^ 3 - 1) * (|p.1| * |m11| + |p.2| * |m21| + |m31|) ∧
      |q.2 - (p.1 * m12 + p.2 * m22 + m32)| ≤ ((1 + R.u) ^ 3 - 1) * (|p.1| * |m12| + |p.2| * |m22| + |m32|) := by
  refine ⟨_, affine_apply R _ _ _ _ _ _ p, ?_⟩
  obtain ⟨x, y, z, h, hx, hy, -⟩ := C84_row R.toRounding p.1 p.2 1 m11 m12 0 m21 m22 0 m31 m32 1
  unfold Rounded.multiplyRowByMatrix at h
  simp only [Except.ok.injEq, List.cons.injEq] at h
  rw [← h.1] at hx
  rw [← h.2.1] at hy
  rw [one_mul, abs_one, one_mul] at hx hy
  exact ⟨hx, hy⟩

private theorem rnd_int (n : ℤ) (p : ℕ) (h : |n| ≤ 2 ^ (p + 1)) : (binary p).rnd (n : ℝ) = n := by
  have := roundBits_repr (p + 1) (by omega) n 0 h
  rw [zpow_zero, mul_one] at this
  exact this

/-- C84: on integer coordinates an affine transform with integer entries makes no error as long as the sums of the absolute values
of the terms are at most `2 ^ 53`. -/
theorem C84_integers (m11 m12 m21 m22 m31 m32 x y : ℤ) (hx : |x * m11| + |y * m21| + |m31| ≤ 2 ^ 53)
    (hy : |x * m12| + |y * m22| + |m32| ≤ 2 ^ 53) :
    Rounded.applyToPoint (binary 52).toRounding ⟨[[(m11:ℝ), m12, 0], [(m21:ℝ), m22, 0], [(m31:ℝ), m32, 1]]⟩ ((x:ℝ), (y:ℝ)) =
      .ok (((x * m11 + y * m21 + m31 : ℤ) : ℝ), ((x * m12 + y * m22 + m32 : ℤ) : ℝ)) := by
  rw [affine_apply]
  have key : ∀ a b c : ℤ, ∀ d e : ℤ, |x * a| + |y * b| + |c| ≤ 2 ^ 53 →
      (binary 52).add ((binary 52).add ((binary 52).mul (x:ℝ) a) ((binary 52).mul (y:ℝ) b)) ((binary 52).mul 1 c) =
        ((x * a + y * b + c : ℤ) : ℝ) := by
    intro a b c _ _ h
    have n1 := abs_nonneg (x * a)
    have n2 := abs_nonneg (y * b)
    have n3 := abs_nonneg c
    have a1 := rnd_int (x * a) 52 (by omega)
    have a2 := rnd_int (y * b) 52 (by omega)
    have a3 := rnd_int c 52 (by omega)
    have t1 := abs_add_le (x * a) (y * b)
    have t2 := abs_add_le (x * a + y * b) c
    have a4 := rnd_int (x * a + y * b) 52 (by omega)
    have a5 := rnd_int (x * a + y * b + c) 52 (by omega)
    push_cast at a1 a2 a3 a4 a5 ⊢
    simp only [Rounding.add, Rounding.mul, one_mul, a1, a2, a3, a4, a5]
  rw [key _ _ _ 0 0 hx, key _ _ _ 0 0 hy]

/-- Scaling by (2, 3) and moving by (10, -20) takes (100, 700) to (210, 2080), exactly. -/
example : Rounded.applyToPoint (binary 52).toRounding ⟨[[2, 0, 0], [0, 3, 0], [10, -20, 1]]⟩ (100, 700) = .ok (210, 2080) := by
  have := C84_integers 2 0 0 3 10 (-20) 100 700 (by norm_num) (by norm_num)
  norm_num at this ⊢
  exact this

end transform

/-! ## C85: midpoints -/

section mid

/-- C85: without rounding `midpoint` and `centerPoint` are those of the exact model. -/
theorem C85_exact (line : Segment ℝ) (b : BoundsRectangle ℝ) :
    Rounded.midpoint Rounding.exact line = PathUtilities.midpoint line ∧
    Rounded.centerPoint Rounding.exact b = PathUtilities.centerPoint b := ⟨rfl, rfl⟩

private theorem mid_range (R : Binary) {a b : ℝ} (ha : R.rnd a = a) (hb : R.rnd b = b) :
    min a b ≤ R.div (R.add a b) 2 ∧ R.div (R.add a b) 2 ≤ max a b := by
  have lo : ∀ c, R.rnd c = c → 2 * c ≤ a + b → c ≤ R.div (R.add a b) 2 := by
    intro c hc h
    have h1 := R.mono _ _ h
    rw [R.double, hc] at h1
    have h2 := R.mono c (R.rnd (a + b) / 2) (by linarith)
    rwa [hc] at h2
  have hi : ∀ c, R.rnd c = c → a + b ≤ 2 * c → R.div (R.add a b) 2 ≤ c := by
    intro c hc h
    have h1 := R.mono _ _ h
    rw [R.double, hc] at h1
    have h2 := R.mono (R.rnd (a + b) / 2) c (by linarith)
    rwa [hc] at h2
  rcases le_total a b with h | h
  · rw [min_eq_left h, max_eq_right h]
    exact ⟨lo a ha (by linarith), hi b hb (by linarith)⟩
  · rw [min_eq_right h, max_eq_left h]
    exact ⟨lo b hb (by linarith), hi a ha (by linarith)⟩

/-- C85: in binary floating point arithmetic the midpoint of a line between two representable points lies between them, in each
coordinate. -/
theorem C85_between (R : Binary) (p q : Pt ℝ) (hp : R.rnd p.1 = p.1 ∧ R.rnd p.2 = p.2) (hq : R.rnd q.1 = q.1 ∧ R.rnd q.2 = q.2) :
    ∃ m, Rounded.midpoint R.toRounding [p, q] = .ok m ∧ min p.1 q.1 ≤ m.1 ∧ m.1 ≤ max p.1 q.1 ∧
      min p.2 q.2 ≤ m.2 ∧ m.2 ≤ max p.2 q.2 := by
  refine ⟨(R.div (R.add p.1 q.1) 2, R.div (R.add p.2 q.2) 2), rfl, ?_⟩
  have x := mid_range R hp.1 hq.1
  have y := mid_range R hp.2 hq.2
  exact ⟨x.1, x.2, y.1, y.2⟩

/-- C85: the centre of a rectangle with representable edges lies in it. -/
theorem C85_center (R : Binary) (b : BoundsRectangle ℝ) (h1 : b.left ≤ b.right) (h2 : b.bottom ≤ b.top)
    (hl : R.rnd b.left = b.left) (hr : R.rnd b.right = b.right) (hb : R.rnd b.bottom = b.bottom) (ht : R.rnd b.top = b.top) :
    ∃ m, Rounded.centerPoint R.toRounding b = .ok m ∧ b.left ≤ m.1 ∧ m.1 ≤ b.right ∧ b.bottom ≤ m.2 ∧ m.2 ≤ b.top := by
  obtain ⟨m, hm, a1, a2, a3, a4⟩ := C85_between R (b.left, b.bottom) (b.right, b.top) ⟨hl, hb⟩ ⟨hr, ht⟩
  simp only [min_eq_left h1, max_eq_right h1, min_eq_left h2, max_eq_right h2] at a1 a2 a3 a4
  exact ⟨m, hm, a1, a2, a3, a4⟩

/-- A rectangle with integer edges. -/
example : ∃ m, Rounded.centerPoint (binary 52).toRounding ⟨-13, 0, 700, 651⟩ = .ok m ∧ -13 ≤ m.1 ∧ m.1 ≤ 700 ∧ 0 ≤ m.2 ∧ m.2 ≤ 651 := by
  have h1 := rnd_int (-13) 52 (by norm_num)
  have h2 := rnd_int 700 52 (by norm_num)
  have h3 := rnd_int 651 52 (by norm_num)
  push_cast at h1 h2 h3
  exact C85_center (binary 52) ⟨-13, 0, 700, 651⟩ (by norm_num) (by norm_num) h1 h2 (binary 52).rnd_zero h3

end mid

end PathLib
