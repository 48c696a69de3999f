import Verif.Model.Rounded
import Verif.Lemmas.FloatRun
import Verif.Lemmas.Relative
import Verif.Props.BezierReduce

/-!
# `simple` in rounded arithmetic: C89
-/

set_option linter.unusedSectionVars false
set_option linter.unusedSimpArgs false

namespace PathLib

open Bezier Spec

/-- The cosine of the angle between two directions. -/
noncomputable def Spec.cosine (u v : Pt ℝ) : ℝ := dot u v / (norm2 u * norm2 v)

/-- `p` has a distance from the line through `a` and `b` that is large enough to tell the side: the cross product is more than the
fraction `g` of the products it is the difference of. -/
def Spec.ClearOf (g : ℝ) (a b p : Pt ℝ) : Prop :=
  g * (|(vec a b).1 * (vec a p).2| + |(vec a b).2 * (vec a p).1|) < |cross (vec a b) (vec a p)|

/-- The inner control points of a cubic are clear of its base line. -/
def Spec.SidesClear (g : ℝ) : Segment ℝ → Prop
  | [a, b, c, d] => ClearOf g a d b ∧ ClearOf g a d c
  | _ => True

section exact

theorem derivative_exact (ps : Segment ℝ) (t : ℝ) : Rounded.derivative Rounding.exact ps t = Bezier.derivative ps t := by
  unfold Rounded.derivative Rounded.firstDerivative Rounded.derivativeOf Bezier.derivative derivativeOf
  rw [dcPoints]
  by_cases h : ps.length > 1
  · rw [if_pos h, if_pos h, pyGet_zero_cons]
    rfl
  · rw [if_neg h, if_neg h, pyGet_nil]
    rfl

theorem normal_exact (ps : Segment ℝ) (t : ℝ) : Rounded.normal Rounding.exact ps t = Bezier.normal ps t := by
  unfold Rounded.normal Bezier.normal
  rw [derivative_exact]
  rfl

/-- C89: without rounding `_derivative`, `normal` and `simple` are those of the exact model. -/
theorem C89_exact (ps : Segment ℝ) (t : ℝ) :
    Rounded.derivative Rounding.exact ps t = Bezier.derivative ps t ∧
    Rounded.normal Rounding.exact ps t = Bezier.normal ps t ∧
    Rounded.simple Rounding.exact ps = Bezier.simple ps := by
  refine ⟨derivative_exact ps t, normal_exact ps t, ?_⟩
  unfold Rounded.simple Bezier.simple
  simp only [normal_exact]
  rfl

end exact

section ends
variable (B : Binary)

/-- The leg of the control polygon, multiplied by the order, as computed. -/
private noncomputable def rleg (c : ℝ) (w : Pt ℝ) : Pt ℝ := (B.mul c (B.rnd w.1), B.mul c (B.rnd w.2))

private theorem sub_one_zero : B.sub 1 0 = 1 := by
  unfold Rounding.sub; rw [sub_zero]; exact B.one

private theorem sub_one_one : B.sub 1 1 = 0 := by
  unfold Rounding.sub; rw [sub_self]; exact B.rnd_zero

private theorem mul_zero_left (x : ℝ) : B.mul 0 x = 0 := by
  unfold Rounding.mul; rw [zero_mul]; exact B.rnd_zero

private theorem mul_zero_right (x : ℝ) : B.mul x 0 = 0 := by
  unfold Rounding.mul; rw [mul_zero]; exact B.rnd_zero

private theorem mul_one_one : B.mul 1 1 = 1 := by
  unfold Rounding.mul; rw [one_mul]; exact B.one

private theorem mul_one_mul (c x : ℝ) : B.mul 1 (B.mul c x) = B.mul c x := by
  unfold Rounding.mul; rw [one_mul, B.idem]

private theorem add_zero_mul (c x : ℝ) : B.add (B.mul c x) 0 = B.mul c x := by
  unfold Rounding.add Rounding.mul; rw [add_zero, B.idem]

private theorem zero_add_mul (c x : ℝ) : B.add 0 (B.mul c x) = B.mul c x := by
  unfold Rounding.add Rounding.mul; rw [zero_add, B.idem]

private theorem add_zero_zero : B.add 0 0 = 0 := by
  unfold Rounding.add; rw [add_zero]; exact B.rnd_zero

private theorem derivative_ends (ps : Segment ℝ) (h : ps.length = 3 ∨ ps.length = 4) :
    Rounded.derivative B.toRounding ps 0 = .ok (rleg B ((ps.length - 1 : ℕ) : ℝ) (legs ps).1) ∧
    Rounded.derivative B.toRounding ps 1 = .ok (rleg B ((ps.length - 1 : ℕ) : ℝ) (legs ps).2) := by
  rcases h with h | h
  · match ps, h with
    | [a, b, c], _ =>
      have ho : order [a, b, c] = 2 := rfl
      constructor
      all_goals
        unfold Rounded.derivative Rounded.firstDerivative Rounded.derivativeOf
        simp only [ho, if_true, Rounded.dcStep, List.tail, List.zipWith, pyGet_zero_cons, pyGet_one_cons, pyGet_two_cons,
          ok_bind, pure_eq_ok, sub_one_zero, sub_one_one, mul_zero_left, mul_one_mul, add_zero_mul, zero_add_mul, add_zero_zero,
          List.length_cons, List.length_nil, Nat.reduceAdd, gt_iff_lt, Nat.one_lt_ofNat, Nat.reduceSub]
        rfl
  · match ps, h with
    | [a, b, c, d], _ =>
      have ho : ¬ order [a, b, c, d] = 2 := by simp [order]
      constructor
      all_goals
        unfold Rounded.derivative Rounded.firstDerivative Rounded.derivativeOf
        simp only [if_neg ho, Rounded.dcStep, List.tail, List.zipWith, pyGet_zero_cons, pyGet_one_cons, pyGet_two_cons,
          ok_bind, pure_eq_ok, sub_one_zero, sub_one_one, mul_zero_left, mul_zero_right, mul_one_one, mul_one_mul, add_zero_mul,
          zero_add_mul, add_zero_zero, if_true,
          List.length_cons, List.length_nil, Nat.reduceAdd, gt_iff_lt, Nat.one_lt_ofNat, Nat.reduceSub]
        rfl

variable {B} (hu : B.u < 1)
include hu

private theorem rleg_rel {c : ℝ} (w : Pt ℝ) :
    B.Rel 2 (c * w.1) (rleg B c w).1 ∧ B.Rel 2 (c * w.2) (rleg B c w).2 := by
  constructor
  · exact ((Rounding.Rel.refl c).mul hu (Rounding.Rel.rnd hu w.1)).mono hu (by omega)
  · exact ((Rounding.Rel.refl c).mul hu (Rounding.Rel.rnd hu w.2)).mono hu (by omega)

/-- The unit normal of a leg, computed. -/
private theorem normal_rel {c : ℝ} (hc : 0 < c) (w : Pt ℝ) :
    let d := rleg B c w
    let q := Rounded.sqrt B.toRounding (B.add (B.mul d.1 d.1) (B.mul d.2 d.2))
    (w = (0, 0) → q = 0) ∧
    (w ≠ (0, 0) → q ≠ 0 ∧ B.Rel 7 (-w.2 / norm2 w) (B.div (-d.2) q) ∧ B.Rel 7 (w.1 / norm2 w) (B.div d.1 q)) := by
  intro d q
  obtain ⟨r1, r2⟩ := rleg_rel hu (c := c) w
  have s1 := r1.mul hu r1
  have s2 := r2.mul hu r2
  have s := Rounding.Rel.add hu (mul_self_nonneg _) (mul_self_nonneg _) s1 s2
  have rq : B.Rel 4 (Real.sqrt (c * w.1 * (c * w.1) + c * w.2 * (c * w.2))) q :=
    Rounding.Rel.sqrt hu (k := 3) (add_nonneg (mul_self_nonneg _) (mul_self_nonneg _)) s
  have e : Real.sqrt (c * w.1 * (c * w.1) + c * w.2 * (c * w.2)) = c * norm2 w := by
    rw [show c * w.1 * (c * w.1) + c * w.2 * (c * w.2) = c ^ 2 * (w.1 ^ 2 + w.2 ^ 2) by ring, Real.sqrt_mul (by positivity),
      Real.sqrt_sq hc.le]
    rfl
  rw [e] at rq
  constructor
  · intro hw
    rw [rq.ne_zero hu, hw, norm2_zero, mul_zero]
  · intro hw
    have hn := norm2_pos hw
    refine ⟨fun h => ?_, ?_, ?_⟩
    · rw [rq.ne_zero hu] at h
      have : 0 < c * norm2 w := by positivity
      linarith
    · have := r2.neg.div hu rq
      rwa [show -(c * w.2) / (c * norm2 w) = -w.2 / norm2 w by field_simp] at this
    · have := r1.div hu rq
      rwa [show (c * w.1) / (c * norm2 w) = w.1 / norm2 w by field_simp] at this

private theorem normal_value (ps : Segment ℝ) (h : ps.length = 3 ∨ ps.length = 4) (t : ℝ) (w : Pt ℝ)
    (ht : t = 0 ∧ w = (legs ps).1 ∨ t = 1 ∧ w = (legs ps).2) :
    (w = (0, 0) → Rounded.normal B.toRounding ps t = .error .zeroDivisionError) ∧
    (w ≠ (0, 0) → ∃ n : Pt ℝ, Rounded.normal B.toRounding ps t = .ok n ∧
      B.Rel 7 (-w.2 / norm2 w) n.1 ∧ B.Rel 7 (w.1 / norm2 w) n.2) := by
  have hc : (0:ℝ) < ((ps.length - 1 : Nat) : ℝ) := by
    have : 0 < ps.length - 1 := by omega
    exact_mod_cast this
  have hd : Rounded.derivative B.toRounding ps t = .ok (rleg B ((ps.length - 1 : ℕ) : ℝ) w) := by
    rcases ht with ⟨rfl, rfl⟩ | ⟨rfl, rfl⟩
    · exact (derivative_ends B ps h).1
    · exact (derivative_ends B ps h).2
  obtain ⟨z, nz⟩ := normal_rel hu hc w
  unfold Rounded.normal
  simp only [hd, ok_bind, Rounded.pdiv]
  constructor
  · intro hw
    rw [if_pos (z hw)]; rfl
  · intro hw
    obtain ⟨hq, a, b⟩ := nz hw
    rw [if_neg hq, if_neg hq]
    exact ⟨_, rfl, a, b⟩

/-- C89: the rounded `normal` at the ends of a curve. A leg of length zero raises `ZeroDivisionError`; otherwise each
coordinate has a relative error of at most seven roundings. -/
theorem C89_normal (ps : Segment ℝ) (h : ps.length = 3 ∨ ps.length = 4) (t : ℝ) (w : Pt ℝ)
    (ht : t = 0 ∧ w = (legs ps).1 ∨ t = 1 ∧ w = (legs ps).2) :
    (w = (0, 0) → Rounded.normal B.toRounding ps t = .error .zeroDivisionError) ∧
    (w ≠ (0, 0) → ∃ n : Pt ℝ, Rounded.normal B.toRounding ps t = .ok n ∧
      |n.1 - -w.2 / norm2 w| ≤ B.gap 7 * |-w.2 / norm2 w| ∧ |n.2 - w.1 / norm2 w| ≤ B.gap 7 * |w.1 / norm2 w|) := by
  obtain ⟨z, nz⟩ := normal_value hu ps h t w ht
  refine ⟨z, fun hw => ?_⟩
  obtain ⟨n, hn, a, b⟩ := nz hw
  exact ⟨n, hn, a.error hu, b.error hu⟩

omit hu in
private theorem abs_terms {u v : Pt ℝ} (hu : u ≠ (0, 0)) (hv : v ≠ (0, 0)) :
    |-u.2 / norm2 u * (-v.2 / norm2 v)| + |u.1 / norm2 u * (v.1 / norm2 v)| ≤ 1 ∧
    -u.2 / norm2 u * (-v.2 / norm2 v) + u.1 / norm2 u * (v.1 / norm2 v) = cosine u v := by
  have pu := norm2_pos hu
  have pv := norm2_pos hv
  have su := norm2_sq u
  have sv := norm2_sq v
  constructor
  · have h1 : (-u.2 / norm2 u) ^ 2 + (u.1 / norm2 u) ^ 2 = 1 := by
      field_simp; rw [su]; ring
    have h2 : (-v.2 / norm2 v) ^ 2 + (v.1 / norm2 v) ^ 2 = 1 := by
      field_simp; rw [sv]; ring
    rw [abs_mul, abs_mul]
    generalize -u.2 / norm2 u = a at *
    generalize u.1 / norm2 u = b at *
    generalize -v.2 / norm2 v = c at *
    generalize v.1 / norm2 v = d at *
    have := sq_abs a
    have := sq_abs b
    have := sq_abs c
    have := sq_abs d
    nlinarith [sq_nonneg (|a| - |c|), sq_nonneg (|b| - |d|)]
  · unfold cosine dot; field_simp; ring

private theorem sum_error {a b a' b' : ℝ} {k : ℕ} (ha : B.Rel k a a') (hb : B.Rel k b b') (h : |a| + |b| ≤ 1) :
    |B.add a' b' - (a + b)| ≤ B.gap (k + 1) := by
  have ea := ha.error hu
  have eb := hb.error hu
  have g0 := Rounding.gap_nonneg hu k
  have gs := Rounding.gap_succ hu k
  have h1 : |a' + b' - (a + b)| ≤ B.gap k := by
    have := abs_add_le (a' - a) (b' - b)
    rw [show a' - a + (b' - b) = a' + b' - (a + b) by ring] at this
    nlinarith
  have h2 : |a' + b'| ≤ 1 + B.gap k := by
    have t1 := abs_add_le (a' + b' - (a + b)) (a + b)
    rw [sub_add_cancel] at t1
    have t2 := abs_add_le a b
    linarith
  have h3 := B.error (a' + b')
  have h4 := abs_add_le (B.rnd (a' + b') - (a' + b')) (a' + b' - (a + b))
  rw [sub_add_sub_cancel] at h4
  have h5 := mul_le_mul_of_nonneg_left h2 B.u_nonneg
  show |B.rnd (a' + b') - (a + b)| ≤ _
  linarith

private theorem simple_tail (ps : Segment ℝ) (h : ps.length = 3 ∨ ps.length = 4) :
    let r : Py Bool := do
      let n1 ← Rounded.normal B.toRounding ps 0
      let n2 ← Rounded.normal B.toRounding ps 1
      let s := B.add (B.mul n1.1 n2.1) (B.mul n1.2 n2.2)
      return decide (|← acos s| < Real.pi / 3)
    (((legs ps).1 = (0, 0) ∨ (legs ps).2 = (0, 0)) → r = .error .zeroDivisionError) ∧
    (((legs ps).1 ≠ (0, 0) ∧ (legs ps).2 ≠ (0, 0)) → ∃ s, |s - cosine (legs ps).1 (legs ps).2| ≤ B.gap 16 ∧
      ((s < -1 ∨ 1 < s) → r = .error .valueError) ∧ (¬ (s < -1 ∨ 1 < s) → r = .ok (decide (1 / 2 < s)))) := by
  intro r
  obtain ⟨a1, a2⟩ := normal_value hu ps h 0 _ (.inl ⟨rfl, rfl⟩)
  obtain ⟨b1, b2⟩ := normal_value hu ps h 1 _ (.inr ⟨rfl, rfl⟩)
  by_cases hz : (legs ps).1 = (0, 0)
  · refine ⟨fun _ => ?_, fun hh => absurd hz hh.1⟩
    simp only [r, a1 hz, error_bind]
  · obtain ⟨n1, e1, p1, q1⟩ := a2 hz
    by_cases hz' : (legs ps).2 = (0, 0)
    · refine ⟨fun _ => ?_, fun hh => absurd hz' hh.2⟩
      simp only [r, e1, b1 hz', ok_bind, error_bind]
    · obtain ⟨n2, e2, p2, q2⟩ := b2 hz'
      refine ⟨fun hh => absurd hh (by push Not; exact ⟨hz, hz'⟩), fun _ => ?_⟩
      obtain ⟨t1, t2⟩ := abs_terms (u := (legs ps).1) (v := (legs ps).2) hz hz'
      refine ⟨B.add (B.mul n1.1 n2.1) (B.mul n1.2 n2.2), ?_, ?_, ?_⟩
      · rw [← t2]
        exact sum_error hu (p1.mul hu p2) (q1.mul hu q2) t1
      · intro hs
        simp only [r, e1, e2, ok_bind, acos]
        rw [if_pos hs]; rfl
      · intro hs
        have hs' := hs
        push Not at hs'
        obtain ⟨y, hy, hiff⟩ := acos_test hs'.1 hs'.2
        simp only [r, e1, e2, ok_bind, hy, pure_eq_ok, hiff]

theorem rounded_angle_sign {a b p : Pt ℝ} (h : ClearOf (B.gap 3) a b p) :
    (Rounded.angle B.toRounding a b p > 0 ↔ butils.angle a b p > 0) ∧
    (Rounded.angle B.toRounding a b p < 0 ↔ butils.angle a b p < 0) := by
  have r1 := (Rounding.Rel.rnd (R := B.toRounding) hu (b.1 - a.1)).mul hu (Rounding.Rel.rnd hu (p.2 - a.2))
  have r2 := (Rounding.Rel.rnd (R := B.toRounding) hu (b.2 - a.2)).mul hu (Rounding.Rel.rnd hu (p.1 - a.1))
  have e1 := r1.error hu
  have e2 := r2.error hu
  unfold Spec.ClearOf at h
  simp only [vec, cross] at h
  unfold Rounded.angle butils.angle butils.atan2
  rw [gt_iff_lt, gt_iff_lt, arg_pos_iff, arg_pos_iff, Complex.arg_neg_iff, Complex.arg_neg_iff]
  simp only
  change |B.mul (B.sub b.1 a.1) (B.sub p.2 a.2) - _| ≤ _ at e1
  change |B.mul (B.sub b.2 a.2) (B.sub p.1 a.1) - _| ≤ _ at e2
  generalize B.mul (B.sub b.1 a.1) (B.sub p.2 a.2) = X at *
  generalize B.mul (B.sub b.2 a.2) (B.sub p.1 a.1) = Y at *
  generalize (b.1 - a.1) * (p.2 - a.2) = x at *
  generalize (b.2 - a.2) * (p.1 - a.1) = y at *
  have hd : |X - Y - (x - y)| < |x - y| := by
    have := abs_sub (X - x) (Y - y)
    rw [show X - x - (Y - y) = X - Y - (x - y) by ring] at this
    linarith
  obtain ⟨ρ, hr, lo, _⟩ := Rounding.Rel.rnd (R := B.toRounding) hu (X - Y)
  have hp : 0 < ρ := (Rounding.pow_base hu 1).1.trans_le lo
  have hS : B.sub X Y = (X - Y) * ρ := hr
  rw [hS]
  rcases lt_trichotomy (x - y) 0 with hn | hn | hn
  · rw [abs_of_neg hn, abs_lt] at hd
    have : (X - Y) * ρ < 0 := mul_neg_of_neg_of_pos (by linarith) hp
    constructor <;> constructor <;> intro hh
    · rcases hh with hh | hh <;> linarith
    · rcases hh with hh | hh <;> linarith
    · exact hn
    · exact this
  · rw [hn, abs_zero] at hd
    exact absurd hd (by simp)
  · rw [abs_of_pos hn, abs_lt] at hd
    have : 0 < (X - Y) * ρ := mul_pos (by linarith) hp
    constructor <;> constructor <;> intro hh
    · exact .inl hn
    · exact .inl this
    · linarith
    · linarith

/-- What `simple` does before the comparison of the normals. -/
private theorem simple_cases (ps : Segment ℝ) (h : ps.length = 3 ∨ ps.length = 4) :
    let r : Py Bool := do
      let n1 ← Rounded.normal B.toRounding ps 0
      let n2 ← Rounded.normal B.toRounding ps 1
      let s := B.add (B.mul n1.1 n2.1) (B.mul n1.2 n2.2)
      return decide (|← acos s| < Real.pi / 3)
    (Rounded.simple B.toRounding ps = r ∨ Rounded.simple B.toRounding ps = .ok false) ∧
    (SidesClear (B.gap 3) ps →
      (SShaped ps → Rounded.simple B.toRounding ps = .ok false) ∧ (¬ SShaped ps → Rounded.simple B.toRounding ps = r)) := by
  rcases h with h | h
  · match ps, h with
    | [a, b, c], _ =>
      intro r
      have ho : ¬ order [a, b, c] = 3 := by simp [order]
      have : Rounded.simple B.toRounding [a, b, c] = r := by
        unfold Rounded.simple
        simp only [if_neg ho, pure_eq_ok, ok_bind, Bool.false_eq_true, if_false, r]
      exact ⟨.inl this, fun _ => ⟨fun hS => absurd hS (by simp [SShaped]), fun _ => this⟩⟩
  · match ps, h with
    | [a, b, c, d], _ =>
      intro r
      have ho : order [a, b, c, d] = 3 := rfl
      have e : Rounded.simple B.toRounding [a, b, c, d] =
          if (Rounded.angle B.toRounding a d b > 0 ∧ Rounded.angle B.toRounding a d c < 0) ∨
            (Rounded.angle B.toRounding a d b < 0 ∧ Rounded.angle B.toRounding a d c > 0) then .ok false else r := by
        unfold Rounded.simple
        simp only [if_pos ho, pyGet_zero_cons, pyGet_one_cons, pyGet_two_cons, pyGet_three_cons, pure_eq_ok, ok_bind,
          decide_eq_true_eq, r]
      rw [e]
      refine ⟨?_, fun hc => ?_⟩
      · by_cases hh : (Rounded.angle B.toRounding a d b > 0 ∧ Rounded.angle B.toRounding a d c < 0) ∨
            (Rounded.angle B.toRounding a d b < 0 ∧ Rounded.angle B.toRounding a d c > 0)
        · rw [if_pos hh]; exact .inr rfl
        · rw [if_neg hh]; exact .inl rfl
      · obtain ⟨p1, p2⟩ := rounded_angle_sign hu hc.1
        obtain ⟨q1, q2⟩ := rounded_angle_sign hu hc.2
        have hiff : ((Rounded.angle B.toRounding a d b > 0 ∧ Rounded.angle B.toRounding a d c < 0) ∨
            (Rounded.angle B.toRounding a d b < 0 ∧ Rounded.angle B.toRounding a d c > 0)) ↔ SShaped [a, b, c, d] := by
          rw [p1, p2, q1, q2, angle_pos, angle_neg, angle_pos, angle_neg]
          rfl
        exact ⟨fun hS => if_pos (hiff.mpr hS), fun hS => if_neg (fun hh => hS (hiff.mp hh))⟩

/-- C89: `simple` in rounded arithmetic gives the exact answer when the cosine of the angle between the first and the last leg is
not within the error bound of one of its thresholds -1, 1/2 and 1, and the inner control points of a cubic are clear of its base line.
Legs of length zero are recognized exactly. -/
theorem C89_simple (ps : Segment ℝ) (h : ps.length = 3 ∨ ps.length = 4) (hs : SidesClear (B.gap 3) ps)
    (hc : (legs ps).1 ≠ (0, 0) → (legs ps).2 ≠ (0, 0) →
      |cosine (legs ps).1 (legs ps).2| ≤ 1 - B.gap 16 ∧ B.gap 16 < |cosine (legs ps).1 (legs ps).2 - 1 / 2|) :
    Rounded.simple B.toRounding ps = Bezier.simple ps := by
  classical
  obtain ⟨-, hcase⟩ := simple_cases hu ps h
  obtain ⟨c1, c2⟩ := hcase hs
  obtain ⟨z, nz⟩ := simple_tail hu ps h
  rw [C71_simple ps h]
  by_cases hS : SShaped ps
  · rw [if_pos hS, c1 hS]
  · rw [if_neg hS, c2 hS]
    by_cases hz : (legs ps).1 = (0, 0) ∨ (legs ps).2 = (0, 0)
    · rw [if_pos hz]; exact z hz
    · rw [if_neg hz]
      push Not at hz
      obtain ⟨s, es, _, ok⟩ := nz hz
      obtain ⟨g1, g2⟩ := hc hz.1 hz.2
      have hpos : 0 < norm2 (legs ps).1 * norm2 (legs ps).2 := mul_pos (norm2_pos hz.1) (norm2_pos hz.2)
      rw [abs_le] at g1 es
      have hin : ¬ (s < -1 ∨ 1 < s) := by push Not; constructor <;> linarith
      refine (ok hin).trans ?_
      congr 1
      rw [decide_eq_decide]
      have key : (norm2 (legs ps).1 * norm2 (legs ps).2 < 2 * dot (legs ps).1 (legs ps).2) ↔
          1 / 2 < cosine (legs ps).1 (legs ps).2 := by
        unfold cosine
        rw [lt_div_iff₀ hpos]
        constructor <;> intro <;> linarith
      rw [key]
      rcases lt_or_ge (cosine (legs ps).1 (legs ps).2) (1 / 2) with hlt | hge
      · rw [abs_of_neg (by linarith)] at g2
        constructor <;> intro <;> linarith
      · rw [abs_of_nonneg (by linarith)] at g2
        constructor <;> intro <;> linarith [Rounding.gap_nonneg hu 16]

/-- C89: all the ways in which `simple` can raise in rounded arithmetic: a leg of length zero, or (impossible without rounding) the
argument of `math.acos` is beyond 1 or -1 because the legs are parallel up to the error bound. -/
theorem C89_raises (ps : Segment ℝ) (h : ps.length = 3 ∨ ps.length = 4) (e : PyErr)
    (he : Rounded.simple B.toRounding ps = .error e) :
    (e = .zeroDivisionError ∧ ((legs ps).1 = (0, 0) ∨ (legs ps).2 = (0, 0))) ∨
    (e = .valueError ∧ (legs ps).1 ≠ (0, 0) ∧ (legs ps).2 ≠ (0, 0) ∧ 1 - B.gap 16 < |cosine (legs ps).1 (legs ps).2|) := by
  obtain ⟨hcase, -⟩ := simple_cases hu ps h
  obtain ⟨z, nz⟩ := simple_tail hu ps h
  rcases hcase with hr | hr
  · by_cases hz : (legs ps).1 = (0, 0) ∨ (legs ps).2 = (0, 0)
    · left
      rw [hr, z hz] at he
      cases he
      exact ⟨rfl, hz⟩
    · right
      push Not at hz
      obtain ⟨s, es, bad, ok⟩ := nz hz
      by_cases hs : s < -1 ∨ 1 < s
      · rw [hr, bad hs] at he
        cases he
        refine ⟨rfl, hz.1, hz.2, ?_⟩
        rw [abs_le] at es
        rw [lt_abs]
        rcases hs with hs | hs
        · right; linarith
        · left; linarith
      · rw [hr, ok hs] at he
        cases he
  · rw [hr] at he; cases he

end ends

/-- C89: in Python's `float` the error bounds are less than 2e-15. -/
theorem C89_float : (binary 52).u < 1 ∧ (binary 52).gap 3 < 4 / 10 ^ 16 ∧ (binary 52).gap 16 < 2 / 10 ^ 15 := by
  have e : (binary 52).u = 2 ^ (-53 : ℤ) := rfl
  refine ⟨?_, ?_, ?_⟩
  · rw [e]; norm_num
  · unfold Rounding.gap; rw [e]; norm_num
  · unfold Rounding.gap; rw [e]; norm_num

/-- C89: in Python's `float`, `simple()` raises `ValueError` for the straight quadratic (0,0), (3,3), (6,6), which is simple: the
scalar product of its two unit normals is rounded to a number above 1, where `math.acos` is not defined. -/
theorem C89_counterexample :
    Rounded.simple (binary 52).toRounding [(0, 0), (3, 3), (6, 6)] = .error .valueError ∧
    Bezier.simple [(0, 0), (3, 3), (6, 6)] = .ok true := by
  constructor
  · have hs : ([(0, 0), (3, 3), (6, 6)] : Segment ℝ) = Flt.seg [(0, 0), (3, 3), (6, 6)] := by
      simp [Flt.seg, Flt.pt]
    rw [hs]
    exact (Flt.simple_run _).trans (by decide +kernel)
  · rw [C71_simple _ (by simp), if_neg (by simp [SShaped]), if_neg (by norm_num [legs, vec])]
    have := norm2_sq ((3, 3) : Pt ℝ)
    norm_num [legs, vec, dot]
    nlinarith

/-- The hypotheses of `C89_simple` for a cubic arch in `float`: its legs (0,1) and (1,0) enclose a right angle. -/
example : Rounded.simple (binary 52).toRounding [(0, 0), (0, 1), (1, 2), (2, 2)] =
    Bezier.simple [(0, 0), (0, 1), (1, 2), (2, 2)] := by
  obtain ⟨f1, f2, f3⟩ := C89_float
  refine C89_simple f1 _ (by simp) ?_ ?_
  · constructor <;> norm_num [ClearOf, vec, cross] <;> nlinarith
  · intro _ _
    norm_num [cosine, legs, vec, dot]
    constructor <;> linarith

/-- The normal at the start of that cubic is the one of the exact model up to rounding. -/
example : ∃ n : Pt ℝ, Rounded.normal (binary 52).toRounding [(0, 0), (0, 1), (1, 2), (2, 2)] 0 = .ok n ∧
    |n.1 - -1| ≤ (binary 52).gap 7 ∧ n.2 = 0 := by
  obtain ⟨f1, f2, f3⟩ := C89_float
  obtain ⟨n, hn, h1, h2⟩ := (C89_normal f1 [(0, 0), (0, 1), (1, 2), (2, 2)] (by simp) 0 (0, 1)
    (.inl ⟨rfl, by simp [legs, vec]⟩)).2 (by simp)
  refine ⟨n, hn, ?_, ?_⟩
  · simpa [norm2] using h1
  · simpa [norm2] using h2

end PathLib
