import Verif.Props.BezierShape
import Verif.Props.BezierBounds

set_option linter.unusedSectionVars false
set_option linter.unusedSimpArgs false

/-!
# Splitting a curve into simple pieces: C48, C71
-/

namespace PathLib
open Spec Bezier

/-! ## C71 -/

/-- The direction from a point to another. -/
def Spec.vec (p q : Pt ℝ) : Pt ℝ := (q.1 - p.1, q.2 - p.2)

/-- Scalar product. -/
def Spec.dot (u v : Pt ℝ) : ℝ := u.1 * v.1 + u.2 * v.2

/-- Cross product: positive when `v` points to the left of `u`. -/
def Spec.cross (u v : Pt ℝ) : ℝ := u.1 * v.2 - u.2 * v.1

/-- Length of a vector. -/
noncomputable def Spec.norm2 (u : Pt ℝ) : ℝ := Real.sqrt (u.1 ^ 2 + u.2 ^ 2)

/-- `p` is to the left of the directed line from `a` to `b`, or on it behind `a`. -/
def Spec.LeftOf (a b p : Pt ℝ) : Prop :=
  0 < cross (vec a b) (vec a p) ∨ (cross (vec a b) (vec a p) = 0 ∧ dot (vec a b) (vec a p) < 0)

/-- `p` is to the right of the directed line from `a` to `b`. -/
def Spec.RightOf (a b p : Pt ℝ) : Prop := cross (vec a b) (vec a p) < 0

/-- The two inner control points of a cubic are on different sides of its base line. -/
def Spec.SShaped : Segment ℝ → Prop
  | [a, b, c, d] => (LeftOf a d b ∧ RightOf a d c) ∨ (RightOf a d b ∧ LeftOf a d c)
  | _ => False

theorem arg_pos_iff (z : ℂ) : 0 < Complex.arg z ↔ 0 < z.im ∨ (z.im = 0 ∧ z.re < 0) := by
  constructor
  · intro h
    rcases lt_trichotomy z.im 0 with h' | h' | h'
    · exact absurd (Complex.arg_neg_iff.mpr h') (by linarith)
    · right
      refine ⟨h', ?_⟩
      by_contra hc
      have := Complex.arg_eq_zero_iff.mpr ⟨not_lt.mp hc, h'⟩
      linarith
    · exact .inl h'
  · rintro (h | ⟨h1, h2⟩)
    · have h0 : 0 ≤ Complex.arg z := Complex.arg_nonneg_iff.mpr h.le
      rcases h0.lt_or_eq with h' | h'
      · exact h'
      · rw [eq_comm, Complex.arg_eq_zero_iff] at h'
        linarith [h'.2]
    · rw [Complex.arg_eq_pi_iff.mpr ⟨h2, h1⟩]
      exact Real.pi_pos

theorem angle_pos (a b p : Pt ℝ) : butils.angle a b p > 0 ↔ LeftOf a b p := by
  unfold butils.angle butils.atan2 LeftOf cross dot vec
  rw [gt_iff_lt, arg_pos_iff]

theorem angle_neg (a b p : Pt ℝ) : butils.angle a b p < 0 ↔ RightOf a b p := by
  unfold butils.angle butils.atan2 RightOf cross vec
  rw [Complex.arg_neg_iff]

/-- First and last leg of the control polygon. -/
def Spec.legs : Segment ℝ → Pt ℝ × Pt ℝ
  | [a, b, c] => (vec a b, vec b c)
  | [a, b, c, d] => (vec a b, vec c d)
  | _ => ((0, 0), (0, 0))

theorem norm2_pos {u : Pt ℝ} (h : u ≠ (0, 0)) : 0 < norm2 u := by
  unfold norm2
  apply Real.sqrt_pos.mpr
  by_contra hc
  apply h
  have h1 := sq_nonneg u.1
  have h2 := sq_nonneg u.2
  exact Prod.ext (pow_eq_zero_iff two_ne_zero |>.mp (by linarith)) (pow_eq_zero_iff two_ne_zero |>.mp (by linarith))

theorem norm2_sq (u : Pt ℝ) : norm2 u ^ 2 = u.1 ^ 2 + u.2 ^ 2 := by
  unfold norm2
  rw [Real.sq_sqrt (by positivity)]

theorem norm2_zero : norm2 (0, 0) = 0 := by simp [norm2]

/-- The derivative at an end is a positive multiple of a leg. -/
theorem normal_end (ps : Segment ℝ) (h : ps.length = 3 ∨ ps.length = 4) (t : ℝ) (u : Pt ℝ) (k : ℝ) (hk : 0 < k)
    (hd : curve (dcStep ps) t = (k * u.1, k * u.2)) :
    (u = (0, 0) → normal ps t = .error .zeroDivisionError) ∧
    (u ≠ (0, 0) → normal ps t = .ok (-u.2 / norm2 u, u.1 / norm2 u)) := by
  unfold normal
  rw [derivative_ok ps h t, ok_bind, hd]
  have e : Real.sqrt (k * u.1 * (k * u.1) + k * u.2 * (k * u.2)) = k * norm2 u := by
    rw [show k * u.1 * (k * u.1) + k * u.2 * (k * u.2) = k ^ 2 * (u.1 ^ 2 + u.2 ^ 2) by ring, Real.sqrt_mul (by positivity),
      Real.sqrt_sq hk.le]
    rfl
  simp only [e]
  constructor
  · intro hu; rw [hu, norm2_zero]; simp
  · intro hu
    have hp := norm2_pos hu
    have hne : k * norm2 u ≠ 0 := by positivity
    simp only [pdiv_of_ne _ hne, ok_bind, pure_eq_ok]
    congr 2
    · field_simp
    · field_simp

theorem legs_normal (ps : Segment ℝ) (h : ps.length = 3 ∨ ps.length = 4) :
    ((legs ps).1 = (0, 0) → normal ps 0 = .error .zeroDivisionError) ∧
    ((legs ps).1 ≠ (0, 0) → normal ps 0 = .ok (-(legs ps).1.2 / norm2 (legs ps).1, (legs ps).1.1 / norm2 (legs ps).1)) ∧
    ((legs ps).2 = (0, 0) → normal ps 1 = .error .zeroDivisionError) ∧
    ((legs ps).2 ≠ (0, 0) → normal ps 1 = .ok (-(legs ps).2.2 / norm2 (legs ps).2, (legs ps).2.1 / norm2 (legs ps).2)) := by
  have key : curve (dcStep ps) 0 = (((ps.length - 1 : Nat) : ℝ) * (legs ps).1.1, ((ps.length - 1 : Nat) : ℝ) * (legs ps).1.2) ∧
      curve (dcStep ps) 1 = (((ps.length - 1 : Nat) : ℝ) * (legs ps).2.1, ((ps.length - 1 : Nat) : ℝ) * (legs ps).2.2) := by
    rcases h with h | h
    · match ps, h with
      | [a, b, c], _ => constructor <;> simp [dcStep, curve_two, legs, vec]
    · match ps, h with
      | [a, b, c, d], _ => constructor <;> simp [dcStep, curve_three, legs, vec]
  have hk : (0:ℝ) < ((ps.length - 1 : Nat) : ℝ) := by
    have : 0 < ps.length - 1 := by omega
    exact_mod_cast this
  obtain ⟨a1, a2⟩ := normal_end ps h 0 _ _ hk key.1
  obtain ⟨b1, b2⟩ := normal_end ps h 1 _ _ hk key.2
  exact ⟨a1, a2, b1, b2⟩

/-- The test of `simple`: less than 60 degrees. -/
theorem acos_test {x : ℝ} (h1 : -1 ≤ x) (h2 : x ≤ 1) :
    ∃ y, acos x = .ok y ∧ (|y| < Real.pi / 3 ↔ 1 / 2 < x) := by
  refine ⟨Real.arccos x, ?_, ?_⟩
  · unfold acos; rw [if_neg (by push Not; exact ⟨h1, h2⟩)]
  · rw [abs_of_nonneg (Real.arccos_nonneg x)]
    have e : Real.arccos (1 / 2) = Real.pi / 3 := by
      rw [← Real.cos_pi_div_three]
      exact Real.arccos_cos (by positivity) (by linarith [Real.pi_pos])
    rw [← e]
    constructor
    · intro h
      by_contra hc
      have := Real.antitone_arccos (not_lt.mp hc)
      linarith
    · intro h
      exact Real.strictAntiOn_arccos ⟨by norm_num, by norm_num⟩ ⟨h1, h2⟩ h

/-- `simple` after the test of the sides. -/
private theorem simple_rest (ps : Segment ℝ) (h : ps.length = 3 ∨ ps.length = 4) :
    let r : Py Bool := do
      let n1 ← normal ps 0
      let n2 ← normal ps 1
      let s := n1.1 * n2.1 + n1.2 * n2.2
      return decide (|← acos s| < Real.pi / 3)
    (((legs ps).1 = (0, 0) ∨ (legs ps).2 = (0, 0)) → r = .error .zeroDivisionError) ∧
    (((legs ps).1 ≠ (0, 0) ∧ (legs ps).2 ≠ (0, 0)) → ∃ b, r = .ok b ∧
      (b = true ↔ norm2 (legs ps).1 * norm2 (legs ps).2 < 2 * dot (legs ps).1 (legs ps).2)) := by
  intro r
  obtain ⟨a1, a2, b1, b2⟩ := legs_normal ps h
  by_cases hu : (legs ps).1 = (0, 0)
  · refine ⟨fun _ => ?_, fun hh => absurd hu hh.1⟩
    simp only [r, a1 hu, error_bind]
  · by_cases hv : (legs ps).2 = (0, 0)
    · refine ⟨fun _ => ?_, fun hh => absurd hv hh.2⟩
      simp only [r, a2 hu, b1 hv, ok_bind, error_bind]
    · refine ⟨fun hh => absurd hh (by push Not; exact ⟨hu, hv⟩), fun _ => ?_⟩
      simp only [r, a2 hu, b2 hv, ok_bind]
      generalize (legs ps).1 = u at *
      generalize (legs ps).2 = v at *
      have pu := norm2_pos hu
      have pv := norm2_pos hv
      have su := norm2_sq u
      have sv := norm2_sq v
      have e : -u.2 / norm2 u * (-v.2 / norm2 v) + u.1 / norm2 u * (v.1 / norm2 v) = dot u v / (norm2 u * norm2 v) := by
        unfold dot; field_simp; ring
      rw [e]
      have cs : dot u v ^ 2 ≤ (norm2 u * norm2 v) ^ 2 := by
        rw [mul_pow, su, sv]; unfold dot
        nlinarith [sq_nonneg (u.1 * v.2 - u.2 * v.1)]
      have pp : 0 < norm2 u * norm2 v := by positivity
      have habs := abs_le_of_sq_le_sq' cs pp.le
      obtain ⟨y, hy, hiff⟩ := acos_test (x := dot u v / (norm2 u * norm2 v))
        (by rw [le_div_iff₀ pp]; linarith [habs.1]) (by rw [div_le_iff₀ pp]; linarith [habs.2])
      rw [hy]
      refine ⟨_, rfl, ?_⟩
      rw [decide_eq_true_iff, hiff, lt_div_iff₀ pp]
      constructor <;> intro hh <;> linarith

open Classical in
/-- C71: `simple()` for quadratics and cubics. A cubic whose inner control points are on different sides of its base line is not
simple. Otherwise the result says whether the first and the last leg of the control polygon enclose an angle of less than 60 degrees
(their scalar product is more than half the product of their lengths), and a leg of length zero raises `ZeroDivisionError`. -/
theorem C71_simple (ps : Segment ℝ) (h : ps.length = 3 ∨ ps.length = 4) :
    simple ps = if SShaped ps then .ok false
      else if (legs ps).1 = (0, 0) ∨ (legs ps).2 = (0, 0) then .error .zeroDivisionError
      else .ok (decide (norm2 (legs ps).1 * norm2 (legs ps).2 < 2 * dot (legs ps).1 (legs ps).2)) := by
  obtain ⟨r1, r2⟩ := simple_rest ps h
  have fin : ∀ early : Bool, (early = true ↔ SShaped ps) →
      (if early = true then (pure false : Py Bool) else do
        let n1 ← normal ps 0
        let n2 ← normal ps 1
        let s := n1.1 * n2.1 + n1.2 * n2.2
        return decide (|← acos s| < Real.pi / 3)) = if SShaped ps then .ok false
      else if (legs ps).1 = (0, 0) ∨ (legs ps).2 = (0, 0) then .error .zeroDivisionError
      else .ok (decide (norm2 (legs ps).1 * norm2 (legs ps).2 < 2 * dot (legs ps).1 (legs ps).2)) := by
    intro early he
    by_cases hS : SShaped ps
    · rw [if_pos hS, if_pos (he.mpr hS)]; rfl
    · rw [if_neg hS, if_neg (fun hh => hS (he.mp hh))]
      by_cases hz : (legs ps).1 = (0, 0) ∨ (legs ps).2 = (0, 0)
      · rw [if_pos hz]; exact r1 hz
      · rw [if_neg hz]
        push Not at hz
        obtain ⟨b, hb, hb2⟩ := r2 hz
        rw [hb]
        congr 1
        by_cases hc : norm2 (legs ps).1 * norm2 (legs ps).2 < 2 * dot (legs ps).1 (legs ps).2
        · rw [hb2.mpr hc]; simp [hc]
        · have : b = false := by
            rw [← Bool.not_eq_true]; exact fun hh => hc (hb2.mp hh)
          rw [this]; simp [hc]
  rcases h with h | h
  · match ps, h with
    | [a, b, c], _ =>
      have ho : ¬ order [a, b, c] = 3 := by simp [order]
      unfold simple
      simp only [if_neg ho, pure_eq_ok, ok_bind]
      exact fin false (by simp [SShaped])
  · match ps, h with
    | [a, b, c, d], _ =>
      have ho : order [a, b, c, d] = 3 := rfl
      unfold simple
      simp only [if_pos ho, pyGet_zero_cons, pyGet_one_cons, pyGet_two_cons, pyGet_three_cons, pure_eq_ok, ok_bind]
      exact fin _ (by
        rw [decide_eq_true_iff]
        simp only [angle_pos, angle_neg, SShaped])

private theorem simple_outcome (ps : Segment ℝ) (h : ps.length = 3 ∨ ps.length = 4) :
    simple ps = .error .zeroDivisionError ∨ simple ps = .ok true ∨ simple ps = .ok false := by
  classical
  rw [C71_simple ps h]
  split_ifs
  · exact .inr (.inr rfl)
  · exact .inl rfl
  · cases decide (norm2 (legs ps).1 * norm2 (legs ps).2 < 2 * dot (legs ps).1 (legs ps).2)
    · exact .inr (.inr rfl)
    · exact .inr (.inl rfl)

/-- The arch (0,0), (1,1), (3,1) turns by 45 degrees; the arch (0,0), (1,2), (2,0) by more than 60. -/
example : simple [((0:ℝ), 0), (1, 1), (3, 1)] = .ok true ∧ simple [((0:ℝ), 0), (1, 2), (2, 0)] = .ok false ∧
    simple [((0:ℝ), 0), (1, 1), (2, -1), (3, 0)] = .ok false ∧
    simple [((0:ℝ), 0), (0, 0), (2, -1)] = .error .zeroDivisionError := by
  classical
  refine ⟨?_, ?_, ?_, ?_⟩ <;> rw [C71_simple _ (by simp)]
  · have e : Real.sqrt (1 + 1) < 2 := by
      rw [Real.sqrt_lt' (by norm_num)]; norm_num
    rw [if_neg (by simp [SShaped]), if_neg (by simp [legs, vec]; norm_num)]
    simp [legs, vec, norm2, dot]
    norm_num at e ⊢
  · rw [if_neg (by simp [SShaped]), if_neg (by simp [legs, vec])]
    simp [legs, vec, norm2, dot]
    norm_num
  · rw [if_pos]
    left
    constructor
    · left; simp [cross, vec]; 
    · simp [RightOf, cross, vec]
  · rw [if_neg (by simp [SShaped]), if_pos (by left; simp [legs, vec])]

/-! ## C48 -/

/-- The curves of the list are consecutive parts of the curve with control points `ps`: the first starts at parameter `a`, every one starts
where the one before ends, and the last ends at `e`. The parameters of a part are its `_t1` and `_t2`. -/
def Spec.TilesFrom (ps : Segment ℝ) (a e : ℝ) : List Bezier → Prop
  | [] => a = e
  | p :: rest => p.t1 = a ∧ p.t1 < p.t2 ∧ p.controlPoints.length = ps.length ∧
      (∀ s, curve p.controlPoints s = curve ps (p.t1 + s * (p.t2 - p.t1))) ∧ TilesFrom ps p.t2 e rest

private theorem tiles_append {ps : Segment ℝ} {a m e : ℝ} {l1 l2 : List Bezier} (h1 : TilesFrom ps a m l1)
    (h2 : TilesFrom ps m e l2) : TilesFrom ps a e (l1 ++ l2) := by
  induction l1 generalizing a with
  | nil => have : a = m := h1; rw [this]; exact h2
  | cons p l ih =>
    obtain ⟨a1, a2, a3, a4, a5⟩ := h1
    exact ⟨a1, a2, a3, a4, ih a5⟩

/-- The part of `p1` between two parameters, computed by `split`, is simple. -/
private def SimpleOn (p1 : Bezier) (a b : ℝ) : Prop :=
  ∃ seg, splitPiece p1 a b = .ok seg ∧ simple seg.controlPoints = .ok true

/-- The part of a curve between two parameters exists and is not simple. -/
def Spec.NotSimpleOn (ps : Segment ℝ) (a b : ℝ) : Prop :=
  ∃ qs : Segment ℝ, qs.length = ps.length ∧ (∀ s, curve qs s = curve ps (a + s * (b - a))) ∧ simple qs = .ok false

theorem splitPiece_ok (b : Bezier) (hb : QuadOrCubic b) (t1 t2 : ℝ) (h2 : t2 ≠ 0) (h1 : t1 ≠ 1 ∨ t2 = 1) :
    ∃ p, splitPiece b t1 t2 = .ok p ∧ p.controlPoints.length = b.controlPoints.length ∧
      (∀ s, curve p.controlPoints s = curve b.controlPoints (t1 + s * (t2 - t1))) := by
  obtain ⟨p, hp, _, hl, _, _, hc⟩ := split_cases b hb t1 t2 h2 h1
  refine ⟨p, ?_, hl, hc⟩
  unfold splitPiece
  rw [hp]; rfl

/-- The curve stops at `t`: the derivatives of both coordinates vanish. -/
def Spec.StopsAt (ps : Segment ℝ) (t : ℝ) : Prop :=
  HasDerivAt (fun t => (curve ps t).1) 0 t ∧ HasDerivAt (fun t => (curve ps t).2) 0 t

theorem leg_deriv (qs : Segment ℝ) (h : qs.length = 3 ∨ qs.length = 4) :
    ((legs qs).1 = (0, 0) → StopsAt qs 0) ∧ ((legs qs).2 = (0, 0) → StopsAt qs 1) := by
  have hd := hasDerivAt_curve_step qs (by omega)
  have key : ((legs qs).1 = (0, 0) → curve (dcStep qs) 0 = (0, 0)) ∧ ((legs qs).2 = (0, 0) → curve (dcStep qs) 1 = (0, 0)) := by
    rcases h with h | h
    · match qs, h with
      | [a, b, c], _ =>
        constructor <;> · intro hh; simp [legs, vec] at hh; simp [dcStep, curve_two, hh]
    · match qs, h with
      | [a, b, c, d], _ =>
        constructor <;> · intro hh; simp [legs, vec] at hh; simp [dcStep, curve_three, hh]
  constructor
  · intro hh
    have := hd 0
    rw [key.1 hh] at this
    exact this
  · intro hh
    have := hd 1
    rw [key.2 hh] at this
    exact this

theorem stops_sub {ps qs : Segment ℝ} {a b s : ℝ} (hne : a ≠ b)
    (hc : ∀ s, curve qs s = curve ps (a + s * (b - a))) (h : StopsAt qs s) : StopsAt ps (a + s * (b - a)) := by
  have hne' : b - a ≠ 0 := sub_ne_zero.mpr hne.symm
  have inv : ∀ t, curve ps t = curve qs ((t - a) / (b - a)) := by
    intro t; rw [hc]; congr 1; field_simp; ring
  have hin : HasDerivAt (fun t : ℝ => (t - a) / (b - a)) (1 / (b - a)) (a + s * (b - a)) :=
    ((hasDerivAt_id _).sub_const a).div_const _
  have hs : (a + s * (b - a) - a) / (b - a) = s := by field_simp; ring
  constructor
  · have h1 : HasDerivAt (fun t => (curve qs t).1) 0 ((a + s * (b - a) - a) / (b - a)) := by rw [hs]; exact h.1
    have := HasDerivAt.comp (a + s * (b - a)) h1 hin
    simp only [inv]
    simpa [Function.comp_def] using this
  · have h1 : HasDerivAt (fun t => (curve qs t).2) 0 ((a + s * (b - a) - a) / (b - a)) := by rw [hs]; exact h.2
    have := HasDerivAt.comp (a + s * (b - a)) h1 hin
    simp only [inv]
    simpa [Function.comp_def] using this

/-- A part on which `simple` raises begins or ends where the curve stops. -/
private theorem simple_raises {ps qs : Segment ℝ} {a b : ℝ} (hq : qs.length = 3 ∨ qs.length = 4) (h0 : 0 ≤ a) (hlt : a < b)
    (h1 : b ≤ 1) (hc : ∀ s, curve qs s = curve ps (a + s * (b - a))) (h : simple qs = .error .zeroDivisionError) :
    ∃ t, 0 ≤ t ∧ t ≤ 1 ∧ StopsAt ps t := by
  classical
  rw [C71_simple qs hq] at h
  split_ifs at h with h2 h3
  rcases h3 with h3 | h3
  · have := stops_sub hlt.ne hc ((leg_deriv qs hq).1 h3)
    rw [show a + 0 * (b - a) = a by ring] at this
    exact ⟨a, h0, by linarith, this⟩
  · have := stops_sub hlt.ne hc ((leg_deriv qs hq).2 h3)
    rw [show a + 1 * (b - a) = b by ring] at this
    exact ⟨b, by linarith, h1, this⟩

/-- What the second pass does to one curve `p1`, itself the part of the curve `ps` between `p1._t1` and `p1._t2`. -/
private theorem reduceLoop_spec (ps : Segment ℝ) (p1 : Bezier) (hq : QuadOrCubic p1)
    (hl : p1.controlPoints.length = ps.length) (h0 : 0 ≤ p1.t1) (hlt : p1.t1 < p1.t2) (h1 : p1.t2 ≤ 1)
    (hc : ∀ s, curve p1.controlPoints s = curve ps (p1.t1 + s * (p1.t2 - p1.t1))) (n : Nat) :
    ∀ (i j : Nat) (t1 t2 : ℝ) (h : t1 < t2), t1 = i / 100 → t2 = j / 100 → i < j → i ≤ 99 → j ≤ 101 → 201 - i - j ≤ n →
      (∀ j', i < j' → j' < j → SimpleOn p1 (i / 100) ((j' : Nat) / 100)) →
      match reduceLoop p1 t1 t2 h with
      | .error e => e = .zeroDivisionError ∧ ∃ t, 0 ≤ t ∧ t ≤ 1 ∧ StopsAt ps t
      | .ok none => ∃ α β, p1.t1 ≤ α ∧ α < β ∧ β ≤ p1.t2 ∧ β - α = (p1.t2 - p1.t1) / 100 ∧ NotSimpleOn ps α β
      | .ok (some (l, tEnd)) => tEnd < 1 ∧ SimpleOn p1 tEnd 1 ∧
          TilesFrom ps (p1.t1 + (p1.t2 - p1.t1) * t1) (p1.t1 + (p1.t2 - p1.t1) * tEnd) l ∧
          ∀ p ∈ l, simple p.controlPoints = .ok true := by
  induction n with
  | zero => intro i j; intros; omega
  | succ n ih =>
    intro i j t1 t2 h ht1 ht2 hij hi hj hn hs
    have hi' : (i:ℝ) ≤ 99 := by exact_mod_cast hi
    have hi0 : (0:ℝ) ≤ i := by positivity
    have hij' : (i:ℝ) + 1 ≤ j := by exact_mod_cast hij
    have one : t1 ≠ 1 := by rw [ht1]; intro e; linarith
    have z : t2 ≠ 0 := by rw [ht2]; intro e; linarith
    rw [reduceLoop]
    by_cases h2 : t2 ≤ 1
    · have hj' : j ≤ 100 := by
        have : (j:ℝ) ≤ 100 := by rw [ht2] at h2; linarith
        exact_mod_cast this
      rw [dif_pos h2]
      obtain ⟨seg, hseg, hsl, hsc⟩ := splitPiece_ok p1 hq t1 t2 z (.inl one)
      have hsq : seg.controlPoints.length = 3 ∨ seg.controlPoints.length = 4 := by rw [hsl]; exact hq
      simp only [hseg, ok_bind]
      rcases simple_outcome _ hsq with e | e | e
      · simp only [e, error_bind]
        have hd : 0 < p1.t2 - p1.t1 := by linarith
        have t1n : 0 ≤ t1 := by rw [ht1]; positivity
        refine ⟨trivial, simple_raises (ps := ps) (a := p1.t1 + (p1.t2 - p1.t1) * t1) (b := p1.t1 + (p1.t2 - p1.t1) * t2) hsq ?_ ?_
          ?_ ?_ e⟩
        · nlinarith
        · nlinarith
        · nlinarith
        · intro s; rw [hsc, hc]; congr 1; ring
      · simp only [e, ok_bind, Bool.not_true, Bool.false_eq_true, if_false]
        have hs' : ∀ j', i < j' → j' < j + 1 → SimpleOn p1 (i / 100) ((j' : Nat) / 100) := by
          intro j' h1 h2
          rcases Nat.lt_succ_iff_lt_or_eq.mp h2 with h3 | h3
          · exact hs j' h1 h3
          · rw [h3, ← ht1, ← ht2]; exact ⟨seg, hseg, e⟩
        refine ih i (j + 1) t1 (t2 + step) _ ht1 ?_ (by omega) hi (by omega) (by omega) hs'
        rw [ht2]; unfold step; push_cast; ring
      · simp only [e, ok_bind, Bool.not_false, if_true]
        have hstep : t2 - step = ((j - 1 : Nat) : ℝ) / 100 := by
          rw [ht2, Nat.cast_sub (by omega)]; unfold step; push_cast; ring
        by_cases hs1 : |t1 - (t2 - step)| < step
        · rw [dif_pos hs1]
          simp only [pure_eq_ok]
          have hji : j = i + 1 := by
            by_contra hne
            have : (i:ℝ) + 2 ≤ j := by exact_mod_cast (by omega : i + 2 ≤ j)
            rw [abs_lt] at hs1
            rw [ht1, ht2] at hs1; unfold step at hs1
            linarith [hs1.1]
          have hd : 0 < p1.t2 - p1.t1 := by linarith
          have e21 : t2 - t1 = 1 / 100 := by rw [ht1, ht2, hji]; push_cast; ring
          have t1n : 0 ≤ t1 := by rw [ht1]; positivity
          refine ⟨p1.t1 + (p1.t2 - p1.t1) * t1, p1.t1 + (p1.t2 - p1.t1) * t2, ?_, ?_, ?_, ?_, seg.controlPoints, ?_, ?_, e⟩
          · nlinarith
          · nlinarith
          · nlinarith
          · rw [show p1.t1 + (p1.t2 - p1.t1) * t2 - (p1.t1 + (p1.t2 - p1.t1) * t1) = (p1.t2 - p1.t1) * (t2 - t1) by ring, e21]
            ring
          · rw [hsl, hl]
          · intro s; rw [hsc, hc]; congr 1; ring
        · rw [dif_neg hs1]
          have hji : i + 2 ≤ j := by
            by_contra hne
            have hji : j = i + 1 := by omega
            apply hs1
            rw [ht1, ht2, hji]; unfold step; push_cast
            rw [abs_lt]; constructor <;> linarith
          have z' : t2 - step ≠ 0 := by
            rw [hstep]
            have : 1 ≤ j - 1 := by omega
            have : (1:ℝ) ≤ ((j - 1 : Nat) : ℝ) := by exact_mod_cast this
            intro e; linarith
          obtain ⟨seg', hseg', hsl', hsc'⟩ := splitPiece_ok p1 hq t1 (t2 - step) z' (.inl one)
          simp only [hseg', ok_bind, map01]
          have hsimple : simple seg'.controlPoints = .ok true := by
            obtain ⟨sg, h1, h2⟩ := hs (j - 1) (by omega) (by omega)
            rw [← hstep, ← ht1, hseg'] at h1
            cases h1; exact h2
          have := ih (j - 1) j (t2 - step) (t2 - step + step) (by unfold step; linarith) hstep (by rw [ht2]; ring) (by omega)
            (by omega) (by omega) (by omega) (by intro j' h1 h2; omega)
          revert this
          cases hr : reduceLoop p1 (t2 - step) (t2 - step + step) (by unfold step; linarith) with
          | error e => simp only [error_bind]; exact id
          | ok r =>
            cases r with
            | none =>
              simp only [ok_bind, pure_eq_ok]; exact id
            | some q =>
              obtain ⟨l, tEnd⟩ := q
              simp only [ok_bind, pure_eq_ok]
              rintro ⟨a1, a2, a3, a4⟩
              refine ⟨a1, a2, ⟨rfl, ?_, by rw [← hl, ← hsl'], ?_, a3⟩, ?_⟩
              · have hd : 0 < p1.t2 - p1.t1 := by linarith
                have : t1 < t2 - step := by
                  rw [hstep, ht1]
                  have : i < j - 1 := by omega
                  have : (i:ℝ) < ((j - 1 : Nat) : ℝ) := by exact_mod_cast this
                  linarith
                simp only
                nlinarith
              · intro s; simp only; rw [hsc', hc]; congr 1; ring
              · intro p hp
                rcases List.mem_cons.mp hp with rfl | hp
                · exact hsimple
                · exact a4 p hp
    · rw [dif_neg h2]
      simp only [pure_eq_ok]
      have hj' : 100 < j := by
        by_contra hc
        apply h2
        rw [ht2]
        have : (j:ℝ) ≤ 100 := by exact_mod_cast (by omega : j ≤ 100)
        linarith
      refine ⟨by rw [ht1]; linarith, ?_, rfl, by simp⟩
      have := hs 100 (by omega) (by omega)
      rw [ht1]
      simpa using this

private theorem tiles_le {ps : Segment ℝ} {a e : ℝ} {l : List Bezier} (h : TilesFrom ps a e l) : a ≤ e := by
  induction l generalizing a with
  | nil => exact le_of_eq h
  | cons p l ih =>
    obtain ⟨a1, a2, a3, a4, a5⟩ := h
    have := ih a5
    linarith

private theorem tiles_mem {ps : Segment ℝ} {a e : ℝ} {l : List Bezier} (h : TilesFrom ps a e l) :
    ∀ p ∈ l, a ≤ p.t1 ∧ p.t2 ≤ e := by
  induction l generalizing a with
  | nil => simp
  | cons p l ih =>
    obtain ⟨a1, a2, a3, a4, a5⟩ := h
    intro q hq
    rcases List.mem_cons.mp hq with rfl | hq
    · exact ⟨a1.ge, tiles_le a5⟩
    · obtain ⟨b1, b2⟩ := ih a5 q hq
      exact ⟨by linarith, b2⟩

private theorem pass2_spec (ps : Segment ℝ) (hps : ps.length = 3 ∨ ps.length = 4) (l : List Bezier) (a e : ℝ)
    (h : TilesFrom ps a e l) (ha : 0 ≤ a) (he : e ≤ 1) :
    match reducePass2 l with
    | .error err => err = .zeroDivisionError ∧ ∃ t, 0 ≤ t ∧ t ≤ 1 ∧ StopsAt ps t
    | .ok none => ∃ α β, 0 ≤ α ∧ α < β ∧ β ≤ 1 ∧ β - α ≤ 1 / 100 ∧ NotSimpleOn ps α β
    | .ok (some r) => TilesFrom ps a e r ∧ (l ≠ [] → r ≠ []) ∧ (∀ p ∈ r, simple p.controlPoints = .ok true) ∧
        ∀ p ∈ r, ∃ q ∈ l, q.t1 ≤ p.t1 ∧ p.t2 ≤ q.t2 := by
  induction l generalizing a with
  | nil => exact ⟨h, fun hh => absurd rfl hh, by simp, by simp⟩
  | cons p1 l ih =>
    obtain ⟨a1, a2, a3, a4, a5⟩ := h
    have hq : QuadOrCubic p1 := by unfold QuadOrCubic; rw [a3]; exact hps
    have le2 := tiles_le a5
    rw [reducePass2]
    have key := reduceLoop_spec ps p1 hq a3 (by linarith) a2 (by linarith) a4 200 0 1 0 (0 + step) (by unfold step; norm_num) (by norm_num)
      (by unfold step; norm_num) (by omega) (by omega) (by omega) (by omega) (by intro j' h1 h2; omega)
    revert key
    cases hr : reduceLoop p1 0 (0 + step) (by unfold step; norm_num) with
    | error e => simp only [error_bind]; exact id
    | ok r =>
      cases r with
      | none =>
        simp only [ok_bind, pure_eq_ok]
        rintro ⟨α, β, b1, b2, b3, b4, b5⟩
        exact ⟨α, β, by linarith, b2, by linarith, by rw [b4]; linarith, b5⟩
      | some q =>
        obtain ⟨ls, tEnd⟩ := q
        simp only [ok_bind]
        rintro ⟨b1, ⟨seg, hseg, hsim⟩, b3, b4⟩
        rw [if_pos b1]
        obtain ⟨seg', hseg', hsl', hsc'⟩ := splitPiece_ok p1 hq tEnd 1 one_ne_zero (.inr rfl)
        rw [hseg] at hseg'; cases hseg'
        simp only [hseg, ok_bind, map01, pure_eq_ok]
        have := ih p1.t2 a5 (by linarith)
        revert this
        cases hr2 : reducePass2 l with
        | error e => simp only [error_bind]; exact id
        | ok r2 =>
          cases r2 with
          | none => simp only [ok_bind]; exact id
          | some more =>
            simp only [ok_bind]
            rintro ⟨c1, _, c3, c4⟩
            have b3' : TilesFrom ps a (p1.t1 + (p1.t2 - p1.t1) * tEnd) ls := by
              rw [← a1]; simpa using b3
            have hd : 0 < p1.t2 - p1.t1 := by linarith
            refine ⟨?_, by simp, ?_, ?_⟩
            · rw [List.append_assoc]
              refine tiles_append b3' ⟨rfl, ?_, by rw [← a3, ← hsl'], ?_, c1⟩
              · simp only; nlinarith
              · intro s; simp only; rw [hsc', a4]; congr 1; ring
            · intro p hp
              simp only [List.mem_append, List.mem_singleton] at hp
              rcases hp with (hp | rfl) | hp
              · exact b4 p hp
              · exact hsim
              · exact c3 p hp
            · have tEnd0 : p1.t1 ≤ p1.t1 + (p1.t2 - p1.t1) * tEnd := by
                have := tiles_le b3'
                linarith
              intro p hp
              simp only [List.mem_append, List.mem_singleton] at hp
              rcases hp with (hp | rfl) | hp
              · obtain ⟨d1, d2⟩ := tiles_mem b3' p hp
                exact ⟨p1, by simp, by linarith, by nlinarith⟩
              · exact ⟨p1, by simp, by simpa using tEnd0, le_rfl⟩
              · obtain ⟨q, hq, hh⟩ := c4 p hp
                exact ⟨q, by simp [hq], hh⟩

theorem pass1_spec (b : Bezier) (hb : QuadOrCubic b) (t1 : ℝ) (rest : List ℝ)
    (h : (t1 :: rest).Pairwise (· < ·)) (h0 : 0 ≤ t1) (h1 : ∀ t ∈ rest, t ≤ 1) :
    ∃ l, reducePass1 b t1 rest = .ok l ∧ TilesFrom b.controlPoints t1 ((t1 :: rest).getLast (by simp)) l ∧
      l.length = rest.length ∧ ∀ q ∈ l, ∀ t ∈ t1 :: rest, t ≤ q.t1 ∨ q.t2 ≤ t := by
  induction rest generalizing t1 with
  | nil => exact ⟨[], rfl, rfl, rfl, by simp⟩
  | cons t2 rest ih =>
    obtain ⟨p1, p2⟩ := List.pairwise_cons.mp h
    have lt := p1 t2 (by simp)
    have le := h1 t2 (by simp)
    obtain ⟨seg, hseg, hsl, hsc⟩ := splitPiece_ok b hb t1 t2 (by intro e; linarith) (.inl (by intro e; linarith))
    obtain ⟨l, hl, ht, hlen, hin⟩ := ih t2 p2 (by linarith) (fun t ht => h1 t (by simp [ht]))
    rw [reducePass1]
    simp only [hseg, hl, ok_bind, pure_eq_ok]
    refine ⟨_, rfl, ⟨rfl, lt, hsl, hsc, ?_⟩, by simp [hlen], ?_⟩
    · simpa using ht
    · intro q hq t htm
      rcases List.mem_cons.mp hq with rfl | hq'
      · rcases List.mem_cons.mp htm with rfl | htm
        · exact .inl le_rfl
        · right
          rcases List.mem_cons.mp htm with rfl | htm
          · exact le_rfl
          · exact ((List.pairwise_cons.mp p2).1 t htm).le
      · rcases List.mem_cons.mp htm with rfl | htm
        · left
          have := (tiles_mem ht q hq').1
          linarith
        · exact hin q hq' t htm

/-- The completed list of extrema goes from 0 to 1. -/
theorem addEnds_spec (l : List ℝ) (hp : l.Pairwise (· < ·)) (h : ∀ t ∈ l, 0 ≤ t ∧ t ≤ 1) :
    ∃ rest, addEnds l = 0 :: rest ∧ rest ≠ [] ∧ (0 :: rest).Pairwise (· < ·) ∧ (∀ t ∈ rest, t ≤ 1) ∧
      (0 :: rest).getLast (by simp) = 1 := by
  obtain ⟨l1, e1, p1, b1⟩ : ∃ l1, (if (0:ℝ) ∈ l then l else 0 :: l) = 0 :: l1 ∧ (0 :: l1).Pairwise (· < ·) ∧
      ∀ t ∈ l1, t ≤ 1 := by
    by_cases h0 : (0:ℝ) ∈ l
    · rw [if_pos h0]
      cases l with
      | nil => simp at h0
      | cons a l =>
        have ha : a = 0 := by
          rcases List.mem_cons.mp h0 with e | e
          · exact e.symm
          · have := (List.pairwise_cons.mp hp).1 0 e
            linarith [(h a (by simp)).1]
        subst ha
        exact ⟨l, rfl, hp, fun t ht => (h t (by simp [ht])).2⟩
    · rw [if_neg h0]
      refine ⟨l, rfl, List.pairwise_cons.mpr ⟨fun t ht => ?_, hp⟩, fun t ht => (h t ht).2⟩
      exact lt_of_le_of_ne (h t ht).1 (fun e => h0 (e ▸ ht))
  unfold addEnds
  simp only [e1]
  by_cases h1 : (1:ℝ) ∈ 0 :: l1
  · rw [if_pos h1]
    have h1' : (1:ℝ) ∈ l1 := by
      rcases List.mem_cons.mp h1 with e | e
      · norm_num at e
      · exact e
    refine ⟨l1, rfl, List.ne_nil_of_mem h1', p1, b1, ?_⟩
    have hne : l1 ≠ [] := List.ne_nil_of_mem h1'
    rw [List.getLast_cons hne]
    apply le_antisymm (b1 _ (List.getLast_mem hne))
    obtain ⟨k, hk, ek⟩ := List.getElem_of_mem h1'
    rw [← ek, List.getLast_eq_getElem]
    rcases Nat.lt_or_ge k (l1.length - 1) with hlt | hge
    · exact (List.pairwise_iff_getElem.mp (List.pairwise_cons.mp p1).2 k (l1.length - 1) hk (by omega) hlt).le
    · have : k = l1.length - 1 := by omega
      subst this; exact le_rfl
  · rw [if_neg h1]
    refine ⟨l1 ++ [1], rfl, by simp, ?_, ?_, by simp⟩
    · rw [← List.cons_append, List.pairwise_append]
      refine ⟨p1, by simp, ?_⟩
      intro x hx y hy
      rw [List.mem_singleton] at hy
      subst hy
      have hx1 : x ≤ 1 := by
        rcases List.mem_cons.mp hx with e | e
        · rw [e]; norm_num
        · exact b1 x e
      exact lt_of_le_of_ne hx1 (fun e => h1 (e ▸ hx))
    · intro t ht
      rcases List.mem_append.mp ht with e | e
      · exact b1 t e
      · rw [List.mem_singleton] at e; rw [e]

/-- Everything about `reduce` on a quadratic or cubic. -/
private theorem reduce_spec (b : Bezier) (hb : QuadOrCubic b) :
    match reduce b with
    | .error err => err = .zeroDivisionError ∧ ∃ t, 0 ≤ t ∧ t ≤ 1 ∧ StopsAt b.controlPoints t
    | .ok [] => ∃ α β, 0 ≤ α ∧ α < β ∧ β ≤ 1 ∧ β - α ≤ 1 / 100 ∧ NotSimpleOn b.controlPoints α β
    | .ok r => TilesFrom b.controlPoints 0 1 r ∧ (∀ p ∈ r, simple p.controlPoints = .ok true) ∧
        ∀ p ∈ r, ∀ e, extrema b.controlPoints = .ok e → ∀ t ∈ e.all, t ≤ p.t1 ∨ p.t2 ≤ t := by
  have hmem : ∃ e, extrema b.controlPoints = .ok e ∧ ∀ t ∈ e.all, 0 ≤ t ∧ t ≤ 1 := by
    rcases hb with h | h
    · obtain ⟨e, he, hh⟩ := C39_quadratic _ h
      refine ⟨e, he, fun t ht => ?_⟩
      rcases ((C39_union _ e he).2 t).mp ht with h' | h'
      · exact ((hh t).1.mp h').1
      · exact ((hh t).2.mp h').1
    · obtain ⟨e, he, hh⟩ := C39_cubic _ h
      refine ⟨e, he, fun t ht => ?_⟩
      rcases ((C39_union _ e he).2 t).mp ht with h' | h'
      · exact ((hh t).1.mp h').1
      · exact ((hh t).2.mp h').1
  obtain ⟨e, he, hr⟩ := hmem
  obtain ⟨rest, e1, hne, hp, hle, hlast⟩ := addEnds_spec e.all (C39_union _ e he).1 hr
  obtain ⟨l, hl, ht, hlen, hin⟩ := pass1_spec b hb 0 rest hp le_rfl hle
  rw [hlast] at ht
  have hln : l ≠ [] := by
    intro h; rw [h] at hlen; exact hne (List.length_eq_zero_iff.mp hlen.symm)
  have key := pass2_spec b.controlPoints hb l 0 1 ht le_rfl le_rfl
  unfold reduce reduceWith
  simp only [he, ok_bind, e1, hl]
  revert key
  cases reducePass2 l with
  | error e => simp only [error_bind]; exact id
  | ok r =>
    cases r with
    | none => simp only [ok_bind, pure_eq_ok]; exact id
    | some r =>
      simp only [ok_bind, pure_eq_ok]
      rintro ⟨c1, c2, c3, c4⟩
      cases r with
      | nil => exact absurd rfl (c2 hln)
      | cons p r =>
        refine ⟨c1, c3, fun q hq e' he' t htm => ?_⟩
        cases he'
        obtain ⟨q', hq', h1, h2⟩ := c4 q hq
        have : t ∈ (0:ℝ) :: rest := by
          rw [← e1, mem_addEnds]; simp [htm]
        rcases hin q' hq' t this with h | h
        · exact .inl (by linarith)
        · exact .inr (by linarith)

/-- C48: when `reduce()` returns a non-empty list, its curves tile the curve: the first starts at 0, each one starts where the one
before ends, the last ends at 1, and each is the part of the curve its parameters say. -/
theorem C48_tiles (b : Bezier) (hb : QuadOrCubic b) (r : List Bezier) (h : reduce b = .ok r) (hr : r ≠ []) :
    TilesFrom b.controlPoints 0 1 r := by
  have := reduce_spec b hb
  rw [h] at this
  cases r with
  | nil => exact absurd rfl hr
  | cons p r => exact this.1

/-- C48: and every one of them is simple. -/
theorem C48_simple (b : Bezier) (hb : QuadOrCubic b) (r : List Bezier) (h : reduce b = .ok r) :
    ∀ p ∈ r, simple p.controlPoints = .ok true := by
  have := reduce_spec b hb
  rw [h] at this
  cases r with
  | nil => simp
  | cons p r => exact this.2.1

/-- C48: no extremum of a coordinate lies strictly inside a part. -/
theorem C48_extrema (b : Bezier) (hb : QuadOrCubic b) (r : List Bezier) (h : reduce b = .ok r) (e : Extrema)
    (he : extrema b.controlPoints = .ok e) : ∀ p ∈ r, ∀ t ∈ e.all, t ≤ p.t1 ∨ p.t2 ≤ t := by
  have := reduce_spec b hb
  rw [h] at this
  cases r with
  | nil => simp
  | cons p r => exact fun q hq => this.2.2 q hq e he

/-- C48: an empty result means that some part no longer than a hundredth of the parameter range is not simple. -/
theorem C48_empty (b : Bezier) (hb : QuadOrCubic b) (h : reduce b = .ok []) :
    ∃ α β, 0 ≤ α ∧ α < β ∧ β ≤ 1 ∧ β - α ≤ 1 / 100 ∧ NotSimpleOn b.controlPoints α β := by
  have := reduce_spec b hb
  rwa [h] at this

/-- C48: the only exception `reduce()` raises is `ZeroDivisionError`, and only for a curve that stops somewhere. -/
theorem C48_raises (b : Bezier) (hb : QuadOrCubic b) (e : PyErr) (h : reduce b = .error e) :
    e = .zeroDivisionError ∧ ∃ t, 0 ≤ t ∧ t ≤ 1 ∧ StopsAt b.controlPoints t := by
  have := reduce_spec b hb
  rwa [h] at this

/-- C48: for a curve that never stops and all of whose short parts are simple, `reduce()` returns a non-empty list. -/
theorem C48_success (b : Bezier) (hb : QuadOrCubic b) (h1 : ∀ t, 0 ≤ t → t ≤ 1 → ¬ StopsAt b.controlPoints t)
    (h2 : ∀ α β, 0 ≤ α → α < β → β ≤ 1 → β - α ≤ 1 / 100 → ¬ NotSimpleOn b.controlPoints α β) :
    ∃ r, reduce b = .ok r ∧ r ≠ [] := by
  cases h : reduce b with
  | error e =>
    obtain ⟨_, t, t0, t1, ht⟩ := C48_raises b hb e h
    exact absurd ht (h1 t t0 t1)
  | ok r =>
    refine ⟨r, rfl, ?_⟩
    rintro rfl
    obtain ⟨α, β, a0, ab, b1, hl, hn⟩ := C48_empty b hb h
    exact h2 α β a0 ab b1 hl hn

private theorem tiles_cover {ps : Segment ℝ} {a e : ℝ} {l : List Bezier} (h : TilesFrom ps a e l) (hl : l ≠ []) (t : ℝ)
    (h0 : a ≤ t) (h1 : t ≤ e) :
    ∃ p ∈ l, ∃ s, 0 ≤ s ∧ s ≤ 1 ∧ p.t1 + s * (p.t2 - p.t1) = t ∧ curve p.controlPoints s = curve ps t := by
  induction l generalizing a with
  | nil => exact absurd rfl hl
  | cons p l ih =>
    obtain ⟨a1, a2, a3, a4, a5⟩ := h
    have here : t ≤ p.t2 → ∃ q ∈ p :: l, ∃ s, 0 ≤ s ∧ s ≤ 1 ∧ q.t1 + s * (q.t2 - q.t1) = t ∧
        curve q.controlPoints s = curve ps t := by
      intro hle
      have hd : 0 < p.t2 - p.t1 := by linarith
      have ee : p.t1 + (t - p.t1) / (p.t2 - p.t1) * (p.t2 - p.t1) = t := by field_simp; ring
      refine ⟨p, by simp, (t - p.t1) / (p.t2 - p.t1), div_nonneg (by linarith) hd.le, ?_, ee, by rw [a4, ee]⟩
      rw [div_le_one hd]; linarith
    by_cases hle : t ≤ p.t2
    · exact here hle
    · rcases l with _ | ⟨q, l⟩
      · have : p.t2 = e := a5
        exact absurd (this ▸ h1) hle
      · obtain ⟨q', hq', hh⟩ := ih a5 (by simp) (by linarith)
        exact ⟨q', by simp [List.mem_cons.mp hq'], hh⟩

/-- C48: every point of the curve is a point of one of the parts, at the matching parameter. -/
theorem C48_covers (b : Bezier) (hb : QuadOrCubic b) (r : List Bezier) (h : reduce b = .ok r) (hr : r ≠ []) (t : ℝ)
    (h0 : 0 ≤ t) (h1 : t ≤ 1) :
    ∃ p ∈ r, ∃ s, 0 ≤ s ∧ s ≤ 1 ∧ p.t1 + s * (p.t2 - p.t1) = t ∧
      Bezier.get p.controlPoints s = Bezier.get b.controlPoints t := by
  have ht := C48_tiles b hb r h hr
  obtain ⟨p, hp, s, s0, s1, e, hc⟩ := tiles_cover ht hr t h0 h1
  have hlen : ∀ (a e : ℝ) (l : List Bezier), TilesFrom b.controlPoints a e l → ∀ q ∈ l,
      q.controlPoints.length = b.controlPoints.length := by
    intro a e l
    induction l generalizing a with
    | nil => simp
    | cons x l ih =>
      rintro ⟨_, _, a3, _, a5⟩ q hq
      rcases List.mem_cons.mp hq with rfl | hq
      · exact a3
      · exact ih _ a5 q hq
  have hq : QuadOrCubic p := by unfold QuadOrCubic; rw [hlen _ _ _ ht p hp]; exact hb
  refine ⟨p, hp, s, s0, s1, e, ?_⟩
  rw [get_ok _ (ne_nil_of_quadOrCubic hq), get_ok _ (ne_nil_of_quadOrCubic hb), hc]

theorem stops_leg (qs : Segment ℝ) (h : qs.length = 3 ∨ qs.length = 4) :
    (StopsAt qs 0 → (legs qs).1 = (0, 0)) ∧ (StopsAt qs 1 → (legs qs).2 = (0, 0)) := by
  have key : ∀ t, StopsAt qs t → curve (dcStep qs) t = (0, 0) := by
    intro t ht
    obtain ⟨h1, h2⟩ := hasDerivAt_curve_step qs (by omega) t
    exact Prod.ext (h1.unique ht.1) (h2.unique ht.2)
  constructor
  · intro hh
    have := key 0 hh
    rcases h with h | h
    · match qs, h with
      | [a, b, c], _ => simp [dcStep, curve_two, Prod.ext_iff] at this; simp [legs, vec, this]
    · match qs, h with
      | [a, b, c, d], _ => simp [dcStep, curve_three, Prod.ext_iff] at this; simp [legs, vec, this]
  · intro hh
    have := key 1 hh
    rcases h with h | h
    · match qs, h with
      | [a, b, c], _ => simp [dcStep, curve_two, Prod.ext_iff] at this; simp [legs, vec, this]
    · match qs, h with
      | [a, b, c, d], _ => simp [dcStep, curve_three, Prod.ext_iff] at this; simp [legs, vec, this]

theorem simple_of_leg (qs : Segment ℝ) (h : qs.length = 3 ∨ qs.length = 4)
    (hz : (legs qs).1 = (0, 0) ∨ (legs qs).2 = (0, 0)) : simple qs = .error .zeroDivisionError := by
  classical
  rw [C71_simple qs h, if_neg, if_pos hz]
  rcases h with h | h
  · match qs, h with
    | [a, b, c], _ => simp [SShaped]
  · match qs, h with
    | [a, b, c, d], _ =>
      rcases hz with hz | hz
      · simp only [legs] at hz
        simp [SShaped, LeftOf, RightOf, hz, cross, dot]
      · have hcd : c = d := by
          simp only [legs, vec, Prod.mk.injEq] at hz
          exact Prod.ext (by linarith [hz.1]) (by linarith [hz.2])
        subst hcd
        have e : cross (vec a c) (vec a c) = 0 := by unfold cross; ring
        have e2 : ¬ dot (vec a c) (vec a c) < 0 := by unfold dot; nlinarith [sq_nonneg (vec a c).1, sq_nonneg (vec a c).2]
        simp [SShaped, LeftOf, RightOf, e, e2]

/-- A zero of the derivative of a coordinate is an extremum unless the derivative vanishes everywhere. -/
theorem zero_mem_extrema (ps : Segment ℝ) (h : ps.length = 3 ∨ ps.length = 4) :
    ∃ e, extrema ps = .ok e ∧ ∀ t, 0 ≤ t → t ≤ 1 →
      (HasDerivAt (fun t => (curve ps t).1) 0 t → (∃ u, ¬ HasDerivAt (fun t => (curve ps t).1) 0 u) → t ∈ e.all) ∧
      (HasDerivAt (fun t => (curve ps t).2) 0 t → (∃ u, ¬ HasDerivAt (fun t => (curve ps t).2) 0 u) → t ∈ e.all) := by
  have hd := hasDerivAt_curve_step ps (by omega)
  have iso : ∀ f f' : ℝ → ℝ, (∀ t, HasDerivAt f (f' t) t) → ∀ t, HasDerivAt f 0 t → (∃ u, ¬ HasDerivAt f 0 u) →
      IsolatedZero (deriv f) t := by
    rintro f f' hf t h1 ⟨u, h2⟩
    refine ⟨⟨u, ?_⟩, h1.deriv⟩
    rw [(hf u).deriv]
    intro e
    have := hf u
    rw [e] at this
    exact h2 this
  rcases h with h | h
  · obtain ⟨e, he, hh⟩ := C39_quadratic ps h
    refine ⟨e, he, fun t t0 t1 => ⟨fun a b => ?_, fun a b => ?_⟩⟩
    · exact ((C39_union ps e he).2 t).mpr (.inl ((hh t).1.mpr ⟨⟨t0, t1⟩, iso _ _ (fun t => (hd t).1) t a b⟩))
    · exact ((C39_union ps e he).2 t).mpr (.inr ((hh t).2.mpr ⟨⟨t0, t1⟩, iso _ _ (fun t => (hd t).2) t a b⟩))
  · obtain ⟨e, he, hh⟩ := C39_cubic ps h
    refine ⟨e, he, fun t t0 t1 => ⟨fun a b => ?_, fun a b => ?_⟩⟩
    · exact ((C39_union ps e he).2 t).mpr (.inl ((hh t).1.mpr ⟨⟨t0, t1⟩, .inl (iso _ _ (fun t => (hd t).1) t a b)⟩))
    · exact ((C39_union ps e he).2 t).mpr (.inr ((hh t).2.mpr ⟨⟨t0, t1⟩, .inl (iso _ _ (fun t => (hd t).2) t a b)⟩))

theorem stops_part {ps qs : Segment ℝ} {a b s : ℝ}
    (hc : ∀ s, curve qs s = curve ps (a + s * (b - a))) (h : StopsAt ps (a + s * (b - a))) : StopsAt qs s := by
  have hin : HasDerivAt (fun s : ℝ => a + s * (b - a)) (b - a) s := by
    simpa using ((hasDerivAt_id s).mul_const (b - a)).const_add a
  constructor
  · have := HasDerivAt.comp s h.1 hin
    simp only [hc]
    simpa [Function.comp_def] using this
  · have := HasDerivAt.comp s h.2 hin
    simp only [hc]
    simpa [Function.comp_def] using this

/-- C48: a curve that stops somewhere has no reduction: `reduce()` raises, or returns the empty list. -/
theorem C48_stops (b : Bezier) (hb : QuadOrCubic b) (r : List Bezier) (h : reduce b = .ok r) (hr : r ≠ []) (t : ℝ)
    (t0 : 0 ≤ t) (t1 : t ≤ 1) : ¬ StopsAt b.controlPoints t := by
  intro hs
  obtain ⟨e, he, hz⟩ := zero_mem_extrema b.controlPoints hb
  obtain ⟨p, hp, s, s0, s1, hst, -⟩ := C48_covers b hb r h hr t t0 t1
  have ht := C48_tiles b hb r h hr
  have props : ∀ (a e : ℝ) (l : List Bezier), TilesFrom b.controlPoints a e l → ∀ q ∈ l,
      q.t1 < q.t2 ∧ q.controlPoints.length = b.controlPoints.length ∧
      ∀ s, curve q.controlPoints s = curve b.controlPoints (q.t1 + s * (q.t2 - q.t1)) := by
    intro a e l
    induction l generalizing a with
    | nil => simp
    | cons x l ih =>
      rintro ⟨_, a2, a3, a4, a5⟩ q hq
      rcases List.mem_cons.mp hq with rfl | hq
      · exact ⟨a2, a3, a4⟩
      · exact ih _ a5 q hq
  obtain ⟨hlt, hlen, hc⟩ := props _ _ _ ht p hp
  have hq : p.controlPoints.length = 3 ∨ p.controlPoints.length = 4 := by rw [hlen]; exact hb
  have hsim := C48_simple b hb r h p hp
  have bad : StopsAt p.controlPoints 0 ∨ StopsAt p.controlPoints 1 → False := by
    rintro (h' | h')
    · rw [simple_of_leg _ hq (.inl ((stops_leg _ hq).1 h'))] at hsim; cases hsim
    · rw [simple_of_leg _ hq (.inr ((stops_leg _ hq).2 h'))] at hsim; cases hsim
  have hmem : t ∈ e.all := by
    by_cases hx : ∃ u, ¬ HasDerivAt (fun t => (curve b.controlPoints t).1) 0 u
    · exact (hz t t0 t1).1 hs.1 hx
    · by_cases hy : ∃ u, ¬ HasDerivAt (fun t => (curve b.controlPoints t).2) 0 u
      · exact (hz t t0 t1).2 hs.2 hy
      · push Not at hx hy
        exact (bad (.inl (stops_part hc ⟨hx _, hy _⟩))).elim
  have hd : 0 < p.t2 - p.t1 := by linarith
  rcases C48_extrema b hb r h e he p hp t hmem with hle | hle
  · have : s = 0 := by nlinarith
    subst this
    exact bad (.inl (stops_part hc (by rw [hst]; exact hs)))
  · have : s = 1 := by nlinarith
    subst this
    exact bad (.inr (stops_part hc (by rw [hst]; exact hs)))

private theorem arch_simple {α β : ℝ} (a0 : 0 ≤ α) (ab : α < β) (b1 : β ≤ 1) :
    √(((β - α) * (1 + α)) ^ 2 + ((β - α) * (1 - α)) ^ 2) * √(((β - α) * (1 + β)) ^ 2 + ((β - α) * (1 - β)) ^ 2) <
      2 * ((β - α) * (1 + α) * ((β - α) * (1 + β)) + (β - α) * (1 - α) * ((β - α) * (1 - β))) := by
  have hd : 0 < β - α := by linarith
  have hb0 : 0 ≤ β := by linarith
  have hab : 0 ≤ α * β := by positivity
  rw [← Real.sqrt_mul (by positivity)]
  have e : (((β - α) * (1 + α)) ^ 2 + ((β - α) * (1 - α)) ^ 2) * (((β - α) * (1 + β)) ^ 2 + ((β - α) * (1 - β)) ^ 2)
      = (β - α) ^ 4 * (4 * (1 + α ^ 2) * (1 + β ^ 2)) := by ring
  have e2 : 2 * ((β - α) * (1 + α) * ((β - α) * (1 + β)) + (β - α) * (1 - α) * ((β - α) * (1 - β)))
      = (β - α) ^ 2 * (4 * (1 + α * β)) := by ring
  rw [e, e2, Real.sqrt_lt' (by positivity)]
  have a1 : α ^ 2 ≤ α * β := by nlinarith
  have b1 : β ^ 2 ≤ 1 := by nlinarith
  have h4 : 0 < (β - α) ^ 4 := by positivity
  have key : 4 * (1 + α ^ 2) * (1 + β ^ 2) < (4 * (1 + α * β)) ^ 2 := by
    have : α ^ 2 * β ^ 2 = (α * β) ^ 2 := by ring
    have := sq_nonneg (α * β)
    linarith [show 4 * (1 + α ^ 2) * (1 + β ^ 2) = 4 + 4 * α ^ 2 + 4 * β ^ 2 + 4 * (α * β) ^ 2 by ring,
      show (4 * (1 + α * β)) ^ 2 = 16 + 32 * (α * β) + 16 * (α * β) ^ 2 by ring]
  calc _ < (β - α) ^ 4 * (4 * (1 + α * β)) ^ 2 := mul_lt_mul_of_pos_left key h4
    _ = _ := by ring

/-- The arch (0,0), (1,1), (3,1) never stops and all its parts are simple, so its reduction is not empty. -/
example (b : Bezier) (hb : b.controlPoints = [(0, 0), (1, 1), (3, 1)]) : ∃ r, reduce b = .ok r ∧ r ≠ [] := by
  apply C48_success b (by unfold QuadOrCubic; rw [hb]; simp)
  · intro t t0 t1 ht
    have h1 := (hasDerivAt_curve_step b.controlPoints (by rw [hb]; simp) t).1.unique ht.1
    rw [hb] at h1
    simp [dcStep, curve_two] at h1
    linarith
  · rintro α β a0 ab b1 hl ⟨qs, hlen, hc, hs⟩
    rw [hb] at hlen hc
    match qs, hlen with
    | [p, q, r], _ =>
      have h0 := hc 0
      have h1 := hc 1
      have h2 := hc (1 / 2)
      simp only [curve_three, Prod.mk.injEq] at h0 h1 h2
      obtain ⟨px, py⟩ := h0
      obtain ⟨rx, ry⟩ := h1
      obtain ⟨qx, qy⟩ := h2
      have u1 : q.1 - p.1 = (β - α) * (1 + α) := by linarith
      have u2 : q.2 - p.2 = (β - α) * (1 - α) := by linarith
      have v1 : r.1 - q.1 = (β - α) * (1 + β) := by linarith
      have v2 : r.2 - q.2 = (β - α) * (1 - β) := by linarith
      have hd : 0 < β - α := by linarith
      rw [C71_simple _ (.inl rfl), if_neg (by simp [SShaped]), if_neg] at hs
      · simp only [legs, vec, u1, u2, v1, v2, dot, norm2, Except.ok.injEq, decide_eq_false_iff_not] at hs
        exact hs (arch_simple a0 ab b1)
      · simp only [legs, vec, u1, u2, v1, v2, Prod.mk.injEq, not_or, not_and]
        constructor
        · intro hh; nlinarith
        · intro hh; nlinarith

end PathLib
