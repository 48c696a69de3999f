import Verif.Model.RoundedAlign
import Verif.Lemmas.Relative
import Verif.Lemmas.Rounding
import Verif.Lemmas.Grid
import Verif.Lemmas.Transform
import Verif.Props.RoundedSimple
import Mathlib.Analysis.SpecialFunctions.Complex.Arg
import Mathlib.Analysis.Real.Pi.Bounds

/-!
# Aligned and straight curves in floating point: C111
-/

set_option linter.unusedSectionVars false
set_option linter.unusedSimpArgs false

namespace PathLib

open Spec Bezier

namespace Spec

/-- The library functions are accurate to one unit in the last place, and `pi` is the number nearest to π. -/
structure LibmGood (L : Libm) : Prop where
  atan2 : ∀ y x, |L.atan2 y x - Complex.arg ⟨x, y⟩| ≤ 2 ^ (-52 : ℤ) * |Complex.arg ⟨x, y⟩|
  sin : ∀ x, |L.sin x - Real.sin x| ≤ 2 ^ (-52 : ℤ) * |Real.sin x|
  cos : ∀ x, |L.cos x - Real.cos x| ≤ 2 ^ (-52 : ℤ) * |Real.cos x|
  pi : L.pi = float.rnd Real.pi

/-- The unit vector from `a` to `b`; the one along the x axis if there is none. -/
noncomputable def unitTo (a b : Pt ℝ) : Pt ℝ :=
  if a = b then (1, 0) else
    ((b.1 - a.1) / Real.sqrt ((b.1 - a.1) ^ 2 + (b.2 - a.2) ^ 2), (b.2 - a.2) / Real.sqrt ((b.1 - a.1) ^ 2 + (b.2 - a.2) ^ 2))

/-- How far `p` is from `a` in the direction of `b`. -/
noncomputable def alongLine (a b p : Pt ℝ) : ℝ := (p.1 - a.1) * (unitTo a b).1 + (p.2 - a.2) * (unitTo a b).2

/-- How far `p` is to the left of the line from `a` to `b`. -/
noncomputable def acrossLine (a b p : Pt ℝ) : ℝ := (p.2 - a.2) * (unitTo a b).1 - (p.1 - a.1) * (unitTo a b).2

/-- Both coordinates are at most `M` in absolute value. -/
def Within (M : ℝ) (p : Pt ℝ) : Prop := |p.1| ≤ M ∧ |p.2| ≤ M

end Spec

/-- Correctly rounded functions are accurate enough. -/
theorem libm_rounded : LibmGood ⟨fun y x => float.rnd (Complex.arg ⟨x, y⟩), fun x => float.rnd (Real.sin x),
    fun x => float.rnd (Real.cos x), float.rnd Real.pi⟩ := by
  have e : ∀ x, |float.rnd x - x| ≤ 2 ^ (-52 : ℤ) * |x| := by
    intro x
    refine (float.error x).trans (mul_le_mul_of_nonneg_right ?_ (abs_nonneg x))
    rw [show float.u = 2 ^ (-53 : ℤ) from rfl]
    norm_num
  exact ⟨fun y x => e _, fun x => e _, fun x => e _, rfl⟩

/-- C111: without rounding and with exact library functions this is the constructor of the exact model. -/
theorem C111_exact (ps segment : Segment ℝ) :
    Rounded.alignPoints Rounding.exact Libm.exact ps segment = alignPoints ps segment ∧
    Rounded.new Rounding.exact Libm.exact ps = new ps := by
  have h : ∀ ps segment, Rounded.alignPoints Rounding.exact Libm.exact ps segment = alignPoints ps segment := by
    intro ps segment
    have d : ∀ x, Rounded.degrees Rounding.exact Libm.exact x = PathUtilities.degrees x := by
      intro x
      show x * (180 / Real.pi) = x * 180 / Real.pi
      ring
    have r : ∀ x, Rounded.radians Rounding.exact Libm.exact x = Transform.radians x := by
      intro x
      show x * (Real.pi / 180) = x * Real.pi / 180
      ring
    have s : ∀ x, Rounded.sin Rounding.exact Libm.exact x = Transform.sin x := by
      intro x
      show Transform.round15 (Real.sin _) = _
      rw [r]; rfl
    have c : ∀ x, Rounded.cos Rounding.exact Libm.exact x = Transform.cos x := by
      intro x
      show Transform.round15 (Real.cos _) = _
      rw [r]; rfl
    have e : ∀ s, Rounded.rawSlopeAngle Rounding.exact Libm.exact s = PathUtilities.rawSlopeAngle s := by
      intro s
      unfold Rounded.rawSlopeAngle PathUtilities.rawSlopeAngle
      simp only [d]
      rfl
    have m : ∀ p q x, Rounded.moveAndRotate Rounding.exact Libm.exact p q x = Transform.moveAndRotate p q x := by
      intro p q x
      unfold Rounded.moveAndRotate Rounded.rotationMatrix
      simp only [s, c]
      rfl
    unfold Rounded.alignPoints alignPoints
    simp only [e, m]
    rfl
  refine ⟨h ps segment, ?_⟩
  unfold Rounded.new new
  simp only [h]
  rfl

private theorem fu : float.u = 2 ^ (-53 : ℤ) := rfl

private theorem fu1 : float.u < 1 := by rw [fu]; norm_num

/-- The components of a unit vector change little when those of the vector do. -/
private theorem unit_near {z w : ℂ} {e : ℝ} (hz : z ≠ 0) (hw : w ≠ 0) (h : ‖w - z‖ ≤ e * ‖z‖) :
    ‖w / ‖w‖ - z / ‖z‖‖ ≤ 2 * e := by
  have nz : 0 < ‖z‖ := norm_pos_iff.mpr hz
  have nw : 0 < ‖w‖ := norm_pos_iff.mpr hw
  have k : w / ‖w‖ - z / ‖z‖ = ((w - z) + (w / ‖w‖) * ((‖z‖ - ‖w‖ : ℝ) : ℂ)) / ‖z‖ := by
    have a : (‖z‖ : ℂ) ≠ 0 := by exact_mod_cast nz.ne'
    have b : (‖w‖ : ℂ) ≠ 0 := by exact_mod_cast nw.ne'
    push_cast
    field_simp
    ring
  have n1 : ‖w / (‖w‖ : ℂ)‖ = 1 := by
    rw [norm_div, Complex.norm_real, norm_norm, div_self nw.ne']
  rw [k, norm_div, Complex.norm_real, norm_norm, div_le_iff₀ nz]
  have t := norm_add_le (w - z) ((w / ‖w‖) * ((‖z‖ - ‖w‖ : ℝ) : ℂ))
  rw [norm_mul, n1, one_mul, Complex.norm_real, Real.norm_eq_abs] at t
  have := abs_norm_sub_norm_le z w
  rw [norm_sub_rev] at this
  linarith

/-- Rounding the components of a vector. -/
private theorem rounded_near (x y : ℝ) : ‖(⟨float.rnd x, float.rnd y⟩ : ℂ) - ⟨x, y⟩‖ ≤ float.u * ‖(⟨x, y⟩ : ℂ)‖ := by
  have hx := float.error x
  have hy := float.error y
  have u := float.u_nonneg
  rw [← Real.sqrt_sq (mul_nonneg u (norm_nonneg _)), mul_pow, ← Complex.normSq_eq_norm_sq,
    ← Real.sqrt_sq (norm_nonneg (_ - _)), ← Complex.normSq_eq_norm_sq]
  refine Real.sqrt_le_sqrt ?_
  rw [Complex.normSq_apply, Complex.normSq_apply]
  simp only [Complex.sub_re, Complex.sub_im]
  have h1 := mul_self_le_mul_self (abs_nonneg _) hx
  have h2 := mul_self_le_mul_self (abs_nonneg _) hy
  rw [abs_mul_abs_self] at h1 h2
  have e1 : float.u * |x| * (float.u * |x|) = float.u ^ 2 * (x * x) := by rw [← abs_mul_abs_self x]; ring
  have e2 : float.u * |y| * (float.u * |y|) = float.u ^ 2 * (y * y) := by rw [← abs_mul_abs_self y]; ring
  rw [e1] at h1
  rw [e2] at h2
  linarith

/-- The direction of the rounded vector. -/
private theorem direction_near (a b : Pt ℝ) :
    |Real.cos (Complex.arg ⟨float.sub b.1 a.1, float.sub b.2 a.2⟩) - (unitTo a b).1| ≤ 2 * float.u ∧
    |Real.sin (Complex.arg ⟨float.sub b.1 a.1, float.sub b.2 a.2⟩) - (unitTo a b).2| ≤ 2 * float.u := by
  have u := float.u_nonneg
  unfold unitTo
  by_cases h : a = b
  · subst h
    have e : (⟨float.sub a.1 a.1, float.sub a.2 a.2⟩ : ℂ) = 0 := by
      unfold Rounding.sub
      rw [sub_self, sub_self, Rounding.rnd_zero]; rfl
    rw [if_pos rfl, e, Complex.arg_zero]
    simp [u]
  · rw [if_neg h]
    set z : ℂ := ⟨b.1 - a.1, b.2 - a.2⟩ with hz
    set w : ℂ := ⟨float.sub b.1 a.1, float.sub b.2 a.2⟩ with hw
    have z0 : z ≠ 0 := by
      intro e
      have e1 : b.1 - a.1 = 0 := congrArg Complex.re e
      have e2 : b.2 - a.2 = 0 := congrArg Complex.im e
      exact h (Prod.ext (by linarith) (by linarith))
    have w0 : w ≠ 0 := by
      intro e
      have e1 : float.rnd (b.1 - a.1) = 0 := congrArg Complex.re e
      have e2 : float.rnd (b.2 - a.2) = 0 := congrArg Complex.im e
      rw [Rounding.Rel.ne_zero fu1 (Rounding.Rel.rnd fu1 _)] at e1 e2
      exact h (Prod.ext (by linarith) (by linarith))
    have n : Real.sqrt ((b.1 - a.1) ^ 2 + (b.2 - a.2) ^ 2) = ‖z‖ := by
      rw [← Real.sqrt_sq (norm_nonneg z), ← Complex.normSq_eq_norm_sq, Complex.normSq_apply]
      congr 1; rw [hz]; ring
    have k := unit_near z0 w0 (rounded_near (b.1 - a.1) (b.2 - a.2))
    rw [n, Complex.cos_arg w0, Complex.sin_arg]
    have re := (Complex.abs_re_le_norm _).trans k
    have im := (Complex.abs_im_le_norm _).trans k
    rw [Complex.sub_re, Complex.div_ofReal_re, Complex.div_ofReal_re] at re
    rw [Complex.sub_im, Complex.div_ofReal_im, Complex.div_ofReal_im] at im
    exact ⟨re, im⟩

/-- Going to degrees and back. -/
private theorem there_and_back {L : Libm} (g : LibmGood L) (x : ℝ) :
    |Rounded.radians float L (-(Rounded.degrees float L x)) - -x| ≤ float.gap 6 * |x| := by
  have p : float.Rel 1 Real.pi L.pi := by rw [g.pi]; exact Rounding.Rel.rnd fu1 _
  have d := (Rounding.Rel.refl x).mul fu1 ((Rounding.Rel.refl (R := float) (180:ℝ)).div fu1 p)
  have r := (Rounding.Rel.neg d).mul fu1 (p.div fu1 (Rounding.Rel.refl (R := float) (180:ℝ)))
  have e := r.error fu1
  rw [show -(x * (180 / Real.pi)) * (Real.pi / 180) = -x by field_simp [Real.pi_ne_zero], abs_neg] at e
  exact e

private theorem abs_le_add {x y z e f : ℝ} (h : |x - y| ≤ e) (h' : |y - z| ≤ f) : |x - z| ≤ e + f := by
  have := abs_sub_le x y z
  linarith

private theorem trig {L : Libm} (g : LibmGood L) (y x : ℝ) :
    |Rounded.sin float L (-(Rounded.degrees float L (L.atan2 y x))) - Real.sin (-(Complex.arg ⟨x, y⟩))| ≤ 34 * float.u ∧
    |Rounded.cos float L (-(Rounded.degrees float L (L.atan2 y x))) - Real.cos (-(Complex.arg ⟨x, y⟩))| ≤ 34 * float.u := by
  set A := Complex.arg ⟨x, y⟩ with hA
  have hp := Complex.abs_arg_le_pi ⟨x, y⟩
  rw [← hA] at hp
  have p4 : Real.pi ≤ 3.142 := Real.pi_lt_d4.le.trans (by norm_num)
  have g1 := g.atan2 y x
  rw [← hA] at g1
  have t := there_and_back g (L.atan2 y x)
  set α := L.atan2 y x
  set ρ := Rounded.radians float L (-(Rounded.degrees float L α)) with hρ
  have g6 : float.gap 6 ≤ 6.01 * 2 ^ (-53 : ℤ) := by
    unfold Rounding.gap
    rw [fu]
    norm_num
  have a1 : |α - A| ≤ 2 ^ (-52 : ℤ) * 3.142 := g1.trans (mul_le_mul_of_nonneg_left (hp.trans p4) (by positivity))
  have a2 : |α| ≤ 3.143 := by
    have := abs_add_le (α - A) A
    rw [sub_add_cancel] at this
    have k : (2:ℝ) ^ (-52 : ℤ) * 3.142 ≤ 0.001 := by norm_num
    linarith
  have a3 : |ρ - -A| ≤ 25.2 * 2 ^ (-53 : ℤ) := by
    have k := t.trans (mul_le_mul g6 a2 (abs_nonneg _) (by positivity))
    have k2 : |-α - -A| ≤ 2 ^ (-52 : ℤ) * 3.142 := by
      rw [show -α - -A = -(α - A) by ring, abs_neg]; exact a1
    refine (abs_le_add k k2).trans ?_
    norm_num
  have fin : ∀ (f : ℝ → ℝ) (F : ℝ → ℝ), (∀ x, |F x - f x| ≤ 2 ^ (-52 : ℤ) * |f x|) → (∀ x, |f x| ≤ 1) →
      (∀ x y, |f x - f y| ≤ |x - y|) → |float.rnd (Transform.round15 (F ρ)) - f (-A)| ≤ 34 * float.u := by
    intro f F h1 h2 h3
    have b1 := (h3 ρ (-A)).trans a3
    have b2 : |F ρ - f ρ| ≤ 2 ^ (-52 : ℤ) := (h1 ρ).trans (by
      have := mul_le_mul_of_nonneg_left (h2 ρ) (show (0:ℝ) ≤ 2 ^ (-52 : ℤ) by positivity)
      simpa using this)
    have b3 := abs_round15_sub_le (F ρ)
    have b4 := float.error (Transform.round15 (F ρ))
    have c1 := abs_le_add b3 (abs_le_add b2 b1)
    have c2 : |Transform.round15 (F ρ)| ≤ 1.01 := by
      have := abs_add_le (Transform.round15 (F ρ) - f (-A)) (f (-A))
      rw [sub_add_cancel] at this
      have k := h2 (-A)
      have e : (5e-16 : ℝ) + (2 ^ (-52 : ℤ) + 25.2 * 2 ^ (-53 : ℤ)) ≤ 0.01 := by norm_num
      linarith
    have b5 := b4.trans (mul_le_mul_of_nonneg_left c2 float.u_nonneg)
    refine (abs_le_add b5 c1).trans ?_
    rw [fu]
    norm_num
  refine ⟨fin Real.sin L.sin g.sin Real.abs_sin_le_one ?_, fin Real.cos L.cos g.cos Real.abs_cos_le_one ?_⟩
  · intro x y; exact Real.abs_sin_sub_sin_le x y
  · intro x y; exact Real.abs_cos_sub_cos_le x y

private theorem unitTo_le (a b : Pt ℝ) : |(unitTo a b).1| ≤ 1 ∧ |(unitTo a b).2| ≤ 1 := by
  unfold unitTo
  split_ifs with h
  · simp
  · have n : ∀ x y : ℝ, |x| ≤ Real.sqrt (x ^ 2 + y ^ 2) := fun x y => Real.abs_le_sqrt (by nlinarith [sq_nonneg y])
    have q : ∀ x y : ℝ, |x / Real.sqrt (x ^ 2 + y ^ 2)| ≤ 1 := by
      intro x y
      rw [abs_div, abs_of_nonneg (Real.sqrt_nonneg _)]
      exact div_le_one_of_le₀ (n x y) (Real.sqrt_nonneg _)
    refine ⟨q _ _, ?_⟩
    have := q (b.2 - a.2) (b.1 - a.1)
    rwa [add_comm] at this

private theorem approx_of {k : ℕ} {x y : ℝ} (h : |x| ≤ 1) (e : |y - x| ≤ k * float.u) : float.Approx k 1 x y := by
  refine ⟨h, e.trans ?_⟩
  have := one_add_mul_le_pow (a := float.u) (by linarith [float.u_nonneg]) k
  linarith

/-- The entries of the rotation matrix. -/
private theorem entries {L : Libm} (g : LibmGood L) (a b : Pt ℝ) :
    float.Approx 36 1 (-(unitTo a b).2) (Rounded.sin float L (-(Rounded.degrees float L (L.atan2 (float.sub b.2 a.2) (float.sub b.1 a.1))))) ∧
    float.Approx 36 1 (unitTo a b).1 (Rounded.cos float L (-(Rounded.degrees float L (L.atan2 (float.sub b.2 a.2) (float.sub b.1 a.1))))) := by
  obtain ⟨t1, t2⟩ := trig g (float.sub b.2 a.2) (float.sub b.1 a.1)
  obtain ⟨d1, d2⟩ := direction_near a b
  obtain ⟨u1, u2⟩ := unitTo_le a b
  rw [Real.sin_neg] at t1
  rw [Real.cos_neg] at t2
  refine ⟨approx_of (by rwa [abs_neg]) ?_, approx_of u1 ?_⟩
  · have : |-Real.sin (Complex.arg ⟨float.sub b.1 a.1, float.sub b.2 a.2⟩) - -(unitTo a b).2| ≤ 2 * float.u := by
      rw [show ∀ x y : ℝ, -x - -y = -(x - y) by intros; ring, abs_neg]; exact d2
    refine (abs_le_add t1 this).trans ?_
    push_cast; linarith
  · refine (abs_le_add t2 d1).trans ?_
    push_cast; linarith

private theorem rnd_one : float.rnd 1 = 1 := (binary 52).one

private theorem zero_left (x : ℝ) : float.mul 0 x = 0 := by unfold Rounding.mul; rw [zero_mul, Rounding.rnd_zero]
private theorem zero_right (x : ℝ) : float.mul x 0 = 0 := by unfold Rounding.mul; rw [mul_zero, Rounding.rnd_zero]

private theorem third (x y : ℝ) : float.add (float.add (float.mul x 0) (float.mul y 0)) (float.mul 1 1) = 1 := by
  rw [zero_right, zero_right]
  unfold Rounding.add Rounding.mul
  rw [add_zero, Rounding.rnd_zero, mul_one, rnd_one, zero_add, rnd_one]

private theorem third_zero (x y : ℝ) : float.add (float.add (float.mul x 0) (float.mul y 0)) (float.mul 0 1) = 0 := by
  rw [zero_right, zero_right, zero_left]
  simp only [Rounding.add, add_zero, Rounding.rnd_zero]

/-- The rounded matrix, when sine and cosine are approximated by `s'` and `c'`. -/
private theorem matrix_near {c s c' s' M : ℝ} {a : Pt ℝ} (hs : float.Approx 36 1 s s') (hc : float.Approx 36 1 c c')
    (ha : Within M a) :
    ∃ m11 m12 m21 m22 m31 m32, Rounded.multiplyMatrixByMatrix float (Rounded.translateMatrix float a (0, 0))
        (Transform.rotationMatrixOf s' c' true) = .ok [[m11, m12, 0], [m21, m22, 0], [m31, m32, 1]] ∧
      float.Approx 39 1 c m11 ∧ float.Approx 39 1 s m12 ∧ float.Approx 39 1 (-s) m21 ∧ float.Approx 39 1 c m22 ∧
      float.Approx 40 (2 * M) (-a.1 * c + -a.2 * -s) m31 ∧ float.Approx 40 (2 * M) (-a.1 * s + -a.2 * c) m32 := by
  obtain ⟨a1, a2⟩ := ha
  have one : float.Approx 0 1 1 1 := ⟨by simp, by simp⟩
  have zero : float.Approx 0 0 0 0 := ⟨by simp, by simp⟩
  have self : ∀ {x : ℝ}, |x| ≤ M → float.Approx 1 M (-x) (float.sub 0 x) := by
    intro x h
    have := (show float.Approx 0 M (0 - x) (0 - x) from ⟨by rwa [zero_sub, abs_neg], by simp⟩).round
    rw [zero_sub] at this
    unfold Rounding.sub
    rwa [zero_sub]
  have hn : float.Approx 36 1 (-s) (-s') := by
    refine ⟨by rw [abs_neg]; exact hs.1, ?_⟩
    rw [show -s' - -s = -(s' - s) by ring, abs_neg]; exact hs.2
  have row1 : ∀ {x y x' y' : ℝ}, float.Approx 36 1 x x' → float.Approx 36 1 y y' →
      float.Approx 39 1 x (float.add (float.add (float.mul 1 x') (float.mul 0 y')) (float.mul 0 0)) := by
    intro x y x' y' h h'
    have k := ((one.mul h).add (zero.mul h')).add ((zero.mul zero).mono (show 0 + 0 + 1 ≤ 38 by norm_num) le_rfl)
    convert k.mono (show _ ≤ 39 by norm_num) (show _ ≤ (1:ℝ) by norm_num) using 1
    ring
  have row2 : ∀ {x y x' y' : ℝ}, float.Approx 36 1 x x' → float.Approx 36 1 y y' →
      float.Approx 39 1 y (float.add (float.add (float.mul 0 x') (float.mul 1 y')) (float.mul 0 0)) := by
    intro x y x' y' h h'
    have k := ((zero.mul h).add (one.mul h')).add ((zero.mul zero).mono (show 0 + 0 + 1 ≤ 38 by norm_num) le_rfl)
    convert k.mono (show _ ≤ 39 by norm_num) (show _ ≤ (1:ℝ) by norm_num) using 1
    ring
  have row3 : ∀ {x y x' y' : ℝ}, float.Approx 36 1 x x' → float.Approx 36 1 y y' →
      float.Approx 40 (2 * M) (-a.1 * x + -a.2 * y)
        (float.add (float.add (float.mul (float.sub 0 a.1) x') (float.mul (float.sub 0 a.2) y')) (float.mul 1 0)) := by
    intro x y x' y' h h'
    have k := (((self a1).mul h).add ((self a2).mul h')).add ((one.mul zero).mono (show 0 + 0 + 1 ≤ 39 by norm_num) le_rfl)
    convert k.mono (show _ ≤ 40 by norm_num) (show _ ≤ 2 * M by linarith) using 1
    ring
  refine ⟨_, _, _, _, _, _, ?_, row1 hc hn, row1 hs hc, row2 hc hn, row2 hs hc, row3 hc hn, row3 hs hc⟩
  simp only [Rounded.multiplyMatrixByMatrix, Rounded.translateMatrix, Transform.matrix, Transform.rotationMatrixOf, if_true,
    List.mapM_cons, List.mapM_nil, Rounded.multiplyRowByMatrix, pure_eq_ok, ok_bind, third_zero, third]

/-- The rounded matrix applied to a point. -/
private theorem apply_near {c s M m11 m12 m21 m22 m31 m32 : ℝ} {a p : Pt ℝ} (hp : Within M p)
    (h1 : float.Approx 39 1 c m11) (h2 : float.Approx 39 1 s m12) (h3 : float.Approx 39 1 (-s) m21) (h4 : float.Approx 39 1 c m22)
    (h5 : float.Approx 40 (2 * M) (-a.1 * c + -a.2 * -s) m31) (h6 : float.Approx 40 (2 * M) (-a.1 * s + -a.2 * c) m32) :
    ∃ q, Rounded.applyToPoint float ⟨[[m11, m12, 0], [m21, m22, 0], [m31, m32, 1]]⟩ p = .ok q ∧
      float.Approx 43 (4 * M) ((p.1 - a.1) * c - (p.2 - a.2) * s) q.1 ∧
      float.Approx 43 (4 * M) ((p.1 - a.1) * s + (p.2 - a.2) * c) q.2 := by
  obtain ⟨p1, p2⟩ := hp
  have one : float.Approx 0 1 1 1 := ⟨by simp, by simp⟩
  have self : ∀ {x : ℝ}, |x| ≤ M → float.Approx 0 M x x := fun h => ⟨h, by simp⟩
  have col : ∀ {x y z x' y' z' : ℝ}, float.Approx 39 1 x x' → float.Approx 39 1 y y' → float.Approx 40 (2 * M) z z' →
      float.Approx 43 (4 * M) (p.1 * x + p.2 * y + z)
        (float.div (float.add (float.add (float.mul p.1 x') (float.mul p.2 y')) (float.mul 1 z')) 1) := by
    intro x y z x' y' z' hx hy hz
    have k := ((((self p1).mul hx).add ((self p2).mul hy)).add (one.mul hz)).round
    unfold Rounding.div
    rw [div_one]
    convert k.mono (show _ ≤ 43 by norm_num) (show _ ≤ 4 * M by linarith) using 1
    ring
  simp only [Rounded.applyToPoint, Rounded.multiplyRowByMatrix, third, ok_bind, pyGet_zero_cons, pyGet_one_cons, pyGet_two_cons,
      Rounded.pdiv, one_ne_zero, if_false, pure_eq_ok]
  refine ⟨_, rfl, ?_, ?_⟩
  · convert col h1 h3 h5 using 1
    ring
  · convert col h2 h4 h6 using 1
    ring

/-- C111: aligning in floating point. For every segment that begins in `a` and ends in `b`, the points that `align` computes are at most
2e-14 times the largest coordinate away from the exact ones, whose coordinates are measured from `a` along and across the direction
from `a` to `b`. -/
theorem C111_align (L : Libm) (g : LibmGood L) (ps segment : Segment ℝ) (a b : Pt ℝ) (M : ℝ) (hM : ∀ p ∈ a :: ps, Within M p)
    (ha : segment.head? = some a) (hb : segment.getLast? = some b) :
    ∃ qs, Rounded.alignPoints float L ps segment = .ok qs ∧
      List.Forall₂ (fun (p q : Pt ℝ) => |q.1 - alongLine a b p| ≤ 2e-14 * M ∧ |q.2 - acrossLine a b p| ≤ 2e-14 * M) ps qs := by
  obtain ⟨rest, rfl⟩ : ∃ rest, segment = a :: rest := by
    cases segment with
    | nil => simp at ha
    | cons x r => simp at ha; exact ⟨r, by rw [ha]⟩
  have gl : pyGet (a :: rest) (-1) = .ok b := by
    rw [pyGet_neg_one _ (by simp)]
    rw [List.getLast?_eq_some_getLast (by simp)] at hb
    rw [Option.some.inj hb]
  obtain ⟨es, ec⟩ := entries g a b
  obtain ⟨m11, m12, m21, m22, m31, m32, em, h1, h2, h3, h4, h5, h6⟩ := matrix_near es ec (hM a (by simp))
  have run : Rounded.alignPoints float L ps (a :: rest) =
      ps.mapM fun (p : Pt ℝ) => Rounded.applyToPoint float ⟨[[m11, m12, 0], [m21, m22, 0], [m31, m32, 1]]⟩ p := by
    unfold Rounded.alignPoints Rounded.rawSlopeAngle Rounded.getDeltas PathUtilities.endPoints Rounded.moveAndRotate
      Rounded.rotationMatrix
    simp only [pyGet_zero_cons, gl, ok_bind, pure_eq_ok, em]
  rw [run]
  have M0 : 0 ≤ M := (abs_nonneg _).trans (hM a (by simp)).1
  have num : ((1 + float.u) ^ 43 - 1) * (4 * M) ≤ 2e-14 * M := by
    have : ((1 + float.u) ^ 43 - 1) * 4 ≤ 2e-14 := by rw [fu]; norm_num
    nlinarith
  have all : ∀ l : Segment ℝ, (∀ p ∈ l, Within M p) → ∃ qs,
      (l.mapM fun (p : Pt ℝ) => Rounded.applyToPoint float ⟨[[m11, m12, 0], [m21, m22, 0], [m31, m32, 1]]⟩ p) = .ok qs ∧
      List.Forall₂ (fun (p q : Pt ℝ) => |q.1 - alongLine a b p| ≤ 2e-14 * M ∧ |q.2 - acrossLine a b p| ≤ 2e-14 * M) l qs := by
    intro l hl
    induction l with
    | nil => exact ⟨[], rfl, .nil⟩
    | cons p r ih =>
      obtain ⟨q, e1, x1, y1⟩ := apply_near (hl p (by simp)) h1 h2 h3 h4 h5 h6
      obtain ⟨qs, e2, f⟩ := ih fun x h => hl x (by simp [h])
      refine ⟨q :: qs, ?_, .cons ⟨?_, ?_⟩ f⟩
      · rw [List.mapM_cons, e1, ok_bind, e2, ok_bind]; rfl
      · refine (le_of_eq ?_).trans (x1.2.trans num)
        unfold alongLine; congr 1; ring
      · refine (le_of_eq ?_).trans (y1.2.trans num)
        unfold acrossLine; congr 1; ring
  exact all ps fun p h => hM p (by simp [h])

/-- The constructor in floating point. -/
private theorem new_run {L : Libm} (g : LibmGood L) {ps : Segment ℝ} {a b q : Pt ℝ} {M : ℝ} (hM : ∀ p ∈ ps, Within M p)
    (ha : ps.head? = some a) (hb : ps.getLast? = some b) (hq : ps[1]? = some q) :
    ∃ (c : Bezier) (qs : Segment ℝ), Rounded.new float L ps = .ok c ∧ c.controlPoints = ps ∧ computeDirection ps = .ok c.direction ∧
      List.Forall₂ (fun (p q : Pt ℝ) => |q.1 - alongLine a b p| ≤ 2e-14 * M ∧ |q.2 - acrossLine a b p| ≤ 2e-14 * M) ps qs ∧
      (c.linear = true ↔ ∀ x ∈ qs, |x.2| ≤ float.rnd (1 / 10000)) ∧
      (c.clockwise = true ↔ 0 < Rounded.angleOf float L a b q) := by
  obtain ⟨r, rfl⟩ : ∃ r, ps = a :: q :: r := by
    match ps, ha, hq with
    | x :: y :: r, ha, hq => simp at ha hq; exact ⟨r, by rw [ha, hq]⟩
  obtain ⟨d, hd⟩ := computeDirection_ok (a :: q :: r) (by simp)
  obtain ⟨qs, e, f⟩ := C111_align L g (a :: q :: r) [a, b] a b M (by simpa using hM) rfl rfl
  have gl : pyGet (a :: q :: r) (-1) = .ok b := by
    rw [pyGet_neg_one _ (by simp)]
    rw [List.getLast?_eq_some_getLast (by simp)] at hb
    rw [Option.some.inj hb]
  refine ⟨⟨a :: q :: r, 0, 1, d, decide ((qs.filter fun x => decide (|x.2| > float.rnd (1 / 10000))).length = 0),
    decide (Rounded.angleOf float L a b q > 0)⟩, qs, ?_, rfl, hd, f, ?_, ?_⟩
  · unfold Rounded.new
    rw [hd, ok_bind, pyGet_zero_cons, ok_bind, gl, ok_bind, e, ok_bind, pyGet_one_cons, ok_bind]
    rfl
  · simp only [decide_eq_true_eq, List.length_eq_zero_iff, List.filter_eq_nil_iff, gt_iff_lt, not_lt]
  · simp only [decide_eq_true_eq, gt_iff_lt]

private theorem threshold : |float.rnd (1 / 10000) - 1 / 10000| ≤ 1e-14 := by
  refine (float.error _).trans ?_
  rw [fu, abs_of_pos (by norm_num)]
  norm_num

private theorem pair_left {α β : Type} {r : α → β → Prop} {l : List α} {m : List β} (h : List.Forall₂ r l m) {y : β} (hy : y ∈ m) :
    ∃ x ∈ l, r x y := by
  induction h with
  | nil => simp at hy
  | cons h1 _ ih =>
    rcases List.mem_cons.mp hy with rfl | hy
    · exact ⟨_, by simp, h1⟩
    · obtain ⟨x, hx, k⟩ := ih hy
      exact ⟨x, by simp [hx], k⟩

private theorem pair_right {α β : Type} {r : α → β → Prop} {l : List α} {m : List β} (h : List.Forall₂ r l m) {x : α} (hx : x ∈ l) :
    ∃ y ∈ m, r x y := by
  induction h with
  | nil => simp at hx
  | cons h1 _ ih =>
    rcases List.mem_cons.mp hx with rfl | hx
    · exact ⟨_, by simp, h1⟩
    · obtain ⟨y, hy, k⟩ := ih hx
      exact ⟨y, by simp [hy], k⟩

/-- C111: `linear` in floating point. A curve is called straight if all control points are within 1e-4 (less a rounding error) of the
line through its end points, and it is not if one of them is farther away (by a rounding error). -/
theorem C111_linear (L : Libm) (g : LibmGood L) (ps : Segment ℝ) (a b : Pt ℝ) (M : ℝ) (hM : ∀ p ∈ ps, Within M p)
    (ha : ps.head? = some a) (hb : ps.getLast? = some b) (h2 : 2 ≤ ps.length) :
    ∃ c, Rounded.new float L ps = .ok c ∧ c.controlPoints = ps ∧ computeDirection ps = .ok c.direction ∧
      ((∀ p ∈ ps, |acrossLine a b p| ≤ 1 / 10000 - 2e-14 * (M + 1)) → c.linear = true) ∧
      ((∃ p ∈ ps, 1 / 10000 + 2e-14 * (M + 1) < |acrossLine a b p|) → c.linear = false) := by
  obtain ⟨q, hq⟩ : ∃ q, ps[1]? = some q := ⟨_, List.getElem?_eq_getElem (by omega)⟩
  obtain ⟨c, qs, e1, e2, e3, f, l, -⟩ := new_run g hM ha hb hq
  obtain ⟨t1, t2⟩ := abs_le.mp threshold
  refine ⟨c, e1, e2, e3, ?_, ?_⟩
  · intro h
    rw [l]
    intro y hy
    obtain ⟨p, hp, -, k⟩ := pair_left f hy
    have := h p hp
    have t := abs_add_le (y.2 - acrossLine a b p) (acrossLine a b p)
    rw [sub_add_cancel] at t
    linarith
  · rintro ⟨p, hp, h⟩
    rw [Bool.eq_false_iff, ne_eq, l]
    intro hh
    obtain ⟨y, hy, -, k⟩ := pair_right f hp
    have := hh y hy
    have t := abs_add_le (acrossLine a b p - y.2) y.2
    rw [sub_add_cancel, abs_sub_comm] at t
    linarith

private theorem within_some (ps : Segment ℝ) : ∃ M, ∀ p ∈ ps, Within M p := by
  induction ps with
  | nil => exact ⟨0, by simp⟩
  | cons a r ih =>
    obtain ⟨M, h⟩ := ih
    refine ⟨max M (max |a.1| |a.2|), ?_⟩
    intro p hp
    rcases List.mem_cons.mp hp with rfl | hp
    · exact ⟨(le_max_left _ _).trans (le_max_right _ _), (le_max_right _ _).trans (le_max_right _ _)⟩
    · exact ⟨(h p hp).1.trans (le_max_left _ _), (h p hp).2.trans (le_max_left _ _)⟩

/-- The library's arc tangent has the right sign. -/
private theorem atan2_pos {L : Libm} (g : LibmGood L) (y x : ℝ) : 0 < L.atan2 y x ↔ 0 < Complex.arg ⟨x, y⟩ := by
  have h := g.atan2 y x
  obtain ⟨h1, h2⟩ := abs_le.mp h
  have e : (2:ℝ) ^ (-52 : ℤ) ≤ 1 / 2 := by norm_num
  have k := mul_le_mul_of_nonneg_right e (abs_nonneg (Complex.arg ⟨x, y⟩))
  generalize (2:ℝ) ^ (-52 : ℤ) = w at *
  generalize Complex.arg ⟨x, y⟩ = A at *
  constructor
  · intro p
    by_contra n
    rw [abs_of_nonpos (not_lt.mp n)] at *
    linarith
  · intro p
    rw [abs_of_pos p] at *
    linarith

/-- C111: `clockwise` in floating point tells on which side of the line from the first to the last control point the second one is,
if it is not too close to that line. -/
theorem C111_clockwise (L : Libm) (g : LibmGood L) (ps : Segment ℝ) (a b q : Pt ℝ)
    (ha : ps.head? = some a) (hb : ps.getLast? = some b) (hq : ps[1]? = some q) (clear : ClearOf (float.gap 3) a b q) :
    ∃ c, Rounded.new float L ps = .ok c ∧ (c.clockwise = true ↔ 0 < cross (vec a b) (vec a q)) := by
  obtain ⟨M, hM⟩ := within_some ps
  obtain ⟨c, qs, e1, -, -, -, -, k⟩ := new_run g hM ha hb hq
  refine ⟨c, e1, k.trans ?_⟩
  have s := (rounded_angle_sign (B := binary 52) fu1 clear).1
  have c0 : cross (vec a b) (vec a q) ≠ 0 := by
    intro e
    unfold ClearOf at clear
    rw [e, abs_zero] at clear
    have := Rounding.gap_nonneg (R := float) fu1 3
    have n : 0 ≤ |(vec a b).1 * (vec a q).2| + |(vec a b).2 * (vec a q).1| := by positivity
    nlinarith
  have t : 0 < butils.angle a b q ↔ 0 < cross (vec a b) (vec a q) := by
    rw [← gt_iff_lt, angle_pos]
    unfold LeftOf
    constructor
    · rintro (h | ⟨h, -⟩)
      · exact h
      · exact absurd h c0
    · exact .inl
  refine (atan2_pos g _ _).trans (Iff.trans ?_ t)
  exact s

section grid

private theorem grid_within {ps : Segment ℝ} (h : ∀ p ∈ ps, OnGrid p) : ∀ p ∈ ps, Within 32768 p := by
  intro p hp
  obtain ⟨m, n, hm, hn, rfl⟩ := h p hp
  constructor
  · have : ((|m| : ℤ) : ℝ) ≤ ((32768 : ℤ) : ℝ) := by exact_mod_cast hm
    simpa using this
  · have : ((|n| : ℤ) : ℝ) ≤ ((32768 : ℤ) : ℝ) := by exact_mod_cast hn
    simpa using this

private theorem acrossLine_ne {a b : Pt ℝ} (h : a ≠ b) (p : Pt ℝ) :
    acrossLine a b p = cross (vec a b) (vec a p) / Real.sqrt ((b.1 - a.1) ^ 2 + (b.2 - a.2) ^ 2) := by
  unfold acrossLine unitTo cross vec
  rw [if_neg h]
  ring

/-- C111: a curve with integer coordinates of 16 bits whose control points lie on one line is recognized as straight. -/
theorem C111_straight (L : Libm) (g : LibmGood L) (ps : Segment ℝ) (a b : Pt ℝ) (grid : ∀ p ∈ ps, OnGrid p)
    (ha : ps.head? = some a) (hb : ps.getLast? = some b) (h2 : 2 ≤ ps.length) (ne : a ≠ b)
    (line : ∀ p ∈ ps, cross (vec a b) (vec a p) = 0) :
    ∃ c, Rounded.new float L ps = .ok c ∧ c.linear = true := by
  obtain ⟨c, e, -, -, l, -⟩ := C111_linear L g ps a b _ (grid_within grid) ha hb h2
  refine ⟨c, e, l fun p hp => ?_⟩
  rw [acrossLine_ne ne, line p hp]
  norm_num

/-- C111: for integer coordinates up to 3535 nothing else is: `linear` says exactly whether the control points lie on one line (if
the curve is closed, on a horizontal one). -/
theorem C111_straight_iff (L : Libm) (g : LibmGood L) (ps : Segment ℝ) (a b : Pt ℝ)
    (grid : ∀ p ∈ ps, ∃ m n : ℤ, |m| ≤ 3535 ∧ |n| ≤ 3535 ∧ p = ((m : ℝ), (n : ℝ)))
    (ha : ps.head? = some a) (hb : ps.getLast? = some b) (h2 : 2 ≤ ps.length) :
    ∃ c, Rounded.new float L ps = .ok c ∧
      (a ≠ b → (c.linear = true ↔ ∀ p ∈ ps, cross (vec a b) (vec a p) = 0)) ∧
      (a = b → (c.linear = true ↔ ∀ p ∈ ps, p.2 = a.2)) := by
  have w : ∀ p ∈ ps, Within 3535 p := by
    intro p hp
    obtain ⟨m, n, hm, hn, rfl⟩ := grid p hp
    constructor
    · have : ((|m| : ℤ) : ℝ) ≤ ((3535 : ℤ) : ℝ) := by exact_mod_cast hm
      simpa using this
    · have : ((|n| : ℤ) : ℝ) ≤ ((3535 : ℤ) : ℝ) := by exact_mod_cast hn
      simpa using this
  have am : a ∈ ps := List.mem_of_mem_head? ha
  have bm : b ∈ ps := List.mem_of_getLast? hb
  obtain ⟨c, e, -, -, l1, l2⟩ := C111_linear L g ps a b _ w ha hb h2
  refine ⟨c, e, ?_, ?_⟩
  · intro ne
    constructor
    · intro l p hp
      by_contra c0
      obtain ⟨a1, a2, x1, x2, ea⟩ := grid a am
      obtain ⟨b1, b2, y1, y2, eb⟩ := grid b bm
      obtain ⟨p1, p2, z1, z2, ep⟩ := grid p hp
      have one : 1 ≤ |cross (vec a b) (vec a p)| := by
        have ec : cross (vec a b) (vec a p) = (((b1 - a1) * (p2 - a2) - (b2 - a2) * (p1 - a1) : ℤ) : ℝ) := by
          rw [ea, eb, ep]; unfold cross vec; push_cast; ring
        rw [ec] at c0 ⊢
        have : ((b1 - a1) * (p2 - a2) - (b2 - a2) * (p1 - a1) : ℤ) ≠ 0 := by exact_mod_cast c0
        have := Int.one_le_abs this
        exact_mod_cast this
      have len : Real.sqrt ((b.1 - a.1) ^ 2 + (b.2 - a.2) ^ 2) ≤ 9998.5 := by
        obtain ⟨u1, u2⟩ := w a am
        obtain ⟨v1, v2⟩ := w b bm
        rw [abs_le] at u1 u2 v1 v2
        refine Real.sqrt_le_iff.mpr ⟨by norm_num, ?_⟩
        have s1 : (b.1 - a.1) ^ 2 ≤ 7070 ^ 2 := sq_le_sq' (by linarith [u1.1, u1.2, v1.1, v1.2]) (by linarith [u1.1, u1.2, v1.1, v1.2])
        have s2 : (b.2 - a.2) ^ 2 ≤ 7070 ^ 2 := sq_le_sq' (by linarith [u2.1, u2.2, v2.1, v2.2]) (by linarith [u2.1, u2.2, v2.1, v2.2])
        nlinarith
      have pos : 0 < Real.sqrt ((b.1 - a.1) ^ 2 + (b.2 - a.2) ^ 2) := by
        refine Real.sqrt_pos.mpr ?_
        rcases eq_or_ne (b.1 - a.1) 0 with h | h
        · have : b.2 - a.2 ≠ 0 := fun h' => ne (Prod.ext (by linarith) (by linarith))
          positivity
        · positivity
      have := l2 ⟨p, hp, by
        rw [acrossLine_ne ne, abs_div, abs_of_pos pos, lt_div_iff₀ pos]
        refine lt_of_le_of_lt (mul_le_mul_of_nonneg_left len (by norm_num)) (lt_of_lt_of_le ?_ one)
        norm_num⟩
      rw [this] at l
      exact absurd l (by simp)
    · intro h
      refine l1 fun p hp => ?_
      rw [acrossLine_ne ne, h p hp]
      norm_num
  · intro eq
    have d : ∀ p, acrossLine a b p = p.2 - a.2 := by
      intro p
      unfold acrossLine unitTo
      rw [if_pos eq]
      simp
    constructor
    · intro l p hp
      by_contra c0
      obtain ⟨a1, a2, x1, x2, ea⟩ := grid a am
      obtain ⟨p1, p2, z1, z2, ep⟩ := grid p hp
      have one : 1 ≤ |p.2 - a.2| := by
        have ec : p.2 - a.2 = ((p2 - a2 : ℤ) : ℝ) := by rw [ea, ep]; push_cast; ring
        have c1 : p.2 - a.2 ≠ 0 := fun h => c0 (by linarith)
        rw [ec] at c1 ⊢
        have : (p2 - a2 : ℤ) ≠ 0 := by exact_mod_cast c1
        have := Int.one_le_abs this
        exact_mod_cast this
      have := l2 ⟨p, hp, by rw [d]; refine lt_of_lt_of_le ?_ one; norm_num⟩
      rw [this] at l
      exact absurd l (by simp)
    · intro h
      refine l1 fun p hp => ?_
      rw [d, h p hp, sub_self]
      norm_num

/-- C111: a long curve with integer coordinates may be called straight although it is not. -/
theorem C111_straight_counterexample (L : Libm) (g : LibmGood L) :
    (∃ c, Rounded.new float L [(0, 0), (1, 0), (20000, 1)] = .ok c ∧ c.linear = true) ∧
    cross (vec ((0:ℝ), (0:ℝ)) (20000, 1)) (vec (0, 0) (1, 0)) ≠ 0 := by
  refine ⟨?_, by norm_num [cross, vec]⟩
  obtain ⟨c, e, -, -, l, -⟩ := C111_linear L g [(0, 0), (1, 0), (20000, 1)] (0, 0) (20000, 1) 20000
    (by intro p hp; simp at hp; rcases hp with rfl | rfl | rfl <;> norm_num [Within]) rfl rfl (by simp)
  refine ⟨c, e, l ?_⟩
  intro p hp
  rw [acrossLine_ne (by norm_num)]
  have s : (20000:ℝ) ≤ Real.sqrt ((((20000:ℝ), (1:ℝ)).1 - ((0:ℝ), (0:ℝ)).1) ^ 2 + (((20000:ℝ), (1:ℝ)).2 - ((0:ℝ), (0:ℝ)).2) ^ 2) := by
    refine Real.le_sqrt_of_sq_le ?_
    norm_num
  rw [abs_div, abs_of_nonneg (Real.sqrt_nonneg _), div_le_iff₀ (by linarith)]
  refine le_trans ?_ (mul_le_mul_of_nonneg_left s (by norm_num))
  simp at hp
  rcases hp with rfl | rfl | rfl <;> norm_num [cross, vec]

/-- C111: on integer coordinates of 16 bits `clockwise` is exact unless the second control point lies on the line through the first
and the last one. -/
theorem C111_clockwise_grid (L : Libm) (g : LibmGood L) (ps : Segment ℝ) (a b q : Pt ℝ) (grid : ∀ p ∈ ps, OnGrid p)
    (ha : ps.head? = some a) (hb : ps.getLast? = some b) (hq : ps[1]? = some q) (off : cross (vec a b) (vec a q) ≠ 0) :
    ∃ c, Rounded.new float L ps = .ok c ∧ (c.clockwise = true ↔ 0 < cross (vec a b) (vec a q)) := by
  obtain ⟨c, qs, e1, -, -, -, -, k⟩ := new_run g (grid_within grid) ha hb hq
  refine ⟨c, e1, k.trans ?_⟩
  obtain ⟨a1, a2, x1, x2, rfl⟩ := grid a (List.mem_of_mem_head? ha)
  obtain ⟨b1, b2, y1, y2, rfl⟩ := grid b (List.mem_of_getLast? hb)
  obtain ⟨q1, q2, z1, z2, rfl⟩ := grid q (List.mem_of_getElem? hq)
  obtain ⟨s1, t1⟩ := sub_int y1 x1 (by norm_num)
  obtain ⟨s2, t2⟩ := sub_int y2 x2 (by norm_num)
  obtain ⟨s3, t3⟩ := sub_int z1 x1 (by norm_num)
  obtain ⟨s4, t4⟩ := sub_int z2 x2 (by norm_num)
  obtain ⟨s5, t5⟩ := mul_int t1 t4 (by norm_num)
  obtain ⟨s6, t6⟩ := mul_int t2 t3 (by norm_num)
  obtain ⟨s7, t7⟩ := sub_int t5 t6 (by norm_num)
  have ec : cross (vec ((a1:ℝ), (a2:ℝ)) (b1, b2)) (vec (a1, a2) (q1, q2)) =
      (((b1 - a1) * (q2 - a2) - (b2 - a2) * (q1 - a1) : ℤ) : ℝ) := by
    unfold cross vec; push_cast; ring
  unfold Rounded.angleOf
  simp only [s1, s2, s3, s4, s5, s6, s7]
  rw [atan2_pos g, arg_pos_iff]
  rw [ec] at off ⊢
  constructor
  · rintro (h | ⟨h, -⟩)
    · exact h
    · exact absurd h off
  · exact .inl

end grid

/-- The hypotheses for a cubic of a glyph: (0,0), (0,552), (448,1000), (1000,1000) is not straight and turns left. -/
example : ∃ L, ∃ c, LibmGood L ∧ Rounded.new float L [(0, 0), (0, 552), (448, 1000), (1000, 1000)] = .ok c ∧
    c.linear = false ∧ c.clockwise = true ∧ c.direction = .up := by
  refine ⟨⟨fun y x => float.rnd (Complex.arg ⟨x, y⟩), fun x => float.rnd (Real.sin x), fun x => float.rnd (Real.cos x),
    float.rnd Real.pi⟩, ?_⟩
  have g := libm_rounded
  have hg : ∀ p ∈ [((0:ℝ), (0:ℝ)), (0, 552), (448, 1000), (1000, 1000)], ∃ m n : ℤ, |m| ≤ 3535 ∧ |n| ≤ 3535 ∧ p = ((m : ℝ), (n : ℝ)) := by
    intro p hp
    simp at hp
    rcases hp with rfl | rfl | rfl | rfl
    · exact ⟨0, 0, by norm_num, by norm_num, by norm_num⟩
    · exact ⟨0, 552, by norm_num, by norm_num, by norm_num⟩
    · exact ⟨448, 1000, by norm_num, by norm_num, by norm_num⟩
    · exact ⟨1000, 1000, by norm_num, by norm_num, by norm_num⟩
  obtain ⟨c, e, l, -⟩ := C111_straight_iff _ g _ (0, 0) (1000, 1000) hg rfl rfl (by simp)
  obtain ⟨c', e', k⟩ := C111_clockwise_grid _ g _ (0, 0) (1000, 1000) (0, 552) (fun p hp => by
    obtain ⟨m, n, h1, h2, h3⟩ := hg p hp
    exact ⟨m, n, h1.trans (by norm_num), h2.trans (by norm_num), h3⟩) rfl rfl rfl (by norm_num [cross, vec])
  obtain ⟨c'', e'', -, d, -⟩ := C111_linear _ g [(0, 0), (0, 552), (448, 1000), (1000, 1000)] (0, 0) (1000, 1000) 1000 (fun p hp => by
    simp at hp
    rcases hp with rfl | rfl | rfl | rfl <;> norm_num [Within]) rfl rfl (by simp)
  rw [e] at e' e''
  cases e'
  cases e''
  refine ⟨c, g, e, ?_, ?_, ?_⟩
  · rw [Bool.eq_false_iff, ne_eq, l (by norm_num)]
    intro h
    have := h (0, 552) (by simp)
    norm_num [cross, vec] at this
  · rw [k]; norm_num [cross, vec]
  · have : computeDirection [((0:ℝ), (0:ℝ)), (0, 552), (448, 1000), (1000, 1000)] = .ok .up := by
      simp [computeDirection, order, pyGet]
      norm_num
    rw [this] at d
    exact (Except.ok.inj d).symm

end PathLib
