import Verif.Model.RoundedBounds
import Verif.Lemmas.Grid
import Verif.Lemmas.FloatRun
import Verif.Lemmas.BezierBounds
import Verif.Props.BezierBounds
import Verif.Props.Rounded
import Verif.Props.RoundedReduce

/-!
# Bounds of a curve in floating point: C93
-/

set_option linter.unusedSectionVars false
set_option linter.unusedSimpArgs false

namespace PathLib

open Spec Bezier

private theorem fu : float.u = 2 ^ (-53 : ℤ) := rfl

private theorem rnd_zero : float.rnd 0 = 0 := by
  have := rnd_int 0 (by norm_num)
  simpa using this

private theorem rnd_err (x : ℝ) : |float.rnd x - x| ≤ 1 / 2 ^ 53 * |x| := by
  have := float.error x
  rw [fu] at this
  simpa [zpow_neg, div_eq_mul_inv] using this

section near

/-- A quadratic polynomial near a zero of its derivative. -/
private theorem quad_near (c0 c1 c2 : ℤ) (h0 : |c0| ≤ 32768) (h1 : |c1| ≤ 32768) (h2 : |c2| ≤ 32768) (t : ℝ) (t0 : 0 < t) (t1 : t < 1)
    (hz : ((2 * (c1 - c0) : ℤ) : ℝ) * (1 - t) + ((2 * (c2 - c1) : ℤ) : ℝ) * t = 0) :
    ∃ v, (v = 0 ∨ v = 1 ∨ some v ∈ Rounded.droots float [((2 * (c1 - c0) : ℤ) : ℝ), ((2 * (c2 - c1) : ℤ) : ℝ)] ∧ 0 ≤ v ∧ v ≤ 1) ∧
      |((1 - v) ^ 2 * c0 + 2 * (1 - v) * v * c1 + v ^ 2 * c2) - ((1 - t) ^ 2 * c0 + 2 * (1 - t) * t * c1 + t ^ 2 * c2)| ≤ 1 / 2 ^ 36 := by
  have r0 : |(c0:ℝ)| ≤ 32768 := by exact_mod_cast h0
  have r1 : |(c1:ℝ)| ≤ 32768 := by exact_mod_cast h1
  have r2 : |(c2:ℝ)| ≤ 32768 := by exact_mod_cast h2
  have key : ∀ v : ℝ, ((1 - v) ^ 2 * c0 + 2 * (1 - v) * v * c1 + v ^ 2 * c2) - ((1 - t) ^ 2 * c0 + 2 * (1 - t) * t * c1 + t ^ 2 * c2) =
      (v - t) ^ 2 * (c0 - 2 * c1 + c2) := by
    intro v
    push_cast at hz
    linear_combination (v - t) * hz
  by_cases hab : (2 * (c1 - c0) : ℤ) = 2 * (c2 - c1)
  · refine ⟨0, .inl rfl, ?_⟩
    have e : (c0:ℝ) - 2 * c1 + c2 = 0 := by
      have : c0 - 2 * c1 + c2 = 0 := by omega
      exact_mod_cast this
    rw [key, e]; norm_num
  · have s := sub_int (a := 2 * (c1 - c0)) (b := 2 * (c2 - c1)) (A := 2 ^ 17) (B := 2 ^ 17)
      (by rw [abs_le] at *; omega) (by rw [abs_le] at *; omega) (by norm_num)
    have hne : ((2 * (c1 - c0) - 2 * (c2 - c1) : ℤ) : ℝ) ≠ 0 := by
      norm_cast; omega
    have et : ((2 * (c1 - c0) : ℤ) : ℝ) / ((2 * (c1 - c0) - 2 * (c2 - c1) : ℤ) : ℝ) = t := by
      rw [div_eq_iff hne]
      push_cast at hz ⊢
      linear_combination hz
    refine ⟨float.rnd t, .inr (.inr ⟨?_, ?_, ?_⟩), ?_⟩
    · unfold Rounded.droots
      simp only
      rw [if_pos (by exact_mod_cast hab), s.1]
      unfold Rounding.div
      rw [et]; simp
    · have := (binary 52).mono _ _ t0.le
      rwa [show (binary 52).rnd 0 = 0 from rnd_zero] at this
    · have := (binary 52).mono _ _ t1.le
      rwa [show (binary 52).rnd 1 = 1 from (binary 52).one] at this
    · rw [key]
      have e := rnd_err t
      rw [abs_of_pos t0] at e
      have e' : |float.rnd t - t| ≤ 1 / 2 ^ 53 := e.trans (by linarith)
      have b : |(c0:ℝ) - 2 * c1 + c2| ≤ 2 ^ 17 := by rw [abs_le] at *; constructor <;> linarith
      rw [abs_mul, abs_pow]
      calc _ ≤ (1 / 2 ^ 53 : ℝ) ^ 2 * 2 ^ 17 :=
            mul_le_mul (pow_le_pow_left₀ (abs_nonneg _) e' 2) b (abs_nonneg _) (by positivity)
        _ ≤ _ := by norm_num

/-- A cubic polynomial near a zero of its derivative. -/
private theorem cube_step (c0 c1 c2 c3 t v : ℝ) (r0 : |c0| ≤ 32768) (r1 : |c1| ≤ 32768) (r2 : |c2| ≤ 32768) (r3 : |c3| ≤ 32768)
    (t0 : 0 < t) (t1 : t < 1)
    (hz : (3 * (c1 - c0)) * (1 - t) ^ 2 + 2 * (3 * (c2 - c1)) * (1 - t) * t + (3 * (c3 - c2)) * t ^ 2 = 0)
    (hv : |v - t| ≤ 1 / 2 ^ 30) :
    |((1 - v) ^ 3 * c0 + 3 * (1 - v) ^ 2 * v * c1 + 3 * (1 - v) * v ^ 2 * c2 + v ^ 3 * c3) -
      ((1 - t) ^ 3 * c0 + 3 * (1 - t) ^ 2 * t * c1 + 3 * (1 - t) * t ^ 2 * c2 + t ^ 3 * c3)| ≤ 1 / 2 ^ 36 := by
  have key : ((1 - v) ^ 3 * c0 + 3 * (1 - v) ^ 2 * v * c1 + 3 * (1 - v) * v ^ 2 * c2 + v ^ 3 * c3) -
      ((1 - t) ^ 3 * c0 + 3 * (1 - t) ^ 2 * t * c1 + 3 * (1 - t) * t ^ 2 * c2 + t ^ 3 * c3) =
      (v - t) ^ 2 * ((3 * (c2 - 2 * c1 + c0)) * (1 - t) + (3 * (c3 - 2 * c2 + c1)) * t + (v - t) * (c3 - 3 * c2 + 3 * c1 - c0)) := by
    linear_combination (v - t) * hz
  rw [key, abs_mul, abs_pow]
  have b : |(3 * (c2 - 2 * c1 + c0)) * (1 - t) + (3 * (c3 - 2 * c2 + c1)) * t + (v - t) * (c3 - 3 * c2 + 3 * c1 - c0)| ≤ 2 ^ 20 := by
    have b1 : |3 * (c2 - 2 * c1 + c0)| ≤ 2 ^ 19 := by rw [abs_le] at *; constructor <;> linarith
    have b2 : |3 * (c3 - 2 * c2 + c1)| ≤ 2 ^ 19 := by rw [abs_le] at *; constructor <;> linarith
    have b3 : |c3 - 3 * c2 + 3 * c1 - c0| ≤ 2 ^ 19 := by rw [abs_le] at *; constructor <;> linarith
    have m1 : |(3 * (c2 - 2 * c1 + c0)) * (1 - t)| ≤ 2 ^ 19 * (1 - t) := by
      rw [abs_mul, abs_of_pos (by linarith : 0 < 1 - t)]; exact mul_le_mul_of_nonneg_right b1 (by linarith)
    have m2 : |(3 * (c3 - 2 * c2 + c1)) * t| ≤ 2 ^ 19 * t := by
      rw [abs_mul, abs_of_pos t0]; exact mul_le_mul_of_nonneg_right b2 t0.le
    have m3 : |(v - t) * (c3 - 3 * c2 + 3 * c1 - c0)| ≤ 1 * 2 ^ 19 := by
      rw [abs_mul]; exact mul_le_mul (hv.trans (by norm_num)) b3 (abs_nonneg _) (by norm_num)
    refine (abs_add_three _ _ _).trans ?_
    linarith
  calc _ ≤ (1 / 2 ^ 30 : ℝ) ^ 2 * 2 ^ 20 := mul_le_mul (pow_le_pow_left₀ (abs_nonneg _) hv 2) b (abs_nonneg _) (by positivity)
    _ ≤ _ := by norm_num

/-- Clipping to [0, 1] does not take a number further away from one in this interval. -/
private theorem clip (w t : ℝ) (t0 : 0 < t) (t1 : t < 1) :
    ∃ v, (v = 0 ∨ v = 1 ∨ v = w ∧ 0 ≤ v ∧ v ≤ 1) ∧ |v - t| ≤ |w - t| := by
  rcases lt_or_ge w 0 with h | h
  · refine ⟨0, .inl rfl, ?_⟩
    rw [abs_of_neg (by linarith), abs_of_neg (by linarith)]; linarith
  rcases lt_or_ge 1 w with h' | h'
  · refine ⟨1, .inr (.inl rfl), ?_⟩
    rw [abs_of_pos (by linarith), abs_of_pos (by linarith)]; linarith
  · exact ⟨w, .inr (.inr ⟨rfl, h, h'⟩), le_rfl⟩

/-- One root of a quadratic equation with integer coefficients, in floating point. -/
private theorem root_near (D m d : ℤ) (hD : |D| ≤ 2 ^ 38) (hm : |m| ≤ 2 ^ 20) (hd : d ≠ 0) (e t : ℝ) (he : e = 1 ∨ e = -1)
    (ht0 : 0 < t) (ht1 : t < 1) (ht : d * t + m = e * Real.sqrt D) :
    |float.rnd (-float.rnd (-e * float.rnd (Real.sqrt D) + m) / d) - t| ≤ 1 / 2 ^ 30 := by
  have hs0 := Real.sqrt_nonneg (D:ℝ)
  have hs : Real.sqrt D ≤ 2 ^ 19 := by
    rw [Real.sqrt_le_left (by positivity)]
    have : D ≤ 2 ^ 38 := (le_abs_self D).trans hD
    calc (D:ℝ) ≤ ((2 ^ 38 : ℤ) : ℝ) := by exact_mod_cast this
      _ = _ := by norm_num
  have hm' : |(m:ℝ)| ≤ 2 ^ 20 := by exact_mod_cast hm
  have hd1 : (1:ℝ) ≤ |(d:ℝ)| := by
    have := Int.one_le_abs hd
    exact_mod_cast this
  have hd0 : (d:ℝ) ≠ 0 := by exact_mod_cast hd
  have e1 := rnd_err (Real.sqrt D)
  rw [abs_of_nonneg hs0] at e1
  generalize hs' : float.rnd (Real.sqrt D) = s at *
  have ee : |e| = 1 := by rcases he with rfl | rfl <;> simp
  have s1 : |s - Real.sqrt D| ≤ 1 / 2 ^ 34 := e1.trans (by
    calc _ ≤ (1 / 2 ^ 53 : ℝ) * 2 ^ 19 := mul_le_mul_of_nonneg_left hs (by positivity)
      _ = _ := by norm_num)
  have s2 : |s| ≤ 2 ^ 20 := by
    rw [abs_le] at s1 ⊢; constructor <;> linarith
  have b : |-e * s + m| ≤ 2 ^ 21 := by
    refine (abs_add_le _ _).trans ?_
    rw [abs_mul, abs_neg, ee]; linarith
  have e2 := rnd_err (-e * s + m)
  generalize float.rnd (-e * s + m) = y at *
  have y1 : |y - (-e * s + m)| ≤ 1 / 2 ^ 32 := e2.trans (by
    calc _ ≤ (1 / 2 ^ 53 : ℝ) * 2 ^ 21 := mul_le_mul_of_nonneg_left b (by positivity)
      _ = _ := by norm_num)
  have q : |-y / d - t| ≤ 1 / 2 ^ 31 := by
    have : -y / d - t = (-(y - (-e * s + m)) + e * (s - Real.sqrt D)) / d := by
      field_simp
      linear_combination (-1) * ht
    rw [this, abs_div]
    have n : |(-(y - (-e * s + m)) + e * (s - Real.sqrt D))| ≤ 1 / 2 ^ 31 := by
      refine (abs_add_le _ _).trans ?_
      rw [abs_neg, abs_mul, ee]
      calc _ ≤ (1 / 2 ^ 32 : ℝ) + 1 * (1 / 2 ^ 34) := by linarith
        _ ≤ _ := by norm_num
    calc _ ≤ |(-(y - (-e * s + m)) + e * (s - Real.sqrt D))| / 1 := div_le_div_of_nonneg_left (abs_nonneg _) one_pos hd1
      _ ≤ _ := by rw [div_one]; exact n
  have e3 := rnd_err (-y / d)
  generalize -y / (d:ℝ) = w at *
  have w2 : |w| ≤ 2 := by
    rw [abs_le] at q ⊢
    constructor <;> linarith [q.1, q.2, (by norm_num : (1 / 2 ^ 31 : ℝ) ≤ 1)]
  have : |float.rnd w - w| ≤ 1 / 2 ^ 52 := e3.trans (by
    calc _ ≤ (1 / 2 ^ 53 : ℝ) * 2 := mul_le_mul_of_nonneg_left w2 (by positivity)
      _ = _ := by norm_num)
  calc |float.rnd w - t| ≤ |float.rnd w - w| + |w - t| := abs_sub_le _ _ _
    _ ≤ 1 / 2 ^ 52 + 1 / 2 ^ 31 := by linarith
    _ ≤ _ := by norm_num

private theorem cube_near (c0 c1 c2 c3 : ℤ) (h0 : |c0| ≤ 32768) (h1 : |c1| ≤ 32768) (h2 : |c2| ≤ 32768) (h3 : |c3| ≤ 32768)
    (t : ℝ) (t0 : 0 < t) (t1 : t < 1)
    (hz : (3 * ((c1:ℝ) - c0)) * (1 - t) ^ 2 + 2 * (3 * ((c2:ℝ) - c1)) * (1 - t) * t + (3 * ((c3:ℝ) - c2)) * t ^ 2 = 0) :
    ∃ v, (v = 0 ∨ v = 1 ∨ some v ∈ Rounded.droots float [((3 * (c1 - c0) : ℤ) : ℝ), ((3 * (c2 - c1) : ℤ) : ℝ), ((3 * (c3 - c2) : ℤ) : ℝ)] ∧
        0 ≤ v ∧ v ≤ 1) ∧
      |((1 - v) ^ 3 * c0 + 3 * (1 - v) ^ 2 * v * c1 + 3 * (1 - v) * v ^ 2 * c2 + v ^ 3 * c3) -
      ((1 - t) ^ 3 * c0 + 3 * (1 - t) ^ 2 * t * c1 + 3 * (1 - t) * t ^ 2 * c2 + t ^ 3 * c3)| ≤ 1 / 2 ^ 36 := by
  have r0 : |(c0:ℝ)| ≤ 32768 := by exact_mod_cast h0
  have r1 : |(c1:ℝ)| ≤ 32768 := by exact_mod_cast h1
  have r2 : |(c2:ℝ)| ≤ 32768 := by exact_mod_cast h2
  have r3 : |(c3:ℝ)| ≤ 32768 := by exact_mod_cast h3
  -- it is enough to have a root near `t` in the list, before it is cut to [0, 1]
  suffices hw : (∃ w, some w ∈ Rounded.droots float [((3 * (c1 - c0) : ℤ) : ℝ), ((3 * (c2 - c1) : ℤ) : ℝ), ((3 * (c3 - c2) : ℤ) : ℝ)] ∧
      |w - t| ≤ 1 / 2 ^ 30) ∨ (c1 - c0 = 0 ∧ c2 - c1 = 0 ∧ c3 - c2 = 0) by
    rcases hw with ⟨w, hw, hn⟩ | ⟨k0, k1, k2⟩
    · obtain ⟨v, hv, hn'⟩ := clip w t t0 t1
      refine ⟨v, ?_, cube_step _ _ _ _ _ _ r0 r1 r2 r3 t0 t1 hz (hn'.trans hn)⟩
      rcases hv with hv | hv | ⟨rfl, hv⟩
      · exact .inl hv
      · exact .inr (.inl hv)
      · exact .inr (.inr ⟨hw, hv⟩)
    · refine ⟨0, .inl rfl, ?_⟩
      have e1 : c1 = c0 := by omega
      have e2 : c2 = c0 := by omega
      have e3 : c3 = c0 := by omega
      rw [e1, e2, e3]
      ring_nf
      norm_num
  have ha : |3 * (c1 - c0)| ≤ 2 ^ 18 := by rw [abs_le] at *; omega
  have hb : |3 * (c2 - c1)| ≤ 2 ^ 18 := by rw [abs_le] at *; omega
  have hc : |3 * (c3 - c2)| ≤ 2 ^ 18 := by rw [abs_le] at *; omega
  have hz' : ((3 * (c1 - c0) : ℤ) : ℝ) * (1 - t) ^ 2 + 2 * ((3 * (c2 - c1) : ℤ) : ℝ) * (1 - t) * t + ((3 * (c3 - c2) : ℤ) : ℝ) * t ^ 2 = 0 := by
    push_cast; exact hz
  have hK : 3 * (c1 - c0) = 0 → 3 * (c2 - c1) = 0 → 3 * (c3 - c2) = 0 → (c1 - c0 = 0 ∧ c2 - c1 = 0 ∧ c3 - c2 = 0) := by omega
  have hac : |3 * (c1 - c0) * (3 * (c3 - c2))| ≤ 2 ^ 36 := (mul_int ha hc (by norm_num)).2.trans (by norm_num)
  clear hz r0 r1 r2 r3
  generalize 3 * (c1 - c0) = a at *
  generalize 3 * (c2 - c1) = b at *
  generalize 3 * (c3 - c2) = c at *
  obtain ⟨p1, q1⟩ := mul_int (a := 2) (b := b) (A := 2) (by norm_num) hb (by norm_num)
  obtain ⟨p2, q2⟩ := sub_int ha q1 (by norm_num)
  obtain ⟨p3, q3⟩ := add_int q2 hc (by norm_num)
  obtain ⟨p4, q4⟩ := mul_int hb hb (by norm_num)
  obtain ⟨p5, q5⟩ := mul_int ha hc (by norm_num)
  obtain ⟨p6, q6⟩ := sub_int q4 q5 (by norm_num)
  obtain ⟨p7, q7⟩ := add_int (a := -a) (A := 2 ^ 18) (by rwa [abs_neg]) hb (by norm_num)
  obtain ⟨p8, q8⟩ := sub_int hb hc (by norm_num)
  obtain ⟨p9, q9⟩ := mul_int (a := 2) (A := 2) (by norm_num) q8 (by norm_num)
  obtain ⟨p10, q10⟩ := sub_int q1 hc (by norm_num)
  have two : ((2 : ℤ) : ℝ) = 2 := by norm_num
  rw [two] at p1 p9
  rw [Int.cast_neg] at p7
  by_cases hd : a - 2 * b + c = 0
  · by_cases hbc : b = c
    · right
      subst hbc
      have e : a = b := by omega
      subst e
      have : (a:ℝ) = 0 := by linear_combination hz'
      have : a = 0 := by exact_mod_cast this
      exact hK this this this
    · left
      refine ⟨float.rnd (((2 * b - c : ℤ) : ℝ) / ((2 * (b - c) : ℤ) : ℝ)), ?_, ?_⟩
      · unfold Rounded.droots
        simp only [p1, p2, p3, p8, p9, p10]
        rw [if_neg (by rw [hd]; simp), if_pos ⟨by exact_mod_cast hbc, by rw [hd]; simp⟩]
        unfold Rounding.div
        simp
      · have hne : ((2 * (b - c) : ℤ) : ℝ) ≠ 0 := by norm_cast; omega
        have et : ((2 * b - c : ℤ) : ℝ) / ((2 * (b - c) : ℤ) : ℝ) = t := by
          rw [div_eq_iff hne]
          have e : (a:ℝ) - 2 * b + c = 0 := by exact_mod_cast hd
          push_cast
          linear_combination hz' + (- t ^ 2 + 2 * t - 1) * e
        rw [et]
        have e := rnd_err t
        rw [abs_of_pos t0] at e
        exact e.trans (by linarith [(by norm_num : (1 / 2 ^ 53 : ℝ) ≤ 1 / 2 ^ 30), mul_le_mul_of_nonneg_left t1.le (by norm_num : (0:ℝ) ≤ 1 / 2 ^ 53)])
  · left
    have hsq : (((a - 2 * b + c : ℤ) : ℝ) * t + ((-a + b : ℤ) : ℝ)) ^ 2 = ((b * b - a * c : ℤ) : ℝ) := by
      push_cast
      linear_combination ((a:ℝ) - 2 * b + c) * hz'
    have hD : 0 ≤ b * b - a * c := by
      have : (0:ℝ) ≤ ((b * b - a * c : ℤ) : ℝ) := by rw [← hsq]; exact sq_nonneg _
      exact_mod_cast this
    have hsq' : ((a - 2 * b + c : ℤ) : ℝ) * t + ((-a + b : ℤ) : ℝ) = 1 * Real.sqrt ((b * b - a * c : ℤ) : ℝ) ∨
        ((a - 2 * b + c : ℤ) : ℝ) * t + ((-a + b : ℤ) : ℝ) = -1 * Real.sqrt ((b * b - a * c : ℤ) : ℝ) := by
      rw [← hsq, Real.sqrt_sq_eq_abs]
      rcases abs_cases (((a - 2 * b + c : ℤ) : ℝ) * t + ((-a + b : ℤ) : ℝ)) with ⟨h, -⟩ | ⟨h, -⟩ <;> rw [h]
      · left; ring
      · right; ring
    have hx : ¬ (((b * b - a * c : ℤ) : ℝ) < 0) := by push Not; exact_mod_cast hD
    have hdr : Rounded.droots float [(a:ℝ), (b:ℝ), (c:ℝ)] =
        [some (float.rnd (-float.rnd (-1 * float.rnd (Real.sqrt ((b * b - a * c : ℤ) : ℝ)) + ((-a + b : ℤ) : ℝ)) / ((a - 2 * b + c : ℤ) : ℝ))),
         some (float.rnd (-float.rnd (-(-1) * float.rnd (Real.sqrt ((b * b - a * c : ℤ) : ℝ)) + ((-a + b : ℤ) : ℝ)) / ((a - 2 * b + c : ℤ) : ℝ)))] := by
      unfold Rounded.droots
      simp only [p1, p2, p3, p4, p5, p6, p7]
      rw [if_pos (by exact_mod_cast hd)]
      simp only [if_neg hx, Option.map_some]
      unfold Rounding.div Rounding.add Rounded.sqrt
      simp only [neg_neg, one_mul, neg_mul]
    rw [hdr]
    rcases hsq' with h | h
    · exact ⟨_, by simp, root_near _ _ _ (q6.trans (by norm_num)) (q7.trans (by norm_num)) hd 1 t (.inl rfl) t0 t1 h⟩
    · exact ⟨_, by simp, root_near _ _ _ (q6.trans (by norm_num)) (q7.trans (by norm_num)) hd (-1) t (.inr rfl) t0 t1 h⟩

end near


/-- C93: without rounding `bbox` and `boundsRectangle` are those of the exact model. -/
theorem C93_exact (ps : Segment ℝ) :
    Rounded.bbox Rounding.exact ps = Bezier.bbox ps ∧ Rounded.boundsRectangle Rounding.exact ps = Bezier.boundsRectangle ps := by
  have h : Rounded.bbox Rounding.exact ps = Bezier.bbox ps := by
    unfold Rounded.bbox Bezier.bbox
    rw [extrema_exact]
    unfold Rounded.minmaxLoop getminmax minmaxLoop
    simp only [C82_exact]
  refine ⟨h, ?_⟩
  unfold Rounded.boundsRectangle Bezier.boundsRectangle
  rw [h]

section grid

/-- Coordinates of a point on the grid. -/
private theorem grid_coord {p : Pt ℝ} (h : OnGrid p) (d : Fin 2) : ∃ m : ℤ, |m| ≤ 32768 ∧ coord d p = m := by
  obtain ⟨m, n, hm, hn, rfl⟩ := h
  unfold coord
  split_ifs
  · exact ⟨m, hm, rfl⟩
  · exact ⟨n, hn, rfl⟩

private theorem coord_dc (R : Rounding) (ps : Segment ℝ) (d : Fin 2) : (Rounded.dcStep R ps).map (coord d) =
    List.zipWith (fun a b => R.mul ((ps.length - 1 : ℕ) : ℝ) (R.sub b a)) (ps.map (coord d)) (ps.map (coord d)).tail := by
  unfold Rounded.dcStep
  rw [List.map_zipWith, ← List.map_tail, List.zipWith_map]
  congr 1
  funext a b
  unfold coord
  split_ifs <;> rfl

/-- The extrema found in one dimension are those of the curve, up to a small difference of the values. -/
private def NearDim (ps : Segment ℝ) (dim : Fin 2) : Prop :=
    ∃ l, Rounded.extremaDim float (order ps) (Rounded.dcPoints float ps) dim = .ok l ∧ (∀ t ∈ l, 0 ≤ t ∧ t ≤ 1) ∧
      ∀ t, 0 < t → t < 1 → coord dim (curve (dcStep ps) t) = 0 →
        ∃ v ∈ addEnds l, |coord dim (curve ps v) - coord dim (curve ps t)| ≤ 1 / 2 ^ 36

private theorem near_dim (ps : Segment ℝ) (h2 : 2 ≤ ps.length) (h4 : ps.length ≤ 4) (hg : ∀ p ∈ ps, OnGrid p) (dim : Fin 2) :
    NearDim ps dim := by
  unfold NearDim
  have hdc : ∀ qs : Segment ℝ, 1 < qs.length → Rounded.dcPoints float qs = Rounded.dcStep float qs :: Rounded.dcPoints float (Rounded.dcStep float qs) := by
    intro qs h
    rw [Rounded.dcPoints, if_pos h]
  have hlen := Rounded.dcStep_length float ps
  rw [hdc ps (by omega)]
  have fin : ∀ (L : List (Option ℝ)) (t : ℝ), t ∈ (L.filterMap fun t => t.filter fun t => decide (t ≥ 0 ∧ t ≤ 1)) → 0 ≤ t ∧ t ≤ 1 :=
    fun L t h => ((mem_filterMap01 L t).mp h).1
  match ps, h2, h4 with
  | [p, q], _, _ =>
    refine ⟨[], ?_, by simp, ?_⟩
    · unfold Rounded.extremaDim
      rw [pyGet_zero_cons]
      simp only [ok_bind, coord_dc]
      rw [if_neg (by simp [order])]
      rfl
    · intro t t0 t1 hz
      refine ⟨0, by simp [mem_addEnds], ?_⟩
      have e : coord dim (curve [p, q] 0) = coord dim (curve [p, q] t) := by
        have : coord dim q = coord dim p := by
          simp only [dcStep, List.zipWith, List.tail, curve_one] at hz
          unfold coord at hz ⊢
          split_ifs at hz ⊢ <;> simp at hz <;> linarith
        simp only [curve_two]
        unfold coord at this ⊢
        split_ifs at this ⊢ <;> simp only [this] <;> ring
      rw [e]; simp
  | [p, q, r], _, _ =>
    obtain ⟨c0, h0, e0⟩ := grid_coord (hg p (by simp)) dim
    obtain ⟨c1, h1, e1⟩ := grid_coord (hg q (by simp)) dim
    obtain ⟨c2, h2, e2⟩ := grid_coord (hg r (by simp)) dim
    obtain ⟨s1, k1⟩ := sub_int h1 h0 (by norm_num)
    obtain ⟨s2, k2⟩ := sub_int h2 h1 (by norm_num)
    obtain ⟨s3, k3⟩ := mul_int (a := 2) (A := 2) (by norm_num) k1 (by norm_num)
    obtain ⟨s4, k4⟩ := mul_int (a := 2) (A := 2) (by norm_num) k2 (by norm_num)
    have two : ((2 : ℤ) : ℝ) = 2 := by norm_num
    rw [two] at s3 s4
    refine ⟨(Rounded.droots float [((2 * (c1 - c0) : ℤ) : ℝ), ((2 * (c2 - c1) : ℤ) : ℝ)]).filterMap
      fun t => t.filter fun t => decide (t ≥ 0 ∧ t ≤ 1), ?_, fin _, ?_⟩
    · unfold Rounded.extremaDim
      rw [pyGet_zero_cons]
      simp only [ok_bind, coord_dc]
      rw [if_neg (by simp [order])]
      simp only [List.length_cons, List.length_nil, List.map_cons, List.map_nil, List.tail_cons, List.zipWith_cons_cons, List.zipWith_nil_right,
        e0, e1, e2, s1, s2, pure_eq_ok, ok_bind]
      norm_num only [Nat.cast_ofNat]
      rw [s3, s4]
    · intro t t0 t1 hz
      have hz' : ((2 * (c1 - c0) : ℤ) : ℝ) * (1 - t) + ((2 * (c2 - c1) : ℤ) : ℝ) * t = 0 := by
        push_cast
        rw [← e0, ← e1, ← e2]
        simp only [dcStep, List.zipWith, List.tail, curve_two] at hz
        unfold coord at hz ⊢
        split_ifs at hz ⊢ <;> simp at hz <;> linarith
      obtain ⟨v, hv, hn⟩ := quad_near c0 c1 c2 h0 h1 h2 t t0 t1 hz'
      refine ⟨v, ?_, ?_⟩
      · rw [mem_addEnds, mem_filterMap01]; tauto
      · rw [← e0, ← e1, ← e2] at hn
        simp only [curve_three]
        unfold coord at hn ⊢
        split_ifs at hn ⊢ <;> exact hn
  | [p, q, r, s], _, _ =>
    obtain ⟨c0, h0, e0⟩ := grid_coord (hg p (by simp)) dim
    obtain ⟨c1, h1, e1⟩ := grid_coord (hg q (by simp)) dim
    obtain ⟨c2, h2, e2⟩ := grid_coord (hg r (by simp)) dim
    obtain ⟨c3, h3, e3⟩ := grid_coord (hg s (by simp)) dim
    obtain ⟨s1, k1⟩ := sub_int h1 h0 (by norm_num)
    obtain ⟨s2, k2⟩ := sub_int h2 h1 (by norm_num)
    obtain ⟨s2', k2'⟩ := sub_int h3 h2 (by norm_num)
    obtain ⟨s3, k3⟩ := mul_int (a := 3) (A := 3) (by norm_num) k1 (by norm_num)
    obtain ⟨s4, k4⟩ := mul_int (a := 3) (A := 3) (by norm_num) k2 (by norm_num)
    obtain ⟨s5, k5⟩ := mul_int (a := 3) (A := 3) (by norm_num) k2' (by norm_num)
    have three : ((3 : ℤ) : ℝ) = 3 := by norm_num
    rw [three] at s3 s4 s5
    obtain ⟨X, hX⟩ : ∃ X, Rounded.droots float ((Rounded.dcStep float (Rounded.dcStep float [p, q, r, s])).map (coord dim)) = X := ⟨_, rfl⟩
    refine ⟨(Rounded.droots float [((3 * (c1 - c0) : ℤ) : ℝ), ((3 * (c2 - c1) : ℤ) : ℝ), ((3 * (c3 - c2) : ℤ) : ℝ)] ++ X).filterMap
      fun t => t.filter fun t => decide (t ≥ 0 ∧ t ≤ 1), ?_, fin _, ?_⟩
    · unfold Rounded.extremaDim
      rw [hdc (Rounded.dcStep float _) (by rw [hlen]; simp), pyGet_zero_cons, pyGet_one_cons]
      simp only [ok_bind, hX, pure_eq_ok]
      rw [if_pos (by simp [order])]
      simp only [coord_dc, List.length_cons, List.length_nil, List.map_cons, List.map_nil, List.tail_cons, List.zipWith_cons_cons,
        List.zipWith_nil_right, e0, e1, e2, e3, s1, s2, s2', pure_eq_ok, ok_bind]
      norm_num only [Nat.cast_ofNat]
      rw [s3, s4, s5]
    · intro t t0 t1 hz
      have hz' : (3 * ((c1:ℝ) - c0)) * (1 - t) ^ 2 + 2 * (3 * ((c2:ℝ) - c1)) * (1 - t) * t + (3 * ((c3:ℝ) - c2)) * t ^ 2 = 0 := by
        rw [← e0, ← e1, ← e2, ← e3]
        simp only [dcStep, List.zipWith, List.tail, curve_three] at hz
        unfold coord at hz ⊢
        split_ifs at hz ⊢ <;> simp at hz <;> linarith
      obtain ⟨v, hv, hn⟩ := cube_near c0 c1 c2 c3 h0 h1 h2 h3 t t0 t1 hz'
      refine ⟨v, ?_, ?_⟩
      · rw [mem_addEnds, mem_filterMap01, List.mem_append]; tauto
      · rw [← e0, ← e1, ← e2, ← e3] at hn
        simp only [curve_four]
        unfold coord at hn ⊢
        split_ifs at hn ⊢ <;> exact hn

/-- The loop of `_getminmax`, for a list on which the values are known. -/
theorem minmaxLoop_ok (R : Rounding) (ps : Segment ℝ) (d : Fin 2) (g : ℝ → Pt ℝ) (l : List ℝ) (hg : ∀ t ∈ l, Rounded.get R ps t = .ok (g t)) :
    ∃ m M, Rounded.minmaxLoop R ps d l = .ok (m, M) ∧ (∀ t ∈ l, m ≤ coord d (g t) ∧ coord d (g t) ≤ M) ∧
      (m = maxSafe ∨ ∃ t ∈ l, m = coord d (g t)) ∧ (M = minSafe ∨ ∃ t ∈ l, M = coord d (g t)) := by
  have key : ∀ (l : List ℝ) (m0 M0 : ℝ), (∀ t ∈ l, Rounded.get R ps t = .ok (g t)) → ∃ m M, l.foldlM (fun (acc : ℝ × ℝ) (t : ℝ) => (do
      let c ← Rounded.get R ps t
      let min := if coord d c < acc.1 then coord d c else acc.1
      let max := if coord d c > acc.2 then coord d c else acc.2
      return (min, max) : Py (ℝ × ℝ))) (m0, M0) = .ok (m, M) ∧ (m ≤ m0 ∧ M0 ≤ M ∧ ∀ t ∈ l, m ≤ coord d (g t) ∧ coord d (g t) ≤ M) ∧
      (m = m0 ∨ ∃ t ∈ l, m = coord d (g t)) ∧ (M = M0 ∨ ∃ t ∈ l, M = coord d (g t)) := by
    intro l
    induction l with
    | nil => intro m0 M0 _; exact ⟨m0, M0, rfl, by simp, by simp, by simp⟩
    | cons t l ih =>
      intro m0 M0 hg
      obtain ⟨m, M, e, ⟨h1, h2, h3⟩, h4, h5⟩ := ih (if coord d (g t) < m0 then coord d (g t) else m0)
        (if coord d (g t) > M0 then coord d (g t) else M0) fun s hs => hg s (by simp [hs])
      refine ⟨m, M, ?_, ⟨?_, ?_, ?_⟩, ?_, ?_⟩
      · rw [List.foldlM_cons, hg t (by simp)]
        simp only [ok_bind, pure_eq_ok]
        exact e
      · split_ifs at h1 <;> linarith
      · split_ifs at h2 <;> linarith
      · intro s hs
        rcases List.mem_cons.mp hs with rfl | hs
        · constructor
          · split_ifs at h1 <;> linarith
          · split_ifs at h2 <;> linarith
        · exact h3 s hs
      · rcases h4 with h4 | ⟨s, hs, h4⟩
        · split_ifs at h4
          · exact .inr ⟨t, by simp, h4⟩
          · exact .inl h4
        · exact .inr ⟨s, by simp [hs], h4⟩
      · rcases h5 with h5 | ⟨s, hs, h5⟩
        · split_ifs at h5
          · exact .inr ⟨t, by simp, h5⟩
          · exact .inl h5
        · exact .inr ⟨s, by simp [hs], h5⟩
  obtain ⟨m, M, e, ⟨-, -, h⟩, h4, h5⟩ := key l maxSafe minSafe hg
  exact ⟨m, M, e, h, h4, h5⟩

/-- The grid points are bounded. -/
private theorem grid_bound {ps : Segment ℝ} (hg : ∀ p ∈ ps, OnGrid p) : ∀ p ∈ ps, |p.1| ≤ 32768 ∧ |p.2| ≤ 32768 := by
  intro p hp
  obtain ⟨m, n, hm, hn, rfl⟩ := hg p hp
  exact ⟨by show |(m:ℝ)| ≤ 32768; exact_mod_cast hm, by show |(n:ℝ)| ≤ 32768; exact_mod_cast hn⟩

private theorem dim_ok (ps : Segment ℝ) (h2 : 2 ≤ ps.length) (h4 : ps.length ≤ 4) (hB : ∀ p ∈ ps, |p.1| ≤ 32768 ∧ |p.2| ≤ 32768) (dim : Fin 2)
    (near : NearDim ps dim) :
    ∃ l m M, Rounded.extremaDim float (order ps) (Rounded.dcPoints float ps) dim = .ok l ∧
      Rounded.minmaxLoop float ps dim (addEnds l) = .ok (m, M) ∧ m ≤ M ∧
      (∀ t, 0 ≤ t → t ≤ 1 → m ≤ coord dim (curve ps t) + 1 / 10 ^ 10 ∧ coord dim (curve ps t) ≤ M + 1 / 10 ^ 10) ∧
      (∃ t, 0 ≤ t ∧ t ≤ 1 ∧ |m - coord dim (curve ps t)| ≤ 1 / 10 ^ 10) ∧
      (∃ t, 0 ≤ t ∧ t ≤ 1 ∧ |M - coord dim (curve ps t)| ≤ 1 / 10 ^ 10) := by
  obtain ⟨l, e1, hl, hn⟩ := near
  have hne : ps ≠ [] := by rintro rfl; simp at h2
  have hr : ∀ t ∈ addEnds l, 0 ≤ t ∧ t ≤ 1 := by
    intro t ht
    rcases (mem_addEnds l t).mp ht with rfl | rfl | ht
    · norm_num
    · norm_num
    · exact hl t ht
  have hget : ∀ t : ℝ, ∃ p, 0 ≤ t → t ≤ 1 → Rounded.get float ps t = .ok p ∧ |coord dim p - coord dim (curve ps t)| ≤ 32768 / 10 ^ 15 := by
    intro t
    by_cases h : 0 ≤ t ∧ t ≤ 1
    · obtain ⟨p, q, a, b, c⟩ := C82_float ps h2 h4 32768 (hB) t h.1 h.2
      rw [get_ok ps hne] at b
      cases b
      refine ⟨p, fun _ _ => ⟨a, ?_⟩⟩
      unfold coord
      split_ifs
      · exact c.1
      · exact c.2
    · exact ⟨(0, 0), fun a b => absurd ⟨a, b⟩ h⟩
  choose g hg' using hget
  obtain ⟨m, M, e2, k1, k2, k3⟩ := minmaxLoop_ok float ps dim g (addEnds l) fun t ht => (hg' t (hr t ht).1 (hr t ht).2).1
  have zero := k1 0 (by simp [mem_addEnds])
  have h0 := (hg' 0 le_rfl zero_le_one).2
  have small : |coord dim (curve ps 0)| ≤ 32768 := by
    rw [curve_zero ps hne]
    have := hB _ (List.head_mem hne)
    unfold coord
    split_ifs
    · exact this.1
    · exact this.2
  have bound : ∀ f : ℝ → ℝ, ∀ f' : ℝ → ℝ, (∀ t, HasDerivAt f (f' t) t) →
      (∀ t, 0 < t → t < 1 → f' t = 0 → ∃ v ∈ addEnds l, |f v - f t| ≤ 1 / 2 ^ 36) →
      ∀ t, 0 ≤ t → t ≤ 1 → ∃ v ∈ addEnds l, f t ≤ f v + 1 / 2 ^ 36 := by
    intro f f' hf hz t t0 t1
    have hcont : ContinuousOn f (Set.Icc 0 1) := fun x _ => (hf x).continuousAt.continuousWithinAt
    obtain ⟨s, hs, hmax⟩ := isCompact_Icc.exists_isMaxOn (⟨0, by simp⟩ : (Set.Icc (0:ℝ) 1).Nonempty) hcont
    have hts : f t ≤ f s := hmax ⟨t0, t1⟩
    have pos : (0:ℝ) ≤ 1 / 2 ^ 36 := by positivity
    rcases eq_or_lt_of_le hs.1 with q0 | l0
    · exact ⟨0, by simp [mem_addEnds], by rw [q0]; linarith⟩
    rcases eq_or_lt_of_le hs.2 with q1 | l1
    · exact ⟨1, by simp [mem_addEnds], by rw [← q1]; linarith⟩
    · have hloc : IsLocalMax f s := hmax.isLocalMax (Icc_mem_nhds l0 l1)
      obtain ⟨v, hv, h⟩ := hz s l0 l1 (hloc.hasDerivAt_eq_zero (hf s))
      exact ⟨v, hv, by rw [abs_le] at h; linarith [h.1]⟩
  refine ⟨l, m, M, e1, e2, zero.1.trans zero.2, ?_, ?_, ?_⟩
  · intro t t0 t1
    constructor
    · obtain ⟨v, hv, h⟩ := bound (fun t => -coord dim (curve ps t)) _ (fun t => (deriv_coord dim ps h2 t).neg)
        (fun t t0 t1 hz => by
          obtain ⟨v, hv, h⟩ := hn t t0 t1 (by simpa using hz)
          refine ⟨v, hv, ?_⟩
          rw [abs_sub_comm] at h
          convert h using 2
          ring) t t0 t1
      have a := (k1 v hv).1
      have b := (hg' v (hr v hv).1 (hr v hv).2).2
      rw [abs_le] at b
      norm_num at b h ⊢
      linarith [b.1, b.2]
    · obtain ⟨v, hv, h⟩ := bound (fun t => coord dim (curve ps t)) _ (fun t => deriv_coord dim ps h2 t) hn t t0 t1
      have a := (k1 v hv).2
      have b := (hg' v (hr v hv).1 (hr v hv).2).2
      rw [abs_le] at b
      norm_num at b h ⊢
      linarith [b.1, b.2]
  · rcases k2 with k2 | ⟨t, ht, k2⟩
    · exfalso
      have := zero.1
      rw [k2] at this
      unfold maxSafe at this
      rw [abs_le] at small h0
      norm_num at h0
      linarith [small.2, h0.2]
    · exact ⟨t, (hr t ht).1, (hr t ht).2, by rw [k2]; exact (hg' t (hr t ht).1 (hr t ht).2).2.trans (by norm_num)⟩
  · rcases k3 with k3 | ⟨t, ht, k3⟩
    · exfalso
      have := zero.2
      rw [k3] at this
      unfold minSafe at this
      rw [abs_le] at small h0
      norm_num at h0
      linarith [small.1, h0.1]
    · exact ⟨t, (hr t ht).1, (hr t ht).2, by rw [k3]; exact (hg' t (hr t ht).1 (hr t ht).2).2.trans (by norm_num)⟩

private theorem bounds_near (ps : Segment ℝ) (h2 : 2 ≤ ps.length) (h4 : ps.length ≤ 4) (hB : ∀ p ∈ ps, |p.1| ≤ 32768 ∧ |p.2| ≤ 32768)
    (near : ∀ dim, NearDim ps dim) :
    ∃ minX maxX minY maxY b, Rounded.bbox float ps = .ok ((minX, maxX), (minY, maxY)) ∧ Rounded.boundsRectangle float ps = .ok b ∧
      (∀ t, 0 ≤ t → t ≤ 1 →
        (minX - 1 / 10 ^ 10 ≤ (curve ps t).1 ∧ (curve ps t).1 ≤ maxX + 1 / 10 ^ 10 ∧
          minY - 1 / 10 ^ 10 ≤ (curve ps t).2 ∧ (curve ps t).2 ≤ maxY + 1 / 10 ^ 10) ∧
        (b.left - 1 / 10 ^ 10 ≤ (curve ps t).1 ∧ (curve ps t).1 ≤ b.right + 1 / 10 ^ 10 ∧
          b.bottom - 1 / 10 ^ 10 ≤ (curve ps t).2 ∧ (curve ps t).2 ≤ b.top + 1 / 10 ^ 10)) ∧
      (∃ t, 0 ≤ t ∧ t ≤ 1 ∧ |minX - (curve ps t).1| ≤ 1 / 10 ^ 10 ∧ |b.left - (curve ps t).1| ≤ 1 / 10 ^ 10) ∧
      (∃ t, 0 ≤ t ∧ t ≤ 1 ∧ |maxX - (curve ps t).1| ≤ 1 / 10 ^ 10 ∧ |b.right - (curve ps t).1| ≤ 1 / 10 ^ 10) ∧
      (∃ t, 0 ≤ t ∧ t ≤ 1 ∧ |minY - (curve ps t).2| ≤ 1 / 10 ^ 10 ∧ |b.bottom - (curve ps t).2| ≤ 1 / 10 ^ 10) ∧
      (∃ t, 0 ≤ t ∧ t ≤ 1 ∧ |maxY - (curve ps t).2| ≤ 1 / 10 ^ 10 ∧ |b.top - (curve ps t).2| ≤ 1 / 10 ^ 10) := by
  have hne : ps ≠ [] := by rintro rfl; simp at h2
  obtain ⟨lx, m, M, e1, e2, hmM, k1, ⟨ta, a0, a1, a2⟩, ⟨tb, b0, b1, b2⟩⟩ := dim_ok ps h2 h4 hB 0 (near 0)
  obtain ⟨ly, n, N, e3, e4, hnN, k2, ⟨tc, c0, c1, c2⟩, ⟨td, d0, d1, d2⟩⟩ := dim_ok ps h2 h4 hB 1 (near 1)
  simp only [coord, if_pos, one_ne_zero, if_false] at k1 k2 a2 b2 c2 d2
  have hb : Rounded.bbox float ps = .ok ((m, M), (n, N)) := by
    unfold Rounded.bbox Rounded.extrema
    rw [e1, ok_bind, e3, ok_bind]
    simp only [pure_eq_ok, ok_bind]
    rw [e2, ok_bind, e4, ok_bind]
  have cb := in_range ps hne 32768 (hB)
  have hbox : BoundsRectangle.new [(m, n), (M, N)] = (⟨min 32768 m, min 32768 n, max (-32768) M, max (-32768) N⟩ : BoundsRectangle ℝ) := by
    simp only [BoundsRectangle.new, BoundsRectangle.addPoint, BoundsRectangle.init, List.foldl, pyMin_eq, pyMax_eq, min_assoc, max_assoc,
      min_eq_left hmM, min_eq_left hnN, max_eq_right hmM, max_eq_right hnN]
  have low : ∀ m c : ℝ, |c| ≤ 32768 → |m - c| ≤ 1 / 10 ^ 10 → |min 32768 m - c| ≤ 1 / 10 ^ 10 := by
    intro m c hc h
    rcases le_total 32768 m with h' | h'
    · rw [min_eq_left h']
      rw [abs_le] at *
      constructor <;> linarith [hc.1, hc.2, h.1, h.2]
    · rw [min_eq_right h']; exact h
  have high : ∀ m c : ℝ, |c| ≤ 32768 → |m - c| ≤ 1 / 10 ^ 10 → |max (-32768) m - c| ≤ 1 / 10 ^ 10 := by
    intro m c hc h
    rcases le_total (-32768) m with h' | h'
    · rw [max_eq_right h']; exact h
    · rw [max_eq_left h']
      rw [abs_le] at *
      constructor <;> linarith [hc.1, hc.2, h.1, h.2]
  refine ⟨m, M, n, N, _, hb, by unfold Rounded.boundsRectangle; rw [hb]; rfl, ?_⟩
  rw [hbox]
  refine ⟨?_, ⟨ta, a0, a1, a2, low _ _ (cb ta a0 a1).1 a2⟩, ⟨tb, b0, b1, b2, high _ _ (cb tb b0 b1).1 b2⟩,
    ⟨tc, c0, c1, c2, low _ _ (cb tc c0 c1).2 c2⟩, ⟨td, d0, d1, d2, high _ _ (cb td d0 d1).2 d2⟩⟩
  intro t t0 t1
  obtain ⟨p1, p2⟩ := k1 t t0 t1
  obtain ⟨p3, p4⟩ := k2 t t0 t1
  have q1 := min_le_right (32768:ℝ) m
  have q2 := min_le_right (32768:ℝ) n
  have q3 := le_max_right (-32768:ℝ) M
  have q4 := le_max_right (-32768:ℝ) N
  simp only
  refine ⟨⟨?_, ?_, ?_, ?_⟩, ?_, ?_, ?_, ?_⟩ <;> linarith

/-- C93: the bounds of a line, quadratic or cubic curve with control points on the grid. In floating point `bbox` does not fail; the
whole exact curve lies in the box enlarged by `10 ^ -10`, and each of its sides is within `10 ^ -10` of the curve. The same holds for
`boundsRectangle`. -/
theorem C93_grid (ps : Segment ℝ) (h2 : 2 ≤ ps.length) (h4 : ps.length ≤ 4) (hg : ∀ p ∈ ps, OnGrid p) :
    ∃ minX maxX minY maxY b, Rounded.bbox float ps = .ok ((minX, maxX), (minY, maxY)) ∧ Rounded.boundsRectangle float ps = .ok b ∧
      (∀ t, 0 ≤ t → t ≤ 1 →
        (minX - 1 / 10 ^ 10 ≤ (curve ps t).1 ∧ (curve ps t).1 ≤ maxX + 1 / 10 ^ 10 ∧
          minY - 1 / 10 ^ 10 ≤ (curve ps t).2 ∧ (curve ps t).2 ≤ maxY + 1 / 10 ^ 10) ∧
        (b.left - 1 / 10 ^ 10 ≤ (curve ps t).1 ∧ (curve ps t).1 ≤ b.right + 1 / 10 ^ 10 ∧
          b.bottom - 1 / 10 ^ 10 ≤ (curve ps t).2 ∧ (curve ps t).2 ≤ b.top + 1 / 10 ^ 10)) ∧
      (∃ t, 0 ≤ t ∧ t ≤ 1 ∧ |minX - (curve ps t).1| ≤ 1 / 10 ^ 10 ∧ |b.left - (curve ps t).1| ≤ 1 / 10 ^ 10) ∧
      (∃ t, 0 ≤ t ∧ t ≤ 1 ∧ |maxX - (curve ps t).1| ≤ 1 / 10 ^ 10 ∧ |b.right - (curve ps t).1| ≤ 1 / 10 ^ 10) ∧
      (∃ t, 0 ≤ t ∧ t ≤ 1 ∧ |minY - (curve ps t).2| ≤ 1 / 10 ^ 10 ∧ |b.bottom - (curve ps t).2| ≤ 1 / 10 ^ 10) ∧
      (∃ t, 0 ≤ t ∧ t ≤ 1 ∧ |maxY - (curve ps t).2| ≤ 1 / 10 ^ 10 ∧ |b.top - (curve ps t).2| ≤ 1 / 10 ^ 10) :=
  bounds_near ps h2 h4 (grid_bound hg) (near_dim ps h2 h4 hg)

/-- The cubic of the examples for C37 is on the grid. -/
example : ∀ p ∈ [((0:ℝ), (0:ℝ)), (0, 100), (200, -100), (200, 0)], OnGrid p := by
  intro p hp
  have g : ∀ m n : ℤ, |m| ≤ 32768 → |n| ≤ 32768 → OnGrid ((m:ℝ), (n:ℝ)) := fun m n hm hn => ⟨m, n, hm, hn, rfl⟩
  have g1 := g 0 0 (by norm_num) (by norm_num)
  have g2 := g 0 100 (by norm_num) (by norm_num)
  have g3 := g 200 (-100) (by norm_num) (by norm_num)
  have g4 := g 200 0 (by norm_num) (by norm_num)
  norm_num at g1 g2 g3 g4
  simp only [List.mem_cons, List.not_mem_nil, or_false] at hp
  rcases hp with rfl | rfl | rfl | rfl <;> assumption

/-- A zero of the derivative of a quadratic polynomial, in floating point. -/
private theorem quad_root (A B a b t : ℝ) (t0 : 0 < t) (t1 : t < 1) (hz : A * (1 - t) + B * t = 0) (hA : A ≠ 0)
    (ha : |a - A| ≤ 1 / 2 ^ 51 * |A|) (hb : |b - B| ≤ 1 / 2 ^ 51 * |B|) :
    a ≠ b ∧ |float.div a (float.sub a b) - t| ≤ 1 / 2 ^ 30 := by
  have eB : B = -(A * (1 - t) / t) := by field_simp; linear_combination hz
  have sgn : |A - B| = |A| + |B| := by
    have h : 0 ≤ A * -B := by
      have : A * -B = A ^ 2 * (1 - t) / t := by rw [eB]; field_simp
      rw [this]
      exact div_nonneg (mul_nonneg (sq_nonneg _) (by linarith)) t0.le
    have := abs_add_eq_add_abs_iff A (-B)
    rw [abs_neg, ← sub_eq_add_neg] at this
    rw [this]
    rcases le_total 0 A with hA0 | hA0
    · left
      refine ⟨hA0, ?_⟩
      exact nonneg_of_mul_nonneg_right h (lt_of_le_of_ne hA0 (Ne.symm hA))
    · right
      refine ⟨hA0, ?_⟩
      by_contra hc
      rw [not_le] at hc
      have : A < 0 := lt_of_le_of_ne hA0 hA
      nlinarith
  have pA := abs_pos.mpr hA
  have pB := abs_nonneg B
  set D := A - B with hD
  have pD : 0 < |D| := by rw [sgn]; linarith
  have hD0 : D ≠ 0 := abs_pos.mp pD
  have et : A / D = t := by
    rw [div_eq_iff hD0, hD]; linear_combination hz
  -- the rounded difference
  have d1 : |(a - b) - D| ≤ 1 / 2 ^ 51 * |D| := by
    have e : (a - b) - D = (a - A) - (b - B) := by rw [hD]; ring
    rw [e, sgn, mul_add]
    exact (abs_sub _ _).trans (by linarith)
  have d2 : |a - b| ≤ 2 * |D| := by
    have := abs_sub_abs_le_abs_sub (a - b) D
    norm_num at d1
    linarith
  have d3 : |float.sub a b - D| ≤ 1 / 2 ^ 50 * |D| := by
    have r1 : |float.sub a b - (a - b)| ≤ 1 / 2 ^ 53 * |a - b| := rnd_err (a - b)
    have r2 := abs_sub_le (float.sub a b) (a - b) D
    norm_num at r1 d1 ⊢
    linarith
  have ne : a ≠ b := by
    rintro rfl
    rw [sub_self, zero_sub, abs_neg] at d1
    norm_num at d1
    linarith
  refine ⟨ne, ?_⟩
  generalize float.sub a b = d at *
  have d4 : |D| / 2 ≤ |d| := by
    have := abs_sub_abs_le_abs_sub D d
    rw [abs_sub_comm D d] at this
    norm_num at d3
    linarith
  have d0 : d ≠ 0 := by
    rintro rfl
    rw [abs_zero] at d4
    linarith
  have AD : |A| ≤ |D| := by rw [sgn]; linarith
  have q : |a / d - t| ≤ 1 / 2 ^ 48 := by
    have e : a / d - t = ((a - A) * D + A * (D - d)) / (d * D) := by
      rw [← et]; field_simp; ring
    rw [e, abs_div, abs_mul d D, div_le_iff₀ (mul_pos (abs_pos.mpr d0) pD)]
    have n1 : |(a - A) * D| ≤ 1 / 2 ^ 51 * |D| * |D| := by
      rw [abs_mul]
      exact mul_le_mul_of_nonneg_right (ha.trans (mul_le_mul_of_nonneg_left AD (by positivity))) (abs_nonneg _)
    have n2 : |A * (D - d)| ≤ |D| * (1 / 2 ^ 50 * |D|) := by
      rw [abs_mul, abs_sub_comm]
      exact mul_le_mul AD d3 (abs_nonneg _) (abs_nonneg _)
    have n3 : |D| / 2 * |D| ≤ |d| * |D| := mul_le_mul_of_nonneg_right d4 (abs_nonneg _)
    have n4 := abs_add_le ((a - A) * D) (A * (D - d))
    have n5 := mul_pos pD pD
    refine n4.trans ((add_le_add n1 n2).trans ?_)
    norm_num
    nlinarith
  have w2 : |a / d| ≤ 2 := by
    rw [abs_le] at q ⊢
    norm_num at q
    constructor <;> linarith [q.1, q.2]
  have r := (rnd_err (a / d)).trans (mul_le_mul_of_nonneg_left w2 (by positivity))
  have := abs_sub_le (float.div a d) (a / d) t
  have e : float.rnd (a / d) = float.div a d := rfl
  rw [e] at r
  norm_num at *
  linarith

private theorem near_quad (ps : Segment ℝ) (h2 : 2 ≤ ps.length) (h3 : ps.length ≤ 3) (hB : ∀ p ∈ ps, |p.1| ≤ 32768 ∧ |p.2| ≤ 32768)
    (dim : Fin 2) : NearDim ps dim := by
  unfold NearDim
  have hdc : ∀ qs : Segment ℝ, 1 < qs.length → Rounded.dcPoints float qs = Rounded.dcStep float qs :: Rounded.dcPoints float (Rounded.dcStep float qs) := by
    intro qs h
    rw [Rounded.dcPoints, if_pos h]
  have fin : ∀ (L : List (Option ℝ)) (t : ℝ), t ∈ (L.filterMap fun t => t.filter fun t => decide (t ≥ 0 ∧ t ≤ 1)) → 0 ≤ t ∧ t ≤ 1 :=
    fun L t h => ((mem_filterMap01 L t).mp h).1
  have hB' : ∀ p ∈ ps, |coord dim p| ≤ 32768 := by
    intro p hp
    unfold coord
    split_ifs
    · exact (hB p hp).1
    · exact (hB p hp).2
  rw [hdc ps (by omega)]
  match ps, h2, h3 with
  | [p, q], _, _ =>
    refine ⟨[], ?_, by simp, ?_⟩
    · unfold Rounded.extremaDim
      rw [pyGet_zero_cons]
      simp only [ok_bind, coord_dc]
      rw [if_neg (by simp [order])]
      rfl
    · intro t t0 t1 hz
      refine ⟨0, by simp [mem_addEnds], ?_⟩
      have e : coord dim (curve [p, q] 0) = coord dim (curve [p, q] t) := by
        have : coord dim q = coord dim p := by
          simp only [dcStep, List.zipWith, List.tail, curve_one] at hz
          unfold coord at hz ⊢
          split_ifs at hz ⊢ <;> simp at hz <;> linarith
        simp only [curve_two]
        unfold coord at this ⊢
        split_ifs at this ⊢ <;> simp only [this] <;> ring
      rw [e]; simp
  | [p, q, r], _, _ =>
    have r0 := hB' p (by simp)
    have r1 := hB' q (by simp)
    have r2 := hB' r (by simp)
    obtain ⟨c0, e0⟩ : ∃ c, coord dim p = c := ⟨_, rfl⟩
    obtain ⟨c1, e1⟩ : ∃ c, coord dim q = c := ⟨_, rfl⟩
    obtain ⟨c2, e2⟩ : ∃ c, coord dim r = c := ⟨_, rfl⟩
    rw [e0] at r0
    rw [e1] at r1
    rw [e2] at r2
    refine ⟨(Rounded.droots float [float.mul 2 (float.sub c1 c0), float.mul 2 (float.sub c2 c1)]).filterMap
      fun t => t.filter fun t => decide (t ≥ 0 ∧ t ≤ 1), ?_, fin _, ?_⟩
    · unfold Rounded.extremaDim
      rw [pyGet_zero_cons]
      simp only [ok_bind, coord_dc]
      rw [if_neg (by simp [order])]
      simp only [List.length_cons, List.length_nil, List.map_cons, List.map_nil, List.tail_cons, List.zipWith_cons_cons, List.zipWith_nil_right,
        e0, e1, e2, pure_eq_ok, ok_bind]
      norm_num only [Nat.cast_ofNat]
    · intro t t0 t1 hz
      have hz' : (2 * (c1 - c0)) * (1 - t) + (2 * (c2 - c1)) * t = 0 := by
        rw [← e0, ← e1, ← e2]
        simp only [dcStep, List.zipWith, List.tail, curve_two] at hz
        unfold coord at hz ⊢
        split_ifs at hz ⊢ <;> simp at hz <;> linarith
      have key : ∀ v : ℝ, ((1 - v) ^ 2 * c0 + 2 * (1 - v) * v * c1 + v ^ 2 * c2) - ((1 - t) ^ 2 * c0 + 2 * (1 - t) * t * c1 + t ^ 2 * c2) =
          (v - t) ^ 2 * (c0 - 2 * c1 + c2) := by
        intro v
        linear_combination (v - t) * hz'
      have val : ∀ v : ℝ, coord dim (curve [p, q, r] v) = (1 - v) ^ 2 * c0 + 2 * (1 - v) * v * c1 + v ^ 2 * c2 := by
        intro v
        rw [← e0, ← e1, ← e2]
        simp only [curve_three]
        unfold coord
        split_ifs <;> rfl
      simp only [val, key]
      by_cases hA : 2 * (c1 - c0) = 0
      · have e : c0 - 2 * c1 + c2 = 0 := by
          rw [hA, zero_mul, zero_add] at hz'
          have := (mul_eq_zero.mp hz').resolve_right t0.ne'
          linarith
        refine ⟨0, by simp [mem_addEnds], ?_⟩
        rw [e]; norm_num
      · have dbl : ∀ x y : ℝ, |float.mul 2 (float.sub x y) - 2 * (x - y)| ≤ 1 / 2 ^ 51 * |2 * (x - y)| := by
          intro x y
          have s1 := rnd_err (x - y)
          have e1 : float.rnd (x - y) = float.sub x y := rfl
          rw [e1] at s1
          have s2 := rnd_err (2 * float.sub x y)
          have e2 : float.rnd (2 * float.sub x y) = float.mul 2 (float.sub x y) := rfl
          rw [e2] at s2
          have s3 := abs_sub_abs_le_abs_sub (float.sub x y) (x - y)
          have s4 := abs_sub_le (float.mul 2 (float.sub x y)) (2 * float.sub x y) (2 * (x - y))
          have e4 : |2 * float.sub x y - 2 * (x - y)| = 2 * |float.sub x y - (x - y)| := by
            rw [← mul_sub, abs_mul]; norm_num
          rw [e4] at s4
          rw [abs_mul] at s2 ⊢
          norm_num at *
          linarith [abs_nonneg (x - y)]
        obtain ⟨ne, hw⟩ := quad_root _ _ _ _ t t0 t1 hz' hA (dbl c1 c0) (dbl c2 c1)
        obtain ⟨v, hv, hn⟩ := clip (float.div (float.mul 2 (float.sub c1 c0))
          (float.sub (float.mul 2 (float.sub c1 c0)) (float.mul 2 (float.sub c2 c1)))) t t0 t1
        refine ⟨v, ?_, ?_⟩
        · rw [mem_addEnds, mem_filterMap01]
          rcases hv with hv | hv | ⟨rfl, hv⟩
          · exact .inl hv
          · exact .inr (.inl hv)
          · refine .inr (.inr ⟨hv, ?_⟩)
            unfold Rounded.droots
            simp only
            rw [if_pos ne]; simp
        · have b : |c0 - 2 * c1 + c2| ≤ 2 ^ 17 := by rw [abs_le] at *; constructor <;> linarith [r0.1, r0.2, r1.1, r1.2, r2.1, r2.2]
          rw [abs_mul, abs_pow]
          calc _ ≤ (1 / 2 ^ 30 : ℝ) ^ 2 * 2 ^ 17 :=
                mul_le_mul (pow_le_pow_left₀ (abs_nonneg _) (hn.trans hw) 2) b (abs_nonneg _) (by positivity)
            _ ≤ _ := by norm_num

/-- C93: for lines and quadratic curves this holds for all control points up to 32768, on the grid or not. -/
theorem C93_quadratic (ps : Segment ℝ) (h2 : 2 ≤ ps.length) (h3 : ps.length ≤ 3) (hB : ∀ p ∈ ps, |p.1| ≤ 32768 ∧ |p.2| ≤ 32768) :
    ∃ minX maxX minY maxY b, Rounded.bbox float ps = .ok ((minX, maxX), (minY, maxY)) ∧ Rounded.boundsRectangle float ps = .ok b ∧
      (∀ t, 0 ≤ t → t ≤ 1 →
        (minX - 1 / 10 ^ 10 ≤ (curve ps t).1 ∧ (curve ps t).1 ≤ maxX + 1 / 10 ^ 10 ∧
          minY - 1 / 10 ^ 10 ≤ (curve ps t).2 ∧ (curve ps t).2 ≤ maxY + 1 / 10 ^ 10) ∧
        (b.left - 1 / 10 ^ 10 ≤ (curve ps t).1 ∧ (curve ps t).1 ≤ b.right + 1 / 10 ^ 10 ∧
          b.bottom - 1 / 10 ^ 10 ≤ (curve ps t).2 ∧ (curve ps t).2 ≤ b.top + 1 / 10 ^ 10)) ∧
      (∃ t, 0 ≤ t ∧ t ≤ 1 ∧ |minX - (curve ps t).1| ≤ 1 / 10 ^ 10 ∧ |b.left - (curve ps t).1| ≤ 1 / 10 ^ 10) ∧
      (∃ t, 0 ≤ t ∧ t ≤ 1 ∧ |maxX - (curve ps t).1| ≤ 1 / 10 ^ 10 ∧ |b.right - (curve ps t).1| ≤ 1 / 10 ^ 10) ∧
      (∃ t, 0 ≤ t ∧ t ≤ 1 ∧ |minY - (curve ps t).2| ≤ 1 / 10 ^ 10 ∧ |b.bottom - (curve ps t).2| ≤ 1 / 10 ^ 10) ∧
      (∃ t, 0 ≤ t ∧ t ≤ 1 ∧ |maxY - (curve ps t).2| ≤ 1 / 10 ^ 10 ∧ |b.top - (curve ps t).2| ≤ 1 / 10 ^ 10) :=
  bounds_near ps h2 (by omega) hB (near_quad ps h2 h3 hB)

/-- A quadratic curve that is not on the grid. -/
example : ∀ p ∈ [((1 / 3 : ℝ), (1 / 7 : ℝ)), (100 / 3, 50 / 7), (0.1, 20.7)], |p.1| ≤ 32768 ∧ |p.2| ≤ 32768 := by
  intro p hp
  simp only [List.mem_cons, List.not_mem_nil, or_false] at hp
  rcases hp with rfl | rfl | rfl <;> norm_num [abs_le]

end grid

/-- C93: off the grid the box can be far too small. The ordinates of this cubic are 1.0, 7.666666666666667, 7.333333333333333 and 0.0:
its third difference is not zero but of the size of a rounding error, the quadratic formula loses the root near 0.5, and the box ends
at 1 although the curve reaches more than 5.7. -/
theorem C93_counterexample :
    Rounded.boundsRectangle float [(0, 1), (1, 8631899285793451 / 2 ^ 50), (2, 8256599316845909 / 2 ^ 50), (3, 0)] =
      .ok ⟨0, 0, 3, 1⟩ ∧
    57 / 10 < (curve [((0:ℝ), (1:ℝ)), (1, 8631899285793451 / 2 ^ 50), (2, 8256599316845909 / 2 ^ 50), (3, 0)] (1 / 2)).2 := by
  refine ⟨?_, ?_⟩
  · have es : ([(0, 1), (1, 8631899285793451 / 2 ^ 50), (2, 8256599316845909 / 2 ^ 50), (3, 0)] : Segment ℝ) =
        Flt.seg [(0, 1), (1, 8631899285793451 / 2 ^ 50), (2, 8256599316845909 / 2 ^ 50), (3, 0)] := by
      simp [Flt.seg, Flt.pt]
    have hx : Rounded.extremaDim float (order (Flt.seg [(0, 1), (1, 8631899285793451 / 2 ^ 50), (2, 8256599316845909 / 2 ^ 50), (3, 0)]))
        (Rounded.dcPoints float (Flt.seg [(0, 1), (1, 8631899285793451 / 2 ^ 50), (2, 8256599316845909 / 2 ^ 50), (3, 0)])) 0 = .ok [] := by
      rw [Flt.dcPoints_run 3 _ rfl, Flt.order_seg, Flt.extremaDim_run]
      have : Flt.extremaDim (order ([(0, 1), (1, 8631899285793451 / 2 ^ 50), (2, 8256599316845909 / 2 ^ 50), (3, 0)] : Segment ℚ))
          (Flt.dcPoints 3 [(0, 1), (1, 8631899285793451 / 2 ^ 50), (2, 8256599316845909 / 2 ^ 50), (3, 0)]) 0 = .ok [] := by decide +kernel
      rw [this]; rfl
    have hy : Rounded.extremaDim float (order (Flt.seg [(0, 1), (1, 8631899285793451 / 2 ^ 50), (2, 8256599316845909 / 2 ^ 50), (3, 0)]))
        (Rounded.dcPoints float (Flt.seg [(0, 1), (1, 8631899285793451 / 2 ^ 50), (2, 8256599316845909 / 2 ^ 50), (3, 0)])) 1 = .ok [0] := by
      rw [Flt.dcPoints_run 3 _ rfl, Flt.order_seg, Flt.extremaDim_run]
      have : Flt.extremaDim (order ([(0, 1), (1, 8631899285793451 / 2 ^ 50), (2, 8256599316845909 / 2 ^ 50), (3, 0)] : Segment ℚ))
          (Flt.dcPoints 3 [(0, 1), (1, 8631899285793451 / 2 ^ 50), (2, 8256599316845909 / 2 ^ 50), (3, 0)]) 1 = .ok [0] := by decide +kernel
      rw [this]; simp [Except.map, Flt.num]
    rw [← es] at hx hy
    obtain ⟨g0, g1⟩ := C82_ends float ([(0, 1), (1, 8631899285793451 / 2 ^ 50), (2, 8256599316845909 / 2 ^ 50), (3, 0)] : Segment ℝ) (by simp)
    unfold Rounded.boundsRectangle Rounded.bbox Rounded.extrema
    rw [hx, ok_bind, hy, ok_bind]
    have e1 : addEnds ([] : List ℝ) = [0, 1] := by simp [addEnds]
    have e2 : addEnds ([0] : List ℝ) = [0, 1] := by simp [addEnds]
    simp only [pure_eq_ok, ok_bind, e1, e2, Rounded.minmaxLoop, List.foldlM, g0, g1, coord, List.head_cons, List.getLast_cons_cons,
      List.getLast_singleton, maxSafe, minSafe]
    norm_num [BoundsRectangle.new, BoundsRectangle.addPoint, BoundsRectangle.init]
  · rw [curve_four]
    norm_num

end PathLib
