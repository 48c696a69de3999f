import Verif.Model.RoundedColor
import Verif.Props.Color
import Verif.Lemmas.FloatRun
import Verif.Lemmas.Grid

/-!
# C98: the colours of `randomHSLColor` in floating point
-/

set_option linter.unusedSimpArgs false

namespace PathLib

open Spec

namespace Flt

/-- `fmod` on rational numbers. -/
def fmod (x m : ℚ) : ℚ := x - m * (if 0 ≤ x / m then ⌊x / m⌋ else ⌈x / m⌉ : ℤ)

theorem fmod_run (x m : ℚ) : Rounded.Color.fmod (x : ℝ) m = ((fmod x m : ℚ) : ℝ) := by
  unfold Rounded.Color.fmod fmod
  have h : (0 ≤ (x:ℝ) / m) ↔ 0 ≤ x / m := by
    rw [← Rat.cast_div]; exact Rat.cast_nonneg
  simp only [h]
  rw [← Rat.cast_div, Rat.floor_cast, Rat.ceil_cast]
  split_ifs <;> push_cast <;> rfl

/-- `x % m` in Python's `float` arithmetic. -/
def pyMod (x m : ℚ) : ℚ := if fmod x m < 0 then add (fmod x m) m else fmod x m

theorem pyMod_run (x m : ℚ) : Rounded.Color.pyMod F (x : ℝ) m = ((pyMod x m : ℚ) : ℝ) := by
  unfold Rounded.Color.pyMod pyMod
  simp only [fmod_run, add_run]
  have h : (((fmod x m : ℚ) : ℝ) < 0) ↔ fmod x m < 0 := Rat.cast_lt_zero
  simp only [h]
  split_ifs <;> rfl

/-- `_v` of `colorsys` in Python's `float` arithmetic. -/
def hlsV (m1 m2 hue : ℚ) : ℚ :=
  let hue := pyMod hue 1
  if hue < div 1 6 then add m1 (mul (mul (sub m2 m1) hue) 6)
  else if hue < 1 / 2 then m2
  else if hue < div 2 3 then add m1 (mul (mul (sub m2 m1) (sub (div 2 3) hue)) 6)
  else m1

private theorem three_cast : (3 : ℝ) = ((3 : ℚ) : ℝ) := by norm_num
private theorem six_cast : (6 : ℝ) = ((6 : ℚ) : ℝ) := by norm_num
private theorem half_cast : (1 / 2 : ℝ) = ((1 / 2 : ℚ) : ℝ) := by norm_num

theorem hlsV_run (m1 m2 hue : ℚ) : Rounded.Color.hlsV F (m1 : ℝ) m2 hue = ((hlsV m1 m2 hue : ℚ) : ℝ) := by
  unfold Rounded.Color.hlsV hlsV
  rw [half_cast, one_cast, two_cast, three_cast, six_cast]
  simp only [pyMod_run, div_run, sub_run, mul_run, add_run, Rat.cast_lt]
  split_ifs <;> rfl

/-- The colour of a hue in Python's `float` arithmetic. -/
def hslColor (hue : ℚ) : Color :=
  let h := div hue 360
  let m2 := mul (1 / 2) (add 1 (1 / 2))
  let m1 := sub (mul 2 (1 / 2)) m2
  ⟨Color.pyRound (mul (hlsV m1 m2 (add h (div 1 3))) 255), Color.pyRound (mul (hlsV m1 m2 h) 255),
    Color.pyRound (mul (hlsV m1 m2 (sub h (div 1 3))) 255)⟩

theorem pyRound_run (x : ℚ) : Color.pyRound (x : ℝ) = Color.pyRound x := by
  unfold Color.pyRound
  simp only [Rat.floor_cast]
  have e : ((x:ℝ) - (⌊x⌋:ℤ)) = ((x - (⌊x⌋:ℤ) : ℚ) : ℝ) := by push_cast; rfl
  rw [e, half_cast]
  simp only [Rat.cast_lt]

private theorem fl_half : fl (1 / 2) = 1 / 2 := by decide +kernel

theorem half_run : F.div 50 100 = ((1 / 2 : ℚ) : ℝ) := by
  rw [show (50 : ℝ) = ((50 : ℚ) : ℝ) by norm_num, show (100 : ℝ) = ((100 : ℚ) : ℝ) by norm_num, div_run]
  unfold div
  rw [show (50 / 100 : ℚ) = 1 / 2 by norm_num, fl_half]

theorem hslColor_run (hue : ℚ) : Rounded.Color.hslColor F (hue : ℝ) = hslColor hue := by
  unfold Rounded.Color.hslColor hslColor Rounded.Color.hlsToRgb
  simp only [half_run]
  rw [if_neg (by norm_num), if_pos (by norm_num), show (360 : ℝ) = ((360 : ℚ) : ℝ) by norm_num, one_cast, two_cast, three_cast,
    show (255 : ℝ) = ((255 : ℚ) : ℝ) by norm_num]
  simp only [div_run, sub_run, mul_run, add_run, hlsV_run, pyRound_run]

end Flt

namespace Spec

/-- The integer hues for which the colour in floating point is not the exact one, with the colour in floating point. -/
def hueExceptions : List (ℤ × Color) := [
  (66, ⟨179, 191, 64⟩), (106, ⟨93, 191, 64⟩), (114, ⟨77, 191, 64⟩), (174, ⟨64, 191, 179⟩), (210, ⟨64, 127, 191⟩),
  (226, ⟨64, 93, 191⟩), (270, ⟨127, 64, 191⟩), (278, ⟨145, 64, 191⟩), (306, ⟨191, 64, 179⟩), (314, ⟨191, 64, 161⟩),
  (346, ⟨191, 64, 93⟩), (354, ⟨191, 64, 77⟩)]

end Spec

private theorem all_hues : ∀ k ∈ List.range 360,
    Flt.hslColor (k : ℚ) = (hueExceptions.lookup (k : ℤ)).getD (Color.randomHSLColor ((k : ℚ) - 73)).2 := by
  decide +kernel

private theorem exact_mod (x m : ℚ) : Color.pyMod (x : ℝ) m = ((Color.pyMod x m : ℚ) : ℝ) := by
  unfold Color.pyMod
  rw [← Rat.cast_div, Rat.floor_cast]
  push_cast
  rfl

private theorem exact_hlsV (m1 m2 hue : ℚ) : Color.hlsV (m1 : ℝ) m2 hue = ((Color.hlsV m1 m2 hue : ℚ) : ℝ) := by
  unfold Color.hlsV
  have h := exact_mod hue 1
  rw [Rat.cast_one] at h
  rw [h]
  have c1 : (1 / 6 : ℝ) = ((1 / 6 : ℚ) : ℝ) := by norm_num
  have c2 : (1 / 2 : ℝ) = ((1 / 2 : ℚ) : ℝ) := by norm_num
  have c3 : (2 / 3 : ℝ) = ((2 / 3 : ℚ) : ℝ) := by norm_num
  simp only [c1, c2, c3, Rat.cast_lt]
  split_ifs <;> push_cast <;> rfl

private theorem exact_color (h : ℚ) : (Color.randomHSLColor (h : ℝ)).2 = (Color.randomHSLColor h).2 := by
  have hm : Color.pyMod ((h : ℝ) + 73) 360 = ((Color.pyMod (h + 73) 360 : ℚ) : ℝ) := by
    rw [← exact_mod]; push_cast; rfl
  unfold Color.randomHSLColor Color.hlsToRgb
  simp only [hm]
  norm_num
  have q : (1 / 4 : ℝ) = ((1 / 4 : ℚ) : ℝ) := by norm_num
  have q3 : (3 / 4 : ℝ) = ((3 / 4 : ℚ) : ℝ) := by norm_num
  have c : ∀ x : ℚ, Color.hlsV (1 / 4 : ℝ) (3 / 4) (x : ℝ) * 255 = ((Color.hlsV (1 / 4) (3 / 4) x * 255 : ℚ) : ℝ) := by
    intro x
    rw [q, q3, exact_hlsV]
    push_cast
    rfl
  have c1 := c (Color.pyMod (h + 73) 360 / 360 + 1 / 3)
  have c2 := c (Color.pyMod (h + 73) 360 / 360)
  have c3 := c (Color.pyMod (h + 73) 360 / 360 - 1 / 3)
  rw [Rat.cast_add, Rat.cast_div, Rat.cast_div] at c1
  rw [Rat.cast_div] at c2
  rw [Rat.cast_sub, Rat.cast_div, Rat.cast_div] at c3
  have n360 : ((360 : ℚ) : ℝ) = 360 := by norm_num
  have n1 : ((1 : ℚ) : ℝ) = 1 := by norm_num
  have n3 : ((3 : ℚ) : ℝ) = 3 := by norm_num
  rw [n360, n1, n3] at c1 c3
  rw [n360] at c2
  rw [c1, c2, c3]
  simp only [Flt.pyRound_run, and_self]

private theorem same_hue (a b : ℚ) (h : Color.pyMod (a + 73) 360 = Color.pyMod (b + 73) 360) :
    Color.randomHSLColor a = Color.randomHSLColor b := by
  unfold Color.randomHSLColor
  rw [h]

/-- C98: from any integer hue the hue is as in exact arithmetic, and so is the colour, except for twelve hues. -/
theorem C98_integer (h : ℤ) :
    Rounded.Color.randomHSLColorInt float h = ((h + 73) % 360,
      (hueExceptions.lookup ((h + 73) % 360)).getD (Color.randomHSLColor (h : ℝ)).2) ∧
    (((h + 73) % 360 : ℤ) : ℝ) = (Color.randomHSLColor (h : ℝ)).1 := by
  obtain ⟨k, hk⟩ : ∃ k : ℕ, (h + 73) % 360 = k := ⟨((h + 73) % 360).toNat, by omega⟩
  have hk' : k < 360 := by omega
  have hm : Color.pyMod ((h : ℚ) + 73) 360 = (k : ℚ) := by
    have := pyMod_int (K := ℚ) (h + 73)
    rw [hk] at this
    push_cast at this
    exact this
  have hm' : Color.pyMod ((k : ℚ) - 73 + 73) 360 = (k : ℚ) := by
    have := pyMod_int (K := ℚ) (k : ℤ)
    rw [show (k : ℤ) % 360 = k by omega] at this
    push_cast at this
    rw [sub_add_cancel]
    exact this
  constructor
  · unfold Rounded.Color.randomHSLColorInt
    simp only [hk]
    have e1 : Rounded.Color.hslColor float (((k : ℤ) : ℝ)) = Flt.hslColor (k : ℚ) := by
      rw [← Flt.hslColor_run]; push_cast; rfl
    have e2 : (Color.randomHSLColor (h : ℝ)).2 = (Color.randomHSLColor ((k : ℚ) - 73)).2 := by
      have := exact_color (h : ℚ)
      rw [Rat.cast_intCast] at this
      rw [this, same_hue _ _ (hm.trans hm'.symm)]
    rw [e1, e2, all_hues k (List.mem_range.mpr hk')]
  · have := pyMod_int (K := ℝ) (h + 73)
    rw [← this]
    push_cast
    rfl

private theorem off_by_one : ∀ x ∈ hueExceptions, |x.2.red - (Color.randomHSLColor ((x.1 : ℚ) - 73)).2.red| +
    |x.2.green - (Color.randomHSLColor ((x.1 : ℚ) - 73)).2.green| + |x.2.blue - (Color.randomHSLColor ((x.1 : ℚ) - 73)).2.blue| = 1 := by
  decide +kernel

/-- C98: for these twelve hues exactly one component is one off. -/
theorem C98_exceptions (h : ℤ) (c : Color) (hc : (h, c) ∈ hueExceptions) : let e := (Color.randomHSLColor ((h : ℝ) - 73)).2
    |c.red - e.red| + |c.green - e.green| + |c.blue - e.blue| = 1 := by
  have := off_by_one _ hc
  have e := exact_color ((h : ℚ) - 73)
  push_cast at e
  simp only [e]
  exact this

/-! ## Any hue -/

private theorem rd (x M : ℝ) (h : |x| ≤ M) : |float.rnd x - x| ≤ 2 ^ (-(53:ℤ)) * M :=
  (float.error x).trans (mul_le_mul_of_nonneg_left h float.u_nonneg)

private theorem rd4 (x : ℝ) (h : |x| ≤ 4) : |float.rnd x - x| ≤ 1e-15 := by
  refine (rd x 4 h).trans ?_
  norm_num

/-- The trapezoid that `_v` computes. -/
private noncomputable def T (x : ℝ) : ℝ := 1 / 4 + 1 / 2 * max 0 (min 1 (min (6 * x) (4 - 6 * x)))

private theorem T_lip (a b : ℝ) : |T a - T b| ≤ 3 * |a - b| := by
  have h1 : |min (6 * a) (4 - 6 * a) - min (6 * b) (4 - 6 * b)| ≤ 6 * |a - b| := by
    refine (abs_min_sub_min_le_max _ _ _ _).trans (max_le ?_ ?_)
    · rw [← mul_sub, abs_mul]; norm_num
    · rw [show 4 - 6 * a - (4 - 6 * b) = (-6) * (a - b) by ring, abs_mul]; norm_num
  have h2 : |min 1 (min (6 * a) (4 - 6 * a)) - min 1 (min (6 * b) (4 - 6 * b))| ≤ 6 * |a - b| := by
    refine (abs_min_sub_min_le_max _ _ _ _).trans (max_le ?_ h1)
    simp
  have h3 : |max 0 (min 1 (min (6 * a) (4 - 6 * a))) - max 0 (min 1 (min (6 * b) (4 - 6 * b)))| ≤ 6 * |a - b| := by
    refine (abs_max_sub_max_le_max _ _ _ _).trans (max_le ?_ h2)
    simp
  unfold T
  rw [show ∀ x y : ℝ, 1 / 4 + 1 / 2 * x - (1 / 4 + 1 / 2 * y) = 1 / 2 * (x - y) by intros; ring, abs_mul]
  norm_num
  linarith

private theorem T_high (x : ℝ) (h : 2 / 3 ≤ x) : T x = 1 / 4 := by
  unfold T
  rw [max_eq_left]
  · ring
  · exact (min_le_right _ _).trans ((min_le_right _ _).trans (by linarith))

private theorem T_zero : T 0 = 1 / 4 := by simp [T]

private theorem T_circle (a b e : ℝ) (ha : 0 ≤ a ∧ a ≤ 1) (hb : 0 ≤ b ∧ b ≤ 1) (n : ℤ) (h : |a - b - n| ≤ e) (he : e ≤ 1 / 10) :
    |T a - T b| ≤ 3 * e := by
  obtain ⟨h1, h2⟩ := abs_le.mp h
  have hn1 : ((-2 : ℤ) : ℝ) < n := by push_cast; linarith [ha.1, hb.2]
  have hn2 : (n : ℝ) < ((2 : ℤ) : ℝ) := by push_cast; linarith [ha.2, hb.1]
  have hn1 := Int.cast_lt.mp hn1
  have hn2 := Int.cast_lt.mp hn2
  obtain rfl | rfl | rfl : n = -1 ∨ n = 0 ∨ n = 1 := by omega
  · push_cast at h1 h2
    rw [T_high b (by linarith [ha.1]), ← T_zero]
    refine (T_lip a 0).trans ?_
    rw [sub_zero, abs_of_nonneg ha.1]
    linarith [hb.2]
  · simp only [Int.cast_zero, sub_zero] at h
    exact (T_lip a b).trans (by linarith)
  · push_cast at h1 h2
    rw [T_high a (by linarith [hb.1]), ← T_zero]
    refine (T_lip 0 b).trans ?_
    rw [zero_sub, abs_neg, abs_of_nonneg hb.1]
    linarith [ha.2]

private theorem T_range (x : ℝ) : 1 / 4 ≤ T x ∧ T x ≤ 3 / 4 := by
  unfold T
  have h1 := le_max_left 0 (min 1 (min (6 * x) (4 - 6 * x)))
  have h2 : max 0 (min 1 (min (6 * x) (4 - 6 * x))) ≤ 1 := max_le (by norm_num) (min_le_left _ _)
  constructor <;> linarith

/-- In exact arithmetic `_v` is the trapezoid. -/
private theorem hlsV_T (x : ℝ) : Color.hlsV (1 / 4) (3 / 4) x = T (Color.pyMod x 1) := by
  obtain ⟨h0, h1⟩ := pyMod_range x 1 one_pos
  unfold Color.hlsV T
  simp only
  set w := Color.pyMod x 1
  split_ifs with a b c
  · rw [min_eq_left (by linarith : 6 * w ≤ 4 - 6 * w), min_eq_right (by linarith), max_eq_right (by linarith)]; ring
  · rw [min_eq_left (le_min (by linarith) (by linarith)), max_eq_right (by linarith)]; ring
  · rw [min_eq_right (by linarith : 4 - 6 * w ≤ 6 * w), min_eq_right (by linarith), max_eq_right (by linarith)]; ring
  · rw [max_eq_left ((min_le_right _ _).trans ((min_le_right _ _).trans (by linarith)))]; ring

/-- Rounded, it is the trapezoid up to rounding errors. -/
private theorem hlsV_rounded (y : ℝ) (h0 : 0 ≤ Rounded.Color.pyMod float y 1) (h1 : Rounded.Color.pyMod float y 1 ≤ 1) :
    |Rounded.Color.hlsV float (1 / 4) (3 / 4) y - T (Rounded.Color.pyMod float y 1)| ≤ 1e-13 := by
  unfold Rounded.Color.hlsV
  simp only
  set w := Rounded.Color.pyMod float y 1
  have s6 : |float.div 1 6 - 1 / 6| ≤ 1e-15 := rd4 _ (by norm_num [abs_of_pos])
  have s3 : |float.div 2 3 - 2 / 3| ≤ 1e-15 := rd4 _ (by norm_num [abs_of_pos])
  have sd : |float.sub (3 / 4) (1 / 4) - 1 / 2| ≤ 1e-15 := by
    have := rd4 (3 / 4 - 1 / 4) (by norm_num [abs_of_pos])
    rw [show (1 / 2 : ℝ) = 3 / 4 - 1 / 4 by norm_num]
    exact this
  rw [abs_le] at s6 s3 sd
  have two : ∀ v : ℝ, -1e-14 ≤ v → v ≤ 1 + 1e-14 →
      |float.add (1 / 4) (float.mul (float.mul (float.sub (3 / 4) (1 / 4)) v) 6) - (1 / 4 + 3 * v)| ≤ 5e-14 := by
    intro v v0 v1
    set d := float.sub (3 / 4) (1 / 4)
    have dv : |d * v - 1 / 2 * v| ≤ 2e-15 := by
      rw [← sub_mul, abs_mul]
      have : |v| ≤ 2 := abs_le.mpr ⟨by linarith, by linarith⟩
      have := mul_le_mul (abs_le.mpr sd) this (abs_nonneg _) (by norm_num)
      linarith
    rw [abs_le] at dv
    have e1 := abs_le.mp (rd4 (d * v) (abs_le.mpr ⟨by linarith, by linarith⟩))
    set p := float.mul d v with hp
    change -1e-15 ≤ p - d * v ∧ p - d * v ≤ 1e-15 at e1
    have e2 := abs_le.mp (rd4 (p * 6) (abs_le.mpr ⟨by linarith, by linarith⟩))
    set q := float.mul p 6 with hq
    change -1e-15 ≤ q - p * 6 ∧ q - p * 6 ≤ 1e-15 at e2
    have e3 := abs_le.mp (rd4 (1 / 4 + q) (abs_le.mpr ⟨by linarith, by linarith⟩))
    change -1e-15 ≤ float.add (1 / 4) q - (1 / 4 + q) ∧ float.add (1 / 4) q - (1 / 4 + q) ≤ 1e-15 at e3
    rw [abs_le]
    constructor <;> linarith
  split_ifs with a b c
  · have := abs_le.mp (two w (by linarith) (by linarith))
    unfold T
    rw [min_eq_left (by linarith : 6 * w ≤ 4 - 6 * w), abs_le]
    rcases le_total 1 (6 * w) with h | h
    · rw [min_eq_left h, max_eq_right (by norm_num)]
      constructor <;> linarith
    · rw [min_eq_right h, max_eq_right (by linarith)]
      constructor <;> linarith
  · unfold T
    rw [abs_le]
    rcases le_total 1 (6 * w) with h | h
    · rw [min_eq_left (le_min h (by linarith)), max_eq_right (by norm_num)]
      constructor <;> linarith
    · rw [min_eq_left (by linarith : 6 * w ≤ 4 - 6 * w), min_eq_right h, max_eq_right (by linarith)]
      constructor <;> linarith
  · have hs := abs_le.mp (rd4 (float.div 2 3 - w) (abs_le.mpr ⟨by linarith, by linarith⟩))
    change -1e-15 ≤ float.sub (float.div 2 3) w - (float.div 2 3 - w) ∧
      float.sub (float.div 2 3) w - (float.div 2 3 - w) ≤ 1e-15 at hs
    have := abs_le.mp (two (float.sub (float.div 2 3) w) (by linarith) (by linarith))
    unfold T
    rw [min_eq_right (by linarith : 4 - 6 * w ≤ 6 * w), min_eq_right (by linarith), abs_le]
    rcases le_total 0 (4 - 6 * w) with h | h
    · rw [max_eq_right h]
      constructor <;> linarith
    · rw [max_eq_left h]
      constructor <;> linarith
  · unfold T
    rw [min_eq_right (by linarith : 4 - 6 * w ≤ 6 * w), min_eq_right (by linarith), abs_le]
    rcases le_total 0 (4 - 6 * w) with h | h
    · rw [max_eq_right h]
      constructor <;> linarith
    · rw [max_eq_left h]
      constructor <;> linarith

/-- `% 1` in floats is subtracting an integer up to a rounding error. -/
private theorem mod_one (y : ℝ) : ∃ k : ℤ, |Rounded.Color.pyMod float y 1 - (y - k)| ≤ 1e-15 ∧
    0 ≤ Rounded.Color.pyMod float y 1 ∧ Rounded.Color.pyMod float y 1 ≤ 1 := by
  unfold Rounded.Color.pyMod Rounded.Color.fmod
  simp only [div_one, one_mul]
  by_cases h : 0 ≤ y
  · rw [if_pos h]
    have h1 := Int.floor_le y
    have h2 := Int.lt_floor_add_one y
    rw [if_neg (by linarith)]
    exact ⟨⌊y⌋, by norm_num, by linarith, by linarith⟩
  · rw [if_neg h]
    have h1 := Int.le_ceil y
    have h2 := Int.ceil_lt_add_one y
    by_cases h3 : y - ⌈y⌉ < 0
    · rw [if_pos h3]
      refine ⟨⌈y⌉ - 1, ?_, ?_, ?_⟩
      · have := rd4 (y - ⌈y⌉ + 1) (abs_le.mpr ⟨by linarith, by linarith⟩)
        push_cast
        rw [show y - ((⌈y⌉ : ℝ) - 1) = y - ⌈y⌉ + 1 by ring]
        exact this
      · have := (binary 52).mono 0 (y - ⌈y⌉ + 1) (by linarith)
        rwa [(binary 52).rnd_zero] at this
      · have := (binary 52).mono (y - ⌈y⌉ + 1) 1 (by linarith)
        rwa [(binary 52).one] at this
    · rw [if_neg h3]
      exact ⟨⌈y⌉, by norm_num, by linarith, by linarith⟩

/-- One channel: the hue in floats may differ from the exact one by a rounding error and whole turns. -/
private theorem channel (x y : ℝ) (n : ℤ) (h : |y - x - n| ≤ 1e-14) :
    |Rounded.Color.hlsV float (1 / 4) (3 / 4) y - Color.hlsV (1 / 4) (3 / 4) x| ≤ 2e-13 := by
  obtain ⟨k, hk, h0, h1⟩ := mod_one y
  have e1 := hlsV_rounded y h0 h1
  rw [hlsV_T]
  obtain ⟨f0, f1⟩ := pyMod_range x 1 one_pos
  have e2 := T_circle (Rounded.Color.pyMod float y 1) (Color.pyMod x 1) 2e-14 ⟨h0, h1⟩ ⟨f0, f1.le⟩ (n + ⌊x⌋ - k) (by
    unfold Color.pyMod
    rw [div_one, one_mul]
    push_cast
    rw [abs_le] at hk h ⊢
    constructor <;> linarith) (by norm_num)
  rw [abs_le] at e1 e2 ⊢
  constructor <;> linarith

private theorem scaled (x y : ℝ) (h : |y - x| ≤ 2e-13) (hx : 1 / 4 ≤ x ∧ x ≤ 3 / 4) : |float.mul y 255 - x * 255| ≤ 1e-10 := by
  rw [abs_le] at h
  have h1 := rd (y * 255) 256 (abs_le.mpr ⟨by linarith, by linarith⟩)
  have h2 : (2:ℝ) ^ (-(53:ℤ)) * 256 ≤ 1e-12 := by norm_num
  have h3 := abs_le.mp (h1.trans h2)
  change -1e-12 ≤ float.mul y 255 - y * 255 ∧ float.mul y 255 - y * 255 ≤ 1e-12 at h3
  rw [abs_le]
  constructor <;> linarith

private theorem exact_channels (x : ℝ) : Color.hlsToRgb x (1 / 2) (1 / 2) =
    (Color.hlsV (1 / 4) (3 / 4) (x + 1 / 3), Color.hlsV (1 / 4) (3 / 4) x, Color.hlsV (1 / 4) (3 / 4) (x - 1 / 3)) := by
  unfold Color.hlsToRgb
  norm_num

private theorem half : float.div 50 100 = 1 / 2 := by
  have h : float.div 50 100 = (((1 / 2 : ℚ) : ℚ) : ℝ) := Flt.half_run
  rw [h]; norm_num

private theorem m2 : float.mul (1 / 2) (float.add 1 (1 / 2)) = 3 / 4 := by
  have h : Flt.mul (1 / 2) (Flt.add 1 (1 / 2)) = 3 / 4 := by decide +kernel
  have h2 := congrArg (fun q : ℚ => (q : ℝ)) h
  simp only [← Flt.mul_run, ← Flt.add_run] at h2
  push_cast at h2
  exact h2

private theorem m1 : float.sub (float.mul 2 (1 / 2)) (3 / 4) = 1 / 4 := by
  have h : Flt.sub (Flt.mul 2 (1 / 2)) (3 / 4) = 1 / 4 := by decide +kernel
  have h2 := congrArg (fun q : ℚ => (q : ℝ)) h
  simp only [← Flt.mul_run, ← Flt.sub_run] at h2
  push_cast at h2
  exact h2

private theorem rounded_channels (y : ℝ) : Rounded.Color.hlsToRgb float y (1 / 2) (1 / 2) =
    (Rounded.Color.hlsV float (1 / 4) (3 / 4) (float.add y (float.div 1 3)), Rounded.Color.hlsV float (1 / 4) (3 / 4) y,
      Rounded.Color.hlsV float (1 / 4) (3 / 4) (float.sub y (float.div 1 3))) := by
  unfold Rounded.Color.hlsToRgb
  rw [if_neg (by norm_num), if_pos le_rfl]
  simp only [m2, m1]

/-- C98: for every float hue from 0 to 360 (and for hues that are only known up to `1e-13` and whole turns), each component is the
rounding of a number within `1e-10` of the exact component before rounding. -/
theorem C98_hue (h h' : ℝ) (h0 : 0 ≤ h') (h1 : h' ≤ 360) (n : ℤ) (hh : |h' - h - 360 * n| ≤ 1e-13) :
    let c := Rounded.Color.hslColor float h'
    let e := Color.hlsToRgb (h / 360) (1 / 2) (1 / 2)
    ∃ r g b : ℝ, |r - e.1 * 255| ≤ 1e-10 ∧ |g - e.2.1 * 255| ≤ 1e-10 ∧ |b - e.2.2 * 255| ≤ 1e-10 ∧
      c = ⟨Color.pyRound r, Color.pyRound g, Color.pyRound b⟩ := by
  intro c e
  have hq : |float.div h' 360 - h / 360 - n| ≤ 2e-15 := by
    have := rd4 (h' / 360) (abs_le.mpr ⟨by linarith, by linarith⟩)
    change |float.div h' 360 - h' / 360| ≤ 1e-15 at this
    rw [abs_le] at this hh ⊢
    constructor <;> linarith
  have q0 : 0 ≤ float.div h' 360 ∧ float.div h' 360 ≤ 1 := by
    have a := (binary 52).mono 0 (h' / 360) (by positivity)
    have b := (binary 52).mono (h' / 360) 1 (by linarith)
    rw [(binary 52).rnd_zero] at a
    rw [(binary 52).one] at b
    exact ⟨a, b⟩
  have t3 : |float.div 1 3 - 1 / 3| ≤ 1e-15 := rd4 _ (by norm_num [abs_of_pos])
  set q := float.div h' 360 with hqd
  rw [abs_le] at hq t3
  have p1 := rd4 (q + float.div 1 3) (abs_le.mpr ⟨by linarith [q0.1, q0.2], by linarith [q0.1, q0.2]⟩)
  change |float.add q (float.div 1 3) - (q + float.div 1 3)| ≤ 1e-15 at p1
  have p2 := rd4 (q - float.div 1 3) (abs_le.mpr ⟨by linarith [q0.1, q0.2], by linarith [q0.1, q0.2]⟩)
  change |float.sub q (float.div 1 3) - (q - float.div 1 3)| ≤ 1e-15 at p2
  rw [abs_le] at p1 p2
  have cr := channel (h / 360 + 1 / 3) (float.add q (float.div 1 3)) n (abs_le.mpr ⟨by linarith, by linarith⟩)
  have cg := channel (h / 360) q n (abs_le.mpr ⟨by linarith, by linarith⟩)
  have cb := channel (h / 360 - 1 / 3) (float.sub q (float.div 1 3)) n (abs_le.mpr ⟨by linarith, by linarith⟩)
  have range : ∀ x, 1 / 4 ≤ Color.hlsV (1 / 4) (3 / 4) (x : ℝ) ∧ Color.hlsV (1 / 4) (3 / 4) (x : ℝ) ≤ 3 / 4 := by
    intro x
    rw [hlsV_T]
    exact T_range _
  refine ⟨float.mul (Rounded.Color.hlsV float (1 / 4) (3 / 4) (float.add q (float.div 1 3))) 255,
    float.mul (Rounded.Color.hlsV float (1 / 4) (3 / 4) q) 255,
    float.mul (Rounded.Color.hlsV float (1 / 4) (3 / 4) (float.sub q (float.div 1 3))) 255, ?_, ?_, ?_, ?_⟩
  rotate_left 3
  · simp only [c, Rounded.Color.hslColor, half, rounded_channels, ← hqd]
  all_goals simp only [e, exact_channels]
  · exact scaled _ _ cr (range _)
  · exact scaled _ _ cg (range _)
  · exact scaled _ _ cb (range _)

private theorem round_spec (x : ℝ) : |((Color.pyRound x : ℤ) : ℝ) - x| ≤ 1 / 2 := by
  unfold Color.pyRound
  have h1 := Int.floor_le x
  have h2 := Int.lt_floor_add_one x
  simp only
  rw [abs_le]
  split_ifs <;> push_cast <;> constructor <;> linarith

private theorem round_near (x y : ℝ) (h : |x - y| ≤ 1e-10) : |Color.pyRound x - Color.pyRound y| ≤ 1 := by
  have h1 := abs_le.mp (round_spec x)
  have h2 := abs_le.mp (round_spec y)
  rw [abs_le] at h
  have a : ((Color.pyRound x - Color.pyRound y : ℤ) : ℝ) < ((2 : ℤ) : ℝ) := by push_cast; linarith
  have b : ((-2 : ℤ) : ℝ) < ((Color.pyRound x - Color.pyRound y : ℤ) : ℝ) := by push_cast; linarith
  have a := Int.cast_lt.mp a
  have b := Int.cast_lt.mp b
  rw [abs_le]
  omega

private theorem round_range (x y : ℝ) (h : |x - y * 255| ≤ 1e-10) (hy : 1 / 4 ≤ y ∧ y ≤ 3 / 4) :
    64 ≤ Color.pyRound x ∧ Color.pyRound x ≤ 191 := by
  have h1 := abs_le.mp (round_spec x)
  rw [abs_le] at h
  have a : ((63 : ℤ) : ℝ) < ((Color.pyRound x : ℤ) : ℝ) := by push_cast; linarith
  have b : ((Color.pyRound x : ℤ) : ℝ) < ((192 : ℤ) : ℝ) := by push_cast; linarith
  have a := Int.cast_lt.mp a
  have b := Int.cast_lt.mp b
  omega

/-- C98: `% 360` in floats gives a number from 0 to 360 that differs from the exact sum by a rounding error and whole turns. -/
theorem C98_float_hue (h : ℝ) (hh : |h| ≤ 360) : let hue := (Rounded.Color.randomHSLColor float h).1
    0 ≤ hue ∧ hue ≤ 360 ∧ ∃ n : ℤ, |hue - (h + 73) - 360 * n| ≤ 1e-13 := by
  intro hue
  obtain ⟨a, b⟩ := abs_le.mp hh
  have e1 := rd (h + 73) 433 (abs_le.mpr ⟨by linarith, by linarith⟩)
  have e1 := abs_le.mp (e1.trans (show (2:ℝ) ^ (-(53:ℤ)) * 433 ≤ 5e-14 by norm_num))
  change -5e-14 ≤ float.add h 73 - (h + 73) ∧ float.add h 73 - (h + 73) ≤ 5e-14 at e1
  set y := float.add h 73
  have hd : hue = Rounded.Color.pyMod float y 360 := rfl
  unfold Rounded.Color.pyMod Rounded.Color.fmod at hd
  simp only at hd
  by_cases hy : 0 ≤ y / 360
  · rw [if_pos hy] at hd
    have h1 := Int.floor_le (y / 360)
    have h2 := Int.lt_floor_add_one (y / 360)
    rw [if_neg (by linarith)] at hd
    refine ⟨by linarith, by linarith, -⌊y / 360⌋, ?_⟩
    rw [hd, abs_le]
    push_cast
    constructor <;> linarith
  · rw [if_neg hy] at hd
    have h1 := Int.le_ceil (y / 360)
    have h2 := Int.ceil_lt_add_one (y / 360)
    by_cases h3 : y - 360 * (⌈y / 360⌉ : ℝ) < 0
    · rw [if_pos h3] at hd
      have e2 := rd (y - 360 * (⌈y / 360⌉ : ℝ) + 360) 360 (abs_le.mpr ⟨by linarith, by linarith⟩)
      have e2 := abs_le.mp (e2.trans (show (2:ℝ) ^ (-(53:ℤ)) * 360 ≤ 4e-14 by norm_num))
      change -4e-14 ≤ float.add (y - 360 * (⌈y / 360⌉ : ℝ)) 360 - (y - 360 * (⌈y / 360⌉ : ℝ) + 360) ∧
        float.add (y - 360 * (⌈y / 360⌉ : ℝ)) 360 - (y - 360 * (⌈y / 360⌉ : ℝ) + 360) ≤ 4e-14 at e2
      rw [← hd] at e2
      refine ⟨?_, ?_, 1 - ⌈y / 360⌉, ?_⟩
      · have := (binary 52).mono 0 (y - 360 * (⌈y / 360⌉ : ℝ) + 360) (by linarith)
        rw [(binary 52).rnd_zero] at this
        rw [hd]
        exact this
      · have := (binary 52).mono (y - 360 * (⌈y / 360⌉ : ℝ) + 360) 360 (by linarith)
        have e : (binary 52).rnd 360 = 360 := by
          have := rnd_int 360 (by norm_num)
          push_cast at this
          exact this
        rw [e] at this
        rw [hd]
        exact this
      · rw [abs_le]
        push_cast
        constructor <;> linarith
    · rw [if_neg h3] at hd
      refine ⟨by linarith, by linarith, -⌈y / 360⌉, ?_⟩
      rw [hd, abs_le]
      push_cast
      constructor <;> linarith

/-- C98: from a float hue between -360 and 360 every component of the colour is at most one off, and between 64 and 191. -/
theorem C98_float (h : ℝ) (hh : |h| ≤ 360) :
    let c := (Rounded.Color.randomHSLColor float h).2
    let e := (Color.randomHSLColor h).2
    (|c.red - e.red| ≤ 1 ∧ |c.green - e.green| ≤ 1 ∧ |c.blue - e.blue| ≤ 1) ∧
    (64 ≤ c.red ∧ c.red ≤ 191) ∧ (64 ≤ c.green ∧ c.green ≤ 191) ∧ (64 ≤ c.blue ∧ c.blue ≤ 191) := by
  obtain ⟨h0, h1, n, hn⟩ := C98_float_hue h hh
  have hm : ∃ k : ℤ, Color.pyMod (h + 73) 360 = h + 73 - 360 * k := ⟨_, rfl⟩
  obtain ⟨k, hk⟩ := hm
  obtain ⟨r, g, b, er, eg, eb, ec⟩ := C98_hue (Color.pyMod (h + 73) 360) _ h0 h1 (n + k) (by
    rw [hk]
    push_cast
    rw [show ∀ x : ℝ, x - (h + 73 - 360 * (k : ℝ)) - 360 * ((n : ℝ) + k) = x - (h + 73) - 360 * n by intro x; ring]
    exact hn)
  intro c e
  have hc : c = ⟨Color.pyRound r, Color.pyRound g, Color.pyRound b⟩ := ec
  have he : e = ⟨Color.pyRound ((Color.hlsToRgb (Color.pyMod (h + 73) 360 / 360) (1 / 2) (1 / 2)).1 * 255),
      Color.pyRound ((Color.hlsToRgb (Color.pyMod (h + 73) 360 / 360) (1 / 2) (1 / 2)).2.1 * 255),
      Color.pyRound ((Color.hlsToRgb (Color.pyMod (h + 73) 360 / 360) (1 / 2) (1 / 2)).2.2 * 255)⟩ := by
    simp only [e, Color.randomHSLColor]
    norm_num
  have range : ∀ x, 1 / 4 ≤ Color.hlsV (1 / 4) (3 / 4) (x : ℝ) ∧ Color.hlsV (1 / 4) (3 / 4) (x : ℝ) ≤ 3 / 4 := by
    intro x
    rw [hlsV_T]
    exact T_range _
  rw [hc, he]
  refine ⟨⟨round_near _ _ er, round_near _ _ eg, round_near _ _ eb⟩, ?_⟩
  simp only [exact_channels] at er eg eb
  exact ⟨round_range _ _ er (range _), round_range _ _ eg (range _), round_range _ _ eb (range _)⟩

private theorem mod_360 : Flt.pyMod (Flt.add (-73 - 2 ^ (-46 : ℤ)) 73) 360 = 360 := by decide +kernel

/-- C98: the float hue can become 360, which never happens in exact arithmetic. -/
theorem C98_hue_360_counterexample : ∃ h : ℝ, float.rnd h = h ∧ |h| ≤ 360 ∧ (Rounded.Color.randomHSLColor float h).1 = 360 ∧
    (Color.randomHSLColor h).1 < 360 := by
  have e : (((-73 - 2 ^ (-46 : ℤ) : ℚ)) : ℝ) = -73 - 2 ^ (-46 : ℤ) := by push_cast; rfl
  refine ⟨-73 - 2 ^ (-46 : ℤ), ?_, ?_, ?_, ?_⟩
  · rw [← e, float_rnd]
    exact_mod_cast (by decide +kernel : fl (-73 - 2 ^ (-46 : ℤ)) = -73 - 2 ^ (-46 : ℤ))
  · rw [abs_le]; constructor <;> norm_num
  · have h := Flt.pyMod_run (Flt.add (-73 - 2 ^ (-46 : ℤ)) 73) 360
    rw [mod_360, ← Flt.add_run, e] at h
    push_cast at h
    exact h
  · exact (pyMod_range _ 360 (by norm_num)).2

/-- The colour of hue 66: exactly (178.5, 191.25, 63.75), rounded to 178 exactly and to 179 in floats. -/
example : Rounded.Color.randomHSLColorInt float (-7) = (66, ⟨179, 191, 64⟩) ∧ (Color.randomHSLColor (-7 : ℚ)).2 = ⟨178, 191, 64⟩ := by
  constructor
  · rw [(C98_integer (-7)).1]
    rfl
  · decide +kernel

end PathLib
