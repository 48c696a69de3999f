import Verif.Model.Color
import Verif.Spec.Rounding
import Mathlib.Algebra.Order.Archimedean.Real.Basic

/-!
# Model of the colours of PathLib/Color.py in rounded arithmetic

`randomHSLColor` with the intermediate results rounded, in the order of the operations of the code and of the Python
module `colorsys`. `_current_hue` starts as the integer 0 and stays an integer unless `setCurrentHue` is given a
float, so there are two versions of the step: on Python's integers, which are exact, and on floats.
-/

namespace PathLib.Rounded.Color

open Spec

variable (R : Rounding)

/-- C's `fmod(x, m)` for a positive `m`; its result is exact. -/
noncomputable def fmod (x m : ℝ) : ℝ := x - m * (if 0 ≤ x / m then ⌊x / m⌋ else ⌈x / m⌉ : ℤ)

/-- Python's `x % m` on floats for a positive `m`: the result of `fmod`, with `m` added if it is negative. -/
noncomputable def pyMod (x m : ℝ) : ℝ :=
  let r := fmod x m
  if r < 0 then R.add r m else r

/-- `_v` of the Python module `colorsys`; the constants `ONE_SIXTH` and `TWO_THIRD` are quotients of floats. -/
noncomputable def hlsV (m1 m2 hue : ℝ) : ℝ :=
  let hue := pyMod R hue 1
  if hue < R.div 1 6 then R.add m1 (R.mul (R.mul (R.sub m2 m1) hue) 6)
  else if hue < 1 / 2 then m2
  else if hue < R.div 2 3 then R.add m1 (R.mul (R.mul (R.sub m2 m1) (R.sub (R.div 2 3) hue)) 6)
  else m1

/-- `hls_to_rgb` of the Python module `colorsys`. -/
noncomputable def hlsToRgb (h l s : ℝ) : ℝ × ℝ × ℝ :=
  if s = 0 then (l, l, l)
  else
    let m2 := if l ≤ 1 / 2 then R.mul l (R.add 1 s) else R.sub (R.add l s) (R.mul l s)
    let m1 := R.sub (R.mul 2 l) m2
    (hlsV R m1 m2 (R.add h (R.div 1 3)), hlsV R m1 m2 h, hlsV R m1 m2 (R.sub h (R.div 1 3)))

/-- PathLib/Color.py:214-218: the colour of a hue. -/
noncomputable def hslColor (hue : ℝ) : Color :=
  let saturation : ℝ := 50
  let lightness : ℝ := 50
  let rgb := hlsToRgb R (R.div hue 360) (R.div lightness 100) (R.div saturation 100)
  ⟨Color.pyRound (R.mul rgb.1 255), Color.pyRound (R.mul rgb.2.1 255), Color.pyRound (R.mul rgb.2.2 255)⟩

/-- PathLib/Color.py:211-218 `randomHSLColor` while `_current_hue` is an integer. -/
noncomputable def randomHSLColorInt (currentHue : ℤ) : ℤ × Color :=
  let hue := (currentHue + 73) % 360
  (hue, hslColor R hue)

/-- PathLib/Color.py:211-218 `randomHSLColor` while `_current_hue` is a float. -/
noncomputable def randomHSLColor (currentHue : ℝ) : ℝ × Color :=
  let hue := pyMod R (R.add currentHue 73) 360
  (hue, hslColor R hue)

end PathLib.Rounded.Color
