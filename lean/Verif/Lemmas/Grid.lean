import Verif.Model.Rounded
import Verif.Lemmas.Rounding

/-!
# Floating point numbers that are integers
-/

set_option linter.unusedSectionVars false

namespace PathLib

open Spec

namespace Spec

/-- A point with integer coordinates between -32768 and 32768. -/
def OnGrid (p : Pt ℝ) : Prop := ∃ m n : ℤ, |m| ≤ 32768 ∧ |n| ≤ 32768 ∧ p = ((m : ℝ), (n : ℝ))

/-- Python's `float`, apart from overflow, underflow and signed zeros. -/
noncomputable abbrev float : Rounding := (binary 52).toRounding

end Spec

theorem rnd_int (n : ℤ) (h : |n| ≤ 2 ^ 53) : float.rnd (n : ℝ) = n := by
  have := roundBits_repr 53 (by omega) n 0 h
  rw [zpow_zero, mul_one] at this
  exact this

theorem mul_int {a b A B : ℤ} (ha : |a| ≤ A) (hb : |b| ≤ B) (h : A * B ≤ 2 ^ 53) :
    float.mul (a : ℝ) b = ((a * b : ℤ) : ℝ) ∧ |a * b| ≤ A * B := by
  have k : |a * b| ≤ A * B := by
    rw [abs_mul]
    exact mul_le_mul ha hb (abs_nonneg b) ((abs_nonneg a).trans ha)
  refine ⟨?_, k⟩
  unfold Rounding.mul
  rw [← Int.cast_mul, rnd_int _ (k.trans h)]

theorem sub_int {a b A B : ℤ} (ha : |a| ≤ A) (hb : |b| ≤ B) (h : A + B ≤ 2 ^ 53) :
    float.sub (a : ℝ) b = ((a - b : ℤ) : ℝ) ∧ |a - b| ≤ A + B := by
  have k : |a - b| ≤ A + B := (abs_sub a b).trans (add_le_add ha hb)
  refine ⟨?_, k⟩
  unfold Rounding.sub
  rw [← Int.cast_sub, rnd_int _ (k.trans h)]

theorem add_int {a b A B : ℤ} (ha : |a| ≤ A) (hb : |b| ≤ B) (h : A + B ≤ 2 ^ 53) :
    float.add (a : ℝ) b = ((a + b : ℤ) : ℝ) ∧ |a + b| ≤ A + B := by
  have k : |a + b| ≤ A + B := (abs_add_le a b).trans (add_le_add ha hb)
  refine ⟨?_, k⟩
  unfold Rounding.add
  rw [← Int.cast_add, rnd_int _ (k.trans h)]

end PathLib
