import Mathlib.Data.Real.Basic
import Mathlib.Tactic.Ring
import Mathlib.Tactic.Linarith
import Mathlib.Tactic.FieldSimp
import Mathlib.Tactic.Positivity

/-!
# Specification vocabulary: rounded arithmetic

Independent of the model. `Rounding` is the standard model of floating point arithmetic without overflow and underflow: every
operation returns the exact result with a relative error of at most `u`. `Binary` adds what rounding to a binary format has
beyond that. `Lemmas/Rounding.lean` defines `binary p`, rounding to the nearest number with `p` significant bits (Python's `float`
has `p = 53`), and shows that it is one.
-/

namespace PathLib.Spec

/-- Rounding with relative error at most `u`. -/
structure Rounding where
  rnd : ℝ → ℝ
  u : ℝ
  u_nonneg : 0 ≤ u
  error : ∀ x, |rnd x - x| ≤ u * |x|

namespace Rounding

/-- No rounding at all. -/
def exact : Rounding := ⟨id, 0, le_rfl, by simp⟩

variable (R : Rounding)

/-- The rounded sum. -/
def add (x y : ℝ) : ℝ := R.rnd (x + y)
/-- The rounded difference. -/
def sub (x y : ℝ) : ℝ := R.rnd (x - y)
/-- The rounded product. -/
def mul (x y : ℝ) : ℝ := R.rnd (x * y)
/-- The rounded quotient. -/
noncomputable def div (x y : ℝ) : ℝ := R.rnd (x / y)

/-- A bound of the relative error after `k` roundings; a little more than `k * u`. -/
noncomputable def gap (k : ℕ) : ℝ := 1 / (1 - R.u) ^ k - 1

theorem rnd_zero : R.rnd 0 = 0 := by
  have := R.error 0
  simp at this
  exact this

/-- `y` approximates `x`, of absolute value at most `M`, with at most `k` rounding errors relative to `M`. -/
def Approx (k : ℕ) (M x y : ℝ) : Prop := |x| ≤ M ∧ |y - x| ≤ ((1 + R.u) ^ k - 1) * M

variable {R}

theorem Approx.nonneg {k : ℕ} {M x y : ℝ} (h : R.Approx k M x y) : 0 ≤ M := (abs_nonneg x).trans h.1

theorem one_le_pow (R : Rounding) (k : ℕ) : 1 ≤ (1 + R.u) ^ k := one_le_pow₀ (by linarith [R.u_nonneg])

theorem Approx.abs_le {k : ℕ} {M x y : ℝ} (h : R.Approx k M x y) : |y| ≤ (1 + R.u) ^ k * M := by
  have h1 := h.1
  have h2 := h.2
  have h3 : |y| ≤ |y - x| + |x| := by
    have := abs_add_le (y - x) x
    simpa using this
  linarith

theorem Approx.mono {k l : ℕ} {M N x y : ℝ} (h : R.Approx k M x y) (hk : k ≤ l) (hM : M ≤ N) : R.Approx l N x y := by
  refine ⟨h.1.trans hM, h.2.trans ?_⟩
  have h0 := h.nonneg
  have h1 := R.one_le_pow k
  have h2 : (1 + R.u) ^ k ≤ (1 + R.u) ^ l := pow_le_pow_right₀ (by linarith [R.u_nonneg]) hk
  exact mul_le_mul (by linarith) hM h0 (by linarith)

theorem Approx.refl (x : ℝ) : R.Approx 0 |x| x x := ⟨le_rfl, by simp⟩

/-- One more rounding. -/
theorem Approx.round {k : ℕ} {M x y : ℝ} (h : R.Approx k M x y) : R.Approx (k + 1) M x (R.rnd y) := by
  refine ⟨h.1, ?_⟩
  have h1 := R.error y
  have h2 := h.abs_le
  have h3 := h.2
  have h4 : |R.rnd y - x| ≤ |R.rnd y - y| + |y - x| := by
    have := abs_add_le (R.rnd y - y) (y - x)
    simpa using this
  have h5 := mul_le_mul_of_nonneg_left h2 R.u_nonneg
  have h6 : ((1 + R.u) ^ (k + 1) - 1) * M = R.u * ((1 + R.u) ^ k * M) + ((1 + R.u) ^ k - 1) * M := by ring
  linarith

theorem Approx.mul {k l : ℕ} {M N x y x' y' : ℝ} (h : R.Approx k M x y) (h' : R.Approx l N x' y') :
    R.Approx (k + l + 1) (M * N) (x * x') (R.mul y y') := by
  refine Approx.round ⟨?_, ?_⟩
  · rw [abs_mul]
    exact mul_le_mul h.1 h'.1 (abs_nonneg _) h.nonneg
  · have h1 : |y * y' - x * x'| ≤ |y - x| * |y'| + |x| * |y' - x'| := by
      rw [← abs_mul, ← abs_mul]
      have := abs_add_le ((y - x) * y') (x * (y' - x'))
      rwa [show (y - x) * y' + x * (y' - x') = y * y' - x * x' by ring] at this
    have h2 : |y - x| * |y'| ≤ ((1 + R.u) ^ k - 1) * M * ((1 + R.u) ^ l * N) :=
      mul_le_mul h.2 h'.abs_le (abs_nonneg _) ((abs_nonneg _).trans h.2)
    have h3 : |x| * |y' - x'| ≤ M * (((1 + R.u) ^ l - 1) * N) :=
      mul_le_mul h.1 h'.2 (abs_nonneg _) h.nonneg
    have h4 : ((1 + R.u) ^ (k + l) - 1) * (M * N) =
        ((1 + R.u) ^ k - 1) * M * ((1 + R.u) ^ l * N) + M * (((1 + R.u) ^ l - 1) * N) := by ring
    linarith

theorem Approx.add {k : ℕ} {M N x y x' y' : ℝ} (h : R.Approx k M x y) (h' : R.Approx k N x' y') :
    R.Approx (k + 1) (M + N) (x + x') (R.add y y') := by
  refine Approx.round ⟨(abs_add_le _ _).trans (add_le_add h.1 h'.1), ?_⟩
  have h1 := abs_add_le (y - x) (y' - x')
  rw [show y - x + (y' - x') = y + y' - (x + x') by ring] at h1
  have h2 := h.2
  have h3 := h'.2
  linarith

theorem Approx.sub {k : ℕ} {M N x y x' y' : ℝ} (h : R.Approx k M x y) (h' : R.Approx k N x' y') :
    R.Approx (k + 1) (M + N) (x - x') (R.sub y y') := by
  refine Approx.round ⟨(abs_sub _ _).trans (add_le_add h.1 h'.1), ?_⟩
  have h1 := abs_sub (y - x) (y' - x')
  rw [show y - x - (y' - x') = y - y' - (x - x') by ring] at h1
  have h2 := h.2
  have h3 := h'.2
  linarith

end Rounding

/-- Rounding to the nearest number of a binary format: monotone, 1 is a number of the format, so is what rounding returns, and so is
twice a number of the format. -/
structure Binary extends Rounding where
  mono : ∀ x y, x ≤ y → rnd x ≤ rnd y
  idem : ∀ x, rnd (rnd x) = rnd x
  one : rnd 1 = 1
  double : ∀ x, rnd (2 * x) = 2 * rnd x

end PathLib.Spec
