import Verif.Lemmas.Rounding
import Mathlib.Analysis.Real.Sqrt
import Mathlib.Data.Nat.Sqrt

/-!
# Computing with rounded numbers

`roundBits` is defined on the real numbers. On rational numbers, and on square roots of rational numbers, its values can be
computed; the functions here do that, so that concrete calculations in Python's `float` format are settled by evaluation.
-/

namespace PathLib

open Spec Transform

/-- `roundHalfEven` on rational numbers. -/
def halfEvenQ (x : ℚ) : ℤ :=
  let f := ⌊x⌋
  let r := x - f
  if r < 1 / 2 then f
  else if 1 / 2 < r then f + 1
  else if f % 2 = 0 then f else f + 1

/-- `roundBits` on rational numbers. -/
def roundQ (p : ℕ) (q : ℚ) : ℚ :=
  (halfEvenQ (q / 2 ^ (Int.log 2 |q| + 1 - (p : ℤ))) : ℚ) * 2 ^ (Int.log 2 |q| + 1 - (p : ℤ))

theorem halfEvenQ_cast (x : ℚ) : roundHalfEven (x : ℝ) = halfEvenQ x := by
  unfold roundHalfEven halfEvenQ
  simp only [Rat.floor_cast]
  have e : ((x:ℝ) - (⌊x⌋:ℤ)) = ((x - (⌊x⌋:ℤ) : ℚ) : ℝ) := by push_cast; rfl
  rw [e]
  have h1 : (((x - (⌊x⌋:ℤ) : ℚ) : ℝ) < 1/2) ↔ (x - (⌊x⌋:ℤ) : ℚ) < 1/2 := by
    rw [show (1/2:ℝ) = ((1/2:ℚ):ℝ) by norm_num]; exact Rat.cast_lt
  have h2 : (1/2 < ((x - (⌊x⌋:ℤ) : ℚ) : ℝ)) ↔ 1/2 < (x - (⌊x⌋:ℤ) : ℚ) := by
    rw [show (1/2:ℝ) = ((1/2:ℚ):ℝ) by norm_num]; exact Rat.cast_lt
  simp only [h1, h2]

theorem log_cast (q : ℚ) : Int.log 2 |(q:ℝ)| = Int.log 2 |q| := by
  by_cases h : q = 0
  · subst h; simp
  rw [← Rat.cast_abs]
  apply log_eq
  · have := Int.zpow_log_le_self (b := 2) (by norm_num) (abs_pos.mpr h)
    have h2 : (((2:ℚ) ^ Int.log 2 |q| : ℚ) : ℝ) ≤ ((|q| : ℚ) : ℝ) := Rat.cast_le.mpr (by exact_mod_cast this)
    simpa using h2
  · have := Int.lt_zpow_succ_log_self (b := 2) (by norm_num) |q|
    have h2 : ((|q| : ℚ) : ℝ) < (((2:ℚ) ^ (Int.log 2 |q| + 1) : ℚ) : ℝ) := Rat.cast_lt.mpr (by exact_mod_cast this)
    simpa using h2

theorem roundQ_cast (p : ℕ) (q : ℚ) : roundBits p (q : ℝ) = ((roundQ p q : ℚ) : ℝ) := by
  unfold roundBits roundQ ulp
  rw [log_cast]
  have : ((q:ℝ) / 2 ^ (Int.log 2 |q| + 1 - (p:ℤ))) = ((q / 2 ^ (Int.log 2 |q| + 1 - (p:ℤ)) : ℚ) : ℝ) := by
    push_cast; rfl
  rw [this, halfEvenQ_cast]
  push_cast; rfl

/-- The square root of `y` rounded to an integer. -/
def halfEvenSqrtQ (y : ℚ) : ℤ :=
  let n : ℤ := Nat.sqrt ⌊y⌋.toNat
  if y < (n + 1 / 2) ^ 2 then n
  else if (n + 1 / 2) ^ 2 < y then n + 1
  else if n % 2 = 0 then n else n + 1

/-- The square root of `q` rounded to `p` significant bits. -/
def roundSqrtQ (p : ℕ) (q : ℚ) : ℚ :=
  let e := Int.log 2 q / 2 + 1 - (p : ℤ)
  (halfEvenSqrtQ (q / (2 ^ e * 2 ^ e)) : ℚ) * 2 ^ e

theorem halfEvenSqrtQ_cast (y : ℚ) (h : 0 ≤ y) : roundHalfEven (Real.sqrt (y : ℝ)) = halfEvenSqrtQ y := by
  have hy : (0:ℝ) ≤ y := by exact_mod_cast h
  set n : ℕ := Nat.sqrt ⌊y⌋.toNat with hn
  have hf : (0:ℤ) ≤ ⌊y⌋ := Int.floor_nonneg.mpr h
  have f0 := Int.floor_le y
  have f1 := Int.lt_floor_add_one y
  have n0 : ((n * n : ℕ) : ℤ) ≤ ⌊y⌋ := by
    have := Nat.sqrt_le ⌊y⌋.toNat
    rw [← hn] at this
    omega
  have n1 : ⌊y⌋ + 1 ≤ (((n + 1) * (n + 1) : ℕ) : ℤ) := by
    have := Nat.lt_succ_sqrt ⌊y⌋.toNat
    rw [← hn] at this
    simp only [Nat.succ_eq_add_one] at this
    omega
  have g0 : ((n:ℚ)) ^ 2 ≤ y := by
    have : ((((n * n : ℕ) : ℤ)) : ℚ) ≤ (⌊y⌋ : ℚ) := by exact_mod_cast n0
    push_cast at this
    nlinarith
  have g1 : y < ((n:ℚ) + 1) ^ 2 := by
    have : ((⌊y⌋ + 1 : ℤ) : ℚ) ≤ ((((n + 1) * (n + 1) : ℕ) : ℤ) : ℚ) := by exact_mod_cast n1
    push_cast at this
    nlinarith
  have g0r : ((n:ℝ)) ^ 2 ≤ y := by exact_mod_cast g0
  have g1r : (y:ℝ) < ((n:ℝ) + 1) ^ 2 := by exact_mod_cast g1
  have fl : ⌊Real.sqrt (y:ℝ)⌋ = (n : ℤ) := by
    rw [Int.floor_eq_iff]
    push_cast
    exact ⟨Real.le_sqrt_of_sq_le g0r, (Real.sqrt_lt' (by positivity)).mpr g1r⟩
  have c1 : (Real.sqrt (y:ℝ) - ((n:ℤ):ℝ) < 1 / 2) ↔ y < (((n:ℤ):ℚ) + 1 / 2) ^ 2 := by
    rw [sub_lt_iff_lt_add', Real.sqrt_lt' (by positivity)]
    constructor
    · intro hh
      have : (y:ℝ) < (((((n:ℤ):ℚ) + 1 / 2) ^ 2 : ℚ) : ℝ) := by push_cast at hh ⊢; exact hh
      exact_mod_cast this
    · intro hh
      have : (y:ℝ) < (((((n:ℤ):ℚ) + 1 / 2) ^ 2 : ℚ) : ℝ) := Rat.cast_lt.mpr hh
      push_cast at this ⊢; exact this
  have c2 : (1 / 2 < Real.sqrt (y:ℝ) - ((n:ℤ):ℝ)) ↔ (((n:ℤ):ℚ) + 1 / 2) ^ 2 < y := by
    rw [lt_sub_iff_add_lt', Real.lt_sqrt (by positivity)]
    constructor
    · intro hh
      have : (((((n:ℤ):ℚ) + 1 / 2) ^ 2 : ℚ) : ℝ) < (y:ℝ) := by push_cast at hh ⊢; exact hh
      exact_mod_cast this
    · intro hh
      have : (((((n:ℤ):ℚ) + 1 / 2) ^ 2 : ℚ) : ℝ) < (y:ℝ) := Rat.cast_lt.mpr hh
      push_cast at this ⊢; exact this
  unfold roundHalfEven halfEvenSqrtQ
  simp only [fl, ← hn, c1, c2]

theorem log_sqrt (q : ℚ) (h : 0 < q) : Int.log 2 |Real.sqrt (q : ℝ)| = Int.log 2 q / 2 := by
  have hq : (0:ℝ) < q := by exact_mod_cast h
  rw [abs_of_nonneg (Real.sqrt_nonneg _)]
  have a := Int.zpow_log_le_self (b := 2) (by norm_num) h
  have b := Int.lt_zpow_succ_log_self (b := 2) (by norm_num) q
  have a' : (((2:ℚ) ^ Int.log 2 q : ℚ) : ℝ) ≤ (q : ℝ) := Rat.cast_le.mpr (by exact_mod_cast a)
  have b' : (q : ℝ) < (((2:ℚ) ^ (Int.log 2 q + 1) : ℚ) : ℝ) := Rat.cast_lt.mpr (by exact_mod_cast b)
  push_cast at a' b'
  set k := Int.log 2 q
  have e : k = 2 * (k / 2) ∨ k = 2 * (k / 2) + 1 := by omega
  have sq : ∀ j : ℤ, ((2:ℝ) ^ j) ^ 2 = 2 ^ (2 * j) := by
    intro j; rw [mul_comm, zpow_mul]; norm_cast
  apply log_eq
  · refine Real.le_sqrt_of_sq_le (le_trans ?_ a')
    rw [sq]
    exact zpow_le_zpow_right₀ (by norm_num) (by omega)
  · rw [Real.sqrt_lt' (by positivity), sq]
    exact lt_of_lt_of_le b' (zpow_le_zpow_right₀ (by norm_num) (by omega))

theorem roundSqrtQ_cast (p : ℕ) (q : ℚ) (h : 0 < q) : roundBits p (Real.sqrt (q : ℝ)) = ((roundSqrtQ p q : ℚ) : ℝ) := by
  unfold roundBits roundSqrtQ ulp
  rw [log_sqrt q h]
  set e := Int.log 2 q / 2 + 1 - (p : ℤ)
  have he : (0:ℝ) < 2 ^ e := by positivity
  have : Real.sqrt (q : ℝ) / 2 ^ e = Real.sqrt ((q / (2 ^ e * 2 ^ e) : ℚ) : ℝ) := by
    push_cast
    rw [Real.sqrt_div' _ (by positivity), Real.sqrt_mul_self he.le]
  rw [this, halfEvenSqrtQ_cast _ (by positivity)]
  push_cast; rfl

/-- Python's `float`, apart from overflow and underflow: rounding to 53 significant bits. -/
def fl (q : ℚ) : ℚ := roundQ 53 q

/-- `math.sqrt`, correctly rounded. -/
def flSqrt (q : ℚ) : ℚ := if q = 0 then 0 else roundSqrtQ 53 q

theorem float_rnd (q : ℚ) : (binary 52).rnd (q : ℝ) = ((fl q : ℚ) : ℝ) := roundQ_cast 53 q

theorem float_add (a b : ℚ) : (binary 52).add (a : ℝ) b = ((fl (a + b) : ℚ) : ℝ) := by
  rw [← float_rnd, Rat.cast_add]; rfl

theorem float_sub (a b : ℚ) : (binary 52).sub (a : ℝ) b = ((fl (a - b) : ℚ) : ℝ) := by
  rw [← float_rnd, Rat.cast_sub]; rfl

theorem float_mul (a b : ℚ) : (binary 52).mul (a : ℝ) b = ((fl (a * b) : ℚ) : ℝ) := by
  rw [← float_rnd, Rat.cast_mul]; rfl

theorem float_div (a b : ℚ) : (binary 52).div (a : ℝ) b = ((fl (a / b) : ℚ) : ℝ) := by
  rw [← float_rnd, Rat.cast_div]; rfl

theorem float_sqrt (q : ℚ) (h : 0 ≤ q) : (binary 52).rnd (Real.sqrt (q : ℝ)) = ((flSqrt q : ℚ) : ℝ) := by
  unfold flSqrt
  rcases h.eq_or_lt with rfl | h
  · simpa using (binary 52).rnd_zero
  · rw [if_neg h.ne']
    exact roundSqrtQ_cast 53 q h

/-- Numbers as Python prints them: `0.1`, `1/3`, `math.sqrt(2)`, and `0.1 + 0.2 != 0.3`. -/
example : fl (1 / 10) = 3602879701896397 / 2 ^ 55 ∧ fl (1 / 3) = 6004799503160661 / 2 ^ 54 ∧
    flSqrt 2 = 6369051672525773 / 2 ^ 52 ∧ fl (fl (1 / 10) + fl (2 / 10)) ≠ fl (3 / 10) := by
  decide +kernel

end PathLib
