import Verif.Lemmas.Rounding

/-!
# Rounding with underflow and overflow

`roundDouble` rounds to IEEE 754 binary64, Python's `float`: 53 bits, but no bit below `2 ^ -1074`, and no number from `2 ^ 1024` on.
`double c` is this rounding as a `Rounding`, with an arbitrary value in place of infinity; because of underflow its relative error is
only bounded by 1. `Safe` says where it agrees with `binary 52`, which has neither underflow nor overflow.
-/

namespace PathLib

open Spec Transform

/-- The value of the last bit that is kept. -/
noncomputable def lastBit (x : ℝ) : ℝ := max (ulp 53 x) (2 ^ (-1074 : ℤ))

/-- The nearest double, ties to even; `none` stands for infinity. -/
noncomputable def roundDouble (x : ℝ) : Option ℝ :=
  if |(roundHalfEven (x / lastBit x) : ℝ) * lastBit x| < 2 ^ (1024 : ℤ) then some ((roundHalfEven (x / lastBit x) : ℝ) * lastBit x)
  else none

theorem lastBit_pos (x : ℝ) : 0 < lastBit x := lt_of_lt_of_le (ulp_pos 53 x) (le_max_left _ _)

/-- Rounding to an integer changes nothing by more than its absolute value. -/
theorem roundHalfEven_error (z : ℝ) : |(roundHalfEven z : ℝ) - z| ≤ |z| := by
  have h := abs_roundHalfEven_sub_le z
  rcases le_or_gt (1 / 2) |z| with hz | hz
  · exact h.trans hz
  · have h1 : |(roundHalfEven z : ℝ)| < 1 := by
      have := abs_add_le ((roundHalfEven z : ℝ) - z) z
      rw [sub_add_cancel] at this
      linarith
    have h2 : |roundHalfEven z| < 1 := by exact_mod_cast h1
    rw [Int.abs_lt_one_iff] at h2
    rw [h2]; simp

theorem lastBit_error (x : ℝ) : |(roundHalfEven (x / lastBit x) : ℝ) * lastBit x - x| ≤ |x| := by
  have hq := lastBit_pos x
  have h := mul_le_mul_of_nonneg_right (roundHalfEven_error (x / lastBit x)) hq.le
  rw [← abs_of_pos hq, ← abs_mul, ← abs_mul, abs_of_pos hq, sub_mul, div_mul_cancel₀ _ hq.ne'] at h
  exact h

theorem roundDouble_error (c x : ℝ) : |(roundDouble x).getD (c * x) - x| ≤ max 1 |c - 1| * |x| := by
  cases h : roundDouble x with
  | none =>
    show |c * x - x| ≤ _
    rw [show c * x - x = (c - 1) * x by ring, abs_mul]
    exact mul_le_mul_of_nonneg_right (le_max_right _ _) (abs_nonneg _)
  | some y =>
    unfold roundDouble at h
    split_ifs at h
    cases h
    exact (lastBit_error x).trans (le_mul_of_one_le_left (abs_nonneg _) (le_max_left _ _))

/-- IEEE 754 binary64. In place of infinity it returns `c * x`; what does not depend on `c` does not depend on overflow. -/
noncomputable def double (c : ℝ) : Rounding where
  rnd x := (roundDouble x).getD (c * x)
  u := max 1 |c - 1|
  u_nonneg := zero_le_one.trans (le_max_left _ _)
  error := roundDouble_error c

/-! ### Where it agrees with `binary 52` -/

theorem abs_roundBits_le {x : ℝ} {k : ℤ} (h : |x| ≤ 2 ^ k) : |roundBits 53 x| ≤ 2 ^ k := by
  have hp : roundBits 53 (2 ^ k) = 2 ^ k := by simpa using roundBits_repr 53 (by norm_num) 1 k (by norm_num)
  have hn : roundBits 53 (-2 ^ k) = -2 ^ k := by simpa using roundBits_repr 53 (by norm_num) (-1) k (by norm_num)
  rw [abs_le] at h ⊢
  have h1 := roundBits_mono 53 (by norm_num) h.1
  have h2 := roundBits_mono 53 (by norm_num) h.2
  rw [hn] at h1; rw [hp] at h2
  exact ⟨h1, h2⟩

theorem le_abs_roundBits {x : ℝ} {k : ℤ} (h : 2 ^ k ≤ |x|) : 2 ^ k ≤ |roundBits 53 x| := by
  have hp : roundBits 53 (2 ^ k) = 2 ^ k := by simpa using roundBits_repr 53 (by norm_num) 1 k (by norm_num)
  have hn : roundBits 53 (-2 ^ k) = -2 ^ k := by simpa using roundBits_repr 53 (by norm_num) (-1) k (by norm_num)
  rcases le_total 0 x with h0 | h0
  · rw [abs_of_nonneg h0] at h
    have h1 := roundBits_mono 53 (by norm_num) h
    rw [hp] at h1
    exact h1.trans (le_abs_self _)
  · rw [abs_of_nonpos h0] at h
    have h1 := roundBits_mono 53 (by norm_num) (show x ≤ -2 ^ k by linarith)
    rw [hn] at h1
    exact (show (2:ℝ) ^ k ≤ -roundBits 53 x by linarith).trans (neg_le_abs _)

/-- A multiple of `2 ^ -e`. -/
def Multiple (e : ℕ) (x : ℝ) : Prop := ∃ m : ℤ, x = m * 2 ^ (-(e : ℤ))

theorem multiple_of_le {j : ℤ} {e : ℕ} (h : -(e : ℤ) ≤ j) (m : ℤ) : Multiple e (m * 2 ^ j) := by
  obtain ⟨n, hn⟩ := Int.eq_ofNat_of_zero_le (show 0 ≤ j + e by omega)
  refine ⟨m * 2 ^ n, ?_⟩
  rw [show j = (n : ℤ) + -(e : ℤ) by omega, zpow_add₀ (by norm_num), zpow_natCast]
  push_cast; ring

theorem Multiple.mono {e f : ℕ} {x : ℝ} (h : Multiple e x) (hef : e ≤ f) : Multiple f x := by
  obtain ⟨m, rfl⟩ := h
  exact multiple_of_le (by omega) m

theorem Multiple.add {e : ℕ} {x y : ℝ} (h : Multiple e x) (h' : Multiple e y) : Multiple e (x + y) := by
  obtain ⟨m, rfl⟩ := h
  obtain ⟨n, rfl⟩ := h'
  exact ⟨m + n, by push_cast; ring⟩

theorem Multiple.neg {e : ℕ} {x : ℝ} (h : Multiple e x) : Multiple e (-x) := by
  obtain ⟨m, rfl⟩ := h
  exact ⟨-m, by push_cast; ring⟩

theorem Multiple.mul {e f : ℕ} {x y : ℝ} (h : Multiple e x) (h' : Multiple f y) : Multiple (e + f) (x * y) := by
  obtain ⟨m, rfl⟩ := h
  obtain ⟨n, rfl⟩ := h'
  refine ⟨m * n, ?_⟩
  rw [show -((e + f : ℕ) : ℤ) = -(e : ℤ) + -(f : ℤ) by push_cast; ring, zpow_add₀ (by norm_num)]
  push_cast; ring

theorem Multiple.le_abs {e : ℕ} {x : ℝ} (h : Multiple e x) (h0 : x ≠ 0) : (2:ℝ) ^ (-(e : ℤ)) ≤ |x| := by
  obtain ⟨m, rfl⟩ := h
  have hm : m ≠ 0 := by rintro rfl; simp at h0
  rw [abs_mul, abs_of_pos (show (0:ℝ) < 2 ^ (-(e : ℤ)) by positivity)]
  have : (1:ℝ) ≤ |(m : ℝ)| := by exact_mod_cast Int.one_le_abs hm
  exact le_mul_of_one_le_left (by positivity) this

/-- A multiple of a power of two that is at least the last bit is not changed by rounding. -/
theorem roundBits_multiple {e : ℕ} {x : ℝ} (h : Multiple e x) (hu : ulp 53 x ≤ 2 ^ (-(e : ℤ))) : roundBits 53 x = x := by
  obtain ⟨m, hm⟩ := h
  have h1 : Int.log 2 |x| + 1 - (53 : ℕ) ≤ -(e : ℤ) := by
    unfold ulp at hu
    exact (zpow_le_zpow_iff_right₀ (by norm_num : (1:ℝ) < 2)).mp hu
  obtain ⟨n, hn⟩ := Int.eq_ofNat_of_zero_le (show 0 ≤ -(e : ℤ) - (Int.log 2 |x| + 1 - (53 : ℕ)) by omega)
  refine roundBits_of_int 53 x (m * 2 ^ n) ?_
  unfold ulp
  conv_lhs => rw [hm, show -(e : ℤ) = (n : ℤ) + (Int.log 2 |x| + 1 - (53 : ℕ)) by omega, zpow_add₀ (by norm_num), zpow_natCast]
  push_cast; ring

theorem Multiple.round {e : ℕ} {x : ℝ} (h : Multiple e x) : Multiple e (roundBits 53 x) := by
  rcases le_total (ulp 53 x) (2 ^ (-(e : ℤ))) with hu | hu
  · rw [roundBits_multiple h hu]; exact h
  · have h1 : -(e : ℤ) ≤ Int.log 2 |x| + 1 - (53 : ℕ) := by
      unfold ulp at hu
      exact (zpow_le_zpow_iff_right₀ (by norm_num : (1:ℝ) < 2)).mp hu
    exact multiple_of_le h1 _

/-- What rounding returns is a multiple of the last bit. -/
theorem multiple_round {a : ℕ} {x : ℝ} (h : (2:ℝ) ^ (-(a : ℤ)) ≤ |x|) : Multiple (a + 53) (roundBits 53 x) := by
  have h1 : -(a : ℤ) ≤ Int.log 2 |x| := by
    rw [← Int.zpow_le_iff_le_log (by norm_num) (lt_of_lt_of_le (by positivity) h)]
    exact_mod_cast h
  exact multiple_of_le (show -((a + 53 : ℕ) : ℤ) ≤ Int.log 2 |x| + 1 - (53 : ℕ) by push_cast; omega) _

theorem roundDouble_of_eq {x : ℝ} (h : (roundHalfEven (x / lastBit x) : ℝ) * lastBit x = roundBits 53 x) (h1 : |x| ≤ 2 ^ (1023 : ℤ)) :
    roundDouble x = some (roundBits 53 x) := by
  unfold roundDouble
  rw [h, if_pos]
  exact lt_of_le_of_lt (abs_roundBits_le h1) (zpow_lt_zpow_right₀ (by norm_num) (by norm_num))

/-- No underflow and no overflow from `2 ^ -1022` to `2 ^ 1023`. -/
theorem roundDouble_normal {x : ℝ} (h0 : (2:ℝ) ^ (-1022 : ℤ) ≤ |x|) (h1 : |x| ≤ 2 ^ (1023 : ℤ)) : roundDouble x = some (roundBits 53 x) := by
  have hl : (-1022 : ℤ) ≤ Int.log 2 |x| := by
    rw [← Int.zpow_le_iff_le_log (by norm_num) (lt_of_lt_of_le (by positivity) h0)]
    exact_mod_cast h0
  have hu : lastBit x = ulp 53 x := by
    unfold lastBit ulp
    exact max_eq_left (zpow_le_zpow_right₀ (by norm_num) (by omega))
  exact roundDouble_of_eq (by rw [hu]; rfl) h1

theorem nearest_multiple {x : ℝ} (h : Multiple 1074 x) : (roundHalfEven (x / lastBit x) : ℝ) * lastBit x = roundBits 53 x := by
  rcases le_total (ulp 53 x) (2 ^ (-1074 : ℤ)) with hu | hu
  · have hl : lastBit x = 2 ^ (-1074 : ℤ) := max_eq_right hu
    rw [roundBits_multiple h hu, hl]
    obtain ⟨m, hm⟩ := h
    have : x / 2 ^ (-1074 : ℤ) = m := by rw [div_eq_iff (by positivity)]; exact hm
    rw [this, roundHalfEven_int]
    exact hm.symm
  · rw [show lastBit x = ulp 53 x from max_eq_left hu]; rfl

/-- No underflow for multiples of the smallest double. -/
theorem roundDouble_multiple {x : ℝ} (h : Multiple 1074 x) (h1 : |x| ≤ 2 ^ (1023 : ℤ)) : roundDouble x = some (roundBits 53 x) :=
  roundDouble_of_eq (nearest_multiple h) h1

/-- Underflow to zero. -/
theorem roundDouble_tiny {x : ℝ} (h : |x| < 2 ^ (-1075 : ℤ)) : roundDouble x = some 0 := by
  have hq := lastBit_pos x
  have hl : (2:ℝ) ^ (-1074 : ℤ) ≤ lastBit x := le_max_right _ _
  have h2 : (2:ℝ) ^ (-1075 : ℤ) = 2 ^ (-1074 : ℤ) / 2 := by
    rw [show (-1075 : ℤ) = -1074 - 1 by norm_num, zpow_sub_one₀ (by norm_num)]; ring
  have hz : |x / lastBit x| < 1 / 2 := by
    rw [abs_div, abs_of_pos hq, div_lt_iff₀ hq]
    linarith
  have h0 : roundHalfEven (x / lastBit x) = 0 := by
    have e := abs_roundHalfEven_sub_le (x / lastBit x)
    have e' := abs_add_le ((roundHalfEven (x / lastBit x) : ℝ) - x / lastBit x) (x / lastBit x)
    rw [sub_add_cancel] at e'
    have h1 : |(roundHalfEven (x / lastBit x) : ℝ)| < 1 := by linarith
    have h2 : |roundHalfEven (x / lastBit x)| < 1 := by exact_mod_cast h1
    rwa [Int.abs_lt_one_iff] at h2
  unfold roundDouble
  rw [h0, Int.cast_zero, zero_mul, abs_zero, if_pos (by positivity)]

theorem roundBits_power (k : ℤ) : roundBits 53 (2 ^ k) = 2 ^ k := by simpa using roundBits_repr 53 (by norm_num) 1 k (by norm_num)

/-- Overflow. -/
theorem roundDouble_overflow : roundDouble (2 ^ (1024 : ℤ)) = none := by
  unfold roundDouble
  have : Multiple 1074 ((2:ℝ) ^ (1024 : ℤ)) := by simpa using multiple_of_le (e := 1074) (j := 1024) (by norm_num) 1
  rw [nearest_multiple this, roundBits_power, abs_of_pos (by positivity), if_neg (lt_irrefl _)]

theorem double_rnd (c : ℝ) {x : ℝ} (h : roundDouble x = some (roundBits 53 x)) : (double c).rnd x = (binary 52).rnd x := by
  show (roundDouble x).getD _ = _
  rw [h]; rfl

/-- The same number was computed with and without limits of the exponent; it is a multiple of `2 ^ -e` and at most `2 ^ k`. -/
structure Safe (e k : ℕ) (x y : ℝ) : Prop where
  eq : x = y
  multiple : Multiple e x
  le : |x| ≤ 2 ^ k

namespace Safe

variable {c : ℝ}

theorem mono {e f k l : ℕ} {x y : ℝ} (h : Safe e k x y) (he : e ≤ f) (hk : k ≤ l) : Safe f l x y :=
  ⟨h.eq, h.multiple.mono he, h.le.trans (pow_le_pow_right₀ (by norm_num) hk)⟩

theorem int (m : ℤ) {k : ℕ} (h : |(m : ℝ)| ≤ 2 ^ k) : Safe 0 k (m : ℝ) m := ⟨rfl, ⟨m, by simp⟩, h⟩

theorem neg {e k : ℕ} {x y : ℝ} (h : Safe e k x y) : Safe e k (-x) (-y) := ⟨by rw [h.eq], h.multiple.neg, by rw [abs_neg]; exact h.le⟩

theorem round {e k : ℕ} {x y : ℝ} (h : Safe e k x y) (he : e ≤ 1074) (hk : k ≤ 1023) : Safe e k ((double c).rnd x) ((binary 52).rnd y) := by
  have hb : |x| ≤ 2 ^ (1023 : ℤ) := h.le.trans (by exact_mod_cast pow_le_pow_right₀ (by norm_num) hk)
  have hr := double_rnd c (roundDouble_multiple (h.multiple.mono he) hb)
  refine ⟨by rw [hr, h.eq], ?_, ?_⟩
  · rw [hr]; exact h.multiple.round
  · rw [hr, ← zpow_natCast]
    exact abs_roundBits_le (by rw [zpow_natCast]; exact h.le)

theorem add {e k : ℕ} {x y x' y' : ℝ} (h : Safe e k x y) (h' : Safe e k x' y') (he : e ≤ 1074) (hk : k + 1 ≤ 1023) :
    Safe e (k + 1) ((double c).add x x') ((binary 52).add y y') := by
  refine round ⟨by rw [h.eq, h'.eq], h.multiple.add h'.multiple, ?_⟩ he hk
  rw [pow_succ]
  have := abs_add_le x x'
  linarith [h.le, h'.le]

theorem sub {e k : ℕ} {x y x' y' : ℝ} (h : Safe e k x y) (h' : Safe e k x' y') (he : e ≤ 1074) (hk : k + 1 ≤ 1023) :
    Safe e (k + 1) ((double c).sub x x') ((binary 52).sub y y') := by
  have := add (c := c) h h'.neg he hk
  unfold Rounding.add at this
  unfold Rounding.sub
  rwa [← sub_eq_add_neg, ← sub_eq_add_neg] at this

theorem mul {e f k l : ℕ} {x y x' y' : ℝ} (h : Safe e k x y) (h' : Safe f l x' y') (he : e + f ≤ 1074) (hk : k + l ≤ 1023) :
    Safe (e + f) (k + l) ((double c).mul x x') ((binary 52).mul y y') := by
  refine round ⟨by rw [h.eq, h'.eq], h.multiple.mul h'.multiple, ?_⟩ he hk
  rw [pow_add, abs_mul]
  exact mul_le_mul h.le h'.le (abs_nonneg _) (by positivity)

/-- Quotients and roots, which are no multiples of a known number before they are rounded. -/
theorem normal {a k : ℕ} {x : ℝ} (h0 : x = 0 ∨ (2:ℝ) ^ (-(a : ℤ)) ≤ |x|) (h1 : |x| ≤ 2 ^ k) (ha : a ≤ 1022) (hk : k ≤ 1023) :
    Safe (a + 53) k ((double c).rnd x) ((binary 52).rnd x) := by
  rcases h0 with rfl | h0
  · rw [(double c).rnd_zero, (binary 52).rnd_zero]
    exact ⟨rfl, ⟨0, by simp⟩, by simp⟩
  · have hb : |x| ≤ 2 ^ (1023 : ℤ) := h1.trans (by exact_mod_cast pow_le_pow_right₀ (by norm_num) hk)
    have hr := double_rnd c (roundDouble_normal
      ((zpow_le_zpow_right₀ (by norm_num : (1:ℝ) ≤ 2) (show (-1022 : ℤ) ≤ -(a : ℤ) by omega)).trans h0) hb)
    refine ⟨hr, ?_, ?_⟩
    · rw [hr]; exact multiple_round h0
    · rw [hr, ← zpow_natCast]
      exact abs_roundBits_le (by rw [zpow_natCast]; exact h1)

/-- For a zero divisor both sides are 0. -/
theorem div {e f k l : ℕ} {x y x' y' : ℝ} (h : Safe e k x y) (h' : Safe f l x' y') (he : e + l ≤ 1022) (hk : k + f ≤ 1023) :
    Safe (e + l + 53) (k + f) ((double c).div x x') ((binary 52).div y y') := by
  obtain ⟨rfl, m1, b1⟩ := h
  obtain ⟨rfl, m2, b2⟩ := h'
  by_cases h0 : x' = 0
  · exact normal (.inl (by rw [h0, div_zero])) (by rw [h0, div_zero]; simp) he hk
  have hpos : 0 < |x'| := abs_pos.mpr h0
  refine normal ?_ ?_ he hk
  · by_cases hx : x = 0
    · left; rw [hx]; simp
    · right
      rw [abs_div, le_div_iff₀ hpos]
      have h2 := mul_le_mul_of_nonneg_left b2 (show (0:ℝ) ≤ 2 ^ (-((e + l : ℕ) : ℤ)) by positivity)
      refine h2.trans (le_trans (le_of_eq ?_) (m1.le_abs hx))
      rw [← zpow_natCast, ← zpow_add₀ (by norm_num)]
      congr 1; push_cast; ring
  · rw [abs_div, div_le_iff₀ hpos]
    refine b1.trans ?_
    have h2 := mul_le_mul_of_nonneg_left (m2.le_abs h0) (show (0:ℝ) ≤ 2 ^ (k + f) by positivity)
    refine le_trans (le_of_eq ?_) h2
    rw [← zpow_natCast, ← zpow_natCast, ← zpow_add₀ (by norm_num)]
    congr 1; push_cast; ring

theorem sqrt {a b : ℕ} {x y : ℝ} (h : Safe (2 * a) (2 * b) x y) (ha : a ≤ 1022) (hb : b ≤ 1023) :
    Safe (a + 53) b ((double c).rnd (Real.sqrt x)) ((binary 52).rnd (Real.sqrt y)) := by
  obtain ⟨rfl, m1, b1⟩ := h
  rcases le_or_gt x 0 with hx | hx
  · rw [Real.sqrt_eq_zero_of_nonpos hx]
    exact normal (.inl rfl) (by simp) ha hb
  · have hs := Real.sqrt_nonneg x
    have h0 := m1.le_abs hx.ne'
    rw [abs_of_pos hx] at h0 b1
    refine normal (.inr ?_) ?_ ha hb
    · rw [abs_of_nonneg hs]
      refine Real.le_sqrt_of_sq_le (le_trans (le_of_eq ?_) h0)
      rw [sq, ← zpow_add₀ (by norm_num)]
      congr 1; push_cast; ring
    · rw [abs_of_nonneg hs, Real.sqrt_le_left (by positivity), ← pow_mul, mul_comm b]
      exact b1

end Safe
end PathLib
