import Verif.Lemmas.Double
import Verif.Lemmas.Grid

/-!
# The rounding of IEEE 754: C124

`roundDouble` and `roundBits` are defined with logarithms; here they are characterised by the numbers of the format alone: the result is the nearest
number of the format, and where two are nearest the one with an even significand.
-/

namespace PathLib

open Spec Transform

/-- A finite number of IEEE 754 binary64: an integer of less than 53 bits times a power of two from `2 ^ -1074` to `2 ^ 971`. -/
def Spec.IsDouble (x : ℝ) : Prop := ∃ m e : ℤ, |m| < 2 ^ 53 ∧ -1074 ≤ e ∧ e ≤ 971 ∧ x = m * 2 ^ e

/-- Such a number, with an even significand: the last of its 53 bits is 0. -/
def Spec.IsEvenDouble (x : ℝ) : Prop := ∃ m e : ℤ, Even m ∧ |m| < 2 ^ 53 ∧ -1074 ≤ e ∧ e ≤ 971 ∧ x = m * 2 ^ e

/-- A number of 53 bits, with any exponent. -/
def Spec.IsBits (x : ℝ) : Prop := ∃ m e : ℤ, |m| < 2 ^ 53 ∧ x = m * 2 ^ e

/-- A number of 53 bits of which the last is 0. -/
def Spec.IsEvenBits (x : ℝ) : Prop := ∃ m e : ℤ, Even m ∧ |m| < 2 ^ 53 ∧ x = m * 2 ^ e

namespace Ieee

theorem nearest_int (t : ℝ) (n : ℤ) : |(roundHalfEven t : ℝ) - t| ≤ |(n : ℝ) - t| := by
  have h := abs_roundHalfEven_sub_le t
  by_contra hc
  push Not at hc
  have h1 : |(roundHalfEven t : ℝ) - n| < 1 := by
    have := abs_sub_le (roundHalfEven t : ℝ) t n
    rw [abs_sub_comm t] at this
    linarith
  have h2 : |roundHalfEven t - n| < 1 := by exact_mod_cast h1
  rw [Int.abs_lt_one_iff] at h2
  rw [show roundHalfEven t = n by omega] at hc
  exact lt_irrefl _ hc

theorem even_int (t : ℝ) (n : ℤ) (hn : n ≠ roundHalfEven t) (h : |(n : ℝ) - t| = |(roundHalfEven t : ℝ) - t|) : Even (roundHalfEven t) := by
  have hb := abs_roundHalfEven_sub_le t
  have h1 : (1:ℝ) ≤ |(n : ℝ) - roundHalfEven t| := by
    exact_mod_cast Int.one_le_abs (sub_ne_zero.mpr hn)
  have h2 := abs_sub_le (n : ℝ) t (roundHalfEven t)
  rw [abs_sub_comm t] at h2
  have h3 : |(roundHalfEven t : ℝ) - t| = 1 / 2 := by linarith
  clear h h1 h2 hb hn
  have a := Int.floor_le t
  have b := Int.lt_floor_add_one t
  unfold roundHalfEven at h3 ⊢
  simp only at h3 ⊢
  split_ifs at h3 ⊢ with c d e
  · rw [abs_of_nonpos (by linarith)] at h3; exfalso; linarith
  · push_cast at h3; rw [abs_of_nonneg (by linarith)] at h3; exfalso; linarith
  · exact Int.even_iff.mpr e
  · rw [Int.even_iff]; omega

/-- The nearest multiple of `2 ^ j` is nearer than every number with more bits, if such a number is below `|x|` by its size. -/
theorem nearest_lattice (x : ℝ) (j : ℤ) (m e : ℤ) (hm : |m| < 2 ^ 53) (h : j ≤ e ∨ (2:ℝ) ^ (52 + j) ≤ |x|) :
    |(roundHalfEven (x / 2 ^ j) : ℝ) * 2 ^ j - x| ≤ |m * 2 ^ e - x| ∧
    ((m * 2 ^ e : ℝ) ≠ roundHalfEven (x / 2 ^ j) * 2 ^ j → |m * 2 ^ e - x| = |(roundHalfEven (x / 2 ^ j) : ℝ) * 2 ^ j - x| →
      Even (roundHalfEven (x / 2 ^ j))) := by
  have hq : (0:ℝ) < 2 ^ j := by positivity
  have scale : ∀ n : ℤ, |(n : ℝ) * 2 ^ j - x| = |(n : ℝ) - x / 2 ^ j| * 2 ^ j := by
    intro n
    rw [← abs_of_pos hq, ← abs_mul, abs_of_pos hq, sub_mul, div_mul_cancel₀ _ hq.ne']
  by_cases hj : j ≤ e
  · obtain ⟨n, hn⟩ := Int.eq_ofNat_of_zero_le (show 0 ≤ e - j by omega)
    have hz : (m * 2 ^ e : ℝ) = ((m * 2 ^ n : ℤ) : ℝ) * 2 ^ j := by
      rw [show e = (n : ℤ) + j by omega, zpow_add₀ (by norm_num), zpow_natCast]; push_cast; ring
    rw [hz, scale, scale]
    refine ⟨mul_le_mul_of_nonneg_right (nearest_int _ _) hq.le, fun hne he => ?_⟩
    refine even_int _ (m * 2 ^ n) (fun h => hne (by rw [h])) (mul_right_cancel₀ hq.ne' he)
  · have hx := h.resolve_left hj
    have hz : |(m * 2 ^ e : ℝ)| < 2 ^ (52 + j) := by
      rw [abs_mul, abs_of_pos (show (0:ℝ) < 2 ^ e by positivity)]
      have h1 : |(m : ℝ)| < 2 ^ 53 := by exact_mod_cast hm
      have h2 : (2:ℝ) ^ e ≤ 2 ^ (j - 1) := zpow_le_zpow_right₀ (by norm_num) (by omega)
      have h3 : (2:ℝ) ^ 53 * 2 ^ (j - 1) = 2 ^ (52 + j) := by
        rw [← zpow_natCast, ← zpow_add₀ (by norm_num)]; congr 1; push_cast; ring
      rw [← h3]
      exact (mul_lt_mul_of_pos_right h1 (by positivity)).trans_le (mul_le_mul_of_nonneg_left h2 (by positivity))
    have key : |(roundHalfEven (x / 2 ^ j) : ℝ) * 2 ^ j - x| < |m * 2 ^ e - x| := by
      have h4 : (2:ℝ) ^ (52 + j) = 4503599627370496 * 2 ^ j := by rw [zpow_add₀ (by norm_num)]; norm_num
      rw [abs_lt] at hz
      rcases le_total 0 x with h0 | h0
      · rw [abs_of_nonneg h0] at hx
        have h5 := nearest_int (x / 2 ^ j) (2 ^ 52)
        have h6 := mul_le_mul_of_nonneg_right h5 hq.le
        rw [← scale, ← scale] at h6
        push_cast at h6
        rw [← h4, abs_of_nonpos (show (2:ℝ) ^ (52 + j) - x ≤ 0 by linarith)] at h6
        rw [abs_of_nonpos (show (m * 2 ^ e : ℝ) - x ≤ 0 by linarith)]
        linarith
      · rw [abs_of_nonpos h0] at hx
        have h5 := nearest_int (x / 2 ^ j) (-2 ^ 52)
        have h6 := mul_le_mul_of_nonneg_right h5 hq.le
        rw [← scale, ← scale] at h6
        push_cast at h6
        rw [neg_mul, ← h4, abs_of_nonneg (show 0 ≤ -(2:ℝ) ^ (52 + j) - x by linarith)] at h6
        rw [abs_of_nonneg (show 0 ≤ (m * 2 ^ e : ℝ) - x by linarith)]
        linarith
    exact ⟨key.le, fun _ he => absurd he key.ne'⟩

/-- The significand has at most 53 bits, or is `2 ^ 53`. -/
theorem significand_le (x : ℝ) (j : ℤ) (h : |x| < 2 ^ (53 + j)) : |roundHalfEven (x / 2 ^ j)| ≤ 2 ^ 53 := by
  have hq : (0:ℝ) < 2 ^ j := by positivity
  have h1 : |x / 2 ^ j| < 2 ^ 53 := by
    rw [abs_div, abs_of_pos hq, div_lt_iff₀ hq]
    rwa [zpow_add₀ (by norm_num), show ((2:ℝ) ^ (53:ℤ)) = 2 ^ 53 by norm_cast] at h
  have h2 := abs_roundHalfEven_sub_le (x / 2 ^ j)
  have h3 := abs_add_le ((roundHalfEven (x / 2 ^ j) : ℝ) - x / 2 ^ j) (x / 2 ^ j)
  rw [sub_add_cancel] at h3
  have h4 : |(roundHalfEven (x / 2 ^ j) : ℝ)| < 2 ^ 53 + 1 := by linarith
  have h5 : |roundHalfEven (x / 2 ^ j)| < 2 ^ 53 + 1 := by exact_mod_cast h4
  omega

/-- A significand `2 ^ 53` is `2 ^ 52` with the next exponent. -/
theorem normalise {N : ℤ} {j : ℤ} (h : |N| ≤ 2 ^ 53) :
    |N| < 2 ^ 53 ∨ ((N : ℝ) * 2 ^ j = ((N / 2 : ℤ) : ℝ) * 2 ^ (j + 1) ∧ Even (N / 2) ∧ |N / 2| < 2 ^ 53 ∧ |(N : ℝ) * 2 ^ j| = 2 ^ (53 + j)) := by
  rcases h.lt_or_eq with h | h
  · exact .inl h
  · right
    have e : (2:ℝ) ^ (j + 1) = 2 * 2 ^ j := by rw [zpow_add₀ (by norm_num)]; ring
    have e2 : (2:ℝ) ^ (53 + j) = 2 ^ 53 * 2 ^ j := by rw [zpow_add₀ (by norm_num)]; norm_cast
    have hN : |(N : ℝ)| = 2 ^ 53 := by exact_mod_cast h
    refine ⟨?_, ?_, ?_, ?_⟩
    · rw [e]
      have : N = N / 2 * 2 := by rcases abs_eq (by norm_num : (0:ℤ) ≤ 2 ^ 53) |>.mp h with h | h <;> rw [h] <;> norm_num
      conv_lhs => rw [this]
      push_cast; ring
    · rcases abs_eq (by norm_num : (0:ℤ) ≤ 2 ^ 53) |>.mp h with h | h <;> rw [h] <;> decide
    · rcases abs_eq (by norm_num : (0:ℤ) ≤ 2 ^ 53) |>.mp h with h | h <;> rw [h] <;> decide
    · rw [abs_mul, hN, abs_of_pos (show (0:ℝ) < 2 ^ j by positivity), e2]

/-- The exponent of the last bit that `roundDouble` keeps. -/
noncomputable def exponent (x : ℝ) : ℤ := max (Int.log 2 |x| + 1 - 53) (-1074)

theorem lastBit_eq (x : ℝ) : lastBit x = 2 ^ exponent x := by
  unfold lastBit exponent ulp
  rcases le_total (Int.log 2 |x| + 1 - 53) (-1074) with h | h
  · rw [max_eq_right h, max_eq_right]
    exact zpow_le_zpow_right₀ (by norm_num) (by exact_mod_cast h)
  · rw [max_eq_left h, max_eq_left]
    · norm_cast
    · exact zpow_le_zpow_right₀ (by norm_num) (by exact_mod_cast h)

theorem lt_exponent (x : ℝ) : |x| < 2 ^ (53 + exponent x) :=
  (lt_log x).trans_le (zpow_le_zpow_right₀ (by norm_num) (by unfold exponent; omega))

theorem exponent_le {x : ℝ} (h0 : x ≠ 0) {e : ℤ} (h : e < exponent x) (he : -1074 ≤ e) : (2:ℝ) ^ (52 + exponent x) ≤ |x| :=
  (zpow_le_zpow_right₀ (by norm_num) (by unfold exponent at *; omega)).trans (log_le h0)

theorem exponent_bound {x : ℝ} (h0 : x ≠ 0) (h : |x| < 2 ^ (1024 : ℤ)) : exponent x ≤ 971 := by
  have h1 := (log_le h0).trans_lt h
  have h2 := (zpow_lt_zpow_iff_right₀ (by norm_num : (1:ℝ) < 2)).mp h1
  unfold exponent
  omega

end Ieee

open Ieee

/-- C124: what `roundDouble` returns is a double, no double is nearer, and if another one is as near the result is even. -/
theorem C124_ieee (x y : ℝ) (h : roundDouble x = some y) :
    IsDouble y ∧ (∀ z, IsDouble z → |y - x| ≤ |z - x|) ∧ (∀ z, IsDouble z → z ≠ y → |z - x| = |y - x| → IsEvenDouble y) := by
  rcases eq_or_ne x 0 with rfl | h0
  · have : y = 0 := by
      rw [roundDouble_tiny (by rw [abs_zero]; positivity)] at h
      exact (Option.some.inj h).symm
    subst this
    refine ⟨⟨0, 0, by norm_num, by norm_num, by norm_num, by simp⟩, fun z _ => by simp, fun z _ _ _ => ⟨0, 0, by simp, by norm_num, by norm_num, by norm_num, by simp⟩⟩
  unfold roundDouble at h
  rw [lastBit_eq] at h
  split_ifs at h with hlt
  cases h
  have hN := significand_le x (exponent x) (lt_exponent x)
  have hmin : -1074 ≤ exponent x := le_max_right _ _
  have hx : |x| < 2 ^ (1024 : ℤ) := by
    by_contra hc
    push Not at hc
    have hlog : (1024 : ℤ) ≤ Int.log 2 |x| := by
      by_contra hl
      exact absurd (lt_log x) (not_lt.mpr ((zpow_le_zpow_right₀ (by norm_num) (by omega)).trans hc))
    have he : Int.log 2 |x| = 52 + exponent x := by unfold exponent; omega
    have h1 := (nearest_lattice x (exponent x) 0 0 (by norm_num) (.inr (by rw [← he]; exact log_le h0)))
    have hq : (0:ℝ) < 2 ^ exponent x := by positivity
    have e2 : (2:ℝ) ^ (52 + exponent x) = 2 ^ 52 * 2 ^ exponent x := by rw [zpow_add₀ (by norm_num)]; norm_cast
    have hb := log_le h0
    rw [he, e2] at hb
    have h3 : (2:ℝ) ^ 52 ≤ |x / 2 ^ exponent x| := by rw [abs_div, abs_of_pos hq, le_div_iff₀ hq]; exact hb
    have h4 : (2:ℤ) ^ 52 ≤ |roundHalfEven (x / 2 ^ exponent x)| := by
      have h5 := abs_roundHalfEven_sub_le (x / 2 ^ exponent x)
      rw [abs_sub_comm] at h5
      have h6 := abs_add_le (x / 2 ^ exponent x - (roundHalfEven (x / 2 ^ exponent x) : ℝ)) (roundHalfEven (x / 2 ^ exponent x) : ℝ)
      rw [sub_add_cancel] at h6
      have h7 : (2:ℝ) ^ 52 - 1 < |(roundHalfEven (x / 2 ^ exponent x) : ℝ)| := by linarith
      have h8 : (2:ℤ) ^ 52 - 1 < |roundHalfEven (x / 2 ^ exponent x)| := by exact_mod_cast h7
      omega
    have h9 : (2:ℝ) ^ 52 ≤ |(roundHalfEven (x / 2 ^ exponent x) : ℝ)| := by exact_mod_cast h4
    rw [abs_mul, abs_of_pos hq] at hlt
    have h10 := mul_le_mul_of_nonneg_right h9 hq.le
    rw [← e2, ← he] at h10
    have h11 : (2:ℝ) ^ (1024 : ℤ) ≤ 2 ^ Int.log 2 |x| := zpow_le_zpow_right₀ (by norm_num) hlog
    linarith
  have hmax := exponent_bound h0 hx
  have hnear : ∀ m e : ℤ, |m| < 2 ^ 53 → -1074 ≤ e → _ := fun m e hm he => nearest_lattice x (exponent x) m e hm (by
    rcases le_or_gt (exponent x) e with h | h
    · exact .inl h
    · exact .inr (exponent_le h0 h he))
  have hcase := normalise (j := exponent x) hN
  have hnext : |(roundHalfEven (x / 2 ^ exponent x) : ℝ) * 2 ^ exponent x| = 2 ^ (53 + exponent x) → exponent x + 1 ≤ 971 := by
    intro he
    rw [he] at hlt
    have := (zpow_lt_zpow_iff_right₀ (by norm_num : (1:ℝ) < 2)).mp hlt
    omega
  refine ⟨?_, ?_, ?_⟩
  · rcases hcase with hc | ⟨h1, h2, h3, h4⟩
    · exact ⟨_, _, hc, hmin, hmax, rfl⟩
    · exact ⟨_, _, h3, by omega, hnext h4, h1⟩
  · rintro z ⟨m, e, hm, he, _, rfl⟩
    exact (hnear m e hm he).1
  · rintro z ⟨m, e, hm, he, _, rfl⟩ hne heq
    have hev := (hnear m e hm he).2 hne heq
    rcases hcase with hc | ⟨h1, h2, h3, h4⟩
    · exact ⟨_, _, hev, hc, hmin, hmax, rfl⟩
    · exact ⟨_, _, h2, h3, by omega, hnext h4, h1⟩

theorem Ieee.some_small (x : ℝ) (h : |x| ≤ 2 ^ (1023 : ℤ)) : (roundDouble x).isSome := by
  rcases le_or_gt ((2:ℝ) ^ (-1022 : ℤ)) |x| with h1 | h1
  · rw [roundDouble_normal h1 h]; rfl
  · unfold roundDouble
    rw [if_pos]; · rfl
    have h2 := abs_add_le ((roundHalfEven (x / lastBit x) : ℝ) * lastBit x - x) x
    rw [sub_add_cancel] at h2
    have h3 := lastBit_error x
    have h4 : (2:ℝ) ^ (1024 : ℤ) = 2 * 2 ^ (1023 : ℤ) := by
      rw [show (1024 : ℤ) = 1 + 1023 by norm_num, zpow_add₀ (by norm_num)]; norm_num
    have h5 : (2:ℝ) ^ (-1022 : ℤ) < 2 ^ (1023 : ℤ) := zpow_lt_zpow_right₀ (by norm_num) (by norm_num)
    generalize (2:ℝ) ^ (1024 : ℤ) = v0 at *; generalize (2:ℝ) ^ (1023 : ℤ) = v1 at *; generalize (2:ℝ) ^ (-1022 : ℤ) = v2 at *
    linarith

/-- C124: it overflows exactly from the middle between the largest double and `2 ^ 1024` on. -/
theorem C124_ieee_overflow (x : ℝ) : roundDouble x = none ↔ 2 ^ (1024 : ℤ) - 2 ^ (970 : ℤ) ≤ |x| := by
  have e971 : (2:ℝ) ^ (1024 : ℤ) - 2 ^ (970 : ℤ) = (2 ^ 53 - 1 / 2) * 2 ^ (971 : ℤ) := by
    rw [show (1024 : ℤ) = 53 + 971 by norm_num, zpow_add₀ (by norm_num), show (2:ℝ) ^ (970 : ℤ) = 1 / 2 * 2 ^ (971 : ℤ) by
      rw [show (971 : ℤ) = 1 + 970 by norm_num, zpow_add₀ (by norm_num)]; ring]
    rw [sub_mul]; norm_cast
  have big : (2:ℝ) ^ (1023 : ℤ) ≤ 2 ^ (1024 : ℤ) - 2 ^ (970 : ℤ) := by
    have a : (2:ℝ) ^ (970 : ℤ) ≤ 2 ^ (1023 : ℤ) := zpow_le_zpow_right₀ (by norm_num) (by norm_num)
    have b : (2:ℝ) ^ (1024 : ℤ) = 2 * 2 ^ (1023 : ℤ) := by
      rw [show (1024 : ℤ) = 1 + 1023 by norm_num, zpow_add₀ (by norm_num)]; norm_num
    clear e971
    generalize (2:ℝ) ^ (970 : ℤ) = v0 at *; generalize (2:ℝ) ^ (1023 : ℤ) = v1 at *; generalize (2:ℝ) ^ (1024 : ℤ) = v2 at *
    linarith
  constructor
  · intro h
    by_contra hc
    push Not at hc
    rcases lt_or_ge |x| (2 ^ (1023 : ℤ)) with hs | hs
    · have hn := Ieee.some_small x hs.le
      rw [h] at hn
      exact absurd hn (by simp)
    · have hx0 : x ≠ 0 := by rintro rfl; rw [abs_zero] at hs; exact absurd hs (not_le.mpr (by positivity))
      have hl : Int.log 2 |x| = 1023 := log_eq hs (hc.trans (by
        have : (0:ℝ) < 2 ^ (970 : ℤ) := by positivity
        rw [show (1023 : ℤ) + 1 = 1024 by norm_num]; exact sub_lt_self _ this))
      have he : exponent x = 971 := by unfold exponent; rw [hl]; norm_num
      unfold roundDouble at h
      rw [lastBit_eq, he] at h
      split_ifs at h with hlt
      apply hlt
      have hq : (0:ℝ) < 2 ^ (971 : ℤ) := by positivity
      have h1 : |x / 2 ^ (971 : ℤ)| < 2 ^ 53 - 1 / 2 := by
        rw [abs_div, abs_of_pos hq, div_lt_iff₀ hq, ← e971]; exact hc
      have h2 := abs_roundHalfEven_sub_le (x / 2 ^ (971 : ℤ))
      have h3 := abs_add_le ((roundHalfEven (x / 2 ^ (971 : ℤ)) : ℝ) - x / 2 ^ (971 : ℤ)) (x / 2 ^ (971 : ℤ))
      rw [sub_add_cancel] at h3
      have h4 : |(roundHalfEven (x / 2 ^ (971 : ℤ)) : ℝ)| < 2 ^ 53 := by linarith
      rw [abs_mul, abs_of_pos hq, show (1024 : ℤ) = 53 + 971 by norm_num, zpow_add₀ (by norm_num),
        show (2:ℝ) ^ (53 : ℤ) = 2 ^ 53 by norm_cast]
      exact mul_lt_mul_of_pos_right h4 hq
  · intro h
    cases hr : roundDouble x with
    | none => rfl
    | some y =>
      exfalso
      obtain ⟨⟨m, e, hm, he, he2, hy⟩, hnear, heven⟩ := C124_ieee x y hr
      have hle : |y| ≤ (2 ^ 53 - 1) * 2 ^ (971 : ℤ) := by
        rw [hy, abs_mul, abs_of_pos (show (0:ℝ) < 2 ^ e by positivity)]
        have h1 : |(m : ℝ)| ≤ 2 ^ 53 - 1 := by
          have : |m| ≤ 2 ^ 53 - 1 := by omega
          exact_mod_cast this
        exact mul_le_mul h1 (zpow_le_zpow_right₀ (by norm_num) he2) (by positivity) (by norm_num)
      have hx : |x| < 2 ^ (1024 : ℤ) ∨ 2 ^ (1024 : ℤ) ≤ |x| := lt_or_ge _ _
      have hx0 : x ≠ 0 := by
        rintro rfl
        rw [abs_zero] at h
        have : (0:ℝ) < 2 ^ (1023 : ℤ) := by positivity
        exact absurd (big.trans h) (not_le.mpr this)
      have hq : (0:ℝ) < 2 ^ (971 : ℤ) := by positivity
      unfold roundDouble at hr
      rw [lastBit_eq] at hr
      split_ifs at hr with hlt
      have hlog : (1023 : ℤ) ≤ Int.log 2 |x| := by
        by_contra hl
        exact absurd (lt_log x) (not_lt.mpr ((zpow_le_zpow_right₀ (by norm_num) (by omega)).trans (big.trans h)))
      have hee : Int.log 2 |x| = 52 + exponent x := by unfold exponent; omega
      have hup : (971 : ℤ) ≤ exponent x := by omega
      have hp : (0:ℝ) < 2 ^ exponent x := by positivity
      -- the significand is below 2 ^ 53, because the result is not too large
      have hlow : (2:ℝ) ^ 52 ≤ |x / 2 ^ exponent x| := by
        have hb := log_le hx0
        rw [hee, zpow_add₀ (by norm_num), show (2:ℝ) ^ (52 : ℤ) = 2 ^ 52 by norm_cast] at hb
        rw [abs_div, abs_of_pos hp, le_div_iff₀ hp]; exact hb
      have h5 := abs_roundHalfEven_sub_le (x / 2 ^ exponent x)
      have h5' := h5
      rw [abs_sub_comm] at h5
      have h6 := abs_add_le (x / 2 ^ exponent x - (roundHalfEven (x / 2 ^ exponent x) : ℝ)) (roundHalfEven (x / 2 ^ exponent x) : ℝ)
      rw [sub_add_cancel] at h6
      rw [abs_mul, abs_of_pos hp] at hlt
      rcases hup.eq_or_lt with hu | hu
      · rw [← hu] at h5 h5' h6 hlt hlow
        have h7 : (2:ℝ) ^ 53 - 1 / 2 ≤ |x / 2 ^ (971 : ℤ)| := by
          rw [abs_div, abs_of_pos hq, le_div_iff₀ hq, ← e971]; exact h
        have h8 : |(roundHalfEven (x / 2 ^ (971 : ℤ)) : ℝ)| < 2 ^ 53 := by
          rw [show (1024 : ℤ) = 53 + 971 by norm_num, zpow_add₀ (by norm_num), show (2:ℝ) ^ (53 : ℤ) = 2 ^ 53 by norm_cast] at hlt
          exact lt_of_mul_lt_mul_right hlt hq.le
        have h9 : |roundHalfEven (x / 2 ^ (971 : ℤ))| < 2 ^ 53 := by exact_mod_cast h8
        have h10 : (2:ℝ) ^ 53 - 1 ≤ |(roundHalfEven (x / 2 ^ (971 : ℤ)) : ℝ)| := by linarith
        have h11 : (2:ℤ) ^ 53 - 1 ≤ |roundHalfEven (x / 2 ^ (971 : ℤ))| := by exact_mod_cast h10
        have h12 : |roundHalfEven (x / 2 ^ (971 : ℤ))| = 2 ^ 53 - 1 := by omega
        have h13 : |(roundHalfEven (x / 2 ^ (971 : ℤ)) : ℝ)| = 2 ^ 53 - 1 := by exact_mod_cast h12
        have hodd : ¬ Even (roundHalfEven (x / 2 ^ (971 : ℤ))) := by
          rw [Int.even_iff]
          rcases abs_eq (by norm_num : (0:ℤ) ≤ 2 ^ 53 - 1) |>.mp h12 with h | h <;> rw [h] <;> decide
        generalize x / 2 ^ (971 : ℤ) = t at *
        rcases le_total 0 (roundHalfEven t : ℝ) with hs | hs
        · rw [abs_of_nonneg hs] at h13
          have ht : t = 2 ^ 53 - 1 / 2 := by
            rw [abs_le] at h5
            have : 0 ≤ t := by linarith
            rw [abs_of_nonneg this] at h7
            linarith [h5.2]
          apply hodd
          refine even_int t (2 ^ 53) ?_ ?_
          · intro hc
            have : (roundHalfEven t : ℝ) = 2 ^ 53 := by rw [← hc]; norm_cast
            linarith
          · rw [h13, ht]; norm_num
        · rw [abs_of_nonpos hs] at h13
          have ht : t = -(2 ^ 53 - 1 / 2) := by
            rw [abs_le] at h5
            have : t ≤ 0 := by linarith
            rw [abs_of_nonpos this] at h7
            linarith [h5.1]
          apply hodd
          refine even_int t (-2 ^ 53) ?_ ?_
          · intro hc
            have : (roundHalfEven t : ℝ) = -2 ^ 53 := by rw [← hc]; norm_cast
            linarith
          · rw [show (roundHalfEven t : ℝ) = -(2 ^ 53 - 1) by linarith, ht]; norm_num
      · have h7 : (2:ℝ) ^ 52 - 1 < |(roundHalfEven (x / 2 ^ exponent x) : ℝ)| := by linarith
        have h8 : (2:ℤ) ^ 52 - 1 < |roundHalfEven (x / 2 ^ exponent x)| := by exact_mod_cast h7
        have h9 : (2:ℤ) ^ 52 ≤ |roundHalfEven (x / 2 ^ exponent x)| := by omega
        have h10 : (2:ℝ) ^ 52 ≤ |(roundHalfEven (x / 2 ^ exponent x) : ℝ)| := by exact_mod_cast h9
        have h11 : (2:ℝ) ^ (972 : ℤ) ≤ 2 ^ exponent x := zpow_le_zpow_right₀ (by norm_num) (by omega)
        have h12 : (2:ℝ) ^ (1024 : ℤ) = 2 ^ 52 * 2 ^ (972 : ℤ) := by
          rw [show (1024 : ℤ) = 52 + 972 by norm_num, zpow_add₀ (by norm_num), show (2:ℝ) ^ (52 : ℤ) = 2 ^ 52 by norm_cast]
        have := mul_le_mul h10 h11 (by positivity) (abs_nonneg _)
        rw [← h12] at this
        exact absurd hlt (not_lt.mpr this)

/-- C124: without limits of the exponent, rounding returns the nearest number of 53 bits, and the even one of two. -/
theorem C124_ieee_unlimited (x : ℝ) :
    IsBits (float.rnd x) ∧ (∀ z, IsBits z → |float.rnd x - x| ≤ |z - x|) ∧
    (∀ z, IsBits z → z ≠ float.rnd x → |z - x| = |float.rnd x - x| → IsEvenBits (float.rnd x)) := by
  show IsBits (roundBits 53 x) ∧ (∀ z, IsBits z → |roundBits 53 x - x| ≤ |z - x|) ∧
    (∀ z, IsBits z → z ≠ roundBits 53 x → |z - x| = |roundBits 53 x - x| → IsEvenBits (roundBits 53 x))
  rcases eq_or_ne x 0 with rfl | h0
  · rw [roundBits_zero]
    exact ⟨⟨0, 0, by norm_num, by simp⟩, fun z _ => by simp, fun z _ _ _ => ⟨0, 0, by simp, by norm_num, by simp⟩⟩
  have hu : roundBits 53 x = (roundHalfEven (x / 2 ^ (Int.log 2 |x| + 1 - 53)) : ℝ) * 2 ^ (Int.log 2 |x| + 1 - 53) := by
    unfold roundBits ulp; norm_cast
  rw [hu]
  have hN := significand_le x (Int.log 2 |x| + 1 - 53) (by
    rw [show 53 + (Int.log 2 |x| + 1 - 53) = Int.log 2 |x| + 1 by ring]; exact lt_log x)
  have hcase := normalise (j := Int.log 2 |x| + 1 - 53) hN
  have hnear : ∀ m e : ℤ, |m| < 2 ^ 53 → _ := fun m e hm => nearest_lattice x (Int.log 2 |x| + 1 - 53) m e hm (.inr (by
    rw [show 52 + (Int.log 2 |x| + 1 - 53) = Int.log 2 |x| by ring]; exact log_le h0))
  refine ⟨?_, ?_, ?_⟩
  · rcases hcase with hc | ⟨h1, h2, h3, h4⟩
    · exact ⟨_, _, hc, rfl⟩
    · exact ⟨_, _, h3, h1⟩
  · rintro z ⟨m, e, hm, rfl⟩
    exact (hnear m e hm).1
  · rintro z ⟨m, e, hm, rfl⟩ hne heq
    have hev := (hnear m e hm).2 hne heq
    rcases hcase with hc | ⟨h1, h2, h3, h4⟩
    · exact ⟨_, _, hev, hc, rfl⟩
    · exact ⟨_, _, h2, h3, h1⟩

/-- One tenth is rounded to some double. -/
example : ∃ y, roundDouble (1 / 10) = some y :=
  Option.isSome_iff_exists.mp (some_small _ (by
    have : (1:ℝ) ≤ 2 ^ (1023 : ℤ) := one_le_zpow₀ (by norm_num) (by norm_num)
    rw [abs_of_pos (by norm_num)]
    exact le_trans (by norm_num) this))

/-- `2 ^ 53 + 1` is in the middle of two doubles. -/
example : IsDouble (2 ^ 53) ∧ IsDouble (2 ^ 53 + 2) ∧ |(2 ^ 53 : ℝ) - (2 ^ 53 + 1)| = |(2 ^ 53 + 2 : ℝ) - (2 ^ 53 + 1)| :=
  ⟨⟨2 ^ 52, 1, by norm_num, by norm_num, by norm_num, by norm_num⟩, ⟨2 ^ 52 + 1, 1, by norm_num, by norm_num, by norm_num, by norm_num⟩, by norm_num⟩

end PathLib
