import Verif.Spec.Rounding
import Verif.Lemmas.Transform
import Mathlib.Data.Int.Log
import Mathlib.Algebra.Order.Archimedean.Real.Basic

/-!
# Rounding to `p` significant bits
-/

namespace PathLib

open Spec Transform

/-- The value of the last bit of a number of the magnitude of `x`, with `p` significant bits. -/
noncomputable def ulp (p : ℕ) (x : ℝ) : ℝ := 2 ^ (Int.log 2 |x| + 1 - p)

/-- `x` rounded to `p` significant bits, ties to even: the rounding of IEEE 754 without limits of the exponent. -/
noncomputable def roundBits (p : ℕ) (x : ℝ) : ℝ := (roundHalfEven (x / ulp p x) : ℝ) * ulp p x

theorem roundHalfEven_mono {x y : ℝ} (h : x ≤ y) : roundHalfEven x ≤ roundHalfEven y := by
  have hf : ⌊x⌋ ≤ ⌊y⌋ := Int.floor_le_floor h
  have a := Int.floor_le x
  have b := Int.lt_floor_add_one x
  have c := Int.floor_le y
  have d := Int.lt_floor_add_one y
  rcases hf.eq_or_lt with e | hlt
  · unfold roundHalfEven
    rw [e] at a b ⊢
    simp only
    split_ifs <;> first | omega | (exfalso; linarith)
  · have h1 : roundHalfEven x ≤ ⌊x⌋ + 1 := by
      unfold roundHalfEven; simp only; split_ifs <;> omega
    have h2 : ⌊y⌋ ≤ roundHalfEven y := by
      unfold roundHalfEven; simp only; split_ifs <;> omega
    omega

theorem ulp_pos (p : ℕ) (x : ℝ) : 0 < ulp p x := by unfold ulp; positivity

theorem roundBits_zero (p : ℕ) : roundBits p 0 = 0 := by
  unfold roundBits
  have := roundHalfEven_int 0
  simp at this
  simp [this]

theorem log_eq {r : ℝ} {k : ℤ} (h0 : (2:ℝ) ^ k ≤ r) (h1 : r < (2:ℝ) ^ (k + 1)) : Int.log 2 r = k := by
  have hr : 0 < r := lt_of_lt_of_le (by positivity) h0
  have a := (Int.zpow_le_iff_le_log (b := 2) (by norm_num) hr).mp (by exact_mod_cast h0)
  have b := (Int.lt_zpow_iff_log_lt (b := 2) (by norm_num) hr).mp (by exact_mod_cast h1)
  omega

theorem log_le {x : ℝ} (h : x ≠ 0) : (2:ℝ) ^ Int.log 2 |x| ≤ |x| := by
  exact_mod_cast Int.zpow_log_le_self (b := 2) (by norm_num) (abs_pos.mpr h)

theorem lt_log (x : ℝ) : |x| < (2:ℝ) ^ (Int.log 2 |x| + 1) := by
  exact_mod_cast Int.lt_zpow_succ_log_self (b := 2) (by norm_num) |x|

theorem roundBits_error (p : ℕ) (x : ℝ) : |roundBits p x - x| ≤ 2 ^ (-(p : ℤ)) * |x| := by
  by_cases h : x = 0
  · subst h; rw [roundBits_zero]; simp
  have hu := ulp_pos p x
  have e : roundBits p x - x = ((roundHalfEven (x / ulp p x) : ℝ) - x / ulp p x) * ulp p x := by
    unfold roundBits; field_simp
  rw [e, abs_mul, abs_of_pos hu]
  have h1 := mul_le_mul_of_nonneg_right (abs_roundHalfEven_sub_le (x / ulp p x)) hu.le
  refine h1.trans ?_
  have h2 : 1 / 2 * ulp p x = 2 ^ (-(p : ℤ)) * 2 ^ Int.log 2 |x| := by
    unfold ulp
    rw [← zpow_add₀ (by norm_num), show Int.log 2 |x| + 1 - (p : ℤ) = (-(p : ℤ) + Int.log 2 |x|) + 1 by ring,
      zpow_add_one₀ (by norm_num)]
    ring
  rw [h2]
  exact mul_le_mul_of_nonneg_left (log_le h) (by positivity)

/-- Where the result of rounding lies. -/
theorem roundBits_range (p : ℕ) (hp : 1 ≤ p) {x : ℝ} (h : x ≠ 0) :
    (0 < x → 2 ^ Int.log 2 |x| ≤ roundBits p x ∧ roundBits p x ≤ 2 ^ (Int.log 2 |x| + 1)) ∧
    (x < 0 → -2 ^ (Int.log 2 |x| + 1) ≤ roundBits p x ∧ roundBits p x ≤ -2 ^ Int.log 2 |x|) := by
  have hu := ulp_pos p x
  have lo := log_le h
  have hi := lt_log x
  have e1 : (2:ℝ) ^ Int.log 2 |x| = ((2 ^ (p - 1) : ℤ) : ℝ) * ulp p x := by
    unfold ulp
    push_cast
    rw [← zpow_natCast, ← zpow_add₀ (by norm_num)]
    congr 1
    omega
  have e2 : (2:ℝ) ^ (Int.log 2 |x| + 1) = ((2 ^ p : ℤ) : ℝ) * ulp p x := by
    unfold ulp
    push_cast
    rw [← zpow_natCast, ← zpow_add₀ (by norm_num)]
    congr 1
    omega
  rw [e1] at lo
  rw [e2] at hi
  unfold roundBits
  rw [e1, e2]
  have key : ∀ (m : ℤ), (m : ℝ) ≤ x / ulp p x → (m : ℝ) * ulp p x ≤ (roundHalfEven (x / ulp p x) : ℝ) * ulp p x := by
    intro m hm
    have := roundHalfEven_mono hm
    rw [roundHalfEven_int] at this
    exact mul_le_mul_of_nonneg_right (by exact_mod_cast this) hu.le
  have key' : ∀ (m : ℤ), x / ulp p x ≤ (m : ℝ) → (roundHalfEven (x / ulp p x) : ℝ) * ulp p x ≤ (m : ℝ) * ulp p x := by
    intro m hm
    have := roundHalfEven_mono hm
    rw [roundHalfEven_int] at this
    exact mul_le_mul_of_nonneg_right (by exact_mod_cast this) hu.le
  constructor
  · intro hx
    rw [abs_of_pos hx] at lo hi
    exact ⟨key _ ((le_div_iff₀ hu).mpr lo), key' _ ((div_le_iff₀ hu).mpr hi.le)⟩
  · intro hx
    rw [abs_of_neg hx] at lo hi
    have a := key (-2 ^ p) ((le_div_iff₀ hu).mpr (by push_cast at hi ⊢; linarith))
    have b := key' (-2 ^ (p - 1)) ((div_le_iff₀ hu).mpr (by push_cast at lo ⊢; linarith))
    push_cast at a b ⊢
    constructor <;> linarith

theorem roundBits_mono (p : ℕ) (hp : 1 ≤ p) {x y : ℝ} (h : x ≤ y) : roundBits p x ≤ roundBits p y := by
  have same : ulp p x = ulp p y → roundBits p x ≤ roundBits p y := by
    intro e
    unfold roundBits
    rw [e]
    have hu := ulp_pos p y
    have := roundHalfEven_mono (div_le_div_of_nonneg_right h hu.le)
    exact mul_le_mul_of_nonneg_right (by exact_mod_cast this) hu.le
  have pw : ∀ a b : ℤ, a ≤ b → (2:ℝ) ^ a ≤ 2 ^ b := fun a b hab => zpow_le_zpow_right₀ (by norm_num) hab
  have pp : ∀ a : ℤ, (0:ℝ) < 2 ^ a := fun a => by positivity
  rcases lt_trichotomy x 0 with hx | rfl | hx
  · have rx := (roundBits_range p hp hx.ne).2 hx
    rcases lt_trichotomy y 0 with hy | rfl | hy
    · have ry := (roundBits_range p hp hy.ne).2 hy
      have hl : Int.log 2 |y| ≤ Int.log 2 |x| := Int.log_mono_right (abs_pos.mpr hy.ne) (by
        rw [abs_of_neg hx, abs_of_neg hy]; linarith)
      rcases hl.eq_or_lt with e | hlt
      · exact same (by unfold ulp; rw [e])
      · have := pw _ _ (show Int.log 2 |y| + 1 ≤ Int.log 2 |x| by omega)
        linarith
    · rw [roundBits_zero]; linarith [pp (Int.log 2 |x|)]
    · have ry := (roundBits_range p hp hy.ne').1 hy
      linarith [pp (Int.log 2 |x|), pp (Int.log 2 |y|)]
  · rw [roundBits_zero]
    rcases h.eq_or_lt with rfl | hy
    · rw [roundBits_zero]
    · have ry := (roundBits_range p hp hy.ne').1 hy
      linarith [pp (Int.log 2 |y|)]
  · have hy : 0 < y := by linarith
    have rx := (roundBits_range p hp hx.ne').1 hx
    have ry := (roundBits_range p hp hy.ne').1 hy
    have hl : Int.log 2 |x| ≤ Int.log 2 |y| := Int.log_mono_right (abs_pos.mpr hx.ne') (by
      rw [abs_of_pos hx, abs_of_pos hy]; linarith)
    rcases hl.eq_or_lt with e | hlt
    · exact same (by unfold ulp; rw [e])
    · have := pw _ _ (show Int.log 2 |x| + 1 ≤ Int.log 2 |y| by omega)
      linarith

/-- Whole multiples of the last bit are not changed. -/
theorem roundBits_of_int (p : ℕ) (x : ℝ) (m : ℤ) (h : x = m * ulp p x) : roundBits p x = x := by
  have hu := ulp_pos p x
  have e : x / ulp p x = m := by rw [div_eq_iff hu.ne']; exact h
  unfold roundBits
  rw [e, roundHalfEven_int]
  exact h.symm

theorem roundBits_double (p : ℕ) (x : ℝ) : roundBits p (2 * x) = 2 * roundBits p x := by
  by_cases h : x = 0
  · subst h; simp [roundBits_zero]
  have hl : Int.log 2 |2 * x| = Int.log 2 |x| + 1 := by
    rw [abs_mul, abs_two]
    apply log_eq
    · rw [zpow_add_one₀ (by norm_num)]
      linarith [log_le h]
    · rw [zpow_add_one₀ (by norm_num)]
      linarith [lt_log x]
  have hu : ulp p (2 * x) = 2 * ulp p x := by
    unfold ulp
    rw [hl, show Int.log 2 |x| + 1 + 1 - (p : ℤ) = (Int.log 2 |x| + 1 - p) + 1 by ring, zpow_add_one₀ (by norm_num)]
    ring
  unfold roundBits
  rw [hu, mul_div_mul_left _ _ (by norm_num)]
  ring

theorem roundBits_idem (p : ℕ) (hp : 1 ≤ p) (x : ℝ) : roundBits p (roundBits p x) = roundBits p x := by
  by_cases h : x = 0
  · subst h; simp [roundBits_zero]
  have hu := ulp_pos p x
  have hr := roundBits_range p hp h
  set y := roundBits p x with hy
  have hym : y = (roundHalfEven (x / ulp p x) : ℝ) * ulp p x := hy
  have hyabs : 2 ^ Int.log 2 |x| ≤ |y| ∧ |y| ≤ 2 ^ (Int.log 2 |x| + 1) := by
    have pp : (0:ℝ) < 2 ^ Int.log 2 |x| := by positivity
    rcases lt_or_gt_of_ne h with hx | hx
    · have := hr.2 hx
      rw [abs_of_neg (a := y) (by linarith)]; constructor <;> linarith
    · have := hr.1 hx
      rw [abs_of_pos (a := y) (by linarith)]; exact this
  rcases hyabs.2.eq_or_lt with e | hlt
  · have hl : Int.log 2 |y| = Int.log 2 |x| + 1 := log_eq e.ge (by
      rw [e]; exact zpow_lt_zpow_right₀ (by norm_num) (by omega))
    have e1 : |y| = ((2 ^ (p - 1) : ℤ) : ℝ) * ulp p y := by
      unfold ulp
      push_cast
      rw [← zpow_natCast, ← zpow_add₀ (by norm_num), hl, e]
      congr 1
      omega
    rcases abs_choice y with hc | hc
    · rw [hc] at e1; exact roundBits_of_int p y _ e1
    · rw [hc] at e1; exact roundBits_of_int p y (-2 ^ (p - 1)) (by push_cast at e1 ⊢; linarith)
  · have hl : Int.log 2 |y| = Int.log 2 |x| := log_eq hyabs.1 hlt
    exact roundBits_of_int p y _ (by rw [show ulp p y = ulp p x by unfold ulp; rw [hl]]; exact hym)

theorem roundBits_one (p : ℕ) (hp : 1 ≤ p) : roundBits p 1 = 1 := by
  apply roundBits_of_int p 1 (2 ^ (p - 1))
  unfold ulp
  push_cast
  rw [abs_one, Int.log_one_right, ← zpow_natCast, ← zpow_add₀ (by norm_num), show ((p - 1 : ℕ) : ℤ) + (0 + 1 - (p : ℤ)) = 0 by omega]
  simp

/-- Integers of at most `p` bits, times a power of two, are not changed. -/
theorem roundBits_repr (p : ℕ) (hp : 1 ≤ p) (m e : ℤ) (h : |m| ≤ 2 ^ p) : roundBits p (m * 2 ^ e) = m * 2 ^ e := by
  by_cases hm : m = 0
  · subst hm; simp [roundBits_zero]
  have hm' : (m : ℝ) ≠ 0 := by exact_mod_cast hm
  have hR : |(m : ℝ)| ≤ 2 ^ (p : ℤ) := by
    rw [zpow_natCast]
    exact_mod_cast h
  have lo := log_le hm'
  have hi := lt_log (m : ℝ)
  have hle : Int.log 2 |(m : ℝ)| ≤ p := by
    have := lo.trans hR
    exact (zpow_le_zpow_iff_right₀ (by norm_num)).mp this
  have hlog : Int.log 2 |(m : ℝ) * 2 ^ e| = Int.log 2 |(m : ℝ)| + e := by
    have pe : (0:ℝ) < 2 ^ e := by positivity
    rw [abs_mul, abs_of_pos pe]
    apply log_eq
    · rw [zpow_add₀ (by norm_num)]
      exact mul_le_mul_of_nonneg_right lo pe.le
    · rw [show Int.log 2 |(m : ℝ)| + e + 1 = Int.log 2 |(m : ℝ)| + 1 + e by ring, zpow_add₀ (by norm_num)]
      exact mul_lt_mul_of_pos_right hi pe
  have hulp : ulp p (m * 2 ^ e) = 2 ^ (Int.log 2 |(m : ℝ)| + 1 - p) * 2 ^ e := by
    unfold ulp
    rw [hlog, ← zpow_add₀ (by norm_num)]
    congr 1
    ring
  rcases hle.eq_or_lt with he | hlt
  · have habs : |(m : ℝ)| = 2 ^ (p : ℤ) := le_antisymm hR (by rw [← he]; exact lo)
    have e1 : (2:ℝ) ^ (p : ℤ) = ((2 ^ (p - 1) : ℤ) : ℝ) * 2 ^ (Int.log 2 |(m : ℝ)| + 1 - p) := by
      push_cast
      rw [← zpow_natCast (2:ℝ) (p - 1), ← zpow_add₀ (by norm_num), he]
      congr 1
      omega
    rcases abs_choice (m : ℝ) with hc | hc
    · apply roundBits_of_int p _ (2 ^ (p - 1))
      rw [hulp, ← mul_assoc, ← e1, ← habs, hc]
    · apply roundBits_of_int p _ (-2 ^ (p - 1))
      rw [hulp, ← mul_assoc]
      congr 1
      push_cast at e1 ⊢
      rw [neg_mul, ← e1, ← habs, hc, neg_neg]
  · have h0 : 0 ≤ Int.log 2 |(m : ℝ)| := by
      have : (1:ℝ) ≤ |(m : ℝ)| := by exact_mod_cast Int.one_le_abs hm
      have := Int.log_mono_right (b := 2) (by norm_num) this
      rwa [Int.log_one_right] at this
    obtain ⟨n, hn⟩ := Int.eq_ofNat_of_zero_le (show 0 ≤ (p : ℤ) - 1 - Int.log 2 |(m : ℝ)| by omega)
    apply roundBits_of_int p _ (m * 2 ^ n)
    rw [hulp]
    push_cast
    rw [← mul_assoc, mul_assoc (m : ℝ), ← zpow_natCast, ← zpow_add₀ (by norm_num),
      show (n : ℤ) + (Int.log 2 |(m : ℝ)| + 1 - p) = 0 by omega]
    simp

/-- Rounding a number close to a multiple of the last bit. -/
theorem roundBits_near (p : ℕ) (x : ℝ) (e m : ℤ) (h0 : (2:ℝ) ^ e ≤ |x|) (h1 : |x| < 2 ^ (e + 1))
    (h : |x - m * 2 ^ (e + 1 - p)| < 2 ^ (e + 1 - p) / 2) : roundBits p x = m * 2 ^ (e + 1 - p) := by
  have hu : ulp p x = 2 ^ (e + 1 - p) := by unfold ulp; rw [log_eq h0 h1]
  have hp := ulp_pos p x
  unfold roundBits
  rw [← hu] at h ⊢
  congr 2
  have d : |x / ulp p x - m| < 1 / 2 := by
    rw [show x / ulp p x - m = (x - m * ulp p x) / ulp p x by field_simp, abs_div, abs_of_pos hp, div_lt_iff₀ hp]
    linarith
  have r := abs_roundHalfEven_sub_le (x / ulp p x)
  have : |((roundHalfEven (x / ulp p x) - m : ℤ) : ℝ)| < 1 := by
    push_cast
    have := abs_add_le ((roundHalfEven (x / ulp p x) : ℝ) - x / ulp p x) (x / ulp p x - m)
    rw [sub_add_sub_cancel] at this
    linarith
  have : |roundHalfEven (x / ulp p x) - m| < 1 := by exact_mod_cast this
  rw [Int.abs_lt_one_iff] at this
  omega

/-- Rounding to `p + 1` significant bits, ties to even, as a rounding with relative error `2 ^ -(p + 1)`. Python's `float` is
`binary 52`, apart from overflow and underflow. -/
noncomputable def binary (p : ℕ) : Binary where
  rnd := roundBits (p + 1)
  u := 2 ^ (-((p + 1 : ℕ) : ℤ))
  u_nonneg := by positivity
  error := roundBits_error (p + 1)
  mono := fun _ _ h => roundBits_mono (p + 1) (by omega) h
  idem := roundBits_idem (p + 1) (by omega)
  one := roundBits_one (p + 1) (by omega)
  double := roundBits_double (p + 1)

/-- Rounding to two bits does round: 5 becomes 4 (the tie goes to the even one) and 7 becomes 8. -/
example : (binary 1).rnd 5 = 4 ∧ (binary 1).rnd 7 = 8 := by
  have hl : ∀ x : ℝ, 4 ≤ x → x < 8 → ulp 2 x = 2 := by
    intro x h0 h1
    unfold ulp
    rw [abs_of_pos (by linarith), log_eq (k := 2) (by norm_num; linarith) (by norm_num; linarith)]
    norm_num
  have h5 : (roundHalfEven (5 / 2) : ℤ) = 2 := by
    have : ⌊(5 / 2 : ℝ)⌋ = 2 := by rw [Int.floor_eq_iff]; norm_num
    unfold roundHalfEven
    simp only [this]
    norm_num
  have h7 : (roundHalfEven (7 / 2) : ℤ) = 4 := by
    have : ⌊(7 / 2 : ℝ)⌋ = 3 := by rw [Int.floor_eq_iff]; norm_num
    unfold roundHalfEven
    simp only [this]
    norm_num
  constructor
  · show roundBits 2 5 = 4
    unfold roundBits
    rw [hl 5 (by norm_num) (by norm_num), h5]; norm_num
  · show roundBits 2 7 = 8
    unfold roundBits
    rw [hl 7 (by norm_num) (by norm_num), h7]; norm_num

end PathLib
