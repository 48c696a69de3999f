import Verif.Spec.Rounding
import Mathlib.Analysis.Real.Sqrt
import Mathlib.Tactic.NormNum.Abs

/-!
# Relative errors

For products, quotients and square roots the relative error is what accumulates: `Rel k x y` says that `y` is `x` times a factor
of at least `(1 - u) ^ k` and at most `1 / (1 - u) ^ k`.
-/

namespace PathLib.Spec.Rounding

variable (R : Rounding)

/-- `y` is `x` up to `k` relative rounding errors. -/
def Rel (k : ℕ) (x y : ℝ) : Prop := ∃ ρ, y = x * ρ ∧ (1 - R.u) ^ k ≤ ρ ∧ ρ * (1 - R.u) ^ k ≤ 1

variable {R} (hu : R.u < 1)
include hu

private theorem base : 0 < 1 - R.u ∧ 1 - R.u ≤ 1 := ⟨by linarith, by linarith [R.u_nonneg]⟩

theorem pow_base (k : ℕ) : 0 < (1 - R.u) ^ k ∧ (1 - R.u) ^ k ≤ 1 :=
  ⟨pow_pos (base hu).1 k, pow_le_one₀ (base hu).1.le (base hu).2⟩

theorem gap_nonneg (k : ℕ) : 0 ≤ R.gap k := by
  unfold gap
  have := one_le_one_div (pow_base hu k).1 (pow_base hu k).2
  linarith

theorem gap_mono {k l : ℕ} (h : k ≤ l) : R.gap k ≤ R.gap l := by
  unfold gap
  have := one_div_le_one_div_of_le (pow_base hu l).1 (pow_le_pow_of_le_one (base hu).1.le (base hu).2 h)
  linarith

/-- One more rounding of a number with absolute error `gap k` relative to one. -/
theorem gap_succ (k : ℕ) : R.gap k + R.u * (1 + R.gap k) ≤ R.gap (k + 1) := by
  unfold gap
  have p := (pow_base hu k).1
  have b := (base hu).1
  have e : 1 / (1 - R.u) ^ (k + 1) = 1 / (1 - R.u) ^ k * (1 / (1 - R.u)) := by
    rw [pow_succ]; field_simp
  have h : 1 + R.u ≤ 1 / (1 - R.u) := by
    rw [le_div_iff₀ b]; nlinarith [R.u_nonneg]
  have := mul_le_mul_of_nonneg_left h (one_div_pos.mpr p).le
  rw [← e] at this
  linarith

omit hu in
theorem Rel.refl (x : ℝ) : R.Rel 0 x x := ⟨1, by simp, by simp, by simp⟩

theorem Rel.mono {k l : ℕ} {x y : ℝ} (h : R.Rel k x y) (hk : k ≤ l) : R.Rel l x y := by
  obtain ⟨ρ, e, a, b⟩ := h
  have hp := pow_le_pow_of_le_one (base hu).1.le (base hu).2 hk
  have h0 : 0 ≤ ρ := (pow_base hu k).1.le.trans a
  exact ⟨ρ, e, hp.trans a, (mul_le_mul_of_nonneg_left hp h0).trans b⟩

/-- The error of one rounding. -/
theorem Rel.rnd (x : ℝ) : R.Rel 1 x (R.rnd x) := by
  by_cases h : x = 0
  · subst h
    rw [R.rnd_zero]
    exact (Rel.refl 0).mono hu (by omega)
  · have e := R.error x
    have hx : 0 < |x| := abs_pos.mpr h
    have h1 : |R.rnd x / x - 1| ≤ R.u := by
      rw [show R.rnd x / x - 1 = (R.rnd x - x) / x by field_simp, abs_div, div_le_iff₀ hx]
      exact e
    rw [abs_le] at h1
    have b := base hu
    refine ⟨R.rnd x / x, by field_simp, by rw [pow_one]; linarith, ?_⟩
    rw [pow_one]
    have := mul_le_mul_of_nonneg_right (show R.rnd x / x ≤ 1 + R.u by linarith) b.1.le
    nlinarith [R.u_nonneg]

theorem Rel.trans {k l : ℕ} {x y z : ℝ} (h : R.Rel k x y) (h' : R.Rel l y z) : R.Rel (k + l) x z := by
  obtain ⟨ρ, e, a, b⟩ := h
  obtain ⟨σ, e', a', b'⟩ := h'
  have pk := (pow_base hu k).1
  have pl := (pow_base hu l).1
  refine ⟨ρ * σ, by rw [e', e]; ring, ?_, ?_⟩
  · rw [pow_add]; exact mul_le_mul a a' pl.le (pk.le.trans a)
  · rw [pow_add, show ρ * σ * ((1 - R.u) ^ k * (1 - R.u) ^ l) = (ρ * (1 - R.u) ^ k) * (σ * (1 - R.u) ^ l) by ring]
    exact mul_le_one₀ b (mul_nonneg (pl.le.trans a') pl.le) b'

theorem Rel.round {k : ℕ} {x y : ℝ} (h : R.Rel k x y) : R.Rel (k + 1) x (R.rnd y) := h.trans hu (Rel.rnd hu y)

omit hu in
theorem Rel.neg {k : ℕ} {x y : ℝ} (h : R.Rel k x y) : R.Rel k (-x) (-y) := by
  obtain ⟨ρ, e, a, b⟩ := h
  exact ⟨ρ, by rw [e]; ring, a, b⟩

theorem Rel.mul {k l : ℕ} {x y x' y' : ℝ} (h : R.Rel k x y) (h' : R.Rel l x' y') :
    R.Rel (k + l + 1) (x * x') (R.mul y y') := by
  refine Rel.round hu ?_
  obtain ⟨ρ, e, a, b⟩ := h
  obtain ⟨σ, e', a', b'⟩ := h'
  have pk := (pow_base hu k).1
  have pl := (pow_base hu l).1
  refine ⟨ρ * σ, by rw [e', e]; ring, ?_, ?_⟩
  · rw [pow_add]; exact mul_le_mul a a' pl.le (pk.le.trans a)
  · rw [pow_add, show ρ * σ * ((1 - R.u) ^ k * (1 - R.u) ^ l) = (ρ * (1 - R.u) ^ k) * (σ * (1 - R.u) ^ l) by ring]
    exact mul_le_one₀ b (mul_nonneg (pl.le.trans a') pl.le) b'

theorem Rel.div {k l : ℕ} {x y x' y' : ℝ} (h : R.Rel k x y) (h' : R.Rel l x' y') :
    R.Rel (k + l + 1) (x / x') (R.div y y') := by
  refine Rel.round hu ?_
  obtain ⟨ρ, e, a, b⟩ := h
  obtain ⟨σ, e', a', b'⟩ := h'
  have pk := (pow_base hu k).1
  have pl := (pow_base hu l).1
  have ps : 0 < σ := pl.trans_le a'
  refine ⟨ρ / σ, ?_, ?_, ?_⟩
  · rw [e', e]
    by_cases hx : x' = 0
    · simp [hx]
    · field_simp
  · rw [pow_add, le_div_iff₀ ps, mul_assoc, mul_comm _ σ]
    have := mul_le_mul_of_nonneg_left b' pk.le
    linarith
  · rw [pow_add, div_mul_eq_mul_div, div_le_one ps, ← mul_assoc]
    have := mul_le_mul_of_nonneg_right b pl.le
    linarith

/-- Sums of numbers that are not negative. -/
theorem Rel.add {k : ℕ} {x y x' y' : ℝ} (hx : 0 ≤ x) (hx' : 0 ≤ x') (h : R.Rel k x y) (h' : R.Rel k x' y') :
    R.Rel (k + 1) (x + x') (R.add y y') := by
  refine Rel.round hu ?_
  obtain ⟨ρ, e, a, b⟩ := h
  obtain ⟨σ, e', a', b'⟩ := h'
  have pk := pow_base hu k
  by_cases hs : x + x' = 0
  · refine ⟨1, ?_, pk.2, by linarith [pk.2]⟩
    have h1 : x = 0 := by linarith
    have h2 : x' = 0 := by linarith
    rw [e, e', h1, h2]; ring
  · have hp : 0 < x + x' := lt_of_le_of_ne (by linarith) (Ne.symm hs)
    refine ⟨(y + y') / (x + x'), by field_simp, ?_, ?_⟩
    · rw [le_div_iff₀ hp, e, e']
      have := mul_le_mul_of_nonneg_left a hx
      have := mul_le_mul_of_nonneg_left a' hx'
      nlinarith
    · rw [div_mul_eq_mul_div, div_le_one hp, e, e']
      have := mul_le_mul_of_nonneg_left b hx
      have := mul_le_mul_of_nonneg_left b' hx'
      nlinarith

theorem Rel.sqrt {k : ℕ} {x y : ℝ} (hx : 0 ≤ x) (h : R.Rel (2 * k) x y) : R.Rel (k + 1) (Real.sqrt x) (R.rnd (Real.sqrt y)) := by
  refine Rel.round hu ?_
  obtain ⟨ρ, e, a, b⟩ := h
  have pk := (pow_base hu k).1
  have pr : 0 ≤ ρ := (pow_base hu (2 * k)).1.le.trans a
  refine ⟨Real.sqrt ρ, by rw [e, Real.sqrt_mul hx], ?_, ?_⟩
  · apply Real.le_sqrt_of_sq_le
    rw [← pow_mul, mul_comm]; exact a
  · rw [← Real.sqrt_sq pk.le, ← Real.sqrt_mul pr, ← pow_mul, mul_comm k 2]
    calc Real.sqrt (ρ * (1 - R.u) ^ (2 * k)) ≤ Real.sqrt 1 := Real.sqrt_le_sqrt b
      _ = 1 := Real.sqrt_one

/-- The absolute error. -/
theorem Rel.error {k : ℕ} {x y : ℝ} (h : R.Rel k x y) : |y - x| ≤ R.gap k * |x| := by
  obtain ⟨ρ, e, a, b⟩ := h
  have pk := pow_base hu k
  rw [e, show x * ρ - x = (ρ - 1) * x by ring, abs_mul]
  refine mul_le_mul_of_nonneg_right ?_ (abs_nonneg x)
  have h1 : ρ ≤ 1 / (1 - R.u) ^ k := by rw [le_div_iff₀ pk.1]; exact b
  have h2 : 1 - (1 - R.u) ^ k ≤ 1 / (1 - R.u) ^ k - 1 := by
    have : 1 / (1 - R.u) ^ k + (1 - R.u) ^ k ≥ 2 := by
      rw [ge_iff_le, div_add' _ _ _ pk.1.ne', le_div_iff₀ pk.1]
      nlinarith [sq_nonneg ((1 - R.u) ^ k - 1)]
    linarith
  unfold gap
  rw [abs_le]
  constructor <;> linarith

theorem Rel.ne_zero {k : ℕ} {x y : ℝ} (h : R.Rel k x y) : y = 0 ↔ x = 0 := by
  obtain ⟨ρ, e, a, _⟩ := h
  have : 0 < ρ := (pow_base hu k).1.trans_le a
  rw [e, mul_eq_zero]
  constructor
  · rintro (h | h)
    · exact h
    · linarith
  · exact .inl

end PathLib.Spec.Rounding
