import Verif.Model.Transform
import Verif.Spec.Geometry

set_option linter.unusedSectionVars false

namespace PathLib
open Spec

namespace Transform
variable {K : Type} [Field K]

theorem is3x3_iff (M : Mat K) : Is3x3 M ↔
    ∃ a b p c d q m n s, M = matrix a b c d m n p q s := by
  constructor
  · rintro ⟨h, hr⟩
    match M, h with
    | [r1, r2, r3], _ =>
      have h1 := hr r1 (by simp)
      have h2 := hr r2 (by simp)
      have h3 := hr r3 (by simp)
      match r1, h1, r2, h2, r3, h3 with
      | [a, b, p], _, [c, d, q], _, [m, n, s], _ => exact ⟨a, b, p, c, d, q, m, n, s, rfl⟩
  · rintro ⟨a, b, p, c, d, q, m, n, s, rfl⟩
    refine ⟨rfl, ?_⟩
    intro r hr
    simp [matrix] at hr
    rcases hr with rfl | rfl | rfl <;> rfl

theorem mul_matrix (a b c d m n p q s a' b' c' d' m' n' p' q' s' : K) :
    multiplyMatrixByMatrix (matrix a b c d m n p q s) (matrix a' b' c' d' m' n' p' q' s') =
      .ok (matrix (a*a' + b*c' + p*m') (a*b' + b*d' + p*n')
                  (c*a' + d*c' + q*m') (c*b' + d*d' + q*n')
                  (m*a' + n*c' + s*m') (m*b' + n*d' + s*n')
                  (a*p' + b*q' + p*s') (c*p' + d*q' + q*s') (m*p' + n*q' + s*s')) := rfl

theorem new_single (M : Mat K) : new [M] = .ok ⟨M⟩ := rfl

theorem new_two (A B : Mat K) :
    new [A, B] = (multiplyMatrixByMatrix A B >>= fun C => .ok ⟨C⟩) := by
  simp [new, concatenateMatrices]

theorem new_cons_cons (A B : Mat K) (ms : List (Mat K)) :
    new (A :: B :: ms) = (multiplyMatrixByMatrix A B >>= fun C => new (C :: ms)) := by
  simp only [new, concatenateMatrices, List.foldlM_cons]
  cases multiplyMatrixByMatrix A B <;> rfl

variable [DecidableEq K]

theorem applyToPoint_matrix (a b c d m n p q s : K) (pt : Pt K) :
    applyToPoint ⟨matrix a b c d m n p q s⟩ pt =
      (if pt.1 * p + pt.2 * q + s = 0 then .error .zeroDivisionError
       else .ok ((pt.1 * a + pt.2 * c + m) / (pt.1 * p + pt.2 * q + s),
                 (pt.1 * b + pt.2 * d + n) / (pt.1 * p + pt.2 * q + s))) := by
  by_cases h : pt.1 * p + pt.2 * q + s = 0
  · simp [applyToPoint, multiplyRowByMatrix, matrix, pdiv, h]
  · simp [applyToPoint, multiplyRowByMatrix, matrix, pdiv, h]

theorem applyToPoint_affine (a b c d m n : K) (pt : Pt K) :
    applyToPoint ⟨matrix a b c d m n 0 0 1⟩ pt =
      .ok (a * pt.1 + c * pt.2 + m, b * pt.1 + d * pt.2 + n) := by
  simp [applyToPoint_matrix, mul_comm]

theorem affineMat_eq (a b c d m n : K) : affineMat a b c d m n = matrix a b c d m n 0 0 1 := rfl

/-- One composition step in homogeneous coordinates. -/
theorem apply_mul {A B C : Mat K} (hA : Is3x3 A) (hB : Is3x3 B)
    (hC : multiplyMatrixByMatrix A B = .ok C) {p q r : Pt K}
    (h1 : applyToPoint ⟨A⟩ p = .ok q) (h2 : applyToPoint ⟨B⟩ q = .ok r) :
    applyToPoint ⟨C⟩ p = .ok r := by
  obtain ⟨a, b, p', c, d, q', m, n, s, rfl⟩ := (is3x3_iff A).mp hA
  obtain ⟨a2, b2, p2, c2, d2, q2, m2, n2, s2, rfl⟩ := (is3x3_iff B).mp hB
  rw [mul_matrix] at hC
  cases hC
  obtain ⟨x, y⟩ := p
  obtain ⟨u, v⟩ := q
  rw [applyToPoint_matrix] at h1 h2 ⊢
  simp only at h1 h2 ⊢
  split_ifs at h1 with hw
  split_ifs at h2 with hw2
  simp only [Except.ok.injEq, Prod.mk.injEq] at h1
  obtain ⟨hu, hv⟩ := h1
  set w := x * p' + y * q' + s with hwdef
  have hx : x * a + y * c + m = u * w := by rw [← hu]; field_simp
  have hy : x * b + y * d + n = v * w := by rw [← hv]; field_simp
  have e3 : x * (a * p2 + b * q2 + p' * s2) + y * (c * p2 + d * q2 + q' * s2)
      + (m * p2 + n * q2 + s * s2) = w * (u * p2 + v * q2 + s2) := by
    linear_combination p2 * hx + q2 * hy - s2 * hwdef
  have e1 : x * (a * a2 + b * c2 + p' * m2) + y * (c * a2 + d * c2 + q' * m2)
      + (m * a2 + n * c2 + s * m2) = w * (u * a2 + v * c2 + m2) := by
    linear_combination a2 * hx + c2 * hy - m2 * hwdef
  have e2 : x * (a * b2 + b * d2 + p' * n2) + y * (c * b2 + d * d2 + q' * n2)
      + (m * b2 + n * d2 + s * n2) = w * (u * b2 + v * d2 + n2) := by
    linear_combination b2 * hx + d2 * hy - n2 * hwdef
  rw [e1, e2, e3]
  simp only [Except.ok.injEq] at h2
  rw [if_neg (mul_ne_zero hw hw2), ← h2]
  simp only [Except.ok.injEq, Prod.mk.injEq]
  exact ⟨mul_div_mul_left _ _ hw, mul_div_mul_left _ _ hw⟩

theorem mul_is3x3 {A B : Mat K} (hA : Is3x3 A) (hB : Is3x3 B) :
    ∃ C, multiplyMatrixByMatrix A B = .ok C ∧ Is3x3 C := by
  obtain ⟨a, b, p', c, d, q', m, n, s, rfl⟩ := (is3x3_iff A).mp hA
  obtain ⟨a2, b2, p2, c2, d2, q2, m2, n2, s2, rfl⟩ := (is3x3_iff B).mp hB
  exact ⟨_, mul_matrix .., (is3x3_iff _).mpr ⟨_, _, _, _, _, _, _, _, _, rfl⟩⟩

theorem isAffine_is3x3 {A : Mat K} (h : IsAffine A) : Is3x3 A := by
  obtain ⟨a, b, c, d, m, n, rfl⟩ := h
  exact (is3x3_iff _).mpr ⟨_, _, _, _, _, _, _, _, _, rfl⟩

end Transform

section round
open Transform

theorem abs_roundHalfEven_sub_le (x : ℝ) : |(roundHalfEven x : ℝ) - x| ≤ 1 / 2 := by
  have h1 := Int.floor_le x
  have h2 := Int.lt_floor_add_one x
  unfold roundHalfEven
  simp only
  rw [abs_le]
  split_ifs with h h' h''
  · constructor <;> linarith
  · push_cast; constructor <;> linarith
  · constructor <;> linarith
  · push_cast; constructor <;> linarith

theorem roundHalfEven_int (n : ℤ) : roundHalfEven (n : ℝ) = n := by
  unfold roundHalfEven
  simp

theorem abs_round15_sub_le (x : ℝ) : |round15 x - x| ≤ 5e-16 := by
  have h := abs_roundHalfEven_sub_le (x * 10 ^ 15)
  unfold round15
  have e : (roundHalfEven (x * 10 ^ 15) : ℝ) / 10 ^ 15 - x =
      ((roundHalfEven (x * 10 ^ 15) : ℝ) - x * 10 ^ 15) / 10 ^ 15 := by field_simp
  rw [e, abs_div, abs_of_pos (by positivity : (0:ℝ) < 10 ^ 15), div_le_iff₀ (by positivity)]
  refine h.trans ?_
  norm_num

theorem round15_int (n : ℤ) : round15 (n : ℝ) = n := by
  unfold round15
  have : ((n : ℝ) * 10 ^ 15) = ((n * 10 ^ 15 : ℤ) : ℝ) := by push_cast; ring
  rw [this, roundHalfEven_int]
  push_cast
  norm_num

theorem round15_zero : round15 0 = 0 := by simpa using round15_int 0
theorem round15_one : round15 1 = 1 := by simpa using round15_int 1
theorem round15_neg_one : round15 (-1) = -1 := by simpa using round15_int (-1)

theorem sin_err (deg : ℝ) : |Transform.sin deg - Real.sin (deg * Real.pi / 180)| ≤ 5e-16 :=
  abs_round15_sub_le _

theorem cos_err (deg : ℝ) : |Transform.cos deg - Real.cos (deg * Real.pi / 180)| ≤ 5e-16 :=
  abs_round15_sub_le _

/-- The rounded sine and cosine are almost on the unit circle. -/
theorem abs_sq_add_sq_sub_one_le (deg : ℝ) :
    |Transform.sin deg ^ 2 + Transform.cos deg ^ 2 - 1| ≤ 2e-15 := by
  have hs := sin_err deg
  have hc := cos_err deg
  set S := Real.sin (deg * Real.pi / 180)
  set C := Real.cos (deg * Real.pi / 180)
  have hSC : S ^ 2 + C ^ 2 = 1 := Real.sin_sq_add_cos_sq _
  set δ := Transform.sin deg - S with hδ
  set ε := Transform.cos deg - C with hε
  have e1 : Transform.sin deg = S + δ := by rw [hδ]; ring
  have e2 : Transform.cos deg = C + ε := by rw [hε]; ring
  have key : Transform.sin deg ^ 2 + Transform.cos deg ^ 2 - 1 =
      2 * (S * δ + C * ε) + (δ ^ 2 + ε ^ 2) := by
    rw [e1, e2]; linear_combination hSC
  have hsum : |S| + |C| ≤ 3 / 2 := by
    have h1 : |S| ^ 2 + |C| ^ 2 = 1 := by rw [sq_abs, sq_abs]; exact hSC
    nlinarith [sq_nonneg (|S| - |C|), abs_nonneg S, abs_nonneg C]
  have h1 : |S * δ + C * ε| ≤ (3 / 2) * 5e-16 := by
    calc |S * δ + C * ε| ≤ |S * δ| + |C * ε| := abs_add_le _ _
      _ = |S| * |δ| + |C| * |ε| := by rw [abs_mul, abs_mul]
      _ ≤ |S| * 5e-16 + |C| * 5e-16 := by
          gcongr
      _ = (|S| + |C|) * 5e-16 := by ring
      _ ≤ (3 / 2) * 5e-16 := by gcongr
  have h2 : δ ^ 2 ≤ 5e-16 ^ 2 := sq_le_sq' (by linarith [(abs_le.mp hs).1]) (abs_le.mp hs).2
  have h3 : ε ^ 2 ≤ 5e-16 ^ 2 := sq_le_sq' (by linarith [(abs_le.mp hc).1]) (abs_le.mp hc).2
  rw [key, abs_le]
  have := abs_le.mp h1
  constructor
  · nlinarith [sq_nonneg δ, sq_nonneg ε]
  · norm_num at *; nlinarith [sq_nonneg δ, sq_nonneg ε]

/-- The sine of a multiple of a quarter turn is an integer. -/
theorem sin_quarter_int (k : ℤ) : ∃ n : ℤ, Real.sin (90 * (k : ℝ) * Real.pi / 180) = n := by
  have h : 90 * (k : ℝ) * Real.pi / 180 = k * Real.pi / 2 := by ring
  rw [h]
  obtain ⟨m, hm | hm⟩ := Int.even_or_odd' k
  · refine ⟨0, ?_⟩
    have : (k : ℝ) * Real.pi / 2 = m * Real.pi := by rw [hm]; push_cast; ring
    rw [this]; simp
  · have e : (k : ℝ) * Real.pi / 2 = Real.pi / 2 + m * Real.pi := by rw [hm]; push_cast; ring
    rw [e, Real.sin_add, Real.sin_pi_div_two, Real.cos_pi_div_two, Real.cos_int_mul_pi]
    refine ⟨(-1) ^ m.natAbs, ?_⟩
    rcases Int.natAbs_eq m with h | h
    · conv_lhs => rw [h]
      rw [zpow_natCast]; push_cast; ring
    · conv_lhs => rw [h]
      rw [zpow_neg, zpow_natCast]; push_cast
      rcases neg_one_pow_eq_or ℝ m.natAbs with h | h <;> rw [h] <;> norm_num

theorem cos_quarter_int (k : ℤ) : ∃ n : ℤ, Real.cos (90 * (k : ℝ) * Real.pi / 180) = n := by
  obtain ⟨n, hn⟩ := sin_quarter_int (k + 1)
  refine ⟨n, ?_⟩
  rw [← hn, ← Real.sin_add_pi_div_two]
  congr 1; push_cast; ring

theorem sin_quarter (k : ℤ) :
    Transform.sin (90 * k) = Real.sin (90 * (k : ℝ) * Real.pi / 180) := by
  obtain ⟨n, hn⟩ := sin_quarter_int k
  unfold Transform.sin radians
  rw [hn, round15_int]

theorem cos_quarter (k : ℤ) :
    Transform.cos (90 * k) = Real.cos (90 * (k : ℝ) * Real.pi / 180) := by
  obtain ⟨n, hn⟩ := cos_quarter_int k
  unfold Transform.cos radians
  rw [hn, round15_int]

end round

end PathLib
