import Verif.Model.RoundedRoots
import Verif.Lemmas.Grid
import Verif.Lemmas.Float
import Verif.Lemmas.Relative
import Verif.Lemmas.BezierBounds
import Verif.Props.BezierRoots
import Verif.Props.Rounded
import Verif.Props.RoundedAlign
import Mathlib.Analysis.Real.Pi.Bounds

/-!
# The zeros of a curve and its intersections with a line, in floating point: C117
-/

set_option linter.unusedSectionVars false
set_option linter.unusedSimpArgs false

namespace PathLib

open Spec Bezier

/-- C117: without rounding and with exact library functions these are the functions of the exact model. -/
theorem C117_exact (ps line : Segment ℝ) (segment : Option (Segment ℝ)) (p1 p2 : Pt ℝ) :
    Rounded.roots Rounding.exact LibmRoots.exact ps segment = roots ps segment ∧
    Rounded.lineIntersects Rounding.exact LibmRoots.exact ps p1 p2 = lineIntersects ps p1 p2 ∧
    Rounded.intersectWithLine Rounding.exact LibmRoots.exact ps line = intersectWithLine ps line := by
  have ha : ∀ ps s, Rounded.alignPoints Rounding.exact LibmRoots.exact.toLibm ps s = alignPoints ps s := fun ps s => (C111_exact ps s).1
  have h : ∀ ps segment, Rounded.roots Rounding.exact LibmRoots.exact ps segment = roots ps segment := by
    intro ps segment
    unfold Rounded.roots roots
    simp only [ha]
    rfl
  refine ⟨h ps segment, ?_, ?_⟩
  · unfold Rounded.lineIntersects lineIntersects
    simp only [h, C82_exact]
    rfl
  · unfold Rounded.intersectWithLine intersectWithLine
    simp only [h, C82_exact]
    rfl

private theorem fu : float.u = 2 ^ (-53 : ℤ) := rfl

private theorem fu1 : float.u < 1 := by rw [fu]; norm_num

private theorem rnd_err (x : ℝ) : |float.rnd x - x| ≤ 1 / 2 ^ 53 * |x| := by
  have := float.error x
  rw [fu] at this
  simpa [zpow_neg, div_eq_mul_inv] using this

/-- Half of a bound that the computed parameter may exceed the unit interval by. -/
private theorem eps_range : (999999 / 1000000 : ℝ) * 1e-6 ≤ Rounded.epsilon float ∧ Rounded.epsilon float ≤ (1000001 / 1000000 : ℝ) * 1e-6 := by
  have := rnd_err (1 / 1000000)
  rw [abs_of_pos (by norm_num : (0:ℝ) < 1 / 1000000), abs_le] at this
  unfold Rounded.epsilon
  constructor
  · have := this.1; norm_num at this ⊢; linarith
  · have := this.2; norm_num at this ⊢; linarith

private theorem approx_of {x y : ℝ} (h : |x - y| ≤ 0.9999e-6) : Rounded.approximately float x y = true := by
  unfold Rounded.approximately Rounding.sub
  rw [decide_eq_true_eq]
  have e := rnd_err (x - y)
  have k := abs_add_le (float.rnd (x - y) - (x - y)) (x - y)
  rw [sub_add_cancel] at k
  refine le_trans ?_ eps_range.1
  norm_num at h e ⊢
  linarith

private theorem of_approx {x y : ℝ} (h : Rounded.approximately float x y = true) : |x - y| ≤ 1.0001e-6 := by
  unfold Rounded.approximately Rounding.sub at h
  rw [decide_eq_true_eq] at h
  have e := rnd_err (x - y)
  have k := abs_sub_abs_le_abs_sub (x - y) (float.rnd (x - y))
  rw [abs_sub_comm (x - y)] at k
  have := eps_range.2
  norm_num at this e ⊢
  linarith

private theorem mem_keep (l : List (Option ℝ)) (t : ℝ) : t ∈ Rounded.keepRoots float l ↔
    ((0 ≤ t ∧ t ≤ 1) ∨ Rounded.approximately float t 0 = true ∨ Rounded.approximately float t 1 = true) ∧ some t ∈ l := by
  unfold Rounded.keepRoots
  rw [List.mem_filterMap]
  constructor
  · rintro ⟨a, ha, h⟩
    rw [Option.filter_eq_some_iff] at h
    obtain ⟨rfl, h⟩ := h
    exact ⟨by simpa using h, ha⟩
  · rintro ⟨h1, h2⟩
    exact ⟨some t, h2, by rw [Option.filter_eq_some_iff]; exact ⟨rfl, by simpa using h1⟩⟩

/-- What the filter lets through is close to the unit interval. -/
private theorem keep_near {l : List (Option ℝ)} {t : ℝ} (h : t ∈ Rounded.keepRoots float l) : -1.0001e-6 ≤ t ∧ t ≤ 1 + 1.0001e-6 := by
  rcases ((mem_keep l t).mp h).1 with ⟨a, b⟩ | a | a
  · constructor <;> norm_num <;> linarith
  · have := of_approx a
    rw [abs_le] at this
    constructor <;> norm_num at this ⊢ <;> linarith [this.1, this.2]
  · have := of_approx a
    rw [abs_le] at this
    constructor <;> norm_num at this ⊢ <;> linarith [this.1, this.2]

/-- The filter lets through what is close to a number of the unit interval. -/
private theorem keep_of {l : List (Option ℝ)} {t z : ℝ} (hm : some t ∈ l) (h0 : 0 ≤ z) (h1 : z ≤ 1) (h : |t - z| ≤ 7.3e-12) :
    t ∈ Rounded.keepRoots float l := by
  rw [mem_keep]
  refine ⟨?_, hm⟩
  rw [abs_le] at h
  by_cases a : 0 ≤ t
  · by_cases b : t ≤ 1
    · exact .inl ⟨a, b⟩
    · refine .inr (.inr (approx_of ?_))
      rw [abs_le]
      constructor <;> norm_num at h ⊢ <;> linarith [h.1, h.2]
  · refine .inr (.inl (approx_of ?_))
    rw [abs_le]
    constructor <;> norm_num at h ⊢ <;> linarith [h.1, h.2]

private theorem keep_length (l : List (Option ℝ)) : (Rounded.keepRoots float l).length ≤ l.length := List.length_filterMap_le _ _

/-- One root of a quadratic equation with integer coefficients, in floating point. -/
private theorem root_sharp (S : ℝ) (hS : 0 ≤ S) (m d : ℤ) (hd : d ≠ 0) (e z : ℝ) (he : e = 1 ∨ e = -1) (hz : d * z + m = e * S) :
    |float.rnd (-float.rnd (-e * float.rnd S + m) / d) - z| ≤ 1 / 2 ^ 53 * (1.0001 * S) + 1 / 2 ^ 53 * (2.0001 * |z|) := by
  have hd1 : (1:ℝ) ≤ |(d:ℝ)| := by
    have := Int.one_le_abs hd
    exact_mod_cast this
  have hd0 : (d:ℝ) ≠ 0 := by exact_mod_cast hd
  have ee : |e| = 1 := by rcases he with rfl | rfl <;> simp
  have z0 := abs_nonneg z
  have e1 := rnd_err S
  rw [abs_of_nonneg hS] at e1
  generalize float.rnd S = s at *
  have b : |-e * s + m| ≤ |(d:ℝ)| * |z| + 1 / 2 ^ 53 * S := by
    have : -e * s + m = -(d * z) + -e * (s - S) := by linear_combination hz
    rw [this]
    refine (abs_add_le _ _).trans ?_
    rw [abs_neg, abs_mul, abs_mul, abs_neg, ee, one_mul]
    linarith
  have e2 := rnd_err (-e * s + m)
  generalize float.rnd (-e * s + m) = y at *
  have y1 : |y - (-e * s + m)| ≤ 1 / 2 ^ 53 * (|(d:ℝ)| * |z| + 1 / 2 ^ 53 * S) :=
    e2.trans (mul_le_mul_of_nonneg_left b (by positivity))
  have q : |-y / d - z| ≤ 1 / 2 ^ 53 * S + 1 / 2 ^ 53 * (|z| + 1 / 2 ^ 53 * S) := by
    have : -y / d - z = (-(y - (-e * s + m)) + e * (s - S)) / d := by
      field_simp
      linear_combination (-1) * hz
    rw [this, abs_div, div_le_iff₀ (by linarith)]
    refine (abs_add_le _ _).trans ?_
    rw [abs_neg, abs_mul, ee, one_mul]
    nlinarith [mul_nonneg hS (sub_nonneg.mpr hd1)]
  have e3 := rnd_err (-y / d)
  generalize -y / (d:ℝ) = w at *
  have w2 : |w| ≤ |w - z| + |z| := by
    have := abs_add_le (w - z) z
    rwa [sub_add_cancel] at this
  have f := abs_sub_le (float.rnd w) w z
  norm_num at q e3 ⊢
  linarith

/-- The ordinate of a quadratic. -/
private def quad (a b c t : ℝ) : ℝ := (1 - t) ^ 2 * a + 2 * (1 - t) * t * b + t ^ 2 * c

private theorem near_of (a b c S d m e z v : ℝ) (hba : |b - a| ≤ 65536) (hcb : |c - b| ≤ 65536) (hS0 : 0 ≤ S) (hd : d = a - 2 * b + c) (hm : m = -a + b)
    (he : |e| = 1) (hz : d * z + m = e * S) (h : |v - z| ≤ 1 / 2 ^ 53 * (1.0001 * S) + 1 / 2 ^ 53 * (2.0001 * |z|))
    (hr : (0 ≤ z ∧ z ≤ 1) ∨ (-1.0001e-6 ≤ v ∧ v ≤ 1 + 1.0001e-6 ∧ S ≤ 2 ^ 18)) : |v - z| ≤ 7.3e-12 := by
  have hzr : -1.1e-6 ≤ z ∧ z ≤ 1 + 1.1e-6 := by
    rcases hr with hr | ⟨v0, v1, hS⟩
    · constructor <;> norm_num <;> linarith [hr.1, hr.2]
    · have z1 : |z| ≤ |v| + |v - z| := by
        have := abs_sub_abs_le_abs_sub z v
        rw [abs_sub_comm] at this
        linarith
      have va : |v| ≤ 1.1 := by rw [abs_le]; constructor <;> norm_num at v0 v1 ⊢ <;> linarith
      have z2 : |z| ≤ 1.2 := by norm_num at *; linarith
      have : |v - z| ≤ 1e-9 := h.trans (by norm_num at *; linarith)
      rw [abs_le] at this
      constructor <;> norm_num at * <;> linarith [this.1, this.2]
  have hS : S ≤ 65536.2 := by
    have k : S = |e * S| := by rw [abs_mul, he, one_mul, abs_of_nonneg hS0]
    have k2 : e * S = (1 - z) * (b - a) + z * (c - b) := by rw [← hz, hd, hm]; ring
    rw [k, k2]
    refine (abs_add_le _ _).trans ?_
    rw [abs_mul, abs_mul]
    have a1 : |1 - z| + |z| ≤ 1 + 2.2e-6 := by
      rcases abs_cases (1 - z) with ⟨x, _⟩ | ⟨x, _⟩ <;> rcases abs_cases z with ⟨y, _⟩ | ⟨y, _⟩ <;> rw [x, y] <;> norm_num at * <;> linarith [hzr.1, hzr.2]
    have m1 := mul_le_mul_of_nonneg_left hba (abs_nonneg (1 - z))
    have m2 := mul_le_mul_of_nonneg_left hcb (abs_nonneg z)
    norm_num at a1 ⊢
    linarith
  have za : |z| ≤ 1.1 := by rw [abs_le]; constructor <;> norm_num at hzr ⊢ <;> linarith [hzr.1, hzr.2]
  refine h.trans ?_
  norm_num at *
  linarith

/-- The quadratic case of `roots` for integer coefficients. -/
private theorem quad_roots (a b c : ℤ) (ha : |a| ≤ 65536) (hb : |b| ≤ 65536) (hc : |c| ≤ 65536) (hba : |b - a| ≤ 65536) (hcb : |c - b| ≤ 65536) :
    ∃ l, Rounded.quadraticRoots float a b c = .ok l ∧ l.length ≤ 2 ∧
      (∀ t ∈ l, (-1.0001e-6 ≤ t ∧ t ≤ 1 + 1.0001e-6) ∧ ∃ z, IsolatedZero (quad a b c) z ∧ |t - z| ≤ 7.3e-12) ∧
      (∀ z, 0 ≤ z → z ≤ 1 → IsolatedZero (quad a b c) z → ∃ t ∈ l, |t - z| ≤ 7.3e-12) := by
  obtain ⟨p1, q1⟩ := mul_int (a := 2) (b := b) (A := 2) (by norm_num) hb (by norm_num)
  obtain ⟨p2, q2⟩ := sub_int ha q1 (by norm_num)
  obtain ⟨p3, q3⟩ := add_int q2 hc (by norm_num)
  obtain ⟨p4, q4⟩ := mul_int hb hb (by norm_num)
  obtain ⟨p5, q5⟩ := mul_int ha hc (by norm_num)
  obtain ⟨p6, q6⟩ := sub_int q4 q5 (by norm_num)
  obtain ⟨p7, q7⟩ := add_int (a := -a) (A := 65536) (by rwa [abs_neg]) hb (by norm_num)
  obtain ⟨p9, q9⟩ := mul_int (a := 2) (b := c) (A := 2) (by norm_num) hc (by norm_num)
  obtain ⟨p10, q10⟩ := sub_int q1 hc (by norm_num)
  obtain ⟨p11, q11⟩ := sub_int q1 q9 (by norm_num)
  have two : ((2 : ℤ) : ℝ) = 2 := by norm_num
  rw [two] at p1 p9
  rw [Int.cast_neg] at p7
  have hba' : |(b:ℝ) - a| ≤ 65536 := by exact_mod_cast hba
  have hcb' : |(c:ℝ) - b| ≤ 65536 := by exact_mod_cast hcb
  unfold Rounded.quadraticRoots
  simp only [p1, p2, p3, p4, p5, p6, p7, p9, p10, p11]
  by_cases hd : a - 2 * b + c = 0
  · rw [if_neg (by rw [hd]; simp)]
    have e : (a:ℝ) - 2 * b + c = 0 := by exact_mod_cast hd
    have lin : ∀ t, quad a b c t = (2 * b - c) - (2 * b - 2 * c) * t := by
      intro t; unfold quad; linear_combination (1 - t) ^ 2 * e
    by_cases hbc : b = c
    · rw [if_neg (by simp [hbc])]
      refine ⟨[], rfl, by simp, by simp, ?_⟩
      rintro z - - ⟨⟨s, hs⟩, hz⟩
      rw [lin] at hs hz
      subst hbc
      exact absurd (by linear_combination hz) hs
    · have hne : ((2 * b - 2 * c : ℤ) : ℝ) ≠ 0 := by norm_cast; omega
      rw [if_pos ⟨by exact_mod_cast hbc, by rw [hd]; simp⟩]
      unfold Rounded.pdiv
      rw [if_neg hne]
      simp only [ok_bind, pure_eq_ok]
      have iso : ∀ z : ℝ, IsolatedZero (quad a b c) z ↔ z = ((2 * b - c : ℤ) : ℝ) / ((2 * b - 2 * c : ℤ) : ℝ) := by
        intro z
        rw [eq_div_iff hne]
        push_cast at hne ⊢
        constructor
        · rintro ⟨-, hz⟩
          rw [lin] at hz
          linear_combination -hz
        · intro hz
          refine ⟨?_, by rw [lin]; linear_combination -hz⟩
          by_contra k
          push Not at k
          have k0 := k 0
          have k1 := k 1
          rw [lin] at k0 k1
          exact hne (by linear_combination k0 - k1)
      refine ⟨_, rfl, (keep_length _).trans (by simp), ?_, ?_⟩
      · intro t ht
        have kn := keep_near ht
        refine ⟨kn, _, (iso _).mpr rfl, ?_⟩
        have hm := ((mem_keep _ _).mp ht).2
        simp only [List.mem_singleton, Option.some.injEq] at hm
        rw [hm] at kn ⊢
        unfold Rounding.div at kn ⊢
        have er := rnd_err (((2 * b - c : ℤ) : ℝ) / ((2 * b - 2 * c : ℤ) : ℝ))
        generalize ((2 * b - c : ℤ) : ℝ) / ((2 * b - 2 * c : ℤ) : ℝ) = z at *
        have z1 := abs_sub_abs_le_abs_sub z (float.rnd z)
        rw [abs_sub_comm] at z1
        have va : |float.rnd z| ≤ 1.1 := by rw [abs_le]; constructor <;> norm_num at kn ⊢ <;> linarith [kn.1, kn.2]
        norm_num at *
        linarith
      · intro z z0 z1 hz
        rw [iso] at hz
        have er := rnd_err z
        rw [abs_of_nonneg z0] at er
        have er' : |float.rnd z - z| ≤ 7.3e-12 := er.trans (by norm_num; linarith)
        refine ⟨float.rnd z, keep_of ?_ z0 z1 er', er'⟩
        rw [hz]; simp [Rounding.div]
  · rw [if_pos (by exact_mod_cast hd)]
    have hd0 : ((a - 2 * b + c : ℤ) : ℝ) ≠ 0 := by exact_mod_cast hd
    have sq : ∀ z : ℝ, (((a - 2 * b + c : ℤ) : ℝ) * z + ((-a + b : ℤ) : ℝ)) ^ 2 - ((b * b - a * c : ℤ) : ℝ) =
        ((a - 2 * b + c : ℤ) : ℝ) * quad a b c z := by
      intro z; unfold quad; push_cast; ring
    have iso : ∀ z : ℝ, quad a b c z = 0 → IsolatedZero (quad a b c) z := by
      intro z hz
      refine ⟨?_, hz⟩
      by_contra k
      push Not at k
      have k0 := k 0
      have k1 := k 1
      have k2 := k (-1)
      unfold quad at k0 k1 k2
      apply hd0
      push_cast
      linear_combination (k1 + k2 - 2 * k0) / 2
    by_cases hD : b * b - a * c < 0
    · refine ⟨[], ?_, by simp, by simp, ?_⟩
      · have hx : ((b * b - a * c : ℤ) : ℝ) < 0 := by exact_mod_cast hD
        unfold Rounded.sqrtOrNan
        rw [if_pos hx]
        rfl
      · rintro z - - ⟨-, hz⟩
        have := sq z
        rw [hz, mul_zero, sub_eq_zero] at this
        have hx : ((b * b - a * c : ℤ) : ℝ) < 0 := by exact_mod_cast hD
        rw [← this] at hx
        exact absurd hx (not_lt.mpr (sq_nonneg _))
    · have hx : ¬ (((b * b - a * c : ℤ) : ℝ) < 0) := by
        push Not at hD ⊢; exact_mod_cast hD
      have hx0 : 0 ≤ ((b * b - a * c : ℤ) : ℝ) := not_lt.mp hx
      set S := Real.sqrt ((b * b - a * c : ℤ) : ℝ) with hSdef
      have hS0 : 0 ≤ S := Real.sqrt_nonneg _
      have hS2 : S ^ 2 = ((b * b - a * c : ℤ) : ℝ) := Real.sq_sqrt hx0
      have hSb : S ≤ 2 ^ 18 := by
        rw [hSdef, Real.sqrt_le_left (by positivity)]
        have : b * b - a * c ≤ 2 ^ 36 := (le_abs_self _).trans (q6.trans (by norm_num))
        calc ((b * b - a * c : ℤ) : ℝ) ≤ ((2 ^ 36 : ℤ) : ℝ) := by exact_mod_cast this
          _ = _ := by norm_num
      have root : ∀ e : ℝ, (e = 1 ∨ e = -1) → ∀ z : ℝ, ((a - 2 * b + c : ℤ) : ℝ) * z + ((-a + b : ℤ) : ℝ) = e * S → quad a b c z = 0 := by
        intro e he z hz
        have := sq z
        rw [hz, mul_pow, hS2] at this
        have e2 : e ^ 2 = 1 := by rcases he with rfl | rfl <;> norm_num
        rw [e2, one_mul, sub_self] at this
        exact (mul_eq_zero.mp this.symm).resolve_left hd0
      have shape : ∀ e : ℝ, (e = 1 ∨ e = -1) → ∀ z : ℝ, ((a - 2 * b + c : ℤ) : ℝ) * z + ((-a + b : ℤ) : ℝ) = e * S → ∀ v,
          v = float.rnd (-float.rnd (-e * float.rnd S + ((-a + b : ℤ) : ℝ)) / ((a - 2 * b + c : ℤ) : ℝ)) →
          ((0 ≤ z ∧ z ≤ 1) ∨ (-1.0001e-6 ≤ v ∧ v ≤ 1 + 1.0001e-6)) → |v - z| ≤ 7.3e-12 := by
        intro e he z hz v hv hr
        have k := root_sharp S hS0 (-a + b) (a - 2 * b + c) hd e z he hz
        rw [← hv] at k
        refine near_of a b c S _ _ e z v hba' hcb' hS0 (by push_cast; rfl) (by push_cast; rfl) ?_ hz k ?_
        · rcases he with rfl | rfl <;> simp
        · rcases hr with h | h
          · exact .inl h
          · exact .inr ⟨h.1, h.2, hSb⟩
      refine ⟨Rounded.keepRoots float
        [some (float.rnd (-float.rnd (-1 * float.rnd S + ((-a + b : ℤ) : ℝ)) / ((a - 2 * b + c : ℤ) : ℝ))),
         some (float.rnd (-float.rnd (-(-1) * float.rnd S + ((-a + b : ℤ) : ℝ)) / ((a - 2 * b + c : ℤ) : ℝ)))], ?_,
        (keep_length _).trans (by simp), ?_, ?_⟩
      · unfold Rounded.sqrtOrNan
        rw [if_neg hx]
        simp only [Option.map_some, pure_eq_ok]
        unfold Rounding.div Rounding.add Rounded.sqrt
        simp only [neg_neg, one_mul, neg_mul]
        rfl
      · intro t ht
        have kn := keep_near ht
        refine ⟨kn, ?_⟩
        have hm := ((mem_keep _ _).mp ht).2
        have fin : ∀ e : ℝ, (e = 1 ∨ e = -1) → t = float.rnd (-float.rnd (-e * float.rnd S + ((-a + b : ℤ) : ℝ)) / ((a - 2 * b + c : ℤ) : ℝ)) →
            ∃ z, IsolatedZero (quad a b c) z ∧ |t - z| ≤ 7.3e-12 := by
          intro e he ht
          have hz : ((a - 2 * b + c : ℤ) : ℝ) * ((e * S - ((-a + b : ℤ) : ℝ)) / ((a - 2 * b + c : ℤ) : ℝ)) + ((-a + b : ℤ) : ℝ) = e * S := by
            field_simp; ring
          exact ⟨_, iso _ (root e he _ hz), shape e he _ hz t ht (.inr kn)⟩
        simp only [List.mem_cons, Option.some.injEq, List.not_mem_nil, or_false] at hm
        rcases hm with hm | hm
        · exact fin 1 (.inl rfl) hm
        · exact fin (-1) (.inr rfl) hm
      · rintro z z0 z1 ⟨-, hz⟩
        have hs := sq z
        rw [hz, mul_zero, sub_eq_zero, ← hS2] at hs
        rcases sq_eq_sq_iff_eq_or_eq_neg.mp hs with h | h
        · have k := shape 1 (.inl rfl) z (by rw [h]; ring) _ rfl (.inl ⟨z0, z1⟩)
          exact ⟨_, keep_of (by simp) z0 z1 k, k⟩
        · have k := shape (-1) (.inr rfl) z (by rw [h]; ring) _ rfl (.inl ⟨z0, z1⟩)
          exact ⟨_, keep_of (by simp) z0 z1 k, k⟩

private theorem roots_three (R : Rounding) (L : LibmRoots) (p q r : Pt ℝ) :
    Rounded.roots R L [p, q, r] none = Rounded.quadraticRoots R p.2 q.2 r.2 := by
  unfold Rounded.roots
  have o : order [p, q, r] = 2 := rfl
  simp only [pure_eq_ok, ok_bind, if_pos o, pyGet_zero_cons, pyGet_one_cons, pyGet_two_cons]

private theorem roots_line (R : Rounding) (L : LibmRoots) (ps : Segment ℝ) (A B : Pt ℝ) (qs : Segment ℝ)
    (h : Rounded.alignPoints R L.toLibm ps [A, B] = .ok qs) : Rounded.roots R L ps (some [A, B]) = Rounded.roots R L qs none := by
  unfold Rounded.roots
  simp only [h, pure_eq_ok, ok_bind]

/-- C117: the zeros of the second coordinate of a quadratic with integer coordinates of 16 bits, in floating point. Every number that
`roots()` returns is within 7.3e-12 of a zero, and every zero between 0 and 1 is found. -/
theorem C117_quadratic (L : LibmRoots) (ps : Segment ℝ) (h : ps.length = 3) (grid : ∀ p ∈ ps, OnGrid p) :
    ∃ l, Rounded.roots float L ps none = .ok l ∧ l.length ≤ 2 ∧
      (∀ t ∈ l, (-1.1e-6 ≤ t ∧ t ≤ 1 + 1.1e-6) ∧ ∃ z, IsolatedZero (fun t => (curve ps t).2) z ∧ |t - z| ≤ 7.3e-12) ∧
      (∀ z, 0 ≤ z → z ≤ 1 → IsolatedZero (fun t => (curve ps t).2) z → ∃ t ∈ l, |t - z| ≤ 7.3e-12) := by
  match ps, h with
  | [p, q, r], _ =>
    obtain ⟨i, a, _, ha, rfl⟩ := grid p (by simp)
    obtain ⟨j, b, _, hb, rfl⟩ := grid q (by simp)
    obtain ⟨k', c, _, hc, rfl⟩ := grid r (by simp)
    obtain ⟨l, e, n, s, k⟩ := quad_roots a b c (by omega) (by omega) (by omega) (by rw [abs_le] at *; omega) (by rw [abs_le] at *; omega)
    have fe : (fun t => (curve [((i:ℝ), (a:ℝ)), ((j:ℝ), (b:ℝ)), ((k':ℝ), (c:ℝ))] t).2) = quad a b c := by
      funext t; simp only [curve_three, quad]
    rw [fe]
    refine ⟨l, ?_, n, fun t ht => ⟨?_, (s t ht).2⟩, k⟩
    · rw [roots_three]; exact e
    · have := (s t ht).1
      constructor <;> norm_num at this ⊢ <;> linarith [this.1, this.2]

section axis

/-- A number close to an integer is rounded to it. -/
private theorem round_near {x : ℝ} {n : ℤ} (h : |x - n| ≤ 4.9e-16) (hn : |n| ≤ 1) : float.rnd (Transform.round15 x) = n := by
  have h1 := abs_roundHalfEven_sub_le (x * 10 ^ 15)
  have h2 : |x * 10 ^ 15 - n * 10 ^ 15| ≤ 0.49 := by
    rw [← sub_mul, abs_mul, abs_of_pos (by positivity : (0:ℝ) < 10 ^ 15)]
    norm_num at h ⊢
    linarith
  have h3 : |((Transform.roundHalfEven (x * 10 ^ 15) - n * 10 ^ 15 : ℤ) : ℝ)| < 1 := by
    push_cast
    rw [abs_le] at h1 h2
    rw [abs_lt]
    constructor <;> norm_num at h1 h2 ⊢ <;> linarith [h1.1, h1.2, h2.1, h2.2]
  have h4 : Transform.roundHalfEven (x * 10 ^ 15) - n * 10 ^ 15 = 0 := by
    rw [← Int.abs_lt_one_iff]; exact_mod_cast h3
  unfold Transform.round15
  rw [sub_eq_zero.mp h4]
  push_cast
  rw [mul_div_assoc, show (1000000000000000 : ℝ) / 10 ^ 15 = 1 by norm_num, mul_one]
  exact rnd_int n (hn.trans (by norm_num))

/-- The float nearest to π. -/
private theorem rnd_pi : float.rnd Real.pi = ((884279719003555 / 281474976710656 : ℚ) : ℝ) := by
  have lo := (binary 52).mono _ _ Real.pi_gt_d20.le
  have hi := (binary 52).mono _ _ Real.pi_lt_d20.le
  rw [show (3.14159265358979323846 : ℝ) = ((314159265358979323846 / 100000000000000000000 : ℚ) : ℝ) by norm_num, float_rnd,
    show fl (314159265358979323846 / 100000000000000000000) = 884279719003555 / 281474976710656 by decide +kernel] at lo
  rw [show (3.14159265358979323847 : ℝ) = ((314159265358979323847 / 100000000000000000000 : ℚ) : ℝ) by norm_num, float_rnd,
    show fl (314159265358979323847 / 100000000000000000000) = 884279719003555 / 281474976710656 by decide +kernel] at hi
  exact le_antisymm hi lo

/-- Half a turn and quarter turns survive the conversion to degrees and back. -/
private theorem turn {L : Libm} (g : LibmGood L) (k : ℚ) (hk : k = 1 ∨ k = 1 / 2 ∨ k = -1 / 2) :
    Rounded.radians float L (-(Rounded.degrees float L ((k * (884279719003555 / 281474976710656) : ℚ) : ℝ))) =
      ((-k * (884279719003555 / 281474976710656) : ℚ) : ℝ) := by
  unfold Rounded.radians Rounded.degrees
  rw [g.pi, rnd_pi, show (180:ℝ) = ((180 : ℚ) : ℝ) by norm_num, float_div, float_mul, float_div, ← Rat.cast_neg, float_mul]
  congr 1
  rcases hk with rfl | rfl | rfl <;> decide +kernel

private theorem pi_close : |Real.pi - ((884279719003555 / 281474976710656 : ℚ) : ℝ)| ≤ 1.3e-16 := by
  have lo := Real.pi_gt_d20
  have hi := Real.pi_lt_d20
  rw [abs_le]
  constructor <;> norm_num at lo hi ⊢ <;> linarith

/-- The sine and cosine of a multiple of a quarter turn. -/
private theorem quarter {L : Libm} (g : LibmGood L) (x θ : ℝ) (n m : ℤ) (hx : |x - θ| ≤ 1.3e-16) (hn : Real.sin θ = n) (hm : Real.cos θ = m)
    (hn1 : |n| ≤ 1) (hm1 : |m| ≤ 1) :
    float.rnd (Transform.round15 (L.sin x)) = n ∧ float.rnd (Transform.round15 (L.cos x)) = m := by
  have h1 := (Real.abs_sin_sub_sin_le x θ).trans hx
  have h2 := (Real.abs_cos_sub_cos_le x θ).trans hx
  have b1 := g.sin x
  have b2 := g.cos x
  have c1 : |L.sin x - Real.sin x| ≤ 2.3e-16 := b1.trans (by
    have := mul_le_mul_of_nonneg_left (Real.abs_sin_le_one x) (show (0:ℝ) ≤ 2 ^ (-52 : ℤ) by positivity)
    refine this.trans ?_; norm_num)
  have c2 : |L.cos x - Real.cos x| ≤ 2.3e-16 := b2.trans (by
    have := mul_le_mul_of_nonneg_left (Real.abs_cos_le_one x) (show (0:ℝ) ≤ 2 ^ (-52 : ℤ) by positivity)
    refine this.trans ?_; norm_num)
  rw [hn] at h1
  rw [hm] at h2
  constructor
  · refine round_near ?_ hn1
    have := abs_sub_le (L.sin x) (Real.sin x) n
    norm_num at *; linarith
  · refine round_near ?_ hm1
    have := abs_sub_le (L.cos x) (Real.cos x) m
    norm_num at *; linarith

namespace Spec

/-- The library functions are accurate to one unit in the last place, and `atan2` on the axes is the float nearest to the angle, as the C
standard recommends. -/
structure LibmAxes (L : Libm) : Prop extends LibmGood L where
  left : ∀ x < 0, L.atan2 0 x = float.rnd Real.pi
  up : ∀ y > 0, L.atan2 y 0 = float.rnd (Real.pi / 2)
  down : ∀ y < 0, L.atan2 y 0 = -float.rnd (Real.pi / 2)

end Spec

private theorem rnd_half_pi : float.rnd (Real.pi / 2) = ((1 / 2 * (884279719003555 / 281474976710656) : ℚ) : ℝ) := by
  have := (binary 52).double (Real.pi / 2)
  rw [show 2 * (Real.pi / 2) = Real.pi by ring] at this
  have k : float.rnd Real.pi = 2 * float.rnd (Real.pi / 2) := this
  rw [rnd_pi] at k
  push_cast at k ⊢
  linarith

/-- The sine and cosine that `align` uses for lines parallel to an axis. -/
private theorem axis_trig {L : Libm} (g : LibmAxes L) (dx dy : ℝ) (h : (dx = 0 ∧ dy ≠ 0) ∨ (dy = 0 ∧ dx ≠ 0)) :
    ∃ σ κ : ℤ, Rounded.sin float L (-(Rounded.degrees float L (L.atan2 dy dx))) = σ ∧
      Rounded.cos float L (-(Rounded.degrees float L (L.atan2 dy dx))) = κ ∧
      ((dx = 0 ∧ κ = 0 ∧ (σ:ℝ) * |dy| = -dy ∧ (σ = 1 ∨ σ = -1)) ∨ (dy = 0 ∧ σ = 0 ∧ (κ:ℝ) * |dx| = dx ∧ (κ = 1 ∨ κ = -1))) := by
  have pc := pi_close
  unfold Rounded.sin Rounded.cos
  rcases h with ⟨rfl, h⟩ | ⟨rfl, h⟩
  · rcases lt_or_gt_of_ne h with hy | hy
    · rw [g.down dy hy, rnd_half_pi, ← Rat.cast_neg]
      have t := turn g.toLibmGood (-1 / 2) (by norm_num)
      rw [show (-1 / 2 * (884279719003555 / 281474976710656) : ℚ) = -(1 / 2 * (884279719003555 / 281474976710656)) by norm_num] at t
      rw [t]
      obtain ⟨a, b⟩ := quarter g.toLibmGood (((- (-1 / 2)) * (884279719003555 / 281474976710656) : ℚ) : ℝ) (Real.pi / 2) 1 0
        (by rw [abs_le] at pc ⊢; push_cast at pc ⊢; constructor <;> norm_num at pc ⊢ <;> linarith [pc.1, pc.2]) (by simp) (by simp) (by norm_num) (by norm_num)
      exact ⟨1, 0, a, b, .inl ⟨rfl, rfl, by rw [abs_of_neg hy]; simp, .inl rfl⟩⟩
    · rw [g.up dy hy, rnd_half_pi, turn g.toLibmGood (1 / 2) (by norm_num)]
      obtain ⟨a, b⟩ := quarter g.toLibmGood ((-(1 / 2) * (884279719003555 / 281474976710656) : ℚ) : ℝ) (-(Real.pi / 2)) (-1) 0
        (by rw [abs_le] at pc ⊢; push_cast at pc ⊢; constructor <;> norm_num at pc ⊢ <;> linarith [pc.1, pc.2]) (by simp) (by simp) (by norm_num) (by norm_num)
      exact ⟨-1, 0, a, b, .inl ⟨rfl, rfl, by rw [abs_of_pos hy]; simp, .inr rfl⟩⟩
  · rcases lt_or_gt_of_ne h with hx | hx
    · have t := turn g.toLibmGood 1 (by norm_num)
      rw [one_mul] at t
      rw [g.left dx hx, rnd_pi, t]
      obtain ⟨a, b⟩ := quarter g.toLibmGood ((-1 * (884279719003555 / 281474976710656) : ℚ) : ℝ) (-Real.pi) 0 (-1)
        (by rw [abs_le] at pc ⊢; push_cast at pc ⊢; constructor <;> norm_num at pc ⊢ <;> linarith [pc.1, pc.2]) (by simp) (by simp) (by norm_num) (by norm_num)
      exact ⟨0, -1, a, b, .inr ⟨rfl, rfl, by rw [abs_of_neg hx]; simp, .inr rfl⟩⟩
    · have e : L.atan2 0 dx = 0 := by
        have := g.atan2 0 dx
        rw [show (⟨dx, 0⟩ : ℂ) = ((dx : ℝ) : ℂ) from rfl, Complex.arg_ofReal_of_nonneg hx.le] at this
        simpa using this
      rw [e]
      have z : Rounded.radians float L (-(Rounded.degrees float L 0)) = 0 := by
        simp [Rounded.radians, Rounded.degrees, Rounding.mul, Rounding.rnd_zero]
      rw [z]
      obtain ⟨a, b⟩ := quarter g.toLibmGood 0 0 0 1 (by simp; norm_num) (by simp) (by simp) (by norm_num) (by norm_num)
      exact ⟨0, 1, a, b, .inr ⟨rfl, rfl, by rw [abs_of_pos hx]; simp, .inl rfl⟩⟩

/-- Aligning with a line parallel to an axis makes no rounding error on integer coordinates. -/
private theorem align_axis {L : Libm} (g : LibmAxes L) (ps : Segment ℝ) (grid : ∀ p ∈ ps, OnGrid p) (A B : Pt ℝ) (hA : OnGrid A) (hB : OnGrid B)
    (ne : A ≠ B) (par : A.1 = B.1 ∨ A.2 = B.2) :
    ∃ σ κ : ℤ, ((A.1 = B.1 ∧ κ = 0 ∧ (σ = 1 ∨ σ = -1)) ∨ (A.2 = B.2 ∧ σ = 0 ∧ (κ = 1 ∨ κ = -1))) ∧
      (∀ p, acrossLine A B p = (p.1 - A.1) * σ + (p.2 - A.2) * κ) ∧
      Rounded.alignPoints float L ps [A, B] =
        .ok (ps.map fun p => ((p.1 - A.1) * κ - (p.2 - A.2) * σ, (p.1 - A.1) * σ + (p.2 - A.2) * κ)) := by
  obtain ⟨ax, ay, hax, hay, rfl⟩ := hA
  obtain ⟨bx, bY, hbx, hby, rfl⟩ := hB
  obtain ⟨sx, kx⟩ := sub_int hbx hax (by norm_num)
  obtain ⟨sy, ky⟩ := sub_int hby hay (by norm_num)
  have h : ((((bx - ax : ℤ) : ℝ)) = 0 ∧ ((bY - ay : ℤ) : ℝ) ≠ 0) ∨ (((bY - ay : ℤ) : ℝ) = 0 ∧ ((bx - ax : ℤ) : ℝ) ≠ 0) := by
    simp only [Int.cast_eq_zero, ne_eq, Int.cast_inj] at par ⊢
    have : ¬ (ax = bx ∧ ay = bY) := fun ⟨x, y⟩ => ne (by rw [x, y])
    omega
  obtain ⟨σ, κ, es, ec, alt⟩ := axis_trig g _ _ h
  have s1 : |σ| ≤ 1 := by rcases alt with ⟨_, _, _, rfl | rfl⟩ | ⟨_, rfl, _⟩ <;> norm_num
  have k1 : |κ| ≤ 1 := by rcases alt with ⟨_, rfl, _⟩ | ⟨_, _, _, rfl | rfl⟩ <;> norm_num
  refine ⟨σ, κ, ?_, ?_, ?_⟩
  · rcases alt with ⟨a, b, _, c⟩ | ⟨a, b, _, c⟩
    · left
      refine ⟨?_, b, c⟩
      push_cast at a; linarith
    · right
      refine ⟨?_, b, c⟩
      push_cast at a; linarith
  · intro p
    unfold acrossLine unitTo
    rw [if_neg ne]
    rcases alt with ⟨a, rfl, b, c⟩ | ⟨a, rfl, b, c⟩
    · have d0 : (bY:ℝ) - ay ≠ 0 := by
        rcases h with ⟨_, h⟩ | ⟨_, h⟩
        · push_cast at h; exact h
        · exact absurd a h
      push_cast at a b ⊢
      rw [a, zero_pow two_ne_zero, zero_add, Real.sqrt_sq_eq_abs]
      have n0 : |(bY:ℝ) - ay| ≠ 0 := abs_ne_zero.mpr d0
      field_simp
      linear_combination (-(p.1 - ax)) * b
    · have d0 : (bx:ℝ) - ax ≠ 0 := by
        rcases h with ⟨_, h⟩ | ⟨_, h⟩
        · exact absurd a h
        · push_cast at h; exact h
      push_cast at a b ⊢
      rw [a, zero_pow two_ne_zero, add_zero, Real.sqrt_sq_eq_abs]
      have n0 : |(bx:ℝ) - ax| ≠ 0 := abs_ne_zero.mpr d0
      field_simp
      linear_combination (-(p.2 - ay)) * b
  · have m1 : ∀ n : ℤ, |n| ≤ 1 → float.mul 1 (n:ℝ) = n := fun n hn => by
      unfold Rounding.mul; rw [one_mul, rnd_int _ (hn.trans (by norm_num))]
    have m0 : ∀ x : ℝ, float.mul 0 x = 0 := fun x => by unfold Rounding.mul; rw [zero_mul, Rounding.rnd_zero]
    have m0' : ∀ x : ℝ, float.mul x 0 = 0 := fun x => by unfold Rounding.mul; rw [mul_zero, Rounding.rnd_zero]
    have a0 : ∀ n : ℤ, |n| ≤ 2 ^ 20 → float.add (n:ℝ) 0 = n := fun n hn => by
      unfold Rounding.add; rw [add_zero, rnd_int _ (hn.trans (by norm_num))]
    have a0' : ∀ n : ℤ, |n| ≤ 2 ^ 20 → float.add 0 (n:ℝ) = n := fun n hn => by
      unfold Rounding.add; rw [zero_add, rnd_int _ (hn.trans (by norm_num))]
    have tr : ∀ n : ℤ, |n| ≤ 32768 → float.sub 0 (n:ℝ) = ((-n : ℤ) : ℝ) := fun n hn => by
      unfold Rounding.sub; rw [zero_sub, ← Int.cast_neg, rnd_int _ (by rw [abs_neg]; exact hn.trans (by norm_num))]
    have dot : ∀ x y a b : ℤ, |x| ≤ 32768 → |y| ≤ 32768 → |a| ≤ 1 → |b| ≤ 1 →
        float.add (float.mul (x:ℝ) a) (float.mul (y:ℝ) b) = ((x * a + y * b : ℤ) : ℝ) ∧ |x * a + y * b| ≤ 65536 := by
      intro x y a b hx hy ha hb
      obtain ⟨e1, l1⟩ := mul_int hx ha (by norm_num)
      obtain ⟨e2, l2⟩ := mul_int hy hb (by norm_num)
      obtain ⟨e3, l3⟩ := add_int l1 l2 (by norm_num)
      rw [e1, e2, e3]
      exact ⟨rfl, l3.trans (by norm_num)⟩
    have one : ((1:ℤ) : ℝ) = 1 := by norm_num
    have zero : ((0:ℤ) : ℝ) = 0 := by norm_num
    have ns : ∀ n : ℤ, -(n:ℝ) = ((-n : ℤ) : ℝ) := fun n => by push_cast; rfl
    have s1' : |-σ| ≤ 1 := by rwa [abs_neg]
    have nax : |-ax| ≤ 32768 := by rwa [abs_neg]
    have nay : |-ay| ≤ 32768 := by rwa [abs_neg]
    have z2 : float.add 0 0 = 0 := by unfold Rounding.add; rw [add_zero, Rounding.rnd_zero]
    obtain ⟨d1, b1⟩ := dot (-ax) (-ay) κ (-σ) nax nay k1 s1'
    obtain ⟨d2, b2⟩ := dot (-ax) (-ay) σ κ nax nay s1 k1
    have big : ∀ {n : ℤ}, |n| ≤ 1 → |n| ≤ 2 ^ 20 := fun h => h.trans (by norm_num)
    have m11 : float.mul 1 1 = 1 := by have := m1 1 (by norm_num); rwa [one] at this
    have a01 : float.add 0 1 = 1 := by have := a0' 1 (by norm_num); rwa [one] at this
    have em : Rounded.multiplyMatrixByMatrix float (Rounded.translateMatrix float ((ax:ℝ), (ay:ℝ)) (0, 0))
        (Transform.rotationMatrixOf (σ:ℝ) (κ:ℝ) true) =
        .ok [[(κ:ℝ), (σ:ℝ), 0], [((-σ : ℤ) : ℝ), (κ:ℝ), 0], [((-ax * κ + -ay * -σ : ℤ) : ℝ), ((-ax * σ + -ay * κ : ℤ) : ℝ), 1]] := by
      simp only [Rounded.multiplyMatrixByMatrix, Rounded.translateMatrix, Transform.matrix, Transform.rotationMatrixOf, if_true,
        List.mapM_cons, List.mapM_nil, Rounded.multiplyRowByMatrix, pure_eq_ok, ok_bind, tr ax hax, tr ay hay, ns, m1 κ k1, m1 σ s1, m1 (-σ) s1', m0, m0',
        a0 κ (big k1), a0 σ (big s1), a0 (-σ) (big s1'), a0' κ (big k1), a0' σ (big s1), a0' (-σ) (big s1'), d1, d2,
        a0 _ (b1.trans (by norm_num)), a0 _ (b2.trans (by norm_num)), z2, m11, a01]
    unfold Rounded.alignPoints Rounded.rawSlopeAngle Rounded.getDeltas PathUtilities.endPoints Rounded.moveAndRotate Rounded.rotationMatrix
    simp only [pyGet_zero_cons, pyGet_neg_one _ (List.cons_ne_nil _ _), List.getLast_cons_cons, List.getLast_singleton, ok_bind, pure_eq_ok,
      sx, sy, es, ec, em]
    apply mapM_ok
    intro p hp
    obtain ⟨x, y, hx, hy, rfl⟩ := grid p hp
    have c := C84_integers κ σ (-σ) κ (-ax * κ + -ay * -σ) (-ax * σ + -ay * κ) x y
      (by
        have := (mul_int hx k1 (by norm_num)).2
        have := (mul_int hy s1' (by norm_num)).2
        norm_num at *; omega)
      (by
        have := (mul_int hx s1 (by norm_num)).2
        have := (mul_int hy k1 (by norm_num)).2
        norm_num at *; omega)
    refine c.trans ?_
    push_cast
    congr 2 <;> ring

/-- A point of a quadratic at a parameter that may be slightly outside of the unit interval. -/
private theorem get_near (p q r : Pt ℝ) (hp : Within 32768 p) (hq : Within 32768 q) (hr : Within 32768 r) (t : ℝ)
    (h0 : -1.1e-6 ≤ t) (h1 : t ≤ 1 + 1.1e-6) :
    ∃ c, Rounded.get float [p, q, r] t = .ok c ∧ |c.1 - (curve [p, q, r] t).1| ≤ 1e-9 ∧ |c.2 - (curve [p, q, r] t).2| ≤ 1e-9 := by
  by_cases e0 : t = 0
  · refine ⟨p, ?_, ?_⟩
    · unfold Rounded.get; rw [if_pos e0]; rfl
    · rw [e0]; simp [curve_three]; norm_num
  by_cases e1 : t = 1
  · refine ⟨r, ?_, ?_⟩
    · unfold Rounded.get; rw [if_neg e0, if_pos e1]; rfl
    · rw [e1]; simp [curve_three]; norm_num
  have ta : float.Approx 0 1.1 t t := ⟨by rw [abs_le]; constructor <;> norm_num at h0 h1 ⊢ <;> linarith, by simp⟩
  have ma : float.Approx 1 1.1 (1 - t) (float.sub 1 t) :=
    Rounding.Approx.round ⟨by rw [abs_le]; constructor <;> norm_num at h0 h1 ⊢ <;> linarith, by simp⟩
  have two : float.Approx 0 2 2 2 := ⟨by simp, by simp⟩
  have zero : float.Approx 0 0 0 0 := ⟨by simp, by simp⟩
  have self : ∀ {x : ℝ}, |x| ≤ 32768 → float.Approx 0 32768 x x := fun h => ⟨h, by simp⟩
  have num : ((1 + float.u) ^ 7 - 1) * (1.1 * 1.1 * 32768 + 1.1 * 1.1 * 2 * 32768 + 1.1 * 1.1 * 32768 + 0 * 0) ≤ 1e-9 := by rw [fu]; norm_num
  have col : ∀ {x y z : ℝ}, |x| ≤ 32768 → |y| ≤ 32768 → |z| ≤ 32768 →
      |float.add (float.add (float.add (float.mul (float.mul (float.sub 1 t) (float.sub 1 t)) x) (float.mul (float.mul (float.mul (float.sub 1 t) t) 2) y))
        (float.mul (float.mul t t) z)) (float.mul 0 0) - ((1 - t) ^ 2 * x + 2 * (1 - t) * t * y + t ^ 2 * z)| ≤ 1e-9 := by
    intro x y z hx hy hz
    have a := (ma.mul ma).mul (self hx)
    have b := ((ma.mul ta).mul two).mul (self hy)
    have c := (ta.mul ta).mul (self hz)
    have k := ((a.add (b.mono (show _ ≤ 4 by norm_num) le_rfl)).add (c.mono (show _ ≤ 5 by norm_num) le_rfl)).add
      ((zero.mul zero).mono (show _ ≤ 6 by norm_num) le_rfl)
    have := k.2.trans num
    rwa [show (1 - t) * (1 - t) * x + (1 - t) * t * 2 * y + t * t * z + 0 * 0 = (1 - t) ^ 2 * x + 2 * (1 - t) * t * y + t ^ 2 * z by ring] at this
  have o : order [p, q, r] = 2 := rfl
  refine ⟨(float.add (float.add (float.add (float.mul (float.mul (float.sub 1 t) (float.sub 1 t)) p.1) (float.mul (float.mul (float.mul (float.sub 1 t) t) 2) q.1))
        (float.mul (float.mul t t) r.1)) (float.mul 0 0),
      float.add (float.add (float.add (float.mul (float.mul (float.sub 1 t) (float.sub 1 t)) p.2) (float.mul (float.mul (float.mul (float.sub 1 t) t) 2) q.2))
        (float.mul (float.mul t t) r.2)) (float.mul 0 0)), ?_, ?_, ?_⟩
  · unfold Rounded.get
    rw [if_neg e0, if_neg e1]
    simp only [o, show ¬ ((2:ℤ) = 0) by norm_num, show ¬ ((2:ℤ) = 1) by norm_num, show (2:ℤ) < 4 by norm_num, if_true, if_false,
      pyGet_zero_cons, pyGet_one_cons, pyGet_two_cons, pyGet_three_cons, ok_bind, pure_eq_ok]
  · rw [curve_three]; exact col hp.1 hq.1 hr.1
  · rw [curve_three]; exact col hp.2 hq.2 hr.2

/-- How far the coordinate of a quadratic moves between two near parameters. -/
private theorem quad_move (a b c : ℝ) (ha : |a| ≤ 32768) (hb : |b| ≤ 32768) (hc : |c| ≤ 32768) (t z : ℝ) (h : |t - z| ≤ 7.3e-12)
    (h0 : -2e-6 ≤ z) (h1 : z ≤ 1 + 2e-6) : |quad a b c t - quad a b c z| ≤ 0.96e-6 := by
  have e : quad a b c t - quad a b c z = (t - z) * ((1 - (t + z) / 2) * (2 * (b - a)) + (t + z) / 2 * (2 * (c - b))) := by
    unfold quad; ring
  have d1 : |2 * (b - a)| ≤ 131072 := by rw [abs_le] at *; constructor <;> linarith [ha.1, ha.2, hb.1, hb.2]
  have d2 : |2 * (c - b)| ≤ 131072 := by rw [abs_le] at *; constructor <;> linarith [hc.1, hc.2, hb.1, hb.2]
  have hr : -3e-6 ≤ (t + z) / 2 ∧ (t + z) / 2 ≤ 1 + 3e-6 := by
    rw [abs_le] at h
    constructor <;> norm_num at * <;> linarith [h.1, h.2]
  have s : |1 - (t + z) / 2| + |(t + z) / 2| ≤ 1 + 6e-6 := by
    generalize (t + z) / 2 = w at hr ⊢
    rcases abs_cases (1 - w) with ⟨x, _⟩ | ⟨x, _⟩ <;> rcases abs_cases w with ⟨y, _⟩ | ⟨y, _⟩ <;> rw [x, y] <;> norm_num at * <;>
      linarith [hr.1, hr.2]
  have k : |(1 - (t + z) / 2) * (2 * (b - a)) + (t + z) / 2 * (2 * (c - b))| ≤ 131072 * (1 + 6e-6) := by
    refine (abs_add_le _ _).trans ?_
    rw [abs_mul (1 - (t + z) / 2), abs_mul ((t + z) / 2)]
    have m1 := mul_le_mul_of_nonneg_left d1 (abs_nonneg (1 - (t + z) / 2))
    have m2 := mul_le_mul_of_nonneg_left d2 (abs_nonneg ((t + z) / 2))
    linarith
  rw [e, abs_mul]
  refine (mul_le_mul h k (abs_nonneg _) (by norm_num)).trans ?_
  norm_num

/-- The test for one coordinate. -/
private theorem bet {x lo hi : ℝ} (hl : lo ≤ hi) (hx : Rounded.between float x lo hi = true) : lo - 1.0001e-6 ≤ x ∧ x ≤ hi + 1.0001e-6 := by
  unfold Rounded.between at hx
  simp only [Bool.or_eq_true, Bool.and_eq_true, decide_eq_true_eq] at hx
  rcases hx with ⟨u, v⟩ | u | u
  · constructor <;> norm_num <;> linarith
  · have := of_approx u
    rw [abs_le] at this
    constructor <;> norm_num at * <;> linarith [this.1, this.2]
  · have := of_approx u
    rw [abs_le] at this
    constructor <;> norm_num at * <;> linarith [this.1, this.2]

private theorem bet' {x y lo hi : ℝ} (h1 : lo ≤ y) (h2 : y ≤ hi) (h3 : |x - y| ≤ 0.99e-6) : Rounded.between float x lo hi = true := by
  unfold Rounded.between
  simp only [Bool.or_eq_true, Bool.and_eq_true, decide_eq_true_eq]
  rw [abs_le] at h3
  by_cases u : lo ≤ x
  · by_cases v : x ≤ hi
    · exact .inl ⟨u, v⟩
    · refine .inr (.inr (approx_of ?_))
      rw [abs_le]
      constructor <;> norm_num at * <;> linarith [h3.1, h3.2]
  · refine .inr (.inl (approx_of ?_))
    rw [abs_le]
    constructor <;> norm_num at * <;> linarith [h3.1, h3.2]

private theorem side {lo hi c x y : ℝ} (h : lo - 1.0001e-6 ≤ c ∧ c ≤ hi + 1.0001e-6) (h1 : |c - x| ≤ 1e-9) (h2 : |x - y| ≤ 0.96e-6) :
    lo - 3e-6 ≤ y ∧ y ≤ hi + 3e-6 := by
  rw [abs_le] at h1 h2
  constructor <;> norm_num at * <;> linarith [h.1, h.2, h1.1, h1.2, h2.1, h2.2]

private theorem side' {c x y : ℝ} (h1 : |c - x| ≤ 1e-9) (h2 : |x - y| ≤ 0.96e-6) : |c - y| ≤ 0.99e-6 := by
  have := abs_sub_le c x y
  norm_num at *; linarith

private theorem step_range {t z : ℝ} (near : -1.0001e-6 ≤ t ∧ t ≤ 1 + 1.0001e-6) (tz : |t - z| ≤ 7.3e-12) : -2e-6 ≤ z ∧ z ≤ 1 + 2e-6 := by
  rw [abs_le] at tz
  constructor <;> norm_num at * <;> linarith [near.1, near.2, tz.1, tz.2]

/-- C117: the points in which a quadratic with integer coordinates of 16 bits meets a line between two such points that is parallel to an
axis, in floating point. Every number that `lineIntersects(line)` returns is within 7.3e-12 of a parameter at which the curve is on the
line, up to 3e-6 beyond its ends; and every parameter between 0 and 1 at which the curve is on the line, the ends included, is
found. -/
theorem C117_scanline (L : LibmRoots) (g : LibmAxes L.toLibm) (ps : Segment ℝ) (h : ps.length = 3) (grid : ∀ p ∈ ps, OnGrid p)
    (A B : Pt ℝ) (hA : OnGrid A) (hB : OnGrid B) (ne : A ≠ B) (par : A.1 = B.1 ∨ A.2 = B.2) :
    ∃ l, Rounded.lineIntersects float L ps A B = .ok l ∧ l.length ≤ 2 ∧
      (∀ t ∈ l, ∃ z, IsolatedZero (fun t => acrossLine A B (curve ps t)) z ∧ |t - z| ≤ 7.3e-12 ∧ -2e-6 ≤ z ∧ z ≤ 1 + 2e-6 ∧
        min A.1 B.1 - 3e-6 ≤ (curve ps z).1 ∧ (curve ps z).1 ≤ max A.1 B.1 + 3e-6 ∧
        min A.2 B.2 - 3e-6 ≤ (curve ps z).2 ∧ (curve ps z).2 ≤ max A.2 B.2 + 3e-6) ∧
      (∀ z, 0 ≤ z → z ≤ 1 → IsolatedZero (fun t => acrossLine A B (curve ps t)) z →
        min A.1 B.1 ≤ (curve ps z).1 → (curve ps z).1 ≤ max A.1 B.1 → min A.2 B.2 ≤ (curve ps z).2 → (curve ps z).2 ≤ max A.2 B.2 →
        ∃ t ∈ l, |t - z| ≤ 7.3e-12) := by
  match ps, h with
  | [p, q, r], _ =>
    obtain ⟨σ, κ, alt, across, al⟩ := align_axis g [p, q, r] grid A B hA hB ne par
    have within : ∀ x ∈ [p, q, r], Within 32768 x := by
      intro x hx
      obtain ⟨m, n, hm, hn, rfl⟩ := grid x hx
      have hm' : |(m:ℝ)| ≤ 32768 := by exact_mod_cast hm
      have hn' : |(n:ℝ)| ≤ 32768 := by exact_mod_cast hn
      exact ⟨hm', hn'⟩
    have wp := within p (by simp)
    have wq := within q (by simp)
    have wr := within r (by simp)
    -- the aligned ordinates are integers
    have int : ∀ x ∈ [p, q, r], ∃ n : ℤ, (x.1 - A.1) * σ + (x.2 - A.2) * κ = n ∧ |n| ≤ 65536 := by
      intro x hx
      obtain ⟨m, n, hm, hn, rfl⟩ := grid x hx
      obtain ⟨a, b, ha, hb, rfl⟩ := hA
      refine ⟨(m - a) * σ + (n - b) * κ, by push_cast; ring, ?_⟩
      rcases alt with ⟨-, rfl, rfl | rfl⟩ | ⟨-, rfl, rfl | rfl⟩ <;> rw [abs_le] at * <;> omega
    have diff : ∀ x ∈ [p, q, r], ∀ y ∈ [p, q, r], ∀ n m : ℤ, (x.1 - A.1) * σ + (x.2 - A.2) * κ = n → (y.1 - A.1) * σ + (y.2 - A.2) * κ = m →
        |m - n| ≤ 65536 := by
      intro x hx y hy n m hn hm
      obtain ⟨a, b, ha, hb, rfl⟩ := grid x hx
      obtain ⟨c, d, hc, hd, rfl⟩ := grid y hy
      have e : ((m - n : ℤ) : ℝ) = (((c - a) * σ + (d - b) * κ : ℤ) : ℝ) := by push_cast; rw [← hn, ← hm]; ring
      have e' : m - n = (c - a) * σ + (d - b) * κ := by exact_mod_cast e
      rw [e']
      rcases alt with ⟨-, rfl, rfl | rfl⟩ | ⟨-, rfl, rfl | rfl⟩ <;> rw [abs_le] at * <;> omega
    obtain ⟨a, ea, ha⟩ := int p (by simp)
    obtain ⟨b, eb, hb⟩ := int q (by simp)
    obtain ⟨c, ec, hc⟩ := int r (by simp)
    obtain ⟨l, e, n, s, k⟩ := quad_roots a b c ha hb hc (diff p (by simp) q (by simp) a b ea eb) (diff q (by simp) r (by simp) b c eb ec)
    have fe : (fun t => acrossLine A B (curve [p, q, r] t)) = quad a b c := by
      funext t
      rw [across, ← ea, ← eb, ← ec]
      simp only [curve_three, quad]
      ring
    rw [fe]
    have er : Rounded.roots float L [p, q, r] (some [A, B]) = .ok l := by
      rw [roots_line float L [p, q, r] A B _ al, List.map_cons, List.map_cons, List.map_cons, List.map_nil, roots_three, ea, eb, ec]
      exact e
    have get : ∀ t ∈ l, ∃ c, Rounded.get float [p, q, r] t = .ok c ∧ |c.1 - (curve [p, q, r] t).1| ≤ 1e-9 ∧ |c.2 - (curve [p, q, r] t).2| ≤ 1e-9 := by
      intro t ht
      have := (s t ht).1
      exact get_near p q r wp wq wr t (by norm_num at *; linarith [this.1]) (by norm_num at *; linarith [this.2])
    set test : ℝ → Py Bool := fun t => do
      let c ← Rounded.get float [p, q, r] t
      return Rounded.between float c.1 (pyMin A.1 B.1) (pyMax A.1 B.1) && Rounded.between float c.2 (pyMin A.2 B.2) (pyMax A.2 B.2) with htest
    have run : Rounded.lineIntersects float L [p, q, r] A B = l.filterM test := by
      unfold Rounded.lineIntersects
      rw [er, ok_bind]
    obtain ⟨m, hm⟩ : ∃ m, l.filterM test = .ok m := by
      refine ⟨_, filterM_ok test (fun t => test t = .ok true) l ?_⟩
      intro t ht
      obtain ⟨c, ec, -⟩ := get t ht
      simp only [htest, ec, ok_bind, pure_eq_ok]
      by_cases hb : (Rounded.between float c.1 (pyMin A.1 B.1) (pyMax A.1 B.1) && Rounded.between float c.2 (pyMin A.2 B.2) (pyMax A.2 B.2)) = true
      · rw [hb]; simp
      · rw [Bool.not_eq_true] at hb; rw [hb]; simp
    have mem := filterM_mem test l m hm
    have sub : m.length ≤ l.length := by
      obtain ⟨f, -, rfl⟩ := filterM_spec test l m hm
      exact List.length_filter_le _ _
    have cx : ∀ t, (curve [p, q, r] t).1 = quad p.1 q.1 r.1 t := fun t => by simp only [curve_three, quad]
    have cy : ∀ t, (curve [p, q, r] t).2 = quad p.2 q.2 r.2 t := fun t => by simp only [curve_three, quad]
    refine ⟨m, run.trans hm, sub.trans n, ?_, ?_⟩
    · intro t ht
      obtain ⟨tl, tt⟩ := (mem t).mp ht
      obtain ⟨near, z, iz, tz⟩ := s t tl
      obtain ⟨c, ec, gx, gy⟩ := get t tl
      simp only [htest, ec, ok_bind, pure_eq_ok, Except.ok.injEq, Bool.and_eq_true, pyMin_eq, pyMax_eq] at tt
      have bx := bet min_le_max tt.1
      have by' := bet min_le_max tt.2
      obtain ⟨z0, z1⟩ := step_range near tz
      have mx := quad_move p.1 q.1 r.1 wp.1 wq.1 wr.1 t z tz z0 z1
      have my := quad_move p.2 q.2 r.2 wp.2 wq.2 wr.2 t z tz z0 z1
      rw [← cx, ← cx] at mx
      rw [← cy, ← cy] at my
      have fx := side bx gx mx
      have fy := side by' gy my
      exact ⟨z, iz, tz, z0, z1, fx.1, fx.2, fy.1, fy.2⟩
    · intro z z0 z1 iz x0 x1 y0 y1
      obtain ⟨t, tl, tz⟩ := k z z0 z1 iz
      obtain ⟨c, ec, gx, gy⟩ := get t tl
      have mx := quad_move p.1 q.1 r.1 wp.1 wq.1 wr.1 t z tz (by norm_num; linarith) (by norm_num; linarith)
      have my := quad_move p.2 q.2 r.2 wp.2 wq.2 wr.2 t z tz (by norm_num; linarith) (by norm_num; linarith)
      rw [← cx, ← cx] at mx
      rw [← cy, ← cy] at my
      refine ⟨t, (mem t).mpr ⟨tl, ?_⟩, tz⟩
      simp only [htest, ec, ok_bind, pure_eq_ok, Except.ok.injEq, Bool.and_eq_true, pyMin_eq, pyMax_eq]
      exact ⟨bet' x0 x1 (side' gx mx), bet' y0 y1 (side' gy my)⟩

end axis

section total

private theorem rnd_pos_iff (x : ℝ) : 0 < float.rnd x ↔ 0 < x := by
  have ne := Rounding.Rel.ne_zero fu1 (Rounding.Rel.rnd fu1 x)
  constructor
  · intro h
    by_contra k
    have := (binary 52).mono _ _ (not_lt.mp k)
    rw [Rounding.rnd_zero] at this
    exact absurd h (not_lt.mpr this)
  · intro h
    have := (binary 52).mono _ _ h.le
    rw [Rounding.rnd_zero] at this
    exact lt_of_le_of_ne this fun k => h.ne' (ne.mp k.symm)

private theorem rnd_neg_iff (x : ℝ) : float.rnd x < 0 ↔ x < 0 := by
  have ne := Rounding.Rel.ne_zero fu1 (Rounding.Rel.rnd fu1 x)
  have p := rnd_pos_iff x
  rcases lt_trichotomy x 0 with h | h | h
  · refine ⟨fun _ => h, fun _ => ?_⟩
    rcases lt_trichotomy (float.rnd x) 0 with k | k | k
    · exact k
    · exact absurd (ne.mp k) h.ne
    · exact absurd (p.mp k) (not_lt.mpr h.le)
  · have := ne.mpr h
    rw [this, h]
  · have := p.mpr h
    exact ⟨fun k => absurd k (not_lt.mpr this.le), fun k => absurd k (not_lt.mpr h.le)⟩

private theorem rnd_ne {x : ℝ} (h : x ≠ 0) : float.rnd x ≠ 0 := fun k => h ((Rounding.Rel.ne_zero fu1 (Rounding.Rel.rnd fu1 x)).mp k)

private theorem ne_of_not_approx {x : ℝ} (h : ¬ Rounded.approximately float x 0 = true) : x ≠ 0 := by
  rintro rfl
  exact h (approx_of (by simp; norm_num))

private theorem pdiv_ok {a b : ℝ} (h : b ≠ 0) : Rounded.pdiv float a b = .ok (float.div a b) := by
  unfold Rounded.pdiv; rw [if_neg h]

private theorem quadratic_total (a b c : ℝ) (hb : float.rnd b = b) (hc : float.rnd c = c) :
    ∃ l, Rounded.quadraticRoots float a b c = .ok (Rounded.keepRoots float l) ∧ l.length ≤ 3 := by
  unfold Rounded.quadraticRoots
  by_cases hd : float.add (float.sub a (float.mul 2 b)) c ≠ 0
  · simp only [if_pos hd]
    exact ⟨_, rfl, by simp⟩
  · simp only [if_neg hd]
    split_ifs with h
    · have e : ∀ x, float.rnd x = x → float.mul 2 x = 2 * x := fun x hx => by
        have := (binary 52).double x
        rw [show (binary 52).rnd x = x from hx] at this
        exact this
      have : float.sub (float.mul 2 b) (float.mul 2 c) ≠ 0 := by
        rw [e b hb, e c hc]
        exact rnd_ne fun k => h.1 (by linarith)
      rw [pdiv_ok this]
      exact ⟨_, rfl, by simp⟩
    · exact ⟨[], rfl, by simp⟩

private theorem acos_ok (L : LibmRoots) (t : ℝ) : ∃ x, Rounded.acos L (if t < -1 then -1 else if t > 1 then 1 else t) = .ok x := by
  unfold Rounded.acos
  refine ⟨_, if_neg ?_⟩
  split_ifs with h1 h2
  · norm_num
  · norm_num
  · push Not at *; exact ⟨h1, h2⟩

private theorem cardano_total (L : LibmRoots) (a b c : ℝ) :
    ∃ l, Rounded.cardano float L a b c = .ok (Rounded.keepRoots float l) ∧ l.length ≤ 3 := by
  unfold Rounded.cardano
  generalize float.div (float.sub (float.mul 3 b) (float.mul a a)) 3 = p
  generalize float.div (float.add (float.sub (float.mul (float.mul (float.mul 2 a) a) a) (float.mul (float.mul 9 a) b)) (float.mul 27 c)) 27 = q
  simp only
  by_cases hd : float.add (float.mul (float.div q 2) (float.div q 2)) (float.mul (float.mul (float.div p 3) (float.div p 3)) (float.div p 3)) < 0
  · -- the divisor is not zero
    rw [if_pos hd]
    have hp : p < 0 := by
      unfold Rounding.add at hd
      rw [rnd_neg_iff] at hd
      have sq : ∀ x : ℝ, 0 ≤ float.mul x x := fun x => by
        unfold Rounding.mul
        have := (binary 52).mono _ _ (mul_self_nonneg x)
        rwa [Rounding.rnd_zero] at this
      have h1 := sq (float.div q 2)
      have h2 : float.mul (float.mul (float.div p 3) (float.div p 3)) (float.div p 3) < 0 := by linarith
      have h3 := sq (float.div p 3)
      rw [show float.mul (float.mul (float.div p 3) (float.div p 3)) (float.div p 3) =
        float.rnd (float.mul (float.div p 3) (float.div p 3) * float.div p 3) from rfl, rnd_neg_iff] at h2
      have h4 : float.div p 3 < 0 := by
        by_contra k
        exact absurd h2 (not_lt.mpr (mul_nonneg h3 (not_lt.mp k)))
      unfold Rounding.div at h4
      rw [rnd_neg_iff] at h4
      linarith
    have m3 : 0 < float.div (-p) 3 := (rnd_pos_iff _).mpr (by linarith)
    have m33 : 0 < float.mul (float.mul (float.div (-p) 3) (float.div (-p) 3)) (float.div (-p) 3) :=
      (rnd_pos_iff _).mpr (mul_pos ((rnd_pos_iff _).mpr (mul_pos m3 m3)) m3)
    have hs : Rounded.sqrtOrNan float (float.mul (float.mul (float.div (-p) 3) (float.div (-p) 3)) (float.div (-p) 3)) =
        some (Rounded.sqrt float (float.mul (float.mul (float.div (-p) 3) (float.div (-p) 3)) (float.div (-p) 3))) := by
      unfold Rounded.sqrtOrNan; rw [if_neg (not_lt.mpr m33.le)]
    have hr : 0 < Rounded.sqrt float (float.mul (float.mul (float.div (-p) 3) (float.div (-p) 3)) (float.div (-p) 3)) :=
      (rnd_pos_iff _).mpr (Real.sqrt_pos.mpr m33)
    rw [hs]
    generalize Rounded.sqrt float (float.mul (float.mul (float.div (-p) 3) (float.div (-p) 3)) (float.div (-p) 3)) = r at hr ⊢
    simp only
    have hr2 : float.mul 2 r ≠ 0 := rnd_ne (show 2 * r ≠ 0 by linarith)
    rw [pdiv_ok hr2]
    simp only [ok_bind]
    obtain ⟨φ, hφ⟩ := acos_ok L (float.div (-q) (float.mul 2 r))
    rw [hφ]
    exact ⟨_, rfl, by simp⟩
  rw [if_neg hd]
  by_cases hz : Rounded.approximately float (float.add (float.mul (float.div q 2) (float.div q 2))
      (float.mul (float.mul (float.div p 3) (float.div p 3)) (float.div p 3))) 0 = true
  · rw [if_pos hz]
    exact ⟨_, rfl, by simp⟩
  · rw [if_neg hz]
    have hs : ∀ x : ℝ, ¬ x < 0 → Rounded.sqrtOrNan float x = some (Rounded.sqrt float x) := fun x hx => by
      unfold Rounded.sqrtOrNan; rw [if_neg hx]
    rw [hs _ hd]
    exact ⟨_, rfl, by simp⟩

private theorem cubic_total (L : LibmRoots) (a b c d : ℝ) :
    ∃ l, Rounded.cubicRoots float L a b c d = .ok (Rounded.keepRoots float l) ∧ l.length ≤ 3 := by
  unfold Rounded.cubicRoots
  generalize float.add (float.sub (float.add (-a) (float.mul 3 b)) (float.mul 3 c)) d = D
  generalize float.add (float.sub (float.mul 3 a) (float.mul 6 b)) (float.mul 3 c) = A
  generalize float.add (float.mul (-3) a) (float.mul 3 b) = B
  simp only
  split_ifs with h1 h2 h3
  · exact ⟨[], rfl, by simp⟩
  · rw [pdiv_ok (ne_of_not_approx h3)]
    exact ⟨_, rfl, by simp⟩
  · unfold Rounded.sqrtOrNan
    split_ifs with h4
    · exact ⟨[], rfl, by simp⟩
    · have h5 : float.mul 2 A ≠ 0 := rnd_ne (mul_ne_zero two_ne_zero (ne_of_not_approx h2))
      simp only [pdiv_ok h5, ok_bind]
      exact ⟨_, rfl, by simp⟩
  · have h4 := ne_of_not_approx h1
    simp only [pdiv_ok h4, ok_bind]
    exact cardano_total L _ _ _

/-- The coordinates of aligned points are floats. -/
private theorem align_float (L : Libm) (ps segment qs : Segment ℝ) (h : Rounded.alignPoints float L ps segment = .ok qs) :
    qs.length = ps.length ∧ ∀ q ∈ qs, float.rnd q.2 = q.2 := by
  unfold Rounded.alignPoints at h
  obtain ⟨angle, -, h⟩ := bind_eq_ok.mp h
  obtain ⟨s0, -, h⟩ := bind_eq_ok.mp h
  obtain ⟨T, -, h⟩ := bind_eq_ok.mp h
  rw [mapM_eq_ok_iff] at h
  refine ⟨h.length_eq.symm, ?_⟩
  have pt : ∀ p q, Rounded.applyToPoint float T p = .ok q → float.rnd q.2 = q.2 := by
    intro p q hq
    unfold Rounded.applyToPoint at hq
    obtain ⟨rp, -, hq⟩ := bind_eq_ok.mp hq
    obtain ⟨_, -, hq⟩ := bind_eq_ok.mp hq
    obtain ⟨_, -, hq⟩ := bind_eq_ok.mp hq
    obtain ⟨rx, -, hq⟩ := bind_eq_ok.mp hq
    obtain ⟨y, -, hq⟩ := bind_eq_ok.mp hq
    obtain ⟨w, -, hq⟩ := bind_eq_ok.mp hq
    obtain ⟨ry, hy, hq⟩ := bind_eq_ok.mp hq
    rw [pure_eq_ok, Except.ok.injEq] at hq
    subst hq
    unfold Rounded.pdiv at hy
    split_ifs at hy
    rw [Except.ok.injEq] at hy
    subst hy
    exact (binary 52).idem _
  have all : ∀ l r, List.Forall₂ (fun a b => Rounded.applyToPoint float T a = .ok b) l r → ∀ q ∈ r, float.rnd q.2 = q.2 := by
    intro l r k
    induction k with
    | nil => simp
    | cons e _ ih =>
      intro q hq
      rcases List.mem_cons.mp hq with rfl | hq
      · exact pt _ _ e
      · exact ih q hq
  exact all _ _ h

/-- C117: for a curve of three or more control points whose coordinates are floats `roots` never raises an exception, whatever line it is
given; it returns at most three numbers, all of them within 1.1e-6 of the unit interval. -/
theorem C117_total (L : LibmRoots) (g : LibmGood L.toLibm) (ps : Segment ℝ) (h : 3 ≤ ps.length) (hf : ∀ p ∈ ps, float.rnd p.2 = p.2)
    (segment : Option (Segment ℝ)) :
    ∃ l, Rounded.roots float L ps segment = .ok l ∧ l.length ≤ 3 ∧ ∀ t ∈ l, -1.1e-6 ≤ t ∧ t ≤ 1 + 1.1e-6 := by
  have fin : ∀ l : List (Option ℝ), l.length ≤ 3 → (Rounded.keepRoots float l).length ≤ 3 ∧
      ∀ t ∈ Rounded.keepRoots float l, -1.1e-6 ≤ t ∧ t ≤ 1 + 1.1e-6 := by
    intro l hl
    refine ⟨(keep_length l).trans hl, fun t ht => ?_⟩
    have := keep_near ht
    constructor <;> norm_num at this ⊢ <;> linarith [this.1, this.2]
  have key : ∀ qs : Segment ℝ, 3 ≤ qs.length → (∀ q ∈ qs, float.rnd q.2 = q.2) →
      ∃ l, Rounded.roots float L qs none = .ok (Rounded.keepRoots float l) ∧ l.length ≤ 3 := by
    intro qs hq hf
    match qs, hq, hf with
    | [a, b, c], _, hf =>
      rw [roots_three]
      exact quadratic_total _ _ _ (hf b (by simp)) (hf c (by simp))
    | a :: b :: c :: d :: rest, _, _ =>
      unfold Rounded.roots
      have o : ¬ order (a :: b :: c :: d :: rest) = 2 := by simp [order]; omega
      simp only [pure_eq_ok, ok_bind, if_neg o, pyGet_zero_cons, pyGet_one_cons, pyGet_two_cons, pyGet_three_cons]
      exact cubic_total L _ _ _ _
  have fin' : ∀ qs : Segment ℝ, 3 ≤ qs.length → (∀ q ∈ qs, float.rnd q.2 = q.2) →
      ∃ l, Rounded.roots float L qs none = .ok l ∧ l.length ≤ 3 ∧ ∀ t ∈ l, -1.1e-6 ≤ t ∧ t ≤ 1 + 1.1e-6 := by
    intro qs hq hf
    obtain ⟨l, e, n⟩ := key qs hq hf
    exact ⟨_, e, fin l n⟩
  match segment with
  | none => exact fin' ps h hf
  | some [] => exact fin' ps h hf
  | some (s :: rest) =>
    obtain ⟨M, hM⟩ : ∃ M, ∀ p ∈ s :: ps, Within M p := by
      generalize s :: ps = l
      induction l with
      | nil => exact ⟨0, by simp⟩
      | cons x r ih =>
        obtain ⟨M, hM⟩ := ih
        refine ⟨max M (max |x.1| |x.2|), ?_⟩
        intro p hp
        rcases List.mem_cons.mp hp with rfl | hp
        · exact ⟨(le_max_left _ _).trans (le_max_right _ _), (le_max_right _ _).trans (le_max_right _ _)⟩
        · exact ⟨(hM p hp).1.trans (le_max_left _ _), (hM p hp).2.trans (le_max_left _ _)⟩
    obtain ⟨qs, e, -⟩ := C111_align L.toLibm g ps (s :: rest) s ((s :: rest).getLast (by simp)) M hM rfl (List.getLast?_eq_some_getLast (by simp))
    obtain ⟨n, f⟩ := align_float _ _ _ _ e
    have : Rounded.roots float L ps (some (s :: rest)) = Rounded.roots float L qs none := by
      unfold Rounded.roots
      simp only [e, pure_eq_ok, ok_bind]
    rw [this]
    exact fin' qs (by omega) f

end total

/-- C117_total on a cubic with three zeros. -/
example (L : LibmRoots) (g : LibmGood L.toLibm) :
    ∃ l, Rounded.roots float L [(0, 0), (100, 300), (200, -300), (300, 0)] none = .ok l ∧ l.length ≤ 3 := by
  have r : ∀ n : ℤ, |n| ≤ 2 ^ 53 → float.rnd (n : ℝ) = n := rnd_int
  have r1 := r 0 (by norm_num)
  have r2 := r 300 (by norm_num)
  have r3 := r (-300) (by norm_num)
  push_cast at r1 r2 r3
  obtain ⟨l, e, k, -⟩ := C117_total L g [(0, 0), (100, 300), (200, -300), (300, 0)] (by simp) (by simp [r1, r2, r3]) none
  exact ⟨l, e, k⟩

/-- Correctly rounded functions are accurate enough. -/
private theorem libm_axes : LibmAxes ⟨fun y x => if y < 0 then -float.rnd (Complex.arg ⟨x, -y⟩) else float.rnd (Complex.arg ⟨x, y⟩), fun x => float.rnd (Real.sin x),
    fun x => float.rnd (Real.cos x), float.rnd Real.pi⟩ := by
  have e : ∀ x, |float.rnd x - x| ≤ 2 ^ (-52 : ℤ) * |x| := by
    intro x
    refine (float.error x).trans (mul_le_mul_of_nonneg_right ?_ (abs_nonneg x))
    rw [fu]
    norm_num
  refine ⟨⟨fun y x => ?_, fun x => e _, fun x => e _, rfl⟩, fun x hx => ?_, fun y hy => ?_, fun y hy => ?_⟩
  · simp only
    split_ifs with h
    · have c : Complex.arg ⟨x, y⟩ = -Complex.arg ⟨x, -y⟩ := by
        have k := Complex.arg_conj ⟨x, -y⟩
        rw [if_neg (by
          intro k
          have := Complex.arg_lt_pi_iff (z := ⟨x, -y⟩) |>.mpr (.inr (by simp; exact h.ne))
          rw [k] at this; exact lt_irrefl _ this)] at k
        rw [← k]
        congr 1
        apply Complex.ext <;> simp
      rw [c, abs_neg, show ∀ u v : ℝ, -u - -v = -(u - v) by intros; ring, abs_neg]
      exact e _
    · exact e _
  · simp only [lt_irrefl, if_false]
    rw [show (⟨x, 0⟩ : ℂ) = ((x : ℝ) : ℂ) from rfl, Complex.arg_ofReal_of_neg hx]
  · simp only [if_neg (not_lt.mpr hy.le)]
    rw [Complex.arg_eq_pi_div_two_iff.mpr ⟨rfl, hy⟩]
  · simp only [if_pos hy]
    rw [Complex.arg_eq_pi_div_two_iff.mpr ⟨rfl, by simpa using hy⟩]

/-- The hypotheses of C117 can be met: an arch and the lines through it at half of its height and along its axis. -/
example : ∃ L : LibmRoots, LibmAxes L.toLibm ∧
    (∃ l, Rounded.lineIntersects float L [(0, 0), (500, 1000), (1000, 0)] (1000, 375) (0, 375) = .ok l ∧
      (∃ t ∈ l, |t - 1 / 4| ≤ 7.3e-12) ∧ (∃ t ∈ l, |t - 3 / 4| ≤ 7.3e-12)) ∧
    (∃ l, Rounded.lineIntersects float L [(0, 0), (500, 1000), (1000, 0)] (500, 0) (500, 500) = .ok l ∧ ∃ t ∈ l, |t - 1 / 2| ≤ 7.3e-12) := by
  have on : ∀ m n : ℤ, |m| ≤ 32768 → |n| ≤ 32768 → OnGrid ((m:ℝ), (n:ℝ)) := fun m n h1 h2 => ⟨m, n, h1, h2, rfl⟩
  have o1 : OnGrid ((0:ℝ), (0:ℝ)) := by have := on 0 0 (by norm_num) (by norm_num); norm_num at this; exact this
  have o2 : OnGrid ((500:ℝ), (1000:ℝ)) := by have := on 500 1000 (by norm_num) (by norm_num); norm_num at this; exact this
  have o3 : OnGrid ((1000:ℝ), (0:ℝ)) := by have := on 1000 0 (by norm_num) (by norm_num); norm_num at this; exact this
  have o4 : OnGrid ((1000:ℝ), (375:ℝ)) := by have := on 1000 375 (by norm_num) (by norm_num); norm_num at this; exact this
  have o5 : OnGrid ((0:ℝ), (375:ℝ)) := by have := on 0 375 (by norm_num) (by norm_num); norm_num at this; exact this
  have o6 : OnGrid ((500:ℝ), (0:ℝ)) := by have := on 500 0 (by norm_num) (by norm_num); norm_num at this; exact this
  have o7 : OnGrid ((500:ℝ), (500:ℝ)) := by have := on 500 500 (by norm_num) (by norm_num); norm_num at this; exact this
  have grid : ∀ p ∈ [((0:ℝ), (0:ℝ)), (500, 1000), (1000, 0)], OnGrid p := by
    intro p hp
    simp only [List.mem_cons, List.not_mem_nil, or_false] at hp
    rcases hp with rfl | rfl | rfl <;> assumption
  refine ⟨⟨_, Real.arccos, Real.rpow⟩, libm_axes, ?_, ?_⟩
  · obtain ⟨l, e, -, -, k⟩ := C117_scanline ⟨_, Real.arccos, Real.rpow⟩ libm_axes [(0, 0), (500, 1000), (1000, 0)] rfl grid (1000, 375) (0, 375) o4 o5
      (by simp) (by simp)
    have ac : ∀ p, acrossLine ((1000:ℝ), (375:ℝ)) (0, 375) p = 375 - p.2 := by
      intro p
      unfold acrossLine unitTo
      rw [if_neg (by simp)]
      simp only [sub_self, zero_sub]
      rw [show ((-1000 : ℝ)) ^ 2 + 0 ^ 2 = 1000 ^ 2 by norm_num, Real.sqrt_sq (by norm_num)]
      ring
    have iz : ∀ z, (z = 1 / 4 ∨ z = 3 / 4) →
        IsolatedZero (fun t => acrossLine ((1000:ℝ), (375:ℝ)) (0, 375) (curve [((0:ℝ), (0:ℝ)), (500, 1000), (1000, 0)] t)) z := by
      intro z hz
      refine ⟨⟨0, ?_⟩, ?_⟩
      · simp only [ac, curve_three]; norm_num
      · simp only [ac, curve_three]; rcases hz with rfl | rfl <;> norm_num
    refine ⟨l, e, k (1 / 4) (by norm_num) (by norm_num) (iz _ (.inl rfl)) ?_ ?_ ?_ ?_, k (3 / 4) (by norm_num) (by norm_num) (iz _ (.inr rfl)) ?_ ?_ ?_ ?_⟩ <;>
      rw [curve_three] <;> norm_num
  · obtain ⟨l, e, -, -, k⟩ := C117_scanline ⟨_, Real.arccos, Real.rpow⟩ libm_axes [(0, 0), (500, 1000), (1000, 0)] rfl grid (500, 0) (500, 500) o6 o7
      (by simp) (by simp)
    have ac : ∀ p, acrossLine ((500:ℝ), (0:ℝ)) (500, 500) p = 500 - p.1 := by
      intro p
      unfold acrossLine unitTo
      rw [if_neg (by simp)]
      simp only [sub_self, sub_zero]
      rw [show (0:ℝ) ^ 2 + 500 ^ 2 = 500 ^ 2 by norm_num, Real.sqrt_sq (by norm_num)]
      ring
    refine ⟨l, e, k (1 / 2) (by norm_num) (by norm_num) ⟨⟨0, ?_⟩, ?_⟩ ?_ ?_ ?_ ?_⟩ <;> simp only [ac, curve_three] <;> norm_num

end PathLib
