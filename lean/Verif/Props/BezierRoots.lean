import Verif.Props.BezierShape
import Verif.Lemmas.BezierBounds

set_option linter.unusedSectionVars false
set_option linter.unusedSimpArgs false

/-!
# Roots of a curve and intersections with a line: C43, C44, C66
-/

namespace PathLib
open Spec Bezier

/-! ## C43 -/

/-- `t` is in `[0, 1]` up to `1e-6`. -/
def Spec.NearUnit (t : ℝ) : Prop := -1e-6 ≤ t ∧ t ≤ 1 + 1e-6

private theorem mem_keepRoots (l : List (Option ℝ)) (t : ℝ) :
    t ∈ keepRoots l ↔ NearUnit t ∧ some t ∈ l := by
  have key : ((0 ≤ t ∧ t ≤ 1) ∨ butils.approximately t 0 = true ∨ butils.approximately t 1 = true) ↔ NearUnit t := by
    unfold butils.approximately butils.epsilon NearUnit
    simp only [decide_eq_true_eq, abs_le]
    norm_num
    constructor
    · rintro (h | h | h) <;> constructor <;> linarith
    · rintro ⟨h1, h2⟩
      by_cases h0 : 0 ≤ t
      · by_cases h3 : t ≤ 1
        · exact .inl ⟨h0, h3⟩
        · exact .inr (.inr ⟨by linarith, by linarith⟩)
      · exact .inr (.inl ⟨by linarith, by linarith⟩)
  unfold keepRoots
  rw [List.mem_filterMap]
  constructor
  · rintro ⟨a, ha, h⟩
    rw [Option.filter_eq_some_iff] at h
    obtain ⟨rfl, h⟩ := h
    exact ⟨key.mp (by simpa using h), ha⟩
  · rintro ⟨h1, h2⟩
    exact ⟨some t, h2, by rw [Option.filter_eq_some_iff]; exact ⟨rfl, by simpa using key.mpr h1⟩⟩

private theorem quadraticRoots_eq (a b c : ℝ) :
    quadraticRoots a b c = .ok (keepRoots (butils.droots [a, b, c])) := by
  unfold quadraticRoots butils.droots
  by_cases h : a - 2 * b + c ≠ 0
  · simp only [if_pos h, pure_eq_ok]
  · simp only [if_neg h]
    split_ifs with h2
    · rw [pdiv_of_ne _ (by intro e; exact h2.1 (by linarith))]
      simp only [ok_bind, pure_eq_ok]
      rw [show 2 * b - 2 * c = 2 * (b - c) by ring]
    · rfl

/-- C43: for a quadratic `roots()` returns exactly the zeros of the second coordinate within `1e-6` of `[0, 1]` (none when that
coordinate is zero everywhere). -/
theorem C43_quadratic (ps : Segment ℝ) (h : ps.length = 3) :
    ∃ l, roots ps none = .ok l ∧
      ∀ t, t ∈ l ↔ NearUnit t ∧ IsolatedZero (fun t => (curve ps t).2) t := by
  match ps, h with
  | [p, q, r], _ =>
    refine ⟨keepRoots (butils.droots [p.2, q.2, r.2]), ?_, ?_⟩
    · unfold roots
      have e : order [p, q, r] = 2 := rfl
      simp only [pure_eq_ok, ok_bind, if_pos e, pyGet_zero_cons, pyGet_one_cons, pyGet_two_cons]
      exact quadraticRoots_eq _ _ _
    · intro t
      rw [mem_keepRoots, droots_three]
      rfl

/-! The cubic case. -/

private theorem crt_cube (v : ℝ) : butils.crt v ^ 3 = v := C29_crt_cube v

private theorem cube_inj {x y : ℝ} (h : x ^ 3 = y ^ 3) : x = y :=
  (Odd.strictMono_pow (by decide : Odd 3)).injective h

private theorem crt_eq {v x : ℝ} (h : x ^ 3 = v) : butils.crt v = x := by
  apply cube_inj; rw [crt_cube, h]

/-- The sum under the square root in Cardano's formula for the monic cubic with coefficients `a`, `b`, `c`. -/
private noncomputable def disc (a b c : ℝ) : ℝ :=
  ((2 * a * a * a - 9 * a * b + 27 * c) / 27 / 2) * ((2 * a * a * a - 9 * a * b + 27 * c) / 27 / 2) +
  ((3 * b - a * a) / 3 / 3) * ((3 * b - a * a) / 3 / 3) * ((3 * b - a * a) / 3 / 3)

private theorem cos_add_third (x : ℝ) : Real.cos ((x + 2 * Real.pi) / 3) =
    -(Real.cos (x / 3)) / 2 - Real.sqrt 3 / 2 * Real.sin (x / 3) := by
  have e : (x + 2 * Real.pi) / 3 = x / 3 + (Real.pi - Real.pi / 3) := by ring
  rw [e, Real.cos_add, Real.cos_pi_sub, Real.sin_pi_sub, Real.cos_pi_div_three, Real.sin_pi_div_three]
  ring

private theorem cos_add_two_thirds (x : ℝ) : Real.cos ((x + 2 * (2 * Real.pi)) / 3) =
    -(Real.cos (x / 3)) / 2 + Real.sqrt 3 / 2 * Real.sin (x / 3) := by
  have e : (x + 2 * (2 * Real.pi)) / 3 = x / 3 + (Real.pi + Real.pi / 3) := by ring
  rw [e, Real.cos_add, Real.cos_add Real.pi, Real.sin_add Real.pi, Real.cos_pi_div_three, Real.sin_pi_div_three,
    Real.cos_pi, Real.sin_pi]
  ring

/-- `cardano` finds the roots of a monic cubic, unless the discriminant is positive and at most `1e-6`. -/
private theorem cardano_ok (a b c : ℝ) (h : disc a b c ≤ 0 ∨ 1e-6 < disc a b c) :
    ∃ l, cardano a b c = .ok l ∧
      ∀ t, t ∈ l ↔ NearUnit t ∧ t ^ 3 + a * t ^ 2 + b * t + c = 0 := by
  set p : ℝ := (3 * b - a * a) / 3 with hp
  set q : ℝ := (2 * a * a * a - 9 * a * b + 27 * c) / 27 with hq
  have hd : disc a b c = q / 2 * (q / 2) + p / 3 * (p / 3) * (p / 3) := rfl
  have poly : ∀ t : ℝ, t ^ 3 + a * t ^ 2 + b * t + c = (t + a / 3) ^ 3 + p * (t + a / 3) + q := by
    intro t; simp only [hp, hq]; ring
  rw [hd] at h
  unfold cardano
  simp only [← hp, ← hq]
  by_cases h1 : q / 2 * (q / 2) + p / 3 * (p / 3) * (p / 3) < 0
  · rw [if_pos h1]
    have hp0 : p < 0 := by
      by_contra hn
      push Not at hn
      have : 0 ≤ q / 2 * (q / 2) + p / 3 * (p / 3) * (p / 3) := by
        have h3 : 0 ≤ p / 3 := by linarith
        have := mul_self_nonneg (q / 2)
        positivity
      linarith
    set ρ : ℝ := Real.sqrt (-p / 3) with hρ
    have hρ2 : ρ ^ 2 = -p / 3 := Real.sq_sqrt (by linarith)
    have hρ0 : 0 < ρ := Real.sqrt_pos.mpr (by linarith)
    have hs : butils.sqrt (-p / 3 * (-p / 3) * (-p / 3)) = some (ρ ^ 3) := by
      unfold butils.sqrt
      have hpos : 0 ≤ -p / 3 * (-p / 3) * (-p / 3) := by
        have : 0 ≤ -p / 3 := by linarith
        positivity
      rw [if_neg (by linarith)]
      congr 1
      rw [← hρ2, show ρ ^ 2 * ρ ^ 2 * ρ ^ 2 = (ρ ^ 3) ^ 2 by ring]
      exact Real.sqrt_sq (by positivity)
    rw [hs]
    simp only
    have hr : (0:ℝ) < 2 * ρ ^ 3 := by positivity
    rw [pdiv_of_ne _ hr.ne', ok_bind]
    have hsq : (q / 2) ^ 2 < (ρ ^ 3) ^ 2 := by
      have : (ρ ^ 3) ^ 2 = (-p / 3) ^ 3 := by rw [← hρ2]; ring
      rw [this]; nlinarith [h1]
    have habs := abs_lt.mp (abs_lt_of_sq_lt_sq hsq (by positivity))
    have ht1 : ¬ -q / (2 * ρ ^ 3) < -1 := by
      rw [not_lt, le_div_iff₀ hr]; linarith [habs.2]
    have ht2 : ¬ -q / (2 * ρ ^ 3) > 1 := by
      rw [gt_iff_lt, not_lt, div_le_iff₀ hr]; linarith [habs.1]
    rw [if_neg ht1, if_neg ht2]
    have ha : acos (-q / (2 * ρ ^ 3)) = .ok (Real.arccos (-q / (2 * ρ ^ 3))) := by
      unfold acos
      rw [if_neg]
      rintro (h | h)
      · exact ht1 h
      · exact ht2 h
    rw [ha, ok_bind, crt_eq (show ρ ^ 3 = ρ ^ 3 from rfl)]
    set φ := Real.arccos (-q / (2 * ρ ^ 3)) with hφ
    have hcos : Real.cos φ = -q / (2 * ρ ^ 3) := Real.cos_arccos (not_lt.mp ht1) (not_lt.mp ht2)
    refine ⟨_, rfl, ?_⟩
    intro t
    rw [mem_keepRoots, poly t, cos_add_third, cos_add_two_thirds]
    apply and_congr_right
    intro _
    set y := t + a / 3 with hy
    set C := Real.cos (φ / 3)
    set S := Real.sin (φ / 3)
    have hCS : S ^ 2 + C ^ 2 = 1 := Real.sin_sq_add_cos_sq _
    have h3 : 4 * C ^ 3 - 3 * C = -q / (2 * ρ ^ 3) := by
      rw [← hcos, show φ = 3 * (φ / 3) by ring, Real.cos_three_mul]
    have hs3 : Real.sqrt 3 ^ 2 = 3 := Real.sq_sqrt (by norm_num)
    have hfac : (y - 2 * ρ * C) * (y - 2 * ρ * (-C / 2 - Real.sqrt 3 / 2 * S)) *
        (y - 2 * ρ * (-C / 2 + Real.sqrt 3 / 2 * S)) = y ^ 3 + p * y + q := by
      have e1 : q = -(2 * ρ ^ 3) * (4 * C ^ 3 - 3 * C) := by
        rw [h3]; field_simp
      have e2 : p = -3 * ρ ^ 2 := by rw [hρ2]; ring
      rw [e1, e2]
      have : (y - 2 * ρ * (-C / 2 - Real.sqrt 3 / 2 * S)) * (y - 2 * ρ * (-C / 2 + Real.sqrt 3 / 2 * S)) =
          (y + ρ * C) ^ 2 - Real.sqrt 3 ^ 2 * ρ ^ 2 * S ^ 2 := by ring
      rw [mul_assoc, this, hs3, show S ^ 2 = 1 - C ^ 2 by linarith]
      ring
    rw [← hfac, mul_eq_zero, mul_eq_zero]
    simp only [List.mem_cons, Option.some.injEq, List.not_mem_nil, or_false, hy]
    constructor
    · rintro (e | e | e)
      · left; left; rw [e]; ring
      · left; right; rw [e]; ring
      · right; rw [e]; ring
    · rintro ((e | e) | e)
      · left; linarith
      · right; left; linarith
      · right; right; linarith
  · rw [if_neg h1]
    push Not at h1
    rcases h with h | h
    · have h0 : q / 2 * (q / 2) + p / 3 * (p / 3) * (p / 3) = 0 := le_antisymm h h1
      have hap : butils.approximately (q / 2 * (q / 2) + p / 3 * (p / 3) * (p / 3)) 0 = true := by
        rw [h0]; unfold butils.approximately butils.epsilon; norm_num
      rw [if_pos hap]
      set u := -butils.crt (q / 2) with hu
      have hu1 : (if q / 2 < 0 then butils.crt (-(q / 2)) else -butils.crt (q / 2)) = u := by
        split_ifs
        · apply cube_inj; rw [crt_cube, hu]
          rw [show (-butils.crt (q / 2)) ^ 3 = -(butils.crt (q / 2) ^ 3) by ring, crt_cube]
        · rfl
      rw [hu1]
      refine ⟨_, rfl, ?_⟩
      intro t
      rw [mem_keepRoots, poly t]
      apply and_congr_right
      intro _
      have hu3 : u ^ 3 = -(q / 2) := by
        rw [hu, show (-butils.crt (q / 2)) ^ 3 = -(butils.crt (q / 2) ^ 3) by ring, crt_cube]
      have hp3 : p / 3 = -u ^ 2 := by
        apply cube_inj
        have : (u ^ 2) ^ 3 = (q / 2) ^ 2 := by rw [show (u ^ 2) ^ 3 = (u ^ 3) ^ 2 by ring, hu3]; ring
        rw [show (-u ^ 2) ^ 3 = -((u ^ 2) ^ 3) by ring, this]
        linarith [h0]
      set y := t + a / 3 with hy
      have hfac : (y - 2 * u) * (y + u) ^ 2 = y ^ 3 + p * y + q := by
        rw [show p = 3 * (-u ^ 2) by rw [← hp3]; ring, show q = -2 * u ^ 3 by rw [hu3]; ring]
        ring
      rw [← hfac, mul_eq_zero, pow_eq_zero_iff (by norm_num)]
      simp only [List.mem_cons, Option.some.injEq, List.not_mem_nil, or_false, hy]
      constructor
      · rintro (e | e)
        · left; rw [e]; ring
        · right; rw [e]; ring
      · rintro (e | e)
        · left; linarith
        · right; linarith
    · set δ := q / 2 * (q / 2) + p / 3 * (p / 3) * (p / 3) with hδ
      have hap : ¬ butils.approximately δ 0 = true := by
        unfold butils.approximately butils.epsilon
        rw [decide_eq_true_eq, sub_zero, abs_of_nonneg h1]
        norm_num at h ⊢
        exact h
      rw [if_neg hap]
      have hδ0 : 0 < δ := lt_trans (by norm_num) h
      have hs : butils.sqrt δ = some (Real.sqrt δ) := by
        unfold butils.sqrt; rw [if_neg (by linarith)]
      rw [hs]
      simp only
      set sd := Real.sqrt δ with hsd
      have hsd2 : sd ^ 2 = δ := Real.sq_sqrt hδ0.le
      have hsd0 : 0 < sd := Real.sqrt_pos.mpr hδ0
      set u := butils.crt (-(q / 2) + sd) with hu
      set v := butils.crt (q / 2 + sd) with hv
      have hu3 : u ^ 3 = -(q / 2) + sd := crt_cube _
      have hv3 : v ^ 3 = q / 2 + sd := crt_cube _
      have huv : u * v = p / 3 := by
        apply cube_inj
        rw [mul_pow, hu3, hv3, show (-(q / 2) + sd) * (q / 2 + sd) = sd ^ 2 - (q / 2) ^ 2 by ring, hsd2, hδ]
        ring
      refine ⟨_, rfl, ?_⟩
      intro t
      rw [mem_keepRoots, poly t]
      apply and_congr_right
      intro _
      set y := t + a / 3 with hy
      have hfac : (y - (u - v)) * ((y + (u - v) / 2) ^ 2 + 3 / 4 * (u + v) ^ 2) = y ^ 3 + p * y + q := by
        rw [show p = 3 * (u * v) by rw [huv]; ring, show q = v ^ 3 - u ^ 3 by rw [hu3, hv3]; ring]
        ring
      have hne : u + v ≠ 0 := by
        intro e
        have e2 : u = -v := by linarith
        have : u ^ 3 + v ^ 3 = 2 * sd := by rw [hu3, hv3]; ring
        rw [e2] at this
        have : 0 = 2 * sd := by rw [← this]; ring
        linarith
      have hpos : 0 < (y + (u - v) / 2) ^ 2 + 3 / 4 * (u + v) ^ 2 := by
        have := sq_nonneg (y + (u - v) / 2)
        have : 0 < (u + v) ^ 2 := by positivity
        linarith
      rw [← hfac, mul_eq_zero, or_iff_left hpos.ne']
      simp only [List.mem_cons, Option.some.injEq, List.not_mem_nil, or_false, hy]
      constructor
      · intro e; rw [e]; ring
      · intro e; linarith

/-- The coefficients of the cubic polynomial with Bernstein coefficients `pa`, `pb`, `pc`, `pd`, highest first. -/
def Spec.cubicCoefficients (pa pb pc pd : ℝ) : ℝ × ℝ × ℝ × ℝ :=
  (-pa + 3 * pb - 3 * pc + pd, 3 * pa - 6 * pb + 3 * pc, -3 * pa + 3 * pb, pa)

/-- The discriminant of the monic cubic `t^3 + a t^2 + b t + c`. -/
def Spec.monicDiscriminant (a b c : ℝ) : ℝ :=
  a ^ 2 * b ^ 2 - 4 * b ^ 3 - 4 * a ^ 3 * c + 18 * a * b * c - 27 * c ^ 2

/-- A number the code does not confuse with zero: it is zero, or larger than `1e-6` in absolute value. -/
def Spec.Clear (x : ℝ) : Prop := x = 0 ∨ 1e-6 < |x|

/-- The coefficients `d t^3 + a t^2 + b t + c` are not near the borders between the cases the code distinguishes: the leading
coefficient is zero or larger than `1e-6`, and a cubic either has only real roots (discriminant at least zero) or its discriminant
is below `-1.08e-4`. -/
def Spec.WellConditioned (d a b c : ℝ) : Prop :=
  Clear d ∧ (d = 0 → Clear a) ∧ (d = 0 → a = 0 → Clear b) ∧
  (d ≠ 0 → 0 ≤ monicDiscriminant (a / d) (b / d) (c / d) ∨ monicDiscriminant (a / d) (b / d) (c / d) < -1.08e-4)

private theorem disc_eq (a b c : ℝ) : monicDiscriminant a b c = -108 * disc a b c := by
  unfold monicDiscriminant disc; ring

private theorem approx_zero_iff {x : ℝ} (h : Clear x) : butils.approximately x 0 = true ↔ x = 0 := by
  unfold butils.approximately butils.epsilon
  rw [decide_eq_true_eq, sub_zero]
  constructor
  · intro h2
    rcases h with h | h
    · exact h
    · norm_num at h h2; linarith
  · rintro rfl; norm_num

private theorem isolated_iff (t : ℝ) (f : ℝ → ℝ) (d a b c : ℝ)
    (hf : ∀ t, f t = d * t ^ 3 + a * t ^ 2 + b * t + c) :
    IsolatedZero f t ↔ ¬ (d = 0 ∧ a = 0 ∧ b = 0 ∧ c = 0) ∧ d * t ^ 3 + a * t ^ 2 + b * t + c = 0 := by
  unfold IsolatedZero
  rw [hf]
  apply and_congr_left
  intro _
  constructor
  · rintro ⟨s, hs⟩ ⟨rfl, rfl, rfl, rfl⟩
    rw [hf] at hs; simp at hs
  · intro hn
    by_contra hs
    push Not at hs
    have h0 := hs 0; have h1 := hs 1; have h2 := hs (-1); have h3 := hs 2
    rw [hf] at h0 h1 h2 h3
    norm_num at h0 h1 h2 h3
    exact hn ⟨by linarith, by linarith, by linarith, by linarith⟩

private theorem cubicRoots_ok (pa pb pc pd d a b c : ℝ) (hc : cubicCoefficients pa pb pc pd = (d, a, b, c))
    (h : WellConditioned d a b c) :
    ∃ l, cubicRoots pa pb pc pd = .ok l ∧
      ∀ t, t ∈ l ↔ NearUnit t ∧ ¬ (d = 0 ∧ a = 0 ∧ b = 0 ∧ c = 0) ∧ d * t ^ 3 + a * t ^ 2 + b * t + c = 0 := by
  unfold cubicCoefficients at hc
  simp only [Prod.mk.injEq] at hc
  obtain ⟨e1, e2, e3, rfl⟩ := hc
  obtain ⟨c1, c2, c3, c4⟩ := h
  unfold cubicRoots
  simp only [e1, e2, e3]
  by_cases hd : d = 0
  · rw [if_pos ((approx_zero_iff c1).mpr hd)]
    by_cases ha : a = 0
    · rw [if_pos ((approx_zero_iff (c2 hd)).mpr ha)]
      by_cases hb : b = 0
      · rw [if_pos ((approx_zero_iff (c3 hd ha)).mpr hb)]
        refine ⟨[], rfl, ?_⟩
        intro t
        subst hd ha hb
        simp
      · rw [if_neg (by rw [approx_zero_iff (c3 hd ha)]; exact hb), pdiv_of_ne _ hb]
        refine ⟨_, rfl, ?_⟩
        intro t
        rw [mem_keepRoots]
        apply and_congr_right
        intro _
        subst hd ha
        simp only [List.mem_singleton, Option.some.injEq, hb, false_and, and_false, not_false_eq_true, true_and]
        rw [eq_div_iff hb]
        constructor <;> intro h <;> linarith
    · rw [if_neg (by rw [approx_zero_iff (c2 hd)]; exact ha)]
      subst hd
      have ha2 : 2 * a ≠ 0 := by simpa using ha
      unfold butils.sqrt
      have sq : ∀ t, 4 * a * (0 * t ^ 3 + a * t ^ 2 + b * t + pa) = (2 * a * t + b) ^ 2 - (b * b - 4 * a * pa) := by
        intro t; ring
      by_cases hn : b * b - 4 * a * pa < 0
      · rw [if_pos hn]
        refine ⟨[], rfl, ?_⟩
        intro t
        simp only [List.not_mem_nil, false_iff]
        rintro ⟨_, _, h⟩
        have := sq t
        rw [h] at this
        nlinarith [sq_nonneg (2 * a * t + b)]
      · rw [if_neg hn]
        simp only
        rw [pdiv_of_ne _ ha2, ok_bind, pdiv_of_ne _ ha2, ok_bind]
        refine ⟨_, rfl, ?_⟩
        intro t
        rw [mem_keepRoots]
        apply and_congr_right
        intro _
        set r := Real.sqrt (b * b - 4 * a * pa) with hr
        have hr2 : r ^ 2 = b * b - 4 * a * pa := Real.sq_sqrt (by linarith)
        simp only [List.mem_cons, Option.some.injEq, List.not_mem_nil, or_false, ha, false_and, and_false,
          not_false_eq_true, true_and]
        rw [eq_div_iff ha2, eq_div_iff ha2]
        have fac : 4 * a * (0 * t ^ 3 + a * t ^ 2 + b * t + pa) = (2 * a * t + b - r) * (2 * a * t + b + r) := by
          rw [sq t, ← hr2]; ring
        have h4a : 4 * a ≠ 0 := by simpa using ha
        constructor
        · intro h
          refine mul_left_cancel₀ h4a ?_
          rw [fac, mul_zero, mul_eq_zero]
          rcases h with h | h
          · left; linarith
          · right; linarith
        · intro h
          rw [h, mul_zero] at fac
          rcases mul_eq_zero.mp fac.symm with h | h
          · left; linarith
          · right; linarith
  · rw [if_neg (by rw [approx_zero_iff c1]; exact hd), pdiv_of_ne _ hd, pdiv_of_ne _ hd, pdiv_of_ne _ hd]
    simp only [ok_bind]
    obtain ⟨l, h1, h2⟩ := cardano_ok (a / d) (b / d) (pa / d) (by
      rcases c4 hd with h | h
      · left; rw [disc_eq] at h; linarith
      · right; rw [disc_eq] at h; norm_num at h ⊢; linarith)
    refine ⟨l, h1, ?_⟩
    intro t
    rw [h2]
    apply and_congr_right
    intro _
    simp only [hd, false_and, not_false_eq_true, true_and]
    have : d * t ^ 3 + a * t ^ 2 + b * t + pa = d * (t ^ 3 + a / d * t ^ 2 + b / d * t + pa / d) := by
      field_simp
    rw [this, mul_eq_zero, or_iff_right hd]

/-- C43: for a well-conditioned cubic `roots()` returns exactly the zeros of the second coordinate within `1e-6` of `[0, 1]`. -/
theorem C43_cubic (p q r s : Pt ℝ) (d a b c : ℝ) (hc : cubicCoefficients p.2 q.2 r.2 s.2 = (d, a, b, c))
    (h : WellConditioned d a b c) :
    ∃ l, roots [p, q, r, s] none = .ok l ∧
      ∀ t, t ∈ l ↔ NearUnit t ∧ IsolatedZero (fun t => (curve [p, q, r, s] t).2) t := by
  obtain ⟨l, h1, h2⟩ := cubicRoots_ok p.2 q.2 r.2 s.2 d a b c hc h
  refine ⟨l, ?_, ?_⟩
  · unfold roots
    have e : ¬ order [p, q, r, s] = 2 := by simp [order]
    simp only [pure_eq_ok, ok_bind, if_neg e, pyGet_zero_cons, pyGet_one_cons, pyGet_two_cons, pyGet_three_cons]
    exact h1
  · intro t
    rw [h2, isolated_iff t _ d a b c]
    intro t
    unfold cubicCoefficients at hc
    simp only [Prod.mk.injEq] at hc
    obtain ⟨rfl, rfl, rfl, rfl⟩ := hc
    rw [curve_four]
    ring

/-- C43: a line raises `IndexError`. -/
theorem C43_line (p q : Pt ℝ) : roots [p, q] none = .error .indexError := by
  simp [roots, order, pyGet]

/-- C43 does not hold for cubics whose discriminant is near zero: with ordinates -1, -1, -1 and 999 the second coordinate is
`1000 t^3 - 1` with the only zero `1/10`, but `roots()` returns a single value, at which that coordinate is 3. -/
theorem C43_discriminant_counterexample :
    ∃ t, roots [(0, -1), (1, -1), (2, -1), (3, 999)] none = .ok [t] ∧
      (curve [((0:ℝ), (-1:ℝ)), (1, -1), (2, -1), (3, 999)] t).2 = 3 ∧
      (curve [((0:ℝ), (-1:ℝ)), (1, -1), (2, -1), (3, 999)] (1 / 10)).2 = 0 := by
  set u := butils.crt (1 / 2000) with hu
  have hu3 : u ^ 3 = 1 / 2000 := crt_cube _
  have h1 : u < 1 / 2 := by
    by_contra hn
    push Not at hn
    have : (1 / 2 : ℝ) ^ 3 ≤ u ^ 3 := by gcongr
    norm_num [hu3] at this
  have h0 : 1 / 1000 < u := by
    by_contra hn
    push Not at hn
    have : u ^ 3 ≤ (1 / 1000 : ℝ) ^ 3 := (Odd.strictMono_pow (by decide : Odd 3)).monotone hn
    norm_num [hu3] at this
  refine ⟨2 * u, ?_, ?_, ?_⟩
  · unfold roots
    have e : ¬ order [((0:ℝ), (-1:ℝ)), (1, -1), (2, -1), (3, 999)] = 2 := by simp [order]
    simp only [pure_eq_ok, ok_bind, if_neg e, pyGet_zero_cons, pyGet_one_cons, pyGet_two_cons, pyGet_three_cons]
    unfold cubicRoots butils.approximately butils.epsilon
    norm_num
    simp only [pdiv_of_ne _ (show (1000:ℝ) ≠ 0 by norm_num), ok_bind]
    unfold cardano butils.approximately butils.epsilon
    norm_num
    rw [← hu]
    unfold keepRoots butils.approximately butils.epsilon
    have k1 : 0 ≤ 2 * u ∧ 2 * u ≤ 1 := ⟨by linarith, by linarith⟩
    have k2 : ¬ (0 ≤ -u) := by linarith
    have k3 : ¬ |-u| ≤ 1 / 1000000 := by rw [abs_neg, abs_of_pos (by linarith)]; linarith
    have k4 : ¬ |-u - 1| ≤ 1 / 1000000 := by
      rw [abs_of_neg (by linarith)]; linarith
    have k5 : ¬ (|u| ≤ 1000000⁻¹ ∨ |-u - 1| ≤ 1000000⁻¹) := by
      rw [abs_neg] at k3
      norm_num at k3 k4 ⊢
      exact ⟨k3, k4⟩
    simp [List.filterMap, Option.filter, k1, k2, k5]
  · rw [curve_four]
    have : (2 * u) ^ 3 = 1 / 250 := by rw [mul_pow, hu3]; norm_num
    simp only
    linear_combination 1000 * this
  · rw [curve_four]; norm_num

/-- A well-conditioned cubic with three zeros. -/
example : cubicCoefficients (-1) 1 (-1) 1 = (8, -12, 6, -1) ∧ WellConditioned 8 (-12) 6 (-1) := by
  refine ⟨by unfold cubicCoefficients; norm_num, ?_⟩
  unfold WellConditioned Clear monicDiscriminant
  norm_num

example : IsolatedZero (fun t => (curve [((0:ℝ), (1:ℝ)), (1, -1), (2, 1)] t).2) (1 / 2) := by
  refine ⟨⟨0, ?_⟩, ?_⟩ <;> · simp only [curve_three]; norm_num

/-! ## C66: roots with a segment -/

theorem alignMap_affine (first : Pt ℝ) (angle : ℝ) : ∃ a b c d m n,
    alignMap first angle = affineMap a b c d m n :=
  ⟨Transform.cos (-angle), Transform.sin (-angle), -Transform.sin (-angle), Transform.cos (-angle),
    -(Transform.cos (-angle) * first.1) + Transform.sin (-angle) * first.2,
    -(Transform.sin (-angle) * first.1) - Transform.cos (-angle) * first.2, by
      funext p; unfold alignMap affineMap; ext <;> simp <;> ring⟩

/-- C66: `roots(segment)` is `roots()` of the aligned control points. -/
theorem C66_roots_aligned (ps qs segment : Segment ℝ) (h : segment ≠ [])
    (hq : alignPoints ps segment = .ok qs) : roots ps (some segment) = roots qs none := by
  match segment, h with
  | s :: rest, _ =>
    unfold roots
    simp only [hq, ok_bind, pure_eq_ok]

/-- C66: alignment commutes with evaluation, and the second coordinate of an aligned curve point is its distance from the line
through the ends of the segment, up to the rounding of sine and cosine. -/
theorem C66_align_distance (ps segment : Segment ℝ) (hp : ps ≠ []) (h : segment ≠ [])
    (hne : segment.getLast h ≠ segment.head h) :
    ∃ θ qs, alignPoints ps segment = .ok qs ∧ qs.length = ps.length ∧
      signedDist (segment.head h) θ (segment.getLast h) = 0 ∧
      0 < along (segment.head h) θ (segment.getLast h) ∧
      ∀ t, |(curve qs t).2 - signedDist (segment.head h) θ (curve ps t)| ≤
        5e-16 * (|(curve ps t).1 - (segment.head h).1| + |(curve ps t).2 - (segment.head h).2|) := by
  obtain ⟨ang, len, h1, h2, h3, h4, h5⟩ := C17_rawSlopeAngle segment h
  have h0 : pyGet segment 0 = .ok (segment.head h) := by
    match segment, h with
    | a :: l, _ => rfl
  have ok := fun points => alignPoints_ok points segment _ _ h0 h1
  have key : ∀ p : Pt ℝ, |(alignMap (segment.head h) ang p).2 -
      signedDist (segment.head h) (ang * Real.pi / 180) p| ≤
        5e-16 * (|p.1 - (segment.head h).1| + |p.2 - (segment.head h).2|) := by
    intro p
    have es := sin_err (-ang)
    have ec := cos_err (-ang)
    rw [show -ang * Real.pi / 180 = -(ang * Real.pi / 180) by ring, Real.sin_neg] at es
    rw [show -ang * Real.pi / 180 = -(ang * Real.pi / 180) by ring, Real.cos_neg] at ec
    have e : (alignMap (segment.head h) ang p).2 - signedDist (segment.head h) (ang * Real.pi / 180) p =
        (Transform.sin (-ang) - -Real.sin (ang * Real.pi / 180)) * (p.1 - (segment.head h).1) +
        (Transform.cos (-ang) - Real.cos (ang * Real.pi / 180)) * (p.2 - (segment.head h).2) := by
      unfold alignMap signedDist; simp only; ring
    rw [e]
    refine (abs_add_le _ _).trans ?_
    rw [abs_mul, abs_mul, mul_add]
    gcongr
  have hd : signedDist (segment.head h) (ang * Real.pi / 180) (segment.getLast h) = 0 ∧
      0 < along (segment.head h) (ang * Real.pi / 180) (segment.getLast h) := by
    obtain ⟨e1, e2⟩ := h5 hne
    unfold signedDist along
    rw [← e1, ← e2]
    refine ⟨by ring, ?_⟩
    have hlen : 0 ≤ len := by
      unfold PathUtilities.length at h2
      obtain ⟨d, _, h2⟩ := bind_eq_ok.mp h2
      simp only [pure_eq_ok, Except.ok.injEq] at h2
      rw [← h2]
      exact Real.sqrt_nonneg _
    have hne0 : len ≠ 0 := by
      intro e; rw [e] at e1 e2
      apply hne
      exact Prod.ext (by linarith) (by linarith)
    have : Real.cos (ang * Real.pi / 180) * (len * Real.cos (ang * Real.pi / 180)) +
        Real.sin (ang * Real.pi / 180) * (len * Real.sin (ang * Real.pi / 180)) = len := by
      linear_combination len * Real.sin_sq_add_cos_sq (ang * Real.pi / 180)
    rw [this]
    exact lt_of_le_of_ne hlen (Ne.symm hne0)
  refine ⟨ang * Real.pi / 180, _, ok ps, by simp, hd.1, hd.2, ?_⟩
  intro t
  obtain ⟨a, b, c, d, m, n, e⟩ := alignMap_affine (segment.head h) ang
  have := key (curve ps t)
  rw [e] at this
  rw [e, curve_affine _ _ _ _ _ _ ps hp]
  exact this

/-- C66: every parameter `roots(segment)` returns for a quadratic is near `[0, 1]`, and the curve point is on the line through the
ends of the segment, up to the rounding of sine and cosine. -/
theorem C66_roots_quadratic (ps segment : Segment ℝ) (hp : ps.length = 3) (h : segment ≠ [])
    (hne : segment.getLast h ≠ segment.head h) :
    ∃ θ l, roots ps (some segment) = .ok l ∧
      signedDist (segment.head h) θ (segment.getLast h) = 0 ∧
      ∀ t ∈ l, NearUnit t ∧ |signedDist (segment.head h) θ (curve ps t)| ≤
        5e-16 * (|(curve ps t).1 - (segment.head h).1| + |(curve ps t).2 - (segment.head h).2|) := by
  have hp0 : ps ≠ [] := by intro e; rw [e] at hp; simp at hp
  obtain ⟨θ, qs, hq, hl, h1, _, h3⟩ := C66_align_distance ps segment hp0 h hne
  obtain ⟨l, h4, h5⟩ := C43_quadratic qs (by omega)
  refine ⟨θ, l, by rw [C66_roots_aligned ps qs segment h hq, h4], h1, ?_⟩
  intro t ht
  obtain ⟨h6, _, h7⟩ := (h5 t).mp ht
  refine ⟨h6, ?_⟩
  have := h3 t
  simp only at h7
  rwa [h7, zero_sub, abs_neg] at this

/-- C66: the same for cubics whose aligned ordinates are well-conditioned. -/
theorem C66_roots_cubic (ps segment : Segment ℝ) (hp : ps.length = 4) (h : segment ≠ [])
    (hne : segment.getLast h ≠ segment.head h)
    (hw : ∀ p q r s, alignPoints ps segment = .ok [p, q, r, s] → ∀ d a b c,
      cubicCoefficients p.2 q.2 r.2 s.2 = (d, a, b, c) → WellConditioned d a b c) :
    ∃ θ l, roots ps (some segment) = .ok l ∧
      signedDist (segment.head h) θ (segment.getLast h) = 0 ∧
      ∀ t ∈ l, NearUnit t ∧ |signedDist (segment.head h) θ (curve ps t)| ≤
        5e-16 * (|(curve ps t).1 - (segment.head h).1| + |(curve ps t).2 - (segment.head h).2|) := by
  have hp0 : ps ≠ [] := by intro e; rw [e] at hp; simp at hp
  obtain ⟨θ, qs, hq, hl, h1, _, h3⟩ := C66_align_distance ps segment hp0 h hne
  rw [hp] at hl
  match qs, hl with
  | [p, q, r, s], _ =>
    obtain ⟨l, h4, h5⟩ := C43_cubic p q r s _ _ _ _ rfl (hw p q r s hq _ _ _ _ rfl)
    refine ⟨θ, l, by rw [C66_roots_aligned ps _ segment h hq, h4], h1, ?_⟩
    intro t ht
    obtain ⟨h6, _, h7⟩ := (h5 t).mp ht
    refine ⟨h6, ?_⟩
    have := h3 t
    simp only at h7
    rwa [h7, zero_sub, abs_neg] at this

/-- C66: for a horizontal segment from left to right there is no rounding: the result for a quadratic is exactly the list of
parameters near `[0, 1]` where the curve crosses the line. -/
theorem C66_roots_horizontal (ps : Segment ℝ) (hp : ps.length = 3) (x0 x1 y : ℝ) (hx : x0 < x1) :
    ∃ l, roots ps (some [(x0, y), (x1, y)]) = .ok l ∧
      ∀ t, t ∈ l ↔ NearUnit t ∧ IsolatedZero (fun t => (curve ps t).2 - y) t := by
  have hp0 : ps ≠ [] := by intro e; rw [e] at hp; simp at hp
  have ha : PathUtilities.rawSlopeAngle [(x0, y), (x1, y)] = .ok 0 := by
    obtain ⟨ang, len, h1, h2, h3, h4, h5⟩ := C17_rawSlopeAngle [(x0, y), (x1, y)] (by simp)
    unfold PathUtilities.rawSlopeAngle PathUtilities.getDeltas PathUtilities.endPoints
    simp [PathUtilities.degrees, butils.atan2, pyGet_neg_one]
    exact Complex.arg_ofReal_of_nonneg (x := x1 - x0) (by linarith)
  have hq := alignPoints_ok ps [(x0, y), (x1, y)] (x0, y) 0 rfl ha
  have hm : alignMap (x0, y) 0 = affineMap 1 0 0 1 (-x0) (-y) := by
    funext p
    unfold alignMap affineMap
    have hs : Transform.sin (-0) = 0 := by unfold Transform.sin Transform.radians; simp [round15_zero]
    have hc : Transform.cos (-0) = 1 := by unfold Transform.cos Transform.radians; simp [round15_one]
    rw [hs, hc]
    ext <;> simp <;> ring
  rw [hm] at hq
  obtain ⟨l, h4, h5⟩ := C43_quadratic (ps.map (affineMap 1 0 0 1 (-x0) (-y))) (by simpa using hp)
  refine ⟨l, by rw [C66_roots_aligned ps _ _ (by simp) hq, h4], ?_⟩
  intro t
  rw [h5]
  have : (fun t => (curve (ps.map (affineMap 1 0 0 1 (-x0) (-y))) t).2) = fun t => (curve ps t).2 - y := by
    funext t
    rw [curve_affine _ _ _ _ _ _ ps hp0]
    unfold affineMap; simp; ring
  rw [this]

/-! ## C44 -/

/-- `p` is in the bounding box of `a` and `b`, up to `1e-6`. -/
def Spec.NearBox (a b p : Pt ℝ) : Prop :=
  (min a.1 b.1 - 1e-6 ≤ p.1 ∧ p.1 ≤ max a.1 b.1 + 1e-6) ∧ (min a.2 b.2 - 1e-6 ≤ p.2 ∧ p.2 ≤ max a.2 b.2 + 1e-6)

private theorem between_iff (v a b : ℝ) : butils.between v (pyMin a b) (pyMax a b) = true ↔
    min a b - 1e-6 ≤ v ∧ v ≤ max a b + 1e-6 := by
  have e1 : pyMin a b = min a b := by
    unfold pyMin; rcases lt_or_ge b a with h | h
    · rw [if_pos h, min_eq_right h.le]
    · rw [if_neg (not_lt.mpr h), min_eq_left h]
  have e2 : pyMax a b = max a b := by
    unfold pyMax; rcases lt_or_ge a b with h | h
    · rw [if_pos h, max_eq_right h.le]
    · rw [if_neg (not_lt.mpr h), max_eq_left h]
  rw [e1, e2]
  have hle : min a b ≤ max a b := min_le_max
  generalize min a b = m at *
  generalize max a b = M at *
  unfold butils.between butils.approximately butils.epsilon
  simp only [Bool.or_eq_true, Bool.and_eq_true, decide_eq_true_eq, abs_le]
  norm_num
  constructor
  · rintro (h | h | h) <;> constructor <;> linarith
  · rintro ⟨h1, h2⟩
    by_cases h3 : m ≤ v
    · by_cases h4 : v ≤ M
      · exact .inl ⟨h3, h4⟩
      · exact .inr (.inr ⟨by linarith, by linarith⟩)
    · exact .inr (.inl ⟨by linarith, by linarith⟩)

/-- C44: `lineIntersects(line)` keeps exactly the parameters returned by `roots(line)` whose points are in the box of the line, in
the same order; it raises exactly when `roots` does. -/
theorem C44_lineIntersects (ps : Segment ℝ) (hp : ps ≠ []) (p1 p2 : Pt ℝ) :
    (∀ l, roots ps (some [p1, p2]) = .ok l → ∃ inBox : ℝ → Bool,
      (∀ t, inBox t = true ↔ NearBox p1 p2 (curve ps t)) ∧ lineIntersects ps p1 p2 = .ok (l.filter inBox)) ∧
    (∀ e, roots ps (some [p1, p2]) = .error e → lineIntersects ps p1 p2 = .error e) := by
  constructor
  · intro l hl
    refine ⟨fun t => butils.between (curve ps t).1 (pyMin p1.1 p2.1) (pyMax p1.1 p2.1) &&
      butils.between (curve ps t).2 (pyMin p1.2 p2.2) (pyMax p1.2 p2.2), ?_, ?_⟩
    · intro t
      rw [Bool.and_eq_true, between_iff, between_iff]; rfl
    · unfold lineIntersects
      rw [hl, ok_bind]
      apply filterM_ok
      intro t _
      rw [get_ok ps hp]; rfl
  · intro e he
    unfold lineIntersects
    rw [he]; rfl

/-- C44: for a quadratic the points at the returned parameters are in the box of the line up to `1e-6` and on the line up to the
rounding of sine and cosine. -/
theorem C44_on_line (ps : Segment ℝ) (hp : ps.length = 3) (p1 p2 : Pt ℝ) (hne : p2 ≠ p1) :
    ∃ θ r, lineIntersects ps p1 p2 = .ok r ∧ signedDist p1 θ p2 = 0 ∧
      ∀ t ∈ r, NearUnit t ∧ NearBox p1 p2 (curve ps t) ∧
        |signedDist p1 θ (curve ps t)| ≤ 5e-16 * (|(curve ps t).1 - p1.1| + |(curve ps t).2 - p1.2|) := by
  have hp0 : ps ≠ [] := by intro e; rw [e] at hp; simp at hp
  obtain ⟨θ, l, h1, h2, h3⟩ := C66_roots_quadratic ps [p1, p2] hp (by simp) hne
  obtain ⟨g, h4, h5⟩ := (C44_lineIntersects ps hp0 p1 p2).1 l h1
  refine ⟨θ, _, h5, h2, ?_⟩
  intro t ht
  rw [List.mem_filter] at ht
  obtain ⟨h6, h7⟩ := h3 t ht.1
  exact ⟨h6, (h4 t).mp ht.2, h7⟩

/-- A curve crossing a line inside its box. -/
example : ([((0:ℝ), (0:ℝ)), (1, 2), (2, 0)] : Segment ℝ).length = 3 ∧ ((2:ℝ), (1:ℝ)) ≠ (0, 1) ∧
    NearBox (0, 1) (2, 1) (curve [((0:ℝ), (0:ℝ)), (1, 2), (2, 0)] (1 / 2)) := by
  refine ⟨rfl, by simp, ?_⟩
  simp only [NearBox, curve_three]
  norm_num

/-! ## C69 -/

/-- C69: `intersectWithLine` of a curve of order 1 is the common point of the two infinite lines. -/
theorem C69_line (a b c d : Pt ℝ) : intersectWithLine [a, b] [c, d] = butils.lli [a, b] [c, d] := by
  simp [intersectWithLine, order]

private theorem keepRoots_near (l : List (Option ℝ)) : ∀ t ∈ keepRoots l, NearUnit t := fun t ht => ((mem_keepRoots l t).mp ht).1

private theorem keepRoots_length (l : List (Option ℝ)) : (keepRoots l).length ≤ l.length := List.length_filterMap_le _ _

private theorem cardano_total (a b c : ℝ) : ∃ l, cardano a b c = .ok l ∧ l.length ≤ 3 ∧ ∀ t ∈ l, NearUnit t := by
  unfold cardano
  simp only
  split_ifs with h1 h2 h3
  · set p := (3 * b - a * a) / 3 with hp
    set q2 := (2 * a * a * a - 9 * a * b + 27 * c) / 27 / 2
    have hm : 0 < -p / 3 * (-p / 3) * (-p / 3) := by nlinarith [mul_self_nonneg q2]
    have hs : butils.sqrt (-p / 3 * (-p / 3) * (-p / 3)) = some (Real.sqrt (-p / 3 * (-p / 3) * (-p / 3))) := by
      unfold butils.sqrt
      rw [if_neg (by linarith)]
    have hr : 2 * Real.sqrt (-p / 3 * (-p / 3) * (-p / 3)) ≠ 0 := by
      have := Real.sqrt_pos.mpr hm
      linarith
    rw [hs]
    simp only [pdiv_of_ne _ hr, ok_bind]
    rw [show ∀ x : ℝ, acos (if x < -1 then -1 else if x > 1 then 1 else x) =
        .ok (Real.arccos (if x < -1 then -1 else if x > 1 then 1 else x)) from fun x => by
      unfold acos
      rw [if_neg]
      split_ifs <;> rintro (h | h) <;> linarith]
    exact ⟨_, rfl, keepRoots_length _, keepRoots_near _⟩
  · exact ⟨_, rfl, (keepRoots_length _).trans (by simp), keepRoots_near _⟩
  · exact ⟨_, rfl, (keepRoots_length _).trans (by simp), keepRoots_near _⟩
  · split
    · exact ⟨_, rfl, by simp, by simp⟩
    · exact ⟨_, rfl, (keepRoots_length _).trans (by simp), keepRoots_near _⟩

private theorem cubicRoots_total (pa pb pc pd : ℝ) :
    ∃ l, cubicRoots pa pb pc pd = .ok l ∧ l.length ≤ 3 ∧ ∀ t ∈ l, NearUnit t := by
  have ne : ∀ x : ℝ, ¬ butils.approximately x 0 = true → x ≠ 0 := by
    rintro x hx rfl
    exact hx (by simp [butils.approximately, butils.epsilon])
  unfold cubicRoots
  simp only
  split_ifs with h1 h2 h3
  · exact ⟨_, rfl, by simp, by simp⟩
  · rw [pdiv_of_ne _ (ne _ h3), ok_bind]
    exact ⟨_, rfl, (keepRoots_length _).trans (by simp), keepRoots_near _⟩
  · split
    · exact ⟨_, rfl, by simp, by simp⟩
    · have h := ne _ h2
      simp only [pdiv_of_ne _ (show 2 * (3 * pa - 6 * pb + 3 * pc) ≠ 0 by simpa using h), ok_bind]
      exact ⟨_, rfl, (keepRoots_length _).trans (by simp), keepRoots_near _⟩
  · simp only [pdiv_of_ne _ (ne _ h1), ok_bind]
    exact cardano_total _ _ _

/-- C43: for every curve of order 2 and above and every line, `roots` returns at most three parameters, all within `1e-6` of
`[0, 1]`. -/
theorem C43_total (ps : Segment ℝ) (h : 3 ≤ ps.length) (segment : Option (Segment ℝ)) :
    ∃ l, roots ps segment = .ok l ∧ l.length ≤ 3 ∧ ∀ t ∈ l, NearUnit t := by
  have key : ∀ qs : Segment ℝ, 3 ≤ qs.length → ∃ l, (if order qs = 2 then do
      quadraticRoots (← pyGet qs 0).2 (← pyGet qs 1).2 (← pyGet qs 2).2
      else do cubicRoots (← pyGet qs 0).2 (← pyGet qs 1).2 (← pyGet qs 2).2 (← pyGet qs 3).2) = Except.ok l ∧
      l.length ≤ 3 ∧ ∀ t ∈ l, NearUnit t := by
    intro qs hq
    match qs, hq with
    | [a, b, c], _ =>
      rw [if_pos (by simp [order])]
      simp only [pyGet_zero_cons, pyGet_one_cons, pyGet_two_cons, ok_bind, quadraticRoots_eq]
      refine ⟨_, rfl, (keepRoots_length _).trans ?_, keepRoots_near _⟩
      unfold butils.droots
      simp only
      split_ifs <;> simp
    | a :: b :: c :: d :: rest, _ =>
      rw [if_neg (by simp [order]; omega)]
      simp only [pyGet_zero_cons, pyGet_one_cons, pyGet_two_cons, pyGet_three_cons, ok_bind]
      exact cubicRoots_total _ _ _ _
  match segment with
  | none => exact key ps h
  | some [] => exact key ps h
  | some (s :: rest) =>
    obtain ⟨_, qs, hq, hl, -⟩ := C66_align ps (s :: rest) (by simp)
    have : roots ps (some (s :: rest)) = roots qs none := C66_roots_aligned ps qs (s :: rest) (by simp) hq
    rw [this]
    exact key qs (by omega)

/-- C43: curves of order above 3 are treated like the cubic with the first four control points. -/
theorem C43_high_order (ps : Segment ℝ) (h : 4 ≤ ps.length) : roots ps none = roots (ps.take 4) none := by
  match ps, h with
  | a :: b :: c :: d :: rest, _ =>
    unfold roots
    simp [order, pyGet_zero_cons, pyGet_one_cons, pyGet_two_cons, pyGet_three_cons]
    omega

/-- C69: for other orders the result is missing exactly when there are no roots; otherwise it is a point of the curve at a
parameter in `[0, 1]`, the first root moved into `[0, 1]` by at most `1e-6`. -/
theorem C69_curve (ps line : Segment ℝ) (hp : 3 ≤ ps.length) :
    ∃ l, roots ps (some line) = .ok l ∧ (l = [] → intersectWithLine ps line = .ok none) ∧
    (∀ r rest, l = r :: rest → ∃ t, 0 ≤ t ∧ t ≤ 1 ∧ |t - r| ≤ 1e-6 ∧ (0 ≤ r → r ≤ 1 → t = r) ∧
      intersectWithLine ps line = .ok (some (curve ps t))) := by
  have ho : ¬ order ps = 1 := by unfold order; omega
  have hp0 : ps ≠ [] := by intro e; rw [e] at hp; simp at hp
  obtain ⟨l, h, -, hn⟩ := C43_total ps hp (some line)
  refine ⟨l, h, ?_⟩
  unfold intersectWithLine
  rw [if_neg ho, h, ok_bind]
  constructor
  · rintro rfl; rfl
  · rintro r rest rfl
    obtain ⟨h1, h2⟩ := hn r (by simp)
    refine ⟨if r < 0 then 0 else if r > 1 then 1 else r, ?_, ?_, ?_, ?_, ?_⟩
    · split_ifs <;> linarith
    · split_ifs <;> linarith
    · split_ifs <;> rw [abs_le] <;> constructor <;> norm_num at h1 h2 ⊢ <;> linarith
    · intro h3 h4; rw [if_neg (by linarith), if_neg (by linarith)]
    · simp only [get_ok ps hp0, ok_bind, pure_eq_ok]

/-- C69: for a quadratic there is always a result, and a returned point at an interior root is on the line up to the rounding of
sine and cosine. -/
theorem C69_quadratic (ps line : Segment ℝ) (hp : ps.length = 3) (hl : line ≠ [])
    (hne : line.getLast hl ≠ line.head hl) :
    ∃ θ l, roots ps (some line) = .ok l ∧ signedDist (line.head hl) θ (line.getLast hl) = 0 ∧
      (l = [] → intersectWithLine ps line = .ok none) ∧
      (∀ r rest, l = r :: rest → 0 ≤ r → r ≤ 1 → ∃ p, intersectWithLine ps line = .ok (some p) ∧
        |signedDist (line.head hl) θ p| ≤ 5e-16 * (|p.1 - (line.head hl).1| + |p.2 - (line.head hl).2|)) := by
  obtain ⟨θ, l, h1, h2, h3⟩ := C66_roots_quadratic ps line hp hl hne
  obtain ⟨l', h1', h4, h5⟩ := C69_curve ps line (by omega)
  obtain rfl : l = l' := by rw [h1] at h1'; exact Except.ok.inj h1'
  refine ⟨θ, l, h1, h2, h4, ?_⟩
  rintro r rest rfl hr0 hr1
  obtain ⟨t, _, _, _, h6, h7⟩ := h5 r rest rfl
  refine ⟨_, h7, ?_⟩
  rw [h6 hr0 hr1]
  exact (h3 r (by simp)).2

end PathLib
