import Verif.Lemmas.BezierCalc
import Verif.Props.Bezier
import Verif.Props.PathUtilities
import Verif.Props.BezierUtilities
import Mathlib.Tactic.IntervalCases
import Mathlib.Tactic.Tauto

/-!
# Property theorems about derivatives, direction, order elevation, ABC points and alignment (C36, C41, C42, C50, C66)
-/

set_option linter.unusedSectionVars false
set_option linter.unusedSimpArgs false

namespace PathLib
open Spec Bezier

/-! ## C36 -/

/-- C36: for quadratics and cubics the derivative used by `normal` is the derivative of the curve. -/
theorem C36_derivative (ps : Segment ℝ) (h : ps.length = 3 ∨ ps.length = 4) (t : ℝ) :
    ∃ d, derivative ps t = .ok d ∧ HasDerivAt (fun t => (curve ps t).1) d.1 t ∧
      HasDerivAt (fun t => (curve ps t).2) d.2 t :=
  ⟨_, derivative_ok ps h t, hasDerivAt_curve_step ps (by omega) t⟩

/-- C36: for every order `dcPoints` lists the control polygons of the successive derivatives: entry `k` is the derivative
of entry `k - 1` (of the curve itself for `k = 0`), and the last entry is a single point. -/
theorem C36_dcPoints (ps : Segment ℝ) (h : ps ≠ []) :
    (dcPoints ps).length = ps.length - 1 ∧
    ∀ k (hk : k < (dcPoints ps).length), (dcPoints ps)[k].length = ps.length - 1 - k ∧
      ∀ t, HasDerivAt (fun t => (curve ((ps :: dcPoints ps)[k]'(by simp; omega)) t).1)
            (curve (dcPoints ps)[k] t).1 t ∧
           HasDerivAt (fun t => (curve ((ps :: dcPoints ps)[k]'(by simp; omega)) t).2)
            (curve (dcPoints ps)[k] t).2 t := by
  induction hn : ps.length generalizing ps with
  | zero => exact absurd (List.length_eq_zero_iff.mp hn) h
  | succ n ih =>
    cases n with
    | zero =>
      have e : dcPoints ps = [] := by rw [dcPoints, if_neg (by omega)]
      refine ⟨by simp [e], fun k hk => ?_⟩
      simp [e] at hk
    | succ n =>
      have h2 : 2 ≤ ps.length := by omega
      have hl : (dcStep ps).length = n + 1 := by rw [dcStep_length]; omega
      have hne : dcStep ps ≠ [] := by intro e; rw [e] at hl; simp at hl
      obtain ⟨i1, i2⟩ := ih (dcStep ps) hne hl
      refine ⟨by rw [dcPoints_cons ps h2]; simp [i1], fun k hk => ?_⟩
      simp only [dcPoints_cons ps h2] at hk ⊢
      cases k with
      | zero =>
        simp only [List.getElem_cons_zero]
        exact ⟨by omega, fun t => hasDerivAt_curve_step ps h2 t⟩
      | succ k =>
        simp only [List.getElem_cons_succ]
        obtain ⟨j1, j2⟩ := i2 k (by simpa using hk)
        exact ⟨by omega, j2⟩

/-- C36: `normal(t)` is the unit vector obtained by turning the derivative by a quarter turn counter-clockwise, and raises
`ZeroDivisionError` exactly when the derivative vanishes. -/
theorem C36_normal (ps : Segment ℝ) (h : ps.length = 3 ∨ ps.length = 4) (t : ℝ) (d : Pt ℝ)
    (hx : HasDerivAt (fun t => (curve ps t).1) d.1 t)
    (hy : HasDerivAt (fun t => (curve ps t).2) d.2 t) :
    (d = (0, 0) → normal ps t = .error .zeroDivisionError) ∧
    (d ≠ (0, 0) → ∃ n, normal ps t = .ok n ∧ n.1 ^ 2 + n.2 ^ 2 = 1 ∧
      n.1 * d.1 + n.2 * d.2 = 0 ∧ 0 < d.1 * n.2 - d.2 * n.1) := by
  obtain ⟨d', h1, h2, h3⟩ := C36_derivative ps h t
  have e : d' = d := Prod.ext (h2.unique hx) (h3.unique hy)
  subst e
  unfold normal
  rw [h1, ok_bind]
  constructor
  · intro e; rw [e]; simp
  · intro hne
    have hpos : 0 < d'.1 * d'.1 + d'.2 * d'.2 := by
      by_contra hc
      apply hne
      have h1 := mul_self_nonneg d'.1
      have h2 := mul_self_nonneg d'.2
      exact Prod.ext (mul_self_eq_zero.mp (by linarith)) (mul_self_eq_zero.mp (by linarith))
    have hs := Real.sqrt_pos.mpr hpos
    have hq := Real.sq_sqrt hpos.le
    set q := Real.sqrt (d'.1 * d'.1 + d'.2 * d'.2)
    simp only [pdiv_of_ne _ hs.ne', ok_bind, pure_eq_ok]
    refine ⟨_, rfl, ?_, ?_, ?_⟩
    · simp only; field_simp; linarith
    · simp only; ring
    · simp only
      have : d'.1 * (d'.1 / q) - d'.2 * (-d'.2 / q) = (d'.1 * d'.1 + d'.2 * d'.2) / q := by ring
      rw [this]; positivity

/-- C36: the internal tangent is the unit vector in the direction of the derivative. -/
theorem C36_tangent (ps : Segment ℝ) (h : ps.length = 3 ∨ ps.length = 4) (t : ℝ) (d : Pt ℝ)
    (hx : HasDerivAt (fun t => (curve ps t).1) d.1 t)
    (hy : HasDerivAt (fun t => (curve ps t).2) d.2 t) :
    (d = (0, 0) → tangent ps t = .error .zeroDivisionError) ∧
    (d ≠ (0, 0) → ∃ n, tangent ps t = .ok n ∧ n.1 ^ 2 + n.2 ^ 2 = 1 ∧
      d.1 * n.2 - d.2 * n.1 = 0 ∧ 0 < n.1 * d.1 + n.2 * d.2) := by
  obtain ⟨d', h1, h2, h3⟩ := C36_derivative ps h t
  have e : d' = d := Prod.ext (h2.unique hx) (h3.unique hy)
  subst e
  unfold tangent butils.hypot
  rw [h1, ok_bind]
  constructor
  · intro e; rw [e]; simp
  · intro hne
    have hpos : 0 < d'.1 * d'.1 + d'.2 * d'.2 := by
      by_contra hc
      apply hne
      have h1 := mul_self_nonneg d'.1
      have h2 := mul_self_nonneg d'.2
      exact Prod.ext (mul_self_eq_zero.mp (by linarith)) (mul_self_eq_zero.mp (by linarith))
    have hs := Real.sqrt_pos.mpr hpos
    have hq := Real.sq_sqrt hpos.le
    set q := Real.sqrt (d'.1 * d'.1 + d'.2 * d'.2)
    simp only [pdiv_of_ne _ hs.ne', ok_bind, pure_eq_ok]
    refine ⟨_, rfl, ?_, ?_, ?_⟩
    · simp only; field_simp; linarith
    · simp only; ring
    · simp only
      have : d'.1 / q * d'.1 + d'.2 / q * d'.2 = (d'.1 * d'.1 + d'.2 * d'.2) / q := by ring
      rw [this]; positivity

/-- C36: lines have no usable derivative: `IndexError`. -/
theorem C36_line (p q : Pt ℝ) (t : ℝ) :
    derivative [p, q] t = .error .indexError ∧ normal [p, q] t = .error .indexError := by
  have : derivative [p, q] t = .error .indexError := by
    unfold derivative
    rw [dcPoints_cons _ (by simp)]
    have e : order [p, q] = 1 := rfl
    simp [e, derivativeOf, dcStep, pyGet]
  refine ⟨this, ?_⟩
  unfold normal; rw [this]; rfl

/-- C36: for order 4 the derivative is wrong: only three of the four derivative control points are used. -/
theorem C36_order4_counterexample :
    let ps : Segment ℝ := [(0, 0), (0, 0), (0, 0), (0, 0), (1, 0)]
    ∃ d, derivative ps 1 = .ok d ∧ ¬ HasDerivAt (fun t => (curve ps t).1) d.1 1 := by
  intro ps
  have e : order ps = 4 := rfl
  refine ⟨(0, 0), ?_, ?_⟩
  · unfold derivative
    rw [dcPoints_cons _ (by simp [ps])]
    simp [ps, order, derivativeOf, dcStep, pyGet]
  · intro h
    have := h.unique (hasDerivAt_curve_step ps (by simp [ps]) 1).1
    simp [ps, dcStep, curve_four] at this

example : ∃ ps : Segment ℝ, ps.length = 3 ∧ ps = [(0, 0), (1, 2), (3, 3)] := ⟨_, rfl, rfl⟩

/-! ## C41 -/

private theorem mono_of_chain (ps : Segment ℝ)
    (hs : ∀ i < ps.length - 1, (ps.map Prod.snd).getD i 0 ≤ (ps.map Prod.snd).getD (i + 1) 0) :
    MonotoneOn (fun t => (curve ps t).2) (Set.Icc 0 1) := by
  have := bernSum_monotoneOn (ps.length - 1) (fun i => (ps.map Prod.snd).getD i 0) hs
  intro x hx y hy hxy
  have h := this hx hy hxy
  simpa [curve, bernList] using h

private theorem bernSum_neg (n : ℕ) (c : ℕ → ℝ) (t : ℝ) :
    bernSum n (fun i => - c i) t = - bernSum n c t := by
  have := bernSum_smul n (-1) c t
  simpa using this

private theorem anti_of_chain (ps : Segment ℝ)
    (hs : ∀ i < ps.length - 1, (ps.map Prod.snd).getD (i + 1) 0 ≤ (ps.map Prod.snd).getD i 0) :
    AntitoneOn (fun t => (curve ps t).2) (Set.Icc 0 1) := by
  have := bernSum_monotoneOn (ps.length - 1) (fun i => -(ps.map Prod.snd).getD i 0) (by
    intro i hi; simpa using hs i hi)
  intro x hx y hy hxy
  have h := this hx hy hxy
  rw [bernSum_neg, bernSum_neg] at h
  have h := neg_le_neg_iff.mp h
  simpa [curve, bernList] using h

/-- C41: a curve labelled "up" ("down") has non-decreasing (non-increasing) ordinate along [0, 1]. -/
theorem C41_truthful (ps : Segment ℝ) (d : Dir) (h : computeDirection ps = .ok d) :
    (d = .up → MonotoneOn (fun t => (curve ps t).2) (Set.Icc 0 1)) ∧
    (d = .down → AntitoneOn (fun t => (curve ps t).2) (Set.Icc 0 1)) ∧
    (d = .flat → ∀ s t, (curve ps s).2 = (curve ps t).2) := by
  match ps with
  | [] => simp [computeDirection] at h
  | [a] => simp [computeDirection, pyGet] at h
  | [a, b] =>
    have e : order [a, b] = 1 := rfl
    simp only [computeDirection, pyGet_zero_cons, pyGet_one_cons, ok_bind, e, if_true] at h
    split_ifs at h with h1 h2 <;> cases h
    · refine ⟨by simp, by simp, fun _ s t => ?_⟩
      simp only [curve_two, h1]; ring
    · refine ⟨fun _ => mono_of_chain _ ?_, by simp, by simp⟩
      intro i hi
      have : i = 0 := by simpa using hi
      subst this; simpa using h2.le
    · refine ⟨by simp, fun _ => anti_of_chain _ ?_, by simp⟩
      intro i hi
      have : i = 0 := by simpa using hi
      subst this; simpa using not_lt.mp h2
  | [a, b, c] =>
    have e : order [a, b, c] = 2 := rfl
    simp only [computeDirection, pyGet_zero_cons, pyGet_one_cons, pyGet_two_cons, ok_bind, e, if_true,
      show ¬ (2:Int) = 1 by decide, if_false] at h
    split_ifs at h with h1 h2 <;> cases h
    · refine ⟨fun _ => mono_of_chain _ ?_, by simp, by simp⟩
      intro i hi
      simp at hi
      interval_cases i
      · simpa using h1.1
      · simpa using h1.2
    · refine ⟨by simp, fun _ => anti_of_chain _ ?_, by simp⟩
      intro i hi
      simp at hi
      interval_cases i
      · simpa using h2.1
      · simpa using h2.2
    · exact ⟨by simp, by simp, by simp⟩
  | [a, b, c, d'] =>
    have e : order [a, b, c, d'] = 3 := rfl
    simp only [computeDirection, pyGet_zero_cons, pyGet_one_cons, pyGet_two_cons, pyGet_three_cons,
      ok_bind, e, if_true, show ¬ (3:Int) = 1 by decide, show ¬ (3:Int) = 2 by decide, if_false] at h
    split_ifs at h with h1 h2 <;> cases h
    · refine ⟨fun _ => mono_of_chain _ ?_, by simp, by simp⟩
      intro i hi
      simp at hi
      interval_cases i
      · simpa using h1.1
      · simpa using h1.2.1
      · simpa using h1.2.2
    · refine ⟨by simp, fun _ => anti_of_chain _ ?_, by simp⟩
      intro i hi
      simp at hi
      interval_cases i
      · simpa using h2.1
      · simpa using h2.2.1
      · simpa using h2.2.2
    · exact ⟨by simp, by simp, by simp⟩
  | a :: b :: c :: d' :: e :: l =>
    have h1 : ¬ order (a :: b :: c :: d' :: e :: l) = 1 := by simp [order]; omega
    have h2 : ¬ order (a :: b :: c :: d' :: e :: l) = 2 := by simp [order]; omega
    have h3 : ¬ order (a :: b :: c :: d' :: e :: l) = 3 := by simp [order]; omega
    simp [computeDirection, h1, h2, h3] at h
    cases h
    exact ⟨by simp, by simp, by simp⟩

section field
variable {K : Type} [Field K] [LinearOrder K]

/-- C41: a line is flat iff it is horizontal, up iff it rises, down iff it falls. -/
theorem C41_line (p q : Pt K) :
    (computeDirection [p, q] = .ok .flat ↔ p.2 = q.2) ∧
    (computeDirection [p, q] = .ok .up ↔ p.2 < q.2) ∧
    (computeDirection [p, q] = .ok .down ↔ q.2 < p.2) := by
  have e : order [p, q] = 1 := rfl
  simp only [computeDirection, pyGet_zero_cons, pyGet_one_cons, ok_bind, e, if_true]
  rcases lt_trichotomy p.2 q.2 with h | h | h
  · simp [h, h.ne, h.le]
  · simp [h]
  · simp [h.ne', h.le, not_lt.mpr h.le, h]

private theorem dir_cases (P Q : Prop) [Decidable P] [Decidable Q] :
    ((if P then (pure Dir.up : Py Dir) else if Q then pure Dir.down else pure Dir.mixed) = .ok .up ↔ P) ∧
    ((if P then (pure Dir.up : Py Dir) else if Q then pure Dir.down else pure Dir.mixed) = .ok .down ↔
      Q ∧ ¬ P) ∧
    ((if P then (pure Dir.up : Py Dir) else if Q then pure Dir.down else pure Dir.mixed) = .ok .mixed ↔
      ¬ Q ∧ ¬ P) := by
  by_cases hP : P <;> by_cases hQ : Q <;> simp [hP, hQ]

/-- C41: a quadratic or cubic is labelled up (down, when not all ordinates agree) exactly when its control ordinates are
non-decreasing (non-increasing), and mixed otherwise. -/
theorem C41_curve (ps : Segment K) (h : ps.length = 3 ∨ ps.length = 4) :
    (computeDirection ps = .ok .up ↔ (ps.map Prod.snd).Pairwise (· ≤ ·)) ∧
    (computeDirection ps = .ok .down ↔
      (ps.map Prod.snd).Pairwise (· ≥ ·) ∧ ¬ (ps.map Prod.snd).Pairwise (· ≤ ·)) ∧
    (computeDirection ps = .ok .mixed ↔
      ¬ (ps.map Prod.snd).Pairwise (· ≥ ·) ∧ ¬ (ps.map Prod.snd).Pairwise (· ≤ ·)) := by
  rcases h with h | h
  · match ps, h with
    | [a, b, c], _ =>
      have e : order [a, b, c] = 2 := rfl
      have h1 : ([a, b, c].map Prod.snd).Pairwise (· ≤ ·) ↔ a.2 ≤ b.2 ∧ b.2 ≤ c.2 := by
        simp; exact fun h1 h2 => h2.trans h1
      have h2 : ([a, b, c].map Prod.snd).Pairwise (· ≥ ·) ↔ a.2 ≥ b.2 ∧ b.2 ≥ c.2 := by
        simp; exact fun h1 h2 => h1.trans h2
      rw [h1, h2]
      simp only [computeDirection, pyGet_zero_cons, pyGet_one_cons, pyGet_two_cons, ok_bind, e,
        if_true, show ¬ (2:Int) = 1 by decide, if_false]
      exact dir_cases _ _
  · match ps, h with
    | [a, b, c, d], _ =>
      have e : order [a, b, c, d] = 3 := rfl
      have h1 : ([a, b, c, d].map Prod.snd).Pairwise (· ≤ ·) ↔
          a.2 ≤ b.2 ∧ b.2 ≤ c.2 ∧ c.2 ≤ d.2 := by
        simp
        constructor
        · rintro ⟨⟨h1, _, _⟩, ⟨h2, _⟩, h3⟩; exact ⟨h1, h2, h3⟩
        · rintro ⟨h1, h2, h3⟩
          exact ⟨⟨h1, h1.trans h2, h1.trans (h2.trans h3)⟩, ⟨h2, h2.trans h3⟩, h3⟩
      have h2 : ([a, b, c, d].map Prod.snd).Pairwise (· ≥ ·) ↔
          a.2 ≥ b.2 ∧ b.2 ≥ c.2 ∧ c.2 ≥ d.2 := by
        simp
        constructor
        · rintro ⟨⟨h1, _, _⟩, ⟨h2, _⟩, h3⟩; exact ⟨h1, h2, h3⟩
        · rintro ⟨h1, h2, h3⟩
          exact ⟨⟨h1, h2.trans h1, h3.trans (h2.trans h1)⟩, ⟨h2, h3.trans h2⟩, h3⟩
      rw [h1, h2]
      simp only [computeDirection, pyGet_zero_cons, pyGet_one_cons, pyGet_two_cons, pyGet_three_cons,
        ok_bind, e, if_true, show ¬ (3:Int) = 1 by decide, show ¬ (3:Int) = 2 by decide, if_false]
      exact dir_cases _ _

/-- C41: reversing the control points swaps up and down, except that a curve with all ordinates equal stays "up". -/
theorem C41_reverse (ps : Segment K) (h : ps.length = 3 ∨ ps.length = 4) :
    (computeDirection ps = .ok .down → computeDirection ps.reverse = .ok .up) ∧
    (computeDirection ps = .ok .up → (∃ p ∈ ps, ∃ q ∈ ps, p.2 ≠ q.2) →
      computeDirection ps.reverse = .ok .down) ∧
    (computeDirection ps = .ok .mixed → computeDirection ps.reverse = .ok .mixed) := by
  have hr : ps.reverse.length = 3 ∨ ps.reverse.length = 4 := by simpa using h
  obtain ⟨a1, a2, a3⟩ := C41_curve ps h
  obtain ⟨b1, b2, b3⟩ := C41_curve ps.reverse hr
  have e1 : (ps.reverse.map Prod.snd).Pairwise (· ≤ ·) ↔ (ps.map Prod.snd).Pairwise (· ≥ ·) := by
    rw [List.map_reverse, List.pairwise_reverse]
  have e2 : (ps.reverse.map Prod.snd).Pairwise (· ≥ ·) ↔ (ps.map Prod.snd).Pairwise (· ≤ ·) := by
    rw [List.map_reverse, List.pairwise_reverse]
  rw [a1, a2, a3, b1, b2, b3, e1, e2]
  refine ⟨fun h => h.1, ?_, fun h => ⟨h.2, h.1⟩⟩
  rintro h ⟨p, hp, q, hq, hpq⟩
  refine ⟨h, fun h' => hpq ?_⟩
  have hall : (ps.map Prod.snd).Pairwise (· = ·) :=
    (h.and h').imp fun h => le_antisymm h.1 h.2
  exact List.Pairwise.forall_of_forall (fun _ _ => rfl) hall (List.mem_map_of_mem hp) (List.mem_map_of_mem hq)

/-- C41: a horizontal quadratic is "up" both ways, not "flat". -/
theorem C41_horizontal (ps : Segment K) (h : ps.length = 3 ∨ ps.length = 4) (e : ∀ p ∈ ps, ∀ q ∈ ps, p.2 = q.2) :
    computeDirection ps = .ok .up ∧ computeDirection ps.reverse = .ok .up := by
  constructor
  · rw [(C41_curve ps h).1]
    exact List.pairwise_of_forall_mem_list fun a ha b hb => by
      obtain ⟨p, hp, rfl⟩ := List.mem_map.mp ha
      obtain ⟨q, hq, rfl⟩ := List.mem_map.mp hb
      exact (e p hp q hq).le
  · rw [(C41_curve ps.reverse (by simpa using h)).1]
    exact List.pairwise_of_forall_mem_list fun a ha b hb => by
      obtain ⟨p, hp, rfl⟩ := List.mem_map.mp ha
      obtain ⟨q, hq, rfl⟩ := List.mem_map.mp hb
      exact (e p (List.mem_reverse.mp hp) q (List.mem_reverse.mp hq)).le

/-- C41: such a curve. -/
theorem C41_horizontal_counterexample :
    computeDirection [((0:ℚ), 0), (1, 0), (2, 0)] = .ok .up ∧
    computeDirection [((0:ℚ), 0), (1, 0), (2, 0)].reverse = .ok .up := by decide +kernel

example : computeDirection [((0:ℚ), 5), (1, 3), (2, 3), (7, 0)] = .ok .down := by decide +kernel

/-! ## C42 -/

variable [IsStrictOrderedRing K]

theorem raise_points (ps : Segment K) (h : ps ≠ []) :
    raiseOrderPoints ps = .ok (ps.head h :: ((List.range ps.length).map fun i =>
      (((ps.length : K) - i) / ps.length * (ps.getD i (0, 0)).1
          + i / ps.length * (ps.getD ((i + ps.length - 1) % ps.length) (0, 0)).1,
       ((ps.length : K) - i) / ps.length * (ps.getD i (0, 0)).2
          + i / ps.length * (ps.getD ((i + ps.length - 1) % ps.length) (0, 0)).2))
      ++ [ps.getLast h]) := by
  have hl : 0 < ps.length := List.length_pos_iff.mpr h
  have hk : (ps.length : K) ≠ 0 := by exact_mod_cast hl.ne'
  unfold raiseOrderPoints
  have h0 : pyGet ps 0 = .ok (ps.head h) := by
    match ps, h with
    | a :: l, _ => rfl
  rw [h0, ok_bind, pyGet_neg_one ps h]
  rw [mapM_ok _ (fun (i : ℕ) =>
      (((ps.length : K) - i) / ps.length * (ps.getD i (0, 0)).1
          + i / ps.length * (ps.getD ((i + ps.length - 1) % ps.length) (0, 0)).1,
       ((ps.length : K) - i) / ps.length * (ps.getD i (0, 0)).2
          + i / ps.length * (ps.getD ((i + ps.length - 1) % ps.length) (0, 0)).2))]
  · rfl
  · intro i hi
    have hi : i < ps.length := by simpa using hi
    have e1 : pyGet ps (i : Int) = .ok (ps.getD i (0, 0)) := by
      rw [pyGet_nat_lt _ _ hi]; simp [List.getD_eq_getElem?_getD, hi]
    have e2 : pyGet ps ((i : Int) - 1) = .ok (ps.getD ((i + ps.length - 1) % ps.length) (0, 0)) := by
      rcases Nat.eq_zero_or_pos i with h0 | h0
      · subst h0
        rw [show ((0 : ℕ) : Int) - 1 = -1 by rfl, pyGet_neg_one ps h]
        have : (0 + ps.length - 1) % ps.length = ps.length - 1 := by
          rw [zero_add]; exact Nat.mod_eq_of_lt (by omega)
        rw [this, List.getLast_eq_getElem]
        simp [List.getD_eq_getElem?_getD, show ps.length - 1 < ps.length by omega]
      · have e : ((i : Int) - 1) = ((i - 1 : ℕ) : Int) := by omega
        have e' : (i + ps.length - 1) % ps.length = i - 1 := by
          rw [show i + ps.length - 1 = (i - 1) + ps.length by omega, Nat.add_mod_right]
          exact Nat.mod_eq_of_lt (by omega)
        rw [e, e', pyGet_nat_lt _ _ (by omega)]
        simp [List.getD_eq_getElem?_getD, show i - 1 < ps.length by omega]
    rw [e1, ok_bind, e2, ok_bind, pdiv_of_ne _ hk, ok_bind, pdiv_of_ne _ hk]
    rfl

/-- C42: `raiseOrder` hands two points more than it has to the new curve, so the order grows by two; without
the first of them the control points describe the same curve with the order raised by one. The whole list describes it only
in the cases of `C42_same_iff`. -/
theorem C42_without_first (ps : Segment K) (h : ps ≠ []) :
    ∃ qs, raiseOrderPoints ps = .ok (ps.head h :: qs) ∧ qs.length = ps.length + 1 ∧
      ∀ t, Bezier.get qs t = Bezier.get ps t := by
  have hl : 0 < ps.length := List.length_pos_iff.mpr h
  refine ⟨_, raise_points ps h, by simp, ?_⟩
  intro t
  obtain ⟨n, hn⟩ : ∃ n, ps.length = n + 1 := ⟨ps.length - 1, by omega⟩
  have hk : (n + 1 : K) ≠ 0 := by exact_mod_cast Nat.succ_ne_zero n
  rw [get_ok _ (by simp), get_ok _ h]
  congr 1
  have key : ∀ (f : Pt K → K) (hf : f (0, 0) = 0) (l : List K), l = ((List.range ps.length).map fun i =>
      ((ps.length : K) - i) / ps.length * f (ps.getD i (0, 0))
          + i / ps.length * f (ps.getD ((i + ps.length - 1) % ps.length) (0, 0))) ++ [f (ps.getLast h)] →
      bernList l t = bernList (ps.map f) t := by
    intro f hf l hl'
    unfold bernList
    have e1 : l.length - 1 = n + 1 := by rw [hl']; simp [hn]
    have e2 : (ps.map f).length - 1 = n := by simp [hn]
    rw [e1, e2]
    apply bernSum_elevate
    intro i hi
    rw [hl']
    have g : ∀ j, j ≤ n → (ps.map f).getD j 0 = f (ps.getD j (0, 0)) := by
      intro j hj
      simp [List.getD_eq_getElem?_getD, show j < ps.length by omega]
    rcases Nat.lt_or_ge i (n + 1) with hlt | hge
    · have hi' : i ≤ n := by omega
      have hi2 : i < ps.length := by omega
      rw [if_pos hi', g i hi']
      have e3 : (((List.range ps.length).map fun i =>
          ((ps.length : K) - i) / ps.length * f (ps.getD i (0, 0))
          + i / ps.length * f (ps.getD ((i + ps.length - 1) % ps.length) (0, 0)))
          ++ [f (ps.getLast h)]).getD i 0 = ((ps.length : K) - i) / ps.length * f (ps.getD i (0, 0))
          + i / ps.length * f (ps.getD ((i + ps.length - 1) % ps.length) (0, 0)) := by
        rw [List.getD_eq_getElem?_getD, List.getElem?_append_left (by simpa using hi2),
          List.getElem?_map, List.getElem?_range hi2]
        rfl
      rw [e3, hn]
      push_cast
      rcases Nat.eq_zero_or_pos i with h0 | h0
      · subst h0; simp
      · rw [if_neg (by omega), g (i - 1) (by omega)]
        have : (i + (n + 1) - 1) % (n + 1) = i - 1 := by
          rw [show i + (n + 1) - 1 = (i - 1) + (n + 1) by omega, Nat.add_mod_right]
          exact Nat.mod_eq_of_lt (by omega)
        rw [this]
    · have hi' : i = n + 1 := by omega
      subst hi'
      rw [if_neg (by omega), if_neg (by omega), show n + 1 - 1 = n by omega, g n le_rfl]
      have e3 : (((List.range ps.length).map fun i =>
          ((ps.length : K) - i) / ps.length * f (ps.getD i (0, 0))
          + i / ps.length * f (ps.getD ((i + ps.length - 1) % ps.length) (0, 0)))
          ++ [f (ps.getLast h)]).getD (n + 1) 0 = f (ps.getLast h) := by
        rw [List.getD_eq_getElem?_getD, List.getElem?_append_right (by simp [hn])]
        simp [hn]
      rw [e3, List.getLast_eq_getElem]
      have : n < ps.length := by omega
      simp only [List.getD_eq_getElem?_getD, hn, Nat.add_sub_cancel, List.getElem?_eq_getElem this,
        Option.getD_some, Nat.cast_add, Nat.cast_one]
      rw [mul_zero, zero_add, div_self hk, one_mul]
  exact Prod.ext (key Prod.fst rfl _ (by simp [Function.comp_def]))
    (key Prod.snd rfl _ (by simp [Function.comp_def]))

/-- C42: with the extra point the new curve is a different one. -/
theorem C42_counterexample :
    ∃ qs, raiseOrderPoints [((0:ℚ), 0), (2, 0)] = .ok qs ∧ qs.length = 4 ∧
      Bezier.get qs (1/2) ≠ Bezier.get [((0:ℚ), 0), (2, 0)] (1/2) := by
  refine ⟨[(0, 0), (0, 0), (1, 0), (2, 0)], by decide +kernel, rfl, by decide +kernel⟩

/-! ## C50 -/

private theorem lli4_parallel (a b c d : Pt K) : butils.lli4 a b c d = none ↔ Parallel a b c d := by
  have := C28_none_iff a b c d
  simpa [butils.lli] using this

private theorem lli4_sound (a b c d p : Pt K) (h : butils.lli4 a b c d = some p) :
    OnLine a b p ∧ OnLine c d p := by
  apply C28_sound
  simpa [butils.lli] using h

private theorem abc_core (a b p0 pn C : Pt K) (β w0 w1 : K) (hβ : 0 < β) (hw : w0 + w1 = β)
    (h1 : b.1 = w0 * p0.1 + w1 * pn.1 + (1 - β) * a.1)
    (h2 : b.2 = w0 * p0.2 + w1 * pn.2 + (1 - β) * a.2) (hC : butils.lli4 a b p0 pn = some C) :
    OnLine p0 pn C ∧ (β ≤ 1 → OnSegment a C b ∧
      b.1 - C.1 = (1 - β) / β * (a.1 - b.1) ∧ b.2 - C.2 = (1 - β) / β * (a.2 - b.2)) := by
  have hs := lli4_sound a b p0 pn C hC
  have hp : ¬ Parallel a b p0 pn := by
    intro hp; rw [(lli4_parallel a b p0 pn).mpr hp] at hC; cases hC
  have hβ' := hβ.ne'
  have e : C = ((w0 * p0.1 + w1 * pn.1) / β, (w0 * p0.2 + w1 * pn.2) / β) := by
    apply C28_unique a b p0 pn _ _ hp hs
    refine ⟨⟨1 / β, ?_, ?_⟩, ⟨w1 / β, ?_, ?_⟩⟩
    · simp only [h1]; field_simp; ring
    · simp only [h2]; field_simp; ring
    · simp only; rw [← hw] at hβ' ⊢; field_simp; ring
    · simp only; rw [← hw] at hβ' ⊢; field_simp; ring
  refine ⟨hs.2, fun hβ1 => ⟨⟨β, hβ.le, hβ1, ?_, ?_⟩, ?_, ?_⟩⟩ <;> subst e
  · simp only [h1]; field_simp; ring
  · simp only [h2]; field_simp; ring
  · simp only [h1]; field_simp; ring
  · simp only [h2]; field_simp; ring

/-- C50: `getABC` of a quadratic or cubic: `B` is the curve point, `C` is where the line `AB` meets the base line
(missing iff they are parallel), and then `B` divides `AC` with `B - C = ratio (A - B)`. -/
theorem C50_getABC (ps : Segment K) (h : ps.length = 3 ∨ ps.length = 4) (t : K) :
    ∃ a b c ratio first last, getABC ps t = .ok (a, b, c, ratio, hull ps t) ∧
      Bezier.get ps t = .ok b ∧ pyGet ps 0 = .ok first ∧ pyGet ps (-1) = .ok last ∧
      (c = none ↔ Parallel a b first last) ∧
      ∀ C, c = some C → OnLine first last C ∧
        (0 ≤ t → t ≤ 1 → OnSegment a C b ∧ 0 ≤ ratio ∧
          b.1 - C.1 = ratio * (a.1 - b.1) ∧ b.2 - C.2 = ratio * (a.2 - b.2)) := by
  rcases h with h | h
  · match ps, h with
    | [p0, p1, p2], _ =>
      have hb : 0 < 2 * t * t - 2 * t + 1 := by nlinarith [sq_nonneg (t - 1), sq_nonneg t]
      have hget : Bezier.get [p0, p1, p2] t = .ok (butils.lerp t (butils.lerp t p0 p1) (butils.lerp t p1 p2)) := by
        rw [get_ok _ (by simp), curve_three]
        simp only [butils.lerp, Except.ok.injEq, Prod.mk.injEq]
        constructor <;> ring
      refine ⟨p1, butils.lerp t (butils.lerp t p0 p1) (butils.lerp t p1 p2),
        butils.lli4 p1 (butils.lerp t (butils.lerp t p0 p1) (butils.lerp t p1 p2)) p0 p2,
        |(2 * t * t - 2 * t) / (2 * t * t - 2 * t + 1)|, p0, p2, ?_, hget, rfl, rfl, lli4_parallel _ _ _ _, ?_⟩
      · unfold getABC
        have e : order [p0, p1, p2] = 2 := rfl
        simp only [hull_three, e, if_true, butils.quadraticRatio, pdiv_of_ne _ hb.ne']
        simp [pyGet]
      · intro C hC
        obtain ⟨k1, k2⟩ := abc_core _ _ _ _ C (2 * t * t - 2 * t + 1) ((1 - t) ^ 2) (t ^ 2) hb
          (by ring) (by simp only [butils.lerp]; ring) (by simp only [butils.lerp]; ring) hC
        refine ⟨k1, fun h0 h1 => ?_⟩
        have hb1 : 2 * t * t - 2 * t + 1 ≤ 1 := by nlinarith
        obtain ⟨m1, m2, m3⟩ := k2 hb1
        have er : |(2 * t * t - 2 * t) / (2 * t * t - 2 * t + 1)| =
            (1 - (2 * t * t - 2 * t + 1)) / (2 * t * t - 2 * t + 1) := by
          rw [abs_div, abs_of_pos hb, abs_of_nonpos (by linarith)]
          congr 1; ring
        exact ⟨m1, abs_nonneg _, by rw [er]; exact m2, by rw [er]; exact m3⟩
  · match ps, h with
    | [p0, p1, p2, p3], _ =>
      have hb : 0 < t * t * t + (1 - t) * (1 - t) * (1 - t) := by
        nlinarith [sq_nonneg (t - 1), sq_nonneg t, sq_nonneg (2 * t - 1)]
      set b := butils.lerp t (butils.lerp t (butils.lerp t p0 p1) (butils.lerp t p1 p2))
          (butils.lerp t (butils.lerp t p1 p2) (butils.lerp t p2 p3)) with hbdef
      have hget : Bezier.get [p0, p1, p2, p3] t = .ok b := by
        rw [get_ok _ (by simp), curve_four]
        simp only [hbdef, butils.lerp, Except.ok.injEq, Prod.mk.injEq]
        constructor <;> ring
      refine ⟨butils.lerp t p1 p2, b, butils.lli4 (butils.lerp t p1 p2) b p0 p3,
        |(t * t * t + (1 - t) * (1 - t) * (1 - t) - 1) / (t * t * t + (1 - t) * (1 - t) * (1 - t))|, p0, p3,
        ?_, hget, rfl, rfl, lli4_parallel _ _ _ _, ?_⟩
      · unfold getABC
        have e : ¬ order [p0, p1, p2, p3] = 2 := by simp [order]
        simp only [hull_four, if_neg e, butils.cubicRatio, pdiv_of_ne _ hb.ne']
        simp [pyGet, ← hbdef]
      · intro C hC
        obtain ⟨k1, k2⟩ := abc_core _ _ _ _ C (t * t * t + (1 - t) * (1 - t) * (1 - t)) ((1 - t) ^ 3)
          (t ^ 3) hb (by ring) (by simp only [hbdef, butils.lerp]; ring)
          (by simp only [hbdef, butils.lerp]; ring) hC
        refine ⟨k1, fun h0 h1 => ?_⟩
        have hb1 : t * t * t + (1 - t) * (1 - t) * (1 - t) ≤ 1 := by nlinarith
        obtain ⟨m1, m2, m3⟩ := k2 hb1
        have er : |(t * t * t + (1 - t) * (1 - t) * (1 - t) - 1) / (t * t * t + (1 - t) * (1 - t) * (1 - t))| =
            (1 - (t * t * t + (1 - t) * (1 - t) * (1 - t))) / (t * t * t + (1 - t) * (1 - t) * (1 - t)) := by
          rw [abs_div, abs_of_pos hb, abs_of_nonpos (by linarith)]
          congr 1; ring
        exact ⟨m1, abs_nonneg _, by rw [er]; exact m2, by rw [er]; exact m3⟩

/-- C50: the construction does not exist for lines. -/
theorem C50_line (p q : Pt K) (t : K) : getABC [p, q] t = .error .indexError := by
  have e : hull [p, q] t = [p, q, butils.lerp t p q] := by
    unfold hull
    rw [hullLoop, hullLoop]
    simp [hullStep]
  have e2 : ¬ order [p, q] = 2 := by simp [order]
  simp [getABC, e, e2, pyGet]

example : (getABC [((0:ℚ), 0), (1, 3), (4, 4), (6, 0)] (1/2)).map (fun r => (r.1, r.2.1, r.2.2.1, r.2.2.2.1)) =
    .ok ((5/2, 7/2), (21/8, 21/8), some (3, 0), 3) := by
  simp only [getABC, hull_four]
  decide +kernel

end field

/-! ## C66 -/

/-- The signed distance of `p` from the line through `o` with direction `(cos θ, sin θ)`. -/
noncomputable def Spec.signedDist (o : Pt ℝ) (θ : ℝ) (p : Pt ℝ) : ℝ :=
  Real.cos θ * (p.2 - o.2) - Real.sin θ * (p.1 - o.1)

/-- The coordinate of `p` along this line. -/
noncomputable def Spec.along (o : Pt ℝ) (θ : ℝ) (p : Pt ℝ) : ℝ :=
  Real.cos θ * (p.1 - o.1) + Real.sin θ * (p.2 - o.2)

private theorem abs_lin_le {x y s c ε : ℝ} (hs : |s| ≤ ε) (hc : |c| ≤ ε) :
    |s * x + c * y| ≤ ε * (|x| + |y|) := by
  calc |s * x + c * y| ≤ |s * x| + |c * y| := abs_add_le _ _
    _ = |s| * |x| + |c| * |y| := by rw [abs_mul, abs_mul]
    _ ≤ ε * |x| + ε * |y| := by gcongr
    _ = _ := by ring

/-- `_align` moves the start of the segment to the origin and turns its chord onto the x axis, up to the rounding of sine and
cosine: for every point the new coordinates are the coordinates along and across the chord. -/
theorem C66_align (points segment : Segment ℝ) (h : segment ≠ []) :
    ∃ θ r, alignPoints points segment = .ok r ∧ r.length = points.length ∧
      (segment.getLast h ≠ segment.head h →
        signedDist (segment.head h) θ (segment.getLast h) = 0 ∧
        0 < along (segment.head h) θ (segment.getLast h)) ∧
      (segment.getLast h = segment.head h → θ = 0) ∧
      ∀ i (hi : i < points.length) (hi' : i < r.length),
        |(r[i]).1 - along (segment.head h) θ points[i]| ≤
          5e-16 * (|points[i].1 - (segment.head h).1| + |points[i].2 - (segment.head h).2|) ∧
        |(r[i]).2 - signedDist (segment.head h) θ points[i]| ≤
          5e-16 * (|points[i].1 - (segment.head h).1| + |points[i].2 - (segment.head h).2|) := by
  obtain ⟨ang, len, h1, h2, h3, h4, h5⟩ := C17_rawSlopeAngle segment h
  have h0 : pyGet segment 0 = .ok (segment.head h) := by
    match segment, h with
    | a :: l, _ => rfl
  refine ⟨ang * Real.pi / 180, _, alignPoints_ok points segment _ _ h0 h1, by simp, ?_, ?_, ?_⟩
  · intro hne
    obtain ⟨e1, e2⟩ := h5 hne
    unfold signedDist along
    rw [← e1, ← e2]
    refine ⟨by ring, ?_⟩
    have hlen : 0 ≤ len := by
      unfold PathUtilities.length at h2
      obtain ⟨d, _, h2⟩ := bind_eq_ok.mp h2
      cases h2
      exact Real.sqrt_nonneg _
    have hne0 : len ≠ 0 := by
      intro e; rw [e] at e1 e2
      apply hne
      exact Prod.ext (by linarith) (by linarith)
    have : Real.cos (ang * Real.pi / 180) * (len * Real.cos (ang * Real.pi / 180)) +
        Real.sin (ang * Real.pi / 180) * (len * Real.sin (ang * Real.pi / 180)) = len := by
      linear_combination len * Real.sin_sq_add_cos_sq (ang * Real.pi / 180)
    rw [this]
    exact lt_of_le_of_ne hlen (Ne.symm hne0)
  · intro he
    have hz : PathUtilities.rawSlopeAngle segment = .ok 0 := by
      unfold PathUtilities.rawSlopeAngle
      rw [deltas_of segment h, he]
      simp [PathUtilities.degrees, butils.atan2]
      exact Complex.arg_zero
    rw [hz] at h1
    cases h1
    ring
  · intro i hi hi'
    simp only [List.getElem_map]
    have es := sin_err (-ang)
    have ec := cos_err (-ang)
    rw [show -ang * Real.pi / 180 = -(ang * Real.pi / 180) by ring, Real.sin_neg] at es
    rw [show -ang * Real.pi / 180 = -(ang * Real.pi / 180) by ring, Real.cos_neg] at ec
    set S := Real.sin (ang * Real.pi / 180)
    set C := Real.cos (ang * Real.pi / 180)
    set x := points[i].1 - (segment.head h).1
    set y := points[i].2 - (segment.head h).2
    constructor
    · have := abs_lin_le (x := y) (y := x) (s := -(Transform.sin (-ang) - -S))
        (c := Transform.cos (-ang) - C) (ε := 5e-16) (by rw [abs_neg]; exact es) ec
      unfold alignMap along
      rw [add_comm |x|]
      convert this using 2
      simp only
      ring
    · have := abs_lin_le (x := x) (y := y) (s := (Transform.sin (-ang) - -S))
        (c := Transform.cos (-ang) - C) (ε := 5e-16) es ec
      unfold alignMap signedDist
      convert this using 2
      simp only
      ring

/-- C49: a curve is taken for a straight line when all its control points are at most 1/10000 away from the line through its ends,
up to the rounding of sine and cosine. When the ends coincide that line is horizontal. -/
theorem C49_flat (ps : Segment ℝ) (h : ps ≠ []) (b : Bezier) (hb : Bezier.new ps = .ok b) :
    ∃ θ, (ps.getLast h ≠ ps.head h →
        signedDist (ps.head h) θ (ps.getLast h) = 0 ∧ 0 < along (ps.head h) θ (ps.getLast h)) ∧
      (ps.getLast h = ps.head h → θ = 0) ∧
      (b.linear = true → ∀ p ∈ ps,
        |signedDist (ps.head h) θ p| ≤ 1 / 10000 + 5e-16 * (|p.1 - (ps.head h).1| + |p.2 - (ps.head h).2|)) ∧
      ((∀ p ∈ ps, |signedDist (ps.head h) θ p| + 5e-16 * (|p.1 - (ps.head h).1| + |p.2 - (ps.head h).2|) ≤ 1 / 10000) →
        b.linear = true) := by
  obtain ⟨θ, r, hr, hl, h2, h2', h3⟩ := C66_align ps [ps.head h, ps.getLast h] (by simp)
  simp only [List.getLast_cons_cons, List.getLast_singleton, List.head_cons] at h2 h2' h3
  have e0 : pyGet ps 0 = .ok (ps.head h) := by
    match ps, h with
    | a :: l, _ => rfl
  have hlin : b.linear = true ↔ ∀ x ∈ r, |x.2| ≤ 1 / 10000 := by
    unfold Bezier.new at hb
    rw [e0, pyGet_neg_one _ h] at hb
    simp only [ok_bind, hr] at hb
    obtain ⟨_, _, hb⟩ := bind_eq_ok.mp hb
    obtain ⟨_, _, hb⟩ := bind_eq_ok.mp hb
    cases hb
    simp only [decide_eq_true_eq, List.length_eq_zero_iff, List.filter_eq_nil_iff, gt_iff_lt, not_lt]
  refine ⟨θ, h2, h2', ?_, ?_⟩
  · intro hb' p hp
    obtain ⟨i, hi, rfl⟩ := List.getElem_of_mem hp
    have a := hlin.mp hb' r[i] (List.getElem_mem _)
    have c := (h3 i hi (by omega)).2
    rw [abs_sub_comm] at c
    have := abs_add_le (signedDist (ps.head h) θ ps[i] - (r[i]).2) (r[i]).2
    rw [sub_add_cancel] at this
    linarith
  · intro hs
    rw [hlin]
    intro x hx
    obtain ⟨i, hi, rfl⟩ := List.getElem_of_mem hx
    have a := hs ps[i] (List.getElem_mem _)
    have c := (h3 i (by omega) hi).2
    have := abs_add_le ((r[i]).2 - signedDist (ps.head h) θ ps[i]) (signedDist (ps.head h) θ ps[i])
    rw [sub_add_cancel] at this
    linarith

/-- A cubic on a slanted line is straight, one with a control point 2 above its horizontal chord is not. -/
example : (∃ b, Bezier.new [(0, 0), (3, 4), (6, 8), (9, 12)] = .ok b ∧ b.linear = true) ∧
    (∃ b, Bezier.new [(0, 0), (3, 2), (6, 0)] = .ok b ∧ b.linear = false) := by
  constructor
  · obtain ⟨b, hb, -⟩ := new_ok [((0:ℝ), (0:ℝ)), (3, 4), (6, 8), (9, 12)] (by simp)
    obtain ⟨θ, h1, -, -, h4⟩ := C49_flat _ (by simp) b hb
    obtain ⟨h1, -⟩ := h1 (by simp)
    refine ⟨b, hb, h4 ?_⟩
    simp only [List.getLast_cons_cons, List.getLast_singleton, List.head_cons, signedDist, sub_zero] at h1 ⊢
    intro p hp
    simp only [List.mem_cons, List.not_mem_nil, or_false] at hp
    have e : ∀ k : ℝ, Real.cos θ * (4 * k) - Real.sin θ * (3 * k) = 0 := fun k => by linear_combination k / 3 * h1
    rcases hp with rfl | rfl | rfl | rfl
    · norm_num
    · have := e 1; norm_num at this ⊢; rw [this]; norm_num
    · have := e 2; norm_num at this ⊢; rw [this]; norm_num
    · have := e 3; norm_num at this ⊢; rw [this]; norm_num
  · obtain ⟨b, hb, -⟩ := new_ok [((0:ℝ), (0:ℝ)), (3, 2), (6, 0)] (by simp)
    obtain ⟨θ, h1, -, h3, -⟩ := C49_flat _ (by simp) b hb
    obtain ⟨h1, h1'⟩ := h1 (by simp)
    refine ⟨b, hb, ?_⟩
    by_contra hc
    have := h3 (by simpa using hc) (3, 2) (by simp)
    simp only [List.getLast_cons_cons, List.getLast_singleton, List.head_cons, signedDist, along, sub_zero] at h1 h1' this
    have hs : Real.sin θ = 0 := by linarith
    have hc1 : Real.cos θ = 1 := by
      have := Real.sin_sq_add_cos_sq θ
      rw [hs] at this
      nlinarith
    rw [hs, hc1] at this
    norm_num at this

/-- C66: the start of the segment goes exactly to the origin. -/
theorem C66_start_exact (segment : Segment ℝ) (h : segment ≠ []) :
    ∃ r, alignPoints [segment.head h] segment = .ok r ∧ r = [(0, 0)] := by
  obtain ⟨ang, h1⟩ := rawSlopeAngle_ok segment h
  have h0 : pyGet segment 0 = .ok (segment.head h) := by
    match segment, h with
    | a :: l, _ => rfl
  refine ⟨_, alignPoints_ok _ segment _ _ h0 h1, ?_⟩
  simp [alignMap]

/-- C66: the end of the segment is at most 1e-15 chord lengths away from the x axis. -/
theorem C66_end_on_axis (segment : Segment ℝ) (h : segment ≠ []) :
    ∃ q len, alignPoints [segment.getLast h] segment = .ok [q] ∧
      PathUtilities.length segment = .ok len ∧ |q.2| ≤ 1e-15 * len := by
  obtain ⟨θ, r, hr, hl, h2, -, h3⟩ := C66_align [segment.getLast h] segment h
  match r, hl with
  | [q], _ =>
    refine ⟨q, _, hr, C18_length segment h, ?_⟩
    have h4 := (h3 0 (by simp) (by simp)).2
    simp only [List.getElem_cons_zero] at h4
    by_cases hne : segment.getLast h = segment.head h
    · rw [hne] at h4
      simp [signedDist] at h4
      rw [h4]; simp; positivity
    · rw [(h2 hne).1, sub_zero] at h4
      refine h4.trans ?_
      have hx : ∀ x y : ℝ, |x| + |y| ≤ 2 * Real.sqrt (x ^ 2 + y ^ 2) := by
        intro x y
        have := Real.abs_le_sqrt (show x ^ 2 ≤ x ^ 2 + y ^ 2 by nlinarith [sq_nonneg y])
        have := Real.abs_le_sqrt (show y ^ 2 ≤ x ^ 2 + y ^ 2 by nlinarith [sq_nonneg x])
        linarith
      have := hx ((segment.getLast h).1 - (segment.head h).1) ((segment.getLast h).2 - (segment.head h).2)
      unfold sqDist
      norm_num at this ⊢
      linarith

/-- C66: `align` of a curve with at least two control points gives a curve with the aligned control points. -/
theorem C66_align_curve (b : Bezier) (hb : 2 ≤ b.controlPoints.length) (segment : Segment ℝ)
    (h : segment ≠ []) :
    ∃ c, align b (some segment) = .ok c ∧
      alignPoints b.controlPoints segment = .ok c.controlPoints := by
  obtain ⟨θ, r, hr, hl, _⟩ := C66_align b.controlPoints segment h
  obtain ⟨c, hc, e, _⟩ := new_ok r (by omega)
  refine ⟨c, ?_, by rw [e]; exact hr⟩
  unfold align
  match segment, h with
  | s :: rest, _ => simp only [hr, ok_bind, hc]

example : ([((1:ℝ), 1), (4, 5)] : Segment ℝ) ≠ [] ∧ ((4:ℝ), (5:ℝ)) ≠ (1, 1) := by
  constructor <;> simp

end PathLib
