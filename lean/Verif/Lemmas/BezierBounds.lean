import Verif.Lemmas.BezierCalc
import Verif.Props.BezierUtilities
import Verif.Lemmas.Bounds
import Mathlib.Topology.Order.Compact
import Mathlib.Analysis.Calculus.LocalExtr.Basic
import Mathlib.Analysis.Calculus.MeanValue

set_option linter.unusedSectionVars false
set_option linter.unusedSimpArgs false

/-!
# Lemmas about extrema and bounding boxes of curves
-/

namespace PathLib
open Spec

/-- `t` is a zero of the function `g`, and `g` is not zero everywhere. -/
def Spec.IsolatedZero (g : ℝ → ℝ) (t : ℝ) : Prop := (∃ s, g s ≠ 0) ∧ g t = 0

namespace Bezier

theorem droots_three (a b c t : ℝ) :
    some t ∈ butils.droots [a, b, c] ↔ IsolatedZero (bernList [a, b, c]) t := by
  unfold IsolatedZero
  by_cases h : a = 0 ∧ b = 0 ∧ c = 0
  · obtain ⟨rfl, rfl, rfl⟩ := h
    rw [(C27_constant 0).1]
    simp [bernList_three]
  · rw [C27_quadratic _ _ _ _ h]
    refine ⟨fun h2 => ⟨?_, h2⟩, And.right⟩
    by_contra hs
    push Not at hs
    have h0 := hs 0; have h1 := hs 1; have h2 := hs (1 / 2)
    simp only [bernList_three] at h0 h1 h2
    norm_num at h0 h1 h2
    exact h ⟨h0, by rw [h0, h1] at h2; linarith, h1⟩

theorem droots_two (a b t : ℝ) :
    some t ∈ butils.droots [a, b] ↔ IsolatedZero (bernList [a, b]) t := by
  unfold IsolatedZero
  by_cases h : a = 0 ∧ b = 0
  · obtain ⟨rfl, rfl⟩ := h
    rw [(C27_constant 0).2]
    simp [bernList_two]
  · rw [C27_linear _ _ _ h]
    refine ⟨fun h2 => ⟨?_, h2⟩, And.right⟩
    by_contra hs
    push Not at hs
    have h0 := hs 0; have h1 := hs 1
    simp only [bernList_two] at h0 h1
    norm_num at h0 h1
    exact h ⟨h0, h1⟩

/-- The coordinate functions of a curve. -/
theorem coord_curve (dim : Fin 2) (ps : Segment ℝ) (t : ℝ) :
    coord dim (curve ps t) = bernList (ps.map (coord dim)) t := by
  unfold coord curve
  split_ifs <;> rfl

theorem deriv_coord (dim : Fin 2) (ps : Segment ℝ) (h : 2 ≤ ps.length) (t : ℝ) :
    HasDerivAt (fun t => coord dim (curve ps t)) (coord dim (curve (dcStep ps) t)) t := by
  unfold coord
  split_ifs
  · exact (hasDerivAt_curve_step ps h t).1
  · exact (hasDerivAt_curve_step ps h t).2

theorem mem_filterMap01 (l : List (Option ℝ)) (t : ℝ) :
    t ∈ (l.filterMap fun t => t.filter fun t => decide (t ≥ 0 ∧ t ≤ 1)) ↔ (0 ≤ t ∧ t ≤ 1) ∧ some t ∈ l := by
  rw [List.mem_filterMap]
  constructor
  · rintro ⟨a, ha, h⟩
    rw [Option.filter_eq_some_iff] at h
    obtain ⟨rfl, h⟩ := h
    exact ⟨by simpa using h, ha⟩
  · rintro ⟨h, ha⟩
    exact ⟨_, ha, by rw [Option.filter_eq_some_iff]; exact ⟨rfl, by simpa using h⟩⟩

/-- The roots found for one dimension of a line. -/
theorem extremaDim_line (ps : Segment ℝ) (h : ps.length = 2) (dim : Fin 2) :
    extremaDim (order ps) (dcPoints ps) dim = .ok [] := by
  match ps, h with
  | [a, b], _ =>
    rw [dcPoints_cons _ (by simp)]
    simp [extremaDim, order, dcStep, butils.droots]

/-- The roots found for one dimension of a quadratic. -/
theorem extremaDim_quad (ps : Segment ℝ) (h : ps.length = 3) (dim : Fin 2) :
    ∃ l, extremaDim (order ps) (dcPoints ps) dim = .ok l ∧
      ∀ t, t ∈ l ↔ (0 ≤ t ∧ t ≤ 1) ∧ IsolatedZero (fun t => coord dim (curve (dcStep ps) t)) t := by
  match ps, h with
  | [a, b, c], _ =>
    have e : ¬ order [a, b, c] = 3 := by simp [order]
    rw [dcPoints_cons _ (by simp)]
    refine ⟨_, by simp only [extremaDim, pyGet_zero_cons, ok_bind, if_neg e, pure_eq_ok]; rfl, ?_⟩
    intro t
    rw [mem_filterMap01]
    simp only [coord_curve]
    simp only [dcStep, List.tail_cons, List.zipWith_cons_cons, List.zipWith_nil_right, List.map_cons, List.map_nil]
    rw [droots_two]

/-- The roots found for one dimension of a cubic. -/
theorem extremaDim_cubic (ps : Segment ℝ) (h : ps.length = 4) (dim : Fin 2) :
    ∃ l, extremaDim (order ps) (dcPoints ps) dim = .ok l ∧
      ∀ t, t ∈ l ↔ (0 ≤ t ∧ t ≤ 1) ∧ (IsolatedZero (fun t => coord dim (curve (dcStep ps) t)) t ∨
        IsolatedZero (fun t => coord dim (curve (dcStep (dcStep ps)) t)) t) := by
  match ps, h with
  | [a, b, c, d], _ =>
    have e : order [a, b, c, d] = 3 := rfl
    rw [dcPoints_cons _ (by simp), dcPoints_cons _ (by simp [dcStep])]
    refine ⟨_, by simp only [extremaDim, pyGet_zero_cons, pyGet_one_cons, ok_bind, if_pos e, pure_eq_ok]; rfl, ?_⟩
    intro t
    rw [mem_filterMap01, List.mem_append]
    simp only [coord_curve]
    simp only [dcStep, List.tail_cons, List.zipWith_cons_cons, List.zipWith_nil_right, List.map_cons, List.map_nil]
    rw [droots_two, droots_three]

/-- The roots found for one dimension of a curve of order at least 4: none. -/
theorem extremaDim_high (ps : Segment ℝ) (h : 5 ≤ ps.length) (dim : Fin 2) :
    extremaDim (order ps) (dcPoints ps) dim = .ok [] := by
  rw [dcPoints_cons _ (by omega)]
  have e : ¬ order ps = 3 := by unfold order; omega
  simp only [extremaDim, pyGet_zero_cons, ok_bind, if_neg e, pure_eq_ok]
  rw [C27_other_length _ (by simp [dcStep_length]; omega) (by simp [dcStep_length]; omega)]
  rfl

/-- For every order the roots lie in [0, 1], and for orders 1 to 3 no critical point is missing. -/
theorem extremaDim_ok (ps : Segment ℝ) (h : 2 ≤ ps.length) (dim : Fin 2) :
    ∃ l, extremaDim (order ps) (dcPoints ps) dim = .ok l ∧ (∀ t ∈ l, 0 ≤ t ∧ t ≤ 1) ∧
      (ps.length ≤ 4 → ∀ t, 0 ≤ t → t ≤ 1 →
        IsolatedZero (fun t => coord dim (curve (dcStep ps) t)) t → t ∈ l) := by
  rcases Nat.lt_or_ge ps.length 5 with h5 | h5
  · have : ps.length = 2 ∨ ps.length = 3 ∨ ps.length = 4 := by omega
    rcases this with h2 | h3 | h4
    · refine ⟨_, extremaDim_line ps h2 dim, by simp, ?_⟩
      intro _ t _ _ hz
      exfalso
      match ps, h2 with
      | [a, b], _ =>
        obtain ⟨⟨s, hs⟩, ht⟩ := hz
        simp only [dcStep, List.tail_cons, List.zipWith_cons_cons, List.zipWith_nil_right, curve_one] at hs ht
        exact hs ht
    · obtain ⟨l, e, hl⟩ := extremaDim_quad ps h3 dim
      exact ⟨l, e, fun t ht => ((hl t).mp ht).1, fun _ t h0 h1 hz => (hl t).mpr ⟨⟨h0, h1⟩, hz⟩⟩
    · obtain ⟨l, e, hl⟩ := extremaDim_cubic ps h4 dim
      exact ⟨l, e, fun t ht => ((hl t).mp ht).1, fun _ t h0 h1 hz => (hl t).mpr ⟨⟨h0, h1⟩, .inl hz⟩⟩
  · exact ⟨[], extremaDim_high ps h5 dim, by simp, fun hh => by omega⟩

theorem mem_addEnds {K : Type} [Field K] [LinearOrder K] (l : List K) (t : K) :
    t ∈ addEnds l ↔ t = 0 ∨ t = 1 ∨ t ∈ l := by
  have key : ∀ (a : K) (l : List K), (if a ∈ l then l else a :: l) = l ∧ a ∈ l ∨
      (if a ∈ l then l else a :: l) = a :: l := fun a l => by split_ifs with h <;> simp [h]
  have e : addEnds l = if 1 ∈ (if 0 ∈ l then l else 0 :: l) then (if 0 ∈ l then l else 0 :: l)
      else (if 0 ∈ l then l else 0 :: l) ++ [1] := rfl
  rw [e]
  rcases key 0 l with ⟨h, h0⟩ | h <;> rw [h] <;> split_ifs with h1
  · exact ⟨fun h => .inr (.inr h), by rintro (rfl | rfl | h) <;> assumption⟩
  · simp only [List.mem_append, List.mem_singleton]
    exact ⟨by tauto, by rintro (rfl | rfl | h) <;> tauto⟩
  · exact ⟨by simp only [List.mem_cons]; tauto, by rintro (rfl | rfl | h) <;> simp_all⟩
  · simp only [List.mem_append, List.mem_singleton, List.mem_cons]
    tauto

theorem addEnds_addEnds {K : Type} [Field K] [LinearOrder K] (l : List K) :
    addEnds (addEnds l) = addEnds l := by
  have h0 : (0:K) ∈ addEnds l := by simp [mem_addEnds]
  have h1 : (1:K) ∈ addEnds l := by simp [mem_addEnds]
  generalize addEnds l = m at h0 h1
  simp [addEnds, h0, h1]

/-- The result of the loop of `_getminmax`. -/
theorem minmaxLoop_ok {K : Type} [Field K] [LinearOrder K] [IsStrictOrderedRing K]
    (ps : Segment K) (h : ps ≠ []) (d : Fin 2) (l : List K) :
    ∃ m M, minmaxLoop ps d l = .ok (m, M) ∧
      (∀ x, x ≤ m ↔ x ≤ maxSafe ∧ ∀ t ∈ l, x ≤ coord d (curve ps t)) ∧
      (∀ x, M ≤ x ↔ minSafe ≤ x ∧ ∀ t ∈ l, coord d (curve ps t) ≤ x) := by
  have key : ∀ (l : List K) (m0 M0 : K), ∃ m M, l.foldlM (fun acc t => (do
      let c ← get ps t
      let min := if coord d c < acc.1 then coord d c else acc.1
      let max := if coord d c > acc.2 then coord d c else acc.2
      return (min, max) : Py (K × K))) (m0, M0) = .ok (m, M) ∧
      (∀ x, x ≤ m ↔ x ≤ m0 ∧ ∀ t ∈ l, x ≤ coord d (curve ps t)) ∧
      (∀ x, M ≤ x ↔ M0 ≤ x ∧ ∀ t ∈ l, coord d (curve ps t) ≤ x) := by
    intro l
    induction l with
    | nil => intro m0 M0; exact ⟨m0, M0, rfl, by simp, by simp⟩
    | cons t l ih =>
      intro m0 M0
      obtain ⟨m, M, e, h1, h2⟩ := ih (min m0 (coord d (curve ps t))) (max M0 (coord d (curve ps t)))
      refine ⟨m, M, ?_, ?_, ?_⟩
      · rw [List.foldlM_cons, get_ok ps h]
        simp only [ok_bind, pure_eq_ok]
        rw [← e]
        congr 2
        · rcases lt_or_ge (coord d (curve ps t)) m0 with hh | hh
          · simp [hh, hh.le]
          · simp [not_lt.mpr hh, hh]
        · rcases lt_or_ge M0 (coord d (curve ps t)) with hh | hh
          · simp [hh, hh.le]
          · simp [not_lt.mpr hh, hh]
      · intro x; rw [h1]; simp only [le_min_iff, List.forall_mem_cons]; tauto
      · intro x; rw [h2]; simp only [max_le_iff, List.forall_mem_cons]; tauto
  exact key l maxSafe minSafe

/-- The extreme values over a list with both ends and all critical points bound the whole function on [0, 1]. -/
theorem extreme_values (f g : ℝ → ℝ) (hf : ∀ t, HasDerivAt f (g t) t) (l : List ℝ)
    (h0 : (0:ℝ) ∈ l) (hc : ∀ t, 0 ≤ t → t ≤ 1 → IsolatedZero g t → t ∈ l) (t : ℝ) (ht0 : 0 ≤ t)
    (ht1 : t ≤ 1) (h1 : (1:ℝ) ∈ l) :
    (∃ s ∈ l, f t ≤ f s) ∧ (∃ s ∈ l, f s ≤ f t) := by
  have key : ∀ f g : ℝ → ℝ, (∀ t, HasDerivAt f (g t) t) →
      (∀ t, 0 ≤ t → t ≤ 1 → IsolatedZero g t → t ∈ l) → ∃ s ∈ l, f t ≤ f s := by
    intro f g hf hc
    by_cases hz : ∃ s, g s ≠ 0
    · have hcont : ContinuousOn f (Set.Icc 0 1) := fun x _ => (hf x).continuousAt.continuousWithinAt
      obtain ⟨s, hs, hmax⟩ := isCompact_Icc.exists_isMaxOn (⟨0, by simp⟩ : (Set.Icc (0:ℝ) 1).Nonempty) hcont
      refine ⟨s, ?_, hmax ⟨ht0, ht1⟩⟩
      rcases eq_or_lt_of_le hs.1 with e0 | l0
      · rw [← e0]; exact h0
      rcases eq_or_lt_of_le hs.2 with e1 | l1
      · rw [e1]; exact h1
      · have hloc : IsLocalMax f s := hmax.isLocalMax (Icc_mem_nhds l0 l1)
        exact hc s hs.1 hs.2 ⟨hz, hloc.hasDerivAt_eq_zero (hf s)⟩
    · push Not at hz
      refine ⟨0, h0, le_of_eq ?_⟩
      exact is_const_of_deriv_eq_zero (fun x => (hf x).differentiableAt)
        (fun x => by rw [(hf x).deriv, hz]) t 0
  refine ⟨key f g hf hc, ?_⟩
  obtain ⟨s, hs, h⟩ := key (fun x => -f x) (fun x => -g x) (fun t => (hf t).neg)
    (fun t h0 h1 hz => hc t h0 h1 ⟨by simpa using hz.1, by simpa using hz.2⟩)
  exact ⟨s, hs, by linarith⟩

/-- What one dimension of `bbox` computes. -/
theorem minmax_dim (ps : Segment ℝ) (h : 2 ≤ ps.length) (dim : Fin 2) :
    ∃ l m M, extremaDim (order ps) (dcPoints ps) dim = .ok l ∧
      (getminmax ps dim l).1 = .ok (m, M) ∧
      (ps.length ≤ 4 → ∀ t, 0 ≤ t → t ≤ 1 → m ≤ coord dim (curve ps t) ∧ coord dim (curve ps t) ≤ M) ∧
      m ≤ maxSafe ∧ minSafe ≤ M ∧
      ((∃ t, 0 ≤ t ∧ t ≤ 1 ∧ coord dim (curve ps t) = m) ∨ m = maxSafe) ∧
      ((∃ t, 0 ≤ t ∧ t ≤ 1 ∧ coord dim (curve ps t) = M) ∨ M = minSafe) := by
  obtain ⟨l, e, h1, h2⟩ := extremaDim_ok ps h dim
  have hne : ps ≠ [] := by rintro rfl; simp at h
  obtain ⟨m, M, e2, h3, h4⟩ := minmaxLoop_ok ps hne dim (addEnds l)
  have hr : ∀ t ∈ addEnds l, 0 ≤ t ∧ t ≤ 1 := by
    intro t ht
    rcases (mem_addEnds l t).mp ht with rfl | rfl | ht
    · norm_num
    · norm_num
    · exact h1 t ht
  refine ⟨l, m, M, e, e2, ?_, ((h3 m).mp le_rfl).1, ((h4 M).mp le_rfl).1, ?_, ?_⟩
  · intro hlen t ht0 ht1
    obtain ⟨⟨s, hs, a⟩, ⟨u, hu, b⟩⟩ := extreme_values _ _ (deriv_coord dim ps h) (addEnds l)
      (by simp [mem_addEnds]) (fun t a b c => (mem_addEnds l t).mpr (.inr (.inr (h2 hlen t a b c)))) t ht0 ht1
      (by simp [mem_addEnds])
    exact ⟨(((h3 m).mp le_rfl).2 u hu).trans b, a.trans (((h4 M).mp le_rfl).2 s hs)⟩
  · by_contra hcon
    push Not at hcon
    obtain ⟨hcon, hm⟩ := hcon
    obtain ⟨a1, a2⟩ := (h3 m).mp le_rfl
    have a1' := lt_of_le_of_ne a1 hm
    have a2' : ∀ t ∈ addEnds l, m < coord dim (curve ps t) := fun t ht =>
      lt_of_le_of_ne (a2 t ht) (fun e => hcon t (hr t ht).1 (hr t ht).2 e.symm)
    -- a slightly larger lower bound exists
    have : ∀ (L : List ℝ) (u : ℝ), m < u → (∀ t ∈ L, m < coord dim (curve ps t)) →
        ∃ x, m < x ∧ x ≤ u ∧ ∀ t ∈ L, x ≤ coord dim (curve ps t) := by
      intro L
      induction L with
      | nil => intro u hu _; exact ⟨u, hu, le_rfl, by simp⟩
      | cons t L ih =>
        intro u hu hL
        obtain ⟨x, hx1, hx2, hx3⟩ := ih u hu (fun t ht => hL t (by simp [ht]))
        refine ⟨min x (coord dim (curve ps t)), lt_min hx1 (hL t (by simp)),
          (min_le_left _ _).trans hx2, ?_⟩
        intro s hs
        rcases List.mem_cons.mp hs with rfl | hs
        · exact min_le_right _ _
        · exact (min_le_left _ _).trans (hx3 s hs)
    obtain ⟨x, hx1, hx2, hx3⟩ := this (addEnds l) maxSafe a1' a2'
    exact absurd ((h3 x).mpr ⟨hx2, hx3⟩) (not_le.mpr hx1)
  · by_contra hcon
    push Not at hcon
    obtain ⟨hcon, hm⟩ := hcon
    obtain ⟨a1, a2⟩ := (h4 M).mp le_rfl
    have a1' := lt_of_le_of_ne a1 (Ne.symm hm)
    have a2' : ∀ t ∈ addEnds l, coord dim (curve ps t) < M := fun t ht =>
      lt_of_le_of_ne (a2 t ht) (fun e => hcon t (hr t ht).1 (hr t ht).2 e)
    have : ∀ (L : List ℝ) (u : ℝ), u < M → (∀ t ∈ L, coord dim (curve ps t) < M) →
        ∃ x, x < M ∧ u ≤ x ∧ ∀ t ∈ L, coord dim (curve ps t) ≤ x := by
      intro L
      induction L with
      | nil => intro u hu _; exact ⟨u, hu, le_rfl, by simp⟩
      | cons t L ih =>
        intro u hu hL
        obtain ⟨x, hx1, hx2, hx3⟩ := ih u hu (fun t ht => hL t (by simp [ht]))
        refine ⟨max x (coord dim (curve ps t)), max_lt hx1 (hL t (by simp)),
          hx2.trans (le_max_left _ _), ?_⟩
        intro s hs
        rcases List.mem_cons.mp hs with rfl | hs
        · exact le_max_right _ _
        · exact (hx3 s hs).trans (le_max_left _ _)
    obtain ⟨x, hx1, hx2, hx3⟩ := this (addEnds l) minSafe a1' a2'
    exact absurd ((h4 x).mpr ⟨hx2, hx3⟩) (not_le.mpr hx1)

theorem extrema_ok (ps : Segment ℝ) (h : 2 ≤ ps.length) : ∃ e, extrema ps = .ok e := by
  obtain ⟨x, hx, _⟩ := extremaDim_ok ps h 0
  obtain ⟨y, hy, _⟩ := extremaDim_ok ps h 1
  exact ⟨_, by unfold extrema extremaOf; rw [hx, ok_bind, hy, ok_bind]; rfl⟩

/-- What `bbox` computes. -/
theorem bbox_ok (ps : Segment ℝ) (h : 2 ≤ ps.length) :
    ∃ minX maxX minY maxY, bbox ps = .ok ((minX, maxX), (minY, maxY)) ∧
      (ps.length ≤ 4 → ∀ t, 0 ≤ t → t ≤ 1 →
        minX ≤ (curve ps t).1 ∧ (curve ps t).1 ≤ maxX ∧ minY ≤ (curve ps t).2 ∧ (curve ps t).2 ≤ maxY) ∧
      (minX ≤ maxSafe ∧ minSafe ≤ maxX ∧ minY ≤ maxSafe ∧ minSafe ≤ maxY) ∧
      ((∃ t, 0 ≤ t ∧ t ≤ 1 ∧ (curve ps t).1 = minX) ∨ minX = maxSafe) ∧
      ((∃ t, 0 ≤ t ∧ t ≤ 1 ∧ (curve ps t).1 = maxX) ∨ maxX = minSafe) ∧
      ((∃ t, 0 ≤ t ∧ t ≤ 1 ∧ (curve ps t).2 = minY) ∨ minY = maxSafe) ∧
      ((∃ t, 0 ≤ t ∧ t ≤ 1 ∧ (curve ps t).2 = maxY) ∨ maxY = minSafe) := by
  obtain ⟨x, m, M, hx, e1, a1, a2, a3, a4, a5⟩ := minmax_dim ps h 0
  obtain ⟨y, m', M', hy, e2, b1, b2, b3, b4, b5⟩ := minmax_dim ps h 1
  refine ⟨m, M, m', M', ?_, ?_, ⟨a2, a3, b2, b3⟩, a4, a5, b4, b5⟩
  · unfold bbox extrema extremaOf
    rw [hx, ok_bind, hy, ok_bind]
    simp only [pure_eq_ok, ok_bind]
    rw [e1, ok_bind, e2, ok_bind]
  · intro hl t h0 h1
    have p := a1 hl t h0 h1
    have q := b1 hl t h0 h1
    exact ⟨p.1, p.2, q.1, q.2⟩

/-- What `boundsRectangle` computes. -/
theorem boundsRectangle_ok (ps : Segment ℝ) (h : 2 ≤ ps.length) :
    ∃ r, boundsRectangle ps = .ok r ∧ BoundsRectangle.Proper r ∧
      (ps.length ≤ 4 → ∀ t, 0 ≤ t → t ≤ 1 → r.enclosesPoint (curve ps t) = true) := by
  obtain ⟨a, b, c, d, e, h1, _⟩ := bbox_ok ps h
  refine ⟨BoundsRectangle.new [(a, c), (b, d)], ?_, BoundsRectangle.proper_new (by simp), ?_⟩
  · unfold boundsRectangle; rw [e]; rfl
  · intro hl t h0 h1'
    obtain ⟨p1, p2, p3, p4⟩ := h1 hl t h0 h1'
    rw [BoundsRectangle.enclosesPoint_iff]
    have m1 : ((a, c) : Pt ℝ) ∈ [(a, c), (b, d)] := by simp
    have m2 : ((b, d) : Pt ℝ) ∈ [(a, c), (b, d)] := by simp
    exact ⟨⟨(BoundsRectangle.left_le_of_mem m1).trans p1, p2.trans (BoundsRectangle.le_right_of_mem m2)⟩,
      ⟨(BoundsRectangle.bottom_le_of_mem m1).trans p3, p4.trans (BoundsRectangle.le_top_of_mem m2)⟩⟩

end Bezier
end PathLib
