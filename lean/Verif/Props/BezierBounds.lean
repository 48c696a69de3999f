import Verif.Lemmas.BezierBounds
import Verif.Props.Bezier
import Mathlib.Analysis.Calculus.Deriv.Basic

set_option linter.unusedSectionVars false
set_option linter.unusedSimpArgs false

/-!
# Extrema, bounding boxes and look-up tables of a curve: C37, C39, C40
-/

namespace PathLib
open Spec Bezier

/-! ## C39 -/

private theorem deriv_x (ps : Segment ℝ) (h : 2 ≤ ps.length) :
    deriv (fun t => (curve ps t).1) = fun t => (curve (dcStep ps) t).1 :=
  funext fun t => (hasDerivAt_curve_step ps h t).1.deriv

private theorem deriv_y (ps : Segment ℝ) (h : 2 ≤ ps.length) :
    deriv (fun t => (curve ps t).2) = fun t => (curve (dcStep ps) t).2 :=
  funext fun t => (hasDerivAt_curve_step ps h t).2.deriv

private theorem extrema_lists (ps : Segment ℝ) (e : Extrema) (h : extrema ps = .ok e) :
    extremaDim (order ps) (dcPoints ps) 0 = .ok e.x ∧ extremaDim (order ps) (dcPoints ps) 1 = .ok e.y ∧
      e.all = butils.removeDuplicates (sorted (sorted e.x ++ sorted e.y)) := by
  unfold extrema extremaOf at h
  obtain ⟨x, hx, h⟩ := bind_eq_ok.mp h
  obtain ⟨y, hy, h⟩ := bind_eq_ok.mp h
  cases h
  exact ⟨hx, hy, rfl⟩

/-- C39: for a quadratic the extrema of a coordinate are exactly the parameters in [0, 1] where its derivative vanishes, unless the
derivative vanishes everywhere (then there are none). -/
theorem C39_quadratic (ps : Segment ℝ) (h : ps.length = 3) :
    ∃ e, extrema ps = .ok e ∧ ∀ t,
      (t ∈ e.x ↔ (0 ≤ t ∧ t ≤ 1) ∧ IsolatedZero (deriv fun t => (curve ps t).1) t) ∧
      (t ∈ e.y ↔ (0 ≤ t ∧ t ≤ 1) ∧ IsolatedZero (deriv fun t => (curve ps t).2) t) := by
  obtain ⟨e, he⟩ := extrema_ok ps (by omega)
  refine ⟨e, he, ?_⟩
  obtain ⟨hx, hy, _⟩ := extrema_lists ps e he
  obtain ⟨x, hx', a⟩ := extremaDim_quad ps h 0
  obtain ⟨y, hy', b⟩ := extremaDim_quad ps h 1
  rw [hx'] at hx; rw [hy'] at hy
  cases hx; cases hy
  rw [deriv_x ps (by omega), deriv_y ps (by omega)]
  exact fun t => ⟨a t, b t⟩

/-- C39: for a cubic the extrema of a coordinate are exactly the parameters in [0, 1] where its first or second derivative
vanishes without vanishing everywhere. -/
theorem C39_cubic (ps : Segment ℝ) (h : ps.length = 4) :
    ∃ e, extrema ps = .ok e ∧ ∀ t,
      (t ∈ e.x ↔ (0 ≤ t ∧ t ≤ 1) ∧ (IsolatedZero (deriv fun t => (curve ps t).1) t ∨
        IsolatedZero (deriv (deriv fun t => (curve ps t).1)) t)) ∧
      (t ∈ e.y ↔ (0 ≤ t ∧ t ≤ 1) ∧ (IsolatedZero (deriv fun t => (curve ps t).2) t ∨
        IsolatedZero (deriv (deriv fun t => (curve ps t).2)) t)) := by
  obtain ⟨e, he⟩ := extrema_ok ps (by omega)
  refine ⟨e, he, ?_⟩
  obtain ⟨hx, hy, _⟩ := extrema_lists ps e he
  obtain ⟨x, hx', a⟩ := extremaDim_cubic ps h 0
  obtain ⟨y, hy', b⟩ := extremaDim_cubic ps h 1
  rw [hx'] at hx; rw [hy'] at hy
  cases hx; cases hy
  have hl : 2 ≤ (dcStep ps).length := by rw [dcStep_length]; omega
  rw [deriv_x ps (by omega), deriv_y ps (by omega), deriv_x _ hl, deriv_y _ hl]
  exact fun t => ⟨a t, b t⟩

/-- C39: lines and curves of order 4 and more have no extrema in the table; a single point raises `IndexError`. -/
theorem C39_other (ps : Segment ℝ) :
    (ps.length = 2 ∨ 5 ≤ ps.length → ∃ e, extrema ps = .ok e ∧ e.x = [] ∧ e.y = [] ∧ e.all = []) ∧
    (ps.length < 2 → extrema ps = .error .indexError) := by
  constructor
  · intro h
    refine ⟨⟨[], [], []⟩, ?_, rfl, rfl, rfl⟩
    unfold extrema extremaOf
    rcases h with h | h
    · rw [extremaDim_line ps h, extremaDim_line ps h]; rfl
    · rw [extremaDim_high ps h, extremaDim_high ps h]; rfl
  · intro h
    unfold extrema extremaOf extremaDim
    rw [dcPoints, if_neg (by omega)]
    simp

/-- C39: for every order `extrema[2]` is the strictly increasing list of all values of `extrema[0]` and `extrema[1]`. -/
theorem C39_union (ps : Segment ℝ) (e : Extrema) (h : extrema ps = .ok e) :
    e.all.Pairwise (· < ·) ∧ ∀ t, t ∈ e.all ↔ t ∈ e.x ∨ t ∈ e.y := by
  obtain ⟨_, _, ha⟩ := extrema_lists ps e h
  rw [ha]
  constructor
  · have h1 : (butils.removeDuplicates (sorted (sorted e.x ++ sorted e.y))).Pairwise (· ≤ ·) :=
      (List.pairwise_insertionSort (· ≤ ·) _).sublist (C26_sublist _)
    exact (h1.and (C26_nodup _)).imp fun ⟨a, b⟩ => lt_of_le_of_ne a b
  · intro t
    rw [C26_mem]
    simp [sorted, List.mem_insertionSort]

private theorem ex_quad (t : ℝ) : (curve [((0:ℝ), 0), (1, 2), (2, 0)] t).2 = 4 * t - 4 * t ^ 2 := by
  rw [curve_three]; ring

/-- A concrete case: the arch with control points (0,0), (1,2), (2,0) has its extremum in y at t = 1/2. -/
example : ∃ e, extrema [((0:ℝ), 0), (1, 2), (2, 0)] = .ok e ∧ (1/2 : ℝ) ∈ e.y ∧ (1/2 : ℝ) ∈ e.all := by
  obtain ⟨e, he, h⟩ := C39_quadratic [((0:ℝ), 0), (1, 2), (2, 0)] rfl
  have : (1/2 : ℝ) ∈ e.y := by
    rw [(h _).2, deriv_y _ (by simp)]
    refine ⟨by norm_num, ⟨0, ?_⟩, ?_⟩ <;> simp [dcStep, curve_two] <;> norm_num
  exact ⟨e, he, this, ((C39_union _ e he).2 _).mpr (.inr this)⟩

/-! ## C37 -/

/-- C37: for orders 1 to 3 the box and the rectangle enclose every point of the curve. -/
theorem C37_encloses (ps : Segment ℝ) (h2 : 2 ≤ ps.length) (h4 : ps.length ≤ 4) :
    ∃ minX maxX minY maxY r, bbox ps = .ok ((minX, maxX), (minY, maxY)) ∧ boundsRectangle ps = .ok r ∧
      ∀ t, 0 ≤ t → t ≤ 1 → ∃ p, Bezier.get ps t = .ok p ∧ InBox minX minY maxX maxY p ∧
        r.enclosesPoint p = true := by
  obtain ⟨a, b, c, d, e, k, _⟩ := bbox_ok ps h2
  obtain ⟨r, hr, _, hr2⟩ := boundsRectangle_ok ps h2
  refine ⟨a, b, c, d, r, e, hr, fun t h0 h1 => ⟨_, get_ok ps (by rintro rfl; simp at h2) t, ?_, hr2 h4 t h0 h1⟩⟩
  obtain ⟨p1, p2, p3, p4⟩ := k h4 t h0 h1
  exact ⟨⟨p1, p2⟩, ⟨p3, p4⟩⟩

/-- A curve stays between the bounds of its control points. -/
theorem in_range (ps : Segment ℝ) (h : ps ≠ []) (m : ℝ)
    (hm : ∀ p ∈ ps, |p.1| ≤ m ∧ |p.2| ≤ m) (t : ℝ) (h0 : 0 ≤ t) (h1 : t ≤ 1) :
    |(curve ps t).1| ≤ m ∧ |(curve ps t).2| ≤ m := by
  obtain ⟨p, hp, ⟨⟨a, b⟩, c, d⟩⟩ := C35_box ps h (-m) (-m) m m (fun p hp =>
    ⟨abs_le.mp (hm p hp).1, abs_le.mp (hm p hp).2⟩) t h0 h1
  rw [get_ok ps h] at hp
  cases hp
  exact ⟨abs_le.mpr ⟨a, b⟩, abs_le.mpr ⟨c, d⟩⟩

/-- C37: every side of the box is attained by a point of the curve (every order), when the coordinates of the start point are
below 2^53. -/
theorem C37_bbox_attained_of_curve (ps : Segment ℝ) (h2 : 2 ≤ ps.length)
    (h0 : |(curve ps 0).1| ≤ 9007199254740991 ∧ |(curve ps 0).2| ≤ 9007199254740991) :
    ∃ minX maxX minY maxY, bbox ps = .ok ((minX, maxX), (minY, maxY)) ∧
      (∃ t, 0 ≤ t ∧ t ≤ 1 ∧ (curve ps t).1 = minX) ∧ (∃ t, 0 ≤ t ∧ t ≤ 1 ∧ (curve ps t).1 = maxX) ∧
      (∃ t, 0 ≤ t ∧ t ≤ 1 ∧ (curve ps t).2 = minY) ∧ (∃ t, 0 ≤ t ∧ t ≤ 1 ∧ (curve ps t).2 = maxY) := by
  have hne : ps ≠ [] := by rintro rfl; simp at h2
  -- the ends are always among the candidates
  obtain ⟨x, m, M, hx, e1, a1, a2, a3, a4, a5⟩ := minmax_dim ps h2 0
  obtain ⟨y, m', M', hy, e2, b1, b2, b3, b4, b5⟩ := minmax_dim ps h2 1
  have ends : ∀ (dim : Fin 2) (l : List ℝ) (m M : ℝ), (getminmax ps dim l).1 = .ok (m, M) →
      m ≤ coord dim (curve ps 0) ∧ coord dim (curve ps 0) ≤ M := by
    intro dim l m M hh
    obtain ⟨m1, M1, e3, h3, h4⟩ := minmaxLoop_ok ps hne dim (addEnds l)
    change minmaxLoop ps dim (addEnds l) = _ at hh
    rw [e3] at hh
    cases hh
    have hz : (0:ℝ) ∈ addEnds l := by simp [mem_addEnds]
    exact ⟨((h3 m).mp le_rfl).2 0 hz, ((h4 M).mp le_rfl).2 0 hz⟩
  have k1 := ends 0 x m M e1
  have k2 := ends 1 y m' M' e2
  simp only [coord, if_true, show ¬ ((1 : Fin 2) = 0) by decide, if_false] at k1 k2 a4 a5 b4 b5
  have l1 := abs_le.mp h0.1
  have l2 := abs_le.mp h0.2
  refine ⟨m, M, m', M', ?_, ?_, ?_, ?_, ?_⟩
  · unfold bbox extrema extremaOf
    rw [hx, ok_bind, hy, ok_bind]
    simp only [pure_eq_ok, ok_bind]
    rw [e1, ok_bind, e2, ok_bind]
  · rcases a4 with h | h
    · exact h
    · refine ⟨0, le_rfl, zero_le_one, le_antisymm ?_ k1.1⟩
      rw [h]; exact l1.2
  · rcases a5 with h | h
    · exact h
    · refine ⟨0, le_rfl, zero_le_one, le_antisymm k1.2 ?_⟩
      rw [h]; exact l1.1
  · rcases b4 with h | h
    · exact h
    · refine ⟨0, le_rfl, zero_le_one, le_antisymm ?_ k2.1⟩
      rw [h]; exact l2.2
  · rcases b5 with h | h
    · exact h
    · refine ⟨0, le_rfl, zero_le_one, le_antisymm k2.2 ?_⟩
      rw [h]; exact l2.1

/-- C37: every side of the box is attained by a point of the curve (every order), when the coordinates are below 2^53. -/
theorem C37_bbox_attained (ps : Segment ℝ) (h2 : 2 ≤ ps.length)
    (hm : ∀ p ∈ ps, |p.1| ≤ 9007199254740991 ∧ |p.2| ≤ 9007199254740991) :
    ∃ minX maxX minY maxY, bbox ps = .ok ((minX, maxX), (minY, maxY)) ∧
      (∃ t, 0 ≤ t ∧ t ≤ 1 ∧ (curve ps t).1 = minX) ∧ (∃ t, 0 ≤ t ∧ t ≤ 1 ∧ (curve ps t).1 = maxX) ∧
      (∃ t, 0 ≤ t ∧ t ≤ 1 ∧ (curve ps t).2 = minY) ∧ (∃ t, 0 ≤ t ∧ t ≤ 1 ∧ (curve ps t).2 = maxY) :=
  C37_bbox_attained_of_curve ps h2
    (in_range ps (by rintro rfl; simp at h2) _ hm 0 le_rfl zero_le_one)

/-- C37: when the curve stays in the design space `boundsRectangle` is `bbox`, and every side is touched by the curve. -/
theorem C37_tight_of_curve (ps : Segment ℝ) (h2 : 2 ≤ ps.length)
    (hr : ∀ t, 0 ≤ t → t ≤ 1 → |(curve ps t).1| ≤ 32768 ∧ |(curve ps t).2| ≤ 32768) :
    ∃ r, boundsRectangle ps = .ok r ∧ bbox ps = .ok ((r.left, r.right), (r.bottom, r.top)) ∧
      (∃ t, 0 ≤ t ∧ t ≤ 1 ∧ (curve ps t).1 = r.left) ∧ (∃ t, 0 ≤ t ∧ t ≤ 1 ∧ (curve ps t).1 = r.right) ∧
      (∃ t, 0 ≤ t ∧ t ≤ 1 ∧ (curve ps t).2 = r.bottom) ∧ (∃ t, 0 ≤ t ∧ t ≤ 1 ∧ (curve ps t).2 = r.top) := by
  have hne : ps ≠ [] := by rintro rfl; simp at h2
  have h00 := hr 0 le_rfl zero_le_one
  obtain ⟨a, b, c, d, e, h3, h4, h5, h6⟩ := C37_bbox_attained_of_curve ps h2
    ⟨h00.1.trans (by norm_num), h00.2.trans (by norm_num)⟩
  -- the box is ordered: compare with the start point
  obtain ⟨a', b', c', d', e', _⟩ := bbox_ok ps h2
  have hord : a ≤ b ∧ c ≤ d := by
    obtain ⟨x, m, M, hx, e1, _⟩ := minmax_dim ps h2 0
    obtain ⟨y, m', M', hy, e2, _⟩ := minmax_dim ps h2 1
    have : bbox ps = .ok ((m, M), (m', M')) := by
      unfold bbox extrema extremaOf
      rw [hx, ok_bind, hy, ok_bind]
      simp only [pure_eq_ok, ok_bind]
      rw [e1, ok_bind, e2, ok_bind]
    rw [e] at this
    simp only [Except.ok.injEq, Prod.mk.injEq] at this
    obtain ⟨⟨rfl, rfl⟩, rfl, rfl⟩ := this
    have ends : ∀ (dim : Fin 2) (l : List ℝ) (m M : ℝ), (getminmax ps dim l).1 = .ok (m, M) → m ≤ M := by
      intro dim l m M hh
      obtain ⟨m1, M1, e3, h3, h4⟩ := minmaxLoop_ok ps hne dim (addEnds l)
      change minmaxLoop ps dim (addEnds l) = _ at hh
      rw [e3] at hh
      cases hh
      have hz : (0:ℝ) ∈ addEnds l := by simp [mem_addEnds]
      exact (((h3 m).mp le_rfl).2 0 hz).trans (((h4 M).mp le_rfl).2 0 hz)
    exact ⟨ends 0 x a b e1, ends 1 y c d e2⟩
  have ba : a ≤ 32768 ∧ -32768 ≤ b ∧ c ≤ 32768 ∧ -32768 ≤ d := by
    obtain ⟨t3, u3, v3, w3⟩ := h3
    obtain ⟨t4, u4, v4, w4⟩ := h4
    obtain ⟨t5, u5, v5, w5⟩ := h5
    obtain ⟨t6, u6, v6, w6⟩ := h6
    rw [← w3, ← w4, ← w5, ← w6]
    exact ⟨(abs_le.mp (hr t3 u3 v3).1).2, (abs_le.mp (hr t4 u4 v4).1).1, (abs_le.mp (hr t5 u5 v5).2).2,
      (abs_le.mp (hr t6 u6 v6).2).1⟩
  have hrect : boundsRectangle ps = .ok ⟨a, c, b, d⟩ := by
    unfold boundsRectangle
    rw [e, ok_bind]
    simp only [pure_eq_ok]
    rw [BoundsRectangle.new_two_of_le hord.1 hord.2 ba.1 ba.2.2.1 ba.2.1 ba.2.2.2]
  exact ⟨⟨a, c, b, d⟩, hrect, e, h3, h4, h5, h6⟩

/-- A curve stays in the design space when its control points are in it. -/
theorem curve_in_design_space (ps : Segment ℝ) (h : ps ≠ []) (hd : ∀ p ∈ ps, InDesignSpace p) (t : ℝ)
    (h0 : 0 ≤ t) (h1 : t ≤ 1) : |(curve ps t).1| ≤ 32768 ∧ |(curve ps t).2| ≤ 32768 :=
  in_range ps h 32768 (fun p hp => ⟨abs_le.mpr (hd p hp).1, abs_le.mpr (hd p hp).2⟩) t h0 h1

/-- C37: in the design space `boundsRectangle` is `bbox`, and every side is touched by the curve. -/
theorem C37_tight (ps : Segment ℝ) (h2 : 2 ≤ ps.length) (hd : ∀ p ∈ ps, InDesignSpace p) :
    ∃ r, boundsRectangle ps = .ok r ∧ bbox ps = .ok ((r.left, r.right), (r.bottom, r.top)) ∧
      (∃ t, 0 ≤ t ∧ t ≤ 1 ∧ (curve ps t).1 = r.left) ∧ (∃ t, 0 ≤ t ∧ t ≤ 1 ∧ (curve ps t).1 = r.right) ∧
      (∃ t, 0 ≤ t ∧ t ≤ 1 ∧ (curve ps t).2 = r.bottom) ∧ (∃ t, 0 ≤ t ∧ t ≤ 1 ∧ (curve ps t).2 = r.top) :=
  C37_tight_of_curve ps h2 (curve_in_design_space ps (by rintro rfl; simp at h2) hd)

/-- C37: for order 4 the curve can leave its box. -/
theorem C37_order4_counterexample :
    let ps : Segment ℝ := [(0, 0), (1, 0), (2, 16), (3, 0), (4, 0)]
    ∃ r p, boundsRectangle ps = .ok r ∧ Bezier.get ps (1/2) = .ok p ∧ r.enclosesPoint p = false := by
  intro ps
  have he : extrema ps = .ok ⟨[], [], []⟩ := by
    obtain ⟨⟨x, y, a⟩, h1, h2, h3, h4⟩ := (C39_other ps).1 (.inr (by simp [ps]))
    simp only at h2 h3 h4
    subst h2 h3 h4
    exact h1
  refine ⟨⟨0, 0, 4, 0⟩, (2, 6), ?_, ?_, ?_⟩
  · have e0 : Bezier.get ps 0 = .ok (0, 0) := by simp [Bezier.get, ps]
    have e1 : Bezier.get ps 1 = .ok (4, 0) := by simp [Bezier.get, ps, order, pyGet]
    have : bbox ps = .ok ((0, 4), (0, 0)) := by
      unfold bbox
      rw [he]
      simp only [ok_bind, getminmax, minmaxLoop, addEnds]
      norm_num [List.foldlM, e0, e1, coord, maxSafe, minSafe]
    unfold boundsRectangle
    rw [this]
    simp only [ok_bind, pure_eq_ok]
    rw [BoundsRectangle.new_two_of_le] <;> norm_num
  · rw [get_ok _ (by simp [ps])]
    norm_num [ps, curve, bernList, bernSum, bern, Finset.sum_range_succ, Nat.choose]
  · norm_num [BoundsRectangle.enclosesPoint]

/-- A concrete case: the rectangle of the arch is attained at its top. -/
example : ∃ r, boundsRectangle [((0:ℝ), 0), (1, 2), (2, 0)] = .ok r ∧
    r.enclosesPoint (1, 1) = true ∧ r.enclosesPoint (0, 0) = true := by
  obtain ⟨a, b, c, d, r, _, hr, h⟩ := C37_encloses [((0:ℝ), 0), (1, 2), (2, 0)] (by simp) (by simp)
  refine ⟨r, hr, ?_, ?_⟩
  · obtain ⟨p, hp, _, hh⟩ := h (1/2) (by norm_num) (by norm_num)
    rw [get_ok _ (by simp), curve_three] at hp
    cases hp
    norm_num at hh
    exact hh
  · obtain ⟨p, hp, _, hh⟩ := h 0 le_rfl (by norm_num)
    rw [get_ok _ (by simp), curve_three] at hp
    cases hp
    norm_num at hh
    exact hh

/-! ## C40 -/

section field
variable {K : Type} [Field K] [LinearOrder K] [IsStrictOrderedRing K]

/-- C40: the table for `steps >= 2` samples the curve at the parameters `i / (steps - 1)`. -/
theorem C40_samples (ps : Segment K) (h : ps ≠ []) (n : Nat) (hn : 2 ≤ n) :
    ∃ l, lutOf ps n = .ok l ∧ l.length = n ∧
      ∀ i (hi : i < l.length), Bezier.get ps ((i : K) / ((n - 1 : Nat) : K)) = .ok l[i] := by
  obtain ⟨k, rfl⟩ : ∃ k, n = k + 2 := ⟨n - 2, by omega⟩
  have hk : ((k + 1 : Nat) : K) ≠ 0 := by exact_mod_cast Nat.succ_ne_zero k
  have e1 : (((k + 2 : Nat) : Int) - 1 + 1).toNat = k + 2 := by omega
  have e2 : ((((k + 2 : Nat) : Int) - 1 : Int) : K) = ((k + 1 : Nat) : K) := by push_cast; ring
  refine ⟨(List.range (k + 2)).map fun (i : Nat) => curve ps ((i : K) / ((k + 1 : Nat) : K)), ?_, by simp, ?_⟩
  · unfold lutOf
    simp only [e1, e2]
    apply mapM_ok
    intro i _
    rw [pdiv_of_ne _ hk, ok_bind, get_ok ps h]
  · intro i hi
    simp only [List.getElem_map, List.getElem_range]
    rw [get_ok ps h]
    rfl

/-- C40: `steps = 1` divides by zero, `steps <= 0` gives an empty table. -/
theorem C40_few_steps (ps : Segment K) :
    lutOf ps 1 = .error .zeroDivisionError ∧ ∀ s : Int, s ≤ 0 → lutOf ps s = .ok [] := by
  constructor
  · simp [lutOf, List.range_one]
  · intro s hs
    have e : (s - 1 + 1).toNat = 0 := by omega
    simp only [lutOf, e]
    rfl

/-- C40: the table starts and ends at the ends of the curve. -/
theorem C40_ends (ps : Segment K) (h : ps ≠ []) (n : Nat) (hn : 2 ≤ n) :
    ∃ l, lutOf ps n = .ok l ∧ l.head? = some (ps.head h) ∧ l.getLast? = some (ps.getLast h) := by
  obtain ⟨l, e, hl, hs⟩ := C40_samples ps h n hn
  refine ⟨l, e, ?_, ?_⟩
  · have h0 := hs 0 (by omega)
    rw [Nat.cast_zero, zero_div, get_ok ps h, curve_zero ps h] at h0
    rw [List.head?_eq_getElem?, List.getElem?_eq_getElem (by omega)]
    exact congrArg some (Except.ok.inj h0).symm
  · have h0 := hs (n - 1) (by omega)
    have hk : ((n - 1 : Nat) : K) ≠ 0 := by
      have : n - 1 ≠ 0 := by omega
      exact_mod_cast this
    rw [div_self hk, get_ok ps h, curve_at_one ps h] at h0
    rw [List.getLast?_eq_getElem?, hl, List.getElem?_eq_getElem (by omega)]
    exact congrArg some (Except.ok.inj h0).symm

example : lutOf [((0:ℚ), 0), (1, 2), (2, 0)] 5 =
    .ok [(0, 0), (1/2, 3/4), (1, 1), (3/2, 3/4), (2, 0)] := by decide +kernel

end field

end PathLib
