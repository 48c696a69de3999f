import Verif.Spec.Mirrored
import Verif.Props.BezierOffset
import Verif.Props.BezierLength
import Verif.Props.BContour
import Mathlib.Analysis.Calculus.Deriv.Shift

/-!
# The same curve traversed the other way: C104
-/

set_option linter.unusedSectionVars false
set_option linter.unusedSimpArgs false

namespace PathLib
open Spec Bezier

namespace Reversed

section field
variable {K : Type} [Field K] [LinearOrder K] [IsStrictOrderedRing K]

theorem bernSum_reflect (n : ℕ) (c : ℕ → K) (t : K) : bernSum n (fun i => c (n - i)) t = bernSum n c (1 - t) := by
  unfold bernSum bern
  rw [← Finset.sum_range_reflect]
  apply Finset.sum_congr rfl
  intro i hi
  have hi : i ≤ n := by simpa [Nat.lt_succ_iff] using hi
  have e : n - (n - i) = i := by omega
  rw [show n + 1 - 1 - i = n - i by omega, Nat.choose_symm hi]
  simp only [e]
  ring

theorem bernList_reverse (l : List K) (t : K) : bernList l.reverse t = bernList l (1 - t) := by
  unfold bernList
  rw [← bernSum_reflect, List.length_reverse]
  cases l with
  | nil => simp [bernSum]
  | cons a l =>
    apply bernSum_congr
    intro i hi
    simp only [List.length_cons, Nat.add_sub_cancel] at hi ⊢
    rw [List.getD_eq_getElem?_getD, List.getD_eq_getElem?_getD, List.getElem?_reverse (by simp; omega)]
    simp only [List.length_cons, Nat.add_sub_cancel]

theorem curve_reverse (ps : Segment K) (t : K) : curve ps.reverse t = curve ps (1 - t) := by
  unfold curve
  rw [List.map_reverse, List.map_reverse, bernList_reverse, bernList_reverse]

theorem lutOf_neg (ps : Segment K) (n : Int) (hn : n ≤ 0) : lutOf ps n = .ok [] := by
  unfold lutOf
  simp only
  rw [show (n - 1 + 1).toNat = 0 by omega]
  rfl

theorem lutOf_one (ps : Segment K) : lutOf ps 1 = .error .zeroDivisionError := by
  unfold lutOf
  simp [List.range_succ, pdiv]

end field
end Reversed

section field
variable {K : Type} [Field K] [LinearOrder K] [IsStrictOrderedRing K]

/-- C104: the curve with the control points in reverse order has at `t` the point that the curve has at `1 - t` (every order). -/
theorem C104_get (ps : Segment K) (t : K) : Bezier.get ps.reverse t = Bezier.get ps (1 - t) := by
  by_cases h : ps = []
  · subst h; rw [List.reverse_nil, get_nil, get_nil]
  · rw [get_ok _ (by simpa using h), get_ok _ h, Reversed.curve_reverse]

/-- C104: its table of points is the reverse of the table of the curve, for every number of steps. -/
theorem C104_table (ps : Segment K) (n : Int) : lutOf ps.reverse n = (lutOf ps n).map List.reverse := by
  by_cases h : ps = []
  · subst h
    rw [List.reverse_nil]
    by_cases h0 : n ≤ 0
    · rw [Reversed.lutOf_neg _ _ h0]; rfl
    · by_cases h1 : n = 1
      · subst h1; rw [Reversed.lutOf_one]; rfl
      · unfold lutOf
        simp only
        obtain ⟨m, rfl⟩ : ∃ m : ℕ, n = m + 2 := ⟨(n - 2).toNat, by omega⟩
        rw [show ((m : Int) + 2 - 1 + 1).toNat = m + 2 by omega, List.range_succ_eq_map, List.mapM_cons]
        have : (((m : Int) + 2 - 1 : Int) : K) ≠ 0 := by
          exact_mod_cast (show ((m : Int) + 2 - 1 : Int) ≠ 0 by omega)
        rw [pdiv_of_ne _ this]
        simp only [ok_bind, get_nil, error_bind]
        rfl
  by_cases h0 : n ≤ 0
  · rw [Reversed.lutOf_neg _ _ h0, Reversed.lutOf_neg _ _ h0]; rfl
  · by_cases h1 : n = 1
    · subst h1; rw [Reversed.lutOf_one, Reversed.lutOf_one]; rfl
    · obtain ⟨m, rfl⟩ : ∃ m : ℕ, n = m + 2 := ⟨(n - 2).toNat, by omega⟩
      unfold lutOf
      simp only
      rw [show ((m : Int) + 2 - 1 + 1).toNat = m + 2 by omega]
      have hne : (((m : Int) + 2 - 1 : Int) : K) ≠ 0 := by
        exact_mod_cast (show ((m : Int) + 2 - 1 : Int) ≠ 0 by omega)
      have hc : (((m : Int) + 2 - 1 : Int) : K) = m + 1 := by push_cast; ring
      rw [hc] at hne ⊢
      rw [mapM_ok (g := fun (i : Nat) => curve ps.reverse ((i : K) / (m + 1)))
          (h := fun i _ => by rw [pdiv_of_ne _ hne, ok_bind, get_ok _ (by simpa using h)]),
        mapM_ok (g := fun (i : Nat) => curve ps ((i : K) / (m + 1)))
          (h := fun i _ => by rw [pdiv_of_ne _ hne, ok_bind, get_ok _ h])]
      show _ = Except.ok _
      congr 1
      rw [← List.map_reverse]
      apply List.ext_getElem
      · simp
      · intro i h1 h2
        simp only [List.length_map, List.length_range] at h1
        simp only [List.getElem_map, List.getElem_range, List.getElem_reverse, List.length_range, Reversed.curve_reverse]
        congr 1
        rw [show m + 2 - 1 - i = m + 1 - i by omega, Nat.cast_sub (by omega)]
        push_cast
        field_simp

end field

/-- C104: its derivative at `t` is the opposite of the derivative of the curve at `1 - t`; so are its tangent and its normal, and they raise
`ZeroDivisionError` for the same points. -/
theorem C104_derivative (ps : Segment ℝ) (h : ps.length = 3 ∨ ps.length = 4) (t : ℝ) :
    derivative ps.reverse t = (derivative ps (1 - t)).map opposite ∧
    tangent ps.reverse t = (tangent ps (1 - t)).map opposite ∧
    normal ps.reverse t = (normal ps (1 - t)).map opposite := by
  have hr : ps.reverse.length = 3 ∨ ps.reverse.length = 4 := by simpa using h
  have hd : derivative ps.reverse t = (derivative ps (1 - t)).map opposite := by
    obtain ⟨d, h1, h2, h3⟩ := C36_derivative ps h (1 - t)
    obtain ⟨d', h1', h2', h3'⟩ := C36_derivative ps.reverse hr t
    rw [h1, h1']
    show Except.ok d' = Except.ok (opposite d)
    congr 1
    have e : ∀ (f g : ℝ → ℝ) (a b : ℝ), (∀ s, g s = f (1 - s)) → HasDerivAt f a (1 - t) → HasDerivAt g b t → b = -a := by
      intro f g a b hfg hf hg
      have h1 : HasDerivAt (fun s : ℝ => 1 - s) (-1) t := by simpa using (hasDerivAt_id t).const_sub 1
      have h2 := HasDerivAt.comp t hf h1
      have h3 : g = f ∘ fun s => 1 - s := funext hfg
      rw [h3] at hg
      have := hg.unique h2
      linarith
    exact Prod.ext (e _ _ _ _ (fun s => by rw [Reversed.curve_reverse]) h2 h2') (e _ _ _ _ (fun s => by rw [Reversed.curve_reverse]) h3 h3')
  refine ⟨hd, ?_, ?_⟩
  · unfold tangent
    rw [hd]
    cases derivative ps (1 - t) with
    | error e => rfl
    | ok d =>
      show (do return (← pdiv (opposite d).1 _, ← pdiv (opposite d).2 _) : Py (Pt ℝ)) = Except.map opposite (do return (← pdiv d.1 _, ← pdiv d.2 _))
      have e : butils.hypot (opposite d).1 (opposite d).2 = butils.hypot d.1 d.2 := by simp [butils.hypot, opposite]
      rw [e]
      by_cases h0 : butils.hypot d.1 d.2 = 0
      · rw [h0]; simp [pdiv]; rfl
      · simp only [pdiv_of_ne _ h0, ok_bind, pure_eq_ok]
        show Except.ok _ = Except.ok _
        simp [opposite, neg_div]
  · unfold normal
    rw [hd]
    cases derivative ps (1 - t) with
    | error e => rfl
    | ok d =>
      show (do return (← pdiv (-(opposite d).2) _, ← pdiv (opposite d).1 _) : Py (Pt ℝ)) = Except.map opposite (do return (← pdiv (-d.2) _, ← pdiv d.1 _))
      have e : Real.sqrt ((opposite d).1 * (opposite d).1 + (opposite d).2 * (opposite d).2) = Real.sqrt (d.1 * d.1 + d.2 * d.2) := by simp [opposite]
      rw [e]
      by_cases h0 : Real.sqrt (d.1 * d.1 + d.2 * d.2) = 0
      · rw [h0]; simp [pdiv]; rfl
      · simp only [pdiv_of_ne _ h0, ok_bind, pure_eq_ok]
        show Except.ok _ = Except.ok _
        simp [opposite, neg_div]

/-- A quadratic or cubic is determined by its points. -/
theorem Reversed.points_unique {ps qs : Segment ℝ} (hp : ps.length = 3 ∨ ps.length = 4) (hq : qs.length = ps.length) (h : ∀ s, curve ps s = curve qs s) :
    ps = qs := by
  rcases hp with hp | hp
  · match ps, hp, qs, hq with
    | [a, b, c], _, [a', b', c'], _ =>
      simp only [curve_three] at h
      have h0 := h 0
      have h1 := h 1
      have h2 := h (1 / 2)
      simp only [Prod.mk.injEq] at h0 h1 h2
      norm_num at h0 h1 h2
      obtain ⟨x0, y0⟩ := h0
      obtain ⟨x1, y1⟩ := h1
      obtain ⟨x2, y2⟩ := h2
      simp only [List.cons.injEq, and_true]
      refine ⟨Prod.ext ?_ ?_, Prod.ext ?_ ?_, Prod.ext ?_ ?_⟩ <;> linarith
  · match ps, hp, qs, hq with
    | [a, b, c, d], _, [a', b', c', d'], _ =>
      simp only [curve_four] at h
      have h0 := h 0
      have h1 := h 1
      have h2 := h (1 / 2)
      have h3 := h (-1)
      simp only [Prod.mk.injEq] at h0 h1 h2 h3
      norm_num at h0 h1 h2 h3
      obtain ⟨x0, y0⟩ := h0
      obtain ⟨x1, y1⟩ := h1
      obtain ⟨x2, y2⟩ := h2
      obtain ⟨x3, y3⟩ := h3
      simp only [List.cons.injEq, and_true]
      refine ⟨Prod.ext ?_ ?_, Prod.ext ?_ ?_, Prod.ext ?_ ?_, Prod.ext ?_ ?_⟩ <;> linarith

/-- C104: splitting it at `t` gives the reversed parts of the curve split at `1 - t`, in the other order. -/
theorem C104_split (b b' : Bezier) (hb : QuadOrCubic b) (h : b'.controlPoints = b.controlPoints.reverse) (t : ℝ) :
    ∃ l r q l' r' q', split b (1 - t) none = .ok (.parts l r q) ∧ split b' t none = .ok (.parts l' r' q') ∧
      l'.controlPoints = r.controlPoints.reverse ∧ r'.controlPoints = l.controlPoints.reverse := by
  have hb' : QuadOrCubic b' := by unfold QuadOrCubic at *; rw [h, List.length_reverse]; exact hb
  obtain ⟨l, r, e, hl, hr, _, _, _, _, cl, cr⟩ := split1_spec b hb (1 - t)
  obtain ⟨l', r', e', hl', hr', _, _, _, _, cl', cr'⟩ := split1_spec b' hb' t
  have hlen : b'.controlPoints.length = b.controlPoints.length := by rw [h, List.length_reverse]
  refine ⟨l, r, _, l', r', _, by unfold split; simp only [e, ok_bind]; rfl, by unfold split; simp only [e', ok_bind]; rfl, ?_, ?_⟩
  · apply Reversed.points_unique
    · rw [hl', hlen]; exact hb
    · rw [List.length_reverse, hr, hl', hlen]
    · intro s
      rw [Reversed.curve_reverse, cl', cr, h, Reversed.curve_reverse]
      congr 1; ring
  · apply Reversed.points_unique
    · rw [hr', hlen]; exact hb
    · rw [List.length_reverse, hl, hr', hlen]
    · intro s
      rw [Reversed.curve_reverse, cr', cl, h, Reversed.curve_reverse]
      congr 1; ring

namespace Reversed

theorem deriv_reflect (f g : ℝ → ℝ) (h : ∀ s, g s = f (1 - s)) : deriv g = fun s => -deriv f (1 - s) := by
  have : g = fun s => f (1 - s) := funext h
  rw [this]
  funext s
  exact deriv_comp_const_sub f 1 s

theorem isolated_neg (f g : ℝ → ℝ) (h : ∀ s, g s = -f (1 - s)) (t : ℝ) : IsolatedZero g t ↔ IsolatedZero f (1 - t) := by
  unfold IsolatedZero
  refine and_congr ⟨?_, ?_⟩ ?_
  · rintro ⟨s, hs⟩; exact ⟨1 - s, by rw [h] at hs; simpa using hs⟩
  · rintro ⟨s, hs⟩; exact ⟨1 - s, by rw [h]; simpa using hs⟩
  · rw [h]; simp

theorem isolated_pos (f g : ℝ → ℝ) (h : ∀ s, g s = f (1 - s)) (t : ℝ) : IsolatedZero g t ↔ IsolatedZero f (1 - t) := by
  unfold IsolatedZero
  refine and_congr ⟨?_, ?_⟩ ?_
  · rintro ⟨s, hs⟩; exact ⟨1 - s, by rw [h] at hs; simpa using hs⟩
  · rintro ⟨s, hs⟩; exact ⟨1 - s, by rw [h]; simpa using hs⟩
  · rw [h]

theorem isolated_first (f g : ℝ → ℝ) (h : ∀ s, g s = f (1 - s)) (t : ℝ) : IsolatedZero (deriv g) t ↔ IsolatedZero (deriv f) (1 - t) :=
  isolated_neg _ _ (fun s => by rw [deriv_reflect f g h]) t

theorem isolated_second (f g : ℝ → ℝ) (h : ∀ s, g s = f (1 - s)) (t : ℝ) :
    IsolatedZero (deriv (deriv g)) t ↔ IsolatedZero (deriv (deriv f)) (1 - t) := by
  apply isolated_pos
  intro s
  rw [deriv_reflect f g h]
  have := deriv_comp_const_sub (deriv f) 1 s
  rw [deriv.fun_neg, this, neg_neg]

theorem range_reflect (t : ℝ) : (0 ≤ t ∧ t ≤ 1) ↔ (0 ≤ 1 - t ∧ 1 - t ≤ 1) := by
  constructor <;> rintro ⟨a, b⟩ <;> constructor <;> linarith

theorem sorted_unique {l m : List ℝ} (hl : l.Pairwise (· < ·)) (hm : m.Pairwise (· < ·)) (h : ∀ t, t ∈ l ↔ t ∈ m) : l = m := by
  apply List.Perm.eq_of_pairwise' hl hm
  exact (List.perm_ext_iff_of_nodup (hl.imp fun h => h.ne) (hm.imp fun h => h.ne)).mpr h

end Reversed

/-- C104: its extrema are those of the curve, reflected; the combined list is the reflected list in reverse order. -/
theorem C104_extrema (ps : Segment ℝ) (h : 2 ≤ ps.length) :
    ∃ e e', extrema ps = .ok e ∧ extrema ps.reverse = .ok e' ∧ (∀ t, (t ∈ e'.x ↔ 1 - t ∈ e.x) ∧ (t ∈ e'.y ↔ 1 - t ∈ e.y)) ∧
      e'.all = (e.all.map fun t => 1 - t).reverse := by
  have hl : ps.reverse.length = ps.length := List.length_reverse
  have fin : ∀ e e', extrema ps = .ok e → extrema ps.reverse = .ok e' → (∀ t, (t ∈ e'.x ↔ 1 - t ∈ e.x) ∧ (t ∈ e'.y ↔ 1 - t ∈ e.y)) →
      e'.all = (e.all.map fun t => 1 - t).reverse := by
    intro e e' he he' hm
    obtain ⟨s, m⟩ := C39_union ps e he
    obtain ⟨s', m'⟩ := C39_union ps.reverse e' he'
    apply Reversed.sorted_unique s'
    · rw [List.pairwise_reverse, List.pairwise_map]
      exact s.imp fun h => by linarith
    · intro t
      rw [m', (hm t).1, (hm t).2, ← m]
      simp only [List.mem_reverse, List.mem_map]
      constructor
      · intro h; exact ⟨_, h, by ring⟩
      · rintro ⟨s, h, rfl⟩; simpa using h
  have cx : ∀ s, (curve ps.reverse s).1 = (curve ps (1 - s)).1 := fun s => by rw [Reversed.curve_reverse]
  have cy : ∀ s, (curve ps.reverse s).2 = (curve ps (1 - s)).2 := fun s => by rw [Reversed.curve_reverse]
  by_cases h3 : ps.length = 3
  · obtain ⟨e, he, me⟩ := C39_quadratic ps h3
    obtain ⟨e', he', me'⟩ := C39_quadratic ps.reverse (by omega)
    have hm : ∀ t, (t ∈ e'.x ↔ 1 - t ∈ e.x) ∧ (t ∈ e'.y ↔ 1 - t ∈ e.y) := by
      intro t
      rw [(me' t).1, (me' t).2, (me _).1, (me _).2, Reversed.isolated_first (fun t => (curve ps t).1) _ cx, Reversed.isolated_first (fun t => (curve ps t).2) _ cy, Reversed.range_reflect t]
      exact ⟨Iff.rfl, Iff.rfl⟩
    exact ⟨e, e', he, he', hm, fin e e' he he' hm⟩
  · by_cases h4 : ps.length = 4
    · obtain ⟨e, he, me⟩ := C39_cubic ps h4
      obtain ⟨e', he', me'⟩ := C39_cubic ps.reverse (by omega)
      have hm : ∀ t, (t ∈ e'.x ↔ 1 - t ∈ e.x) ∧ (t ∈ e'.y ↔ 1 - t ∈ e.y) := by
        intro t
        rw [(me' t).1, (me' t).2, (me _).1, (me _).2, Reversed.isolated_first (fun t => (curve ps t).1) _ cx, Reversed.isolated_first (fun t => (curve ps t).2) _ cy,
          Reversed.isolated_second (fun t => (curve ps t).1) _ cx, Reversed.isolated_second (fun t => (curve ps t).2) _ cy, Reversed.range_reflect t]
        exact ⟨Iff.rfl, Iff.rfl⟩
      exact ⟨e, e', he, he', hm, fin e e' he he' hm⟩
    · obtain ⟨e, he, x, y, a⟩ := (C39_other ps).1 (by omega)
      obtain ⟨e', he', x', y', a'⟩ := (C39_other ps.reverse).1 (by omega)
      refine ⟨e, e', he, he', ?_, ?_⟩
      · simp [x, y, x', y']
      · simp [a, a']

namespace Reversed

theorem minmax_reverse (ps : Segment ℝ) (h : ps ≠ []) (d : Fin 2) (l l' : List ℝ) (hl : ∀ t, t ∈ l' ↔ 1 - t ∈ l) :
    (getminmax ps.reverse d l').1 = (getminmax ps d l).1 := by
  unfold getminmax
  simp only
  obtain ⟨m, M, e, h1, h2⟩ := minmaxLoop_ok ps h d (addEnds l)
  obtain ⟨m', M', e', h1', h2'⟩ := minmaxLoop_ok ps.reverse (by simpa using h) d (addEnds l')
  have mem : ∀ t, t ∈ addEnds l' ↔ 1 - t ∈ addEnds l := by
    intro t
    rw [mem_addEnds, mem_addEnds, hl]
    have a : t = 0 ↔ 1 - t = 1 := by constructor <;> intro h <;> linarith
    have b : t = 1 ↔ 1 - t = 0 := by constructor <;> intro h <;> linarith
    rw [a, b]; tauto
  have all : ∀ P : Pt ℝ → Prop, (∀ t ∈ addEnds l', P (curve ps.reverse t)) ↔ ∀ t ∈ addEnds l, P (curve ps t) := by
    intro P
    constructor
    · intro hp t ht
      have := hp (1 - t) ((mem _).mpr (by simpa using ht))
      rw [curve_reverse] at this
      simpa using this
    · intro hp t ht
      rw [curve_reverse]
      exact hp _ ((mem t).mp ht)
  rw [e, e']
  have a : m' = m := eq_of_forall_le_iff fun x => by rw [h1, h1', all fun p => x ≤ coord d p]
  have b : M' = M := eq_of_forall_ge_iff fun x => by rw [h2, h2', all fun p => coord d p ≤ x]
  rw [a, b]

theorem bbox_reverse (ps : Segment ℝ) : bbox ps.reverse = bbox ps := by
  by_cases h : ps.length < 2
  · have : ps.reverse = ps := by
      match ps, h with
      | [], _ => rfl
      | [a], _ => rfl
    rw [this]
  · obtain ⟨e, e', he, he', hm, _⟩ := C104_extrema ps (by omega)
    have hne : ps ≠ [] := by rintro rfl; simp at h
    unfold bbox
    rw [he, he']
    simp only [ok_bind]
    rw [minmax_reverse ps hne 0 _ _ fun t => (hm t).1, minmax_reverse ps hne 1 _ _ fun t => (hm t).2]

end Reversed

/-- C104: it has the same bounding box and the same rectangle (every order). -/
theorem C104_bounds (ps : Segment ℝ) : bbox ps.reverse = bbox ps ∧ boundsRectangle ps.reverse = boundsRectangle ps := by
  refine ⟨Reversed.bbox_reverse ps, ?_⟩
  unfold boundsRectangle
  rw [Reversed.bbox_reverse]

/-- C104: it overlaps the same curves. -/
theorem C104_overlaps (b b' c : Bezier) (h : b'.controlPoints = b.controlPoints.reverse) :
    overlaps b' c = overlaps b c ∧ overlaps c b' = overlaps c b := by
  unfold overlaps
  rw [h, (C104_bounds _).2]
  exact ⟨rfl, rfl⟩

/-- C104: a quadratic and its reverse agree on `simple()`; so do a cubic and its reverse when no inner control point is on the base line. -/
theorem C104_simple (ps : Segment ℝ) :
    (ps.length = 3 → simple ps.reverse = simple ps) ∧
    (∀ a p q z, ps = [a, p, q, z] → cross (vec a z) (vec a p) ≠ 0 → cross (vec a z) (vec a q) ≠ 0 → simple ps.reverse = simple ps) := by
  have n2 : ∀ u : Pt ℝ, norm2 (opposite u) = norm2 u := fun u => by simp [norm2, opposite]
  have fin : ∀ ps : Segment ℝ, ps.length = 3 ∨ ps.length = 4 → legs ps.reverse = (opposite (legs ps).2, opposite (legs ps).1) →
      (SShaped ps.reverse ↔ SShaped ps) → simple ps.reverse = simple ps := by
    intro ps h hl hs
    rw [C71_simple ps h, C71_simple ps.reverse (by simpa using h), hl]
    have z : ∀ u : Pt ℝ, opposite u = (0, 0) ↔ u = (0, 0) := fun u => by
      simp [opposite, Prod.ext_iff]
    have d : dot (opposite (legs ps).2) (opposite (legs ps).1) = dot (legs ps).1 (legs ps).2 := by
      simp only [dot, opposite]; ring
    have o : (opposite (legs ps).2 = (0, 0) ∨ opposite (legs ps).1 = (0, 0)) ↔ ((legs ps).1 = (0, 0) ∨ (legs ps).2 = (0, 0)) := by
      rw [z, z, or_comm]
    simp only [o, n2, d, mul_comm (norm2 (legs ps).2)]
    by_cases hS : SShaped ps
    · rw [if_pos hS, if_pos (hs.mpr hS)]
    · rw [if_neg hS, if_neg (fun h => hS (hs.mp h))]
  constructor
  · intro h
    match ps, h with
    | [a, b, c], _ =>
      apply fin _ (.inl rfl)
      · simp [legs, vec, opposite]
      · simp [SShaped]
  · rintro a p q z rfl hp hq
    apply fin _ (.inr rfl)
    · simp [legs, vec, opposite]
    · show SShaped [z, q, p, a] ↔ SShaped [a, p, q, z]
      have e : ∀ x : Pt ℝ, cross (vec z a) (vec z x) = -cross (vec a z) (vec a x) := fun x => by
        simp only [cross, vec]; ring
      simp only [SShaped, LeftOf, RightOf, e, neg_eq_zero, hp, hq, false_and, or_false]
      constructor <;> rintro (⟨a, b⟩ | ⟨a, b⟩)
      · left; constructor <;> linarith
      · right; constructor <;> linarith
      · left; constructor <;> linarith
      · right; constructor <;> linarith

/-- C104: outside of this the answer can depend on the direction: an inner control point on the base line, outside of it, counts as being on one
side from one end only. -/
theorem C104_simple_counterexample : ∃ ps : Segment ℝ, ps.length = 4 ∧ simple ps = .ok false ∧ simple ps.reverse = .ok true := by
  refine ⟨[(0, 0), (-1, 0), (4, -1), (2, 0)], rfl, ?_, ?_⟩
  · rw [C71_simple _ (.inr rfl), if_pos (.inl ⟨.inr (by norm_num [cross, dot, vec]), by norm_num [RightOf, cross, vec]⟩)]
  · show simple [(2, 0), (4, -1), (-1, 0), (0, 0)] = _
    rw [C71_simple _ (.inr rfl), if_neg (by norm_num [SShaped, LeftOf, RightOf, cross, dot, vec]),
      if_neg (by norm_num [legs, vec])]
    congr 1
    rw [decide_eq_true_iff]
    have h1 : norm2 (1, 0) = 1 := by norm_num [norm2]
    have h2 : norm2 (2, -1) < 4 := by
      unfold norm2
      rw [Real.sqrt_lt' (by norm_num)]
      norm_num
    norm_num [legs, vec, dot, h1]
    linarith

/-- C104: a quadratic and its reverse turn opposite ways, unless the inner control point is on the base line. For cubics the same holds when both
inner control points are on the same side. -/
theorem C104_clockwise (ps : Segment ℝ) (b b' : Bezier) (h : Bezier.new ps = .ok b) (h' : Bezier.new ps.reverse = .ok b')
    (hs : (∃ a p z, ps = [a, p, z] ∧ cross (vec a z) (vec a p) ≠ 0) ∨
      ∃ a p q z, ps = [a, p, q, z] ∧ 0 < cross (vec a z) (vec a p) * cross (vec a z) (vec a q)) : b'.clockwise = !b.clockwise := by
  have e : ∀ a z x : Pt ℝ, cross (vec z a) (vec z x) = -cross (vec a z) (vec a x) := fun a z x => by
    simp only [cross, vec]; ring
  have key : (b'.clockwise = true ↔ ¬ b.clockwise = true) → b'.clockwise = !b.clockwise := by
    cases b.clockwise <;> cases b'.clockwise <;> simp
  apply key
  rcases hs with ⟨a, p, z, rfl, hc⟩ | ⟨a, p, q, z, rfl, hc⟩
  · rw [C49_clockwise _ b h a z p rfl rfl rfl, C49_clockwise _ b' h' z a p rfl rfl rfl]
    simp only [LeftOf, e a z p, neg_eq_zero, hc, false_and, or_false, Left.neg_pos_iff, not_lt]
    exact ⟨le_of_lt, fun h => lt_of_le_of_ne h hc⟩
  · rw [C49_clockwise _ b h a z p rfl rfl rfl, C49_clockwise _ b' h' z a q rfl rfl rfl]
    have hp : cross (vec a z) (vec a p) ≠ 0 := by rintro h; rw [h] at hc; simp at hc
    have hq : cross (vec a z) (vec a q) ≠ 0 := by rintro h; rw [h] at hc; simp at hc
    simp only [LeftOf, e a z q, neg_eq_zero, hp, hq, false_and, or_false, Left.neg_pos_iff, not_lt]
    rcases pos_and_pos_or_neg_and_neg_of_mul_pos hc with ⟨h1, h2⟩ | ⟨h1, h2⟩
    · exact ⟨fun h => absurd h (not_lt.mpr h2.le), fun h => absurd h1 (not_lt.mpr h)⟩
    · exact ⟨fun _ => h1.le, fun _ => h2⟩

namespace Reversed

/-- The rectangle around a contour, as the constructor of a contour builds it. -/
noncomputable def unions (rs : List (BoundsRectangle ℝ)) (r : BoundsRectangle ℝ) : BoundsRectangle ℝ := rs.foldl BoundsRectangle.union r

theorem build_eq (c : Contour ℝ) (acc : List Bezier × BoundsRectangle ℝ) (h : ∀ s ∈ c, 2 ≤ s.length) :
    ∃ bs rs, List.Forall₂ (fun s b => Bezier.new s = .ok b) c bs ∧ List.Forall₂ (fun s r => boundsRectangle s = .ok r) c rs ∧
      c.foldlM (fun (acc : List Bezier × BoundsRectangle ℝ) segment => do
        let bezier ← Bezier.new segment
        let r ← boundsRectangle bezier.controlPoints
        return (acc.1 ++ [bezier], acc.2.union r)) acc = .ok (acc.1 ++ bs, unions rs acc.2) := by
  induction c generalizing acc with
  | nil => exact ⟨[], [], .nil, .nil, by simp [unions]⟩
  | cons s c ih =>
    obtain ⟨b, hb, hbc, _⟩ := new_ok s (h s (by simp))
    obtain ⟨r, hr, _⟩ := boundsRectangle_ok s (h s (by simp))
    obtain ⟨bs, rs, h1, h2, e⟩ := ih (acc.1 ++ [b], acc.2.union r) (fun s hs => h s (by simp [hs]))
    refine ⟨b :: bs, r :: rs, .cons hb h1, .cons hr h2, ?_⟩
    rw [List.foldlM_cons, hb, ok_bind, hbc, hr, ok_bind, pure_eq_ok, ok_bind, e]
    simp [unions]

theorem rect_proper (s : Segment ℝ) (r : BoundsRectangle ℝ) (h : boundsRectangle s = .ok r) : BoundsRectangle.Proper r := by
  by_cases h2 : 2 ≤ s.length
  · obtain ⟨r', hr, hp, _⟩ := boundsRectangle_ok s h2
    rw [hr] at h; cases h; exact hp
  · unfold boundsRectangle bbox at h
    rw [(C39_other s).2 (by omega)] at h
    cases h

theorem unions_proper (rs : List (BoundsRectangle ℝ)) (r : BoundsRectangle ℝ) (hr : BoundsRectangle.Proper r)
    (h : ∀ x ∈ rs, BoundsRectangle.Proper x) : BoundsRectangle.Proper (unions rs r) := by
  induction rs generalizing r with
  | nil => exact hr
  | cons x rs ih => exact ih _ (BoundsRectangle.proper_union _ _) fun y hy => h y (by simp [hy])

theorem unions_union (rs : List (BoundsRectangle ℝ)) (r x : BoundsRectangle ℝ) (hr : BoundsRectangle.Proper r) (hx : BoundsRectangle.Proper x)
    (h : ∀ y ∈ rs, BoundsRectangle.Proper y) : unions rs (r.union x) = (unions rs r).union x := by
  induction rs generalizing r with
  | nil => rfl
  | cons y rs ih =>
    show unions rs ((r.union x).union y) = (unions rs (r.union y)).union x
    rw [← ih _ (BoundsRectangle.proper_union _ _) fun z hz => h z (by simp [hz])]
    rw [C10_union_assoc r x y hr hx, C10_union_comm x y, ← C10_union_assoc r y x hr (h y (by simp))]

theorem unions_reverse (rs : List (BoundsRectangle ℝ)) (r : BoundsRectangle ℝ) (hr : BoundsRectangle.Proper r)
    (h : ∀ y ∈ rs, BoundsRectangle.Proper y) : unions rs.reverse r = unions rs r := by
  induction rs generalizing r with
  | nil => rfl
  | cons y rs ih =>
    rw [List.reverse_cons]
    have : unions (rs.reverse ++ [y]) r = (unions rs.reverse r).union y := by simp [unions]
    rw [this, ih r hr fun z hz => h z (by simp [hz])]
    exact (unions_union rs r y hr (h y (by simp)) fun z hz => h z (by simp [hz])).symm

theorem unions_empty (rs : List (BoundsRectangle ℝ)) (h : ∀ y ∈ rs, BoundsRectangle.Proper y) :
    unions rs.reverse (BoundsRectangle.new []) = unions rs (BoundsRectangle.new []) := by
  have key : ∀ (x : BoundsRectangle ℝ) (l : List (BoundsRectangle ℝ)), BoundsRectangle.Proper x →
      unions (x :: l) (BoundsRectangle.new []) = unions l x := by
    intro x l hx
    show unions l ((BoundsRectangle.new []).union x) = _
    rw [(C10_union_empty x hx).2]
  cases hrs : rs.reverse with
  | nil => rw [List.reverse_eq_nil_iff.mp hrs]
  | cons x l =>
    have e : rs = l.reverse ++ [x] := by rw [← List.reverse_reverse rs, hrs, List.reverse_cons]
    have hx : BoundsRectangle.Proper x := h x (by rw [e]; simp)
    have hl : ∀ y ∈ l, BoundsRectangle.Proper y := fun y hy => h y (by rw [e]; simp [hy])
    rw [key x l hx, e]
    cases hlr : l.reverse with
    | nil =>
      rw [List.reverse_eq_nil_iff.mp hlr]
      exact (key x [] hx).symm
    | cons y m =>
      have hl' : ∀ z ∈ y :: m, BoundsRectangle.Proper z := fun z hz => hl z (by rw [← hlr] at hz; simpa using hz)
      rw [List.cons_append, key y _ (hl' y (by simp))]
      have e2 : unions (m ++ [x]) y = (unions m y).union x := by simp [unions]
      rw [e2, ← unions_reverse l x hx hl, hlr]
      show unions m (x.union y) = _
      rw [C10_union_comm x y, unions_union m y x (hl' y (by simp)) hx fun z hz => hl' z (by simp [hz])]

theorem rects_proper {c : Contour ℝ} {rs : List (BoundsRectangle ℝ)} (h : List.Forall₂ (fun s r => boundsRectangle s = .ok r) c rs) :
    ∀ y ∈ rs, BoundsRectangle.Proper y := by
  induction h with
  | nil => simp
  | cons hr _ ih =>
    intro y hy
    rcases List.mem_cons.mp hy with rfl | hy
    · exact rect_proper _ _ hr
    · exact ih y hy

theorem rects_unique {c : Contour ℝ} {rs rs' : List (BoundsRectangle ℝ)} (h : List.Forall₂ (fun s r => boundsRectangle s = .ok r) c rs)
    (h' : List.Forall₂ (fun s r => boundsRectangle s = .ok r) c rs') : rs = rs' := by
  induction h generalizing rs' with
  | nil => cases h'; rfl
  | cons hr _ ih =>
    cases h' with
    | cons hr' h' =>
      rw [hr] at hr'
      cases hr'
      rw [ih h']

theorem contour_bounds (c : Contour ℝ) (bc : BContour) (h : BContour.new c = .ok bc) :
    ∃ rs, List.Forall₂ (fun s r => boundsRectangle s = .ok r) c rs ∧ bc.bounds = unions rs (BoundsRectangle.new []) := by
  obtain ⟨_, hl⟩ := (C52_new c).mp ⟨bc, h⟩
  obtain ⟨bs, rs, _, h2, e⟩ := build_eq c ([], BoundsRectangle.new []) hl
  unfold BContour.new BContour.build at h
  rw [e] at h
  simp only [ok_bind] at h
  obtain ⟨_, _, h⟩ := bind_eq_ok.mp h
  obtain ⟨_, _, h⟩ := bind_eq_ok.mp h
  obtain ⟨_, _, h⟩ := bind_eq_ok.mp h
  obtain ⟨_, _, h⟩ := bind_eq_ok.mp h
  cases h
  exact ⟨rs, h2, rfl⟩

theorem contour_refines (c : Contour ℝ) (bc : BContour) (h : BContour.new c = .ok bc) : bc.Refines c := by
  obtain ⟨hc, hl⟩ := (C52_new c).mp ⟨bc, h⟩
  obtain ⟨bc', h', hr, _⟩ := contour_new_spec c hc hl
  rw [h] at h'
  cases h'
  exact hr

end Reversed

/-- C104: a contour traversed the other way (the curves in reverse order, each of them reversed) has the same rectangle; its start is the end of
the contour and its end the start. It is accepted exactly when the contour is. -/
theorem C104_contour (c : Contour ℝ) :
    ((∃ bc, BContour.new c = .ok bc) ↔ ∃ bc, BContour.new (c.map List.reverse).reverse = .ok bc) ∧
    ∀ bc bc', BContour.new c = .ok bc → BContour.new (c.map List.reverse).reverse = .ok bc' →
      bc'.bounds = bc.bounds ∧ bc'.start = bc.stop ∧ bc'.stop = bc.start ∧
      bc'.beziers.map (·.controlPoints) = (bc.beziers.map fun b => b.controlPoints.reverse).reverse := by
  constructor
  · rw [C52_new, C52_new]
    simp only [ne_eq, List.reverse_eq_nil_iff, List.map_eq_nil_iff, List.mem_reverse, List.mem_map]
    refine and_congr Iff.rfl ⟨?_, fun h s hs => ?_⟩
    · rintro h _ ⟨s, hs, rfl⟩
      rw [List.length_reverse]
      exact h s hs
    · have := h _ ⟨s, hs, rfl⟩
      rwa [List.length_reverse] at this
  · intro bc bc' h h'
    obtain ⟨rs, hrs, hb⟩ := Reversed.contour_bounds c bc h
    obtain ⟨rs', hrs', hb'⟩ := Reversed.contour_bounds _ bc' h'
    have r := Reversed.contour_refines c bc h
    have r' := Reversed.contour_refines _ bc' h'
    obtain ⟨hc, hl⟩ := (C52_new c).mp ⟨bc, h⟩
    have hrev : List.Forall₂ (fun s r => boundsRectangle s = .ok r) (c.map List.reverse).reverse rs.reverse := by
      apply List.rel_reverse
      rw [List.forall₂_map_left_iff]
      exact hrs.imp fun s r h => by rw [(C104_bounds s).2, h]
    have hp : ∀ y ∈ rs, BoundsRectangle.Proper y := by
      exact Reversed.rects_proper hrs
    have hh : c.head? = some (c.head hc) := List.head?_eq_some_head hc
    have ht : c.getLast? = some (c.getLast hc) := List.getLast?_eq_some_getLast hc
    obtain ⟨e1, e2⟩ := r.ends _ _ hh ht
    obtain ⟨e3, e4⟩ := r'.ends (c.getLast hc).reverse (c.head hc).reverse (by simp [ht]) (by simp [hh])
    rw [List.head?_reverse, e2] at e3
    rw [List.getLast?_reverse, e1] at e4
    refine ⟨?_, (Option.some.inj e3).symm, (Option.some.inj e4).symm, ?_⟩
    · rw [hb, hb', Reversed.rects_unique hrs' hrev, Reversed.unions_empty rs hp]
    · rw [refines_points r'.curves, ← refines_points r.curves]
      simp

/-- A concrete case: the arch from (0, 0) over (10, 40) to (50, 0) and the same arch from right to left. They turn opposite ways, both are cut into
parts that are each other's reverse, and both have the same rectangle. -/
example : ∃ b b' : Bezier, Bezier.new [(0, 0), (10, 40), (50, 0)] = .ok b ∧ Bezier.new [(50, 0), (10, 40), (0, 0)] = .ok b' ∧
    b'.clockwise = (!b.clockwise) ∧ boundsRectangle b'.controlPoints = boundsRectangle b.controlPoints ∧
    simple b'.controlPoints = simple b.controlPoints ∧
    ∃ l r q l' r' q', split b (1 - 1 / 4) none = .ok (.parts l r q) ∧ split b' (1 / 4) none = .ok (.parts l' r' q') ∧
      l'.controlPoints = r.controlPoints.reverse ∧ r'.controlPoints = l.controlPoints.reverse := by
  obtain ⟨b, h, hc, _⟩ := new_ok [((0 : ℝ), (0 : ℝ)), (10, 40), (50, 0)] (by simp)
  obtain ⟨b', h', hc', _⟩ := new_ok [((50 : ℝ), (0 : ℝ)), (10, 40), (0, 0)] (by simp)
  refine ⟨b, b', h, h', ?_, ?_, ?_, ?_⟩
  · exact C104_clockwise _ b b' h h' (.inl ⟨_, _, _, rfl, by norm_num [cross, vec]⟩)
  · rw [hc, hc']; exact (C104_bounds [((0 : ℝ), (0 : ℝ)), (10, 40), (50, 0)]).2
  · rw [hc, hc']; exact (C104_simple [((0 : ℝ), (0 : ℝ)), (10, 40), (50, 0)]).1 rfl
  · exact C104_split b b' (.inl (by rw [hc]; rfl)) (by rw [hc, hc']; rfl) _

/-- A concrete case: a cubic with both inner control points above its base line. -/
example : simple [((50 : ℝ), (0 : ℝ)), (40, 10), (10, 10), (0, 0)] = simple [((0 : ℝ), (0 : ℝ)), (10, 10), (40, 10), (50, 0)] :=
  (C104_simple [((0 : ℝ), (0 : ℝ)), (10, 10), (40, 10), (50, 0)]).2 _ _ _ _ rfl (by norm_num [cross, vec]) (by norm_num [cross, vec])

/-- A concrete case: a table of a line of order one and its reverse. -/
example : lutOf [((0 : ℚ), (0 : ℚ)), (4, 8)] 3 = .ok [(0, 0), (2, 4), (4, 8)] ∧ lutOf [((4 : ℚ), (8 : ℚ)), (0, 0)] 3 = .ok [(4, 8), (2, 4), (0, 0)] := by
  decide +kernel

end PathLib
