import Verif.Props.BezierOffset
import Verif.Props.BezierRoots
import Verif.Props.SignedZero
import Verif.Props.BezierLength

set_option linter.unusedSectionVars false
set_option linter.unusedSimpArgs false

/-!
# Coinciding control points: C116

Curves whose first two or last two control points are the same point, as editors write them for a corner without a handle; curves
that stop somewhere; curves that are a single point; closed curves; and lines without direction.
-/

namespace PathLib
open Spec Bezier

/-! ## The first two control points -/

private theorem legs_start (ps : Segment ℝ) (h : ps.length = 3 ∨ ps.length = 4) (p : Pt ℝ) (rest : Segment ℝ) (e : ps = p :: p :: rest) :
    (legs ps).1 = (0, 0) := by
  subst e
  rcases h with h | h
  · match rest, h with
    | [c], _ => simp [legs, vec]
  · match rest, h with
    | [c, d], _ => simp [legs, vec]

private theorem legs_end (ps : Segment ℝ) (h : ps.length = 3 ∨ ps.length = 4) (p : Pt ℝ) (front : Segment ℝ) (e : ps = front ++ [p, p]) :
    (legs ps).2 = (0, 0) := by
  subst e
  rcases h with h | h
  · have : front.length = 1 := by simpa using h
    match front, this with
    | [a], _ => simp [legs, vec]
  · have : front.length = 2 := by simpa using h
    match front, this with
    | [a, b], _ => simp [legs, vec]

/-- The parts of a curve that stops at the start stop at the start, and so the first of them makes `simple` raise. -/
private theorem reduce_start (b : Bezier) (hb : QuadOrCubic b) (h : StopsAt b.controlPoints 0) : reduce b = .error .zeroDivisionError := by
  have hmem : ∃ e, extrema b.controlPoints = .ok e ∧ ∀ t ∈ e.all, 0 ≤ t ∧ t ≤ 1 := by
    rcases hb with h | h
    · obtain ⟨e, he, hh⟩ := C39_quadratic _ h
      refine ⟨e, he, fun t ht => ?_⟩
      rcases ((C39_union _ e he).2 t).mp ht with h' | h'
      · exact ((hh t).1.mp h').1
      · exact ((hh t).2.mp h').1
    · obtain ⟨e, he, hh⟩ := C39_cubic _ h
      refine ⟨e, he, fun t ht => ?_⟩
      rcases ((C39_union _ e he).2 t).mp ht with h' | h'
      · exact ((hh t).1.mp h').1
      · exact ((hh t).2.mp h').1
  obtain ⟨e, he, hr⟩ := hmem
  obtain ⟨rest, e1, hne, hp, hle, -⟩ := addEnds_spec e.all (C39_union _ e he).1 hr
  obtain ⟨l, hl, ht, hlen, -⟩ := pass1_spec b hb 0 rest hp le_rfl hle
  obtain ⟨p1, l, rfl⟩ : ∃ p1 l', l = p1 :: l' := by
    cases l with
    | nil => exact absurd (List.length_eq_zero_iff.mp hlen.symm) hne
    | cons p l => exact ⟨p, l, rfl⟩
  obtain ⟨ta, -, tl, tc, -⟩ := ht
  have hq : QuadOrCubic p1 := by unfold QuadOrCubic; rw [tl]; exact hb
  have s1 : StopsAt p1.controlPoints 0 := stops_part (s := 0) tc (by rw [ta]; simpa using h)
  obtain ⟨seg, hseg, hsl, hsc⟩ := splitPiece_ok p1 hq 0 (0 + step) (by unfold step; norm_num) (.inl (by norm_num))
  have hsq : seg.controlPoints.length = 3 ∨ seg.controlPoints.length = 4 := by rw [hsl]; exact hq
  have s2 : StopsAt seg.controlPoints 0 := stops_part (s := 0) hsc (by simpa using s1)
  have hsim := simple_of_leg _ hsq (.inl ((stops_leg _ hsq).1 s2))
  unfold reduce reduceWith
  simp only [he, ok_bind, e1, hl]
  rw [reducePass2, reduceLoop, dif_pos (by unfold step; norm_num), hseg, ok_bind, hsim]
  rfl

/-- C116: when the first two control points of a quadratic or cubic are the same point, then `normal(0)`, `simple`, `reduce`, `offset`, `scale` and
`intersects` (with any curve, with itself, and as the other curve) all raise `ZeroDivisionError`. -/
theorem C116_start (b : Bezier) (hb : QuadOrCubic b) (p : Pt ℝ) (rest : Segment ℝ) (h : b.controlPoints = p :: p :: rest) :
    normal b.controlPoints 0 = .error .zeroDivisionError ∧ simple b.controlPoints = .error .zeroDivisionError ∧
    reduce b = .error .zeroDivisionError ∧ (∀ d, scale b (.const d) = .error .zeroDivisionError) ∧
    (∀ t, offset b t none = .error .zeroDivisionError) ∧ (∀ d, d ≠ 0 → offset b 0 (some d) = .error .zeroDivisionError) ∧
    (∀ depth c θ, intersects depth b c θ = .error .zeroDivisionError) ∧
    (∀ depth c θ, QuadOrCubic c → intersects depth c (some b) θ = .error .zeroDivisionError) := by
  have hz := legs_start _ hb p rest h
  have hs := (leg_deriv _ hb).1 hz
  have hn := (legs_normal _ hb).1 hz
  have hr := reduce_start b hb hs
  refine ⟨hn, simple_of_leg _ hb (.inl hz), hr, ?_, ?_, ?_, ?_, ?_⟩
  · intro d
    exact (C49_scale_raises b hb d).1.mpr (.inl hz)
  · intro t
    unfold offset offsetCurves offsetLinear
    simp only [hn, hr, error_bind]
    by_cases hl : b.linear = true
    · rw [if_pos hl]; rfl
    · rw [if_neg hl]; rfl
  · intro d hd
    exact (C49_point b hb 0 d hd (0, 0) hs.1 hs.2).1 rfl
  · intro depth c θ
    cases c with
    | none => unfold intersects selfIntersects; rw [hr]; rfl
    | some c => unfold intersects; simp only [hr]; rfl
  · intro depth c θ hc
    unfold intersects
    simp only [hr]
    cases hrc : reduce c with
    | error e => obtain ⟨rfl, -⟩ := C48_raises c hc e hrc; rfl
    | ok l => rfl

/-- A glyph corner: a cubic that leaves (0,0) without a handle. -/
example (b : Bezier) (h : Bezier.new [(0, 0), (0, 0), (50, 100), (100, 100)] = .ok b) (c : Bezier) (depth : Nat) :
    intersects depth b (some c) (1 / 2) = .error .zeroDivisionError := by
  have e := (new_controlPoints h).1
  exact (C116_start b (by rw [QuadOrCubic, e]; simp) (0, 0) [(50, 100), (100, 100)] e).2.2.2.2.2.2.1 depth (some c) _

/-! ## Curves that stop somewhere -/

private theorem curveIntersects_nil (depth : Nat) (l : List Bezier) (θ : ℝ) : curveIntersects depth [] l θ = .ok [] ∧ curveIntersects depth l [] θ = .ok [] := by
  constructor
  · rfl
  · unfold curveIntersects
    have : (l.flatMap fun a => ([] : List Bezier).map fun r => (a, r)) = [] := by simp
    rw [this]; rfl

/-- C116: a quadratic or cubic that stops anywhere (its derivative vanishes, for example at a cusp, or because its last two control points are
the same point) is never found to intersect anything: `reduce` raises `ZeroDivisionError` or returns the empty list, and `intersects` raises it or
returns the empty list, whatever the other curve. -/
theorem C116_stops (b : Bezier) (hb : QuadOrCubic b) (t : ℝ) (t0 : 0 ≤ t) (t1 : t ≤ 1) (h : StopsAt b.controlPoints t) :
    (reduce b = .error .zeroDivisionError ∨ reduce b = .ok []) ∧
    (∀ depth c θ, QuadOrCubic c → intersects depth b (some c) θ = .error .zeroDivisionError ∨ intersects depth b (some c) θ = .ok []) ∧
    (∀ depth c θ, QuadOrCubic c → intersects depth c (some b) θ = .error .zeroDivisionError ∨ intersects depth c (some b) θ = .ok []) ∧
    (∀ depth θ, intersects depth b none θ = .error .zeroDivisionError ∨ intersects depth b none θ = .ok []) := by
  have hr : reduce b = .error .zeroDivisionError ∨ reduce b = .ok [] := by
    cases e : reduce b with
    | error err => obtain ⟨rfl, -⟩ := C48_raises b hb err e; exact .inl rfl
    | ok r =>
      right
      by_cases hn : r = []
      · rw [hn]
      · exact absurd h (C48_stops b hb r e hn t t0 t1)
  have hc : ∀ c, QuadOrCubic c → reduce c = .error .zeroDivisionError ∨ ∃ l, reduce c = .ok l := by
    intro c hc
    cases e : reduce c with
    | error err => obtain ⟨rfl, -⟩ := C48_raises c hc err e; exact .inl rfl
    | ok r => exact .inr ⟨r, rfl⟩
  refine ⟨hr, ?_, ?_, ?_⟩
  · intro depth c θ hcq
    unfold intersects
    simp only
    rcases hr with hr | hr <;> rcases hc c hcq with hc | ⟨l, hc⟩ <;> rw [hr] <;> simp only [hc, ok_bind, error_bind, reduceCtorEq, or_false, false_or]
    exact .inr (curveIntersects_nil depth l θ).1
  · intro depth c θ hcq
    unfold intersects
    simp only
    rcases hr with hr | hr <;> rcases hc c hcq with hc | ⟨l, hc⟩ <;> rw [hr] <;> simp only [hc, ok_bind, error_bind, reduceCtorEq, or_false, false_or]
    exact .inr (curveIntersects_nil depth l θ).2
  · intro depth θ
    unfold intersects selfIntersects
    simp only
    rcases hr with hr | hr <;> rw [hr]
    · exact .inl rfl
    · exact .inr rfl

/-- C116: when the last two control points are the same point, `normal(1)`, `simple` and `scale` raise `ZeroDivisionError` and the curve stops at
the end. `offset(t)` returns no curve either, unless the curve is straight; then it is moved by its normal at the start. -/
theorem C116_end (b : Bezier) (hb : QuadOrCubic b) (p : Pt ℝ) (front : Segment ℝ) (h : b.controlPoints = front ++ [p, p]) :
    StopsAt b.controlPoints 1 ∧ normal b.controlPoints 1 = .error .zeroDivisionError ∧ simple b.controlPoints = .error .zeroDivisionError ∧
    (∀ d, scale b (.const d) = .error .zeroDivisionError) ∧ (∀ d, d ≠ 0 → offset b 1 (some d) = .error .zeroDivisionError) ∧
    (∀ t, b.linear = false → offset b t none = .error .zeroDivisionError ∨ offset b t none = .ok (.curves [])) := by
  have hz := legs_end _ hb p front h
  have hs := (leg_deriv _ hb).2 hz
  have hn := (legs_normal _ hb).2.2.1 hz
  refine ⟨hs, hn, simple_of_leg _ hb (.inr hz), ?_, ?_, ?_⟩
  · intro d
    exact (C49_scale_raises b hb d).1.mpr (.inr hz)
  · intro d hd
    exact (C49_point b hb 1 d hd (0, 0) hs.1 hs.2).1 rfl
  · intro t hl
    unfold offset offsetCurves
    simp only [hl]
    rcases (C116_stops b hb 1 zero_le_one le_rfl hs).1 with hr | hr <;> rw [hr]
    · exact .inl rfl
    · exact .inr rfl

/-- The cubic (0,0), (50,100), (100,100), (100,100) ends without a handle. -/
example (b : Bezier) (h : Bezier.new [(0, 0), (50, 100), (100, 100), (100, 100)] = .ok b) :
    StopsAt b.controlPoints 1 ∧ (reduce b = .error .zeroDivisionError ∨ reduce b = .ok []) := by
  have e := (new_controlPoints h).1
  have hq : QuadOrCubic b := by rw [QuadOrCubic, e]; simp
  have hs := (C116_end b hq (100, 100) [(0, 0), (50, 100)] e).1
  exact ⟨hs, (C116_stops b hq 1 zero_le_one le_rfl hs).1⟩

/-- A cusp: (0,0), (1,1), (0,1), (1,0) stops in the middle, though its control points are all different. -/
example : StopsAt [(0, 0), (1, 1), (0, 1), (1, 0)] (1 / 2) := by
  have := hasDerivAt_curve_step ([(0, 0), (1, 1), (0, 1), (1, 0)] : Segment ℝ) (by simp) (1 / 2)
  have e : curve (dcStep ([(0, 0), (1, 1), (0, 1), (1, 0)] : Segment ℝ)) (1 / 2) = (0, 0) := by
    simp [dcStep, curve_three]; norm_num
  rw [e] at this
  exact this

/-! ## Closed curves and lines without direction -/

private theorem align_closed (ps segment : Segment ℝ) (p : Pt ℝ) (h1 : segment.head? = some p) (h2 : segment.getLast? = some p) :
    alignPoints ps segment = .ok (ps.map fun q => (q.1 - p.1, q.2 - p.2)) := by
  match segment, h1, h2 with
  | a :: l, h1, h2 =>
    have ha : a = p := by simpa using h1
    subst ha
    have hg : pyGet (a :: l) (-1) = .ok a := by
      rw [pyGet_neg_one _ (by simp)]
      rw [List.getLast?_eq_some_getLast (by simp)] at h2
      rw [Option.some.inj h2]
    have hang : PathUtilities.rawSlopeAngle (a :: l) = .ok 0 := by
      unfold PathUtilities.rawSlopeAngle PathUtilities.getDeltas PathUtilities.endPoints
      simp [hg, pyGet_zero_cons, ok_bind, pure_eq_ok, PathUtilities.degrees, butils.atan2]
      exact Complex.arg_zero
    rw [alignPoints_ok ps _ a 0 rfl hang]
    congr 2
    funext q
    have hs : Transform.sin (-0) = 0 := by unfold Transform.sin Transform.radians; simp [round15_zero]
    have hc : Transform.cos (-0) = 1 := by unfold Transform.cos Transform.radians; simp [round15_one]
    unfold alignMap
    rw [hs, hc]
    simp

/-- C116: aligning with a segment that ends where it starts only moves the curve: nothing is turned. -/
theorem C116_align (ps segment : Segment ℝ) (p : Pt ℝ) (h1 : segment.head? = some p) (h2 : segment.getLast? = some p) :
    alignPoints ps segment = .ok (ps.map fun q => (q.1 - p.1, q.2 - p.2)) := align_closed ps segment p h1 h2

/-- C116: so a closed curve counts as linear exactly if it is level: its control points are no higher or lower than its ends by more than 0.0001. -/
theorem C116_closed (ps : Segment ℝ) (b : Bezier) (hb : Bezier.new ps = .ok b) (p : Pt ℝ) (h1 : ps.head? = some p) (h2 : ps.getLast? = some p) :
    b.linear = true ↔ ∀ q ∈ ps, |q.2 - p.2| ≤ 1 / 10000 := by
  match ps, h1, h2 with
  | a :: l, h1, h2 =>
    have ha : a = p := by simpa using h1
    subst ha
    have hg : pyGet (a :: l) (-1) = .ok a := by
      rw [pyGet_neg_one _ (by simp)]
      rw [List.getLast?_eq_some_getLast (by simp)] at h2
      rw [Option.some.inj h2]
    unfold new at hb
    obtain ⟨_, _, hb⟩ := bind_eq_ok.mp hb
    rw [pyGet_zero_cons, ok_bind, hg, ok_bind, align_closed _ [a, a] a rfl rfl, ok_bind] at hb
    obtain ⟨_, _, hb⟩ := bind_eq_ok.mp hb
    cases hb
    simp only [decide_eq_true_eq, List.length_eq_zero_iff, List.filter_eq_nil_iff, List.mem_map, forall_exists_index, and_imp,
      forall_apply_eq_imp_iff₂, not_lt, gt_iff_lt]

/-- The heart shape (0,0), (-50,100), (50,100), (0,0) is not linear, the needle (0,0), (100,0), (0,0) is. -/
example (b c : Bezier) (hb : Bezier.new [(0, 0), (-50, 100), (50, 100), (0, 0)] = .ok b) (hc : Bezier.new [(0, 0), (100, 0), (0, 0)] = .ok c) :
    b.linear = false ∧ c.linear = true := by
  constructor
  · rw [← Bool.not_eq_true, C116_closed _ b hb (0, 0) rfl rfl]
    intro h
    have := h (-50, 100) (by simp)
    norm_num at this
  · rw [C116_closed _ c hc (0, 0) rfl rfl]
    simp

/-- C116: a line whose two ends are the same point is taken for the horizontal line through it: the roots of a curve are those of the curve
relative to its height. `lineIntersects` then keeps those near the point. -/
theorem C116_point_line (ps : Segment ℝ) (p : Pt ℝ) :
    roots ps (some [p, p]) = roots (ps.map fun q => (q.1 - p.1, q.2 - p.2)) none ∧
    (ps.length = 3 → ∃ l, roots ps (some [p, p]) = .ok l ∧ ∀ t, t ∈ l ↔ NearUnit t ∧ IsolatedZero (fun t => (curve ps t).2 - p.2) t) ∧
    (ps ≠ [] → ∀ l, lineIntersects ps p p = .ok l → ∀ t ∈ l, NearBox p p (curve ps t)) := by
  have hq := align_closed ps [p, p] p rfl rfl
  have e1 := C66_roots_aligned ps _ [p, p] (by simp) hq
  refine ⟨e1, ?_, ?_⟩
  · intro hp
    have hp0 : ps ≠ [] := by intro e; rw [e] at hp; simp at hp
    obtain ⟨l, h4, h5⟩ := C43_quadratic (ps.map fun q => (q.1 - p.1, q.2 - p.2)) (by simpa using hp)
    refine ⟨l, by rw [e1, h4], fun t => ?_⟩
    rw [h5]
    have hm : (fun q : Pt ℝ => (q.1 - p.1, q.2 - p.2)) = affineMap 1 0 0 1 (-p.1) (-p.2) := by
      funext q; unfold affineMap; ext <;> simp <;> ring
    have : (fun t => (curve (ps.map fun q => (q.1 - p.1, q.2 - p.2)) t).2) = fun t => (curve ps t).2 - p.2 := by
      funext t
      rw [hm, curve_affine _ _ _ _ _ _ ps hp0]
      unfold affineMap; simp; ring
    rw [this]
  · intro hp l hl t ht
    obtain ⟨k1, k2⟩ := C44_lineIntersects ps hp p p
    cases hr : roots ps (some [p, p]) with
    | error e => rw [k2 e hr] at hl; cases hl
    | ok r =>
      obtain ⟨inBox, hb, hh⟩ := k1 r hr
      rw [hh] at hl
      cases hl
      exact (hb t).mp (List.mem_filter.mp ht).2

/-- C116: `intersectWithLine` does not look where on the line the root is, so for the arch (0,0), (50,100), (100,0) and the line without direction at
(1000, 32) it returns (20, 32), which is 980 away from it. -/
theorem C116_point_line_counterexample :
    intersectWithLine [(0, 0), (50, 100), (100, 0)] [(1000, 32), (1000, 32)] = .ok (some (20, 32)) ∧
    lineIntersects [(0, 0), (50, 100), (100, 0)] (1000, 32) (1000, 32) = .ok [] := by
  have hs : Real.sqrt 3600 = 60 := by rw [show (3600 : ℝ) = 60 ^ 2 by norm_num]; exact Real.sqrt_sq (by norm_num)
  have hr : roots [(0, 0), (50, 100), (100, 0)] (some [(1000, 32), (1000, 32)]) = .ok [1 / 5, 4 / 5] := by
    rw [(C116_point_line _ _).1]
    unfold roots
    have ho : order ([(0, 0), (50, 100), (100, 0)].map fun q : Pt ℝ => (q.1 - (1000, 32).1, q.2 - (1000, 32).2)) = 2 := by simp [order]
    simp only [pure_eq_ok, ok_bind, if_pos ho]
    simp only [List.map_cons, List.map_nil, pyGet_zero_cons, pyGet_one_cons, pyGet_two_cons, ok_bind]
    unfold quadraticRoots butils.sqrt keepRoots
    norm_num [hs, butils.approximately, Option.filter, List.filterMap]
  constructor
  · unfold intersectWithLine
    have ho : ¬ order ([(0, 0), (50, 100), (100, 0)] : Segment ℝ) = 1 := by simp [order]
    rw [if_neg ho, hr]
    simp only [ok_bind]
    rw [if_neg (by norm_num), if_neg (by norm_num), get_ok _ (by simp), ok_bind, curve_three, pure_eq_ok]
    norm_num
  · obtain ⟨inBox, hb, hh⟩ := (C44_lineIntersects [(0, 0), (50, 100), (100, 0)] (by simp) (1000, 32) (1000, 32)).1 _ hr
    rw [hh]
    congr 1
    rw [List.filter_eq_nil_iff]
    intro t ht hc
    rw [hb] at hc
    unfold NearBox at hc
    simp only [List.mem_cons, List.not_mem_nil, or_false] at ht
    rcases ht with rfl | rfl <;> rw [curve_three] at hc <;> norm_num at hc

/-! ## Curves that are a single point -/

/-- C116: a curve all of whose control points are the same point stays there: `get`, the lookup table, the bounds (inside the design space) and the
length are those of the point. It has no roots, not even on the axis, `getABC` finds no point C, and the curve stops everywhere. -/
theorem C116_point (n : ℕ) (hn : n = 3 ∨ n = 4) (p : Pt ℝ) :
    (∀ t, Bezier.get (List.replicate n p) t = .ok p) ∧ (∀ t, StopsAt (List.replicate n p) t) ∧
    lengthOf (List.replicate n p) = .ok 0 ∧ roots (List.replicate n p) none = .ok [] ∧
    (InDesignSpace p → boundsRectangle (List.replicate n p) = .ok ⟨p.1, p.2, p.1, p.2⟩) ∧
    (∀ t, ∃ a ratio h, getABC (List.replicate n p) t = .ok (a, p, none, ratio, h)) := by
  have hl : (List.replicate n p).length = 3 ∨ (List.replicate n p).length = 4 := by simpa using hn
  have hc : ∀ t, curve (List.replicate n p) t = p := by
    intro t
    rcases hn with rfl | rfl
    · simp only [List.replicate, curve_three]; ext <;> simp <;> ring
    · simp only [List.replicate, curve_four]; ext <;> simp <;> ring
  have hne : List.replicate n p ≠ [] := by rcases hn with rfl | rfl <;> simp
  have hg : ∀ t, Bezier.get (List.replicate n p) t = .ok p := fun t => by rw [get_ok _ hne, hc]
  refine ⟨hg, ?_, ?_, ?_, ?_, ?_⟩
  · intro t
    constructor
    · simp only [hc]; exact hasDerivAt_const t p.1
    · simp only [hc]; exact hasDerivAt_const t p.2
  · rw [C51_zero_iff _ hl]
    exact fun q hq q' hq' => (List.eq_of_mem_replicate hq).trans (List.eq_of_mem_replicate hq').symm
  · rcases hn with rfl | rfl
    · have ho : order (List.replicate 3 p) = 2 := by simp [order]
      unfold roots
      simp only [pure_eq_ok, ok_bind, if_pos ho]
      simp only [List.replicate, pyGet_zero_cons, pyGet_one_cons, pyGet_two_cons, ok_bind]
      unfold quadraticRoots
      have e : p.2 - 2 * p.2 + p.2 = 0 := by ring
      simp [e]
    · have ho : ¬ order (List.replicate 4 p) = 2 := by simp [order]
      unfold roots
      simp only [pure_eq_ok, ok_bind, if_neg ho]
      simp only [List.replicate, pyGet_zero_cons, pyGet_one_cons, pyGet_two_cons, pyGet_three_cons, ok_bind]
      unfold cubicRoots
      have e1 : -p.2 + 3 * p.2 - 3 * p.2 + p.2 = 0 := by ring
      have e2 : 3 * p.2 - 6 * p.2 + 3 * p.2 = 0 := by ring
      have e3 : -3 * p.2 + 3 * p.2 = 0 := by ring
      have e4 : butils.approximately (0 : ℝ) 0 = true := by simp [butils.approximately, butils.epsilon]
      simp only [e1, e2, e3, e4, if_true, pure_eq_ok]
  · intro hd
    obtain ⟨r, hr, -, ⟨_, _, _, e1⟩, ⟨_, _, _, e2⟩, ⟨_, _, _, e3⟩, ⟨_, _, _, e4⟩⟩ := C37_tight (List.replicate n p) (by omega)
      (fun q hq => by rw [List.eq_of_mem_replicate hq]; exact hd)
    rw [hc] at e1 e2 e3 e4
    rw [hr]
    congr 1
    cases r
    simp only at e1 e2 e3 e4
    simp only [← e1, ← e2, ← e3, ← e4]
  · intro t
    obtain ⟨a, b, c, ratio, first, last, h1, h2, h3, h4, h5, -⟩ := C50_getABC (List.replicate n p) hl t
    rw [hg] at h2
    have e1 : first = p := by
      rcases hn with rfl | rfl <;> simp only [List.replicate, pyGet_zero_cons] at h3 <;> exact (Except.ok.inj h3).symm
    have e2 : last = p := by
      rw [pyGet_neg_one _ hne] at h4
      exact (Except.ok.inj h4).symm.trans (List.eq_of_mem_replicate (List.getLast_mem hne))
    have e3 : c = none := h5.mpr (by rw [e1, e2]; simp [Parallel])
    rw [h1, e3, ← Except.ok.inj h2]
    exact ⟨a, ratio, _, rfl⟩

/-- The point (10, 0) is on the axis, and yet the curve there has no roots; `reduce` and `intersects` raise for it. -/
example (b : Bezier) (h : Bezier.new [(10, 0), (10, 0), (10, 0)] = .ok b) :
    roots b.controlPoints none = .ok [] ∧ reduce b = .error .zeroDivisionError := by
  have e := (new_controlPoints h).1
  exact ⟨by rw [e]; exact (C116_point 3 (.inl rfl) (10, 0)).2.2.2.1, (C116_start b (by rw [QuadOrCubic, e]; simp) (10, 0) [(10, 0)] e).2.2.1⟩

/-! ## In floating point -/

/-- C116: in floats, with 16-bit coordinates, `simple` of a cubic that leaves its start without a handle raises as well, except that it is `False` when the
end is to the left of and below the start and the third control point is to the right of the chord (the sign of zero then counts as a side). -/
theorem C116_float (a c d : Pt ℝ) (grid : ∀ p ∈ [a, c, d], OnGrid p) :
    (d.1 < a.1 ∧ d.2 < a.2 ∧ cross (vec a d) (vec a c) < 0 → Signed.simple float [a, a, c, d] = .ok false) ∧
    (¬ (d.1 < a.1 ∧ d.2 < a.2 ∧ cross (vec a d) (vec a c) < 0) → Signed.simple float [a, a, c, d] = .error .zeroDivisionError) := by
  have ga := grid a (by simp)
  have gc := grid c (by simp)
  have gd := grid d (by simp)
  have z : cross (vec a d) (vec a a) = 0 := by simp [cross, vec]
  have z2 : dot (vec a d) (vec a a) = 0 := by simp [dot, vec]
  have l : SignedLeft a d a ↔ d.1 < a.1 ∧ d.2 < a.2 := by
    unfold SignedLeft Behind Doubled
    simp [z, z2]
  have r : ¬ SignedRight a d a := by
    unfold SignedRight Behind
    simp [z, z2]
  constructor
  · rintro ⟨h1, h2, h3⟩
    exact (C112_simple a a c d (by simpa using ⟨ga, gc, gd⟩)).1 (.inl ⟨l.mpr ⟨h1, h2⟩, .inl h3⟩)
  · intro h
    have hright : d.1 < a.1 ∧ d.2 < a.2 → ¬ SignedRight a d c := by
      rintro ⟨h1, h2⟩ (h3 | ⟨-, h3⟩)
      · exact h ⟨h1, h2, h3⟩
      · unfold LeftOrUp vec at h3
        rcases h3 with ⟨h3, -⟩ | ⟨h3, -⟩ <;> simp at h3 <;> linarith
    obtain ⟨k1, k2⟩ := C112_angle a d a ga gd ga
    obtain ⟨k3, k4⟩ := C112_angle a d c ga gd gc
    have ho : order [a, a, c, d] = 3 := by simp [order]
    unfold Signed.simple
    simp only [if_pos ho, pyGet_zero_cons, pyGet_one_cons, pyGet_two_cons, pyGet_three_cons, pure_eq_ok, ok_bind]
    rw [if_neg (by
      simp only [decide_eq_true_eq]
      rintro (⟨h1, h2⟩ | ⟨h1, -⟩)
      · exact hright (l.mp (k1.mp h1)) (k4.mp h2)
      · exact r (k2.mp h1))]
    have hn := (C89_normal (B := binary 52) C89_float.1 [a, a, c, d] (.inr rfl) 0 (0, 0) (.inl ⟨rfl, by simp [legs, vec]⟩)).1 rfl
    rw [hn]
    rfl

/-- C116: so the corner (0,0), (0,0), (100,50), (100,100) raises `ZeroDivisionError`, and the same corner turned by 180 degrees is `False`. -/
theorem C116_float_counterexample :
    Signed.simple float [(0, 0), (0, 0), (100, 50), (100, 100)] = .error .zeroDivisionError ∧
    Signed.simple float [(0, 0), (0, 0), (-100, -50), (-100, -100)] = .ok false := by
  have g : ∀ m n : ℤ, |m| ≤ 32768 → |n| ≤ 32768 → OnGrid ((m : ℝ), (n : ℝ)) := fun m n h1 h2 => ⟨m, n, h1, h2, rfl⟩
  constructor
  · refine (C116_float (0, 0) (100, 50) (100, 100) ?_).2 (by norm_num)
    intro p hp
    simp at hp
    rcases hp with rfl | rfl | rfl
    · simpa using g 0 0 (by norm_num) (by norm_num)
    · simpa using g 100 50 (by norm_num) (by norm_num)
    · simpa using g 100 100 (by norm_num) (by norm_num)
  · refine (C116_float (0, 0) (-100, -50) (-100, -100) ?_).1 (by norm_num [cross, vec])
    intro p hp
    simp at hp
    rcases hp with rfl | rfl | rfl
    · simpa using g 0 0 (by norm_num) (by norm_num)
    · simpa using g (-100) (-50) (by norm_num) (by norm_num)
    · simpa using g (-100) (-100) (by norm_num) (by norm_num)

end PathLib
