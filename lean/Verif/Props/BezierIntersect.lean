import Verif.Props.Bezier
import Verif.Props.BezierBounds
import Verif.Props.Bounds

set_option linter.unusedSectionVars false
set_option linter.unusedSimpArgs false

/-!
# Intersections of two curves: C45, C46, C47
-/

namespace PathLib
open Spec Bezier

/-- The parameter, in the numbering `_t1`, `_t2` carried by `c`, of the point at `u` of `c`. -/
def Spec.param (c : Bezier) (u : ℝ) : ℝ := c.t1 + (c.t2 - c.t1) * u

/-- The sum of the distances of two points in the two coordinates. -/
def Spec.dist1 (p q : Pt ℝ) : ℝ := |p.1 - q.1| + |p.2 - q.2|

/-- `c` is the part of `c0` between the parameters `α` and `β`. -/
structure Spec.SubCurve (c0 c : Bezier) (α β : ℝ) : Prop where
  h0 : 0 ≤ α
  le : α ≤ β
  h1 : β ≤ 1
  len : c.controlPoints.length = c0.controlPoints.length
  t1 : c.t1 = param c0 α
  t2 : c.t2 = param c0 β
  eq : ∀ s, curve c.controlPoints s = curve c0.controlPoints (α + s * (β - α))

private theorem split_half (c : Bezier) (hc : QuadOrCubic c) : ∃ l r,
    split1 c (1 / 2) = .ok (l, r, hull c.controlPoints (1 / 2)) ∧ SubCurve c l 0 (1 / 2) ∧ SubCurve c r (1 / 2) 1 := by
  obtain ⟨l, r, h, l1, r1, a1, a2, b1, b2, e1, e2⟩ := split1_spec c hc (1 / 2)
  refine ⟨l, r, h, ⟨le_rfl, by norm_num, by norm_num, l1, ?_, ?_, ?_⟩, ⟨by norm_num, by norm_num, le_rfl, r1, ?_, ?_, ?_⟩⟩
  · rw [a1]; unfold param; ring
  · rw [a2]; rfl
  · intro s; rw [e1]; congr 1; ring
  · rw [b1]; rfl
  · rw [b2]; unfold param; ring
  · intro s; rw [e2]

private theorem Spec.SubCurve.quadOrCubic {c0 c : Bezier} {α β : ℝ} (h : SubCurve c0 c α β) (hc : QuadOrCubic c0) :
    QuadOrCubic c := by
  unfold QuadOrCubic at *; rw [h.len]; exact hc

private theorem Spec.SubCurve.param {c0 c : Bezier} {α β : ℝ} (h : SubCurve c0 c α β) (u : ℝ) :
    Spec.param c u = Spec.param c0 (α + u * (β - α)) := by
  unfold Spec.param; rw [h.t1, h.t2]; unfold Spec.param; ring

private theorem Spec.SubCurve.mem {c0 c : Bezier} {α β : ℝ} (h : SubCurve c0 c α β) {u : ℝ} (h0 : 0 ≤ u) (h1 : u ≤ 1) :
    0 ≤ α + u * (β - α) ∧ α + u * (β - α) ≤ 1 := by
  have := h.h0; have := h.le; have := h.h1
  constructor
  · nlinarith
  · nlinarith

private theorem len_bounds {c : Bezier} (hc : QuadOrCubic c) : 2 ≤ c.controlPoints.length ∧ c.controlPoints.length ≤ 4 := by
  unfold QuadOrCubic at hc; omega

/-- What `overlaps` computes. -/
private theorem overlaps_ok (a b : Bezier) (ha : QuadOrCubic a) (hb : QuadOrCubic b) :
    ∃ ra rb o, boundsRectangle a.controlPoints = .ok ra ∧ boundsRectangle b.controlPoints = .ok rb ∧
      overlaps a b = .ok o ∧
      (o = true ↔ ∃ z, ra.enclosesPoint z = true ∧ rb.enclosesPoint z = true) ∧
      (∀ t, 0 ≤ t → t ≤ 1 → ra.enclosesPoint (curve a.controlPoints t) = true) ∧
      (∀ t, 0 ≤ t → t ≤ 1 → rb.enclosesPoint (curve b.controlPoints t) = true) := by
  obtain ⟨ra, h1, p1, e1⟩ := boundsRectangle_ok a.controlPoints (len_bounds ha).1
  obtain ⟨rb, h2, p2, e2⟩ := boundsRectangle_ok b.controlPoints (len_bounds hb).1
  refine ⟨ra, rb, (ra.intersection rb).isSome, h1, h2, ?_, ?_, e1 (len_bounds ha).2, e2 (len_bounds hb).2⟩
  · unfold overlaps; rw [h1, ok_bind, h2, ok_bind]; rfl
  · have := C11_intersection_none_iff ra rb p1 p2
    rw [← not_iff_not, ← this, Bool.not_eq_true, Option.isSome_eq_false_iff, Option.isNone_iff_eq_none]

theorem mem_flatten_mapM {α β : Type} (f : α → Py (List β)) (l : List α) (r : List (List β))
    (h : l.mapM f = .ok r) (x : β) : x ∈ r.flatten ↔ ∃ a ∈ l, ∃ y, f a = .ok y ∧ x ∈ y := by
  rw [mapM_eq_ok_iff] at h
  induction h with
  | nil => simp
  | cons h1 _ ih =>
    rename_i a b l r _
    simp only [List.flatten_cons, List.mem_append, ih, List.mem_cons]
    constructor
    · rintro (h | ⟨a', h2, h3⟩)
      · exact ⟨a, .inl rfl, b, h1, h⟩
      · exact ⟨a', .inr h2, h3⟩
    · rintro ⟨a', rfl | h2, y, h3, h4⟩
      · rw [h1] at h3; cases h3; exact .inl h4
      · exact .inr ⟨a', h2, y, h3, h4⟩

theorem forall₂_left {α β : Type} {R : α → β → Prop} {l : List α} {r : List β} (h : List.Forall₂ R l r) {a : α}
    (ha : a ∈ l) : ∃ b ∈ r, R a b := by
  induction h with
  | nil => simp at ha
  | cons h1 _ ih =>
    rcases List.mem_cons.mp ha with rfl | ha
    · exact ⟨_, List.mem_cons_self, h1⟩
    · obtain ⟨b, hb, h⟩ := ih ha
      exact ⟨b, List.mem_cons_of_mem _ hb, h⟩

/-- The four pairs of halves. -/
private def halves (l1 r1 l2 r2 : Bezier) : List (Bezier × Bezier) := [(l1, l2), (l1, r2), (r1, r2), (r1, l2)]

/-- One level of `pairiteration`. -/
private theorem pairiteration_step (c1 c2 : Bezier) (h1 : QuadOrCubic c1) (h2 : QuadOrCubic c2) (θ : ℝ) :
    ∃ b1 b2 l1 r1 l2 r2 pairs, boundsRectangle c1.controlPoints = .ok b1 ∧ boundsRectangle c2.controlPoints = .ok b2 ∧
      SubCurve c1 l1 0 (1 / 2) ∧ SubCurve c1 r1 (1 / 2) 1 ∧ SubCurve c2 l2 0 (1 / 2) ∧ SubCurve c2 r2 (1 / 2) 1 ∧
      (halves l1 r1 l2 r2).filterM (fun pair => overlaps pair.1 pair.2) = .ok pairs ∧
      (b1.height + b1.width < θ ∧ b2.height + b2.width < θ → ∀ depth,
        pairiteration (depth + 1) c1 c2 θ = .ok [(param c1 (1 / 2), param c2 (1 / 2))]) ∧
      (¬ (b1.height + b1.width < θ ∧ b2.height + b2.width < θ) → ∀ depth,
        pairiteration (depth + 1) c1 c2 θ = (do
          let results ← pairs.mapM fun pair => pairiteration depth pair.1 pair.2 θ
          return butils.removeDuplicates results.flatten)) := by
  obtain ⟨b1, e1, _⟩ := boundsRectangle_ok c1.controlPoints (len_bounds h1).1
  obtain ⟨b2, e2, _⟩ := boundsRectangle_ok c2.controlPoints (len_bounds h2).1
  obtain ⟨l1, r1, s1, sl1, sr1⟩ := split_half c1 h1
  obtain ⟨l2, r2, s2, sl2, sr2⟩ := split_half c2 h2
  have ov : ∀ p ∈ halves l1 r1 l2 r2, ∃ o, overlaps p.1 p.2 = .ok o := by
    intro p hp
    have q1 := sl1.quadOrCubic h1; have q2 := sr1.quadOrCubic h1
    have q3 := sl2.quadOrCubic h2; have q4 := sr2.quadOrCubic h2
    simp only [halves, List.mem_cons, List.not_mem_nil, or_false] at hp
    rcases hp with rfl | rfl | rfl | rfl
    · obtain ⟨_, _, o, _, _, ho, _⟩ := overlaps_ok l1 l2 q1 q3; exact ⟨o, ho⟩
    · obtain ⟨_, _, o, _, _, ho, _⟩ := overlaps_ok l1 r2 q1 q4; exact ⟨o, ho⟩
    · obtain ⟨_, _, o, _, _, ho, _⟩ := overlaps_ok r1 r2 q2 q4; exact ⟨o, ho⟩
    · obtain ⟨_, _, o, _, _, ho, _⟩ := overlaps_ok r1 l2 q2 q3; exact ⟨o, ho⟩
  have hf : ∃ pairs, (halves l1 r1 l2 r2).filterM (fun pair => overlaps pair.1 pair.2) = .ok pairs := by
    classical
    refine ⟨_, filterM_ok _ (fun p => decide (overlaps p.1 p.2 = .ok true)) _ ?_⟩
    intro p hp
    obtain ⟨o, ho⟩ := ov p hp
    rw [ho]; cases o <;> simp
  obtain ⟨pairs, hpairs⟩ := hf
  refine ⟨b1, b2, l1, r1, l2, r2, pairs, e1, e2, sl1, sr1, sl2, sr2, hpairs, ?_, ?_⟩
  · intro hs depth
    rw [pairiteration]
    simp only [e1, e2, ok_bind]
    rw [if_pos hs]
    unfold param
    simp only [pure_eq_ok, Except.ok.injEq, List.cons.injEq, Prod.mk.injEq, and_true]
    constructor <;> ring
  · intro hs depth
    rw [pairiteration]
    simp only [e1, e2, ok_bind]
    rw [if_neg hs]
    simp only [s1, s2, ok_bind]
    unfold halves at hpairs
    rw [hpairs, ok_bind]

private theorem box_dist {r : BoundsRectangle ℝ} {p z : Pt ℝ} (h1 : r.enclosesPoint p = true)
    (h2 : r.enclosesPoint z = true) : dist1 p z ≤ r.height + r.width := by
  rw [BoundsRectangle.enclosesPoint_iff] at h1 h2
  obtain ⟨⟨a, b⟩, c, d⟩ := h1
  obtain ⟨⟨a', b'⟩, c', d'⟩ := h2
  unfold dist1 BoundsRectangle.height BoundsRectangle.width
  have e1 : |p.1 - z.1| ≤ r.right - r.left := abs_le.mpr ⟨by linarith, by linarith⟩
  have e2 : |p.2 - z.2| ≤ r.top - r.bottom := abs_le.mpr ⟨by linarith, by linarith⟩
  linarith

private theorem dist1_comm (p q : Pt ℝ) : dist1 p q = dist1 q p := by
  unfold dist1; rw [abs_sub_comm, abs_sub_comm p.2]

private theorem dist1_triangle (p q r : Pt ℝ) : dist1 p r ≤ dist1 p q + dist1 q r := by
  unfold dist1
  have := abs_sub_le p.1 q.1 r.1
  have := abs_sub_le p.2 q.2 r.2
  linarith

/-! ## C45 -/

/-- C45: `pairiteration` on curves whose boxes overlap returns only pairs of parameters whose points are closer than twice the
threshold (sum of both coordinate distances). -/
theorem C45_pairiteration (depth : Nat) (c1 c2 : Bezier) (h1 : QuadOrCubic c1) (h2 : QuadOrCubic c2) (θ : ℝ)
    (ho : overlaps c1 c2 = .ok true) (l : List (Pt ℝ)) (hl : pairiteration depth c1 c2 θ = .ok l) :
    ∀ st ∈ l, ∃ u v, 0 ≤ u ∧ u ≤ 1 ∧ 0 ≤ v ∧ v ≤ 1 ∧ st = (param c1 u, param c2 v) ∧
      dist1 (curve c1.controlPoints u) (curve c2.controlPoints v) < 2 * θ := by
  induction depth generalizing c1 c2 l with
  | zero => simp [pairiteration] at hl
  | succ depth ih =>
    obtain ⟨b1, b2, l1, r1, l2, r2, pairs, e1, e2, s1, s2, s3, s4, hp, k1, k2⟩ :=
      pairiteration_step c1 c2 h1 h2 θ
    by_cases hs : b1.height + b1.width < θ ∧ b2.height + b2.width < θ
    · rw [k1 hs depth] at hl
      cases hl
      intro st hst
      rw [List.mem_singleton] at hst
      refine ⟨1 / 2, 1 / 2, by norm_num, by norm_num, by norm_num, by norm_num, hst, ?_⟩
      obtain ⟨ra, rb, o, f1, f2, f3, f4, f5, f6⟩ := overlaps_ok c1 c2 h1 h2
      rw [e1] at f1; cases f1
      rw [e2] at f2; cases f2
      rw [ho] at f3; cases f3
      obtain ⟨z, z1, z2⟩ := f4.mp rfl
      have d1 := box_dist (f5 (1 / 2) (by norm_num) (by norm_num)) z1
      have d2 := box_dist (f6 (1 / 2) (by norm_num) (by norm_num)) z2
      have := dist1_triangle (curve c1.controlPoints (1 / 2)) z (curve c2.controlPoints (1 / 2))
      rw [dist1_comm z] at this
      linarith [hs.1, hs.2]
    · rw [k2 hs depth] at hl
      obtain ⟨results, hr, hl⟩ := bind_eq_ok.mp hl
      cases hl
      intro st hst
      rw [C26_mem, mem_flatten_mapM _ _ _ hr] at hst
      obtain ⟨⟨p1, p2⟩, hpm, y, hy, hst⟩ := hst
      rw [filterM_mem _ _ _ hp] at hpm
      obtain ⟨hm, hov⟩ := hpm
      have key : ∀ α β α' β', SubCurve c1 p1 α β → SubCurve c2 p2 α' β' → ∃ u v, 0 ≤ u ∧ u ≤ 1 ∧ 0 ≤ v ∧ v ≤ 1 ∧
          st = (param c1 u, param c2 v) ∧ dist1 (curve c1.controlPoints u) (curve c2.controlPoints v) < 2 * θ := by
        intro α β α' β' g1 g2
        obtain ⟨u, v, u0, u1, v0, v1, e, d⟩ := ih p1 p2 (g1.quadOrCubic h1) (g2.quadOrCubic h2) hov y hy st hst
        obtain ⟨m1, m2⟩ := g1.mem u0 u1
        obtain ⟨m3, m4⟩ := g2.mem v0 v1
        refine ⟨_, _, m1, m2, m3, m4, ?_, ?_⟩
        · rw [e, g1.param, g2.param]
        · rw [← g1.eq, ← g2.eq]; exact d
      simp only [halves, List.mem_cons, Prod.mk.injEq, List.not_mem_nil, or_false] at hm
      rcases hm with ⟨rfl, rfl⟩ | ⟨rfl, rfl⟩ | ⟨rfl, rfl⟩ | ⟨rfl, rfl⟩
      · exact key _ _ _ _ s1 s3
      · exact key _ _ _ _ s1 s4
      · exact key _ _ _ _ s2 s4
      · exact key _ _ _ _ s2 s3

/-- C45: every pair returned by `curveIntersects` belongs to one curve of each list, and the points are closer than twice the
threshold. -/
theorem C45_curveIntersects (depth : Nat) (cs1 cs2 : List Bezier) (h1 : ∀ c ∈ cs1, QuadOrCubic c)
    (h2 : ∀ c ∈ cs2, QuadOrCubic c) (θ : ℝ) (l : List (Pt ℝ)) (hl : curveIntersects depth cs1 cs2 θ = .ok l) :
    ∀ st ∈ l, ∃ c1 ∈ cs1, ∃ c2 ∈ cs2, ∃ u v, 0 ≤ u ∧ u ≤ 1 ∧ 0 ≤ v ∧ v ≤ 1 ∧ st = (param c1 u, param c2 v) ∧
      dist1 (curve c1.controlPoints u) (curve c2.controlPoints v) < 2 * θ := by
  unfold curveIntersects at hl
  obtain ⟨pairs, hp, hl⟩ := bind_eq_ok.mp hl
  obtain ⟨results, hr, hl⟩ := bind_eq_ok.mp hl
  cases hl
  intro st hst
  rw [mem_flatten_mapM _ _ _ hr] at hst
  obtain ⟨⟨p1, p2⟩, hpm, y, hy, hst⟩ := hst
  rw [filterM_mem _ _ _ hp] at hpm
  obtain ⟨hm, hov⟩ := hpm
  simp only [List.mem_flatMap, List.mem_map, Prod.mk.injEq] at hm
  obtain ⟨a, ha, b, hb, rfl, rfl⟩ := hm
  exact ⟨a, ha, b, hb, C45_pairiteration depth a b (h1 a ha) (h2 b hb) θ hov y hy st hst⟩

/-- C45: without overlapping boxes the claim does not hold for `pairiteration` itself: two curves with small boxes give a pair
however far apart they are. -/
theorem C45_unchecked (depth : Nat) (c1 c2 : Bezier) (h1 : QuadOrCubic c1) (h2 : QuadOrCubic c2) (θ : ℝ)
    (b1 b2 : BoundsRectangle ℝ) (e1 : boundsRectangle c1.controlPoints = .ok b1)
    (e2 : boundsRectangle c2.controlPoints = .ok b2)
    (hs : b1.height + b1.width < θ ∧ b2.height + b2.width < θ) :
    pairiteration (depth + 1) c1 c2 θ = .ok [(param c1 (1 / 2), param c2 (1 / 2))] := by
  obtain ⟨_, _, _, _, _, _, _, f1, f2, _, _, _, _, _, k1, _⟩ := pairiteration_step c1 c2 h1 h2 θ
  rw [e1] at f1; cases f1
  rw [e2] at f2; cases f2
  exact k1 hs depth

/-! ## C46 -/

private theorem half_cases (c l r : Bezier) (h1 : SubCurve c l 0 (1 / 2)) (h2 : SubCurve c r (1 / 2) 1) (u : ℝ)
    (u0 : 0 ≤ u) (u1 : u ≤ 1) :
    ∃ w, 0 ≤ w ∧ w ≤ 1 ∧ ((curve l.controlPoints w = curve c.controlPoints u ∧ u ≤ 1 / 2) ∨
      (curve r.controlPoints w = curve c.controlPoints u ∧ 1 / 2 ≤ u)) := by
  rcases le_total u (1 / 2) with h | h
  · refine ⟨2 * u, by linarith, by linarith, .inl ⟨?_, h⟩⟩
    rw [h1.eq]; congr 1; ring
  · refine ⟨2 * u - 1, by linarith, by linarith, .inr ⟨?_, h⟩⟩
    rw [h2.eq]; congr 1; ring

/-- C46: if two curves meet, every completed `pairiteration` returns a pair of parameters whose points are both closer than
the threshold to the meeting point. -/
theorem C46_pairiteration (depth : Nat) (c1 c2 : Bezier) (h1 : QuadOrCubic c1) (h2 : QuadOrCubic c2) (θ : ℝ)
    (l : List (Pt ℝ)) (hl : pairiteration depth c1 c2 θ = .ok l) (u v : ℝ) (u0 : 0 ≤ u) (u1 : u ≤ 1) (v0 : 0 ≤ v)
    (v1 : v ≤ 1) (hm : curve c1.controlPoints u = curve c2.controlPoints v) :
    ∃ u' v', 0 ≤ u' ∧ u' ≤ 1 ∧ 0 ≤ v' ∧ v' ≤ 1 ∧ (param c1 u', param c2 v') ∈ l ∧
      dist1 (curve c1.controlPoints u') (curve c1.controlPoints u) < θ ∧
      dist1 (curve c2.controlPoints v') (curve c2.controlPoints v) < θ := by
  induction depth generalizing c1 c2 l u v with
  | zero => simp [pairiteration] at hl
  | succ depth ih =>
    obtain ⟨b1, b2, l1, r1, l2, r2, pairs, e1, e2, s1, s2, s3, s4, hp, k1, k2⟩ :=
      pairiteration_step c1 c2 h1 h2 θ
    by_cases hs : b1.height + b1.width < θ ∧ b2.height + b2.width < θ
    · rw [k1 hs depth] at hl
      cases hl
      refine ⟨1 / 2, 1 / 2, by norm_num, by norm_num, by norm_num, by norm_num, by simp, ?_, ?_⟩
      · obtain ⟨ra, f1, _, f2⟩ := boundsRectangle_ok c1.controlPoints (len_bounds h1).1
        rw [e1] at f1; cases f1
        have f3 := f2 (len_bounds h1).2
        exact lt_of_le_of_lt (box_dist (f3 (1 / 2) (by norm_num) (by norm_num)) (f3 u u0 u1)) hs.1
      · obtain ⟨ra, f1, _, f2⟩ := boundsRectangle_ok c2.controlPoints (len_bounds h2).1
        rw [e2] at f1; cases f1
        have f3 := f2 (len_bounds h2).2
        exact lt_of_le_of_lt (box_dist (f3 (1 / 2) (by norm_num) (by norm_num)) (f3 v v0 v1)) hs.2
    · rw [k2 hs depth] at hl
      obtain ⟨results, hr, hl⟩ := bind_eq_ok.mp hl
      cases hl
      have key : ∀ p1 p2 α β α' β', (p1, p2) ∈ halves l1 r1 l2 r2 → SubCurve c1 p1 α β → SubCurve c2 p2 α' β' →
          ∀ w w', 0 ≤ w → w ≤ 1 → 0 ≤ w' → w' ≤ 1 → curve p1.controlPoints w = curve c1.controlPoints u →
          curve p2.controlPoints w' = curve c2.controlPoints v →
          ∃ u' v', 0 ≤ u' ∧ u' ≤ 1 ∧ 0 ≤ v' ∧ v' ≤ 1 ∧
            (param c1 u', param c2 v') ∈ butils.removeDuplicates results.flatten ∧
            dist1 (curve c1.controlPoints u') (curve c1.controlPoints u) < θ ∧
            dist1 (curve c2.controlPoints v') (curve c2.controlPoints v) < θ := by
        intro p1 p2 α β α' β' hmem g1 g2 w w' w0 w1 w0' w1' ew ew'
        have q1 := g1.quadOrCubic h1
        have q2 := g2.quadOrCubic h2
        have hov : overlaps p1 p2 = .ok true := by
          obtain ⟨ra, rb, o, f1, f2, f3, f4, f5, f6⟩ := overlaps_ok p1 p2 q1 q2
          rw [f3]
          congr 1
          apply f4.mpr
          refine ⟨curve p1.controlPoints w, f5 w w0 w1, ?_⟩
          rw [ew, hm, ← ew']
          exact f6 w' w0' w1'
        have hin : (p1, p2) ∈ pairs := (filterM_mem _ _ _ hp _).mpr ⟨hmem, hov⟩
        obtain ⟨y, hy⟩ : ∃ y, pairiteration depth p1 p2 θ = .ok y ∧ y ∈ results := by
          have hr' := (mapM_eq_ok_iff _ _ _).mp hr
          obtain ⟨y, hy, hh⟩ := forall₂_left hr' hin
          exact ⟨y, hh, hy⟩
        obtain ⟨u', v', a1, a2, a3, a4, a5, a6, a7⟩ := ih p1 p2 q1 q2 y hy.1 w w' w0 w1 w0' w1' (by rw [ew, hm, ew'])
        obtain ⟨m1, m2⟩ := g1.mem a1 a2
        obtain ⟨m3, m4⟩ := g2.mem a3 a4
        refine ⟨_, _, m1, m2, m3, m4, ?_, ?_, ?_⟩
        · rw [C26_mem, ← g1.param, ← g2.param]
          exact List.mem_flatten.mpr ⟨y, hy.2, a5⟩
        · rw [← g1.eq, ← ew]; exact a6
        · rw [← g2.eq, ← ew']; exact a7
      obtain ⟨w, w0, w1, hw⟩ := half_cases c1 l1 r1 s1 s2 u u0 u1
      obtain ⟨w', w0', w1', hw'⟩ := half_cases c2 l2 r2 s3 s4 v v0 v1
      rcases hw with ⟨hw, _⟩ | ⟨hw, _⟩ <;> rcases hw' with ⟨hw', _⟩ | ⟨hw', _⟩
      · exact key l1 l2 _ _ _ _ (by simp [halves]) s1 s3 w w' w0 w1 w0' w1' hw hw'
      · exact key l1 r2 _ _ _ _ (by simp [halves]) s1 s4 w w' w0 w1 w0' w1' hw hw'
      · exact key r1 l2 _ _ _ _ (by simp [halves]) s2 s3 w w' w0 w1 w0' w1' hw hw'
      · exact key r1 r2 _ _ _ _ (by simp [halves]) s2 s4 w w' w0 w1 w0' w1' hw hw'

/-- C46: `curveIntersects` finds every meeting point of a curve of the first list with one of the second. -/
theorem C46_curveIntersects (depth : Nat) (cs1 cs2 : List Bezier) (h1 : ∀ c ∈ cs1, QuadOrCubic c)
    (h2 : ∀ c ∈ cs2, QuadOrCubic c) (θ : ℝ) (l : List (Pt ℝ)) (hl : curveIntersects depth cs1 cs2 θ = .ok l)
    (c1 c2 : Bezier) (m1 : c1 ∈ cs1) (m2 : c2 ∈ cs2) (u v : ℝ) (u0 : 0 ≤ u) (u1 : u ≤ 1) (v0 : 0 ≤ v)
    (v1 : v ≤ 1) (hm : curve c1.controlPoints u = curve c2.controlPoints v) :
    ∃ u' v', 0 ≤ u' ∧ u' ≤ 1 ∧ 0 ≤ v' ∧ v' ≤ 1 ∧ (param c1 u', param c2 v') ∈ l ∧
      dist1 (curve c1.controlPoints u') (curve c1.controlPoints u) < θ ∧
      dist1 (curve c2.controlPoints v') (curve c2.controlPoints v) < θ := by
  unfold curveIntersects at hl
  obtain ⟨pairs, hp, hl⟩ := bind_eq_ok.mp hl
  obtain ⟨results, hr, hl⟩ := bind_eq_ok.mp hl
  cases hl
  have hov : overlaps c1 c2 = .ok true := by
    obtain ⟨ra, rb, o, f1, f2, f3, f4, f5, f6⟩ := overlaps_ok c1 c2 (h1 c1 m1) (h2 c2 m2)
    rw [f3]
    congr 1
    apply f4.mpr
    refine ⟨curve c1.controlPoints u, f5 u u0 u1, ?_⟩
    rw [hm]
    exact f6 v v0 v1
  have hin : (c1, c2) ∈ pairs := by
    rw [filterM_mem _ _ _ hp]
    refine ⟨?_, hov⟩
    simp only [List.mem_flatMap, List.mem_map, Prod.mk.injEq]
    exact ⟨c1, m1, c2, m2, rfl, rfl⟩
  have hr' := (mapM_eq_ok_iff _ _ _).mp hr
  obtain ⟨y, hy, hh⟩ := forall₂_left hr' hin
  obtain ⟨u', v', a1, a2, a3, a4, a5, a6⟩ :=
    C46_pairiteration depth c1 c2 (h1 c1 m1) (h2 c2 m2) θ y hh u v u0 u1 v0 v1 hm
  exact ⟨u', v', a1, a2, a3, a4, List.mem_flatten.mpr ⟨y, hy, a5⟩, a6⟩

/-! ## C47 -/

/-- On `[0, 1]` the coordinates of the curve change at most `M` times as fast as the parameter. -/
def Spec.Lip (ps : Segment ℝ) (M : ℝ) : Prop :=
  ∀ s t, 0 ≤ s → s ≤ 1 → 0 ≤ t → t ≤ 1 →
    |(curve ps s).1 - (curve ps t).1| ≤ M * |s - t| ∧ |(curve ps s).2 - (curve ps t).2| ≤ M * |s - t|

private theorem quad_lip (a b c s t : ℝ) (ha : |a| ≤ 32768) (hb : |b| ≤ 32768) (hc : |c| ≤ 32768) (s0 : 0 ≤ s)
    (s1 : s ≤ 1) (t0 : 0 ≤ t) (t1 : t ≤ 1) :
    |((1 - s) ^ 2 * a + 2 * (1 - s) * s * b + s ^ 2 * c) - ((1 - t) ^ 2 * a + 2 * (1 - t) * t * b + t ^ 2 * c)|
      ≤ 1900000 * |s - t| := by
  rw [abs_le] at ha hb hc
  have e : ((1 - s) ^ 2 * a + 2 * (1 - s) * s * b + s ^ 2 * c) - ((1 - t) ^ 2 * a + 2 * (1 - t) * t * b + t ^ 2 * c)
      = (2 * (b - a) + (a - 2 * b + c) * (s + t)) * (s - t) := by ring
  rw [e, abs_mul]
  apply mul_le_mul_of_nonneg_right _ (abs_nonneg _)
  have h1 : |(a - 2 * b + c) * (s + t)| ≤ 131072 * 2 := by
    rw [abs_mul]
    apply mul_le_mul _ _ (abs_nonneg _) (by norm_num)
    · rw [abs_le]; constructor <;> linarith [ha.1, ha.2, hb.1, hb.2, hc.1, hc.2]
    · rw [abs_le]; constructor <;> linarith
  rw [abs_le] at h1 ⊢
  constructor <;> linarith [ha.1, ha.2, hb.1, hb.2, hc.1, hc.2, h1.1, h1.2]

private theorem cubic_lip (a b c d s t : ℝ) (ha : |a| ≤ 32768) (hb : |b| ≤ 32768) (hc : |c| ≤ 32768)
    (hd : |d| ≤ 32768) (s0 : 0 ≤ s) (s1 : s ≤ 1) (t0 : 0 ≤ t) (t1 : t ≤ 1) :
    |((1 - s) ^ 3 * a + 3 * (1 - s) ^ 2 * s * b + 3 * (1 - s) * s ^ 2 * c + s ^ 3 * d)
      - ((1 - t) ^ 3 * a + 3 * (1 - t) ^ 2 * t * b + 3 * (1 - t) * t ^ 2 * c + t ^ 3 * d)|
      ≤ 1900000 * |s - t| := by
  rw [abs_le] at ha hb hc hd
  have e : ((1 - s) ^ 3 * a + 3 * (1 - s) ^ 2 * s * b + 3 * (1 - s) * s ^ 2 * c + s ^ 3 * d)
      - ((1 - t) ^ 3 * a + 3 * (1 - t) ^ 2 * t * b + 3 * (1 - t) * t ^ 2 * c + t ^ 3 * d)
      = (3 * (b - a) + 3 * (a - 2 * b + c) * (s + t) + (d - 3 * c + 3 * b - a) * (s ^ 2 + s * t + t ^ 2)) * (s - t) := by
    ring
  rw [e, abs_mul]
  apply mul_le_mul_of_nonneg_right _ (abs_nonneg _)
  have h1 : |3 * (a - 2 * b + c) * (s + t)| ≤ 393216 * 2 := by
    rw [abs_mul]
    apply mul_le_mul _ _ (abs_nonneg _) (by norm_num)
    · rw [abs_le]; constructor <;> linarith [ha.1, ha.2, hb.1, hb.2, hc.1, hc.2]
    · rw [abs_le]; constructor <;> linarith
  have h2 : |(d - 3 * c + 3 * b - a) * (s ^ 2 + s * t + t ^ 2)| ≤ 262144 * 3 := by
    rw [abs_mul]
    apply mul_le_mul _ _ (abs_nonneg _) (by norm_num)
    · rw [abs_le]; constructor <;> linarith [ha.1, ha.2, hb.1, hb.2, hc.1, hc.2, hd.1, hd.2]
    · rw [abs_le]; constructor <;> nlinarith
  rw [abs_le] at h1 h2 ⊢
  constructor <;> linarith [ha.1, ha.2, hb.1, hb.2, hc.1, hc.2, h1.1, h1.2, h2.1, h2.2]

theorem lip_base (c : Bezier) (hc : QuadOrCubic c) (hd : ∀ p ∈ c.controlPoints, InDesignSpace p) :
    Lip c.controlPoints 1900000 := by
  have hd' : ∀ p ∈ c.controlPoints, |p.1| ≤ 32768 ∧ |p.2| ≤ 32768 := fun p hp =>
    ⟨abs_le.mpr (hd p hp).1, abs_le.mpr (hd p hp).2⟩
  intro s t s0 s1 t0 t1
  rcases hc with hc | hc
  · obtain ⟨a, b, d, e⟩ := List.length_eq_three.mp hc
    rw [e] at hd' ⊢
    simp only [List.mem_cons, List.not_mem_nil, or_false, forall_eq_or_imp, forall_eq] at hd'
    obtain ⟨h1, h2, h3⟩ := hd'
    simp only [curve_three]
    exact ⟨quad_lip _ _ _ _ _ h1.1 h2.1 h3.1 s0 s1 t0 t1, quad_lip _ _ _ _ _ h1.2 h2.2 h3.2 s0 s1 t0 t1⟩
  · obtain ⟨a, b, d, f, e⟩ := List.length_eq_four.mp hc
    rw [e] at hd' ⊢
    simp only [List.mem_cons, List.not_mem_nil, or_false, forall_eq_or_imp, forall_eq] at hd'
    obtain ⟨h1, h2, h3, h4⟩ := hd'
    simp only [curve_four]
    exact ⟨cubic_lip _ _ _ _ _ _ h1.1 h2.1 h3.1 h4.1 s0 s1 t0 t1, cubic_lip _ _ _ _ _ _ h1.2 h2.2 h3.2 h4.2 s0 s1 t0 t1⟩

/-- What the termination argument needs to know about a curve. -/
def Good (c : Bezier) (M : ℝ) : Prop :=
  QuadOrCubic c ∧ Lip c.controlPoints M ∧
    ∀ t, 0 ≤ t → t ≤ 1 → |(curve c.controlPoints t).1| ≤ 32768 ∧ |(curve c.controlPoints t).2| ≤ 32768

theorem Good.half {c0 c : Bezier} {α β M : ℝ} (h : SubCurve c0 c α β) (hab : β - α = 1 / 2) (hg : Good c0 M) :
    Good c (M / 2) := by
  obtain ⟨h1, h2, h3⟩ := hg
  refine ⟨h.quadOrCubic h1, ?_, ?_⟩
  · intro s t s0 s1 t0 t1
    obtain ⟨m1, m2⟩ := h.mem s0 s1
    obtain ⟨m3, m4⟩ := h.mem t0 t1
    have := h2 _ _ m1 m2 m3 m4
    rw [h.eq, h.eq]
    have e : M * |α + s * (β - α) - (α + t * (β - α))| = M / 2 * |s - t| := by
      rw [hab, show α + s * (1 / 2) - (α + t * (1 / 2)) = (s - t) * (1 / 2) by ring, abs_mul]
      norm_num; ring
    rw [e] at this
    exact this
  · intro t t0 t1
    obtain ⟨m3, m4⟩ := h.mem t0 t1
    rw [h.eq]
    exact h3 _ m3 m4

theorem Good.size {c : Bezier} {M : ℝ} (hM : 0 ≤ M) (hg : Good c M) :
    ∃ r, boundsRectangle c.controlPoints = .ok r ∧ r.height + r.width ≤ 2 * M := by
  obtain ⟨h1, h2, h3⟩ := hg
  obtain ⟨r, e, _, ⟨a, a0, a1, ea⟩, ⟨b, b0, b1, eb⟩, ⟨d, d0, d1, ed⟩, f, f0, f1, ef⟩ :=
    C37_tight_of_curve c.controlPoints (len_bounds h1).1 h3
  refine ⟨r, e, ?_⟩
  have k1 := (h2 b a b0 b1 a0 a1).1
  have k2 := (h2 f d f0 f1 d0 d1).2
  rw [ea, eb] at k1
  rw [ed, ef] at k2
  have m1 : |b - a| ≤ 1 := abs_le.mpr ⟨by linarith, by linarith⟩
  have m2 : |f - d| ≤ 1 := abs_le.mpr ⟨by linarith, by linarith⟩
  have n1 : M * |b - a| ≤ M := by nlinarith
  have n2 : M * |f - d| ≤ M := by nlinarith
  have o1 := le_abs_self (r.right - r.left)
  have o2 := le_abs_self (r.top - r.bottom)
  unfold BoundsRectangle.height BoundsRectangle.width
  linarith

theorem mapM_exists {α β : Type} (f : α → Py β) (l : List α) (h : ∀ a ∈ l, ∃ b, f a = .ok b) :
    ∃ r, l.mapM f = .ok r := by
  induction l with
  | nil => exact ⟨[], rfl⟩
  | cons a l ih =>
    obtain ⟨b, hb⟩ := h a (by simp)
    obtain ⟨r, hr⟩ := ih (fun a ha => h a (by simp [ha]))
    exact ⟨b :: r, by rw [List.mapM_cons, hb, ok_bind, hr]; rfl⟩

theorem good_terminates (k : Nat) (c1 c2 : Bezier) (M θ : ℝ) (hM : 0 ≤ M) (hk : 2 * M < θ * 2 ^ k)
    (g1 : Good c1 M) (g2 : Good c2 M) : ∃ l, pairiteration (k + 1) c1 c2 θ = .ok l := by
  induction k generalizing c1 c2 M with
  | zero =>
    obtain ⟨b1, b2, l1, r1, l2, r2, pairs, e1, e2, s1, s2, s3, s4, hp, k1, k2⟩ :=
      pairiteration_step c1 c2 g1.1 g2.1 θ
    obtain ⟨r, f1, z1⟩ := g1.size hM
    obtain ⟨r', f2, z2⟩ := g2.size hM
    rw [e1] at f1; cases f1
    rw [e2] at f2; cases f2
    exact ⟨_, k1 ⟨by linarith, by linarith⟩ 0⟩
  | succ k ih =>
    obtain ⟨b1, b2, l1, r1, l2, r2, pairs, e1, e2, s1, s2, s3, s4, hp, k1, k2⟩ :=
      pairiteration_step c1 c2 g1.1 g2.1 θ
    by_cases hs : b1.height + b1.width < θ ∧ b2.height + b2.width < θ
    · exact ⟨_, k1 hs _⟩
    · rw [k2 hs]
      have hk' : 2 * (M / 2) < θ * 2 ^ k := by rw [pow_succ] at hk; linarith
      obtain ⟨r, hr⟩ := mapM_exists (fun pair : Bezier × Bezier => pairiteration (k + 1) pair.1 pair.2 θ) pairs (by
        rintro ⟨p1, p2⟩ hpm
        have hm := ((filterM_mem _ _ _ hp _).mp hpm).1
        simp only [halves, List.mem_cons, Prod.mk.injEq, List.not_mem_nil, or_false] at hm
        rcases hm with ⟨rfl, rfl⟩ | ⟨rfl, rfl⟩ | ⟨rfl, rfl⟩ | ⟨rfl, rfl⟩
        · exact ih _ _ _ (by linarith) hk' (Good.half s1 (by norm_num) g1) (Good.half s3 (by norm_num) g2)
        · exact ih _ _ _ (by linarith) hk' (Good.half s1 (by norm_num) g1) (Good.half s4 (by norm_num) g2)
        · exact ih _ _ _ (by linarith) hk' (Good.half s2 (by norm_num) g1) (Good.half s4 (by norm_num) g2)
        · exact ih _ _ _ (by linarith) hk' (Good.half s2 (by norm_num) g1) (Good.half s3 (by norm_num) g2))
      exact ⟨butils.removeDuplicates r.flatten, by simp only [hr, ok_bind]; rfl⟩

/-- C47: more stack never changes the result of a call that completes. -/
theorem C47_depth_irrelevant (depth extra : Nat) (c1 c2 : Bezier) (h1 : QuadOrCubic c1) (h2 : QuadOrCubic c2) (θ : ℝ)
    (l : List (Pt ℝ)) (hl : pairiteration depth c1 c2 θ = .ok l) : pairiteration (depth + extra) c1 c2 θ = .ok l := by
  induction depth generalizing c1 c2 l with
  | zero => simp [pairiteration] at hl
  | succ depth ih =>
    rw [show depth + 1 + extra = depth + extra + 1 by omega]
    obtain ⟨b1, b2, l1, r1, l2, r2, pairs, e1, e2, s1, s2, s3, s4, hp, k1, k2⟩ :=
      pairiteration_step c1 c2 h1 h2 θ
    by_cases hs : b1.height + b1.width < θ ∧ b2.height + b2.width < θ
    · rw [k1 hs] at hl ⊢; exact hl
    · rw [k2 hs] at hl ⊢
      obtain ⟨results, hr, hl⟩ := bind_eq_ok.mp hl
      cases hl
      have hq : ∀ p ∈ pairs, QuadOrCubic p.1 ∧ QuadOrCubic p.2 := by
        rintro ⟨p1, p2⟩ hpm
        have hm := ((filterM_mem _ _ _ hp _).mp hpm).1
        simp only [halves, List.mem_cons, Prod.mk.injEq, List.not_mem_nil, or_false] at hm
        rcases hm with ⟨rfl, rfl⟩ | ⟨rfl, rfl⟩ | ⟨rfl, rfl⟩ | ⟨rfl, rfl⟩
        · exact ⟨s1.quadOrCubic h1, s3.quadOrCubic h2⟩
        · exact ⟨s1.quadOrCubic h1, s4.quadOrCubic h2⟩
        · exact ⟨s2.quadOrCubic h1, s4.quadOrCubic h2⟩
        · exact ⟨s2.quadOrCubic h1, s3.quadOrCubic h2⟩
      have : pairs.mapM (fun pair => pairiteration (depth + extra) pair.1 pair.2 θ) = .ok results := by
        rw [mapM_eq_ok_iff] at hr ⊢
        clear hp k2 hl
        induction hr with
        | nil => exact .nil
        | cons h _ ih' =>
          refine .cons (ih _ _ (hq _ (by simp)).1 (hq _ (by simp)).2 _ h) (ih' fun p hp => hq p (by simp [hp]))
      rw [this]; rfl

/-- C47: for curves in the design space and a positive threshold the recursion ends: `k + 1` nested calls are enough as soon as
`3800000 < threshold * 2^k`. -/
theorem C47_terminates (k depth : Nat) (c1 c2 : Bezier) (h1 : QuadOrCubic c1) (h2 : QuadOrCubic c2)
    (d1 : ∀ p ∈ c1.controlPoints, InDesignSpace p) (d2 : ∀ p ∈ c2.controlPoints, InDesignSpace p) (θ : ℝ)
    (hk : 3800000 < θ * 2 ^ k) (hd : k + 1 ≤ depth) : ∃ l, pairiteration depth c1 c2 θ = .ok l := by
  have hne : ∀ c : Bezier, QuadOrCubic c → c.controlPoints ≠ [] := by
    intro c hc e
    have := (len_bounds hc).1
    rw [e] at this; simp at this
  obtain ⟨l, hl⟩ := good_terminates k c1 c2 1900000 θ (by norm_num) (by linarith)
    ⟨h1, lip_base c1 h1 d1, curve_in_design_space _ (hne c1 h1) d1⟩
    ⟨h2, lip_base c2 h2 d2, curve_in_design_space _ (hne c2 h2) d2⟩
  refine ⟨l, ?_⟩
  rw [show depth = k + 1 + (depth - (k + 1)) by omega]
  exact C47_depth_irrelevant _ _ c1 c2 h1 h2 θ l hl

/-- C47: such a `k` exists for every positive threshold. -/
theorem C47_terminates_exists (c1 c2 : Bezier) (h1 : QuadOrCubic c1) (h2 : QuadOrCubic c2)
    (d1 : ∀ p ∈ c1.controlPoints, InDesignSpace p) (d2 : ∀ p ∈ c2.controlPoints, InDesignSpace p) (θ : ℝ)
    (hθ : 0 < θ) : ∃ n l, ∀ depth, n ≤ depth → pairiteration depth c1 c2 θ = .ok l := by
  obtain ⟨k, hk⟩ := pow_unbounded_of_one_lt (3800000 / θ) (one_lt_two (α := ℝ))
  rw [div_lt_iff₀ hθ] at hk
  obtain ⟨l, hl⟩ := C47_terminates k (k + 1) c1 c2 h1 h2 d1 d2 θ (by linarith) le_rfl
  refine ⟨k + 1, l, fun depth hd => ?_⟩
  rw [show depth = k + 1 + (depth - (k + 1)) by omega]
  exact C47_depth_irrelevant _ _ c1 c2 h1 h2 θ l hl

/-- C47: with the default threshold `0.5` no more than 24 nested calls are needed, far below Python's limit of 1000. -/
theorem C47_default_threshold (depth : Nat) (hd : 24 ≤ depth) (c1 c2 : Bezier) (h1 : QuadOrCubic c1)
    (h2 : QuadOrCubic c2) (d1 : ∀ p ∈ c1.controlPoints, InDesignSpace p)
    (d2 : ∀ p ∈ c2.controlPoints, InDesignSpace p) : ∃ l, pairiteration depth c1 c2 (1 / 2) = .ok l :=
  C47_terminates 23 depth c1 c2 h1 h2 d1 d2 _ (by norm_num) (by omega)

theorem good_depth (k depth : Nat) (c1 c2 : Bezier) (M θ : ℝ) (hM : 0 ≤ M) (hk : 2 * M < θ * 2 ^ k)
    (g1 : Good c1 M) (g2 : Good c2 M) (hd : k + 1 ≤ depth) : ∃ l, pairiteration depth c1 c2 θ = .ok l := by
  obtain ⟨l, hl⟩ := good_terminates k c1 c2 M θ hM hk g1 g2
  refine ⟨l, ?_⟩
  rw [show depth = k + 1 + (depth - (k + 1)) by omega]
  exact C47_depth_irrelevant _ _ c1 c2 g1.1 g2.1 θ l hl

theorem good_curveIntersects (cs1 cs2 : List Bezier) (M : ℝ) (hM : 0 ≤ M) (h1 : ∀ c ∈ cs1, Good c M)
    (h2 : ∀ c ∈ cs2, Good c M) (k depth : Nat) (θ : ℝ) (hk : 2 * M < θ * 2 ^ k) (hd : k + 1 ≤ depth) :
    ∃ l, curveIntersects depth cs1 cs2 θ = .ok l := by
  have ov : ∀ p ∈ (cs1.flatMap fun l => cs2.map fun r => (l, r)), ∃ o, overlaps p.1 p.2 = .ok o := by
    rintro ⟨p1, p2⟩ hp
    simp only [List.mem_flatMap, List.mem_map, Prod.mk.injEq] at hp
    obtain ⟨a, ha, b, hb, rfl, rfl⟩ := hp
    obtain ⟨_, _, o, _, _, ho, _⟩ := overlaps_ok a b (h1 a ha).1 (h2 b hb).1
    exact ⟨o, ho⟩
  have hf : ∃ pairs, (cs1.flatMap fun l => cs2.map fun r => (l, r)).filterM (fun pair => overlaps pair.1 pair.2)
      = .ok pairs := by
    classical
    refine ⟨_, filterM_ok _ (fun p => decide (overlaps p.1 p.2 = .ok true)) _ ?_⟩
    intro p hp
    obtain ⟨o, ho⟩ := ov p hp
    rw [ho]; cases o <;> simp
  obtain ⟨pairs, hp⟩ := hf
  obtain ⟨r, hr⟩ := mapM_exists (fun pair : Bezier × Bezier => pairiteration depth pair.1 pair.2 θ) pairs (by
    rintro ⟨p1, p2⟩ hpm
    have hm := ((filterM_mem _ _ _ hp _).mp hpm).1
    simp only [List.mem_flatMap, List.mem_map, Prod.mk.injEq] at hm
    obtain ⟨a, ha, b, hb, rfl, rfl⟩ := hm
    exact good_depth k depth a b M θ hM hk (h1 a ha) (h2 b hb) hd)
  exact ⟨r.flatten, by unfold curveIntersects; rw [hp, ok_bind, hr]; rfl⟩

theorem good_base (c : Bezier) (hc : QuadOrCubic c) (hd : ∀ p ∈ c.controlPoints, InDesignSpace p) : Good c 1900000 := by
  refine ⟨hc, lip_base c hc hd, curve_in_design_space _ ?_ hd⟩
  intro e
  have := (len_bounds hc).1
  rw [e] at this; simp at this

/-- C47: `curveIntersects` returns a result for all lists of curves in the design space and every positive threshold. -/
theorem C47_curveIntersects (cs1 cs2 : List Bezier) (h1 : ∀ c ∈ cs1, QuadOrCubic c ∧ ∀ p ∈ c.controlPoints, InDesignSpace p)
    (h2 : ∀ c ∈ cs2, QuadOrCubic c ∧ ∀ p ∈ c.controlPoints, InDesignSpace p) (k depth : Nat) (θ : ℝ)
    (hk : 3800000 < θ * 2 ^ k) (hd : k + 1 ≤ depth) : ∃ l, curveIntersects depth cs1 cs2 θ = .ok l := by
  exact good_curveIntersects cs1 cs2 1900000 (by norm_num) (fun c hc => good_base c (h1 c hc).1 (h1 c hc).2)
    (fun c hc => good_base c (h2 c hc).1 (h2 c hc).2) k depth θ (by linarith) hd

private theorem stuck (P : Segment ℝ → Prop) (θ : ℝ)
    (hP : ∀ ps, P ps → ∀ r, boundsRectangle ps = .ok r → ¬ r.height + r.width < θ)
    (hh : ∀ c l : Bezier, SubCurve c l 0 (1 / 2) → P c.controlPoints → P l.controlPoints)
    (depth : Nat) (c1 c2 : Bezier) (h1 : QuadOrCubic c1) (h2 : QuadOrCubic c2) (p1 : P c1.controlPoints)
    (he : ∀ s, curve c1.controlPoints s = curve c2.controlPoints s) :
    pairiteration depth c1 c2 θ = .error .recursionError := by
  induction depth generalizing c1 c2 with
  | zero => rfl
  | succ depth ih =>
    obtain ⟨b1, b2, l1, r1, l2, r2, pairs, e1, e2, s1, s2, s3, s4, hp, k1, k2⟩ :=
      pairiteration_step c1 c2 h1 h2 θ
    rw [k2 (fun hs => hP _ p1 _ e1 hs.1)]
    have hel : ∀ s, curve l1.controlPoints s = curve l2.controlPoints s := by
      intro s; rw [s1.eq, s3.eq, he]
    have q1 := s1.quadOrCubic h1
    have q2 := s3.quadOrCubic h2
    have hov : overlaps l1 l2 = .ok true := by
      obtain ⟨ra, rb, o, f1, f2, f3, f4, f5, f6⟩ := overlaps_ok l1 l2 q1 q2
      rw [f3]
      congr 1
      apply f4.mpr
      refine ⟨curve l1.controlPoints 0, f5 0 le_rfl zero_le_one, ?_⟩
      rw [hel]
      exact f6 0 le_rfl zero_le_one
    obtain ⟨g, hg, rfl⟩ := filterM_spec _ _ _ hp
    have hg1 : g (l1, l2) = true := by
      have := hg (l1, l2) (by simp [halves])
      rw [hov] at this
      exact (Except.ok.inj this).symm
    rw [halves, List.filter_cons_of_pos hg1, List.mapM_cons,
      ih l1 l2 q1 q2 (hh _ _ s1 p1) hel]
    rfl

/-- C47: with a threshold that is not positive the recursion on a curve and itself never ends: it exhausts every stack. -/
theorem C47_nonpositive (depth : Nat) (c : Bezier) (hc : QuadOrCubic c) (θ : ℝ) (hθ : θ ≤ 0) :
    pairiteration depth c c θ = .error .recursionError := by
  refine stuck (fun ps => 2 ≤ ps.length) θ ?_ ?_ depth c c hc hc (len_bounds hc).1 (fun _ => rfl)
  · intro ps hps r hr
    obtain ⟨r', h1, h2, _⟩ := boundsRectangle_ok ps hps
    rw [hr] at h1; cases h1
    have := h2.lr
    have := h2.bt
    unfold BoundsRectangle.height BoundsRectangle.width
    linarith
  · intro c l h hps
    rw [h.len]; exact hps

/-- C47: outside the design space the recursion may never end, whatever the stack: the box of a single point at `x = 40000`
reaches back to the sentinel `32768`. -/
theorem C47_outside_counterexample (depth : Nat) (c : Bezier)
    (hc : c.controlPoints = [(40000, 0), (40000, 0), (40000, 0)]) :
    pairiteration depth c c (1 / 2) = .error .recursionError := by
  have hq : QuadOrCubic c := .inl (by rw [hc]; rfl)
  refine stuck (fun ps => 2 ≤ ps.length ∧ ps.length ≤ 4 ∧ curve ps 0 = (40000, 0)) _ ?_ ?_ depth c c hq hq
    ⟨(len_bounds hq).1, (len_bounds hq).2, by rw [hc, curve_three]; norm_num⟩ (fun _ => rfl)
  · rintro ps ⟨h2, h4, h0⟩ r hr
    obtain ⟨r', h1, hp, he⟩ := boundsRectangle_ok ps h2
    rw [hr] at h1; cases h1
    have := he h4 0 le_rfl zero_le_one
    rw [h0, BoundsRectangle.enclosesPoint_iff] at this
    obtain ⟨⟨_, hr1⟩, _⟩ := this
    have hl : r.left ≤ 32768 := by
      unfold boundsRectangle at hr
      obtain ⟨_, _, hr⟩ := bind_eq_ok.mp hr
      cases hr
      exact BoundsRectangle.left_le_max _
    have := hp.bt
    unfold BoundsRectangle.height BoundsRectangle.width
    simp only at hr1
    linarith
  · rintro c l h ⟨h2, h4, h0⟩
    refine ⟨by rw [h.len]; exact h2, by rw [h.len]; exact h4, ?_⟩
    rw [h.eq]; simpa using h0

/-- A case of C45-C47: two crossing parabolas. The search ends, and what it returns contains a pair near the common point at
the middle of both, and only pairs of close points. -/
example (c1 c2 : Bezier) (e1 : c1.controlPoints = [(0, 0), (10, 20), (20, 0)])
    (e2 : c2.controlPoints = [(0, 20), (10, 0), (20, 20)]) :
    ∃ l, pairiteration 24 c1 c2 (1 / 2) = .ok l ∧ l ≠ [] ∧ overlaps c1 c2 = .ok true := by
  have q1 : QuadOrCubic c1 := .inl (by rw [e1]; rfl)
  have q2 : QuadOrCubic c2 := .inl (by rw [e2]; rfl)
  have hm : curve c1.controlPoints (1 / 2) = curve c2.controlPoints (1 / 2) := by
    rw [e1, e2, curve_three, curve_three]; norm_num
  obtain ⟨l, hl⟩ := C47_default_threshold 24 le_rfl c1 c2 q1 q2
    (by rw [e1]; unfold InDesignSpace; simp; norm_num) (by rw [e2]; unfold InDesignSpace; simp; norm_num)
  obtain ⟨u', v', _, _, _, _, hin, _⟩ := C46_pairiteration 24 c1 c2 q1 q2 _ l hl (1 / 2) (1 / 2) (by norm_num)
    (by norm_num) (by norm_num) (by norm_num) hm
  refine ⟨l, hl, List.ne_nil_of_mem hin, ?_⟩
  obtain ⟨ra, rb, o, f1, f2, f3, f4, f5, f6⟩ := overlaps_ok c1 c2 q1 q2
  rw [f3]
  congr 1
  apply f4.mpr
  refine ⟨curve c1.controlPoints (1 / 2), f5 _ (by norm_num) (by norm_num), ?_⟩
  rw [hm]
  exact f6 _ (by norm_num) (by norm_num)

end PathLib
