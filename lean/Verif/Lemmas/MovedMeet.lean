import Verif.Lemmas.Moved
import Verif.Props.BezierSelf
import Verif.Props.BContourClosest

set_option linter.unusedSectionVars false
set_option linter.unusedSimpArgs false

/-!
# Moving curves: bounds, intersections, contours

The bounds start from sentinels (±32768 in `BoundsRectangle`, ±(2^53 - 1) in `_getminmax`), which do not move. What is computed from bounds
moves along as long as the curve is in the design space before and after the move.
-/

namespace PathLib.Moved
open Spec Bezier

/-- The points of the curve are in the design space, before and after the move. -/
structure Fits (v : Pt ℝ) (ps : Segment ℝ) : Prop where
  len : 2 ≤ ps.length
  here : ∀ t, 0 ≤ t → t ≤ 1 → |(curve ps t).1| ≤ 32768 ∧ |(curve ps t).2| ≤ 32768
  there : ∀ t, 0 ≤ t → t ≤ 1 → |(curve ps t).1 + v.1| ≤ 32768 ∧ |(curve ps t).2 + v.2| ≤ 32768

theorem curve_moved (v : Pt ℝ) (ps : Segment ℝ) (h : ps ≠ []) (t : ℝ) : curve (movedBy v ps) t = moveBy v (curve ps t) := by
  have := get_moved v ps t
  rw [get_ok ps h, get_ok (movedBy v ps) (by simpa [movedBy] using h)] at this
  exact Except.ok.inj this

theorem fits_of_points (v : Pt ℝ) (ps : Segment ℝ) (h2 : 2 ≤ ps.length) (hd : ∀ p ∈ ps, InDesignSpace p)
    (hd' : ∀ p ∈ ps, InDesignSpace (moveBy v p)) : Fits v ps := by
  have hne : ps ≠ [] := by rintro rfl; simp at h2
  refine ⟨h2, curve_in_design_space ps hne hd, fun t h0 h1 => ?_⟩
  have := curve_in_design_space (movedBy v ps) (by simpa [movedBy] using hne) (by
    intro p hp
    obtain ⟨q, hq, rfl⟩ := List.mem_map.mp hp
    exact hd' q hq) t h0 h1
  rw [curve_moved v ps hne] at this
  exact this

private theorem minmax_moved (v : Pt ℝ) (ps : Segment ℝ) (h : Fits v ps) (dim : Fin 2) (l : List ℝ) (h0 : 0 ∈ l) :
    ∃ m M, minmaxLoop ps dim l = .ok (m, M) ∧ minmaxLoop (movedBy v ps) dim l = .ok (m + coord dim v, M + coord dim v) := by
  have hne : ps ≠ [] := by rintro rfl; simpa using h.len
  obtain ⟨m, M, e, h1, h2⟩ := minmaxLoop_ok ps hne dim l
  obtain ⟨m', M', e', h1', h2'⟩ := minmaxLoop_ok (movedBy v ps) (by simpa [movedBy] using hne) dim l
  have hc : ∀ t, coord dim (curve (movedBy v ps) t) = coord dim (curve ps t) + coord dim v := by
    intro t
    rw [curve_moved v ps hne]
    unfold coord moveBy
    split_ifs <;> rfl
  have b1 : |coord dim (curve ps 0)| ≤ 32768 := by
    have := h.here 0 le_rfl zero_le_one
    unfold coord; split_ifs
    · exact this.1
    · exact this.2
  have b2 : |coord dim (curve ps 0) + coord dim v| ≤ 32768 := by
    have := h.there 0 le_rfl zero_le_one
    unfold coord; split_ifs
    · exact this.1
    · exact this.2
  rw [abs_le] at b1 b2
  have hmax : (maxSafe : ℝ) = 9007199254740991 := by norm_num [maxSafe]
  have hmin : (minSafe : ℝ) = -9007199254740991 := by norm_num [minSafe]
  refine ⟨m, M, e, ?_⟩
  rw [e']
  simp only [hc] at h1' h2'
  rw [hmax] at h1 h1'
  rw [hmin] at h2 h2'
  have k1 : m' = m + coord dim v := by
    apply le_antisymm
    · have a := (h1' m').mp le_rfl
      have := (h1 (m' - coord dim v)).mpr ⟨by have := a.2 0 h0; linarith, fun t ht => by have := a.2 t ht; linarith⟩
      linarith
    · have a := (h1 m).mp le_rfl
      exact (h1' _).mpr ⟨by have := a.2 0 h0; linarith, fun t ht => by have := a.2 t ht; linarith⟩
  have k2 : M' = M + coord dim v := by
    apply le_antisymm
    · have a := (h2 M).mp le_rfl
      exact (h2' _).mpr ⟨by have := a.2 0 h0; linarith, fun t ht => by have := a.2 t ht; linarith⟩
    · have a := (h2' M').mp le_rfl
      have := (h2 (M' - coord dim v)).mpr ⟨by have := a.2 0 h0; linarith, fun t ht => by have := a.2 t ht; linarith⟩
      linarith
  rw [k1, k2]

theorem bbox_moved (v : Pt ℝ) (ps : Segment ℝ) (h : Fits v ps) : bbox (movedBy v ps) = (bbox ps).map (movedBox v) := by
  unfold bbox
  rw [extrema_moved]
  unfold extrema extremaOf
  obtain ⟨x, _, _, hx, _⟩ := minmax_dim ps h.len 0
  obtain ⟨y, _, _, hy, _⟩ := minmax_dim ps h.len 1
  obtain ⟨m, M, e1, e1'⟩ := minmax_moved v ps h 0 (addEnds x) (by simp [mem_addEnds])
  obtain ⟨n, N, e2, e2'⟩ := minmax_moved v ps h 1 (addEnds y) (by simp [mem_addEnds])
  rw [hx, ok_bind, hy, ok_bind]
  simp only [pure_eq_ok, ok_bind, getminmax]
  rw [e1, e1', e2, e2']
  rfl

theorem boundsRectangle_moved (v : Pt ℝ) (ps : Segment ℝ) (h : Fits v ps) :
    boundsRectangle (movedBy v ps) = (boundsRectangle ps).map (movedRect v) := by
  have hne : ps ≠ [] := by rintro rfl; simpa using h.len
  obtain ⟨r, hr, hb, _⟩ := C37_tight_of_curve ps h.len h.here
  obtain ⟨r', hr', hb', _⟩ := C37_tight_of_curve (movedBy v ps) (by simpa [movedBy] using h.len) (by
    intro t h0 h1
    rw [curve_moved v ps hne]
    exact h.there t h0 h1)
  rw [bbox_moved v ps h, hb] at hb'
  rw [hr, hr']
  simp only [Except.map, movedBox, Except.ok.injEq, Prod.mk.injEq] at hb' ⊢
  obtain ⟨⟨a, b⟩, c, d⟩ := hb'
  cases r'
  simp only at a b c d
  rw [← a, ← b, ← c, ← d]
  rfl

theorem intersection_moved (v : Pt ℝ) (a b : BoundsRectangle ℝ) : ((movedRect v a).intersection (movedRect v b)).isSome = (a.intersection b).isSome := by
  have hmax : ∀ x y c : ℝ, pyMax (x + c) (y + c) = pyMax x y + c := by
    intro x y c; unfold pyMax; simp only [add_lt_add_iff_right, gt_iff_lt]; split_ifs <;> rfl
  have hmin : ∀ x y c : ℝ, pyMin (x + c) (y + c) = pyMin x y + c := by
    intro x y c; unfold pyMin; simp only [add_lt_add_iff_right]; split_ifs <;> rfl
  simp only [BoundsRectangle.intersection, movedRect, hmax, hmin, add_lt_add_iff_right]
  split_ifs <;> rfl

theorem overlaps_moved (v : Pt ℝ) (a b : Bezier) (ha : Fits v a.controlPoints) (hb : Fits v b.controlPoints) :
    overlaps (moved v a) (moved v b) = overlaps a b := by
  unfold overlaps
  rw [show (moved v a).controlPoints = movedBy v a.controlPoints from rfl, show (moved v b).controlPoints = movedBy v b.controlPoints from rfl,
    boundsRectangle_moved v _ ha, boundsRectangle_moved v _ hb]
  cases boundsRectangle a.controlPoints with
  | error e => rfl
  | ok ra =>
    cases boundsRectangle b.controlPoints with
    | error e => rfl
    | ok rb => simp only [map_eq_ok, ok_bind, intersection_moved]

/-! ### Intersections -/

theorem filterM_moved {α β : Type} (f : α → β) (p : β → Py Bool) (q : α → Py Bool) (l : List α) (h : ∀ a ∈ l, p (f a) = q a) (hok : ∀ a ∈ l, ∃ o, q a = .ok o) :
    (l.map f).filterM p = (l.filterM q).map (List.map f) := by
  classical
  have hq : l.filterM q = .ok (l.filter fun a => decide (q a = .ok true)) := by
    refine filterM_ok q _ l fun a ha => ?_
    obtain ⟨o, ho⟩ := hok a ha
    rw [ho]; cases o <;> simp
  have hp : (l.map f).filterM p = .ok ((l.map f).filter fun b => decide (p b = .ok true)) := by
    refine filterM_ok p _ _ fun b hb => ?_
    obtain ⟨a, ha, rfl⟩ := List.mem_map.mp hb
    obtain ⟨o, ho⟩ := hok a ha
    rw [h a ha, ho]; cases o <;> simp
  rw [hq, hp, map_eq_ok, List.filter_map]
  congr 2
  refine List.filter_congr fun a ha => ?_
  simp only [Function.comp_apply, h a ha]

/-- A quadratic or cubic in the design space before and after the move. -/
def Ready (v : Pt ℝ) (c : Bezier) : Prop := QuadOrCubic c ∧ Fits v c.controlPoints

theorem Ready.part {v : Pt ℝ} {c p : Bezier} (h : Ready v c) (hl : p.controlPoints.length = c.controlPoints.length) (α β : ℝ) (h0 : 0 ≤ α) (hab : α ≤ β)
    (h1 : β ≤ 1) (he : ∀ s, curve p.controlPoints s = curve c.controlPoints (α + s * (β - α))) : Ready v p := by
  refine ⟨by unfold QuadOrCubic; rw [hl]; exact h.1, by rw [hl]; exact h.2.len, fun t t0 t1 => ?_, fun t t0 t1 => ?_⟩
  · rw [he]; exact h.2.here _ (by nlinarith) (by nlinarith)
  · rw [he]; exact h.2.there _ (by nlinarith) (by nlinarith)

theorem Ready.halves {v : Pt ℝ} {c : Bezier} (h : Ready v c) : ∃ l r q, split1 c (1 / 2) = .ok (l, r, q) ∧ Ready v l ∧ Ready v r := by
  obtain ⟨l, r, e, l1, r1, _, _, _, _, e1, e2⟩ := split1_spec c h.1 (1 / 2)
  refine ⟨l, r, _, e, h.part l1 0 (1 / 2) le_rfl (by norm_num) (by norm_num) fun s => ?_,
    h.part r1 (1 / 2) 1 (by norm_num) (by norm_num) le_rfl fun s => ?_⟩
  · rw [e1]; congr 1; ring
  · rw [e2]

theorem Ready.overlaps {v : Pt ℝ} {a b : Bezier} (ha : Ready v a) (hb : Ready v b) : ∃ o, Bezier.overlaps a b = .ok o := by
  obtain ⟨ra, h1, _⟩ := boundsRectangle_ok a.controlPoints ha.2.len
  obtain ⟨rb, h2, _⟩ := boundsRectangle_ok b.controlPoints hb.2.len
  unfold Bezier.overlaps
  rw [h1, ok_bind, h2, ok_bind]
  exact ⟨_, rfl⟩

theorem mapM_moved {α β γ : Type} (f : α → β) (p : β → Py γ) (q : α → Py γ) (l : List α) (h : ∀ a ∈ l, p (f a) = q a) : (l.map f).mapM p = l.mapM q := by
  rw [List.mapM_map]
  induction l with
  | nil => rfl
  | cons a l ih =>
    rw [List.mapM_cons, List.mapM_cons, ih fun b hb => h b (by simp [hb])]
    simp only [Function.comp_apply, h a (by simp)]

theorem mapM_same {α γ : Type} (p q : α → Py γ) (l : List α) (h : ∀ a ∈ l, p a = q a) : l.mapM p = l.mapM q := by
  have := mapM_moved id p q l h
  rwa [List.map_id] at this

theorem movedRect_size (v : Pt ℝ) (r : BoundsRectangle ℝ) : (movedRect v r).height + (movedRect v r).width = r.height + r.width := by
  simp only [movedRect, BoundsRectangle.height, BoundsRectangle.width]; ring

theorem pairiteration_moved (v : Pt ℝ) (depth : Nat) (c1 c2 : Bezier) (h1 : Ready v c1) (h2 : Ready v c2) (θ : ℝ) :
    pairiteration depth (moved v c1) (moved v c2) θ = pairiteration depth c1 c2 θ := by
  induction depth generalizing c1 c2 with
  | zero => rfl
  | succ depth ih =>
    rw [pairiteration, pairiteration.eq_def (depth + 1) c1 c2]
    simp only [show ∀ c, (moved v c).controlPoints = movedBy v c.controlPoints from fun _ => rfl, boundsRectangle_moved v _ h1.2, boundsRectangle_moved v _ h2.2,
      split1_moved, show ∀ c, (moved v c).t1 = c.t1 from fun _ => rfl, show ∀ c, (moved v c).t2 = c.t2 from fun _ => rfl]
    obtain ⟨b1, e1, _⟩ := boundsRectangle_ok c1.controlPoints h1.2.len
    obtain ⟨b2, e2, _⟩ := boundsRectangle_ok c2.controlPoints h2.2.len
    obtain ⟨l1, r1, q1, s1, hl1, hr1⟩ := h1.halves
    obtain ⟨l2, r2, q2, s2, hl2, hr2⟩ := h2.halves
    simp only [e1, e2, s1, s2, map_eq_ok, ok_bind, movedRect_size]
    split_ifs
    · rfl
    · have hready : ∀ p ∈ [(l1, l2), (l1, r2), (r1, r2), (r1, l2)], Ready v p.1 ∧ Ready v p.2 := by
        intro p hp
        simp only [List.mem_cons, List.not_mem_nil, or_false] at hp
        rcases hp with rfl | rfl | rfl | rfl
        exacts [⟨hl1, hl2⟩, ⟨hl1, hr2⟩, ⟨hr1, hr2⟩, ⟨hr1, hl2⟩]
      have hf := filterM_moved (fun p : Bezier × Bezier => (moved v p.1, moved v p.2)) (fun p => overlaps p.1 p.2) (fun p => overlaps p.1 p.2)
        [(l1, l2), (l1, r2), (r1, r2), (r1, l2)] (fun p hp => overlaps_moved v _ _ (hready p hp).1.2 (hready p hp).2.2)
        (fun p hp => (hready p hp).1.overlaps (hready p hp).2)
      simp only [List.map_cons, List.map_nil] at hf
      rw [hf]
      cases hp : [(l1, l2), (l1, r2), (r1, r2), (r1, l2)].filterM (fun p => overlaps p.1 p.2) with
      | error e => rfl
      | ok pairs =>
        simp only [map_eq_ok, ok_bind]
        rw [mapM_moved _ _ (fun pair => pairiteration depth pair.1 pair.2 θ) pairs fun p hm => ?_]
        have := hready p ((filterM_mem _ _ _ hp p).mp hm).1
        exact ih _ _ this.1 this.2

private theorem pairs_moved (v : Pt ℝ) (cs1 cs2 : List Bezier) : (cs1.map (moved v)).flatMap (fun l => (cs2.map (moved v)).map fun r => (l, r)) =
    (cs1.flatMap fun l => cs2.map fun r => (l, r)).map fun p : Bezier × Bezier => (moved v p.1, moved v p.2) := by
  rw [List.flatMap_map, List.map_flatMap]
  congr 1; funext l
  rw [List.map_map, List.map_map]
  exact List.map_congr_left fun _ _ => rfl

private theorem meet_moved (v : Pt ℝ) (depth : Nat) (θ : ℝ) (ps : List (Bezier × Bezier)) (hready : ∀ p ∈ ps, Ready v p.1 ∧ Ready v p.2) :
    (do
      let pairs ← (ps.map fun p : Bezier × Bezier => (moved v p.1, moved v p.2)).filterM fun pair => overlaps pair.1 pair.2
      let results ← pairs.mapM fun pair => pairiteration depth pair.1 pair.2 θ
      return results.flatten : Py (List (Pt ℝ))) = (do
      let pairs ← ps.filterM fun pair => overlaps pair.1 pair.2
      let results ← pairs.mapM fun pair => pairiteration depth pair.1 pair.2 θ
      return results.flatten) := by
  have hf := filterM_moved (fun p : Bezier × Bezier => (moved v p.1, moved v p.2)) (fun p => overlaps p.1 p.2) (fun p => overlaps p.1 p.2) ps
    (fun p hp => overlaps_moved v _ _ (hready p hp).1.2 (hready p hp).2.2) (fun p hp => (hready p hp).1.overlaps (hready p hp).2)
  rw [hf]
  cases hp : ps.filterM (fun p => overlaps p.1 p.2) with
  | error e => simp only [map_eq_error, error_bind]
  | ok pairs =>
    simp only [map_eq_ok, ok_bind]
    rw [mapM_moved _ _ (fun pair => pairiteration depth pair.1 pair.2 θ) pairs fun p hm => ?_]
    have := hready p ((filterM_mem _ _ _ hp p).mp hm).1
    exact pairiteration_moved v depth _ _ this.1 this.2 θ

theorem curveIntersects_moved (v : Pt ℝ) (depth : Nat) (cs1 cs2 : List Bezier) (h1 : ∀ c ∈ cs1, Ready v c) (h2 : ∀ c ∈ cs2, Ready v c) (θ : ℝ) :
    curveIntersects depth (cs1.map (moved v)) (cs2.map (moved v)) θ = curveIntersects depth cs1 cs2 θ := by
  unfold curveIntersects
  rw [pairs_moved]
  refine meet_moved v depth θ _ fun p hp => ?_
  obtain ⟨a, ha, hp⟩ := List.mem_flatMap.mp hp
  obtain ⟨b, hb, rfl⟩ := List.mem_map.mp hp
  exact ⟨h1 a ha, h2 b hb⟩

theorem Ready.reduce {v : Pt ℝ} {b : Bezier} (h : Ready v b) (r : List Bezier) (hr : Bezier.reduce b = .ok r) : ∀ p ∈ r, Ready v p := by
  intro p hp
  have le : ∀ (l : List Bezier) (a e : ℝ), TilesFrom b.controlPoints a e l → a ≤ e ∧ ∀ p ∈ l, a ≤ p.t1 ∧ p.t1 < p.t2 ∧ p.t2 ≤ e ∧
      p.controlPoints.length = b.controlPoints.length ∧ ∀ s, curve p.controlPoints s = curve b.controlPoints (p.t1 + s * (p.t2 - p.t1)) := by
    intro l
    induction l with
    | nil => intro a e h; exact ⟨le_of_eq h, by simp⟩
    | cons p l ih =>
      rintro a e ⟨a1, a2, a3, a4, a5⟩
      obtain ⟨b1, b2⟩ := ih _ _ a5
      refine ⟨by linarith, fun q hq => ?_⟩
      rcases List.mem_cons.mp hq with rfl | hq
      · exact ⟨a1.ge, a2, b1, a3, a4⟩
      · obtain ⟨c1, c2⟩ := b2 q hq
        exact ⟨by linarith, c2⟩
  obtain ⟨a1, a2, a3, a4, a5⟩ := (le r 0 1 (C48_tiles b h.1 r hr (List.ne_nil_of_mem hp))).2 p hp
  exact h.part a4 _ _ a1 a2.le a3 a5

theorem intersects_moved (v : Pt ℝ) (depth : Nat) (b : Bezier) (curve : Option Bezier) (hb : Ready v b) (hc : ∀ c ∈ curve, Ready v c) (θ : ℝ) :
    intersects depth (moved v b) (curve.map (moved v)) θ = intersects depth b curve θ := by
  cases curve with
  | none =>
    simp only [intersects, Option.map_none, selfIntersects, reduce_moved]
    cases hr : reduce b with
    | error e => rfl
    | ok r =>
      simp only [map_eq_ok, ok_bind, List.length_map]
      rw [mapM_same _ (fun (i : Nat) => curveIntersects depth ((r.drop i).take 1) (r.drop (i + 2)) θ) _ fun i _ => ?_]
      rw [← List.map_drop, ← List.map_drop, ← List.map_take]
      exact curveIntersects_moved v depth _ _ (fun c hc => hb.reduce r hr c (List.mem_of_mem_drop (List.mem_of_mem_take hc)))
        (fun c hc => hb.reduce r hr c (List.mem_of_mem_drop hc)) θ
  | some c =>
    simp only [intersects, Option.map_some, reduce_moved]
    cases hr : reduce b with
    | error e => rfl
    | ok r =>
      cases hr' : reduce c with
      | error e => rfl
      | ok r' =>
        simp only [map_eq_ok, ok_bind]
        exact curveIntersects_moved v depth _ _ (hb.reduce r hr) ((hc c rfl).reduce r' hr') θ

end PathLib.Moved
