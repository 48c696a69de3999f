import Verif.Lemmas.Grown
import Verif.Lemmas.MovedMeet

set_option linter.unusedSectionVars false
set_option linter.unusedSimpArgs false

/-!
# Scaling curves: bounds, intersections

The bounds start from sentinels (±32768 in `BoundsRectangle`, ±(2^53 - 1) in `_getminmax`), which do not scale. What is computed from bounds
scales along as long as the curve is in the design space before and after.
-/

namespace PathLib.Grown
open Spec Bezier
open Moved (map_eq_ok map_eq_error map_do map_map map_mapM filterM_moved mapM_moved mapM_same)

/-- The points of the curve are in the design space, before and after scaling. -/
structure Fits (k : ℝ) (ps : Segment ℝ) : Prop where
  len : 2 ≤ ps.length
  here : ∀ t, 0 ≤ t → t ≤ 1 → |(curve ps t).1| ≤ 32768 ∧ |(curve ps t).2| ≤ 32768
  there : ∀ t, 0 ≤ t → t ≤ 1 → |k * (curve ps t).1| ≤ 32768 ∧ |k * (curve ps t).2| ≤ 32768

theorem curve_grown (k : ℝ) (ps : Segment ℝ) (h : ps ≠ []) (t : ℝ) : curve (grownBy k ps) t = growBy k (curve ps t) := by
  have := get_grown k ps t
  rw [get_ok ps h, get_ok (grownBy k ps) (by simpa [grownBy] using h)] at this
  exact Except.ok.inj this

theorem fits_of_points (k : ℝ) (ps : Segment ℝ) (h2 : 2 ≤ ps.length) (hd : ∀ p ∈ ps, InDesignSpace p)
    (hd' : ∀ p ∈ ps, InDesignSpace (growBy k p)) : Fits k ps := by
  have hne : ps ≠ [] := by rintro rfl; simp at h2
  refine ⟨h2, curve_in_design_space ps hne hd, fun t h0 h1 => ?_⟩
  have := curve_in_design_space (grownBy k ps) (by simpa [grownBy] using hne) (by
    intro p hp
    obtain ⟨q, hq, rfl⟩ := List.mem_map.mp hp
    exact hd' q hq) t h0 h1
  rw [curve_grown k ps hne] at this
  exact this

private theorem minmax_grown {k : ℝ} (hk : 0 < k) (ps : Segment ℝ) (h : Fits k ps) (dim : Fin 2) (l : List ℝ) (h0 : 0 ∈ l) :
    ∃ m M, minmaxLoop ps dim l = .ok (m, M) ∧ minmaxLoop (grownBy k ps) dim l = .ok (k * m, k * M) := by
  have hne : ps ≠ [] := by rintro rfl; simpa using h.len
  obtain ⟨m, M, e, h1, h2⟩ := minmaxLoop_ok ps hne dim l
  obtain ⟨m', M', e', h1', h2'⟩ := minmaxLoop_ok (grownBy k ps) (by simpa [grownBy] using hne) dim l
  have hc : ∀ t, coord dim (curve (grownBy k ps) t) = k * coord dim (curve ps t) := by
    intro t
    rw [curve_grown k ps hne]
    unfold coord growBy
    split_ifs <;> rfl
  have b1 : |coord dim (curve ps 0)| ≤ 32768 := by
    have := h.here 0 le_rfl zero_le_one
    unfold coord; split_ifs
    · exact this.1
    · exact this.2
  have b2 : |k * coord dim (curve ps 0)| ≤ 32768 := by
    have := h.there 0 le_rfl zero_le_one
    unfold coord; split_ifs
    · exact this.1
    · exact this.2
  rw [abs_le] at b1 b2
  have hmax : (maxSafe : ℝ) = 9007199254740991 := by norm_num [maxSafe]
  have hmin : (minSafe : ℝ) = -9007199254740991 := by norm_num [minSafe]
  refine ⟨m, M, e, ?_⟩
  rw [e']
  simp only [hc] at h1' h2'
  rw [hmax] at h1 h1'
  rw [hmin] at h2 h2'
  have k1 : m' = k * m := by
    apply le_antisymm
    · have a := (h1' m').mp le_rfl
      have := (h1 (m' / k)).mpr ⟨by have := a.2 0 h0; rw [div_le_iff₀ hk, mul_comm]; nlinarith, fun t ht => by have := a.2 t ht; rwa [div_le_iff₀ hk, mul_comm]⟩
      rwa [div_le_iff₀ hk, mul_comm] at this
    · have a := (h1 m).mp le_rfl
      exact (h1' _).mpr ⟨by have := a.2 0 h0; nlinarith, fun t ht => mul_le_mul_of_nonneg_left (a.2 t ht) hk.le⟩
  have k2 : M' = k * M := by
    apply le_antisymm
    · have a := (h2 M).mp le_rfl
      exact (h2' _).mpr ⟨by have := a.2 0 h0; nlinarith, fun t ht => mul_le_mul_of_nonneg_left (a.2 t ht) hk.le⟩
    · have a := (h2' M').mp le_rfl
      have := (h2 (M' / k)).mpr ⟨by have := a.2 0 h0; rw [le_div_iff₀ hk, mul_comm]; nlinarith, fun t ht => by have := a.2 t ht; rwa [le_div_iff₀ hk, mul_comm]⟩
      rwa [le_div_iff₀ hk, mul_comm] at this
  rw [k1, k2]

theorem bbox_grown {k : ℝ} (hk : 0 < k) (ps : Segment ℝ) (h : Fits k ps) : bbox (grownBy k ps) = (bbox ps).map (grownBox k) := by
  unfold bbox
  rw [extrema_grown hk]
  unfold extrema extremaOf
  obtain ⟨x, _, _, hx, _⟩ := minmax_dim ps h.len 0
  obtain ⟨y, _, _, hy, _⟩ := minmax_dim ps h.len 1
  obtain ⟨m, M, e1, e1'⟩ := minmax_grown hk ps h 0 (addEnds x) (by simp [mem_addEnds])
  obtain ⟨n, N, e2, e2'⟩ := minmax_grown hk ps h 1 (addEnds y) (by simp [mem_addEnds])
  rw [hx, ok_bind, hy, ok_bind]
  simp only [pure_eq_ok, ok_bind, getminmax]
  rw [e1, e1', e2, e2']
  rfl

theorem boundsRectangle_grown {k : ℝ} (hk : 0 < k) (ps : Segment ℝ) (h : Fits k ps) :
    boundsRectangle (grownBy k ps) = (boundsRectangle ps).map (grownRect k) := by
  have hne : ps ≠ [] := by rintro rfl; simpa using h.len
  obtain ⟨r, hr, hb, _⟩ := C37_tight_of_curve ps h.len h.here
  obtain ⟨r', hr', hb', _⟩ := C37_tight_of_curve (grownBy k ps) (by simpa [grownBy] using h.len) (by
    intro t h0 h1
    rw [curve_grown k ps hne]
    exact h.there t h0 h1)
  rw [bbox_grown hk ps h, hb] at hb'
  rw [hr, hr']
  simp only [Except.map, grownBox, Except.ok.injEq, Prod.mk.injEq] at hb' ⊢
  obtain ⟨⟨a, b⟩, c, d⟩ := hb'
  cases r'
  simp only at a b c d
  rw [← a, ← b, ← c, ← d]
  rfl

theorem intersection_grown {k : ℝ} (hk : 0 < k) (a b : BoundsRectangle ℝ) : ((grownRect k a).intersection (grownRect k b)).isSome = (a.intersection b).isSome := by
  have hmax : ∀ x y : ℝ, pyMax (k * x) (k * y) = k * pyMax x y := by
    intro x y; unfold pyMax; simp only [mul_lt_mul_iff_right₀ hk, gt_iff_lt]; split_ifs <;> rfl
  have hmin : ∀ x y : ℝ, pyMin (k * x) (k * y) = k * pyMin x y := by
    intro x y; unfold pyMin; simp only [mul_lt_mul_iff_right₀ hk]; split_ifs <;> rfl
  simp only [BoundsRectangle.intersection, grownRect, hmax, hmin, mul_lt_mul_iff_right₀ hk]
  split_ifs <;> rfl

theorem overlaps_grown {k : ℝ} (hk : 0 < k) (a b : Bezier) (ha : Fits k a.controlPoints) (hb : Fits k b.controlPoints) :
    overlaps (grown k a) (grown k b) = overlaps a b := by
  unfold overlaps
  rw [show (grown k a).controlPoints = grownBy k a.controlPoints from rfl, show (grown k b).controlPoints = grownBy k b.controlPoints from rfl,
    boundsRectangle_grown hk _ ha, boundsRectangle_grown hk _ hb]
  cases boundsRectangle a.controlPoints with
  | error e => rfl
  | ok ra =>
    cases boundsRectangle b.controlPoints with
    | error e => rfl
    | ok rb => simp only [map_eq_ok, ok_bind, intersection_grown hk]

/-! ### Intersections -/

/-- A quadratic or cubic in the design space before and after scaling. -/
def Ready (k : ℝ) (c : Bezier) : Prop := QuadOrCubic c ∧ Fits k c.controlPoints

theorem Ready.part {k : ℝ} {c p : Bezier} (h : Ready k c) (hl : p.controlPoints.length = c.controlPoints.length) (α β : ℝ) (h0 : 0 ≤ α) (hab : α ≤ β)
    (h1 : β ≤ 1) (he : ∀ s, curve p.controlPoints s = curve c.controlPoints (α + s * (β - α))) : Ready k p := by
  refine ⟨by unfold QuadOrCubic; rw [hl]; exact h.1, by rw [hl]; exact h.2.len, fun t t0 t1 => ?_, fun t t0 t1 => ?_⟩
  · rw [he]; exact h.2.here _ (by nlinarith) (by nlinarith)
  · rw [he]; exact h.2.there _ (by nlinarith) (by nlinarith)

theorem Ready.halves {k : ℝ} {c : Bezier} (h : Ready k c) : ∃ l r q, split1 c (1 / 2) = .ok (l, r, q) ∧ Ready k l ∧ Ready k r := by
  obtain ⟨l, r, e, l1, r1, _, _, _, _, e1, e2⟩ := split1_spec c h.1 (1 / 2)
  refine ⟨l, r, _, e, h.part l1 0 (1 / 2) le_rfl (by norm_num) (by norm_num) fun s => ?_,
    h.part r1 (1 / 2) 1 (by norm_num) (by norm_num) le_rfl fun s => ?_⟩
  · rw [e1]; congr 1; ring
  · rw [e2]

theorem Ready.overlaps {k : ℝ} {a b : Bezier} (ha : Ready k a) (hb : Ready k b) : ∃ o, Bezier.overlaps a b = .ok o := by
  obtain ⟨ra, h1, _⟩ := boundsRectangle_ok a.controlPoints ha.2.len
  obtain ⟨rb, h2, _⟩ := boundsRectangle_ok b.controlPoints hb.2.len
  unfold Bezier.overlaps
  rw [h1, ok_bind, h2, ok_bind]
  exact ⟨_, rfl⟩

theorem grownRect_size (k : ℝ) (r : BoundsRectangle ℝ) : (grownRect k r).height + (grownRect k r).width = k * (r.height + r.width) := by
  simp only [grownRect, BoundsRectangle.height, BoundsRectangle.width]; ring

theorem pairiteration_grown {k : ℝ} (hk : 0 < k) (depth : Nat) (c1 c2 : Bezier) (h1 : Ready k c1) (h2 : Ready k c2) (θ : ℝ) :
    pairiteration depth (grown k c1) (grown k c2) (k * θ) = pairiteration depth c1 c2 θ := by
  induction depth generalizing c1 c2 with
  | zero => rfl
  | succ depth ih =>
    rw [pairiteration, pairiteration.eq_def (depth + 1) c1 c2]
    simp only [show ∀ c, (grown k c).controlPoints = grownBy k c.controlPoints from fun _ => rfl, boundsRectangle_grown hk _ h1.2, boundsRectangle_grown hk _ h2.2,
      split1_grown hk, show ∀ c, (grown k c).t1 = c.t1 from fun _ => rfl, show ∀ c, (grown k c).t2 = c.t2 from fun _ => rfl]
    obtain ⟨b1, e1, _⟩ := boundsRectangle_ok c1.controlPoints h1.2.len
    obtain ⟨b2, e2, _⟩ := boundsRectangle_ok c2.controlPoints h2.2.len
    obtain ⟨l1, r1, q1, s1, hl1, hr1⟩ := h1.halves
    obtain ⟨l2, r2, q2, s2, hl2, hr2⟩ := h2.halves
    simp only [e1, e2, s1, s2, map_eq_ok, ok_bind, grownRect_size, ← mul_add, mul_lt_mul_iff_right₀ hk]
    split_ifs
    · rfl
    · have hready : ∀ p ∈ [(l1, l2), (l1, r2), (r1, r2), (r1, l2)], Ready k p.1 ∧ Ready k p.2 := by
        intro p hp
        simp only [List.mem_cons, List.not_mem_nil, or_false] at hp
        rcases hp with rfl | rfl | rfl | rfl
        exacts [⟨hl1, hl2⟩, ⟨hl1, hr2⟩, ⟨hr1, hr2⟩, ⟨hr1, hl2⟩]
      have hf := filterM_moved (fun p : Bezier × Bezier => (grown k p.1, grown k p.2)) (fun p => overlaps p.1 p.2) (fun p => overlaps p.1 p.2)
        [(l1, l2), (l1, r2), (r1, r2), (r1, l2)] (fun p hp => overlaps_grown hk _ _ (hready p hp).1.2 (hready p hp).2.2)
        (fun p hp => (hready p hp).1.overlaps (hready p hp).2)
      simp only [List.map_cons, List.map_nil] at hf
      rw [hf]
      cases hp : [(l1, l2), (l1, r2), (r1, r2), (r1, l2)].filterM (fun p => overlaps p.1 p.2) with
      | error e => rfl
      | ok pairs =>
        simp only [map_eq_ok, ok_bind]
        rw [mapM_moved _ _ (fun pair => pairiteration depth pair.1 pair.2 θ) pairs fun p hm => ?_]
        have := hready p ((filterM_mem _ _ _ hp p).mp hm).1
        exact ih _ _ this.1 this.2

private theorem pairs_grown (k : ℝ) (cs1 cs2 : List Bezier) : (cs1.map (grown k)).flatMap (fun l => (cs2.map (grown k)).map fun r => (l, r)) =
    (cs1.flatMap fun l => cs2.map fun r => (l, r)).map fun p : Bezier × Bezier => (grown k p.1, grown k p.2) := by
  rw [List.flatMap_map, List.map_flatMap]
  congr 1; funext l
  rw [List.map_map, List.map_map]
  exact List.map_congr_left fun _ _ => rfl

private theorem meet_grown {k : ℝ} (hk : 0 < k) (depth : Nat) (θ : ℝ) (ps : List (Bezier × Bezier)) (hready : ∀ p ∈ ps, Ready k p.1 ∧ Ready k p.2) :
    (do
      let pairs ← (ps.map fun p : Bezier × Bezier => (grown k p.1, grown k p.2)).filterM fun pair => overlaps pair.1 pair.2
      let results ← pairs.mapM fun pair => pairiteration depth pair.1 pair.2 (k * θ)
      return results.flatten : Py (List (Pt ℝ))) = (do
      let pairs ← ps.filterM fun pair => overlaps pair.1 pair.2
      let results ← pairs.mapM fun pair => pairiteration depth pair.1 pair.2 θ
      return results.flatten) := by
  have hf := filterM_moved (fun p : Bezier × Bezier => (grown k p.1, grown k p.2)) (fun p => overlaps p.1 p.2) (fun p => overlaps p.1 p.2) ps
    (fun p hp => overlaps_grown hk _ _ (hready p hp).1.2 (hready p hp).2.2) (fun p hp => (hready p hp).1.overlaps (hready p hp).2)
  rw [hf]
  cases hp : ps.filterM (fun p => overlaps p.1 p.2) with
  | error e => simp only [map_eq_error, error_bind]
  | ok pairs =>
    simp only [map_eq_ok, ok_bind]
    rw [mapM_moved _ _ (fun pair => pairiteration depth pair.1 pair.2 θ) pairs fun p hm => ?_]
    have := hready p ((filterM_mem _ _ _ hp p).mp hm).1
    exact pairiteration_grown hk depth _ _ this.1 this.2 θ

theorem curveIntersects_grown {k : ℝ} (hk : 0 < k) (depth : Nat) (cs1 cs2 : List Bezier) (h1 : ∀ c ∈ cs1, Ready k c) (h2 : ∀ c ∈ cs2, Ready k c) (θ : ℝ) :
    curveIntersects depth (cs1.map (grown k)) (cs2.map (grown k)) (k * θ) = curveIntersects depth cs1 cs2 θ := by
  unfold curveIntersects
  rw [pairs_grown]
  refine meet_grown hk depth θ _ fun p hp => ?_
  obtain ⟨a, ha, hp⟩ := List.mem_flatMap.mp hp
  obtain ⟨b, hb, rfl⟩ := List.mem_map.mp hp
  exact ⟨h1 a ha, h2 b hb⟩

theorem Ready.reduce {k : ℝ} {b : Bezier} (h : Ready k b) (r : List Bezier) (hr : Bezier.reduce b = .ok r) : ∀ p ∈ r, Ready k p := by
  intro p hp
  have le : ∀ (l : List Bezier) (a e : ℝ), TilesFrom b.controlPoints a e l → a ≤ e ∧ ∀ p ∈ l, a ≤ p.t1 ∧ p.t1 < p.t2 ∧ p.t2 ≤ e ∧
      p.controlPoints.length = b.controlPoints.length ∧ ∀ s, curve p.controlPoints s = curve b.controlPoints (p.t1 + s * (p.t2 - p.t1)) := by
    intro l
    induction l with
    | nil => intro a e h; exact ⟨le_of_eq h, by simp⟩
    | cons p l ih =>
      rintro a e ⟨a1, a2, a3, a4, a5⟩
      obtain ⟨b1, b2⟩ := ih _ _ a5
      refine ⟨by linarith, fun q hq => ?_⟩
      rcases List.mem_cons.mp hq with rfl | hq
      · exact ⟨a1.ge, a2, b1, a3, a4⟩
      · obtain ⟨c1, c2⟩ := b2 q hq
        exact ⟨by linarith, c2⟩
  obtain ⟨a1, a2, a3, a4, a5⟩ := (le r 0 1 (C48_tiles b h.1 r hr (List.ne_nil_of_mem hp))).2 p hp
  exact h.part a4 _ _ a1 a2.le a3 a5

theorem intersects_grown {k : ℝ} (hk : 0 < k) (depth : Nat) (b : Bezier) (curve : Option Bezier) (hb : Ready k b) (hc : ∀ c ∈ curve, Ready k c) (θ : ℝ) :
    intersects depth (grown k b) (curve.map (grown k)) (k * θ) = intersects depth b curve θ := by
  cases curve with
  | none =>
    simp only [intersects, Option.map_none, selfIntersects, reduce_grown hk]
    cases hr : reduce b with
    | error e => rfl
    | ok r =>
      simp only [map_eq_ok, ok_bind, List.length_map]
      rw [mapM_same _ (fun (i : Nat) => curveIntersects depth ((r.drop i).take 1) (r.drop (i + 2)) θ) _ fun i _ => ?_]
      rw [← List.map_drop, ← List.map_drop, ← List.map_take]
      exact curveIntersects_grown hk depth _ _ (fun c hc => hb.reduce r hr c (List.mem_of_mem_drop (List.mem_of_mem_take hc)))
        (fun c hc => hb.reduce r hr c (List.mem_of_mem_drop hc)) θ
  | some c =>
    simp only [intersects, Option.map_some, reduce_grown hk]
    cases hr : reduce b with
    | error e => rfl
    | ok r =>
      cases hr' : reduce c with
      | error e => rfl
      | ok r' =>
        simp only [map_eq_ok, ok_bind]
        exact curveIntersects_grown hk depth _ _ (hb.reduce r hr) ((hc c rfl).reduce r' hr') θ

end PathLib.Grown
