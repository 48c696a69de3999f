import Verif.Lemmas.Flipped

/-!
# Lemmas about curves, contours and outlines with the signs of coordinates changed: intersections, edits
-/

set_option linter.unusedSectionVars false
set_option linter.unusedSimpArgs false

namespace PathLib
namespace Flipped
open Spec Bezier BContour
open Moved (map_eq_ok map_eq_error map_do map_map map_mapM filterM_moved mapM_moved mapM_same)

variable {s u : ℝ}

theorem size_flipped (s u : ℝ) (r : BoundsRectangle ℝ) : (flippedRect s u r).height + (flippedRect s u r).width = r.height + r.width := by
  simp only [flippedRect, flippedRange, BoundsRectangle.height, BoundsRectangle.width]
  split_ifs <;> ring

private theorem two_le {c : Bezier} (h : QuadOrCubic c) : 2 ≤ c.controlPoints.length := by
  rcases h with h | h <;> omega

private theorem halves {c : Bezier} (h : QuadOrCubic c) : ∃ l r q, split1 c (1 / 2) = .ok (l, r, q) ∧ QuadOrCubic l ∧ QuadOrCubic r := by
  obtain ⟨l, r, e, l1, r1, _⟩ := split1_spec c h (1 / 2)
  exact ⟨l, r, _, e, by unfold QuadOrCubic; rwa [l1], by unfold QuadOrCubic; rwa [r1]⟩

private theorem overlaps_ok {a b : Bezier} (ha : QuadOrCubic a) (hb : QuadOrCubic b) : ∃ o, Bezier.overlaps a b = .ok o := by
  obtain ⟨ra, h1, _⟩ := boundsRectangle_ok a.controlPoints (two_le ha)
  obtain ⟨rb, h2, _⟩ := boundsRectangle_ok b.controlPoints (two_le hb)
  unfold Bezier.overlaps
  rw [h1, ok_bind, h2, ok_bind]
  exact ⟨_, rfl⟩

theorem pairiteration_flipped (hs : Unit s) (hu : Unit u) (depth : Nat) (c1 c2 : Bezier) (h1 : QuadOrCubic c1) (h2 : QuadOrCubic c2) (θ : ℝ) :
    pairiteration depth (flipped s u c1) (flipped s u c2) θ = pairiteration depth c1 c2 θ := by
  induction depth generalizing c1 c2 with
  | zero => rfl
  | succ depth ih =>
    rw [pairiteration, pairiteration.eq_def (depth + 1) c1 c2]
    simp only [show ∀ c, (flipped s u c).controlPoints = flippedBy s u c.controlPoints from fun _ => rfl, boundsRectangle_flipped hs hu,
      split1_flipped hs hu, show ∀ c, (flipped s u c).t1 = c.t1 from fun _ => rfl, show ∀ c, (flipped s u c).t2 = c.t2 from fun _ => rfl]
    obtain ⟨b1, e1, _⟩ := boundsRectangle_ok c1.controlPoints (two_le h1)
    obtain ⟨b2, e2, _⟩ := boundsRectangle_ok c2.controlPoints (two_le h2)
    obtain ⟨l1, r1, q1, s1, hl1, hr1⟩ := halves h1
    obtain ⟨l2, r2, q2, s2, hl2, hr2⟩ := halves h2
    simp only [e1, e2, s1, s2, map_eq_ok, ok_bind, size_flipped]
    split_ifs
    · rfl
    · have hready : ∀ p ∈ [(l1, l2), (l1, r2), (r1, r2), (r1, l2)], QuadOrCubic p.1 ∧ QuadOrCubic p.2 := by
        intro p hp
        simp only [List.mem_cons, List.not_mem_nil, or_false] at hp
        rcases hp with rfl | rfl | rfl | rfl
        exacts [⟨hl1, hl2⟩, ⟨hl1, hr2⟩, ⟨hr1, hr2⟩, ⟨hr1, hl2⟩]
      have hf := filterM_moved (fun p : Bezier × Bezier => (flipped s u p.1, flipped s u p.2)) (fun p => overlaps p.1 p.2) (fun p => overlaps p.1 p.2)
        [(l1, l2), (l1, r2), (r1, r2), (r1, l2)] (fun p hp => overlaps_flipped hs hu _ _)
        (fun p hp => overlaps_ok (hready p hp).1 (hready p hp).2)
      simp only [List.map_cons, List.map_nil] at hf
      rw [hf]
      cases hp : [(l1, l2), (l1, r2), (r1, r2), (r1, l2)].filterM (fun p => overlaps p.1 p.2) with
      | error e => rfl
      | ok pairs =>
        simp only [map_eq_ok, ok_bind]
        rw [mapM_moved _ _ (fun pair => pairiteration depth pair.1 pair.2 θ) pairs fun p hm => ?_]
        have := hready p ((filterM_mem _ _ _ hp p).mp hm).1
        exact ih _ _ this.1 this.2

private theorem pairs_flipped (s u : ℝ) (cs1 cs2 : List Bezier) : (cs1.map (flipped s u)).flatMap (fun l => (cs2.map (flipped s u)).map fun r => (l, r)) =
    (cs1.flatMap fun l => cs2.map fun r => (l, r)).map fun p : Bezier × Bezier => (flipped s u p.1, flipped s u p.2) := by
  rw [List.flatMap_map, List.map_flatMap]
  congr 1; funext l
  rw [List.map_map, List.map_map]
  exact List.map_congr_left fun _ _ => rfl

theorem curveIntersects_flipped (hs : Unit s) (hu : Unit u) (depth : Nat) (cs1 cs2 : List Bezier) (h1 : ∀ c ∈ cs1, QuadOrCubic c) (h2 : ∀ c ∈ cs2, QuadOrCubic c) (θ : ℝ) :
    curveIntersects depth (cs1.map (flipped s u)) (cs2.map (flipped s u)) θ = curveIntersects depth cs1 cs2 θ := by
  unfold curveIntersects
  rw [pairs_flipped]
  have hready : ∀ p ∈ cs1.flatMap fun l => cs2.map fun r => (l, r), QuadOrCubic p.1 ∧ QuadOrCubic p.2 := by
    intro p hp
    obtain ⟨a, ha, hp⟩ := List.mem_flatMap.mp hp
    obtain ⟨b, hb, rfl⟩ := List.mem_map.mp hp
    exact ⟨h1 a ha, h2 b hb⟩
  have hf := filterM_moved (fun p : Bezier × Bezier => (flipped s u p.1, flipped s u p.2)) (fun p => overlaps p.1 p.2) (fun p => overlaps p.1 p.2) _
    (fun p hp => overlaps_flipped hs hu _ _) (fun p hp => overlaps_ok (hready p hp).1 (hready p hp).2)
  rw [hf]
  cases hp : (cs1.flatMap fun l => cs2.map fun r => (l, r)).filterM (fun p => overlaps p.1 p.2) with
  | error e => simp only [map_eq_error, error_bind]
  | ok pairs =>
    simp only [map_eq_ok, ok_bind]
    rw [mapM_moved _ _ (fun pair => pairiteration depth pair.1 pair.2 θ) pairs fun p hm => ?_]
    have := hready p ((filterM_mem _ _ _ hp p).mp hm).1
    exact pairiteration_flipped hs hu depth _ _ this.1 this.2 θ

/-! ### Reduction -/

/-- Half turns, and quadratics. -/
def Even (s u : ℝ) (c : Bezier) : Prop := s = u ∨ c.controlPoints.length = 3

theorem simple_flipped (hs : Unit s) (hu : Unit u) (c : Bezier) (h : Even s u c) : simple (flippedBy s u c.controlPoints) = simple c.controlPoints := by
  rcases h with rfl | h
  · have e : flipBy s s = turnBy s 0 := by
      funext p; simp [flipBy, turnBy]
    unfold flippedBy
    rw [e]
    exact Turned.simple_turned (by rcases hs with rfl | rfl <;> norm_num) _
  · unfold flippedBy
    rcases flip_cases hs hu with ⟨e, k⟩ | ⟨e, k⟩ <;> rw [e]
    · exact Turned.simple_turned k _
    · refine Mirrored.simple_mirrored k _ fun x p q y hx => ?_
      rw [hx] at h
      simp at h

theorem splitPiece_flipped (hs : Unit s) (hu : Unit u) (b : Bezier) (t1 t2 : ℝ) : splitPiece (flipped s u b) t1 t2 = (splitPiece b t1 t2).map (flipped s u) := by
  have key : split (flipped s u b) t1 (some t2) = (split b t1 (some t2)).map (fun x => match x with
    | .parts l r q => .parts (flipped s u l) (flipped s u r) (flippedBy s u q)
    | .piece c => .piece (flipped s u c)) := by
    unfold split
    simp only [split1_flipped hs hu, Flt.map_bind, pure_eq_ok]
    split_ifs <;> simp only [map_do, Flt.map_bind, split1_flipped hs hu, map_eq_ok]
  unfold splitPiece
  rw [key, Flt.map_bind, map_do]
  congr 1
  funext x
  cases x <;> rfl

private theorem splitPiece_length (b : Bezier) (hb : QuadOrCubic b) (t1 t2 : ℝ) (p : Bezier)
    (h : Bezier.splitPiece b t1 t2 = .ok p) : p.controlPoints.length = b.controlPoints.length := by
  unfold Bezier.splitPiece Bezier.split at h
  obtain ⟨l1, r1, h1, hl1, hr1, -⟩ := split1_spec b hb t1
  obtain ⟨l2, r2, h2, hl2, hr2, -⟩ := split1_spec b hb t2
  simp only [h1, h2, ok_bind, pure_eq_ok] at h
  by_cases c1 : t1 = 0 ∧ t2 ≠ 0
  · simp only [if_pos c1, ok_bind, Except.ok.injEq] at h
    rw [← h, hl2]
  · simp only [if_neg c1] at h
    by_cases c2 : t2 = 1
    · simp only [if_pos c2, ok_bind, Except.ok.injEq] at h
      rw [← h, hr1]
    · simp only [if_neg c2] at h
      by_cases c3 : t2 = 0
      · simp only [if_pos c3, ok_bind] at h
        cases h
      · simp only [if_neg c3] at h
        cases hm : butils.map t2 t1 1 0 1 with
        | error e => rw [hm] at h; cases h
        | ok t =>
          have hq : QuadOrCubic r1 := by
            unfold QuadOrCubic at hb ⊢; rw [hr1]; exact hb
          obtain ⟨l3, r3, h3, hl3, -⟩ := split1_spec r1 hq t
          simp only [hm, ok_bind, h3, Except.ok.injEq] at h
          rw [← h, hl3, hr1]

theorem even_piece {b p : Bezier} {t1 t2 : ℝ} (h : Even s u b) (e : splitPiece b t1 t2 = .ok p) : Even s u p := by
  rcases h with h | h
  · exact Or.inl h
  · exact Or.inr ((splitPiece_length b (Or.inl h) t1 t2 p e).trans h)

theorem reducePass1_flipped (hs : Unit s) (hu : Unit u) (b : Bezier) (hb : Even s u b) (ts : List ℝ) : ∀ t1,
    reducePass1 (flipped s u b) t1 ts = (reducePass1 b t1 ts).map (List.map (flipped s u)) ∧ ∀ l, reducePass1 b t1 ts = .ok l → ∀ p ∈ l, Even s u p := by
  induction ts with
  | nil =>
    intro t1
    refine ⟨rfl, fun l hl p hp => ?_⟩
    cases hl; simp at hp
  | cons t2 ts ih =>
    intro t1
    simp only [reducePass1, splitPiece_flipped hs hu, Flt.map_bind]
    cases hp : splitPiece b t1 t2 with
    | error e => exact ⟨rfl, fun l hl => by cases hl⟩
    | ok p =>
      simp only [ok_bind]
      rw [(ih t2).1]
      cases hr : reducePass1 b t2 ts with
      | error e => exact ⟨rfl, fun l hl => by cases hl⟩
      | ok r =>
        refine ⟨rfl, fun l hl q hq => ?_⟩
        cases hl
        rcases List.mem_cons.mp hq with rfl | hq
        · exact even_piece (p := p) hb hp
        · exact (ih t2).2 r hr q hq

theorem reduceLoop_flipped (hs : Unit s) (hu : Unit u) (p1 : Bezier) (h1 : Even s u p1) (t1 t2 : ℝ) (h : t1 < t2) :
    reduceLoop (flipped s u p1) t1 t2 h = (reduceLoop p1 t1 t2 h).map (Option.map fun r => (r.1.map (flipped s u), r.2)) := by
  induction t1, t2, h using reduceLoop.induct with
  | case1 t1 t2 h h2 ih1 ih2 =>
    rw [reduceLoop, reduceLoop.eq_def p1 t1 t2 h, dif_pos h2, dif_pos h2]
    simp only [splitPiece_flipped hs hu, Flt.map_bind, map_do]
    cases hp : splitPiece p1 t1 t2 with
    | error e => rfl
    | ok segment =>
      simp only [ok_bind]
      rw [show (flipped s u segment).controlPoints = flippedBy s u segment.controlPoints from rfl, simple_flipped hs hu segment (even_piece h1 hp)]
      congr 1
      funext sb
      cases sb with
      | true =>
        simp only [Bool.not_true, Bool.false_eq_true, if_false]
        exact ih2
      | false =>
        simp only [Bool.not_false, if_true]
        split_ifs with hs
        · rfl
        · simp only [map_do]
          rw [ih1 hs]
          simp only [Flt.map_bind]
          congr 1; funext x; congr 1; funext y; congr 1; funext z; congr 1; funext w
          cases w <;> rfl
  | case2 t1 t2 h h2 =>
    rw [reduceLoop, reduceLoop.eq_def p1 t1 t2 h, dif_neg h2, dif_neg h2]
    rfl

theorem reducePass2_flipped (hs : Unit s) (hu : Unit u) (l : List Bezier) (hl : ∀ p ∈ l, Even s u p) :
    reducePass2 (l.map (flipped s u)) = (reducePass2 l).map (Option.map (List.map (flipped s u))) := by
  induction l with
  | nil => rfl
  | cons p1 rest ih =>
    simp only [List.map_cons, reducePass2, reduceLoop_flipped hs hu p1 (hl p1 (by simp)), Flt.map_bind, map_do]
    congr 1
    funext x
    cases x with
    | none => rfl
    | some x =>
      obtain ⟨ps, t1⟩ := x
      simp only [Option.map_some, splitPiece_flipped hs hu, Flt.map_bind, ih fun p hp => hl p (by simp [hp])]
      split_ifs <;> simp only [map_do, bind_assoc, pure_eq_ok, ok_bind]
      · congr 1; funext x; congr 1; funext y; congr 1; funext z
        cases z <;> simp [map_eq_ok, flipped]
      · congr 1; funext z
        cases z <;> simp [map_eq_ok]

theorem reduce_flipped (hs : Unit s) (hu : Unit u) (b : Bezier) (hb : Even s u b) : reduce (flipped s u b) = (reduce b).map (List.map (flipped s u)) := by
  unfold reduce
  rw [show (flipped s u b).controlPoints = flippedBy s u b.controlPoints from rfl]
  rcases extrema_flipped hs hu b.controlPoints with ⟨e, h1, h2⟩ | ⟨e, e', h1, h2, ha, -⟩
  · rw [h1, h2]; rfl
  · rw [h1, h2, ok_bind, ok_bind, ha]
    unfold reduceWith
    cases addEnds e.all with
    | nil => rfl
    | cons t1 rest =>
      simp only
      rw [(reducePass1_flipped hs hu b hb rest t1).1]
      cases hr : reducePass1 b t1 rest with
      | error e => rfl
      | ok l =>
        simp only [map_eq_ok, ok_bind]
        rw [reducePass2_flipped hs hu l ((reducePass1_flipped hs hu b hb rest t1).2 l hr)]
        cases reducePass2 l with
        | error e => rfl
        | ok y => cases y <;> rfl

theorem intersects_flipped (hs : Unit s) (hu : Unit u) (depth : Nat) (b : Bezier) (curve : Option Bezier) (hb : QuadOrCubic b ∧ Even s u b)
    (hc : ∀ c ∈ curve, QuadOrCubic c ∧ Even s u c) (θ : ℝ) :
    intersects depth (flipped s u b) (curve.map (flipped s u)) θ = intersects depth b curve θ := by
  have hq : ∀ b r, QuadOrCubic b → Bezier.reduce b = .ok r → ∀ p ∈ r, QuadOrCubic p := by
    intro b r h hr p hp
    have le : ∀ (l : List Bezier) (a e : ℝ), TilesFrom b.controlPoints a e l → ∀ p ∈ l, p.controlPoints.length = b.controlPoints.length := by
      intro l
      induction l with
      | nil => intro a e h; simp
      | cons p l ih =>
        rintro a e ⟨a1, a2, a3, a4, a5⟩ q hq
        rcases List.mem_cons.mp hq with rfl | hq
        · exact a3
        · exact ih _ _ a5 q hq
    unfold QuadOrCubic
    rw [le r 0 1 (C48_tiles b h r hr (List.ne_nil_of_mem hp)) p hp]
    exact h
  cases curve with
  | none =>
    simp only [intersects, Option.map_none, selfIntersects, reduce_flipped hs hu b hb.2]
    cases hr : reduce b with
    | error e => rfl
    | ok r =>
      simp only [map_eq_ok, ok_bind, List.length_map]
      rw [mapM_same _ (fun (i : Nat) => curveIntersects depth ((r.drop i).take 1) (r.drop (i + 2)) θ) _ fun i _ => ?_]
      rw [← List.map_drop, ← List.map_drop, ← List.map_take]
      exact curveIntersects_flipped hs hu depth _ _ (fun c hc => hq b r hb.1 hr c (List.mem_of_mem_drop (List.mem_of_mem_take hc)))
        (fun c hc => hq b r hb.1 hr c (List.mem_of_mem_drop hc)) θ
  | some c =>
    simp only [intersects, Option.map_some, reduce_flipped hs hu b hb.2, reduce_flipped hs hu c (hc c rfl).2]
    cases hr : reduce b with
    | error e => rfl
    | ok r =>
      cases hr' : reduce c with
      | error e => rfl
      | ok r' =>
        simp only [map_eq_ok, ok_bind]
        exact curveIntersects_flipped hs hu depth _ _ (hq b r hb.1 hr) (hq c r' (hc c rfl).1 hr') θ

/-! ### Contours -/

private theorem foldStep_flipped (hs : Unit s) (hu : Unit u) (c : Contour ℝ) : ∀ (bs : List Bezier) (R : BoundsRectangle ℝ),
    (c.map (flippedBy s u)).foldlM (fun (acc : List Bezier × BoundsRectangle ℝ) segment => (do
      let bezier ← Bezier.new segment
      let r ← boundsRectangle bezier.controlPoints
      return (acc.1 ++ [bezier], acc.2.union r) : Py _)) (bs.map (flipped s u), flippedRect s u R) =
    (c.foldlM (fun (acc : List Bezier × BoundsRectangle ℝ) segment => (do
      let bezier ← Bezier.new segment
      let r ← boundsRectangle bezier.controlPoints
      return (acc.1 ++ [bezier], acc.2.union r) : Py _)) (bs, R)).map fun z => (z.1.map (flipped s u), flippedRect s u z.2) := by
  induction c with
  | nil => intro bs R; rfl
  | cons p c ih =>
    intro bs R
    rw [List.map_cons, List.foldlM_cons, List.foldlM_cons, new_flipped hs hu]
    cases hn : Bezier.new p with
    | error e => rfl
    | ok b =>
      simp only [map_eq_ok, ok_bind]
      rw [show (flipped s u b).controlPoints = flippedBy s u b.controlPoints from rfl, boundsRectangle_flipped hs hu]
      cases boundsRectangle b.controlPoints with
      | error e => rfl
      | ok r =>
        simp only [map_eq_ok, ok_bind, pure_eq_ok]
        rw [union_flipped hs hu, show bs.map (flipped s u) ++ [flipped s u b] = (bs ++ [b]).map (flipped s u) by simp]
        exact ih _ _

theorem rect_empty (hs : Unit s) (hu : Unit u) : flippedRect s u (BoundsRectangle.new []) = BoundsRectangle.new [] := by
  rw [← rect_new_flipped hs hu]; rfl

theorem build_flipped (hs : Unit s) (hu : Unit u) (c : Contour ℝ) :
    build (c.map (flippedBy s u)) = (build c).map fun z => (z.1.map (flipped s u), flippedRect s u z.2) := by
  have := foldStep_flipped hs hu c [] (BoundsRectangle.new [])
  rw [rect_empty hs hu] at this
  exact this

theorem contour_flipped (hs : Unit s) (hu : Unit u) (c : Contour ℝ) : BContour.new (c.map (flippedBy s u)) = (BContour.new c).map (flippedContour s u) := by
  unfold BContour.new
  rw [build_flipped hs hu]
  cases build c with
  | error e => rfl
  | ok z =>
    obtain ⟨bs, R⟩ := z
    simp only [map_eq_ok, ok_bind, bezierStart, bezierEnd]
    rw [Flt.pyGet_map, Flt.pyGet_map]
    cases pyGet bs 0 with
    | error e => rfl
    | ok b0 =>
      simp only [map_eq_ok, ok_bind]
      rw [show (flipped s u b0).controlPoints = flippedBy s u b0.controlPoints from rfl, pyGet_flipped]
      cases pyGet b0.controlPoints 0 with
      | error e => rfl
      | ok p0 =>
        simp only [map_eq_ok, ok_bind]
        cases pyGet bs (-1) with
        | error e => rfl
        | ok b1 =>
          simp only [map_eq_ok, ok_bind]
          rw [show (flipped s u b1).controlPoints = flippedBy s u b1.controlPoints from rfl, pyGet_flipped]
          cases pyGet b1.controlPoints (-1) with
          | error e => rfl
          | ok p1 => rfl

theorem lutOf_flipped (hs : Unit s) (hu : Unit u) (ps : Segment ℝ) (n : Int) : lutOf (flippedBy s u ps) n = (lutOf ps n).map (flippedBy s u) := by
  simp only [lutOf]
  refine map_mapM _ _ _ _ fun i _ => ?_
  rw [map_do]
  simp only [get_flipped hs hu]

theorem lutLoop_flipped (hs : Unit s) (hu : Unit u) (steps : Int) (bs : List Bezier) : ∀ (n : Nat) (lut : List (Pt ℝ)),
    lutLoop steps (bs.map (flipped s u)) n (flippedBy s u lut) = ((lutLoop steps bs n lut).1, flippedBy s u (lutLoop steps bs n lut).2) := by
  induction bs with
  | nil => intro n lut; rfl
  | cons b bs ih =>
    intro n lut
    rw [List.map_cons, lutLoop, lutLoop.eq_def steps (b :: bs)]
    simp only [show (flipped s u b).controlPoints = flippedBy s u b.controlPoints from rfl, lutOf_flipped hs hu]
    cases lutOf b.controlPoints steps with
    | error e => rfl
    | ok l =>
      simp only [map_eq_ok]
      rw [← ih]
      simp only [flippedBy, List.map_append, List.map_drop]

theorem getLUT_flipped (hs : Unit s) (hu : Unit u) (steps : Int) (c : BContour) :
    getLUT steps (flippedContour s u c) = ((getLUT steps c).1.map (flippedBy s u), flippedContour s u (getLUT steps c).2) := by
  unfold getLUT
  rw [show (flippedContour s u c).lut.length = c.lut.length by simp [flippedContour, flippedBy]]
  split_ifs
  · rfl
  · have := lutLoop_flipped hs hu steps c.beziers 0 []
    rw [show flippedBy s u ([] : List (Pt ℝ)) = [] from rfl] at this
    rw [show (flippedContour s u c).beziers = c.beziers.map (flipped s u) from rfl, this]
    rcases lutLoop steps c.beziers 0 [] with ⟨_ | _, _⟩ <;> rfl

theorem resetEnds_flipped (s u : ℝ) (c : BContour) : resetEnds (flippedContour s u c) = ((resetEnds c).1, flippedContour s u (resetEnds c).2) := by
  unfold resetEnds
  simp only [show (flippedContour s u c).beziers = c.beziers.map (flipped s u) from rfl, Flt.pyGet_map, bezierStart, bezierEnd]
  cases pyGet c.beziers 0 with
  | error e => rfl
  | ok b0 =>
    simp only [map_eq_ok, ok_bind, show ∀ c, (flipped s u c).controlPoints = flippedBy s u c.controlPoints from fun _ => rfl, pyGet_flipped]
    cases pyGet b0.controlPoints 0 with
    | error e => rfl
    | ok p =>
      simp only [map_eq_ok]
      cases pyGet c.beziers (-1) with
      | error e => rfl
      | ok b1 =>
        simp only [map_eq_ok, ok_bind, show ∀ c, (flipped s u c).controlPoints = flippedBy s u c.controlPoints from fun _ => rfl, pyGet_flipped]
        cases pyGet b1.controlPoints (-1) with
        | error e => rfl
        | ok q => rfl

theorem setitem_flipped (hs : Unit s) (hu : Unit u) (i : Int) (p : Segment ℝ) (c : BContour) :
    setitem i (flippedBy s u p) (flippedContour s u c) = ((setitem i p c).1, flippedContour s u (setitem i p c).2) := by
  unfold setitem
  simp only [new_flipped hs hu, show (flippedContour s u c).beziers = c.beziers.map (flipped s u) from rfl, List.length_map]
  cases Bezier.new p with
  | error e => rfl
  | ok b =>
    cases pyIndex c.beziers.length i with
    | error e => rfl
    | ok j =>
      simp only [map_eq_ok, ok_bind, pure_eq_ok]
      rw [← resetEnds_flipped]
      simp only [flippedContour, List.map_set]

theorem delitem_flipped (s u : ℝ) (i : Int) (c : BContour) :
    delitem i (flippedContour s u c) = ((delitem i c).1, flippedContour s u (delitem i c).2) := by
  unfold delitem
  simp only [show (flippedContour s u c).beziers = c.beziers.map (flipped s u) from rfl, List.length_map]
  cases pyIndex c.beziers.length i with
  | error e => rfl
  | ok j =>
    simp only
    rw [← resetEnds_flipped]
    simp only [flippedContour, List.eraseIdx_map]

private theorem outlineStep_flipped (hs : Unit s) (hu : Unit u) (cs : List (Contour ℝ)) : ∀ (bs : List BContour) (R : BoundsRectangle ℝ),
    (cs.map (List.map (flippedBy s u))).foldlM (fun (acc : List BContour × BoundsRectangle ℝ) contour => (do
      let bc ← BContour.new contour
      return (acc.1 ++ [bc], acc.2.union bc.bounds) : Py _)) (bs.map (flippedContour s u), flippedRect s u R) =
    (cs.foldlM (fun (acc : List BContour × BoundsRectangle ℝ) contour => (do
      let bc ← BContour.new contour
      return (acc.1 ++ [bc], acc.2.union bc.bounds) : Py _)) (bs, R)).map fun z => (z.1.map (flippedContour s u), flippedRect s u z.2) := by
  induction cs with
  | nil => intro bs R; rfl
  | cons c cs ih =>
    intro bs R
    rw [List.map_cons, List.foldlM_cons, List.foldlM_cons, contour_flipped hs hu c]
    cases hn : BContour.new c with
    | error e => rfl
    | ok bc =>
      simp only [map_eq_ok, ok_bind, pure_eq_ok]
      rw [show (flippedContour s u bc).bounds = flippedRect s u bc.bounds from rfl, union_flipped hs hu,
        show bs.map (flippedContour s u) ++ [flippedContour s u bc] = (bs ++ [bc]).map (flippedContour s u) by simp]
      exact ih _ _

theorem outline_flipped (hs : Unit s) (hu : Unit u) (cs : List (Contour ℝ)) :
    BOutline.new (cs.map (List.map (flippedBy s u))) = (BOutline.new cs).map (flippedOutline s u) := by
  have := outlineStep_flipped hs hu cs [] (BoundsRectangle.new [])
  rw [rect_empty hs hu] at this
  unfold BOutline.new
  simp only [List.map_nil] at this
  rw [this]
  cases cs.foldlM (fun (acc : List BContour × BoundsRectangle ℝ) contour => (do
      let bc ← BContour.new contour
      return (acc.1 ++ [bc], acc.2.union bc.bounds) : Py _)) ([], BoundsRectangle.new []) with
  | error e => rfl
  | ok z => rfl

end Flipped
end PathLib
