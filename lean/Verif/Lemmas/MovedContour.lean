import Verif.Lemmas.MovedMeet

set_option linter.unusedSectionVars false
set_option linter.unusedSimpArgs false

/-!
# Moving contours and outlines
-/

namespace PathLib.Moved
open Spec Bezier BContour

theorem inside_fits {v : Pt ℝ} {ps : Segment ℝ} (h : DesignBoth v ps) (h2 : 2 ≤ ps.length) : Fits v ps :=
  fits_of_points v ps h2 (fun p hp => (h p hp).1) (fun p hp => (h p hp).2)

theorem union_moved (v : Pt ℝ) (a b : BoundsRectangle ℝ) (h : BoundsRectangle.Proper a) (h' : BoundsRectangle.Proper (movedRect v a)) :
    (movedRect v a).union (movedRect v b) = movedRect v (a.union b) := by
  rw [BoundsRectangle.union_eq h, BoundsRectangle.union_eq h']
  simp only [movedRect, min_add_add_right, max_add_add_right]

private theorem step_moved (v : Pt ℝ) (c : Contour ℝ) (hc : ∀ s ∈ c, DesignBoth v s) : ∀ (bs : List Bezier) (R : BoundsRectangle ℝ),
    BoundsRectangle.Proper R → BoundsRectangle.Proper (movedRect v R) →
    (c.map (movedBy v)).foldlM (fun (acc : List Bezier × BoundsRectangle ℝ) segment => (do
      let bezier ← Bezier.new segment
      let r ← boundsRectangle bezier.controlPoints
      return (acc.1 ++ [bezier], acc.2.union r) : Py _)) (bs.map (moved v), movedRect v R) =
    (c.foldlM (fun (acc : List Bezier × BoundsRectangle ℝ) segment => (do
      let bezier ← Bezier.new segment
      let r ← boundsRectangle bezier.controlPoints
      return (acc.1 ++ [bezier], acc.2.union r) : Py _)) (bs, R)).map fun z => (z.1.map (moved v), movedRect v z.2) := by
  induction c with
  | nil => intro bs R _ _; rfl
  | cons s c ih =>
    intro bs R hR hR'
    rw [List.map_cons, List.foldlM_cons, List.foldlM_cons, new_moved]
    cases hn : Bezier.new s with
    | error e => rfl
    | ok b =>
      simp only [map_eq_ok, ok_bind]
      have hs : 2 ≤ s.length := by
        by_contra hl
        match s, hl with
        | [], _ => cases hn
        | [a], _ => cases hn
        | a :: b :: l, hl => simp at hl
      have hf := inside_fits (hc s (by simp)) hs
      rw [show (moved v b).controlPoints = movedBy v b.controlPoints from rfl, (new_controlPoints hn).1, boundsRectangle_moved v s hf]
      obtain ⟨r, hr, hp, _⟩ := boundsRectangle_ok s hs
      obtain ⟨r', hr', hp', _⟩ := boundsRectangle_ok (movedBy v s) (by simpa [movedBy] using hs)
      rw [boundsRectangle_moved v s hf, hr] at hr'
      cases hr'
      simp only [hr, map_eq_ok, ok_bind, pure_eq_ok]
      rw [union_moved v R r hR hR', show bs.map (moved v) ++ [moved v b] = (bs ++ [b]).map (moved v) by simp]
      refine ih (fun s hs => hc s (by simp [hs])) _ _ (BoundsRectangle.proper_new (by simp)) ?_
      rw [← union_moved v R r hR hR']
      exact BoundsRectangle.proper_new (by simp)

theorem build_moved (v : Pt ℝ) (s : Segment ℝ) (c : Contour ℝ) (hc : ∀ s' ∈ s :: c, DesignBoth v s') :
    build ((s :: c).map (movedBy v)) = (build (s :: c)).map fun z => (z.1.map (moved v), movedRect v z.2) := by
  unfold build
  rw [List.map_cons, List.foldlM_cons, List.foldlM_cons, new_moved]
  cases hn : Bezier.new s with
  | error e => rfl
  | ok b =>
    simp only [map_eq_ok, ok_bind]
    have hs : 2 ≤ s.length := by
      by_contra hl
      match s, hl with
      | [], _ => cases hn
      | [a], _ => cases hn
      | a :: b :: l, hl => simp at hl
    have hf := inside_fits (hc s (by simp)) hs
    rw [show (moved v b).controlPoints = movedBy v b.controlPoints from rfl, (new_controlPoints hn).1, boundsRectangle_moved v s hf]
    obtain ⟨r, hr, hp, _⟩ := boundsRectangle_ok s hs
    obtain ⟨r', hr', hp', _⟩ := boundsRectangle_ok (movedBy v s) (by simpa [movedBy] using hs)
    rw [boundsRectangle_moved v s hf, hr] at hr'
    cases hr'
    simp only [hr, map_eq_ok, ok_bind, pure_eq_ok]
    rw [BoundsRectangle.union_comm _ r, (C10_union_empty r hp).1, BoundsRectangle.union_comm _ (movedRect v r), (C10_union_empty _ hp').1]
    exact step_moved v c (fun s hs => hc s (by simp [hs])) [b] r hp hp'

theorem contour_moved (v : Pt ℝ) (c : Contour ℝ) (hc : ∀ s ∈ c, DesignBoth v s) : BContour.new (c.map (movedBy v)) = (BContour.new c).map (movedContour v) := by
  cases c with
  | nil => rfl
  | cons s c =>
    unfold BContour.new
    rw [build_moved v s c hc]
    cases build (s :: c) with
    | error e => rfl
    | ok z =>
      obtain ⟨bs, R⟩ := z
      simp only [map_eq_ok, ok_bind, bezierStart, bezierEnd]
      rw [Flt.pyGet_map, Flt.pyGet_map]
      cases pyGet bs 0 with
      | error e => rfl
      | ok b0 =>
        simp only [map_eq_ok, ok_bind]
        rw [show (moved v b0).controlPoints = movedBy v b0.controlPoints from rfl, pyGet_moved]
        cases pyGet b0.controlPoints 0 with
        | error e => rfl
        | ok p0 =>
          simp only [map_eq_ok, ok_bind]
          cases pyGet bs (-1) with
          | error e => rfl
          | ok b1 =>
            simp only [map_eq_ok, ok_bind]
            rw [show (moved v b1).controlPoints = movedBy v b1.controlPoints from rfl, pyGet_moved]
            cases pyGet b1.controlPoints (-1) with
            | error e => rfl
            | ok p1 => rfl

theorem lutLoop_moved (v : Pt ℝ) (steps : Int) (bs : List Bezier) : ∀ (n : Nat) (lut : List (Pt ℝ)),
    lutLoop steps (bs.map (moved v)) n (movedBy v lut) = ((lutLoop steps bs n lut).1, movedBy v (lutLoop steps bs n lut).2) := by
  induction bs with
  | nil => intro n lut; rfl
  | cons b bs ih =>
    intro n lut
    rw [List.map_cons, lutLoop, lutLoop.eq_def steps (b :: bs)]
    simp only [show (moved v b).controlPoints = movedBy v b.controlPoints from rfl, lutOf_moved]
    cases lutOf b.controlPoints steps with
    | error e => rfl
    | ok l =>
      simp only [map_eq_ok]
      rw [← ih]
      simp only [movedBy, List.map_append, List.map_drop]

theorem getLUT_moved (v : Pt ℝ) (steps : Int) (c : BContour) :
    getLUT steps (movedContour v c) = ((getLUT steps c).1.map (movedBy v), movedContour v (getLUT steps c).2) := by
  unfold getLUT
  rw [show (movedContour v c).lut.length = c.lut.length by simp [movedContour, movedBy]]
  split_ifs
  · rfl
  · have := lutLoop_moved v steps c.beziers 0 []
    rw [show movedBy v ([] : List (Pt ℝ)) = [] from rfl] at this
    rw [show (movedContour v c).beziers = c.beziers.map (moved v) from rfl, this]
    rcases lutLoop steps c.beziers 0 [] with ⟨_ | _, _⟩ <;> rfl

theorem findClosest_moved (v p : Pt ℝ) (lut : List (Pt ℝ)) : findClosest (moveBy v p) (movedBy v lut) = findClosest p lut := by
  unfold findClosest
  rw [movedBy_length]
  congr 1
  refine List.foldl_ext _ _ _ fun acc i hi => ?_
  have hi' : i < lut.length := List.mem_range.mp hi
  have e : (movedBy v lut).getD i (0, 0) = moveBy v (lut.getD i (0, 0)) := by
    simp [movedBy, List.getD_eq_getElem?_getD, hi']
  simp only [e, moveBy, add_sub_add_right_eq_sub]

/-- The local variables of `_refineBinary` for a moved curve: the point found is the moved point once there is one. -/
structure Alike (v : Pt ℝ) (r r' : Refine) : Prop where
  i : r'.i = r.i
  lut : r'.lut = movedBy v r.lut
  tt : r'.tt = r.tt
  closest : r'.closest = r.closest
  le : r.closest ≤ maxSafe
  q : r.closest < maxSafe → r'.q = moveBy v r.q

/-- Both fail in the same way or both return, with related values. -/
def Both {α β : Type} (R : α → β → Prop) : Py α → Py β → Prop
  | .ok a, .ok b => R a b
  | .error e, .error e' => e = e'
  | _, _ => False

theorem Both.bind {α β γ δ : Type} {R : α → β → Prop} {S : γ → δ → Prop} {x : Py α} {y : Py β} {f : α → Py γ} {g : β → Py δ}
    (h : Both R x y) (hf : ∀ a b, x = .ok a → R a b → Both S (f a) (g b)) : Both S (x >>= f) (y >>= g) := by
  cases x with
  | error e =>
    cases y with
    | error e' => exact h
    | ok b => exact h.elim
  | ok a =>
    cases y with
    | error e' => exact h.elim
    | ok b => exact hf a b rfl h

theorem Both.of_map {α β : Type} (m : α → β) (x : Py α) : Both (fun a b => b = m a) x (x.map m) := by
  cases x with
  | error e => rfl
  | ok a => rfl

theorem Both.refl {α : Type} (x : Py α) : Both (fun a b => b = a) x x := by
  cases x with
  | error e => rfl
  | ok a => rfl

theorem refineInner_moved (v p : Pt ℝ) (ps : Segment ℝ) (t1 step : ℝ) (r r' : Refine) (h : Alike v r r') (j : Nat) :
    Both (Alike v) (refineInner p ps t1 step r j) (refineInner (moveBy v p) (movedBy v ps) t1 step r' j) := by
  simp only [refineInner, get_moved]
  refine Both.bind (Both.of_map _ _) fun n n' _ hn => ?_
  subst hn
  have hd : butils.hypot ((moveBy v n).1 - (moveBy v p).1) ((moveBy v n).2 - (moveBy v p).2) = butils.hypot (n.1 - p.1) (n.2 - p.2) := by
    simp only [moveBy, add_sub_add_right_eq_sub]
  simp only [hd, h.closest]
  show Alike v _ _
  split_ifs with hlt
  · exact ⟨rfl, by simp [h.lut, movedBy], by simp [h.tt], rfl, (hlt.le.trans h.le), fun _ => rfl⟩
  · exact ⟨h.i, by simp [h.lut, movedBy], by simp [h.tt], h.closest, h.le, h.q⟩

theorem refineLoop_moved (v p : Pt ℝ) (ps : Segment ℝ) (n : Nat) : ∀ (r r' : Refine), Alike v r r' →
    Both (Alike v) (refineLoop p ps n r) (refineLoop (moveBy v p) (movedBy v ps) n r') := by
  induction n with
  | zero => intro r r' h; exact h
  | succ n ih =>
    intro r r' h
    rw [refineLoop, refineLoop.eq_def (moveBy v p)]
    simp only [h.i, h.lut, h.tt, movedBy_length, pyGet_moved]
    generalize (if r.i = 0 then 0 else r.i - 1) = i1
    generalize (if r.i = (r.lut.length : Int) - 1 then r.i else r.i + 1) = i2
    refine Both.bind (Both.refl _) fun _ t1 _ e => ?_
    subst e
    refine Both.bind (Both.refl _) fun _ t2 _ e => ?_
    subst e
    split_ifs with hs
    · exact h
    refine Both.bind (Both.of_map _ _) fun a a' _ e => ?_
    subst e
    refine Both.bind (Both.refl _) fun _ b _ e => ?_
    subst e
    have h0 : Alike v { r with lut := [a], tt := [b] } { r' with i := r.i, lut := [moveBy v a], tt := [b] } :=
      ⟨rfl, rfl, rfl, h.closest, h.le, h.q⟩
    refine Both.bind (R := Alike v) ?_ fun z z' _ hz => ?_
    · simp only [List.foldlM_cons, List.foldlM_nil]
      refine Both.bind (refineInner_moved v p ps _ _ _ _ h0 1) fun r1 r1' _ h1 => ?_
      refine Both.bind (refineInner_moved v p ps _ _ _ _ h1 2) fun r2 r2' _ h2 => ?_
      refine Both.bind (refineInner_moved v p ps _ _ _ _ h2 3) fun r3 r3' _ h3 => ?_
      exact h3
    · refine Both.bind (Both.of_map _ _) fun c c' _ e => ?_
      subst e
      refine Both.bind (Both.refl _) fun _ d _ e => ?_
      subst e
      exact ih _ _ ⟨hz.i, by simp [hz.lut, movedBy], by simp [hz.tt], hz.closest, hz.le, hz.q⟩

/-- The same distance, and the moved point if the distance is below 2^53 - 1. -/
def SameDistance (v : Pt ℝ) (z z' : Pt ℝ × ℝ) : Prop := z'.2 = z.2 ∧ z.2 ≤ maxSafe ∧ (z.2 < maxSafe → z'.1 = moveBy v z.1)

theorem refineBinary_moved (v p : Pt ℝ) (ps : Segment ℝ) (lut : List (Pt ℝ)) (i : Int) :
    Both (SameDistance v) (refineBinary p ps lut i) (refineBinary (moveBy v p) (movedBy v ps) (movedBy v lut) i) := by
  unfold refineBinary
  rw [movedBy_length]
  refine Both.bind (Both.refl _) fun tt _ _ e => ?_
  subst e
  refine Both.bind (refineLoop_moved v p ps 25 _ _ ⟨rfl, rfl, rfl, rfl, le_rfl, fun h => absurd h (lt_irrefl _)⟩) fun r r' _ h => ?_
  exact ⟨h.closest, h.le, h.q⟩

theorem pick_moved (v : Pt ℝ) (bs : List Bezier) (steps i : Int) :
    pick (bs.map (moved v)) steps i = (pick bs steps i).map fun z => (moved v z.1, z.2.1.map (moved v), z.2.2) := by
  unfold pick
  simp only [List.length_map, Flt.pyGet_map]
  split_ifs
  all_goals first
    | rfl
    | (cases pyGet bs 0 <;> [rfl; (cases pyGet bs 1 <;> rfl)])
    | (cases pyGet bs 0 <;> rfl)
    | (cases pyGet bs (Int.fdiv (i - steps) (steps - 1) + 1) <;> cases pyGet bs (Int.fdiv (i - steps) (steps - 1) + 1 + 1) <;> rfl)
    | (cases pyGet bs (Int.fdiv (i - steps) (steps - 1) + 1) <;> rfl)

theorem closestOn_moved (v p : Pt ℝ) (steps : Int) (curve : Bezier) (curve2 : Option Bezier) (i : Int) :
    Both (fun z z' => z'.1 = z.1 ∧ (z.1 < maxSafe → z'.2 = moveBy v z.2)) (closestOn p steps curve curve2 i)
      (closestOn (moveBy v p) steps (moved v curve) (curve2.map (moved v)) i) := by
  simp only [closestOn, show ∀ c, (moved v c).controlPoints = movedBy v c.controlPoints from fun _ => rfl, lutOf_moved]
  refine Both.bind (Both.of_map _ _) fun lut _ _ e => ?_
  subst e
  refine Both.bind (refineBinary_moved v p _ _ _) fun z z' _ h => ?_
  obtain ⟨q, d⟩ := z
  obtain ⟨q', d'⟩ := z'
  obtain ⟨h1, h2, h3⟩ := h
  simp only at h1 h2 h3
  subst h1
  cases curve2 with
  | none => exact ⟨rfl, h3⟩
  | some c2 =>
    simp only [Option.map_some, show ∀ c, (moved v c).controlPoints = movedBy v c.controlPoints from fun _ => rfl, lutOf_moved]
    refine Both.bind (Both.of_map _ _) fun lut2 _ _ e => ?_
    subst e
    refine Both.bind (refineBinary_moved v p _ _ _) fun w w' _ h => ?_
    obtain ⟨q2, d2⟩ := w
    obtain ⟨q2', d2'⟩ := w'
    obtain ⟨k1, k2, k3⟩ := h
    simp only at k1 k2 k3
    subst k1
    simp only
    split_ifs
    · exact ⟨rfl, k3⟩
    · exact ⟨rfl, h3⟩

theorem findClosestPoint_moved (v p : Pt ℝ) (steps : Int) (c : BContour) :
    Both (fun z z' => z'.1 = z.1 ∧ (z.1 < maxSafe → z'.2 = moveBy v z.2)) (findClosestPoint p steps c).1
      (findClosestPoint (moveBy v p) steps (movedContour v c)).1 ∧
    (findClosestPoint (moveBy v p) steps (movedContour v c)).2 = movedContour v (findClosestPoint p steps c).2 := by
  unfold findClosestPoint
  rw [getLUT_moved]
  rcases getLUT steps c with ⟨_ | lut, c'⟩
  · exact ⟨rfl, rfl⟩
  · refine ⟨?_, rfl⟩
    simp only [map_eq_ok, findClosest_moved, show (movedContour v c').beziers = c'.beziers.map (moved v) from rfl, pick_moved]
    refine Both.bind (Both.of_map _ _) fun z _ _ e => ?_
    subst e
    exact closestOn_moved v p steps _ _ _

/-! ### Edits and outlines -/

theorem resetEnds_moved (v : Pt ℝ) (c : BContour) : resetEnds (movedContour v c) = ((resetEnds c).1, movedContour v (resetEnds c).2) := by
  unfold resetEnds
  simp only [show (movedContour v c).beziers = c.beziers.map (moved v) from rfl, Flt.pyGet_map, bezierStart, bezierEnd]
  cases pyGet c.beziers 0 with
  | error e => rfl
  | ok b0 =>
    simp only [map_eq_ok, ok_bind, show ∀ c, (moved v c).controlPoints = movedBy v c.controlPoints from fun _ => rfl, pyGet_moved]
    cases pyGet b0.controlPoints 0 with
    | error e => rfl
    | ok p =>
      simp only [map_eq_ok]
      cases pyGet c.beziers (-1) with
      | error e => rfl
      | ok b1 =>
        simp only [map_eq_ok, ok_bind, show ∀ c, (moved v c).controlPoints = movedBy v c.controlPoints from fun _ => rfl, pyGet_moved]
        cases pyGet b1.controlPoints (-1) with
        | error e => rfl
        | ok q => rfl

theorem setitem_moved (v : Pt ℝ) (i : Int) (s : Segment ℝ) (c : BContour) :
    setitem i (movedBy v s) (movedContour v c) = ((setitem i s c).1, movedContour v (setitem i s c).2) := by
  unfold setitem
  simp only [new_moved, show (movedContour v c).beziers = c.beziers.map (moved v) from rfl, List.length_map]
  cases Bezier.new s with
  | error e => rfl
  | ok b =>
    cases pyIndex c.beziers.length i with
    | error e => rfl
    | ok j =>
      simp only [map_eq_ok, ok_bind, pure_eq_ok]
      rw [← resetEnds_moved]
      simp only [movedContour, List.map_set]

theorem delitem_moved (v : Pt ℝ) (i : Int) (c : BContour) :
    delitem i (movedContour v c) = ((delitem i c).1, movedContour v (delitem i c).2) := by
  unfold delitem
  simp only [show (movedContour v c).beziers = c.beziers.map (moved v) from rfl, List.length_map]
  cases pyIndex c.beziers.length i with
  | error e => rfl
  | ok j =>
    simp only
    rw [← resetEnds_moved]
    simp only [movedContour, List.eraseIdx_map]

private theorem new_proper (c : Contour ℝ) (bc : BContour) (h : BContour.new c = .ok bc) : BoundsRectangle.Proper bc.bounds := by
  obtain ⟨hc, h2⟩ := (C52_new c).mp ⟨bc, h⟩
  obtain ⟨bc', e, _, _, hp, _⟩ := contour_new_spec c hc h2
  rw [h] at e
  cases e
  exact hp

private theorem outlineStep_moved (v : Pt ℝ) (cs : List (Contour ℝ)) (hc : ∀ c ∈ cs, ∀ s ∈ c, DesignBoth v s) : ∀ (bs : List BContour) (R : BoundsRectangle ℝ),
    BoundsRectangle.Proper R → BoundsRectangle.Proper (movedRect v R) →
    (cs.map (List.map (movedBy v))).foldlM (fun (acc : List BContour × BoundsRectangle ℝ) contour => (do
      let bc ← BContour.new contour
      return (acc.1 ++ [bc], acc.2.union bc.bounds) : Py _)) (bs.map (movedContour v), movedRect v R) =
    (cs.foldlM (fun (acc : List BContour × BoundsRectangle ℝ) contour => (do
      let bc ← BContour.new contour
      return (acc.1 ++ [bc], acc.2.union bc.bounds) : Py _)) (bs, R)).map fun z => (z.1.map (movedContour v), movedRect v z.2) := by
  induction cs with
  | nil => intro bs R _ _; rfl
  | cons c cs ih =>
    intro bs R hR hR'
    rw [List.map_cons, List.foldlM_cons, List.foldlM_cons, contour_moved v c (hc c (by simp))]
    cases hn : BContour.new c with
    | error e => rfl
    | ok bc =>
      simp only [map_eq_ok, ok_bind, pure_eq_ok]
      rw [show (movedContour v bc).bounds = movedRect v bc.bounds from rfl, union_moved v R bc.bounds hR hR',
        show bs.map (movedContour v) ++ [movedContour v bc] = (bs ++ [bc]).map (movedContour v) by simp]
      refine ih (fun c h => hc c (by simp [h])) _ _ (BoundsRectangle.proper_new (by simp)) ?_
      rw [← union_moved v R bc.bounds hR hR']
      exact BoundsRectangle.proper_new (by simp)

theorem outline_moved (v : Pt ℝ) (cs : List (Contour ℝ)) (hne : cs ≠ []) (hc : ∀ c ∈ cs, ∀ s ∈ c, DesignBoth v s) :
    BOutline.new (cs.map (List.map (movedBy v))) = (BOutline.new cs).map (movedOutline v) := by
  obtain ⟨c, cs, rfl⟩ := List.exists_cons_of_ne_nil hne
  unfold BOutline.new
  have hm := contour_moved v c (hc c (by simp))
  rw [List.map_cons, List.foldlM_cons, List.foldlM_cons, hm]
  cases hn : BContour.new c with
  | error e => rfl
  | ok bc =>
    rw [hn] at hm
    have hp := new_proper c bc hn
    have hp' := new_proper _ _ hm
    simp only [map_eq_ok, ok_bind, pure_eq_ok]
    rw [(C10_union_empty bc.bounds hp).2, (C10_union_empty (movedContour v bc).bounds hp').2]
    have := outlineStep_moved v cs (fun c h => hc c (by simp [h])) [bc] bc.bounds hp hp'
    simp only [List.map_cons, List.map_nil, pure_eq_ok] at this
    simp only [List.nil_append]
    rw [show (movedContour v bc).bounds = movedRect v bc.bounds from rfl, this]
    cases cs.foldlM (fun (acc : List BContour × BoundsRectangle ℝ) contour => (do
      let bc ← BContour.new contour
      .ok (acc.1 ++ [bc], acc.2.union bc.bounds) : Py _)) ([bc], bc.bounds) with
    | error e => rfl
    | ok z => rfl

end PathLib.Moved
