import Verif.Lemmas.GrownMeet

set_option linter.unusedSectionVars false
set_option linter.unusedSimpArgs false

/-!
# Scaling contours and outlines
-/

namespace PathLib.Grown
open Spec Bezier BContour
open Moved (map_eq_ok map_eq_error map_do map_map map_mapM)

theorem inside_fits {k : ℝ} {ps : Segment ℝ} (h : DesignScaled k ps) (h2 : 2 ≤ ps.length) : Fits k ps :=
  fits_of_points k ps h2 (fun p hp => (h p hp).1) (fun p hp => (h p hp).2)

theorem union_grown {k : ℝ} (hk : 0 < k) (a b : BoundsRectangle ℝ) (h : BoundsRectangle.Proper a) (h' : BoundsRectangle.Proper (grownRect k a)) :
    (grownRect k a).union (grownRect k b) = grownRect k (a.union b) := by
  rw [BoundsRectangle.union_eq h, BoundsRectangle.union_eq h']
  simp only [grownRect, mul_min_of_nonneg _ _ hk.le, mul_max_of_nonneg _ _ hk.le]

private theorem step_grown {k : ℝ} (hk : 0 < k) (c : Contour ℝ) (hc : ∀ s ∈ c, DesignScaled k s) : ∀ (bs : List Bezier) (R : BoundsRectangle ℝ),
    BoundsRectangle.Proper R → BoundsRectangle.Proper (grownRect k R) →
    (c.map (grownBy k)).foldlM (fun (acc : List Bezier × BoundsRectangle ℝ) segment => (do
      let bezier ← Bezier.new segment
      let r ← boundsRectangle bezier.controlPoints
      return (acc.1 ++ [bezier], acc.2.union r) : Py _)) (bs.map (grown k), grownRect k R) =
    (c.foldlM (fun (acc : List Bezier × BoundsRectangle ℝ) segment => (do
      let bezier ← Bezier.new segment
      let r ← boundsRectangle bezier.controlPoints
      return (acc.1 ++ [bezier], acc.2.union r) : Py _)) (bs, R)).map fun z => (z.1.map (grown k), grownRect k z.2) := by
  induction c with
  | nil => intro bs R _ _; rfl
  | cons s c ih =>
    intro bs R hR hR'
    rw [List.map_cons, List.foldlM_cons, List.foldlM_cons, new_grown hk]
    cases hn : Bezier.new s with
    | error e => rfl
    | ok b =>
      simp only [map_eq_ok, ok_bind]
      have hs : 2 ≤ s.length := by
        by_contra hl
        match s, hl with
        | [], _ => cases hn
        | [a], _ => cases hn
        | a :: b :: l, hl => simp at hl
      have hf := inside_fits (hc s (by simp)) hs
      rw [show (grown k b).controlPoints = grownBy k b.controlPoints from rfl, (new_controlPoints hn).1, boundsRectangle_grown hk s hf]
      obtain ⟨r, hr, hp, _⟩ := boundsRectangle_ok s hs
      obtain ⟨r', hr', hp', _⟩ := boundsRectangle_ok (grownBy k s) (by simpa [grownBy] using hs)
      rw [boundsRectangle_grown hk s hf, hr] at hr'
      cases hr'
      simp only [hr, map_eq_ok, ok_bind, pure_eq_ok]
      rw [union_grown hk R r hR hR', show bs.map (grown k) ++ [grown k b] = (bs ++ [b]).map (grown k) by simp]
      refine ih (fun s hs => hc s (by simp [hs])) _ _ (BoundsRectangle.proper_new (by simp)) ?_
      rw [← union_grown hk R r hR hR']
      exact BoundsRectangle.proper_new (by simp)

theorem build_grown {k : ℝ} (hk : 0 < k) (s : Segment ℝ) (c : Contour ℝ) (hc : ∀ s' ∈ s :: c, DesignScaled k s') :
    build ((s :: c).map (grownBy k)) = (build (s :: c)).map fun z => (z.1.map (grown k), grownRect k z.2) := by
  unfold build
  rw [List.map_cons, List.foldlM_cons, List.foldlM_cons, new_grown hk]
  cases hn : Bezier.new s with
  | error e => rfl
  | ok b =>
    simp only [map_eq_ok, ok_bind]
    have hs : 2 ≤ s.length := by
      by_contra hl
      match s, hl with
      | [], _ => cases hn
      | [a], _ => cases hn
      | a :: b :: l, hl => simp at hl
    have hf := inside_fits (hc s (by simp)) hs
    rw [show (grown k b).controlPoints = grownBy k b.controlPoints from rfl, (new_controlPoints hn).1, boundsRectangle_grown hk s hf]
    obtain ⟨r, hr, hp, _⟩ := boundsRectangle_ok s hs
    obtain ⟨r', hr', hp', _⟩ := boundsRectangle_ok (grownBy k s) (by simpa [grownBy] using hs)
    rw [boundsRectangle_grown hk s hf, hr] at hr'
    cases hr'
    simp only [hr, map_eq_ok, ok_bind, pure_eq_ok]
    rw [BoundsRectangle.union_comm _ r, (C10_union_empty r hp).1, BoundsRectangle.union_comm _ (grownRect k r), (C10_union_empty _ hp').1]
    exact step_grown hk c (fun s hs => hc s (by simp [hs])) [b] r hp hp'

theorem contour_grown {k : ℝ} (hk : 0 < k) (c : Contour ℝ) (hc : ∀ s ∈ c, DesignScaled k s) : BContour.new (c.map (grownBy k)) = (BContour.new c).map (grownContour k) := by
  cases c with
  | nil => rfl
  | cons s c =>
    unfold BContour.new
    rw [build_grown hk s c hc]
    cases build (s :: c) with
    | error e => rfl
    | ok z =>
      obtain ⟨bs, R⟩ := z
      simp only [map_eq_ok, ok_bind, bezierStart, bezierEnd]
      rw [Flt.pyGet_map, Flt.pyGet_map]
      cases pyGet bs 0 with
      | error e => rfl
      | ok b0 =>
        simp only [map_eq_ok, ok_bind]
        rw [show (grown k b0).controlPoints = grownBy k b0.controlPoints from rfl, pyGet_grown]
        cases pyGet b0.controlPoints 0 with
        | error e => rfl
        | ok p0 =>
          simp only [map_eq_ok, ok_bind]
          cases pyGet bs (-1) with
          | error e => rfl
          | ok b1 =>
            simp only [map_eq_ok, ok_bind]
            rw [show (grown k b1).controlPoints = grownBy k b1.controlPoints from rfl, pyGet_grown]
            cases pyGet b1.controlPoints (-1) with
            | error e => rfl
            | ok p1 => rfl

theorem lutLoop_grown (k : ℝ) (steps : Int) (bs : List Bezier) : ∀ (n : Nat) (lut : List (Pt ℝ)),
    lutLoop steps (bs.map (grown k)) n (grownBy k lut) = ((lutLoop steps bs n lut).1, grownBy k (lutLoop steps bs n lut).2) := by
  induction bs with
  | nil => intro n lut; rfl
  | cons b bs ih =>
    intro n lut
    rw [List.map_cons, lutLoop, lutLoop.eq_def steps (b :: bs)]
    simp only [show (grown k b).controlPoints = grownBy k b.controlPoints from rfl, lutOf_grown]
    cases lutOf b.controlPoints steps with
    | error e => rfl
    | ok l =>
      simp only [map_eq_ok]
      rw [← ih]
      simp only [grownBy, List.map_append, List.map_drop]

theorem getLUT_grown (k : ℝ) (steps : Int) (c : BContour) :
    getLUT steps (grownContour k c) = ((getLUT steps c).1.map (grownBy k), grownContour k (getLUT steps c).2) := by
  unfold getLUT
  rw [show (grownContour k c).lut.length = c.lut.length by simp [grownContour, grownBy]]
  split_ifs
  · rfl
  · have := lutLoop_grown k steps c.beziers 0 []
    rw [show grownBy k ([] : List (Pt ℝ)) = [] from rfl] at this
    rw [show (grownContour k c).beziers = c.beziers.map (grown k) from rfl, this]
    rcases lutLoop steps c.beziers 0 [] with ⟨_ | _, _⟩ <;> rfl

/-! ### Edits and outlines -/

theorem resetEnds_grown (k : ℝ) (c : BContour) : resetEnds (grownContour k c) = ((resetEnds c).1, grownContour k (resetEnds c).2) := by
  unfold resetEnds
  simp only [show (grownContour k c).beziers = c.beziers.map (grown k) from rfl, Flt.pyGet_map, bezierStart, bezierEnd]
  cases pyGet c.beziers 0 with
  | error e => rfl
  | ok b0 =>
    simp only [map_eq_ok, ok_bind, show ∀ c, (grown k c).controlPoints = grownBy k c.controlPoints from fun _ => rfl, pyGet_grown]
    cases pyGet b0.controlPoints 0 with
    | error e => rfl
    | ok p =>
      simp only [map_eq_ok]
      cases pyGet c.beziers (-1) with
      | error e => rfl
      | ok b1 =>
        simp only [map_eq_ok, ok_bind, show ∀ c, (grown k c).controlPoints = grownBy k c.controlPoints from fun _ => rfl, pyGet_grown]
        cases pyGet b1.controlPoints (-1) with
        | error e => rfl
        | ok q => rfl

theorem setitem_grown {k : ℝ} (hk : 0 < k) (i : Int) (s : Segment ℝ) (c : BContour) :
    setitem i (grownBy k s) (grownContour k c) = ((setitem i s c).1, grownContour k (setitem i s c).2) := by
  unfold setitem
  simp only [new_grown hk, show (grownContour k c).beziers = c.beziers.map (grown k) from rfl, List.length_map]
  cases Bezier.new s with
  | error e => rfl
  | ok b =>
    cases pyIndex c.beziers.length i with
    | error e => rfl
    | ok j =>
      simp only [map_eq_ok, ok_bind, pure_eq_ok]
      rw [← resetEnds_grown]
      simp only [grownContour, List.map_set]

theorem delitem_grown (k : ℝ) (i : Int) (c : BContour) :
    delitem i (grownContour k c) = ((delitem i c).1, grownContour k (delitem i c).2) := by
  unfold delitem
  simp only [show (grownContour k c).beziers = c.beziers.map (grown k) from rfl, List.length_map]
  cases pyIndex c.beziers.length i with
  | error e => rfl
  | ok j =>
    simp only
    rw [← resetEnds_grown]
    simp only [grownContour, List.eraseIdx_map]

private theorem new_proper (c : Contour ℝ) (bc : BContour) (h : BContour.new c = .ok bc) : BoundsRectangle.Proper bc.bounds := by
  obtain ⟨hc, h2⟩ := (C52_new c).mp ⟨bc, h⟩
  obtain ⟨bc', e, _, _, hp, _⟩ := contour_new_spec c hc h2
  rw [h] at e
  cases e
  exact hp

private theorem outlineStep_grown {k : ℝ} (hk : 0 < k) (cs : List (Contour ℝ)) (hc : ∀ c ∈ cs, ∀ s ∈ c, DesignScaled k s) : ∀ (bs : List BContour) (R : BoundsRectangle ℝ),
    BoundsRectangle.Proper R → BoundsRectangle.Proper (grownRect k R) →
    (cs.map (List.map (grownBy k))).foldlM (fun (acc : List BContour × BoundsRectangle ℝ) contour => (do
      let bc ← BContour.new contour
      return (acc.1 ++ [bc], acc.2.union bc.bounds) : Py _)) (bs.map (grownContour k), grownRect k R) =
    (cs.foldlM (fun (acc : List BContour × BoundsRectangle ℝ) contour => (do
      let bc ← BContour.new contour
      return (acc.1 ++ [bc], acc.2.union bc.bounds) : Py _)) (bs, R)).map fun z => (z.1.map (grownContour k), grownRect k z.2) := by
  induction cs with
  | nil => intro bs R _ _; rfl
  | cons c cs ih =>
    intro bs R hR hR'
    rw [List.map_cons, List.foldlM_cons, List.foldlM_cons, contour_grown hk c (hc c (by simp))]
    cases hn : BContour.new c with
    | error e => rfl
    | ok bc =>
      simp only [map_eq_ok, ok_bind, pure_eq_ok]
      rw [show (grownContour k bc).bounds = grownRect k bc.bounds from rfl, union_grown hk R bc.bounds hR hR',
        show bs.map (grownContour k) ++ [grownContour k bc] = (bs ++ [bc]).map (grownContour k) by simp]
      refine ih (fun c h => hc c (by simp [h])) _ _ (BoundsRectangle.proper_new (by simp)) ?_
      rw [← union_grown hk R bc.bounds hR hR']
      exact BoundsRectangle.proper_new (by simp)

theorem outline_grown {k : ℝ} (hk : 0 < k) (cs : List (Contour ℝ)) (hne : cs ≠ []) (hc : ∀ c ∈ cs, ∀ s ∈ c, DesignScaled k s) :
    BOutline.new (cs.map (List.map (grownBy k))) = (BOutline.new cs).map (grownOutline k) := by
  obtain ⟨c, cs, rfl⟩ := List.exists_cons_of_ne_nil hne
  unfold BOutline.new
  have hm := contour_grown hk c (hc c (by simp))
  rw [List.map_cons, List.foldlM_cons, List.foldlM_cons, hm]
  cases hn : BContour.new c with
  | error e => rfl
  | ok bc =>
    rw [hn] at hm
    have hp := new_proper c bc hn
    have hp' := new_proper _ _ hm
    simp only [map_eq_ok, ok_bind, pure_eq_ok]
    rw [(C10_union_empty bc.bounds hp).2, (C10_union_empty (grownContour k bc).bounds hp').2]
    have := outlineStep_grown hk cs (fun c h => hc c (by simp [h])) [bc] bc.bounds hp hp'
    simp only [List.map_cons, List.map_nil, pure_eq_ok] at this
    simp only [List.nil_append]
    rw [show (grownContour k bc).bounds = grownRect k bc.bounds from rfl, this]
    cases cs.foldlM (fun (acc : List BContour × BoundsRectangle ℝ) contour => (do
      let bc ← BContour.new contour
      .ok (acc.1 ++ [bc], acc.2.union bc.bounds) : Py _)) ([bc], bc.bounds) with
    | error e => rfl
    | ok z => rfl

end PathLib.Grown
