import Verif.Lemmas.Mirrored
import Verif.Lemmas.MovedContour

/-!
# Lemmas about mirrored contours
-/

set_option linter.unusedSectionVars false
set_option linter.unusedSimpArgs false

namespace PathLib
namespace Mirrored
open Spec Bezier BContour
open Moved (map_eq_ok map_eq_error map_do map_map map_mapM)

variable {a b : ℝ}

theorem lutLoop_mirrored (a b : ℝ) (steps : Int) (bs : List Bezier) : ∀ (n : Nat) (lut : List (Pt ℝ)),
    lutLoop steps (bs.map (mirrored a b)) n (mirroredBy a b lut) = ((lutLoop steps bs n lut).1, mirroredBy a b (lutLoop steps bs n lut).2) := by
  induction bs with
  | nil => intro n lut; rfl
  | cons c bs ih =>
    intro n lut
    rw [List.map_cons, lutLoop, lutLoop.eq_def steps (c :: bs)]
    simp only [show (mirrored a b c).controlPoints = mirroredBy a b c.controlPoints from rfl, lutOf_mirrored]
    cases lutOf c.controlPoints steps with
    | error e => rfl
    | ok l =>
      simp only [map_eq_ok]
      rw [← ih]
      simp only [mirroredBy, List.map_append, List.map_drop]

theorem getLUT_mirrored (a b : ℝ) (r : BoundsRectangle ℝ) (steps : Int) (c : BContour) :
    getLUT steps (mirroredContour a b r c) = ((getLUT steps c).1.map (mirroredBy a b), mirroredContour a b r (getLUT steps c).2) := by
  unfold getLUT
  rw [show (mirroredContour a b r c).lut.length = c.lut.length by simp [mirroredContour, mirroredBy]]
  split_ifs
  · rfl
  · have := lutLoop_mirrored a b steps c.beziers 0 []
    rw [show mirroredBy a b ([] : List (Pt ℝ)) = [] from rfl] at this
    rw [show (mirroredContour a b r c).beziers = c.beziers.map (mirrored a b) from rfl, this]
    rcases lutLoop steps c.beziers 0 [] with ⟨_ | _, _⟩ <;> rfl

theorem dist_mirrored (h : a * a + b * b = 1) (p q : Pt ℝ) :
    butils.hypot ((mirrorBy a b p).1 - (mirrorBy a b q).1) ((mirrorBy a b p).2 - (mirrorBy a b q).2) = butils.hypot (p.1 - q.1) (p.2 - q.2) := by
  rw [sub_fst, sub_snd, hypot_mirrored h]

theorem findClosest_mirrored (h : a * a + b * b = 1) (p : Pt ℝ) (lut : List (Pt ℝ)) : findClosest (mirrorBy a b p) (mirroredBy a b lut) = findClosest p lut := by
  unfold findClosest
  rw [mirroredBy_length]
  congr 1
  refine List.foldl_ext _ _ _ fun acc i hi => ?_
  have hi' : i < lut.length := List.mem_range.mp hi
  have e : (mirroredBy a b lut).getD i (0, 0) = mirrorBy a b (lut.getD i (0, 0)) := by
    simp [mirroredBy, List.getD_eq_getElem?_getD, hi']
  simp only [e, dist_mirrored h]

/-- The local variables of `_refineBinary` for a mirrored curve. -/
def mirroredRefine (a b : ℝ) (r : Refine) : Refine := { r with lut := mirroredBy a b r.lut, q := mirrorBy a b r.q }

theorem refineInner_mirrored (h : a * a + b * b = 1) (p : Pt ℝ) (ps : Segment ℝ) (t1 step : ℝ) (r : Refine) (j : Nat) :
    refineInner (mirrorBy a b p) (mirroredBy a b ps) t1 step (mirroredRefine a b r) j = (refineInner p ps t1 step r j).map (mirroredRefine a b) := by
  simp only [refineInner, get_mirrored, Flt.map_bind, map_do, dist_mirrored h, pure_eq_ok, map_eq_ok]
  congr 1; funext n
  by_cases hc : butils.hypot (n.1 - p.1) (n.2 - p.2) < r.closest
  · simp [mirroredRefine, hc, mirroredBy]
  · simp [mirroredRefine, hc, mirroredBy]

theorem refineLoop_mirrored (h : a * a + b * b = 1) (p : Pt ℝ) (ps : Segment ℝ) (n : Nat) : ∀ r : Refine,
    refineLoop (mirrorBy a b p) (mirroredBy a b ps) n (mirroredRefine a b r) = (refineLoop p ps n r).map (mirroredRefine a b) := by
  induction n with
  | zero => intro r; rfl
  | succ n ih =>
    intro r
    rw [refineLoop, refineLoop.eq_def p]
    simp only [show (mirroredRefine a b r).i = r.i from rfl, show (mirroredRefine a b r).lut = mirroredBy a b r.lut from rfl,
      show (mirroredRefine a b r).tt = r.tt from rfl, mirroredBy_length, pyGet_mirrored]
    generalize (if r.i = 0 then 0 else r.i - 1) = i1
    generalize (if r.i = (r.lut.length : Int) - 1 then r.i else r.i + 1) = i2
    simp only [map_do]
    congr 1; funext t1; congr 1; funext t2
    split_ifs
    · rfl
    simp only [map_do, Flt.map_bind]
    congr 1; funext u; congr 1; funext w
    have h0 : ({ i := r.i, lut := [mirrorBy a b u], tt := [w], q := (mirroredRefine a b r).q, closest := (mirroredRefine a b r).closest } : Refine) = mirroredRefine a b { r with lut := [u], tt := [w] } := rfl
    simp only [List.foldlM_cons, List.foldlM_nil, bind_assoc, pure_bind]
    rw [h0, refineInner_mirrored h, Flt.map_bind]
    congr 1; funext r1
    rw [refineInner_mirrored h, Flt.map_bind]
    congr 1; funext r2
    rw [refineInner_mirrored h, Flt.map_bind]
    congr 1; funext r3
    congr 1; funext x; congr 1; funext y
    rw [← ih]
    congr 1
    simp [mirroredRefine, mirroredBy]

theorem refineBinary_mirrored (h : a * a + b * b = 1) (p : Pt ℝ) (ps : Segment ℝ) (lut : List (Pt ℝ)) (i : Int) :
    refineBinary (mirrorBy a b p) (mirroredBy a b ps) (mirroredBy a b lut) i = (refineBinary p ps lut i).map fun z => (mirrorBy a b z.1, z.2) := by
  unfold refineBinary
  rw [mirroredBy_length]
  simp only [map_do]
  congr 1; funext tt
  have h0 : ({ i := i, lut := mirroredBy a b lut, tt := tt, q := (0, 0), closest := maxSafe } : Refine) =
      mirroredRefine a b { i := i, lut := lut, tt := tt, q := (0, 0), closest := maxSafe } := by simp [mirroredRefine, mirrorBy]
  rw [h0, refineLoop_mirrored h, Flt.map_bind]
  rfl

theorem pick_mirrored (a b : ℝ) (bs : List Bezier) (steps i : Int) :
    pick (bs.map (mirrored a b)) steps i = (pick bs steps i).map fun z => (mirrored a b z.1, z.2.1.map (mirrored a b), z.2.2) := by
  unfold pick
  simp only [List.length_map, Flt.pyGet_map]
  split_ifs
  all_goals first
    | rfl
    | (cases pyGet bs 0 <;> [rfl; (cases pyGet bs 1 <;> rfl)])
    | (cases pyGet bs 0 <;> rfl)
    | (cases pyGet bs (Int.fdiv (i - steps) (steps - 1) + 1) <;> cases pyGet bs (Int.fdiv (i - steps) (steps - 1) + 1 + 1) <;> rfl)
    | (cases pyGet bs (Int.fdiv (i - steps) (steps - 1) + 1) <;> rfl)

theorem closestOn_mirrored (h : a * a + b * b = 1) (p : Pt ℝ) (steps : Int) (curve : Bezier) (curve2 : Option Bezier) (i : Int) :
    closestOn (mirrorBy a b p) steps (mirrored a b curve) (curve2.map (mirrored a b)) i = (closestOn p steps curve curve2 i).map fun z => (z.1, mirrorBy a b z.2) := by
  simp only [closestOn, show ∀ c, (mirrored a b c).controlPoints = mirroredBy a b c.controlPoints from fun _ => rfl, lutOf_mirrored, Flt.map_bind, map_do,
    refineBinary_mirrored h]
  congr 1; funext lut; congr 1; funext z
  cases curve2 with
  | none => rfl
  | some c2 =>
    simp only [Option.map_some, show ∀ c, (mirrored a b c).controlPoints = mirroredBy a b c.controlPoints from fun _ => rfl, lutOf_mirrored, Flt.map_bind, map_do,
      refineBinary_mirrored h]
    congr 1; funext lut2; congr 1; funext w
    split_ifs <;> rfl

theorem findClosestPoint_mirrored (h : a * a + b * b = 1) (p : Pt ℝ) (r : BoundsRectangle ℝ) (steps : Int) (c : BContour) :
    findClosestPoint (mirrorBy a b p) steps (mirroredContour a b r c) =
      ((findClosestPoint p steps c).1.map (fun z => (z.1, mirrorBy a b z.2)), mirroredContour a b r (findClosestPoint p steps c).2) := by
  unfold findClosestPoint
  rw [getLUT_mirrored]
  rcases getLUT steps c with ⟨_ | lut, c'⟩
  · rfl
  · simp only [map_eq_ok, findClosest_mirrored h, show (mirroredContour a b r c').beziers = c'.beziers.map (mirrored a b) from rfl, pick_mirrored, Flt.map_bind, map_do,
      closestOn_mirrored h]

theorem build_mirrored (h : a * a + b * b = 1) (c : Contour ℝ) : ∀ (bs : List Bezier) (r r' : BoundsRectangle ℝ),
    Moved.Both (fun x y => y.1 = x.1.map (mirrored a b))
      (c.foldlM (fun (acc : List Bezier × BoundsRectangle ℝ) segment => do
        let bezier ← Bezier.new segment
        let r ← boundsRectangle bezier.controlPoints
        return (acc.1 ++ [bezier], acc.2.union r)) (bs, r))
      ((c.map (mirroredBy a b)).foldlM (fun (acc : List Bezier × BoundsRectangle ℝ) segment => do
        let bezier ← Bezier.new segment
        let r ← boundsRectangle bezier.controlPoints
        return (acc.1 ++ [bezier], acc.2.union r)) (bs.map (mirrored a b), r')) := by
  induction c with
  | nil => intro bs r r'; exact rfl
  | cons s c ih =>
    intro bs r r'
    simp only [List.map_cons, List.foldlM_cons, bind_assoc, new_mirrored a b]
    refine Moved.Both.bind (Moved.Both.of_map _ _) fun x _ hx e => ?_
    subst e
    obtain ⟨hp, -⟩ := new_controlPoints hx
    by_cases hl : s.length < 2
    · rw [Turned.new_short s hl] at hx; cases hx
    obtain ⟨q, hq, -⟩ := boundsRectangle_ok x.controlPoints (by rw [hp]; omega)
    obtain ⟨q', hq', -⟩ := boundsRectangle_ok (mirrored a b x).controlPoints (by simp [mirrored, hp]; omega)
    rw [hq, hq']
    simp only [ok_bind, pure_eq_ok]
    have := ih (bs ++ [x]) (r.union q) (r'.union q')
    rwa [List.map_append, List.map_cons, List.map_nil] at this

theorem contour_mirrored (h : a * a + b * b = 1) (c : Contour ℝ) :
    (∀ bc, BContour.new c = .ok bc → ∃ r, BContour.new (c.map (mirroredBy a b)) = .ok (mirroredContour a b r bc)) ∧
    ∀ e, BContour.new c = .error e → BContour.new (c.map (mirroredBy a b)) = .error e := by
  have hb := build_mirrored h c [] (BoundsRectangle.new []) (BoundsRectangle.new [])
  unfold BContour.new build
  simp only [List.map_nil] at hb
  generalize (c.foldlM _ _ : Py (List Bezier × BoundsRectangle ℝ)) = X at hb ⊢
  generalize (List.foldlM _ _ (c.map (mirroredBy a b)) : Py (List Bezier × BoundsRectangle ℝ)) = Y at hb ⊢
  cases X with
  | error e =>
    cases Y with
    | error e' => cases (show e = e' from hb); exact ⟨fun _ h => (by cases h), fun _ h => h⟩
    | ok y => exact hb.elim
  | ok x =>
    cases Y with
    | error e' => exact hb.elim
    | ok y =>
      obtain ⟨bs, r⟩ := x
      obtain ⟨bs', r'⟩ := y
      have e : bs' = bs.map (mirrored a b) := hb
      subst e
      simp only [ok_bind, Flt.pyGet_map, Flt.map_bind, bezierStart, bezierEnd, show ∀ c, (mirrored a b c).controlPoints = mirroredBy a b c.controlPoints from fun _ => rfl,
        pyGet_mirrored, pure_eq_ok, bind_assoc]
      cases pyGet bs 0 with
      | error e => exact ⟨fun _ h => (by cases h), fun _ h => h⟩
      | ok b0 =>
      cases h0 : pyGet b0.controlPoints 0 with
      | error e => simp only [ok_bind, h0]; exact ⟨fun _ h => (by cases h), fun _ h => h⟩
      | ok p0 =>
      cases pyGet bs (-1) with
      | error e => simp only [ok_bind, h0]; exact ⟨fun _ h => (by cases h), fun _ h => h⟩
      | ok b1 =>
      cases h1 : pyGet b1.controlPoints (-1) with
      | error e => simp only [ok_bind, h0, h1]; exact ⟨fun _ h => (by cases h), fun _ h => h⟩
      | ok p1 =>
        simp only [ok_bind, h0, h1, Except.ok.injEq]
        refine ⟨fun bc hbc => ⟨r', ?_⟩, fun _ h => (by cases h)⟩
        subst hbc
        rfl

end Mirrored
end PathLib
