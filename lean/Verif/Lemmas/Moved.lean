import Verif.Spec.Moved
import Verif.Lemmas.FloatRun
import Verif.Props.BezierOffset

/-!
# Lemmas about moved curves
-/

set_option linter.unusedSectionVars false
set_option linter.unusedSimpArgs false

namespace PathLib
namespace Moved
open Spec Bezier

variable {K : Type} [Field K] [LinearOrder K] [IsStrictOrderedRing K]

@[simp] theorem movedBy_length {K : Type} [Field K] (v : Pt K) (ps : Segment K) : (movedBy v ps).length = ps.length := by simp [movedBy]

@[simp] theorem movedBy_order {K : Type} [Field K] (v : Pt K) (ps : Segment K) : order (movedBy v ps) = order ps := by
  simp [order]

theorem pyGet_moved {K : Type} [Field K] (v : Pt K) (ps : Segment K) (i : Int) : pyGet (movedBy v ps) i = (pyGet ps i).map (moveBy v) :=
  Flt.pyGet_map _ _ _

theorem map_eq_ok {α β : Type} (f : α → β) (a : α) : Except.map f (.ok a : Py α) = .ok (f a) := rfl
theorem map_eq_error {α β : Type} (f : α → β) (e : PyErr) : Except.map f (.error e : Py α) = .error e := rfl
theorem map_do {α β γ : Type} (x : Py α) (g : α → Py β) (f : β → γ) : Except.map f (x >>= g) = x >>= fun a => Except.map f (g a) := by
  cases x <;> rfl
theorem map_map {α β γ : Type} (x : Py α) (f : α → β) (g : β → γ) : Except.map g (Except.map f x) = Except.map (g ∘ f) x := by
  cases x <;> rfl

theorem moveBy_eq_affine (v : Pt K) : moveBy v = affineMap 1 0 0 1 v.1 v.2 := by
  funext p; simp [moveBy, affineMap]

theorem pyGet_nil {α : Type} (i : Int) : pyGet ([] : List α) i = .error .indexError := by
  unfold pyGet; simp

theorem get_nil (t : K) : Bezier.get ([] : Segment K) t = .error .indexError := by
  unfold Bezier.get
  simp only [pyGet_nil, order, List.length_nil]
  split_ifs <;> first | rfl | omega

theorem get_moved (v : Pt K) (ps : Segment K) (t : K) : Bezier.get (movedBy v ps) t = (Bezier.get ps t).map (moveBy v) := by
  by_cases h : ps = []
  · subst h
    simp only [movedBy, List.map_nil]
    rw [get_nil]
    rfl
  · rw [get_ok ps h, get_ok (movedBy v ps) (by simpa [movedBy] using h), moveBy_eq_affine, movedBy, moveBy_eq_affine, curve_affine _ _ _ _ _ _ _ h]
    rfl

theorem lerp_moved (v : Pt K) (r : K) (a b : Pt K) : butils.lerp r (moveBy v a) (moveBy v b) = moveBy v (butils.lerp r a b) := by
  simp only [butils.lerp, moveBy, Prod.mk.injEq]
  constructor <;> ring

theorem hullStep_moved (v : Pt K) (t : K) (ps : Segment K) : hullStep t (movedBy v ps) = movedBy v (hullStep t ps) := by
  unfold hullStep movedBy
  rw [← List.map_tail, List.zipWith_map, List.map_zipWith]
  simp only [lerp_moved]

theorem hullLoop_moved (v : Pt K) (t : K) (n : ℕ) : ∀ ps : Segment K, ps.length = n → hullLoop t (movedBy v ps) = movedBy v (hullLoop t ps) := by
  induction n with
  | zero =>
    intro ps h
    have : ps = [] := List.length_eq_zero_iff.mp h
    subst this
    rw [show movedBy v ([] : Segment K) = [] from rfl, hullLoop]
    rfl
  | succ n ih =>
    intro ps h
    rw [hullLoop, hullLoop.eq_def t ps, movedBy_length]
    split_ifs
    · rw [hullStep_moved, ih _ (by rw [hullStep_length, h]; rfl)]
      simp [movedBy]
    · rfl

theorem hull_moved (v : Pt K) (ps : Segment K) (t : K) : hull (movedBy v ps) t = movedBy v (hull ps t) := by
  unfold hull
  rw [hullLoop_moved v t _ ps rfl]
  simp [movedBy]

theorem dcStep_moved (v : Pt K) (ps : Segment K) : dcStep (movedBy v ps) = dcStep ps := by
  unfold dcStep
  simp only [movedBy_length]
  unfold movedBy
  rw [← List.map_tail, List.zipWith_map]
  simp only [moveBy, add_sub_add_right_eq_sub]

theorem dcPoints_moved (v : Pt K) (ps : Segment K) : dcPoints (movedBy v ps) = dcPoints ps := by
  rw [dcPoints, dcPoints.eq_def ps, movedBy_length, dcStep_moved]

theorem derivative_moved (v : Pt K) (ps : Segment K) (t : K) : derivative (movedBy v ps) t = derivative ps t := by
  unfold derivative
  rw [dcPoints_moved, movedBy_order]

theorem lutOf_moved (v : Pt K) (ps : Segment K) (n : Int) : lutOf (movedBy v ps) n = (lutOf ps n).map (movedBy v) := by
  simp only [lutOf]
  generalize List.range (n - 1 + 1).toNat = is
  induction is with
  | nil => rfl
  | cons i is ih =>
    simp only [List.mapM_cons, get_moved] at ih ⊢
    rw [ih]
    simp only [map_do, bind_assoc]
    cases pdiv (i : K) ((n - 1 : Int) : K) with
    | error e => rfl
    | ok q =>
      simp only [ok_bind, Flt.map_bind, map_do]
      rfl

theorem computeDirection_moved (v : Pt K) (ps : Segment K) : computeDirection (movedBy v ps) = computeDirection ps := by
  unfold computeDirection
  simp only [pyGet_moved, Flt.map_bind, movedBy_order, moveBy, add_le_add_iff_right, add_left_inj, add_lt_add_iff_right, ge_iff_le]

theorem map_mapM {α β : Type} (f g : α → Py β) (m : β → β) (l : List α) (h : ∀ a ∈ l, f a = (g a).map m) : l.mapM f = (l.mapM g).map (List.map m) := by
  induction l with
  | nil => rfl
  | cons a l ih =>
    rw [List.mapM_cons, List.mapM_cons, h a (by simp), ih fun b hb => h b (by simp [hb])]
    cases g a with
    | error e => rfl
    | ok x => cases l.mapM g <;> rfl

theorem raiseOrderPoints_moved (v : Pt K) (ps : Segment K) : raiseOrderPoints (movedBy v ps) = (raiseOrderPoints ps).map (movedBy v) := by
  unfold raiseOrderPoints
  simp only [pyGet_moved, Flt.map_bind, movedBy_length]
  rw [map_mapM _ (fun (i : Nat) => do
    let pi ← pyGet ps (i : Int)
    let pim ← pyGet ps ((i : Int) - 1)
    let w1 ← pdiv ((ps.length : K) - (i : K)) (ps.length : K)
    let w2 ← pdiv (i : K) (ps.length : K)
    return (w1 * pi.1 + w2 * pim.1, w1 * pi.2 + w2 * pim.2)) (moveBy v)]
  · simp only [map_do, Flt.map_bind, pure_eq_ok, map_eq_ok, movedBy, List.map_append, List.map_cons, List.map_nil]
  · intro i _
    by_cases h0 : (ps.length : K) = 0
    · have : ps = [] := by simpa using h0
      subst this
      simp [pyGet_nil, map_eq_error]
    · simp only [pdiv_of_ne _ h0, map_do, Flt.map_bind, pure_eq_ok, ok_bind, map_eq_ok, moveBy]
      congr 1; funext a; congr 1; funext b
      congr 1
      ext <;> field_simp <;> ring

theorem lli8_moved (x y x1 y1 x2 y2 x3 y3 x4 y4 : K) : butils.lli8 (x1 + x) (y1 + y) (x2 + x) (y2 + y) (x3 + x) (y3 + y) (x4 + x) (y4 + y) =
    (butils.lli8 x1 y1 x2 y2 x3 y3 x4 y4).map (moveBy (x, y)) := by
  simp only [butils.lli8]
  have hd : (x1 + x - (x2 + x)) * (y3 + y - (y4 + y)) - (y1 + y - (y2 + y)) * (x3 + x - (x4 + x)) =
      (x1 - x2) * (y3 - y4) - (y1 - y2) * (x3 - x4) := by ring
  rw [hd]
  split_ifs with h
  · rfl
  · simp only [Option.map_some, moveBy, Option.some.injEq, Prod.mk.injEq]
    constructor <;> rw [div_add' _ _ _ h] <;> congr 1 <;> ring

theorem lli4_moved (v a b c d : Pt K) : butils.lli4 (moveBy v a) (moveBy v b) (moveBy v c) (moveBy v d) = (butils.lli4 a b c d).map (moveBy v) :=
  lli8_moved _ _ _ _ _ _ _ _ _ _

theorem getABC_moved (v : Pt K) (ps : Segment K) (t : K) : getABC (movedBy v ps) t =
    (getABC ps t).map fun (a, b, c, r, h) => (moveBy v a, moveBy v b, c.map (moveBy v), r, movedBy v h) := by
  unfold getABC
  simp only [hull_moved, pyGet_moved, Flt.map_bind, movedBy_order]
  split_ifs <;> simp only [map_do, bind_assoc, pure_bind, Flt.map_bind, lli4_moved, pure_eq_ok, ok_bind, map_eq_ok]

/-! ### Curves over the real numbers -/

theorem getDeltas_moved (v : Pt K) (s : Segment K) : PathUtilities.getDeltas (movedBy v s) = PathUtilities.getDeltas s := by
  unfold PathUtilities.getDeltas PathUtilities.endPoints
  simp only [pyGet_moved, Flt.map_bind, bind_assoc, moveBy, pure_eq_ok, ok_bind, add_sub_add_right_eq_sub]

theorem rawSlopeAngle_moved (v : Pt ℝ) (s : Segment ℝ) : PathUtilities.rawSlopeAngle (movedBy v s) = PathUtilities.rawSlopeAngle s := by
  unfold PathUtilities.rawSlopeAngle
  rw [getDeltas_moved]

theorem alignPoints_moved (v : Pt ℝ) (ps s : Segment ℝ) : alignPoints (movedBy v ps) (movedBy v s) = alignPoints ps s := by
  cases h1 : PathUtilities.rawSlopeAngle s with
  | error e => unfold alignPoints; rw [rawSlopeAngle_moved, h1]; rfl
  | ok angle =>
    cases h2 : pyGet s 0 with
    | error e => unfold alignPoints; rw [rawSlopeAngle_moved, h1, pyGet_moved, h2]; rfl
    | ok first =>
      rw [alignPoints_ok ps s first angle h2 h1, alignPoints_ok (movedBy v ps) (movedBy v s) (moveBy v first) angle
        (by rw [pyGet_moved, h2]; rfl) (by rw [rawSlopeAngle_moved, h1])]
      simp [movedBy, alignMap, moveBy, Function.comp_def]

theorem angle_moved (v a b c : Pt ℝ) : butils.angle (moveBy v a) (moveBy v b) (moveBy v c) = butils.angle a b c := by
  simp only [butils.angle, moveBy, add_sub_add_right_eq_sub]

theorem new_moved (v : Pt ℝ) (ps : Segment ℝ) : Bezier.new (movedBy v ps) = (Bezier.new ps).map (moved v) := by
  unfold Bezier.new
  have e : ∀ a b : Pt ℝ, [moveBy v a, moveBy v b] = movedBy v [a, b] := fun _ _ => rfl
  simp only [computeDirection_moved, pyGet_moved, Flt.map_bind, e, alignPoints_moved, angle_moved, map_do, pure_eq_ok, map_eq_ok]
  rfl

theorem normal_moved (v : Pt ℝ) (ps : Segment ℝ) (t : ℝ) : normal (movedBy v ps) t = normal ps t := by
  unfold normal; rw [derivative_moved]

theorem tangent_moved (v : Pt ℝ) (ps : Segment ℝ) (t : ℝ) : tangent (movedBy v ps) t = tangent ps t := by
  unfold tangent; rw [derivative_moved]

theorem extrema_moved (v : Pt ℝ) (ps : Segment ℝ) : extrema (movedBy v ps) = extrema ps := by
  unfold extrema; rw [dcPoints_moved, movedBy_order]

theorem lengthOf_moved (v : Pt ℝ) (ps : Segment ℝ) : lengthOf (movedBy v ps) = lengthOf ps := by
  unfold lengthOf arcfun
  simp only [derivative_moved]

theorem simple_moved (v : Pt ℝ) (ps : Segment ℝ) : simple (movedBy v ps) = simple ps := by
  unfold simple
  simp only [pyGet_moved, Flt.map_bind, angle_moved, normal_moved, movedBy_order]

theorem roots_moved (v : Pt ℝ) (ps : Segment ℝ) (s : Pt ℝ) (rest : Segment ℝ) :
    roots (movedBy v ps) (some (movedBy v (s :: rest))) = roots ps (some (s :: rest)) := by
  have h := alignPoints_moved v ps (s :: rest)
  unfold roots
  simp only [movedBy, List.map_cons] at h ⊢
  rw [h]

theorem split1_moved (v : Pt ℝ) (b : Bezier) (t : ℝ) :
    split1 (moved v b) t = (split1 b t).map fun (l, r, q) => (moved v l, moved v r, movedBy v q) := by
  unfold split1
  have e3 : ∀ a b c : Pt ℝ, Bezier.new [moveBy v a, moveBy v b, moveBy v c] = (Bezier.new [a, b, c]).map (moved v) := fun _ _ _ => new_moved v [_, _, _]
  have e4 : ∀ a b c d : Pt ℝ, Bezier.new [moveBy v a, moveBy v b, moveBy v c, moveBy v d] = (Bezier.new [a, b, c, d]).map (moved v) :=
    fun _ _ _ _ => new_moved v [_, _, _, _]
  simp only [moved, hull_moved, pyGet_moved, Flt.map_bind, movedBy_order, e3, e4]
  split_ifs <;> simp only [map_do, bind_assoc, Flt.map_bind, pure_eq_ok, ok_bind, map_eq_ok, moved]

theorem split_moved (v : Pt ℝ) (b : Bezier) (t1 : ℝ) (t2 : Option ℝ) : split (moved v b) t1 t2 = (split b t1 t2).map (movedSplit v) := by
  unfold split
  cases t2 with
  | none => simp only [split1_moved, Flt.map_bind, map_do, pure_eq_ok, map_eq_ok, movedSplit]
  | some t2 =>
    simp only [split1_moved, Flt.map_bind, pure_eq_ok]
    split_ifs <;> simp only [map_do, Flt.map_bind, split1_moved, map_eq_ok, movedSplit]

theorem splitPiece_moved (v : Pt ℝ) (b : Bezier) (t1 t2 : ℝ) : splitPiece (moved v b) t1 t2 = (splitPiece b t1 t2).map (moved v) := by
  unfold splitPiece
  rw [split_moved, Flt.map_bind, map_do]
  congr 1
  funext x
  cases x <;> rfl

/-! ### Reduction -/

theorem reducePass1_moved (v : Pt ℝ) (b : Bezier) (ts : List ℝ) : ∀ t1, reducePass1 (moved v b) t1 ts = (reducePass1 b t1 ts).map (List.map (moved v)) := by
  induction ts with
  | nil => intro t1; rfl
  | cons t2 ts ih =>
    intro t1
    simp only [reducePass1, splitPiece_moved, Flt.map_bind, ih, map_do, pure_eq_ok, map_eq_ok, List.map_cons]
    rfl

theorem reduceLoop_moved (v : Pt ℝ) (p1 : Bezier) (t1 t2 : ℝ) (h : t1 < t2) :
    reduceLoop (moved v p1) t1 t2 h = (reduceLoop p1 t1 t2 h).map (Option.map fun r => (r.1.map (moved v), r.2)) := by
  induction t1, t2, h using reduceLoop.induct with
  | case1 t1 t2 h h2 ih1 ih2 =>
    rw [reduceLoop, reduceLoop.eq_def p1 t1 t2 h, dif_pos h2, dif_pos h2]
    simp only [splitPiece_moved, Flt.map_bind, map_do]
    congr 1
    funext segment
    simp only [show (moved v segment).controlPoints = movedBy v segment.controlPoints from rfl, simple_moved]
    congr 1
    funext sb
    cases sb with
    | true =>
      simp only [Bool.not_true, Bool.false_eq_true, if_false]
      exact ih2
    | false =>
      simp only [Bool.not_false, if_true]
      split_ifs with hs
      · rfl
      · simp only [map_do]
        rw [ih1 hs]
        simp only [Flt.map_bind]
        congr 1; funext x; congr 1; funext y; congr 1; funext z; congr 1; funext w
        cases w <;> rfl
  | case2 t1 t2 h h2 =>
    rw [reduceLoop, reduceLoop.eq_def p1 t1 t2 h, dif_neg h2, dif_neg h2]
    rfl

theorem reducePass2_moved (v : Pt ℝ) (l : List Bezier) : reducePass2 (l.map (moved v)) = (reducePass2 l).map (Option.map (List.map (moved v))) := by
  induction l with
  | nil => rfl
  | cons p1 rest ih =>
    simp only [List.map_cons, reducePass2, reduceLoop_moved, Flt.map_bind, map_do]
    congr 1
    funext x
    cases x with
    | none => rfl
    | some x =>
      obtain ⟨ps, t1⟩ := x
      simp only [Option.map_some, splitPiece_moved, Flt.map_bind, ih]
      split_ifs <;> simp only [map_do, bind_assoc, pure_eq_ok, ok_bind]
      · congr 1; funext x; congr 1; funext y; congr 1; funext z
        cases z <;> simp [map_eq_ok, moved]
      · congr 1; funext z
        cases z <;> simp [map_eq_ok]

theorem reduceWith_moved (v : Pt ℝ) (b : Bezier) (ts : List ℝ) : reduceWith (moved v b) ts = (reduceWith b ts).map (List.map (moved v)) := by
  unfold reduceWith
  cases addEnds ts with
  | nil => rfl
  | cons t1 rest =>
    simp only [reducePass1_moved, Flt.map_bind, reducePass2_moved, map_do]
    congr 1; funext x; congr 1; funext y
    cases y <;> rfl

theorem reduce_moved (v : Pt ℝ) (b : Bezier) : reduce (moved v b) = (reduce b).map (List.map (moved v)) := by
  unfold reduce
  simp only [map_do, ← reduceWith_moved]
  rw [show (moved v b).controlPoints = movedBy v b.controlPoints from rfl, extrema_moved]

/-! ### Lines -/

theorem lineIntersects_moved (v : Pt ℝ) (ps : Segment ℝ) (p1 p2 : Pt ℝ) : lineIntersects (movedBy v ps) (moveBy v p1) (moveBy v p2) = lineIntersects ps p1 p2 := by
  have hmin : ∀ a b c : ℝ, pyMin (a + c) (b + c) = pyMin a b + c := by
    intro a b c; unfold pyMin; simp only [add_lt_add_iff_right]; split_ifs <;> rfl
  have hmax : ∀ a b c : ℝ, pyMax (a + c) (b + c) = pyMax a b + c := by
    intro a b c; unfold pyMax; simp only [add_lt_add_iff_right, gt_iff_lt]; split_ifs <;> rfl
  have hb : ∀ a b c d : ℝ, butils.between (a + d) (b + d) (c + d) = butils.between a b c := by
    intro a b c d
    simp only [butils.between, butils.approximately, add_le_add_iff_right, add_sub_add_right_eq_sub]
  simp only [lineIntersects]
  have hr := roots_moved v ps p1 [p2]
  simp only [movedBy, List.map_cons, List.map_nil] at hr
  rw [show (movedBy v ps) = ps.map (moveBy v) from rfl, hr]
  congr 1
  funext ts
  congr 1
  funext t
  have hg := get_moved v ps t
  rw [show (movedBy v ps) = ps.map (moveBy v) from rfl] at hg
  rw [hg, Flt.map_bind]
  simp only [moveBy, hmin, hmax, hb]

theorem intersectWithLine_moved (v : Pt ℝ) (ps line : Segment ℝ) (hl : line ≠ []) :
    intersectWithLine (movedBy v ps) (movedBy v line) = (intersectWithLine ps line).map (Option.map (moveBy v)) := by
  obtain ⟨s, rest, rfl⟩ := List.exists_cons_of_ne_nil hl
  unfold intersectWithLine
  rw [movedBy_order]
  split_ifs
  · unfold butils.lli
    simp only [pyGet_moved, Flt.map_bind, lli4_moved, map_do, pure_eq_ok, map_eq_ok]
  · rw [roots_moved, map_do]
    congr 1
    funext r
    cases r with
    | nil => rfl
    | cons r _ => simp only [get_moved, Flt.map_bind, map_do, pure_eq_ok, map_eq_ok, Option.map_some]

/-! ### Offsets -/

theorem raiseOrder_moved (v : Pt ℝ) (b : Bezier) : raiseOrder (moved v b) = (raiseOrder b).map (moved v) := by
  unfold raiseOrder
  rw [show (moved v b).controlPoints = movedBy v b.controlPoints from rfl, raiseOrderPoints_moved]
  simp only [Flt.map_bind, map_do, new_moved]

theorem offsetPoint_moved (v : Pt ℝ) (ps : Segment ℝ) (t d : ℝ) :
    offsetPoint (movedBy v ps) t d = (offsetPoint ps t d).map fun (c, n, p) => (moveBy v c, n, moveBy v p) := by
  unfold offsetPoint
  simp only [get_moved, normal_moved, Flt.map_bind, map_do, pure_eq_ok, map_eq_ok, moveBy, add_right_comm]

theorem offsetLinear_moved (v : Pt ℝ) (b : Bezier) (t : ℝ) : offsetLinear (moved v b) t = (offsetLinear b t).map (moved v) := by
  unfold offsetLinear
  rw [show (moved v b).controlPoints = movedBy v b.controlPoints from rfl]
  simp only [normal_moved, map_do, ← new_moved]
  congr 1
  funext n
  simp only [movedBy, List.map_map, Function.comp_def, moveBy, add_right_comm]

theorem derivative_short (ps : Segment ℝ) (h : ps.length ≤ 2) (t : ℝ) : derivative ps t = .error .indexError := by
  match ps, h with
  | [], _ => unfold derivative; rw [dcPoints]; rfl
  | [a], _ => unfold derivative; rw [dcPoints]; rfl
  | [a, b], _ =>
    unfold derivative
    rw [dcPoints]
    rfl

theorem offsetPoint_short (ps : Segment ℝ) (h : ps.length ≤ 2) (t d : ℝ) : offsetPoint ps t d = .error .indexError := by
  unfold offsetPoint normal
  rw [derivative_short ps h]
  by_cases h0 : ps = []
  · subst h0; rw [get_nil]; rfl
  · rw [get_ok ps h0]; rfl

theorem scaleCore_short (b : Bezier) (h : b.controlPoints.length ≤ 2) (d : Distance) : scaleCore b d = .error .indexError := by
  simp only [scaleCore, offsetPoint_short _ h]
  rfl

theorem scaleCore_moved (v : Pt ℝ) (b : Bezier) (d : Distance) (h : b.controlPoints.length ≤ 4) : scaleCore (moved v b) d = (scaleCore b d).map (moved v) := by
  obtain ⟨ps, bt1, bt2, dir, lin, cw⟩ := b
  simp only at h
  match ps, h with
  | [p0, p1, p2], _ =>
    simp only [scaleCore, moved, offsetPoint_moved, Flt.map_bind, map_do, movedBy_length]
    congr 1; funext v0; congr 1; funext v1
    rw [lli4_moved]
    cases butils.lli4 v0.2.2 v0.1 v1.2.2 v1.1 with
    | none => rfl
    | some o =>
      cases d with
      | const r =>
        simp only [Option.map_some]
        simp [movedBy, pyGet, List.range_succ]
        simp only [moveBy, add_sub_add_right_eq_sub, map_do, ← new_moved]
        congr 1; funext x1; congr 1; funext x1; congr 1
        simp only [movedBy, moveBy, List.map_cons, List.map_nil, add_right_comm]
      | fn f =>
        have hder : ∀ t, derivative [moveBy v p0, moveBy v p1, moveBy v p2] t = derivative [p0, p1, p2] t := fun t => derivative_moved v [p0, p1, p2] t
        have h0 : ∀ (a : Pt ℝ) (x y : ℝ), ((moveBy v a).1 + x, (moveBy v a).2 + y) = moveBy v (a.1 + x, a.2 + y) := by
          intro a x y; simp only [moveBy, add_right_comm]
        simp only [Option.map_some]
        simp [movedBy, pyGet, List.range_succ, hder, h0, add_assoc]
        simp only [map_do, lli4_moved]
        congr 1; funext x
        cases butils.lli4 (p0.1 + f 0 * v0.2.1.1, p0.2 + f 0 * v0.2.1.2) (p0.1 + (f 0 * v0.2.1.1 + x.1), p0.2 + (f 0 * v0.2.1.2 + x.2)) o p1 with
        | none => rfl
        | some y => exact new_moved v [_, _, _]
  | [p0, p1, p2, p3], _ =>
    simp only [scaleCore, moved, offsetPoint_moved, Flt.map_bind, map_do, movedBy_length]
    congr 1; funext v0; congr 1; funext v1
    rw [lli4_moved]
    cases butils.lli4 v0.2.2 v0.1 v1.2.2 v1.1 with
    | none => rfl
    | some o =>
      cases d with
      | const r =>
        simp only [Option.map_some]
        simp [movedBy, pyGet, List.range_succ]
        simp only [moveBy, add_sub_add_right_eq_sub, map_do, ← new_moved]
        congr 1; funext x1; congr 1; funext x1; congr 1; funext x1; congr 1; funext x1; congr 1
        simp only [movedBy, moveBy, List.map_cons, List.map_nil, add_right_comm]
      | fn f =>
        have hder : ∀ t, derivative [moveBy v p0, moveBy v p1, moveBy v p2, moveBy v p3] t = derivative [p0, p1, p2, p3] t := fun t => derivative_moved v [p0, p1, p2, p3] t
        have h0 : ∀ (a : Pt ℝ) (x y : ℝ), ((moveBy v a).1 + x, (moveBy v a).2 + y) = moveBy v (a.1 + x, a.2 + y) := by
          intro a x y; simp only [moveBy, add_right_comm]
        simp only [Option.map_some]
        simp [movedBy, pyGet, List.range_succ, hder, h0, add_assoc]
        simp only [map_do, lli4_moved]
        congr 1; funext x
        cases butils.lli4 (p0.1 + f 0 * v0.2.1.1, p0.2 + f 0 * v0.2.1.2) (p0.1 + (f 0 * v0.2.1.1 + x.1), p0.2 + (f 0 * v0.2.1.2 + x.2)) o p1 with
        | none => rfl
        | some y =>
          simp only [Option.map_some, ok_bind, List.getElem?_cons_succ, List.getElem?_cons_zero]
          congr 1; funext z
          rw [h0, lli4_moved]
          cases butils.lli4 (p3.1 + f 1 * v1.2.1.1, p3.2 + f 1 * v1.2.1.2) (p3.1 + f 1 * v1.2.1.1 + z.1, p3.2 + f 1 * v1.2.1.2 + z.2) o p2 with
          | none => rfl
          | some w => exact new_moved v [_, _, _, _]
  | [p0, p1], _ => rw [scaleCore_short _ (by simp [moved]), scaleCore_short _ (by simp)]; rfl
  | [p0], _ => rw [scaleCore_short _ (by simp [moved]), scaleCore_short _ (by simp)]; rfl
  | [], _ => rw [scaleCore_short _ (by simp [moved]), scaleCore_short _ (by simp)]; rfl

theorem scale_moved (v : Pt ℝ) (b : Bezier) (d : Distance) (h : b.controlPoints.length ≤ 4) : scale (moved v b) d = (scale b d).map (moved v) := by
  cases d with
  | const r => unfold scale; exact scaleCore_moved v b _ h
  | fn f =>
    by_cases h3 : b.controlPoints.length = 3
    · rw [C72_function_quadratic b h3, C72_function_quadratic (moved v b) (by simpa [moved] using h3)]
      rfl
    · unfold scale
      have h2 : ¬ order b.controlPoints = 2 := by unfold order; omega
      simp only [show (moved v b).controlPoints = movedBy v b.controlPoints from rfl, movedBy_order, h2, if_false]
      exact scaleCore_moved v b _ h

/-- The parts of a curve are quadratics and cubics, whatever the order of the curve. -/
theorem split1_short (b : Bezier) (t : ℝ) : ∀ l r q, split1 b t = .ok (l, r, q) → l.controlPoints.length ≤ 4 ∧ r.controlPoints.length ≤ 4 := by
  intro l r q h
  unfold split1 at h
  obtain ⟨⟨l', r'⟩, h1, h⟩ := bind_eq_ok.mp h
  have hlr : l'.controlPoints.length ≤ 4 ∧ r'.controlPoints.length ≤ 4 := by
    split_ifs at h1
    all_goals
      simp only [bind_eq_ok, pure_eq_ok, Except.ok.injEq, Prod.mk.injEq] at h1
    · obtain ⟨_, _, _, _, _, _, _, hl, _, _, _, _, _, _, _, hr, rfl, rfl⟩ := h1
      rw [(new_controlPoints hl).1, (new_controlPoints hr).1]
      simp
    · obtain ⟨_, _, _, _, _, _, _, _, _, hl, _, _, _, _, _, _, _, _, _, hr, rfl, rfl⟩ := h1
      rw [(new_controlPoints hl).1, (new_controlPoints hr).1]
      simp
  simp only [bind_eq_ok, pure_eq_ok, Except.ok.injEq, Prod.mk.injEq] at h
  obtain ⟨_, _, _, _, _, _, _, _, rfl, rfl, _⟩ := h
  exact hlr

theorem splitPiece_short (b : Bezier) (t1 t2 : ℝ) (p : Bezier) (h : splitPiece b t1 t2 = .ok p) : p.controlPoints.length ≤ 4 := by
  unfold splitPiece split at h
  simp only at h
  split_ifs at h
  · simp only [bind_eq_ok, pure_eq_ok, Except.ok.injEq] at h
    obtain ⟨_, ⟨⟨l, r, q⟩, h1, rfl⟩, h⟩ := h
    cases h
    exact (split1_short _ _ _ _ _ h1).1
  · simp only [bind_eq_ok, pure_eq_ok, Except.ok.injEq] at h
    obtain ⟨_, ⟨⟨l, r, q⟩, h1, rfl⟩, h⟩ := h
    cases h
    exact (split1_short _ _ _ _ _ h1).2
  · simp only [bind_eq_ok, pure_eq_ok, Except.ok.injEq] at h
    obtain ⟨_, ⟨⟨l, r, q⟩, h1, rfl⟩, h⟩ := h
    cases h
  · simp only [bind_eq_ok, pure_eq_ok, Except.ok.injEq] at h
    obtain ⟨_, ⟨⟨l, r, q⟩, h1, _, _, ⟨l', r', q'⟩, h2, rfl⟩, h⟩ := h
    cases h
    exact (split1_short _ _ _ _ _ h2).1

theorem reduceLoop_short (p1 : Bezier) (t1 t2 : ℝ) (h : t1 < t2) : ∀ ps tEnd, reduceLoop p1 t1 t2 h = .ok (some (ps, tEnd)) →
    ∀ p ∈ ps, p.controlPoints.length ≤ 4 := by
  induction t1, t2, h using reduceLoop.induct with
  | case1 t1 t2 h h2 ih1 ih2 =>
    intro ps tEnd hr
    rw [reduceLoop, dif_pos h2] at hr
    obtain ⟨segment, hs, hr⟩ := bind_eq_ok.mp hr
    obtain ⟨sb, hsb, hr⟩ := bind_eq_ok.mp hr
    cases sb with
    | true =>
      simp only [Bool.not_true, Bool.false_eq_true, if_false] at hr
      exact ih2 ps tEnd hr
    | false =>
      simp only [Bool.not_false, if_true] at hr
      split_ifs at hr with hst
      · cases hr
      · obtain ⟨seg2, hs2, hr⟩ := bind_eq_ok.mp hr
        obtain ⟨a, _, hr⟩ := bind_eq_ok.mp hr
        obtain ⟨b, _, hr⟩ := bind_eq_ok.mp hr
        obtain ⟨w, hw, hr⟩ := bind_eq_ok.mp hr
        cases w with
        | none => cases hr
        | some w =>
          cases hr
          intro p hp
          rcases List.mem_cons.mp hp with rfl | hp
          · exact splitPiece_short _ _ _ seg2 hs2
          · exact ih1 hst _ _ hw p hp
  | case2 t1 t2 h h2 =>
    intro ps tEnd hr
    rw [reduceLoop, dif_neg h2] at hr
    cases hr
    simp

theorem reducePass2_short (l : List Bezier) : ∀ ps, reducePass2 l = .ok (some ps) → ∀ p ∈ ps, p.controlPoints.length ≤ 4 := by
  induction l with
  | nil => intro ps h; cases h; simp
  | cons p1 rest ih =>
    intro ps h
    rw [reducePass2] at h
    obtain ⟨w, hw, h⟩ := bind_eq_ok.mp h
    cases w with
    | none => cases h
    | some w =>
      obtain ⟨qs, t1⟩ := w
      simp only at h
      obtain ⟨last, hl, h⟩ := bind_eq_ok.mp h
      obtain ⟨more, hm, h⟩ := bind_eq_ok.mp h
      cases more with
      | none => cases h
      | some more =>
        cases h
        intro p hp
        rw [List.mem_append, List.mem_append] at hp
        rcases hp with (hp | hp) | hp
        · exact reduceLoop_short _ _ _ _ _ _ hw p hp
        · split_ifs at hl
          · obtain ⟨sg, hs, hl⟩ := bind_eq_ok.mp hl
            obtain ⟨a, _, hl⟩ := bind_eq_ok.mp hl
            cases hl
            rw [List.mem_singleton.mp hp]
            exact splitPiece_short _ _ _ sg hs
          · cases hl
            simp at hp
        · exact ih _ hm p hp

theorem reduce_short (b : Bezier) (l : List Bezier) (h : reduce b = .ok l) : ∀ p ∈ l, p.controlPoints.length ≤ 4 := by
  unfold reduce reduceWith at h
  obtain ⟨ex, _, h⟩ := bind_eq_ok.mp h
  cases he : addEnds ex.all with
  | nil => rw [he] at h; cases h
  | cons t1 rest =>
    rw [he] at h
    simp only at h
    obtain ⟨pass1, _, h⟩ := bind_eq_ok.mp h
    obtain ⟨w, hw, h⟩ := bind_eq_ok.mp h
    cases w with
    | none => cases h; simp
    | some w => cases h; exact reducePass2_short _ _ hw

theorem offsetCurves_moved (v : Pt ℝ) (b : Bezier) (t : ℝ) : offsetCurves (moved v b) t = (offsetCurves b t).map (List.map (moved v)) := by
  unfold offsetCurves
  simp only [show (moved v b).linear = b.linear from rfl]
  split_ifs
  · simp only [offsetLinear_moved, Flt.map_bind, map_do, pure_eq_ok, map_eq_ok, List.map_cons, List.map_nil]
  · rw [reduce_moved]
    cases hl : reduce b with
    | error e => rfl
    | ok l =>
      simp only [map_eq_ok, ok_bind]
      rw [List.mapM_map]
      refine map_mapM _ _ _ _ fun r hr => ?_
      simp only [Function.comp_apply, show (moved v r).linear = r.linear from rfl]
      split_ifs
      · exact offsetLinear_moved v r t
      · exact scale_moved v r _ (reduce_short b l hl r hr)

theorem offset_moved (v : Pt ℝ) (b : Bezier) (t : ℝ) (d : Option ℝ) : offset (moved v b) t d = (offset b t d).map (movedOffset v) := by
  unfold offset
  cases d with
  | none => simp only [offsetCurves_moved, Flt.map_bind, map_do, pure_eq_ok, map_eq_ok, movedOffset]
  | some d =>
    simp only [show (moved v b).controlPoints = movedBy v b.controlPoints from rfl]
    split_ifs
    · simp only [offsetPoint_moved, Flt.map_bind, map_do, pure_eq_ok, map_eq_ok, movedOffset]
    · simp only [offsetCurves_moved, Flt.map_bind, map_do, pure_eq_ok, map_eq_ok, movedOffset]

theorem align_moved (v : Pt ℝ) (b : Bezier) : align (moved v b) none = align b none := by
  unfold align
  simp only [show (moved v b).controlPoints = movedBy v b.controlPoints from rfl, alignPoints_moved]

theorem rotateAndMove_moved (first : Pt ℝ) (angle : ℝ) :
    ∃ T, Transform.rotateAndMove (0, 0) first angle = .ok T ∧ ∀ p, T.applyToPoint p =
      .ok (Transform.cos angle * p.1 - Transform.sin angle * p.2 + first.1, Transform.sin angle * p.1 + Transform.cos angle * p.2 + first.2) := by
  unfold Transform.rotateAndMove Transform.translateMatrix Transform.rotationMatrix Transform.rotationMatrixOf
  simp only [if_true]
  rw [Transform.new_two, Transform.mul_matrix]
  refine ⟨_, rfl, fun p => ?_⟩
  simp only [mul_zero, zero_mul, add_zero, mul_one, zero_add, one_mul]
  rw [Transform.applyToPoint_affine]
  congr 1
  ext <;> simp <;> ring

theorem tightbbox_moved (v : Pt ℝ) (b : Bezier) : tightbbox (moved v b) = (tightbbox b).map (List.map (movedBy v)) := by
  unfold tightbbox
  simp only [align_moved, show (moved v b).controlPoints = movedBy v b.controlPoints from rfl, rawSlopeAngle_moved, pyGet_moved, Flt.map_bind, map_do]
  congr 1; funext al; congr 1; funext bnd; congr 1; funext angle; congr 1; funext first
  obtain ⟨T, hT, hTp⟩ := rotateAndMove_moved first angle
  obtain ⟨T', hT', hTp'⟩ := rotateAndMove_moved (moveBy v first) angle
  rw [hT, hT', ok_bind, ok_bind]
  unfold Transform.applyToContour Transform.applyToSegment
  refine map_mapM _ _ _ _ fun s _ => ?_
  refine map_mapM _ _ _ _ fun p _ => ?_
  rw [hTp, hTp', map_eq_ok]
  simp only [moveBy, add_assoc]

end Moved
end PathLib
