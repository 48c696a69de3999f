import Verif.Spec.Mirrored
import Verif.Lemmas.Turned
import Verif.Lemmas.GrownOffset

/-!
# Lemmas about mirrored curves
-/

set_option linter.unusedSectionVars false
set_option linter.unusedSimpArgs false

namespace PathLib
namespace Mirrored
open Spec Bezier
open Moved (map_eq_ok map_eq_error map_do map_map map_mapM derivative_short offsetPoint_short scaleCore_short)

variable {a b : ℝ}

@[simp] theorem mirroredBy_length (a b : ℝ) (ps : Segment ℝ) : (mirroredBy a b ps).length = ps.length := by simp [mirroredBy]

@[simp] theorem mirroredBy_order (a b : ℝ) (ps : Segment ℝ) : order (mirroredBy a b ps) = order ps := by simp [order]

theorem pyGet_mirrored (a b : ℝ) (ps : Segment ℝ) (i : Int) : pyGet (mirroredBy a b ps) i = (pyGet ps i).map (mirrorBy a b) := Flt.pyGet_map _ _ _

theorem mirrorBy_eq_affine (a b : ℝ) : mirrorBy a b = affineMap a b b (-a) 0 0 := by
  funext p; simp [mirrorBy, affineMap]; ring

theorem get_mirrored (a b : ℝ) (ps : Segment ℝ) (t : ℝ) : Bezier.get (mirroredBy a b ps) t = (Bezier.get ps t).map (mirrorBy a b) := by
  by_cases h : ps = []
  · subst h
    simp only [mirroredBy, List.map_nil]
    rw [Moved.get_nil]
    rfl
  · rw [get_ok ps h, get_ok (mirroredBy a b ps) (by simpa [mirroredBy] using h), mirrorBy_eq_affine, mirroredBy, mirrorBy_eq_affine, curve_affine _ _ _ _ _ _ _ h]
    rfl

theorem lerp_mirrored (a b r : ℝ) (p q : Pt ℝ) : butils.lerp r (mirrorBy a b p) (mirrorBy a b q) = mirrorBy a b (butils.lerp r p q) := by
  simp only [butils.lerp, mirrorBy, Prod.mk.injEq]
  constructor <;> ring

theorem hullStep_mirrored (a b t : ℝ) (ps : Segment ℝ) : hullStep t (mirroredBy a b ps) = mirroredBy a b (hullStep t ps) := by
  unfold hullStep mirroredBy
  rw [← List.map_tail, List.zipWith_map, List.map_zipWith]
  simp only [lerp_mirrored]

theorem hullLoop_mirrored (a b t : ℝ) (n : ℕ) : ∀ ps : Segment ℝ, ps.length = n → hullLoop t (mirroredBy a b ps) = mirroredBy a b (hullLoop t ps) := by
  induction n with
  | zero =>
    intro ps h
    have : ps = [] := List.length_eq_zero_iff.mp h
    subst this
    rw [show mirroredBy a b ([] : Segment ℝ) = [] from rfl, hullLoop]
    rfl
  | succ n ih =>
    intro ps h
    rw [hullLoop, hullLoop.eq_def t ps, mirroredBy_length]
    split_ifs
    · rw [hullStep_mirrored, ih _ (by rw [hullStep_length, h]; rfl)]
      simp [mirroredBy]
    · rfl

theorem hull_mirrored (a b : ℝ) (ps : Segment ℝ) (t : ℝ) : hull (mirroredBy a b ps) t = mirroredBy a b (hull ps t) := by
  unfold hull
  rw [hullLoop_mirrored a b t _ ps rfl]
  simp [mirroredBy]

theorem dcStep_mirrored (a b : ℝ) (ps : Segment ℝ) : dcStep (mirroredBy a b ps) = mirroredBy a b (dcStep ps) := by
  unfold dcStep
  simp only [mirroredBy_length]
  unfold mirroredBy
  rw [← List.map_tail, List.zipWith_map, List.map_zipWith]
  congr 1
  funext p q
  simp only [mirrorBy, Prod.mk.injEq]
  constructor <;> ring

theorem dcPoints_mirrored_aux (a b : ℝ) (n : ℕ) : ∀ ps : Segment ℝ, ps.length = n → dcPoints (mirroredBy a b ps) = (dcPoints ps).map (mirroredBy a b) := by
  induction n with
  | zero =>
    intro ps h
    have : ps = [] := List.length_eq_zero_iff.mp h
    subst this
    rw [show mirroredBy a b ([] : Segment ℝ) = [] from rfl, dcPoints]
    rfl
  | succ n ih =>
    intro ps h
    rw [dcPoints, dcPoints.eq_def ps, mirroredBy_length]
    split_ifs
    · rw [dcStep_mirrored, ih _ (by rw [dcStep_length, h]; rfl), List.map_cons]
    · rfl

theorem dcPoints_mirrored (a b : ℝ) (ps : Segment ℝ) : dcPoints (mirroredBy a b ps) = (dcPoints ps).map (mirroredBy a b) := dcPoints_mirrored_aux a b _ ps rfl

theorem derivativeOf_mirrored (a b : ℝ) (n : Int) (p : Segment ℝ) (t : ℝ) : derivativeOf n (mirroredBy a b p) t = (derivativeOf n p t).map (mirrorBy a b) := by
  unfold derivativeOf
  by_cases hn : n = 2
  · subst hn
    simp only [if_true, pyGet_mirrored, Flt.map_bind, map_do, bind_assoc, pure_eq_ok, ok_bind]
    congr 1; funext x; congr 1; funext y
    simp [pyGet, map_eq_ok, mirrorBy]
    constructor <;> ring
  · simp only [hn, if_false, pyGet_mirrored, Flt.map_bind, map_do, bind_assoc, pure_eq_ok, ok_bind, map_eq_ok]
    congr 1; funext x; congr 1; funext y; congr 1; funext z
    simp only [mirrorBy, Except.ok.injEq, Prod.mk.injEq]
    constructor <;> ring

theorem derivative_mirrored (a b : ℝ) (ps : Segment ℝ) (t : ℝ) : derivative (mirroredBy a b ps) t = (derivative ps t).map (mirrorBy a b) := by
  unfold derivative
  rw [dcPoints_mirrored, mirroredBy_order, Flt.pyGet_map, Flt.map_bind, map_do]
  simp only [derivativeOf_mirrored]

theorem lutOf_mirrored (a b : ℝ) (ps : Segment ℝ) (n : Int) : lutOf (mirroredBy a b ps) n = (lutOf ps n).map (mirroredBy a b) := by
  simp only [lutOf]
  refine map_mapM _ _ _ _ fun i _ => ?_
  rw [map_do]
  simp only [get_mirrored]

theorem raiseOrderPoints_mirrored (a b : ℝ) (ps : Segment ℝ) : raiseOrderPoints (mirroredBy a b ps) = (raiseOrderPoints ps).map (mirroredBy a b) := by
  unfold raiseOrderPoints
  simp only [pyGet_mirrored, Flt.map_bind, mirroredBy_length]
  rw [map_mapM _ (fun (i : Nat) => do
    let pi ← pyGet ps (i : Int)
    let pim ← pyGet ps ((i : Int) - 1)
    let w1 ← pdiv ((ps.length : ℝ) - (i : ℝ)) (ps.length : ℝ)
    let w2 ← pdiv (i : ℝ) (ps.length : ℝ)
    return (w1 * pi.1 + w2 * pim.1, w1 * pi.2 + w2 * pim.2)) (mirrorBy a b)]
  · simp only [map_do, Flt.map_bind, pure_eq_ok, map_eq_ok, mirroredBy, List.map_append, List.map_cons, List.map_nil]
  · intro i _
    simp only [map_do, Flt.map_bind, pure_eq_ok, ok_bind, map_eq_ok, mirrorBy]
    congr 1; funext x; congr 1; funext y; congr 1; funext z; congr 1; funext w
    congr 1
    ext <;> simp only <;> ring

theorem lli4_mirrored (h : a * a + b * b = 1) (p q r s : Pt ℝ) :
    butils.lli4 (mirrorBy a b p) (mirrorBy a b q) (mirrorBy a b r) (mirrorBy a b s) = (butils.lli4 p q r s).map (mirrorBy a b) := by
  simp only [butils.lli4, butils.lli8, mirrorBy]
  have e : ∀ u v u' v' : ℝ, (a * u + b * v) * (b * u' - a * v') - (b * u - a * v) * (a * u' + b * v') = -(u * v' - v * u') := by
    intro u v u' v'
    linear_combination (-(u * v' - v * u')) * h
  have s1 : ∀ x y x' y' : ℝ, a * x + b * y - (a * x' + b * y') = a * (x - x') + b * (y - y') := by intros; ring
  have s2 : ∀ x y x' y' : ℝ, b * x - a * y - (b * x' - a * y') = b * (x - x') - a * (y - y') := by intros; ring
  simp only [s1, s2, e, neg_eq_zero]
  split_ifs
  · rfl
  · simp only [Option.map_some, mirrorBy, Option.some.injEq, Prod.mk.injEq]
    constructor <;> field_simp <;> ring

theorem getABC_mirrored (h : a * a + b * b = 1) (ps : Segment ℝ) (t : ℝ) : getABC (mirroredBy a b ps) t =
    (getABC ps t).map fun (p, q, c, r, l) => (mirrorBy a b p, mirrorBy a b q, c.map (mirrorBy a b), r, mirroredBy a b l) := by
  unfold getABC
  simp only [hull_mirrored, pyGet_mirrored, Flt.map_bind, mirroredBy_order]
  split_ifs <;> simp only [map_do, bind_assoc, pure_bind, Flt.map_bind, lli4_mirrored h, pure_eq_ok, ok_bind, map_eq_ok]

theorem cross_mirrored (h : a * a + b * b = 1) (p q r : Pt ℝ) :
    cross (vec (mirrorBy a b p) (mirrorBy a b q)) (vec (mirrorBy a b p) (mirrorBy a b r)) = -cross (vec p q) (vec p r) := by
  simp only [cross, vec, mirrorBy]
  linear_combination (-((q.1 - p.1) * (r.2 - p.2) - (q.2 - p.2) * (r.1 - p.1))) * h

theorem dot_mirrored (h : a * a + b * b = 1) (p q r : Pt ℝ) :
    dot (vec (mirrorBy a b p) (mirrorBy a b q)) (vec (mirrorBy a b p) (mirrorBy a b r)) = dot (vec p q) (vec p r) := by
  simp only [dot, vec, mirrorBy]
  linear_combination ((q.1 - p.1) * (r.1 - p.1) + (q.2 - p.2) * (r.2 - p.2)) * h

theorem norm_mirrored (h : a * a + b * b = 1) (x y : ℝ) : (a * x + b * y) * (a * x + b * y) + (b * x - a * y) * (b * x - a * y) = x * x + y * y := by
  linear_combination (x * x + y * y) * h

theorem hypot_mirrored (h : a * a + b * b = 1) (x y : ℝ) : butils.hypot (a * x + b * y) (b * x - a * y) = butils.hypot x y := by
  unfold butils.hypot
  rw [norm_mirrored h]

theorem new_mirrored (a b : ℝ) (ps : Segment ℝ) : Bezier.new (mirroredBy a b ps) = (Bezier.new ps).map (mirrored a b) := by
  by_cases hl : ps.length < 2
  · rw [Turned.new_short ps hl, Turned.new_short _ (by simpa using hl)]; rfl
  obtain ⟨c, e1, p1, t1, t2⟩ := new_ok ps (by omega)
  obtain ⟨c', e2, p2, t3, t4⟩ := new_ok (mirroredBy a b ps) (by simp; omega)
  rw [e1, e2, map_eq_ok]
  congr 1
  have d2 := Turned.new_direction e2
  obtain ⟨cp, u1, u2, dir, lin, cw⟩ := c'
  simp only at p2 t3 t4 d2
  unfold mirrored
  simp only [Bezier.mk.injEq]
  refine ⟨by rw [p2, p1], by rw [t3, t1], by rw [t4, t2], ?_, ?_, ?_⟩
  · unfold directionOf; rw [p1, d2]
  · unfold linearOf; rw [p1, e2]
  · unfold clockwiseOf; rw [p1, e2]

theorem normal_mirrored (h : a * a + b * b = 1) (ps : Segment ℝ) (t : ℝ) :
    normal (mirroredBy a b ps) t = (normal ps t).map fun n => mirrorBy a b (opposite n) := by
  unfold normal
  rw [derivative_mirrored, Flt.map_bind]
  simp only [mirrorBy, norm_mirrored h, map_do]
  congr 1; funext d
  unfold pdiv
  split_ifs
  · rfl
  · simp only [ok_bind, pure_eq_ok, map_eq_ok, Except.ok.injEq, mirrorBy, opposite, Prod.mk.injEq]
    constructor <;> ring

theorem tangent_mirrored (h : a * a + b * b = 1) (ps : Segment ℝ) (t : ℝ) : tangent (mirroredBy a b ps) t = (tangent ps t).map (mirrorBy a b) := by
  unfold tangent
  rw [derivative_mirrored, Flt.map_bind]
  simp only [mirrorBy, hypot_mirrored h, map_do]
  congr 1; funext d
  unfold pdiv
  split_ifs
  · rfl
  · simp only [ok_bind, pure_eq_ok, map_eq_ok, Except.ok.injEq, mirrorBy, Prod.mk.injEq]
    constructor <;> ring

theorem arcfun_mirrored (h : a * a + b * b = 1) (ps : Segment ℝ) (t : ℝ) : arcfun (mirroredBy a b ps) t = arcfun ps t := by
  unfold arcfun
  simp only [derivative_mirrored, Flt.map_bind, mirrorBy, norm_mirrored h]

theorem lengthOf_mirrored (h : a * a + b * b = 1) (ps : Segment ℝ) : lengthOf (mirroredBy a b ps) = lengthOf ps := by
  unfold lengthOf
  simp only [arcfun_mirrored h]

theorem simple_mirrored (h : a * a + b * b = 1) (ps : Segment ℝ)
    (hs : ∀ x p q y, ps = [x, p, q, y] → (SShaped [mirrorBy a b x, mirrorBy a b p, mirrorBy a b q, mirrorBy a b y] ↔ SShaped [x, p, q, y])) :
    simple (mirroredBy a b ps) = simple ps := by
  have key : ∀ n1 n2 : Pt ℝ, (mirrorBy a b (opposite n1)).1 * (mirrorBy a b (opposite n2)).1 + (mirrorBy a b (opposite n1)).2 * (mirrorBy a b (opposite n2)).2 =
      n1.1 * n2.1 + n1.2 * n2.2 := by
    intro n1 n2
    simp only [mirrorBy, opposite]
    linear_combination (n1.1 * n2.1 + n1.2 * n2.2) * h
  unfold simple
  simp only [normal_mirrored h, Flt.map_bind, key, mirroredBy_order]
  by_cases ho : order ps = 3
  · simp only [ho, if_true]
    have hl : ps.length = 4 := by unfold order at ho; omega
    match ps, hl with
    | [x, p, q, y], _ =>
      have := hs x p q y rfl
      simp only [SShaped, ← angle_pos, ← angle_neg] at this
      simp only [mirroredBy, List.map_cons, List.map_nil, pyGet_zero_cons, pyGet_one_cons, pyGet_two_cons, pyGet_three_cons, ok_bind, pure_eq_ok, this]
  · simp only [ho, if_false]

theorem split1_mirrored (a b : ℝ) (c : Bezier) (t : ℝ) :
    split1 (mirrored a b c) t = (split1 c t).map fun (l, r, q) => (mirrored a b l, mirrored a b r, mirroredBy a b q) := by
  unfold split1
  have e3 : ∀ x y z : Pt ℝ, Bezier.new [mirrorBy a b x, mirrorBy a b y, mirrorBy a b z] = (Bezier.new [x, y, z]).map (mirrored a b) := fun _ _ _ => new_mirrored a b [_, _, _]
  have e4 : ∀ x y z w : Pt ℝ, Bezier.new [mirrorBy a b x, mirrorBy a b y, mirrorBy a b z, mirrorBy a b w] = (Bezier.new [x, y, z, w]).map (mirrored a b) :=
    fun _ _ _ _ => new_mirrored a b [_, _, _, _]
  simp only [mirrored, hull_mirrored, pyGet_mirrored, Flt.map_bind, mirroredBy_order, e3, e4]
  split_ifs <;> simp only [map_do, bind_assoc, Flt.map_bind, pure_eq_ok, ok_bind, map_eq_ok, mirrored]

theorem split_mirrored (a b : ℝ) (c : Bezier) (t1 : ℝ) (t2 : Option ℝ) : split (mirrored a b c) t1 t2 = (split c t1 t2).map (mirroredSplit a b) := by
  unfold split
  cases t2 with
  | none => simp only [split1_mirrored a b, Flt.map_bind, map_do, pure_eq_ok, map_eq_ok, mirroredSplit]
  | some t2 =>
    simp only [split1_mirrored a b, Flt.map_bind, pure_eq_ok]
    split_ifs <;> simp only [map_do, Flt.map_bind, split1_mirrored a b, map_eq_ok, mirroredSplit]

theorem raiseOrder_mirrored (a b : ℝ) (c : Bezier) : raiseOrder (mirrored a b c) = (raiseOrder c).map (mirrored a b) := by
  unfold raiseOrder
  rw [show (mirrored a b c).controlPoints = mirroredBy a b c.controlPoints from rfl, raiseOrderPoints_mirrored]
  simp only [Flt.map_bind, map_do, new_mirrored a b]

theorem along_mirrored (a b d : ℝ) (p n : Pt ℝ) : ((mirrorBy a b p).1 + d * (mirrorBy a b n).1, (mirrorBy a b p).2 + d * (mirrorBy a b n).2) = mirrorBy a b (p.1 + d * n.1, p.2 + d * n.2) := by
  simp only [mirrorBy, Prod.mk.injEq]
  constructor <;> ring

theorem along_mirrored' (a b d : ℝ) (p n : Pt ℝ) : ((mirrorBy a b p).1 + (mirrorBy a b n).1 * d, (mirrorBy a b p).2 + (mirrorBy a b n).2 * d) = mirrorBy a b (p.1 + n.1 * d, p.2 + n.2 * d) := by
  simp only [mirrorBy, Prod.mk.injEq]
  constructor <;> ring

theorem add_mirrored (a b : ℝ) (p n : Pt ℝ) : ((mirrorBy a b p).1 + (mirrorBy a b n).1, (mirrorBy a b p).2 + (mirrorBy a b n).2) = mirrorBy a b (p.1 + n.1, p.2 + n.2) := by
  simp only [mirrorBy, Prod.mk.injEq]
  constructor <;> ring

theorem along_other (a b d : ℝ) (p n : Pt ℝ) :
    ((mirrorBy a b p).1 + (mirrorBy a b (opposite n)).1 * d, (mirrorBy a b p).2 + (mirrorBy a b (opposite n)).2 * d) = mirrorBy a b (p.1 + n.1 * -d, p.2 + n.2 * -d) := by
  simp only [mirrorBy, opposite, Prod.mk.injEq]
  constructor <;> ring

theorem along_other' (a b d : ℝ) (p n : Pt ℝ) :
    ((mirrorBy a b p).1 + d * (mirrorBy a b (opposite n)).1, (mirrorBy a b p).2 + d * (mirrorBy a b (opposite n)).2) = mirrorBy a b (p.1 + -d * n.1, p.2 + -d * n.2) := by
  simp only [mirrorBy, opposite, Prod.mk.injEq]
  constructor <;> ring

theorem offsetPoint_mirrored (h : a * a + b * b = 1) (ps : Segment ℝ) (t d : ℝ) :
    offsetPoint (mirroredBy a b ps) t d = (offsetPoint ps t (-d)).map fun (c, n, p) => (mirrorBy a b c, mirrorBy a b (opposite n), mirrorBy a b p) := by
  unfold offsetPoint
  simp only [get_mirrored, normal_mirrored h, Flt.map_bind, map_do, pure_eq_ok, map_eq_ok, along_other]

theorem offsetLinear_mirrored (h : a * a + b * b = 1) (c : Bezier) (t : ℝ) : offsetLinear (mirrored a b c) t = (offsetLinear c (-t)).map (mirrored a b) := by
  unfold offsetLinear
  rw [show (mirrored a b c).controlPoints = mirroredBy a b c.controlPoints from rfl]
  simp only [normal_mirrored h, map_do, Flt.map_bind, ← new_mirrored a b]
  congr 1
  funext n
  simp only [mirroredBy, List.map_map, Function.comp_def, along_other']

theorem along3_mirrored (a b d : ℝ) (p n q : Pt ℝ) :
    ((mirrorBy a b p).1 + d * (mirrorBy a b n).1 + (mirrorBy a b q).1, (mirrorBy a b p).2 + d * (mirrorBy a b n).2 + (mirrorBy a b q).2) =
      mirrorBy a b (p.1 + d * n.1 + q.1, p.2 + d * n.2 + q.2) := by
  simp only [mirrorBy, Prod.mk.injEq]
  constructor <;> ring

theorem sub_fst (a b : ℝ) (p q : Pt ℝ) : (mirrorBy a b p).1 - (mirrorBy a b q).1 = a * (p.1 - q.1) + b * (p.2 - q.2) := by simp only [mirrorBy]; ring

theorem sub_snd (a b : ℝ) (p q : Pt ℝ) : (mirrorBy a b p).2 - (mirrorBy a b q).2 = b * (p.1 - q.1) - a * (p.2 - q.2) := by simp only [mirrorBy]; ring

theorem offsetPoint_cases (ps : Segment ℝ) (t : ℝ) : (∃ e, ∀ d, offsetPoint ps t d = .error e) ∨
    ∃ c n : Pt ℝ, ∀ d, offsetPoint ps t d = .ok (c, n, (c.1 + n.1 * d, c.2 + n.2 * d)) := by
  unfold offsetPoint
  cases Bezier.get ps t with
  | error e => exact .inl ⟨e, fun _ => rfl⟩
  | ok c =>
    cases normal ps t with
    | error e => exact .inl ⟨e, fun _ => rfl⟩
    | ok n => exact .inr ⟨c, n, fun _ => rfl⟩

theorem lli4_other (c n c' n' : Pt ℝ) (r : ℝ) :
    butils.lli4 (c.1 + n.1 * -r, c.2 + n.2 * -r) c (c'.1 + n'.1 * -r, c'.2 + n'.2 * -r) c' =
      butils.lli4 (c.1 + n.1 * r, c.2 + n.2 * r) c (c'.1 + n'.1 * r, c'.2 + n'.2 * r) c' := by
  simp only [butils.lli4, butils.lli8]
  have e : (c.1 + n.1 * -r - c.1) * (c'.2 + n'.2 * -r - c'.2) - (c.2 + n.2 * -r - c.2) * (c'.1 + n'.1 * -r - c'.1) =
      (c.1 + n.1 * r - c.1) * (c'.2 + n'.2 * r - c'.2) - (c.2 + n.2 * r - c.2) * (c'.1 + n'.1 * r - c'.1) := by ring
  rw [e]
  split_ifs
  · rfl
  · congr 2
    · congr 1; ring
    · congr 1; ring

theorem scaleCore_mirrored (h : a * a + b * b = 1) (c : Bezier) (d : Distance) (hl : c.controlPoints.length ≤ 4)
    (hw : (mirrored a b c).clockwise = !c.clockwise) :
    scaleCore (mirrored a b c) d = (scaleCore c (otherSide d)).map (mirrored a b) := by
  obtain ⟨ps, bt1, bt2, dir, lin, cw⟩ := c
  simp only [mirrored] at hl hw
  match ps, hl with
  | [p0, p1, p2], _ =>
    simp only [scaleCore, mirrored, offsetPoint_mirrored h, Flt.map_bind, map_do, mirroredBy_length]
    rcases offsetPoint_cases [p0, p1, p2] 0 with ⟨e, hv0⟩ | ⟨c, n, hv0⟩
    · simp only [hv0]; rfl
    rcases offsetPoint_cases [p0, p1, p2] 1 with ⟨e, hv1⟩ | ⟨c', n', hv1⟩
    · simp only [hv0, hv1]; rfl
    simp only [hv0, hv1, ok_bind, lli4_mirrored h, lli4_other]
    cases butils.lli4 (c.1 + n.1 * 10, c.2 + n.2 * 10) c (c'.1 + n'.1 * 10, c'.2 + n'.2 * 10) c' with
    | none => rfl
    | some o =>
      cases d with
      | const r =>
        simp only [Option.map_some, otherSide]
        simp [mirroredBy, pyGet, List.range_succ]
        simp only [mirroredBy, List.map_cons, List.map_nil] at hw
        simp only [hw]
        simp only [sub_fst, sub_snd, hypot_mirrored h]
        by_cases m1 : butils.hypot (p1.1 - o.1) (p1.2 - o.2) = 0
        · simp only [pdiv, m1, if_true]; rfl
        simp only [pdiv, m1, if_false, ok_bind, ← new_mirrored a b, mirroredBy, List.map_cons, List.map_nil]
        congr 1
        simp only [mirrorBy, opposite, List.cons.injEq, Prod.mk.injEq, and_true]
       
        refine ⟨⟨by ring, by ring⟩, ⟨?_, ?_⟩, by ring, by ring⟩ <;> cases cw <;> simp <;> ring
      | fn f =>
        have hder : ∀ t, derivative [mirrorBy a b p0, mirrorBy a b p1, mirrorBy a b p2] t = (derivative [p0, p1, p2] t).map (mirrorBy a b) :=
          fun t => derivative_mirrored a b [p0, p1, p2] t
        simp only [Option.map_some, otherSide]
        simp [mirroredBy, pyGet, List.range_succ, hder, along_other']
        simp only [map_do, Flt.map_bind]
        congr 1; funext x
        simp only [along3_mirrored, lli4_mirrored h, opposite, mul_neg]
        cases butils.lli4 (p0.1 + -(f 0 * n.1), p0.2 + -(f 0 * n.2)) (p0.1 + -(f 0 * n.1) + x.1, p0.2 + -(f 0 * n.2) + x.2) o p1 with
        | none => rfl
        | some y => exact new_mirrored a b [_, _, _]
  | [p0, p1, p2, p3], _ =>
    simp only [scaleCore, mirrored, offsetPoint_mirrored h, Flt.map_bind, map_do, mirroredBy_length]
    rcases offsetPoint_cases [p0, p1, p2, p3] 0 with ⟨e, hv0⟩ | ⟨c, n, hv0⟩
    · simp only [hv0]; rfl
    rcases offsetPoint_cases [p0, p1, p2, p3] 1 with ⟨e, hv1⟩ | ⟨c', n', hv1⟩
    · simp only [hv0, hv1]; rfl
    simp only [hv0, hv1, ok_bind, lli4_mirrored h, lli4_other]
    cases butils.lli4 (c.1 + n.1 * 10, c.2 + n.2 * 10) c (c'.1 + n'.1 * 10, c'.2 + n'.2 * 10) c' with
    | none => rfl
    | some o =>
      cases d with
      | const r =>
        simp only [Option.map_some, otherSide]
        simp [mirroredBy, pyGet, List.range_succ]
        simp only [mirroredBy, List.map_cons, List.map_nil] at hw
        simp only [hw]
        simp only [sub_fst, sub_snd, hypot_mirrored h]
        by_cases m1 : butils.hypot (p1.1 - o.1) (p1.2 - o.2) = 0
        · simp only [pdiv, m1, if_true]; rfl
        by_cases m2 : butils.hypot (p2.1 - o.1) (p2.2 - o.2) = 0
        · simp only [pdiv, m1, m2, if_true, if_false]; rfl
        simp only [pdiv, m1, m2, if_false, ok_bind, ← new_mirrored a b, mirroredBy, List.map_cons, List.map_nil]
        congr 1
        simp only [mirrorBy, opposite, List.cons.injEq, Prod.mk.injEq, and_true]
       
        refine ⟨⟨by ring, by ring⟩, ⟨?_, ?_⟩, ⟨?_, ?_⟩, by ring, by ring⟩ <;> cases cw <;> simp <;> ring
      | fn f =>
        have hder : ∀ t, derivative [mirrorBy a b p0, mirrorBy a b p1, mirrorBy a b p2, mirrorBy a b p3] t = (derivative [p0, p1, p2, p3] t).map (mirrorBy a b) :=
          fun t => derivative_mirrored a b [p0, p1, p2, p3] t
        simp only [Option.map_some, otherSide]
        simp [mirroredBy, pyGet, List.range_succ, hder, along_other']
        simp only [map_do, Flt.map_bind]
        congr 1; funext x
        simp only [along3_mirrored, lli4_mirrored h, opposite, mul_neg]
        cases butils.lli4 (p0.1 + -(f 0 * n.1), p0.2 + -(f 0 * n.2)) (p0.1 + -(f 0 * n.1) + x.1, p0.2 + -(f 0 * n.2) + x.2) o p1 with
        | none => rfl
        | some y =>
          simp only [Option.map_some, ok_bind, List.getElem?_cons_succ, List.getElem?_cons_zero]
          congr 1; funext z
          simp only [add_mirrored, lli4_mirrored h, opposite, mul_neg]
          cases butils.lli4 (p3.1 + -(f 1 * n'.1), p3.2 + -(f 1 * n'.2)) (p3.1 + -(f 1 * n'.1) + z.1, p3.2 + -(f 1 * n'.2) + z.2) o p2 with
          | none => rfl
          | some w => exact new_mirrored a b [_, _, _, _]
  | [p0, p1], _ => rw [scaleCore_short _ (by simp [mirrored]), scaleCore_short _ (by simp)]; rfl
  | [p0], _ => rw [scaleCore_short _ (by simp [mirrored]), scaleCore_short _ (by simp)]; rfl
  | [], _ => rw [scaleCore_short _ (by simp [mirrored]), scaleCore_short _ (by simp)]; rfl

theorem scale_mirrored (h : a * a + b * b = 1) (c : Bezier) (d : Distance) (hl : c.controlPoints.length ≤ 4)
    (hw : (mirrored a b c).clockwise = !c.clockwise) : scale (mirrored a b c) d = (scale c (otherSide d)).map (mirrored a b) := by
  cases d with
  | const r => unfold scale; exact scaleCore_mirrored h c (.const r) hl hw
  | fn f =>
    by_cases h3 : c.controlPoints.length = 3
    · rw [otherSide, C72_function_quadratic c h3, C72_function_quadratic (mirrored a b c) (by simpa [mirrored] using h3)]
      rfl
    · unfold scale
      have h2 : ¬ order c.controlPoints = 2 := by unfold order; omega
      simp only [show (mirrored a b c).controlPoints = mirroredBy a b c.controlPoints from rfl, mirroredBy_order, h2, if_false, otherSide]
      exact scaleCore_mirrored h c (.fn f) hl hw

end Mirrored
end PathLib
