import Verif.Spec.Turned
import Verif.Lemmas.Grown
import Verif.Lemmas.GrownOffset

/-!
# Lemmas about rotated curves
-/

set_option linter.unusedSectionVars false
set_option linter.unusedSimpArgs false

namespace PathLib
namespace Turned
open Spec Bezier
open Moved (map_eq_ok map_eq_error map_do map_map map_mapM derivative_short offsetPoint_short scaleCore_short)

variable {a b : ℝ}

@[simp] theorem turnedBy_length (a b : ℝ) (ps : Segment ℝ) : (turnedBy a b ps).length = ps.length := by simp [turnedBy]

@[simp] theorem turnedBy_order (a b : ℝ) (ps : Segment ℝ) : order (turnedBy a b ps) = order ps := by simp [order]

theorem pyGet_turned (a b : ℝ) (ps : Segment ℝ) (i : Int) : pyGet (turnedBy a b ps) i = (pyGet ps i).map (turnBy a b) := Flt.pyGet_map _ _ _

theorem turnBy_eq_affine (a b : ℝ) : turnBy a b = affineMap a b (-b) a 0 0 := by
  funext p; simp [turnBy, affineMap]; ring

theorem get_turned (a b : ℝ) (ps : Segment ℝ) (t : ℝ) : Bezier.get (turnedBy a b ps) t = (Bezier.get ps t).map (turnBy a b) := by
  by_cases h : ps = []
  · subst h
    simp only [turnedBy, List.map_nil]
    rw [Moved.get_nil]
    rfl
  · rw [get_ok ps h, get_ok (turnedBy a b ps) (by simpa [turnedBy] using h), turnBy_eq_affine, turnedBy, turnBy_eq_affine, curve_affine _ _ _ _ _ _ _ h]
    rfl

theorem lerp_turned (a b r : ℝ) (p q : Pt ℝ) : butils.lerp r (turnBy a b p) (turnBy a b q) = turnBy a b (butils.lerp r p q) := by
  simp only [butils.lerp, turnBy, Prod.mk.injEq]
  constructor <;> ring

theorem hullStep_turned (a b t : ℝ) (ps : Segment ℝ) : hullStep t (turnedBy a b ps) = turnedBy a b (hullStep t ps) := by
  unfold hullStep turnedBy
  rw [← List.map_tail, List.zipWith_map, List.map_zipWith]
  simp only [lerp_turned]

theorem hullLoop_turned (a b t : ℝ) (n : ℕ) : ∀ ps : Segment ℝ, ps.length = n → hullLoop t (turnedBy a b ps) = turnedBy a b (hullLoop t ps) := by
  induction n with
  | zero =>
    intro ps h
    have : ps = [] := List.length_eq_zero_iff.mp h
    subst this
    rw [show turnedBy a b ([] : Segment ℝ) = [] from rfl, hullLoop]
    rfl
  | succ n ih =>
    intro ps h
    rw [hullLoop, hullLoop.eq_def t ps, turnedBy_length]
    split_ifs
    · rw [hullStep_turned, ih _ (by rw [hullStep_length, h]; rfl)]
      simp [turnedBy]
    · rfl

theorem hull_turned (a b : ℝ) (ps : Segment ℝ) (t : ℝ) : hull (turnedBy a b ps) t = turnedBy a b (hull ps t) := by
  unfold hull
  rw [hullLoop_turned a b t _ ps rfl]
  simp [turnedBy]

theorem dcStep_turned (a b : ℝ) (ps : Segment ℝ) : dcStep (turnedBy a b ps) = turnedBy a b (dcStep ps) := by
  unfold dcStep
  simp only [turnedBy_length]
  unfold turnedBy
  rw [← List.map_tail, List.zipWith_map, List.map_zipWith]
  congr 1
  funext p q
  simp only [turnBy, Prod.mk.injEq]
  constructor <;> ring

theorem dcPoints_turned_aux (a b : ℝ) (n : ℕ) : ∀ ps : Segment ℝ, ps.length = n → dcPoints (turnedBy a b ps) = (dcPoints ps).map (turnedBy a b) := by
  induction n with
  | zero =>
    intro ps h
    have : ps = [] := List.length_eq_zero_iff.mp h
    subst this
    rw [show turnedBy a b ([] : Segment ℝ) = [] from rfl, dcPoints]
    rfl
  | succ n ih =>
    intro ps h
    rw [dcPoints, dcPoints.eq_def ps, turnedBy_length]
    split_ifs
    · rw [dcStep_turned, ih _ (by rw [dcStep_length, h]; rfl), List.map_cons]
    · rfl

theorem dcPoints_turned (a b : ℝ) (ps : Segment ℝ) : dcPoints (turnedBy a b ps) = (dcPoints ps).map (turnedBy a b) := dcPoints_turned_aux a b _ ps rfl

theorem derivativeOf_turned (a b : ℝ) (n : Int) (p : Segment ℝ) (t : ℝ) : derivativeOf n (turnedBy a b p) t = (derivativeOf n p t).map (turnBy a b) := by
  unfold derivativeOf
  by_cases hn : n = 2
  · subst hn
    simp only [if_true, pyGet_turned, Flt.map_bind, map_do, bind_assoc, pure_eq_ok, ok_bind]
    congr 1; funext x; congr 1; funext y
    simp [pyGet, map_eq_ok, turnBy]
    constructor <;> ring
  · simp only [hn, if_false, pyGet_turned, Flt.map_bind, map_do, bind_assoc, pure_eq_ok, ok_bind, map_eq_ok]
    congr 1; funext x; congr 1; funext y; congr 1; funext z
    simp only [turnBy, Except.ok.injEq, Prod.mk.injEq]
    constructor <;> ring

theorem derivative_turned (a b : ℝ) (ps : Segment ℝ) (t : ℝ) : derivative (turnedBy a b ps) t = (derivative ps t).map (turnBy a b) := by
  unfold derivative
  rw [dcPoints_turned, turnedBy_order, Flt.pyGet_map, Flt.map_bind, map_do]
  simp only [derivativeOf_turned]

theorem lutOf_turned (a b : ℝ) (ps : Segment ℝ) (n : Int) : lutOf (turnedBy a b ps) n = (lutOf ps n).map (turnedBy a b) := by
  simp only [lutOf]
  refine map_mapM _ _ _ _ fun i _ => ?_
  rw [map_do]
  simp only [get_turned]

theorem raiseOrderPoints_turned (a b : ℝ) (ps : Segment ℝ) : raiseOrderPoints (turnedBy a b ps) = (raiseOrderPoints ps).map (turnedBy a b) := by
  unfold raiseOrderPoints
  simp only [pyGet_turned, Flt.map_bind, turnedBy_length]
  rw [map_mapM _ (fun (i : Nat) => do
    let pi ← pyGet ps (i : Int)
    let pim ← pyGet ps ((i : Int) - 1)
    let w1 ← pdiv ((ps.length : ℝ) - (i : ℝ)) (ps.length : ℝ)
    let w2 ← pdiv (i : ℝ) (ps.length : ℝ)
    return (w1 * pi.1 + w2 * pim.1, w1 * pi.2 + w2 * pim.2)) (turnBy a b)]
  · simp only [map_do, Flt.map_bind, pure_eq_ok, map_eq_ok, turnedBy, List.map_append, List.map_cons, List.map_nil]
  · intro i _
    simp only [map_do, Flt.map_bind, pure_eq_ok, ok_bind, map_eq_ok, turnBy]
    congr 1; funext x; congr 1; funext y; congr 1; funext z; congr 1; funext w
    congr 1
    ext <;> simp only <;> ring

theorem lli4_turned (h : a * a + b * b = 1) (p q r s : Pt ℝ) :
    butils.lli4 (turnBy a b p) (turnBy a b q) (turnBy a b r) (turnBy a b s) = (butils.lli4 p q r s).map (turnBy a b) := by
  simp only [butils.lli4, butils.lli8, turnBy]
  have e : ∀ u v u' v' : ℝ, (a * u - b * v) * (b * u' + a * v') - (b * u + a * v) * (a * u' - b * v') = u * v' - v * u' := by
    intro u v u' v'
    linear_combination (u * v' - v * u') * h
  have s1 : ∀ x y x' y' : ℝ, a * x - b * y - (a * x' - b * y') = a * (x - x') - b * (y - y') := by intros; ring
  have s2 : ∀ x y x' y' : ℝ, b * x + a * y - (b * x' + a * y') = b * (x - x') + a * (y - y') := by intros; ring
  simp only [s1, s2, e]
  split_ifs
  · rfl
  · simp only [Option.map_some, turnBy, Option.some.injEq, Prod.mk.injEq]
    constructor <;> field_simp <;> ring

theorem getABC_turned (h : a * a + b * b = 1) (ps : Segment ℝ) (t : ℝ) : getABC (turnedBy a b ps) t =
    (getABC ps t).map fun (p, q, c, r, l) => (turnBy a b p, turnBy a b q, c.map (turnBy a b), r, turnedBy a b l) := by
  unfold getABC
  simp only [hull_turned, pyGet_turned, Flt.map_bind, turnedBy_order]
  split_ifs <;> simp only [map_do, bind_assoc, pure_bind, Flt.map_bind, lli4_turned h, pure_eq_ok, ok_bind, map_eq_ok]

theorem angle_turned (h : a * a + b * b = 1) (p q r : Pt ℝ) : butils.angle (turnBy a b p) (turnBy a b q) (turnBy a b r) = butils.angle p q r := by
  simp only [butils.angle, turnBy]
  congr 1
  · linear_combination ((q.1 - p.1) * (r.2 - p.2) - (q.2 - p.2) * (r.1 - p.1)) * h
  · linear_combination ((q.1 - p.1) * (r.1 - p.1) + (q.2 - p.2) * (r.2 - p.2)) * h

theorem norm_turned (h : a * a + b * b = 1) (x y : ℝ) : (a * x - b * y) * (a * x - b * y) + (b * x + a * y) * (b * x + a * y) = x * x + y * y := by
  linear_combination (x * x + y * y) * h

theorem hypot_turned (h : a * a + b * b = 1) (x y : ℝ) : butils.hypot (a * x - b * y) (b * x + a * y) = butils.hypot x y := by
  unfold butils.hypot
  rw [norm_turned h]

theorem new_short (ps : Segment ℝ) (h : ps.length < 2) : Bezier.new ps = .error .indexError := by
  match ps, h with
  | [], _ => rfl
  | [a], _ => rfl

theorem new_direction {ps : Segment ℝ} {c : Bezier} (h : Bezier.new ps = .ok c) : computeDirection ps = .ok c.direction := by
  unfold Bezier.new at h
  simp only [bind_eq_ok, pure_eq_ok, Except.ok.injEq] at h
  obtain ⟨d, h1, _, _, _, _, _, _, _, _, rfl⟩ := h
  exact h1

theorem new_clockwise {ps : Segment ℝ} {c : Bezier} (h : Bezier.new ps = .ok c) :
    (do let f ← pyGet ps 0; let l ← pyGet ps (-1); let s ← pyGet ps 1; return decide (butils.angle f l s > 0) : Py Bool) = .ok c.clockwise := by
  unfold Bezier.new at h
  simp only [bind_eq_ok, pure_eq_ok, Except.ok.injEq] at h
  obtain ⟨d, _, f, h1, l, h2, _, _, s, h3, rfl⟩ := h
  simp only [h1, h2, h3, ok_bind, pure_eq_ok]

theorem new_turned (h : a * a + b * b = 1) (ps : Segment ℝ) : Bezier.new (turnedBy a b ps) = (Bezier.new ps).map (turned a b) := by
  by_cases hl : ps.length < 2
  · rw [new_short ps hl, new_short _ (by simpa using hl)]; rfl
  obtain ⟨c, e1, p1, t1, t2⟩ := new_ok ps (by omega)
  obtain ⟨c', e2, p2, t3, t4⟩ := new_ok (turnedBy a b ps) (by simp; omega)
  rw [e1, e2, map_eq_ok]
  congr 1
  have d2 := new_direction e2
  have w1 := new_clockwise e1
  have w2 := new_clockwise e2
  simp only [pyGet_turned, Flt.map_bind, angle_turned h] at w2
  rw [w1] at w2
  obtain ⟨cp, u1, u2, dir, lin, cw⟩ := c'
  simp only at p2 t3 t4 d2 w2
  unfold turned
  simp only [Bezier.mk.injEq]
  refine ⟨by rw [p2, p1], by rw [t3, t1], by rw [t4, t2], ?_, ?_, (Except.ok.inj w2).symm⟩
  · unfold directionOf; rw [p1, d2]
  · unfold linearOf; rw [p1, e2]

theorem normal_turned (h : a * a + b * b = 1) (ps : Segment ℝ) (t : ℝ) : normal (turnedBy a b ps) t = (normal ps t).map (turnBy a b) := by
  unfold normal
  rw [derivative_turned, Flt.map_bind]
  simp only [turnBy, norm_turned h, map_do]
  congr 1; funext d
  unfold pdiv
  split_ifs
  · rfl
  · simp only [ok_bind, pure_eq_ok, map_eq_ok, Except.ok.injEq, turnBy, Prod.mk.injEq]
    constructor <;> ring

theorem tangent_turned (h : a * a + b * b = 1) (ps : Segment ℝ) (t : ℝ) : tangent (turnedBy a b ps) t = (tangent ps t).map (turnBy a b) := by
  unfold tangent
  rw [derivative_turned, Flt.map_bind]
  simp only [turnBy, hypot_turned h, map_do]
  congr 1; funext d
  unfold pdiv
  split_ifs
  · rfl
  · simp only [ok_bind, pure_eq_ok, map_eq_ok, Except.ok.injEq, turnBy, Prod.mk.injEq]
    constructor <;> ring

theorem arcfun_turned (h : a * a + b * b = 1) (ps : Segment ℝ) (t : ℝ) : arcfun (turnedBy a b ps) t = arcfun ps t := by
  unfold arcfun
  simp only [derivative_turned, Flt.map_bind, turnBy, norm_turned h]

theorem lengthOf_turned (h : a * a + b * b = 1) (ps : Segment ℝ) : lengthOf (turnedBy a b ps) = lengthOf ps := by
  unfold lengthOf
  simp only [arcfun_turned h]

theorem simple_turned (h : a * a + b * b = 1) (ps : Segment ℝ) : simple (turnedBy a b ps) = simple ps := by
  unfold simple
  simp only [pyGet_turned, Flt.map_bind, angle_turned h, normal_turned h, turnedBy_order]
  congr 1; funext e
  split_ifs
  · rfl
  · congr 1; funext n1; congr 1; funext n2
    have : (turnBy a b n1).1 * (turnBy a b n2).1 + (turnBy a b n1).2 * (turnBy a b n2).2 = n1.1 * n2.1 + n1.2 * n2.2 := by
      simp only [turnBy]
      linear_combination (n1.1 * n2.1 + n1.2 * n2.2) * h
    rw [this]

theorem split1_turned (h : a * a + b * b = 1) (c : Bezier) (t : ℝ) :
    split1 (turned a b c) t = (split1 c t).map fun (l, r, q) => (turned a b l, turned a b r, turnedBy a b q) := by
  unfold split1
  have e3 : ∀ x y z : Pt ℝ, Bezier.new [turnBy a b x, turnBy a b y, turnBy a b z] = (Bezier.new [x, y, z]).map (turned a b) := fun _ _ _ => new_turned h [_, _, _]
  have e4 : ∀ x y z w : Pt ℝ, Bezier.new [turnBy a b x, turnBy a b y, turnBy a b z, turnBy a b w] = (Bezier.new [x, y, z, w]).map (turned a b) :=
    fun _ _ _ _ => new_turned h [_, _, _, _]
  simp only [turned, hull_turned, pyGet_turned, Flt.map_bind, turnedBy_order, e3, e4]
  split_ifs <;> simp only [map_do, bind_assoc, Flt.map_bind, pure_eq_ok, ok_bind, map_eq_ok, turned]

theorem split_turned (h : a * a + b * b = 1) (c : Bezier) (t1 : ℝ) (t2 : Option ℝ) : split (turned a b c) t1 t2 = (split c t1 t2).map (turnedSplit a b) := by
  unfold split
  cases t2 with
  | none => simp only [split1_turned h, Flt.map_bind, map_do, pure_eq_ok, map_eq_ok, turnedSplit]
  | some t2 =>
    simp only [split1_turned h, Flt.map_bind, pure_eq_ok]
    split_ifs <;> simp only [map_do, Flt.map_bind, split1_turned h, map_eq_ok, turnedSplit]

theorem raiseOrder_turned (h : a * a + b * b = 1) (c : Bezier) : raiseOrder (turned a b c) = (raiseOrder c).map (turned a b) := by
  unfold raiseOrder
  rw [show (turned a b c).controlPoints = turnedBy a b c.controlPoints from rfl, raiseOrderPoints_turned]
  simp only [Flt.map_bind, map_do, new_turned h]

theorem along_turned (a b d : ℝ) (p n : Pt ℝ) : ((turnBy a b p).1 + d * (turnBy a b n).1, (turnBy a b p).2 + d * (turnBy a b n).2) = turnBy a b (p.1 + d * n.1, p.2 + d * n.2) := by
  simp only [turnBy, Prod.mk.injEq]
  constructor <;> ring

theorem along_turned' (a b d : ℝ) (p n : Pt ℝ) : ((turnBy a b p).1 + (turnBy a b n).1 * d, (turnBy a b p).2 + (turnBy a b n).2 * d) = turnBy a b (p.1 + n.1 * d, p.2 + n.2 * d) := by
  simp only [turnBy, Prod.mk.injEq]
  constructor <;> ring

theorem add_turned (a b : ℝ) (p n : Pt ℝ) : ((turnBy a b p).1 + (turnBy a b n).1, (turnBy a b p).2 + (turnBy a b n).2) = turnBy a b (p.1 + n.1, p.2 + n.2) := by
  simp only [turnBy, Prod.mk.injEq]
  constructor <;> ring

theorem offsetPoint_turned (h : a * a + b * b = 1) (ps : Segment ℝ) (t d : ℝ) :
    offsetPoint (turnedBy a b ps) t d = (offsetPoint ps t d).map fun (c, n, p) => (turnBy a b c, turnBy a b n, turnBy a b p) := by
  unfold offsetPoint
  simp only [get_turned, normal_turned h, Flt.map_bind, map_do, pure_eq_ok, map_eq_ok, along_turned']

theorem offsetLinear_turned (h : a * a + b * b = 1) (c : Bezier) (t : ℝ) : offsetLinear (turned a b c) t = (offsetLinear c t).map (turned a b) := by
  unfold offsetLinear
  rw [show (turned a b c).controlPoints = turnedBy a b c.controlPoints from rfl]
  simp only [normal_turned h, map_do, Flt.map_bind, ← new_turned h]
  congr 1
  funext n
  simp only [turnedBy, List.map_map, Function.comp_def, along_turned]

theorem along3_turned (a b d : ℝ) (p n q : Pt ℝ) :
    ((turnBy a b p).1 + d * (turnBy a b n).1 + (turnBy a b q).1, (turnBy a b p).2 + d * (turnBy a b n).2 + (turnBy a b q).2) =
      turnBy a b (p.1 + d * n.1 + q.1, p.2 + d * n.2 + q.2) := by
  simp only [turnBy, Prod.mk.injEq]
  constructor <;> ring

theorem sub_fst (a b : ℝ) (p q : Pt ℝ) : (turnBy a b p).1 - (turnBy a b q).1 = a * (p.1 - q.1) - b * (p.2 - q.2) := by simp only [turnBy]; ring

theorem sub_snd (a b : ℝ) (p q : Pt ℝ) : (turnBy a b p).2 - (turnBy a b q).2 = b * (p.1 - q.1) + a * (p.2 - q.2) := by simp only [turnBy]; ring

theorem scaleCore_turned (h : a * a + b * b = 1) (c : Bezier) (d : Distance) (hl : c.controlPoints.length ≤ 4) :
    scaleCore (turned a b c) d = (scaleCore c d).map (turned a b) := by
  obtain ⟨ps, bt1, bt2, dir, lin, cw⟩ := c
  simp only at hl
  match ps, hl with
  | [p0, p1, p2], _ =>
    simp only [scaleCore, turned, offsetPoint_turned h, Flt.map_bind, map_do, turnedBy_length]
    cases hv0 : offsetPoint [p0, p1, p2] 0 10 with
    | error e => rfl
    | ok v0 =>
    cases hv1 : offsetPoint [p0, p1, p2] 1 10 with
    | error e => rfl
    | ok v1 =>
    obtain ⟨c, n, q⟩ := v0
    obtain ⟨c', n', q'⟩ := v1
    simp only [ok_bind, lli4_turned h]
    cases butils.lli4 q c q' c' with
    | none => rfl
    | some o =>
      cases d with
      | const r =>
        simp only [Option.map_some]
        simp [turnedBy, pyGet, List.range_succ]
        simp only [sub_fst, sub_snd, hypot_turned h]
        by_cases m1 : butils.hypot (p1.1 - o.1) (p1.2 - o.2) = 0
        · simp only [pdiv, m1, if_true]; rfl
        simp only [pdiv, m1, if_false, ok_bind, ← new_turned h, turnedBy, List.map_cons, List.map_nil]
        congr 1
        simp only [turnBy, List.cons.injEq, Prod.mk.injEq, and_true]
        refine ⟨⟨by ring, by ring⟩, ⟨?_, ?_⟩, by ring, by ring⟩ <;> split_ifs <;> ring
      | fn f =>
        have hder : ∀ t, derivative [turnBy a b p0, turnBy a b p1, turnBy a b p2] t = (derivative [p0, p1, p2] t).map (turnBy a b) :=
          fun t => derivative_turned a b [p0, p1, p2] t
        simp only [Option.map_some]
        simp [turnedBy, pyGet, List.range_succ, hder, along_turned]
        simp only [map_do, Flt.map_bind]
        congr 1; funext x
        simp only [along3_turned, lli4_turned h]
        cases butils.lli4 (p0.1 + f 0 * n.1, p0.2 + f 0 * n.2) (p0.1 + f 0 * n.1 + x.1, p0.2 + f 0 * n.2 + x.2) o p1 with
        | none => rfl
        | some y => exact new_turned h [_, _, _]
  | [p0, p1, p2, p3], _ =>
    simp only [scaleCore, turned, offsetPoint_turned h, Flt.map_bind, map_do, turnedBy_length]
    cases hv0 : offsetPoint [p0, p1, p2, p3] 0 10 with
    | error e => rfl
    | ok v0 =>
    cases hv1 : offsetPoint [p0, p1, p2, p3] 1 10 with
    | error e => rfl
    | ok v1 =>
    obtain ⟨c, n, q⟩ := v0
    obtain ⟨c', n', q'⟩ := v1
    simp only [ok_bind, lli4_turned h]
    cases butils.lli4 q c q' c' with
    | none => rfl
    | some o =>
      cases d with
      | const r =>
        simp only [Option.map_some]
        simp [turnedBy, pyGet, List.range_succ]
        simp only [sub_fst, sub_snd, hypot_turned h]
        by_cases m1 : butils.hypot (p1.1 - o.1) (p1.2 - o.2) = 0
        · simp only [pdiv, m1, if_true]; rfl
        by_cases m2 : butils.hypot (p2.1 - o.1) (p2.2 - o.2) = 0
        · simp only [pdiv, m1, m2, if_true, if_false]; rfl
        simp only [pdiv, m1, m2, if_false, ok_bind, ← new_turned h, turnedBy, List.map_cons, List.map_nil]
        congr 1
        simp only [turnBy, List.cons.injEq, Prod.mk.injEq, and_true]
        refine ⟨⟨by ring, by ring⟩, ⟨?_, ?_⟩, ⟨?_, ?_⟩, by ring, by ring⟩ <;> split_ifs <;> ring
      | fn f =>
        have hder : ∀ t, derivative [turnBy a b p0, turnBy a b p1, turnBy a b p2, turnBy a b p3] t = (derivative [p0, p1, p2, p3] t).map (turnBy a b) :=
          fun t => derivative_turned a b [p0, p1, p2, p3] t
        simp only [Option.map_some]
        simp [turnedBy, pyGet, List.range_succ, hder, along_turned]
        simp only [map_do, Flt.map_bind]
        congr 1; funext x
        simp only [along3_turned, lli4_turned h]
        cases butils.lli4 (p0.1 + f 0 * n.1, p0.2 + f 0 * n.2) (p0.1 + f 0 * n.1 + x.1, p0.2 + f 0 * n.2 + x.2) o p1 with
        | none => rfl
        | some y =>
          simp only [Option.map_some, ok_bind, List.getElem?_cons_succ, List.getElem?_cons_zero]
          congr 1; funext z
          simp only [add_turned, lli4_turned h]
          cases butils.lli4 (p3.1 + f 1 * n'.1, p3.2 + f 1 * n'.2) (p3.1 + f 1 * n'.1 + z.1, p3.2 + f 1 * n'.2 + z.2) o p2 with
          | none => rfl
          | some w => exact new_turned h [_, _, _, _]
  | [p0, p1], _ => rw [scaleCore_short _ (by simp [turned]), scaleCore_short _ (by simp)]; rfl
  | [p0], _ => rw [scaleCore_short _ (by simp [turned]), scaleCore_short _ (by simp)]; rfl
  | [], _ => rw [scaleCore_short _ (by simp [turned]), scaleCore_short _ (by simp)]; rfl

theorem scale_turned (h : a * a + b * b = 1) (c : Bezier) (d : Distance) (hl : c.controlPoints.length ≤ 4) :
    scale (turned a b c) d = (scale c d).map (turned a b) := by
  cases d with
  | const r => unfold scale; exact scaleCore_turned h c (.const r) hl
  | fn f =>
    by_cases h3 : c.controlPoints.length = 3
    · rw [C72_function_quadratic c h3, C72_function_quadratic (turned a b c) (by simpa [turned] using h3)]
      rfl
    · unfold scale
      have h2 : ¬ order c.controlPoints = 2 := by unfold order; omega
      simp only [show (turned a b c).controlPoints = turnedBy a b c.controlPoints from rfl, turnedBy_order, h2, if_false]
      exact scaleCore_turned h c (.fn f) hl

end Turned
end PathLib
