import Verif.Spec.Grown
import Verif.Lemmas.Moved

/-!
# Lemmas about scaled curves
-/

set_option linter.unusedSectionVars false
set_option linter.unusedSimpArgs false

namespace PathLib
namespace Grown
open Spec Bezier
open Moved (map_eq_ok map_eq_error map_do map_map map_mapM derivative_short offsetPoint_short scaleCore_short)

variable {K : Type} [Field K] [LinearOrder K] [IsStrictOrderedRing K]

@[simp] theorem grownBy_length {K : Type} [Field K] (k : K) (ps : Segment K) : (grownBy k ps).length = ps.length := by simp [grownBy]

@[simp] theorem grownBy_order {K : Type} [Field K] (k : K) (ps : Segment K) : order (grownBy k ps) = order ps := by
  simp [order]

theorem pyGet_grown {K : Type} [Field K] (k : K) (ps : Segment K) (i : Int) : pyGet (grownBy k ps) i = (pyGet ps i).map (growBy k) :=
  Flt.pyGet_map _ _ _

theorem growBy_eq_affine (k : K) : growBy k = affineMap k 0 0 k 0 0 := by
  funext p; simp [growBy, affineMap]

theorem get_grown (k : K) (ps : Segment K) (t : K) : Bezier.get (grownBy k ps) t = (Bezier.get ps t).map (growBy k) := by
  by_cases h : ps = []
  · subst h
    simp only [grownBy, List.map_nil]
    rw [Moved.get_nil]
    rfl
  · rw [get_ok ps h, get_ok (grownBy k ps) (by simpa [grownBy] using h), growBy_eq_affine, grownBy, growBy_eq_affine, curve_affine _ _ _ _ _ _ _ h]
    rfl

theorem lerp_grown (k : K) (r : K) (a b : Pt K) : butils.lerp r (growBy k a) (growBy k b) = growBy k (butils.lerp r a b) := by
  simp only [butils.lerp, growBy, Prod.mk.injEq]
  constructor <;> ring

theorem hullStep_grown (k : K) (t : K) (ps : Segment K) : hullStep t (grownBy k ps) = grownBy k (hullStep t ps) := by
  unfold hullStep grownBy
  rw [← List.map_tail, List.zipWith_map, List.map_zipWith]
  simp only [lerp_grown]

theorem hullLoop_grown (k : K) (t : K) (n : ℕ) : ∀ ps : Segment K, ps.length = n → hullLoop t (grownBy k ps) = grownBy k (hullLoop t ps) := by
  induction n with
  | zero =>
    intro ps h
    have : ps = [] := List.length_eq_zero_iff.mp h
    subst this
    rw [show grownBy k ([] : Segment K) = [] from rfl, hullLoop]
    rfl
  | succ n ih =>
    intro ps h
    rw [hullLoop, hullLoop.eq_def t ps, grownBy_length]
    split_ifs
    · rw [hullStep_grown, ih _ (by rw [hullStep_length, h]; rfl)]
      simp [grownBy]
    · rfl

theorem hull_grown (k : K) (ps : Segment K) (t : K) : hull (grownBy k ps) t = grownBy k (hull ps t) := by
  unfold hull
  rw [hullLoop_grown k t _ ps rfl]
  simp [grownBy]

theorem dcStep_grown (k : K) (ps : Segment K) : dcStep (grownBy k ps) = grownBy k (dcStep ps) := by
  unfold dcStep
  simp only [grownBy_length]
  unfold grownBy
  rw [← List.map_tail, List.zipWith_map, List.map_zipWith]
  congr 1
  funext a b
  simp only [growBy, Prod.mk.injEq]
  constructor <;> ring

theorem dcPoints_grown_aux (k : K) (n : ℕ) : ∀ ps : Segment K, ps.length = n → dcPoints (grownBy k ps) = (dcPoints ps).map (grownBy k) := by
  induction n with
  | zero =>
    intro ps h
    have : ps = [] := List.length_eq_zero_iff.mp h
    subst this
    rw [show grownBy k ([] : Segment K) = [] from rfl, dcPoints]
    rfl
  | succ n ih =>
    intro ps h
    rw [dcPoints, dcPoints.eq_def ps, grownBy_length]
    split_ifs
    · rw [dcStep_grown, ih _ (by rw [dcStep_length, h]; rfl), List.map_cons]
    · rfl

theorem dcPoints_grown (k : K) (ps : Segment K) : dcPoints (grownBy k ps) = (dcPoints ps).map (grownBy k) := dcPoints_grown_aux k _ ps rfl

theorem derivativeOf_grown (k : K) (n : Int) (p : Segment K) (t : K) : derivativeOf n (grownBy k p) t = (derivativeOf n p t).map (growBy k) := by
  have hz : ((0, 0) : Pt K) = growBy k (0, 0) := by simp [growBy]
  unfold derivativeOf
  by_cases hn : n = 2
  · subst hn
    simp only [if_true, pyGet_grown, Flt.map_bind, map_do, bind_assoc, pure_eq_ok, ok_bind]
    congr 1; funext a; congr 1; funext b
    simp [pyGet, map_eq_ok, growBy]
    constructor <;> ring
  · simp only [hn, if_false, pyGet_grown, Flt.map_bind, map_do, bind_assoc, pure_eq_ok, ok_bind, map_eq_ok]
    congr 1; funext a; congr 1; funext b; congr 1; funext c
    simp only [growBy, Except.ok.injEq, Prod.mk.injEq]
    constructor <;> ring

theorem derivative_grown (k : K) (ps : Segment K) (t : K) : derivative (grownBy k ps) t = (derivative ps t).map (growBy k) := by
  unfold derivative
  rw [dcPoints_grown, grownBy_order, Flt.pyGet_map, Flt.map_bind, map_do]
  simp only [derivativeOf_grown]

theorem lutOf_grown (k : K) (ps : Segment K) (n : Int) : lutOf (grownBy k ps) n = (lutOf ps n).map (grownBy k) := by
  simp only [lutOf]
  refine map_mapM _ _ _ _ fun i _ => ?_
  rw [map_do]
  simp only [get_grown]

theorem raiseOrderPoints_grown (k : K) (ps : Segment K) : raiseOrderPoints (grownBy k ps) = (raiseOrderPoints ps).map (grownBy k) := by
  unfold raiseOrderPoints
  simp only [pyGet_grown, Flt.map_bind, grownBy_length]
  rw [map_mapM _ (fun (i : Nat) => do
    let pi ← pyGet ps (i : Int)
    let pim ← pyGet ps ((i : Int) - 1)
    let w1 ← pdiv ((ps.length : K) - (i : K)) (ps.length : K)
    let w2 ← pdiv (i : K) (ps.length : K)
    return (w1 * pi.1 + w2 * pim.1, w1 * pi.2 + w2 * pim.2)) (growBy k)]
  · simp only [map_do, Flt.map_bind, pure_eq_ok, map_eq_ok, grownBy, List.map_append, List.map_cons, List.map_nil]
  · intro i _
    simp only [map_do, Flt.map_bind, pure_eq_ok, ok_bind, map_eq_ok, growBy]
    congr 1; funext a; congr 1; funext b; congr 1; funext c; congr 1; funext d
    congr 1
    ext <;> simp only <;> ring

variable {k : K} (hk : 0 < k)

theorem computeDirection_grown {k : K} (hk : 0 < k) (ps : Segment K) : computeDirection (grownBy k ps) = computeDirection ps := by
  unfold computeDirection
  simp only [pyGet_grown, Flt.map_bind, grownBy_order, growBy, mul_le_mul_iff_right₀ hk, mul_lt_mul_iff_right₀ hk, ge_iff_le, mul_right_inj' hk.ne']

theorem lli8_grown {k : K} (hk : 0 < k) (x1 y1 x2 y2 x3 y3 x4 y4 : K) :
    butils.lli8 (k * x1) (k * y1) (k * x2) (k * y2) (k * x3) (k * y3) (k * x4) (k * y4) =
    (butils.lli8 x1 y1 x2 y2 x3 y3 x4 y4).map (growBy k) := by
  simp only [butils.lli8]
  have hd : (k * x1 - k * x2) * (k * y3 - k * y4) - (k * y1 - k * y2) * (k * x3 - k * x4) =
      k * k * ((x1 - x2) * (y3 - y4) - (y1 - y2) * (x3 - x4)) := by ring
  have hk0 := hk.ne'
  rw [hd]
  by_cases h : (x1 - x2) * (y3 - y4) - (y1 - y2) * (x3 - x4) = 0
  · simp [h]
  · rw [if_neg h, if_neg (mul_ne_zero (mul_ne_zero hk0 hk0) h)]
    simp only [Option.map_some, growBy, Option.some.injEq, Prod.mk.injEq]
    generalize (x1 - x2) * (y3 - y4) - (y1 - y2) * (x3 - x4) = d at h
    constructor <;> field_simp

theorem lli4_grown {k : K} (hk : 0 < k) (a b c d : Pt K) :
    butils.lli4 (growBy k a) (growBy k b) (growBy k c) (growBy k d) = (butils.lli4 a b c d).map (growBy k) :=
  lli8_grown hk _ _ _ _ _ _ _ _

theorem getABC_grown {k : K} (hk : 0 < k) (ps : Segment K) (t : K) : getABC (grownBy k ps) t =
    (getABC ps t).map fun (a, b, c, r, h) => (growBy k a, growBy k b, c.map (growBy k), r, grownBy k h) := by
  unfold getABC
  simp only [hull_grown, pyGet_grown, Flt.map_bind, grownBy_order]
  split_ifs <;> simp only [map_do, bind_assoc, pure_bind, Flt.map_bind, lli4_grown hk, pure_eq_ok, ok_bind, map_eq_ok]

/-! ### Curves over the real numbers -/

theorem getDeltas_grown (k : K) (s : Segment K) : PathUtilities.getDeltas (grownBy k s) = (PathUtilities.getDeltas s).map (growBy k) := by
  unfold PathUtilities.getDeltas PathUtilities.endPoints
  simp only [pyGet_grown, Flt.map_bind, bind_assoc, growBy, pure_eq_ok, ok_bind, map_do, map_eq_ok, mul_sub]

theorem atan2_grown {k : ℝ} (hk : 0 < k) (y x : ℝ) : butils.atan2 (k * y) (k * x) = butils.atan2 y x := by
  unfold butils.atan2
  rw [← Complex.arg_real_mul ⟨x, y⟩ hk]
  congr 1
  apply Complex.ext <;> simp

theorem rawSlopeAngle_grown {k : ℝ} (hk : 0 < k) (s : Segment ℝ) : PathUtilities.rawSlopeAngle (grownBy k s) = PathUtilities.rawSlopeAngle s := by
  unfold PathUtilities.rawSlopeAngle
  rw [getDeltas_grown, Flt.map_bind]
  simp only [growBy, atan2_grown hk]

theorem alignPoints_grown {k : ℝ} (hk : 0 < k) (ps s : Segment ℝ) : alignPoints (grownBy k ps) (grownBy k s) = (alignPoints ps s).map (grownBy k) := by
  cases h1 : PathUtilities.rawSlopeAngle s with
  | error e => unfold alignPoints; rw [rawSlopeAngle_grown hk, h1]; rfl
  | ok angle =>
    cases h2 : pyGet s 0 with
    | error e => unfold alignPoints; rw [rawSlopeAngle_grown hk, h1, pyGet_grown, h2]; rfl
    | ok first =>
      rw [alignPoints_ok ps s first angle h2 h1, alignPoints_ok (grownBy k ps) (grownBy k s) (growBy k first) angle
        (by rw [pyGet_grown, h2]; rfl) (by rw [rawSlopeAngle_grown hk, h1])]
      simp only [grownBy, map_eq_ok, List.map_map]
      congr 1
      refine List.map_congr_left fun p _ => ?_
      simp only [Function.comp_apply, alignMap, growBy, Prod.mk.injEq]
      constructor <;> ring

theorem angle_grown {k : ℝ} (hk : 0 < k) (a b c : Pt ℝ) : butils.angle (growBy k a) (growBy k b) (growBy k c) = butils.angle a b c := by
  simp only [butils.angle, growBy]
  refine Eq.trans ?_ (atan2_grown (mul_pos hk hk) _ _)
  congr 1 <;> ring

theorem new_grown {k : ℝ} (hk : 0 < k) (ps : Segment ℝ) : Bezier.new (grownBy k ps) = (Bezier.new ps).map (grown k) := by
  have key : ∃ l : Bezier → Bool, Bezier.new (grownBy k ps) =
      (Bezier.new ps).map fun b => { b with controlPoints := grownBy k b.controlPoints, linear := l b } := by
    have e : ∀ a b : Pt ℝ, [growBy k a, growBy k b] = grownBy k [a, b] := fun _ _ => rfl
    unfold Bezier.new
    simp only [computeDirection_grown hk, pyGet_grown, Flt.map_bind, e, alignPoints_grown hk, angle_grown hk, map_do, pure_eq_ok, map_eq_ok]
    cases computeDirection ps with
    | error e => exact ⟨fun _ => false, rfl⟩
    | ok d =>
      cases pyGet ps 0 with
      | error e => exact ⟨fun _ => false, rfl⟩
      | ok p0 =>
        cases pyGet ps (-1) with
        | error e => exact ⟨fun _ => false, rfl⟩
        | ok p1 =>
          simp only [ok_bind]
          cases alignPoints ps [p0, p1] with
          | error e => exact ⟨fun _ => false, rfl⟩
          | ok al =>
            simp only [ok_bind]
            cases pyGet ps 1 with
            | error e => exact ⟨fun _ => false, rfl⟩
            | ok p2 => exact ⟨fun _ => decide (((grownBy k al).filter fun x => decide (|x.2| > 1 / 10000)).length = 0), rfl⟩
  obtain ⟨l, hl⟩ := key
  cases hn : Bezier.new ps with
  | error e => rw [hl, hn]; rfl
  | ok b =>
    have hb := (new_controlPoints hn).1
    rw [hl, hn, map_eq_ok, map_eq_ok]
    unfold grown linearOf
    rw [hb, hl, hn]
    simp only [map_eq_ok, hb]

theorem sqrt_grown {k : ℝ} (hk : 0 < k) (x y : ℝ) : Real.sqrt (k * x * (k * x) + k * y * (k * y)) = k * Real.sqrt (x * x + y * y) := by
  rw [show k * x * (k * x) + k * y * (k * y) = k ^ 2 * (x * x + y * y) by ring, Real.sqrt_mul (by positivity), Real.sqrt_sq hk.le]

theorem hypot_grown {k : ℝ} (hk : 0 < k) (x y : ℝ) : butils.hypot (k * x) (k * y) = k * butils.hypot x y := sqrt_grown hk x y

theorem pdiv_grown {k : ℝ} (hk : 0 < k) (x q : ℝ) : pdiv (k * x) (k * q) = pdiv x q := by
  unfold pdiv
  by_cases h : q = 0
  · simp [h]
  · rw [if_neg h, if_neg (mul_ne_zero hk.ne' h), mul_div_mul_left _ _ hk.ne']

theorem normal_grown {k : ℝ} (hk : 0 < k) (ps : Segment ℝ) (t : ℝ) : normal (grownBy k ps) t = normal ps t := by
  unfold normal
  rw [derivative_grown, Flt.map_bind]
  simp only [growBy, sqrt_grown hk, pdiv_grown hk, ← mul_neg]

theorem tangent_grown {k : ℝ} (hk : 0 < k) (ps : Segment ℝ) (t : ℝ) : tangent (grownBy k ps) t = tangent ps t := by
  unfold tangent
  rw [derivative_grown, Flt.map_bind]
  simp only [growBy, hypot_grown hk, pdiv_grown hk]

theorem droots_grown {k : ℝ} (hk : 0 < k) (p : List ℝ) : butils.droots (p.map (k * ·)) = butils.droots p := by
  have hk0 := hk.ne'
  match p with
  | [] => rfl
  | [a] => rfl
  | [a, b] =>
    simp only [List.map_cons, List.map_nil, butils.droots, ne_eq, mul_right_inj' hk0]
    split_ifs
    · rfl
    · rw [← mul_sub, mul_div_mul_left _ _ hk0]
  | [a, b, c] =>
    simp only [List.map_cons, List.map_nil, butils.droots, ne_eq, mul_right_inj' hk0]
    have hd : k * a - 2 * (k * b) + k * c = k * (a - 2 * b + c) := by ring
    have hr : k * b * (k * b) - k * a * (k * c) = k ^ 2 * (b * b - a * c) := by ring
    have hs : butils.sqrt (k ^ 2 * (b * b - a * c)) = (butils.sqrt (b * b - a * c)).map (k * ·) := by
      unfold butils.sqrt
      have : k ^ 2 * (b * b - a * c) < 0 ↔ b * b - a * c < 0 := by
        constructor
        · intro h; by_contra h'; rw [not_lt] at h'; have := mul_nonneg (sq_nonneg k) h'; linarith
        · intro h; exact mul_neg_of_pos_of_neg (by positivity) h
      simp only [this]
      split_ifs
      · rfl
      · rw [Real.sqrt_mul (by positivity), Real.sqrt_sq hk.le]; rfl
    rw [hd, hr, hs]
    by_cases h0 : a - 2 * b + c = 0
    · simp only [h0, mul_zero, not_true_eq_false, if_false]
      split_ifs
      · rw [show 2 * (k * b) - k * c = k * (2 * b - c) by ring, show 2 * (k * b - k * c) = k * (2 * (b - c)) by ring, mul_div_mul_left _ _ hk0]
      · rfl
    · simp only [h0, mul_eq_zero, hk0, or_self, not_false_eq_true, if_true]
      cases butils.sqrt (b * b - a * c) with
      | none => rfl
      | some s =>
        simp only [Option.map_some]
        congr 2
        · rw [show -(-(k * s) + (-(k * a) + k * b)) = k * -(-s + (-a + b)) by ring, mul_div_mul_left _ _ hk0]
        · rw [show -(- -(k * s) + (-(k * a) + k * b)) = k * -(- -s + (-a + b)) by ring, mul_div_mul_left _ _ hk0]
  | a :: b :: c :: d :: l => rfl

theorem coord_grown (k : ℝ) (dim : Fin 2) (ps : Segment ℝ) : (grownBy k ps).map (coord dim) = (ps.map (coord dim)).map (k * ·) := by
  simp only [grownBy, List.map_map]
  refine List.map_congr_left fun p _ => ?_
  simp only [Function.comp_apply, coord, growBy]
  split_ifs <;> rfl

theorem extremaDim_grown {k : ℝ} (hk : 0 < k) (n : Int) (dc : List (Segment ℝ)) (dim : Fin 2) :
    extremaDim n (dc.map (grownBy k)) dim = extremaDim n dc dim := by
  unfold extremaDim
  simp only [Flt.pyGet_map, Flt.map_bind, coord_grown, droots_grown hk]

theorem extrema_grown {k : ℝ} (hk : 0 < k) (ps : Segment ℝ) : extrema (grownBy k ps) = extrema ps := by
  unfold extrema extremaOf
  rw [dcPoints_grown, grownBy_order]
  simp only [extremaDim_grown hk]

theorem arcfun_grown {k : ℝ} (hk : 0 < k) (ps : Segment ℝ) (t : ℝ) : arcfun (grownBy k ps) t = (arcfun ps t).map (k * ·) := by
  unfold arcfun
  simp only [derivative_grown, Flt.map_bind, map_do, growBy, sqrt_grown hk, pure_eq_ok, map_eq_ok]

theorem lengthOf_grown {k : ℝ} (hk : 0 < k) (ps : Segment ℝ) : lengthOf (grownBy k ps) = (lengthOf ps).map (k * ·) := by
  unfold lengthOf
  have key : ∀ (l : List Nat) (s : ℝ), (l.foldlM (fun sum (i : Nat) => (do
      let tv ← pyGet butils.tValues (i : Int)
      let cv ← pyGet butils.cValues (i : Int)
      let t := (tv : ℝ) * (1 / 2) + 1 / 2
      return (cv : ℝ) * (← arcfun (grownBy k ps) t) + sum : Py ℝ)) (k * s)) = (l.foldlM (fun sum (i : Nat) => (do
      let tv ← pyGet butils.tValues (i : Int)
      let cv ← pyGet butils.cValues (i : Int)
      let t := (tv : ℝ) * (1 / 2) + 1 / 2
      return (cv : ℝ) * (← arcfun ps t) + sum : Py ℝ)) s).map (k * ·) := by
    intro l
    induction l with
    | nil => intro s; rfl
    | cons i l ih =>
      intro s
      simp only [List.foldlM_cons, arcfun_grown hk, Flt.map_bind, map_do, bind_assoc, pure_eq_ok, ok_bind] at ih ⊢
      congr 1; funext a; congr 1; funext b; congr 1; funext c
      rw [← ih]
      congr 1
      ring
  have := key (List.range butils.tValues.length) 0
  rw [mul_zero] at this
  simp only at this ⊢
  rw [this, Flt.map_bind, map_do]
  congr 1; funext s
  simp only [pure_eq_ok, map_eq_ok]
  congr 1
  ring

theorem simple_grown {k : ℝ} (hk : 0 < k) (ps : Segment ℝ) : simple (grownBy k ps) = simple ps := by
  unfold simple
  simp only [pyGet_grown, Flt.map_bind, angle_grown hk, normal_grown hk, grownBy_order]

theorem split1_grown {k : ℝ} (hk : 0 < k) (b : Bezier) (t : ℝ) :
    split1 (grown k b) t = (split1 b t).map fun (l, r, q) => (grown k l, grown k r, grownBy k q) := by
  unfold split1
  have e3 : ∀ a b c : Pt ℝ, Bezier.new [growBy k a, growBy k b, growBy k c] = (Bezier.new [a, b, c]).map (grown k) := fun _ _ _ => new_grown hk [_, _, _]
  have e4 : ∀ a b c d : Pt ℝ, Bezier.new [growBy k a, growBy k b, growBy k c, growBy k d] = (Bezier.new [a, b, c, d]).map (grown k) :=
    fun _ _ _ _ => new_grown hk [_, _, _, _]
  simp only [grown, hull_grown, pyGet_grown, Flt.map_bind, grownBy_order, e3, e4]
  split_ifs <;> simp only [map_do, bind_assoc, Flt.map_bind, pure_eq_ok, ok_bind, map_eq_ok, grown]

theorem split_grown {k : ℝ} (hk : 0 < k) (b : Bezier) (t1 : ℝ) (t2 : Option ℝ) : split (grown k b) t1 t2 = (split b t1 t2).map (grownSplit k) := by
  unfold split
  cases t2 with
  | none => simp only [split1_grown hk, Flt.map_bind, map_do, pure_eq_ok, map_eq_ok, grownSplit]
  | some t2 =>
    simp only [split1_grown hk, Flt.map_bind, pure_eq_ok]
    split_ifs <;> simp only [map_do, Flt.map_bind, split1_grown hk, map_eq_ok, grownSplit]

theorem splitPiece_grown {k : ℝ} (hk : 0 < k) (b : Bezier) (t1 t2 : ℝ) : splitPiece (grown k b) t1 t2 = (splitPiece b t1 t2).map (grown k) := by
  unfold splitPiece
  rw [split_grown hk, Flt.map_bind, map_do]
  congr 1
  funext x
  cases x <;> rfl

/-! ### Reduction -/

theorem reducePass1_grown {k : ℝ} (hk : 0 < k) (b : Bezier) (ts : List ℝ) : ∀ t1, reducePass1 (grown k b) t1 ts = (reducePass1 b t1 ts).map (List.map (grown k)) := by
  induction ts with
  | nil => intro t1; rfl
  | cons t2 ts ih =>
    intro t1
    simp only [reducePass1, splitPiece_grown hk, Flt.map_bind, ih, map_do, pure_eq_ok, map_eq_ok, List.map_cons]
    rfl

theorem reduceLoop_grown {k : ℝ} (hk : 0 < k) (p1 : Bezier) (t1 t2 : ℝ) (h : t1 < t2) :
    reduceLoop (grown k p1) t1 t2 h = (reduceLoop p1 t1 t2 h).map (Option.map fun r => (r.1.map (grown k), r.2)) := by
  induction t1, t2, h using reduceLoop.induct with
  | case1 t1 t2 h h2 ih1 ih2 =>
    rw [reduceLoop, reduceLoop.eq_def p1 t1 t2 h, dif_pos h2, dif_pos h2]
    simp only [splitPiece_grown hk, Flt.map_bind, map_do]
    congr 1
    funext segment
    simp only [show (grown k segment).controlPoints = grownBy k segment.controlPoints from rfl, simple_grown hk]
    congr 1
    funext sb
    cases sb with
    | true =>
      simp only [Bool.not_true, Bool.false_eq_true, if_false]
      exact ih2
    | false =>
      simp only [Bool.not_false, if_true]
      split_ifs with hs
      · rfl
      · simp only [map_do]
        rw [ih1 hs]
        simp only [Flt.map_bind]
        congr 1; funext x; congr 1; funext y; congr 1; funext z; congr 1; funext w
        cases w <;> rfl
  | case2 t1 t2 h h2 =>
    rw [reduceLoop, reduceLoop.eq_def p1 t1 t2 h, dif_neg h2, dif_neg h2]
    rfl

theorem reducePass2_grown {k : ℝ} (hk : 0 < k) (l : List Bezier) : reducePass2 (l.map (grown k)) = (reducePass2 l).map (Option.map (List.map (grown k))) := by
  induction l with
  | nil => rfl
  | cons p1 rest ih =>
    simp only [List.map_cons, reducePass2, reduceLoop_grown hk, Flt.map_bind, map_do]
    congr 1
    funext x
    cases x with
    | none => rfl
    | some x =>
      obtain ⟨ps, t1⟩ := x
      simp only [Option.map_some, splitPiece_grown hk, Flt.map_bind, ih]
      split_ifs <;> simp only [map_do, bind_assoc, pure_eq_ok, ok_bind]
      · congr 1; funext x; congr 1; funext y; congr 1; funext z
        cases z <;> simp [map_eq_ok, grown]
      · congr 1; funext z
        cases z <;> simp [map_eq_ok]

theorem reduceWith_grown {k : ℝ} (hk : 0 < k) (b : Bezier) (ts : List ℝ) : reduceWith (grown k b) ts = (reduceWith b ts).map (List.map (grown k)) := by
  unfold reduceWith
  cases addEnds ts with
  | nil => rfl
  | cons t1 rest =>
    simp only [reducePass1_grown hk, Flt.map_bind, reducePass2_grown hk, map_do]
    congr 1; funext x; congr 1; funext y
    cases y <;> rfl

theorem reduce_grown {k : ℝ} (hk : 0 < k) (b : Bezier) : reduce (grown k b) = (reduce b).map (List.map (grown k)) := by
  unfold reduce
  simp only [map_do, ← reduceWith_grown hk]
  rw [show (grown k b).controlPoints = grownBy k b.controlPoints from rfl, extrema_grown hk]

end Grown
end PathLib
