import Verif.Lemmas.Grown

set_option linter.unusedSectionVars false
set_option linter.unusedSimpArgs false

/-!
# Scaling curves: offsets and roots
-/

namespace PathLib.Grown
open Spec Bezier
open Moved (map_eq_ok map_eq_error map_do map_map map_mapM derivative_short offsetPoint_short scaleCore_short)

theorem raiseOrder_grown {k : ℝ} (hk : 0 < k) (b : Bezier) : raiseOrder (grown k b) = (raiseOrder b).map (grown k) := by
  unfold raiseOrder
  rw [show (grown k b).controlPoints = grownBy k b.controlPoints from rfl, raiseOrderPoints_grown]
  simp only [Flt.map_bind, map_do, new_grown hk]

theorem offsetPoint_grown {k : ℝ} (hk : 0 < k) (ps : Segment ℝ) (t d : ℝ) :
    offsetPoint (grownBy k ps) t (k * d) = (offsetPoint ps t d).map fun (c, n, p) => (growBy k c, n, growBy k p) := by
  unfold offsetPoint
  simp only [get_grown, normal_grown hk, Flt.map_bind, map_do, pure_eq_ok, map_eq_ok, growBy, mul_add, mul_left_comm]

/-- The points at a fixed distance. -/
theorem offsetPoint_fixed {k : ℝ} (hk : 0 < k) (ps : Segment ℝ) (t d : ℝ) :
    offsetPoint (grownBy k ps) t d = (offsetPoint ps t d).map fun (c, n, _) => (growBy k c, n, (k * c.1 + n.1 * d, k * c.2 + n.2 * d)) := by
  unfold offsetPoint
  simp only [get_grown, normal_grown hk, Flt.map_bind, map_do, pure_eq_ok, map_eq_ok, growBy]

theorem offsetLinear_grown {k : ℝ} (hk : 0 < k) (b : Bezier) (t : ℝ) : offsetLinear (grown k b) (k * t) = (offsetLinear b t).map (grown k) := by
  unfold offsetLinear
  rw [show (grown k b).controlPoints = grownBy k b.controlPoints from rfl]
  simp only [normal_grown hk, map_do, ← new_grown hk]
  congr 1
  funext n
  simp only [grownBy, List.map_map, Function.comp_def, growBy, mul_add, mul_assoc]

/-- The lines through the end points along the normals meet in the scaled point. -/
theorem lli4_fixed (k : ℝ) (c n d m : Pt ℝ) :
    butils.lli4 (k * c.1 + n.1 * 10, k * c.2 + n.2 * 10) (growBy k c) (k * d.1 + m.1 * 10, k * d.2 + m.2 * 10) (growBy k d) =
    (butils.lli4 (c.1 + n.1 * 10, c.2 + n.2 * 10) c (d.1 + m.1 * 10, d.2 + m.2 * 10) d).map (growBy k) := by
  simp only [butils.lli4, butils.lli8, growBy]
  have e : (k * c.1 + n.1 * 10 - k * c.1) * (k * d.2 + m.2 * 10 - k * d.2) - (k * c.2 + n.2 * 10 - k * c.2) * (k * d.1 + m.1 * 10 - k * d.1) =
      (c.1 + n.1 * 10 - c.1) * (d.2 + m.2 * 10 - d.2) - (c.2 + n.2 * 10 - c.2) * (d.1 + m.1 * 10 - d.1) := by ring
  simp only [e]
  split_ifs
  · rfl
  · simp only [Option.map_some, growBy, Option.some.injEq, Prod.mk.injEq, ← mul_div_assoc]
    constructor
    · congr 1; ring
    · congr 1; ring

theorem offsetPoint_spec (ps : Segment ℝ) (t d : ℝ) (c n p : Pt ℝ) (h : offsetPoint ps t d = .ok (c, n, p)) : p = (c.1 + n.1 * d, c.2 + n.2 * d) := by
  unfold offsetPoint at h
  simp only [bind_eq_ok, pure_eq_ok, Except.ok.injEq, Prod.mk.injEq] at h
  obtain ⟨_, _, _, _, rfl, rfl, rfl⟩ := h
  rfl

private theorem pull (k : ℝ) (a : Pt ℝ) (x y u w : ℝ) : (k * a.1 + k * x * u, k * a.2 + k * y * w) = growBy k (a.1 + x * u, a.2 + y * w) := by
  simp only [growBy, mul_add, mul_assoc]

private theorem pull3 (k : ℝ) (a b : Pt ℝ) (x u w : ℝ) :
    ((growBy k a).1 + k * x * u + (growBy k b).1, (growBy k a).2 + k * x * w + (growBy k b).2) = growBy k (a.1 + x * u + b.1, a.2 + x * w + b.2) := by
  simp only [growBy, mul_add, mul_assoc]

private theorem pull2 (k : ℝ) (a b : Pt ℝ) : ((growBy k a).1 + (growBy k b).1, (growBy k a).2 + (growBy k b).2) = growBy k (a.1 + b.1, a.2 + b.2) := by
  simp only [growBy, mul_add]

theorem scaleCore_grown {k : ℝ} (hk : 0 < k) (b : Bezier) (d : Distance) (h : b.controlPoints.length ≤ 4) :
    scaleCore (grown k b) (grownDistance k d) = (scaleCore b d).map (grown k) := by
  obtain ⟨ps, bt1, bt2, dir, lin, cw⟩ := b
  simp only at h
  have hneg : ∀ r : ℝ, (if !cw then -(k * r) else k * r) = k * (if !cw then -r else r) := by
    intro r; split_ifs <;> ring
  match ps, h with
  | [p0, p1, p2], _ =>
    simp only [scaleCore, grown, offsetPoint_fixed hk, Flt.map_bind, map_do, grownBy_length]
    cases hv0 : offsetPoint [p0, p1, p2] 0 10 with
    | error e => rfl
    | ok v0 =>
    cases hv1 : offsetPoint [p0, p1, p2] 1 10 with
    | error e => rfl
    | ok v1 =>
    obtain ⟨c, n, q⟩ := v0
    obtain ⟨c', n', q'⟩ := v1
    obtain rfl := offsetPoint_spec _ _ _ _ _ _ hv0
    obtain rfl := offsetPoint_spec _ _ _ _ _ _ hv1
    simp only [ok_bind, lli4_fixed]
    cases butils.lli4 (c.1 + n.1 * 10, c.2 + n.2 * 10) c (c'.1 + n'.1 * 10, c'.2 + n'.2 * 10) c' with
    | none => rfl
    | some o =>
      cases d with
      | const r =>
        simp only [Option.map_some, grownDistance]
        simp [grownBy, pyGet, List.range_succ]
        simp only [growBy, ← mul_sub, hypot_grown hk, pdiv_grown hk, map_do, ← new_grown hk]
        congr 1; funext x1; congr 1; funext x2; congr 1
        simp only [grownBy, growBy, List.map_cons, List.map_nil, mul_add, List.cons.injEq, Prod.mk.injEq, and_true]
        refine ⟨⟨by ring, by ring⟩, ⟨?_, ?_⟩, by ring, by ring⟩ <;> split_ifs <;> ring
      | fn f =>
        have hder : ∀ t, derivative [growBy k p0, growBy k p1, growBy k p2] t = (derivative [p0, p1, p2] t).map (growBy k) := fun t => derivative_grown k [p0, p1, p2] t
        have h0 : ∀ (a : Pt ℝ) (x u w : ℝ), ((growBy k a).1 + k * x * u, (growBy k a).2 + k * x * w) = growBy k (a.1 + x * u, a.2 + x * w) :=
          fun a x u w => pull k a x x u w
        simp only [Option.map_some, grownDistance]
        simp [grownBy, pyGet, List.range_succ, hder, h0]
        simp only [map_do, Flt.map_bind]
        congr 1; funext x
        simp only [pull3, lli4_grown hk]
        cases butils.lli4 (p0.1 + f 0 * n.1, p0.2 + f 0 * n.2) (p0.1 + f 0 * n.1 + x.1, p0.2 + f 0 * n.2 + x.2) o p1 with
        | none => rfl
        | some y => exact new_grown hk [_, _, _]
  | [p0, p1, p2, p3], _ =>
    simp only [scaleCore, grown, offsetPoint_fixed hk, Flt.map_bind, map_do, grownBy_length]
    cases hv0 : offsetPoint [p0, p1, p2, p3] 0 10 with
    | error e => rfl
    | ok v0 =>
    cases hv1 : offsetPoint [p0, p1, p2, p3] 1 10 with
    | error e => rfl
    | ok v1 =>
    obtain ⟨c, n, q⟩ := v0
    obtain ⟨c', n', q'⟩ := v1
    obtain rfl := offsetPoint_spec _ _ _ _ _ _ hv0
    obtain rfl := offsetPoint_spec _ _ _ _ _ _ hv1
    simp only [ok_bind, lli4_fixed]
    cases butils.lli4 (c.1 + n.1 * 10, c.2 + n.2 * 10) c (c'.1 + n'.1 * 10, c'.2 + n'.2 * 10) c' with
    | none => rfl
    | some o =>
      cases d with
      | const r =>
        simp only [Option.map_some, grownDistance]
        simp [grownBy, pyGet, List.range_succ]
        simp only [growBy, ← mul_sub, hypot_grown hk, pdiv_grown hk, map_do, ← new_grown hk]
        congr 1; funext x1; congr 1; funext x2; congr 1; funext x3; congr 1; funext x4; congr 1
        simp only [grownBy, growBy, List.map_cons, List.map_nil, mul_add, List.cons.injEq, Prod.mk.injEq, and_true]
        refine ⟨⟨by ring, by ring⟩, ⟨?_, ?_⟩, ⟨?_, ?_⟩, by ring, by ring⟩ <;> split_ifs <;> ring
      | fn f =>
        have hder : ∀ t, derivative [growBy k p0, growBy k p1, growBy k p2, growBy k p3] t = (derivative [p0, p1, p2, p3] t).map (growBy k) :=
          fun t => derivative_grown k [p0, p1, p2, p3] t
        have h0 : ∀ (a : Pt ℝ) (x u w : ℝ), ((growBy k a).1 + k * x * u, (growBy k a).2 + k * x * w) = growBy k (a.1 + x * u, a.2 + x * w) :=
          fun a x u w => pull k a x x u w
        simp only [Option.map_some, grownDistance]
        simp [grownBy, pyGet, List.range_succ, hder, h0]
        simp only [map_do, Flt.map_bind]
        congr 1; funext x
        simp only [pull3, lli4_grown hk]
        cases butils.lli4 (p0.1 + f 0 * n.1, p0.2 + f 0 * n.2) (p0.1 + f 0 * n.1 + x.1, p0.2 + f 0 * n.2 + x.2) o p1 with
        | none => rfl
        | some y =>
          simp only [Option.map_some, ok_bind, List.getElem?_cons_succ, List.getElem?_cons_zero]
          congr 1; funext z
          simp only [pull2, lli4_grown hk]
          cases butils.lli4 (p3.1 + f 1 * n'.1, p3.2 + f 1 * n'.2) (p3.1 + f 1 * n'.1 + z.1, p3.2 + f 1 * n'.2 + z.2) o p2 with
          | none => rfl
          | some w => exact new_grown hk [_, _, _, _]
  | [p0, p1], _ => rw [scaleCore_short _ (by simp [grown]), scaleCore_short _ (by simp)]; rfl
  | [p0], _ => rw [scaleCore_short _ (by simp [grown]), scaleCore_short _ (by simp)]; rfl
  | [], _ => rw [scaleCore_short _ (by simp [grown]), scaleCore_short _ (by simp)]; rfl

theorem scale_grown {k : ℝ} (hk : 0 < k) (b : Bezier) (d : Distance) (h : b.controlPoints.length ≤ 4) :
    scale (grown k b) (grownDistance k d) = (scale b d).map (grown k) := by
  cases d with
  | const r => unfold scale; exact scaleCore_grown hk b (.const r) h
  | fn f =>
    by_cases h3 : b.controlPoints.length = 3
    · rw [C72_function_quadratic b h3, grownDistance, C72_function_quadratic (grown k b) (by simpa [grown] using h3)]
      rfl
    · unfold scale
      have h2 : ¬ order b.controlPoints = 2 := by unfold order; omega
      simp only [show (grown k b).controlPoints = grownBy k b.controlPoints from rfl, grownBy_order, h2, if_false, grownDistance]
      exact scaleCore_grown hk b (.fn f) h

theorem sqrt_scaled {k : ℝ} (hk : 0 < k) (x : ℝ) : butils.sqrt (k * k * x) = (butils.sqrt x).map (k * ·) := by
  unfold butils.sqrt
  have : k * k * x < 0 ↔ x < 0 := by
    constructor
    · intro h; by_contra h'; rw [not_lt] at h'; have := mul_nonneg (mul_self_nonneg k) h'; linarith
    · intro h; exact mul_neg_of_pos_of_neg (mul_pos hk hk) h
  simp only [this]
  split_ifs
  · rfl
  · rw [Real.sqrt_mul (mul_self_nonneg k), Real.sqrt_mul_self hk.le]; rfl

theorem quadraticRoots_grown {k : ℝ} (hk : 0 < k) (a b c : ℝ) : quadraticRoots (k * a) (k * b) (k * c) = quadraticRoots a b c := by
  have hk0 := hk.ne'
  unfold quadraticRoots
  have hd : k * a - 2 * (k * b) + k * c = k * (a - 2 * b + c) := by ring
  simp only [hd, show k * b * (k * b) - k * a * (k * c) = k * k * (b * b - a * c) by ring, sqrt_scaled hk, ne_eq, mul_right_inj' hk0, mul_eq_zero, hk0, false_or]
  by_cases h1 : a - 2 * b + c = 0
  rotate_left
  · simp only [h1, not_false_eq_true, if_true]
    congr 2
    cases butils.sqrt (b * b - a * c) with
    | none => rfl
    | some s =>
      simp only [Option.map_some]
      rw [show -(-(k * s) + (-(k * a) + k * b)) = k * -(-s + (-a + b)) by ring, mul_div_mul_left _ _ hk0,
        show -(- -(k * s) + (-(k * a) + k * b)) = k * -(- -s + (-a + b)) by ring, mul_div_mul_left _ _ hk0]
  · simp only [h1, not_true_eq_false, if_false]
    rw [show 2 * (k * b) - k * c = k * (2 * b - c) by ring, show 2 * (k * b) - 2 * (k * c) = k * (2 * b - 2 * c) by ring, pdiv_grown hk]

theorem roots_grown {k : ℝ} (hk : 0 < k) (ps : Segment ℝ) (h3 : ps.length = 3) (segment : Option (Segment ℝ)) :
    roots (grownBy k ps) (segment.map (grownBy k)) = roots ps segment := by
  have key : ∀ p : Segment ℝ, p.length = 3 →
      (if order (grownBy k p) = 2 then do quadraticRoots (← pyGet (grownBy k p) 0).2 (← pyGet (grownBy k p) 1).2 (← pyGet (grownBy k p) 2).2
      else do cubicRoots (← pyGet (grownBy k p) 0).2 (← pyGet (grownBy k p) 1).2 (← pyGet (grownBy k p) 2).2 (← pyGet (grownBy k p) 3).2 : Py (List ℝ)) =
      (if order p = 2 then do quadraticRoots (← pyGet p 0).2 (← pyGet p 1).2 (← pyGet p 2).2
      else do cubicRoots (← pyGet p 0).2 (← pyGet p 1).2 (← pyGet p 2).2 (← pyGet p 3).2) := by
    intro p hp
    rw [grownBy_order, if_pos (by unfold order; omega), if_pos (by unfold order; omega)]
    simp only [pyGet_grown, Flt.map_bind, growBy, quadraticRoots_grown hk]
  unfold roots
  match segment with
  | none => exact key ps h3
  | some [] => exact key ps h3
  | some (s :: rest) =>
    have ha := alignPoints_grown hk ps (s :: rest)
    simp only [Option.map_some, grownBy, List.map_cons] at ha ⊢
    rw [ha]
    cases hx : alignPoints ps (s :: rest) with
    | error e => rfl
    | ok p =>
      have hl : p.length = 3 := by
        have hy := hx
        unfold alignPoints at hy
        simp only [bind_eq_ok] at hy
        obtain ⟨angle, h1, first, h2, _⟩ := hy
        rw [alignPoints_ok ps (s :: rest) first angle h2 h1] at hx
        cases hx
        simpa using h3
      exact key p hl

end PathLib.Grown
