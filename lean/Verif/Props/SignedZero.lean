import Verif.Model.SignedZero
import Verif.Lemmas.Grid
import Verif.Lemmas.FloatRun
import Verif.Props.RoundedSimple

/-!
# The sign of zero: C112
-/

set_option linter.unusedSectionVars false
set_option linter.unusedSimpArgs false

namespace PathLib

open Spec Bezier

namespace Spec

/-- The line from `a` to `b` goes straight to the left or straight up. -/
def LeftOrUp (d : Pt ℝ) : Prop := (d.2 = 0 ∧ d.1 < 0) ∨ (d.1 = 0 ∧ 0 < d.2)

/-- `p` is on the line through `a` and `b`, but not on the side of `a` on which `b` is. -/
def Behind (a b p : Pt ℝ) : Prop := cross (vec a b) (vec a p) = 0 ∧ dot (vec a b) (vec a p) < 0

/-- One of `b` and `p` is the point `a`, the other one is to the left of `a` and below. -/
def Doubled (a b p : Pt ℝ) : Prop :=
  (a = b ∧ p.1 < a.1 ∧ p.2 < a.2) ∨ (a = p ∧ b.1 < a.1 ∧ b.2 < a.2)

/-- Where the angle is positive. -/
def SignedLeft (a b p : Pt ℝ) : Prop :=
  0 < cross (vec a b) (vec a p) ∨ (Behind a b p ∧ ¬ LeftOrUp (vec a b)) ∨ Doubled a b p

/-- Where the angle is negative. -/
def SignedRight (a b p : Pt ℝ) : Prop :=
  cross (vec a b) (vec a p) < 0 ∨ (Behind a b p ∧ LeftOrUp (vec a b))

end Spec

private theorem zero_case (x y z w : ℝ) (pp : 0 < Real.pi) (h : x * w - y * z = 0) :
    let c : ℝ := if x * z + y * w < 0 ∨ x * z + y * w = 0 ∧ (if x * z + y * w = 0 then
        decide (x * z = 0) && decide (y * w = 0) && (decide (x < 0) ^^ decide (z < 0)) && (decide (y < 0) ^^ decide (w < 0))
        else decide (x * z + y * w < 0)) = true then
      if (decide (x * w = 0) && decide (y * z = 0) && (decide (x < 0) ^^ decide (w < 0)) &&
        !(decide (y < 0) ^^ decide (z < 0))) = true then -Real.pi else Real.pi else 0
    (c > 0 ↔ (x * z + y * w < 0 ∧ ¬ ((y = 0 ∧ x < 0) ∨ (x = 0 ∧ 0 < y))) ∨
      ((x = 0 ∧ y = 0 ∧ z < 0 ∧ w < 0) ∨ (z = 0 ∧ w = 0 ∧ x < 0 ∧ y < 0))) ∧
    (c < 0 ↔ (x * z + y * w < 0 ∧ ((y = 0 ∧ x < 0) ∨ (x = 0 ∧ 0 < y)))) := by
  intro c
  unfold c
  clear c
  have pn := pp.le
  have pq := pp.not_gt
  have sg : ∀ u : ℝ, (u < 0 ∧ u ≠ 0 ∧ ¬ 0 < u) ∨ u = 0 ∨ (0 < u ∧ u ≠ 0 ∧ ¬ u < 0) := by
    intro u
    rcases lt_trichotomy u 0 with k | k | k
    · exact .inl ⟨k, k.ne, k.not_gt⟩
    · exact .inr (.inl k)
    · exact .inr (.inr ⟨k, k.ne', k.not_gt⟩)
  rcases sg x with ⟨hx, hx1, hx2⟩ | rfl | ⟨hx, hx1, hx2⟩ <;> rcases sg y with ⟨hy, hy1, hy2⟩ | rfl | ⟨hy, hy1, hy2⟩ <;>
    rcases sg z with ⟨hz, hz1, hz2⟩ | rfl | ⟨hz, hz1, hz2⟩ <;> rcases sg w with ⟨hw, hw1, hw2⟩ | rfl | ⟨hw, hw1, hw2⟩ <;>
    (try first | have s1 := mul_pos_of_neg_of_neg hx hw | have s1 := mul_neg_of_neg_of_pos hx hw | have s1 := mul_neg_of_pos_of_neg hx hw | have s1 := mul_pos hx hw) <;>
    (try first | have s2 := mul_pos_of_neg_of_neg hy hz | have s2 := mul_neg_of_neg_of_pos hy hz | have s2 := mul_neg_of_pos_of_neg hy hz | have s2 := mul_pos hy hz) <;>
    (try first | have s3 := mul_pos_of_neg_of_neg hx hz | have s3 := mul_neg_of_neg_of_pos hx hz | have s3 := mul_neg_of_pos_of_neg hx hz | have s3 := mul_pos hx hz) <;>
    (try first | have s4 := mul_pos_of_neg_of_neg hy hw | have s4 := mul_neg_of_neg_of_pos hy hw | have s4 := mul_neg_of_pos_of_neg hy hw | have s4 := mul_pos hy hw) <;>
    (try simp only [zero_mul, mul_zero, sub_zero, zero_sub, add_zero, zero_add, neg_eq_zero, lt_irrefl, decide_true, decide_false, true_and, and_true, false_and, and_false] at h ⊢) <;>
    first
    | (exfalso; linarith)
    | (have k : 0 < x * z + y * w := by linarith
       have k1 := k.ne'
       have k2 := k.not_gt
       simp [*])
    | (have k : x * z + y * w < 0 := by linarith
       have k1 := k.ne
       have k2 := k.not_gt
       simp [*])
    | (simp [*, s3.not_gt])
    | (simp [*, s4.not_gt])
    | simp [*]

/-- The sign of the angle for given differences. -/
private theorem core (x y z w : ℝ) :
    let P : Signed := ⟨x * w, decide (x < 0) ^^ decide (w < 0)⟩
    let Q : Signed := ⟨y * z, decide (y < 0) ^^ decide (z < 0)⟩
    let S : Signed := ⟨x * z, decide (x < 0) ^^ decide (z < 0)⟩
    let T : Signed := ⟨y * w, decide (y < 0) ^^ decide (w < 0)⟩
    let c := Signed.sub Rounding.exact P Q
    let d := Signed.add Rounding.exact S T
    (Signed.atan2 c d > 0 ↔ 0 < x * w - y * z ∨ (x * w - y * z = 0 ∧ x * z + y * w < 0 ∧ ¬ ((y = 0 ∧ x < 0) ∨ (x = 0 ∧ 0 < y))) ∨
      ((x = 0 ∧ y = 0 ∧ z < 0 ∧ w < 0) ∨ (z = 0 ∧ w = 0 ∧ x < 0 ∧ y < 0))) ∧
    (Signed.atan2 c d < 0 ↔ x * w - y * z < 0 ∨ (x * w - y * z = 0 ∧ x * z + y * w < 0 ∧ ((y = 0 ∧ x < 0) ∨ (x = 0 ∧ 0 < y)))) := by
  intro P Q S T c d
  have cv : c.val = x * w - y * z := rfl
  have dv : d.val = x * z + y * w := rfl
  have cn : c.neg = if x * w - y * z = 0 then decide (x * w = 0) && decide (y * z = 0) && (decide (x < 0) ^^ decide (w < 0)) &&
      !(decide (y < 0) ^^ decide (z < 0)) else decide (x * w - y * z < 0) := rfl
  have dn : d.neg = if x * z + y * w = 0 then decide (x * z = 0) && decide (y * w = 0) && (decide (x < 0) ^^ decide (z < 0)) &&
      (decide (y < 0) ^^ decide (w < 0)) else decide (x * z + y * w < 0) := rfl
  unfold Signed.atan2
  rw [cv, dv, cn, dn]
  by_cases h : x * w - y * z = 0
  · have pp := Real.pi_pos
    rw [if_pos h]
    simp only [h, lt_irrefl, false_or, true_and, if_true]
    exact zero_case x y z w pp h
  · rw [if_neg h, gt_iff_lt, arg_pos_iff, Complex.arg_neg_iff]
    simp only [h, false_and, or_false, false_or]
    constructor
    · constructor
      · intro k; exact .inl k
      · rintro (k | k | k)
        · exact k
        · exact absurd (by rw [k.1, k.2.1]; ring) h
        · exact absurd (by rw [k.1, k.2.1]; ring) h
    · trivial

private theorem sub_of {m n : ℤ} (hm : |m| ≤ 32768) (hn : |n| ≤ 32768) :
    Signed.sub float (Signed.of (m : ℝ)) (Signed.of (n : ℝ)) = Signed.of ((m - n : ℤ) : ℝ) := by
  have e := (sub_int hm hn (by norm_num)).1
  unfold Signed.sub Signed.of
  simp only [e]
  congr 1
  split_ifs with h
  · rw [h]
    by_cases hz : (m : ℝ) = 0
    · simp [hz]
    · simp [hz]
  · rfl

/-- C112: the sign of `angle` for integer coordinates of 16 bits, with the two zeros of floating point. -/
theorem C112_angle (a b p : Pt ℝ) (ha : OnGrid a) (hb : OnGrid b) (hp : OnGrid p) :
    (Signed.angle float (Signed.pt a) (Signed.pt b) (Signed.pt p) > 0 ↔ SignedLeft a b p) ∧
    (Signed.angle float (Signed.pt a) (Signed.pt b) (Signed.pt p) < 0 ↔ SignedRight a b p) := by
  obtain ⟨a1, a2, x1, x2, rfl⟩ := ha
  obtain ⟨b1, b2, y1, y2, rfl⟩ := hb
  obtain ⟨p1, p2, z1, z2, rfl⟩ := hp
  obtain ⟨-, t1⟩ := sub_int y1 x1 (by norm_num)
  obtain ⟨-, t2⟩ := sub_int y2 x2 (by norm_num)
  obtain ⟨-, t3⟩ := sub_int z1 x1 (by norm_num)
  obtain ⟨-, t4⟩ := sub_int z2 x2 (by norm_num)
  obtain ⟨s5, t5⟩ := mul_int t1 t4 (by norm_num)
  obtain ⟨s6, t6⟩ := mul_int t2 t3 (by norm_num)
  obtain ⟨s7, -⟩ := sub_int t5 t6 (by norm_num)
  obtain ⟨s8, t8⟩ := mul_int t1 t3 (by norm_num)
  obtain ⟨s9, t9⟩ := mul_int t2 t4 (by norm_num)
  obtain ⟨s10, -⟩ := add_int t8 t9 (by norm_num)
  have k := core ((b1 - a1 : ℤ) : ℝ) ((b2 - a2 : ℤ) : ℝ) ((p1 - a1 : ℤ) : ℝ) ((p2 - a2 : ℤ) : ℝ)
  have e : Signed.angle float (Signed.pt ((a1:ℝ), (a2:ℝ))) (Signed.pt ((b1:ℝ), (b2:ℝ))) (Signed.pt ((p1:ℝ), (p2:ℝ))) =
      Signed.atan2 (Signed.sub Rounding.exact
          ⟨((b1 - a1 : ℤ) : ℝ) * ((p2 - a2 : ℤ) : ℝ), decide (((b1 - a1 : ℤ) : ℝ) < 0) ^^ decide (((p2 - a2 : ℤ) : ℝ) < 0)⟩
          ⟨((b2 - a2 : ℤ) : ℝ) * ((p1 - a1 : ℤ) : ℝ), decide (((b2 - a2 : ℤ) : ℝ) < 0) ^^ decide (((p1 - a1 : ℤ) : ℝ) < 0)⟩)
        (Signed.add Rounding.exact
          ⟨((b1 - a1 : ℤ) : ℝ) * ((p1 - a1 : ℤ) : ℝ), decide (((b1 - a1 : ℤ) : ℝ) < 0) ^^ decide (((p1 - a1 : ℤ) : ℝ) < 0)⟩
          ⟨((b2 - a2 : ℤ) : ℝ) * ((p2 - a2 : ℤ) : ℝ), decide (((b2 - a2 : ℤ) : ℝ) < 0) ^^ decide (((p2 - a2 : ℤ) : ℝ) < 0)⟩) := by
    unfold Signed.angle Signed.pt
    simp only [sub_of y1 x1, sub_of y2 x2, sub_of z1 x1, sub_of z2 x2]
    unfold Signed.mul Signed.of Signed.sub Signed.add
    simp only [s5, s6, s7, s8, s9, s10]
    simp only [Rounding.exact, Rounding.sub, Rounding.add, id, Int.cast_mul, Int.cast_sub, Int.cast_add]
  rw [e]
  obtain ⟨k1, k2⟩ := k
  refine ⟨k1.trans ?_, k2.trans ?_⟩
  · unfold SignedLeft Behind LeftOrUp Doubled cross dot vec
    push_cast
    simp only [Prod.mk.injEq, sub_eq_zero, sub_neg, sub_pos, and_assoc]
    have c1 : ((b1:ℝ) = a1 ∧ (b2:ℝ) = a2 ∧ (p1:ℝ) < a1 ∧ (p2:ℝ) < a2) ↔ ((a1:ℝ) = b1 ∧ (a2:ℝ) = b2 ∧ (p1:ℝ) < a1 ∧ (p2:ℝ) < a2) := by
      constructor <;> rintro ⟨h1, h2, h3⟩ <;> exact ⟨h1.symm, h2.symm, h3⟩
    have c2 : ((p1:ℝ) = a1 ∧ (p2:ℝ) = a2 ∧ (b1:ℝ) < a1 ∧ (b2:ℝ) < a2) ↔ ((a1:ℝ) = p1 ∧ (a2:ℝ) = p2 ∧ (b1:ℝ) < a1 ∧ (b2:ℝ) < a2) := by
      constructor <;> rintro ⟨h1, h2, h3⟩ <;> exact ⟨h1.symm, h2.symm, h3⟩
    rw [c1, c2]
  · unfold SignedRight Behind LeftOrUp cross dot vec
    push_cast
    simp only [and_assoc]

open Classical in
/-- C112: `clockwise` for integer coordinates of 16 bits, with the two zeros of floating point. -/
theorem C112_clockwise (ps : Segment ℝ) (a b q : Pt ℝ) (grid : ∀ p ∈ ps, OnGrid p)
    (ha : ps.head? = some a) (hb : ps.getLast? = some b) (hq : ps[1]? = some q) :
    Signed.clockwise float ps = .ok (decide (SignedLeft a b q)) := by
  have am : a ∈ ps := List.mem_of_mem_head? ha
  have bm : b ∈ ps := List.mem_of_getLast? hb
  have qm : q ∈ ps := List.mem_of_getElem? hq
  have k := (C112_angle a b q (grid a am) (grid b bm) (grid q qm)).1
  obtain ⟨r, rfl⟩ : ∃ r, ps = a :: q :: r := by
    match ps, ha, hq with
    | x :: y :: r, ha, hq => simp at ha hq; exact ⟨r, by rw [ha, hq]⟩
  have gl : pyGet (a :: q :: r) (-1) = .ok b := by
    rw [pyGet_neg_one _ (by simp)]
    rw [List.getLast?_eq_some_getLast (by simp)] at hb
    rw [Option.some.inj hb]
  unfold Signed.clockwise
  simp only [pyGet_zero_cons, pyGet_one_cons, gl, ok_bind, pure_eq_ok]
  congr 1
  rw [decide_eq_decide]
  exact k

/-- C112: for which points the sign of zero makes a difference: those behind the beginning of a line that goes straight to the left
or up, and doubled points. -/
theorem C112_agree (a b p : Pt ℝ) (h1 : ¬ (Behind a b p ∧ LeftOrUp (vec a b))) (h2 : ¬ Doubled a b p) :
    (SignedLeft a b p ↔ LeftOf a b p) ∧ (SignedRight a b p ↔ RightOf a b p) := by
  unfold SignedLeft SignedRight LeftOf RightOf
  constructor
  · constructor
    · rintro (h | h | h)
      · exact .inl h
      · exact .inr h.1
      · exact absurd h h2
    · rintro (h | h)
      · exact .inl h
      · exact .inr (.inl ⟨h, fun k => h1 ⟨h, k⟩⟩)
  · constructor
    · rintro (h | h)
      · exact h
      · exact absurd h h1
    · exact .inl

private theorem grid_angle (a b p : Pt ℝ) (ha : OnGrid a) (hb : OnGrid b) (hp : OnGrid p) :
    (Rounded.angle float a b p > 0 ↔ LeftOf a b p) ∧ (Rounded.angle float a b p < 0 ↔ RightOf a b p) := by
  have e : Rounded.angle float a b p = butils.angle a b p := by
    obtain ⟨a1, a2, x1, x2, rfl⟩ := ha
    obtain ⟨b1, b2, y1, y2, rfl⟩ := hb
    obtain ⟨p1, p2, z1, z2, rfl⟩ := hp
    obtain ⟨s1, t1⟩ := sub_int y1 x1 (by norm_num)
    obtain ⟨s2, t2⟩ := sub_int y2 x2 (by norm_num)
    obtain ⟨s3, t3⟩ := sub_int z1 x1 (by norm_num)
    obtain ⟨s4, t4⟩ := sub_int z2 x2 (by norm_num)
    obtain ⟨s5, t5⟩ := mul_int t1 t4 (by norm_num)
    obtain ⟨s6, t6⟩ := mul_int t2 t3 (by norm_num)
    obtain ⟨s7, -⟩ := sub_int t5 t6 (by norm_num)
    obtain ⟨s8, t8⟩ := mul_int t1 t3 (by norm_num)
    obtain ⟨s9, t9⟩ := mul_int t2 t4 (by norm_num)
    obtain ⟨s10, -⟩ := add_int t8 t9 (by norm_num)
    unfold Rounded.angle butils.angle
    simp only [s1, s2, s3, s4, s5, s6, s7, s8, s9, s10]
    push_cast
    rfl
  rw [e]
  exact ⟨angle_pos a b p, angle_neg a b p⟩

/-- C112: `simple` with the two zeros. A cubic is not simple when its inner control points are on different sides. Otherwise, and if
the sign of zero makes no difference for them, the answer is that of `simple` without signs. -/
theorem C112_simple (a b c d : Pt ℝ) (grid : ∀ p ∈ [a, b, c, d], OnGrid p) :
    ((SignedLeft a d b ∧ SignedRight a d c ∨ SignedRight a d b ∧ SignedLeft a d c) →
      Signed.simple float [a, b, c, d] = .ok false) ∧
    (¬ (SignedLeft a d b ∧ SignedRight a d c ∨ SignedRight a d b ∧ SignedLeft a d c) → ¬ SShaped [a, b, c, d] →
      Signed.simple float [a, b, c, d] = Rounded.simple float [a, b, c, d]) ∧
    ((∀ p ∈ [b, c], ¬ (Behind a d p ∧ LeftOrUp (vec a d)) ∧ ¬ Doubled a d p) →
      Signed.simple float [a, b, c, d] = Rounded.simple float [a, b, c, d]) := by
  have ga := grid a (by simp)
  have gb := grid b (by simp)
  have gc := grid c (by simp)
  have gd := grid d (by simp)
  obtain ⟨k1, k2⟩ := C112_angle a d b ga gd gb
  obtain ⟨k3, k4⟩ := C112_angle a d c ga gd gc
  obtain ⟨m1, m2⟩ := grid_angle a d b ga gd gb
  obtain ⟨m3, m4⟩ := grid_angle a d c ga gd gc
  have o : order [a, b, c, d] = 3 := rfl
  classical
  have e1 : Signed.simple float [a, b, c, d] = if (SignedLeft a d b ∧ SignedRight a d c) ∨ (SignedRight a d b ∧ SignedLeft a d c) then .ok false else (do
      let n1 ← Rounded.normal float [a, b, c, d] 0
      let n2 ← Rounded.normal float [a, b, c, d] 1
      let s := float.add (float.mul n1.1 n2.1) (float.mul n1.2 n2.2)
      return decide (|← acos s| < Real.pi / 3)) := by
    unfold Signed.simple
    simp only [o, if_true, pyGet_zero_cons, pyGet_one_cons, pyGet_two_cons, pyGet_three_cons, ok_bind, pure_eq_ok, k1, k2, k3, k4,
      decide_eq_true_eq]
  have e2 : Rounded.simple float [a, b, c, d] = if SShaped [a, b, c, d] then .ok false else (do
      let n1 ← Rounded.normal float [a, b, c, d] 0
      let n2 ← Rounded.normal float [a, b, c, d] 1
      let s := float.add (float.mul n1.1 n2.1) (float.mul n1.2 n2.2)
      return decide (|← acos s| < Real.pi / 3)) := by
    unfold Rounded.simple SShaped
    simp only [o, if_true, pyGet_zero_cons, pyGet_one_cons, pyGet_two_cons, pyGet_three_cons, ok_bind, pure_eq_ok, m1, m2, m3, m4,
      decide_eq_true_eq]
    by_cases hh : LeftOf a d b ∧ RightOf a d c ∨ RightOf a d b ∧ LeftOf a d c
    · rw [if_pos hh, if_pos hh]
    · rw [if_neg hh, if_neg hh]
  refine ⟨?_, ?_, ?_⟩
  · intro h
    rw [e1, if_pos h]
  · intro h h'
    rw [e1, e2, if_neg h, if_neg h']
  · intro h
    obtain ⟨u1, u2⟩ := C112_agree a d b (h b (by simp)).1 (h b (by simp)).2
    obtain ⟨v1, v2⟩ := C112_agree a d c (h c (by simp)).1 (h c (by simp)).2
    rw [e1, e2]
    unfold SShaped
    simp only [u1, u2, v1, v2]

/-- C112: turning a curve by 180 degrees can change `simple`: of two curves with integer coordinates, each the other one turned, one is
simple and the other one is not. Without the sign of zero both are. -/
theorem C112_simple_counterexample :
    Signed.simple float [(0, 0), (2, 0), (-20, -3), (-10, 0)] = .ok false ∧
    Signed.simple float [(0, 0), (-2, 0), (20, 3), (10, 0)] = .ok true ∧
    Rounded.simple float [(0, 0), (2, 0), (-20, -3), (-10, 0)] = .ok true ∧
    Rounded.simple float [(0, 0), (-2, 0), (20, 3), (10, 0)] = .ok true := by
  have g : ∀ m n : ℤ, |m| ≤ 32768 → |n| ≤ 32768 → OnGrid ((m : ℝ), (n : ℝ)) := fun m n h1 h2 => ⟨m, n, h1, h2, rfl⟩
  have r1 : Rounded.simple float [(0, 0), (2, 0), (-20, -3), (-10, 0)] = .ok true := by
    have e : ([(0, 0), (2, 0), (-20, -3), (-10, 0)] : Segment ℝ) = Flt.seg [(0, 0), (2, 0), (-20, -3), (-10, 0)] := by
      simp [Flt.seg, Flt.pt]
    rw [e]
    exact (Flt.simple_run _).trans (by decide +kernel)
  have r2 : Rounded.simple float [(0, 0), (-2, 0), (20, 3), (10, 0)] = .ok true := by
    have e : ([(0, 0), (-2, 0), (20, 3), (10, 0)] : Segment ℝ) = Flt.seg [(0, 0), (-2, 0), (20, 3), (10, 0)] := by
      simp [Flt.seg, Flt.pt]
    rw [e]
    exact (Flt.simple_run _).trans (by decide +kernel)
  refine ⟨?_, ?_, r1, r2⟩
  · refine (C112_simple (0, 0) (2, 0) (-20, -3) (-10, 0) ?_).1 ?_
    · intro p hp
      simp at hp
      rcases hp with rfl | rfl | rfl | rfl
      · simpa using g 0 0 (by norm_num) (by norm_num)
      · simpa using g 2 0 (by norm_num) (by norm_num)
      · simpa using g (-20) (-3) (by norm_num) (by norm_num)
      · simpa using g (-10) 0 (by norm_num) (by norm_num)
    · refine .inr ⟨.inr ⟨?_, ?_⟩, .inl ?_⟩ <;> norm_num [Behind, LeftOrUp, cross, dot, vec]
  · refine ((C112_simple (0, 0) (-2, 0) (20, 3) (10, 0) ?_).2.1 ?_ ?_).trans r2
    · intro p hp
      simp at hp
      rcases hp with rfl | rfl | rfl | rfl
      · simpa using g 0 0 (by norm_num) (by norm_num)
      · simpa using g (-2) 0 (by norm_num) (by norm_num)
      · simpa using g 20 3 (by norm_num) (by norm_num)
      · simpa using g 10 0 (by norm_num) (by norm_num)
    · norm_num [SignedLeft, SignedRight, Doubled, Behind, LeftOrUp, cross, dot, vec]
    · norm_num [SShaped, LeftOf, RightOf, cross, dot, vec]

/-- C112: a doubled first control point. The curve (0,0), (0,0), (10,20), (30,10) is not clockwise; turned by 180 degrees it is. -/
theorem C112_clockwise_counterexample :
    Signed.clockwise float [(0, 0), (0, 0), (10, 20), (30, 10)] = .ok false ∧
    Signed.clockwise float [(0, 0), (0, 0), (-10, -20), (-30, -10)] = .ok true := by
  have g : ∀ m n : ℤ, |m| ≤ 32768 → |n| ≤ 32768 → OnGrid ((m : ℝ), (n : ℝ)) := fun m n h1 h2 => ⟨m, n, h1, h2, rfl⟩
  constructor
  · rw [C112_clockwise _ (0, 0) (30, 10) (0, 0) ?_ rfl rfl rfl]
    · congr 1
      simp only [decide_eq_false_iff_not]
      norm_num [SignedLeft, Doubled, Behind, LeftOrUp, cross, dot, vec]
    · intro p hp
      simp at hp
      rcases hp with rfl | rfl | rfl
      · simpa using g 0 0 (by norm_num) (by norm_num)
      · simpa using g 10 20 (by norm_num) (by norm_num)
      · simpa using g 30 10 (by norm_num) (by norm_num)
  · rw [C112_clockwise _ (0, 0) (-30, -10) (0, 0) ?_ rfl rfl rfl]
    · congr 1
      simp only [decide_eq_true_eq]
      norm_num [SignedLeft, Doubled, Behind, LeftOrUp, cross, dot, vec]
    · intro p hp
      simp at hp
      rcases hp with rfl | rfl | rfl
      · simpa using g 0 0 (by norm_num) (by norm_num)
      · simpa using g (-10) (-20) (by norm_num) (by norm_num)
      · simpa using g (-30) (-10) (by norm_num) (by norm_num)

end PathLib
