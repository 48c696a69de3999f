import Verif.Props.Double
import Verif.Props.RoundedGrid

/-!
# Lines in double precision: C124
-/

set_option linter.unusedSectionVars false
set_option linter.unusedSimpArgs false

namespace PathLib

open Spec PathUtilities

namespace DoubleLines

variable {c : ℝ} {e k : ℕ}

theorem lines_seg {ps : Segment ℝ} (h : ∀ p ∈ ps, ModeratePt p) : SafeSeg 100 100 ps ps := by
  induction ps with
  | nil => exact .nil
  | cons p ps ih => exact .cons ⟨safe_moderate (h p (by simp)).1, safe_moderate (h p (by simp)).2⟩ (ih fun q hq => h q (by simp [hq]))

theorem cross_safe {f l e k : ℕ} {a b x y a' b' x' y' : ℝ} (ha : Safe f l a a') (hb : Safe f l b b') (hx : Safe e k x x') (hy : Safe e k y y')
    (he : f + e ≤ 1074) (hk : l + k + 1 ≤ 1023) :
    Safe (f + e) (l + k + 1) ((double c).sub ((double c).mul a x) ((double c).mul b y))
      ((binary 52).sub ((binary 52).mul a' x') ((binary 52).mul b' y')) :=
  (ha.mul (c := c) hx he (by omega)).sub (hb.mul (c := c) hy he (by omega)) he hk

theorem lli8_eq {x1 y1 x2 y2 x3 y3 x4 y4 : ℝ} (a1 : Safe e k x1 x1) (b1 : Safe e k y1 y1) (a2 : Safe e k x2 x2) (b2 : Safe e k y2 y2)
    (a3 : Safe e k x3 x3) (b3 : Safe e k y3 y3) (a4 : Safe e k x4 x4) (b4 : Safe e k y4 y4) (h : 5 * e + 5 * k + 10 ≤ 1022) :
    Rounded.lli8 (double c) x1 y1 x2 y2 x3 y3 x4 y4 = Rounded.lli8 float x1 y1 x2 y2 x3 y3 x4 y4 := by
  have p := cross_safe (c := c) a1 b1 b2 a2 (by omega) (by omega)
  have q := cross_safe (c := c) a3 b3 b4 a4 (by omega) (by omega)
  have x12 := a1.sub (c := c) a2 (by omega) (by omega)
  have y12 := b1.sub (c := c) b2 (by omega) (by omega)
  have x34 := a3.sub (c := c) a4 (by omega) (by omega)
  have y34 := b3.sub (c := c) b4 (by omega) (by omega)
  have nx := (p.mul (c := c) x34 (by omega) (by omega)).sub (c := c)
    ((x12.mul (c := c) q (by omega) (by omega)).mono (show e + (e + e) ≤ e + e + e by omega) (show k + 1 + (k + k + 1) ≤ k + k + 1 + (k + 1) by omega))
    (by omega) (by omega)
  have ny := (p.mul (c := c) y34 (by omega) (by omega)).sub (c := c)
    ((y12.mul (c := c) q (by omega) (by omega)).mono (show e + (e + e) ≤ e + e + e by omega) (show k + 1 + (k + k + 1) ≤ k + k + 1 + (k + 1) by omega))
    (by omega) (by omega)
  have d := cross_safe (c := c) x12 y12 y34 x34 (by omega) (by omega)
  have qx := (nx.div (c := c) d (by omega) (by omega)).eq
  have qy := (ny.div (c := c) d (by omega) (by omega)).eq
  unfold Rounded.lli8
  simp only
  rw [qx, qy, d.eq]

theorem lli_eq {l1 l2 : Segment ℝ} (h1 : SafeSeg e k l1 l1) (h2 : SafeSeg e k l2 l2) (h : 5 * e + 5 * k + 10 ≤ 1022) :
    Rounded.lli (double c) l1 l2 = Rounded.lli float l1 l2 := by
  apply PyRel.eq
  unfold Rounded.lli
  refine (PyRel.get h1 0).bind fun p1 q1 e1 => (PyRel.get h1 1).bind fun p2 q2 e2 => (PyRel.get h2 0).bind fun p3 q3 e3 =>
    (PyRel.get h2 1).bind fun p4 q4 e4 => PyRel.pure ?_
  have f1 := e1.eq
  have f2 := e2.eq
  have f3 := e3.eq
  have f4 := e4.eq
  subst f1 f2 f3 f4
  exact lli8_eq e1.1 e1.2 e2.1 e2.2 e3.1 e3.2 e4.1 e4.2 h

theorem deltas_rel {l : Segment ℝ} (h : SafeSeg e k l l) (he : e ≤ 1074) (hk : k + 1 ≤ 1023) :
    PyRel (SafePt e (k + 1)) (Rounded.getDeltas (double c) l) (Rounded.getDeltas float l) := by
  unfold Rounded.getDeltas PathUtilities.endPoints
  simp only [bind_assoc, pure_bind]
  exact (PyRel.get h 0).bind fun p p' hp => (PyRel.get h (-1)).bind fun q q' hq =>
    PyRel.pure ⟨hq.1.sub (c := c) hp.1 he hk, hq.2.sub (c := c) hp.2 he hk⟩

theorem slope_eq {l : Segment ℝ} (h : SafeSeg e k l l) (hm : e + k + 1 ≤ 1022) : Rounded.slope (double c) l = Rounded.slope float l := by
  apply PyRel.eq
  unfold Rounded.slope
  refine (deltas_rel (c := c) h (by omega) (by omega)).bind fun d d' hd => ?_
  have hq := (hd.2.div (c := c) hd.1 (by omega) (by omega)).eq
  have e1 := hd.1.eq
  rw [hq, e1]
  exact PyRel.of_eq rfl

end DoubleLines

section
variable {c : ℝ}

/-- C124: the intersection of two lines neither underflows nor overflows, be the lines infinite or not. -/
theorem C124_lines (l1 l2 : Segment ℝ) (h1 : ∀ p ∈ l1, ModeratePt p) (h2 : ∀ p ∈ l2, ModeratePt p) :
    Rounded.lli (double c) l1 l2 = Rounded.lli float l1 l2 ∧
    Rounded.intersectionPoint (double c) l1 l2 = Rounded.intersectionPoint float l1 l2 := by
  have hl := DoubleLines.lli_eq (c := c) (DoubleLines.lines_seg h1) (DoubleLines.lines_seg h2) (by norm_num)
  refine ⟨hl, ?_⟩
  unfold Rounded.intersectionPoint
  rw [hl]

/-- C124: nor do the kind of a line, its slope and the test whether a point is on it. -/
theorem C124_slope (l : Segment ℝ) (h : ∀ p ∈ l, ModeratePt p) (p : Pt ℝ) (hp : ModeratePt p) :
    Rounded.isVerticalLine (double c) l = Rounded.isVerticalLine float l ∧
    Rounded.isHorizontalLine (double c) l = Rounded.isHorizontalLine float l ∧
    Rounded.isDiagonalLine (double c) l = Rounded.isDiagonalLine float l ∧
    Rounded.slope (double c) l = Rounded.slope float l ∧
    Rounded.pointOnLine (double c) p l = Rounded.pointOnLine float p l := by
  have hs := DoubleLines.lines_seg h
  have hd := ((DoubleLines.deltas_rel (c := c) hs (by norm_num) (by norm_num)).imp fun _ _ h => h.eq).eq
  have hsl := DoubleLines.slope_eq (c := c) hs (by norm_num)
  refine ⟨?_, ?_, ?_, hsl, ?_⟩
  · unfold Rounded.isVerticalLine; rw [hd]
  · unfold Rounded.isHorizontalLine; rw [hd]
  · unfold Rounded.isDiagonalLine; rw [hd]
  · unfold Rounded.pointOnLine
    simp only
    rw [hsl]
    split_ifs
    · apply PyRel.eq
      refine (PyRel.of_eq rfl).bind fun s s' es => (PyRel.get hs 0).bind fun q q' hq => ?_
      subst es
      have e1 := hq.eq
      subst e1
      have h2 := DoubleLines.slope_eq (c := c) (l := [q, p]) (.cons hq (.cons ⟨safe_moderate hp.1, safe_moderate hp.2⟩ .nil)) (by norm_num)
      rw [h2]
      exact PyRel.of_eq rfl
    · exact PyRel.eq (PyRel.of_eq rfl)

/-- C124: so on the grid of a font the intersection of two lines is, in double precision, the rounded intersection, and the test whether a point is on a
line is right. -/
theorem C124_lines_grid (l1 l2 : Segment ℝ) (h1 : ∀ p ∈ l1, OnGrid p) (h2 : ∀ p ∈ l2, OnGrid p) (p a b : Pt ℝ) (hp : OnGrid p) (ha : OnGrid a)
    (hb : OnGrid b) :
    Rounded.lli (double c) l1 l2 = (butils.lli l1 l2).map (Option.map (roundPoint float)) ∧
    Rounded.intersectionPoint (double c) l1 l2 = (intersectionPoint l1 l2).map (Option.map (roundPoint float)) ∧
    Rounded.pointOnLine (double c) p [a, b] = pointOnLine p [a, b] := by
  obtain ⟨e1, e2⟩ := C124_lines (c := c) l1 l2 (fun q hq => C124_grid (h1 q hq)) (fun q hq => C124_grid (h2 q hq))
  have e3 := (C124_slope (c := c) [a, b] (by
    simp only [List.mem_cons, List.not_mem_nil, or_false, forall_eq_or_imp, forall_eq]
    exact ⟨C124_grid ha, C124_grid hb⟩) p (C124_grid hp)).2.2.2.2
  rw [e1, e2, e3]
  exact ⟨C92_lli l1 l2 h1 h2, C92_intersectionPoint l1 l2 h1 h2, C92_pointOnLine p a b hp ha hb⟩

/-- Two lines with moderate points, and a point. -/
example : (∀ p ∈ ([(0, 0), (10, 7)] : Segment ℝ), ModeratePt p) ∧ (∀ p ∈ ([(0, 5), (3, -2)] : Segment ℝ), ModeratePt p) ∧ ModeratePt (1, 2) := by
  have i : ∀ m n : ℤ, |m| ≤ 32768 → |n| ≤ 32768 → ModeratePt ((m : ℝ), (n : ℝ)) := fun m n hm hn => C124_grid ⟨m, n, hm, hn, rfl⟩
  have a := i 0 0 (by norm_num) (by norm_num)
  have b := i 10 7 (by norm_num) (by norm_num)
  have d := i 0 5 (by norm_num) (by norm_num)
  have e := i 3 (-2) (by norm_num) (by norm_num)
  have f := i 1 2 (by norm_num) (by norm_num)
  push_cast at a b d e f
  simp only [List.mem_cons, List.not_mem_nil, or_false, forall_eq_or_imp, forall_eq]
  exact ⟨⟨a, b⟩, ⟨d, e⟩, f⟩

end
end PathLib
