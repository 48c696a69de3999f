import Verif.Model.Bezier
import Verif.Lemmas.Bernstein
import Verif.Lemmas.Transform

set_option linter.unusedSectionVars false
set_option linter.unusedSimpArgs false

namespace PathLib
open Spec

/-- The value of a predicate that does not raise. -/
def okB {α : Type} (p : α → Py Bool) (a : α) : Bool :=
  match p a with
  | .ok b => b
  | .error _ => true

theorem filterAuxM_spec {α : Type} (p : α → Py Bool) (l acc : List α) :
    (∀ r, List.filterAuxM p l acc = .ok r →
      (∀ a ∈ l, p a = .ok (okB p a)) ∧ r = (l.filter (okB p)).reverse ++ acc) ∧
    (∀ g : α → Bool, (∀ a ∈ l, p a = .ok (g a)) →
      List.filterAuxM p l acc = .ok ((l.filter g).reverse ++ acc)) := by
  induction l generalizing acc with
  | nil =>
    refine ⟨?_, ?_⟩
    · intro r h
      cases h
      simp
    · intro g _; rfl
  | cons a l ih =>
    refine ⟨?_, ?_⟩
    · intro r h
      rw [List.filterAuxM] at h
      obtain ⟨b, hb, h⟩ := bind_eq_ok.mp h
      obtain ⟨h1, h2⟩ := (ih _).1 r h
      have e : okB p a = b := by unfold okB; rw [hb]
      refine ⟨?_, ?_⟩
      · intro x hx
        rcases List.mem_cons.mp hx with rfl | hx
        · rw [e, hb]
        · exact h1 x hx
      · rw [List.filter_cons, e, h2]
        cases b <;> simp
    · intro g hg
      rw [List.filterAuxM, hg a (by simp), ok_bind, (ih _).2 g fun x hx => hg x (by simp [hx])]
      cases h : g a <;> simp [h]

/-- `filterM` with a predicate that never raises on the list. -/
theorem filterM_ok {α : Type} (p : α → Py Bool) (g : α → Bool) (l : List α)
    (h : ∀ a ∈ l, p a = .ok (g a)) : l.filterM p = .ok (l.filter g) := by
  unfold List.filterM
  rw [(filterAuxM_spec p l []).2 g h]
  simp

/-- Success of `filterM` means success on every element. -/
theorem filterM_spec {α : Type} (p : α → Py Bool) (l r : List α) (h : l.filterM p = .ok r) :
    ∃ g : α → Bool, (∀ a ∈ l, p a = .ok (g a)) ∧ r = l.filter g := by
  unfold List.filterM at h
  obtain ⟨r', h1, h2⟩ := bind_eq_ok.mp h
  cases h2
  obtain ⟨hg, e⟩ := (filterAuxM_spec p l []).1 r' h1
  exact ⟨_, hg, by rw [e]; simp⟩

theorem filterM_mem {α : Type} (p : α → Py Bool) (l r : List α) (h : l.filterM p = .ok r) (a : α) :
    a ∈ r ↔ a ∈ l ∧ p a = .ok true := by
  obtain ⟨g, hg, rfl⟩ := filterM_spec p l r h
  rw [List.mem_filter]
  constructor
  · rintro ⟨h1, h2⟩; exact ⟨h1, by rw [hg a h1, h2]⟩
  · rintro ⟨h1, h2⟩; refine ⟨h1, ?_⟩
    rw [hg a h1] at h2; exact Except.ok.inj h2

namespace Spec
variable {K : Type} [Field K]

theorem curve_one (a : Pt K) (t : K) : curve [a] t = a := by simp [curve, bernList_one]

theorem curve_two (a b : Pt K) (t : K) :
    curve [a, b] t = ((1 - t) * a.1 + t * b.1, (1 - t) * a.2 + t * b.2) := by
  simp [curve, bernList_two]

theorem curve_three (a b c : Pt K) (t : K) :
    curve [a, b, c] t = ((1 - t) ^ 2 * a.1 + 2 * (1 - t) * t * b.1 + t ^ 2 * c.1,
      (1 - t) ^ 2 * a.2 + 2 * (1 - t) * t * b.2 + t ^ 2 * c.2) := by
  simp [curve, bernList_three]

theorem curve_four (a b c d : Pt K) (t : K) :
    curve [a, b, c, d] t =
      ((1 - t) ^ 3 * a.1 + 3 * (1 - t) ^ 2 * t * b.1 + 3 * (1 - t) * t ^ 2 * c.1 + t ^ 3 * d.1,
       (1 - t) ^ 3 * a.2 + 3 * (1 - t) ^ 2 * t * b.2 + 3 * (1 - t) * t ^ 2 * c.2 + t ^ 3 * d.2) := by
  simp [curve, bernList_four]

theorem curve_zero (ps : List (Pt K)) (h : ps ≠ []) : curve ps 0 = ps.head h := by
  match ps, h with
  | a :: l, _ => simp [curve, bernList_at_zero]

theorem curve_at_one (ps : List (Pt K)) (h : ps ≠ []) : curve ps 1 = ps.getLast h := by
  have hl : 0 < ps.length := List.length_pos_iff.mpr h
  have h1 : ps.length - 1 < ps.length := by omega
  simp only [curve, bernList_at_one, List.length_map, List.getD_eq_getElem?_getD, List.getElem?_map,
    List.getElem?_eq_getElem h1, Option.map_some, Option.getD_some, List.getLast_eq_getElem]

theorem curve_affine (a b c d m n : K) (ps : List (Pt K)) (h : ps ≠ []) (t : K) :
    curve (ps.map (affineMap a b c d m n)) t = affineMap a b c d m n (curve ps t) := by
  have key : ∀ u v w : K, bernList (ps.map fun p => u * p.1 + v * p.2 + w) t
      = u * bernList (ps.map Prod.fst) t + v * bernList (ps.map Prod.snd) t + w := by
    intro u v w
    unfold bernList
    simp only [List.length_map]
    rw [← bernSum_smul, ← bernSum_smul]
    conv_rhs => rw [← bernSum_const (ps.length - 1) w t, ← bernSum_add, ← bernSum_add]
    apply bernSum_congr
    intro i hi
    have : 0 < ps.length := List.length_pos_iff.mpr h
    have hi2 : i < ps.length := by omega
    simp [List.getD_eq_getElem?_getD, List.getElem?_eq_getElem hi2]
  unfold curve affineMap
  simp only [List.map_map, Function.comp_def]
  rw [key, key]

end Spec

namespace Bezier
section field
variable {K : Type} [Field K]

theorem map_fst_step (t : K) (ps : Segment K) : (casteljauStep t ps).map Prod.fst =
    List.zipWith (fun a b => a + (b - a) * t) (ps.map Prod.fst) (ps.map Prod.fst).tail := by
  unfold casteljauStep
  rw [List.map_zipWith, ← List.map_tail, List.zipWith_map]

theorem map_snd_step (t : K) (ps : Segment K) : (casteljauStep t ps).map Prod.snd =
    List.zipWith (fun a b => a + (b - a) * t) (ps.map Prod.snd) (ps.map Prod.snd).tail := by
  unfold casteljauStep
  rw [List.map_zipWith, ← List.map_tail, List.zipWith_map]

theorem curve_casteljauStep (t : K) (ps : Segment K) (h : 2 ≤ ps.length) :
    curve (casteljauStep t ps) t = curve ps t := by
  unfold curve
  rw [map_fst_step, map_snd_step, bernList_step _ (by simpa using h), bernList_step _ (by simpa using h)]

theorem hullStep_eq (t : K) (ps : Segment K) : hullStep t ps = casteljauStep t ps := by
  unfold hullStep casteljauStep
  congr 1
  funext a b
  simp [butils.lerp, mul_comm]

theorem casteljau_ok (t : K) (ps : Segment K) (h : ps ≠ []) : casteljau t ps = .ok (curve ps t) := by
  induction ps using casteljau.induct (t := t) with
  | case1 ps h1 ih =>
    rw [casteljau, if_pos h1, ih, curve_casteljauStep _ _ h1]
    intro e
    have := casteljauStep_length t ps
    rw [e] at this
    simp at this
    omega
  | case2 ps h1 =>
    rw [casteljau, if_neg h1]
    match ps, h with
    | [a], _ => simp [curve_one]
    | a :: b :: l, _ => simp at h1

variable [LinearOrder K]

theorem get_ok (ps : Segment K) (h : ps ≠ []) (t : K) : get ps t = .ok (curve ps t) := by
  unfold get
  by_cases h0 : t = 0
  · subst h0
    rw [if_pos rfl, curve_zero ps h]
    match ps, h with
    | a :: l, _ => rfl
  rw [if_neg h0]
  by_cases h1 : t = 1
  · subst h1
    have hl : 0 < ps.length := List.length_pos_iff.mpr h
    have e : order ps = ((ps.length - 1 : ℕ) : Int) := by unfold order; omega
    rw [if_pos rfl, e, pyGet_nat_lt _ _ (by omega), curve_at_one ps h, List.getLast_eq_getElem]
  rw [if_neg h1]
  match ps, h with
  | [a], _ => simp [order, curve_one]
  | [a, b], _ => simp [order, curve_two]
  | [a, b, c], _ =>
    simp [order, curve_three]
    constructor <;> ring
  | [a, b, c, d], _ =>
    simp [order, curve_four]
    constructor <;> ring
  | a :: b :: c :: d :: e :: l, h' =>
    have h1 : ¬ order (a :: b :: c :: d :: e :: l) = 0 := by simp [order]; omega
    have h2 : ¬ order (a :: b :: c :: d :: e :: l) = 1 := by simp [order]; omega
    have h3 : ¬ order (a :: b :: c :: d :: e :: l) < 4 := by simp [order]; omega
    rw [if_neg h1, if_neg h2, if_neg h3]
    exact casteljau_ok t _ h'

theorem get_nil (t : K) : get ([] : Segment K) t = .error .indexError := by
  unfold get
  simp [order]

end field

section real

/-- The map applied by `_align`. -/
noncomputable def alignMap (first : Pt ℝ) (angle : ℝ) (p : Pt ℝ) : Pt ℝ :=
  let c := Transform.cos (-angle)
  let s := Transform.sin (-angle)
  (c * (p.1 - first.1) - s * (p.2 - first.2), s * (p.1 - first.1) + c * (p.2 - first.2))

theorem alignPoints_ok (points segment : Segment ℝ) (first : Pt ℝ) (angle : ℝ)
    (h1 : pyGet segment 0 = .ok first) (h2 : PathUtilities.rawSlopeAngle segment = .ok angle) :
    alignPoints points segment = .ok (points.map (alignMap first angle)) := by
  unfold alignPoints
  rw [h2, ok_bind, h1, ok_bind]
  unfold Transform.moveAndRotate Transform.translateMatrix Transform.rotationMatrix
    Transform.rotationMatrixOf
  simp only [if_true]
  rw [Transform.new_two, Transform.mul_matrix, ok_bind, ok_bind]
  simp only [mul_zero, zero_mul, add_zero, mul_one, zero_add, one_mul]
  apply mapM_ok
  intro p _
  rw [Transform.applyToPoint_affine]
  congr 1
  unfold alignMap
  ext <;> simp <;> ring

theorem rawSlopeAngle_ok (s : Segment ℝ) (h : s ≠ []) :
    ∃ angle, PathUtilities.rawSlopeAngle s = .ok angle := by
  unfold PathUtilities.rawSlopeAngle PathUtilities.getDeltas PathUtilities.endPoints
  rw [pyGet_neg_one s h]
  match s, h with
  | a :: l, _ => exact ⟨_, rfl⟩

theorem computeDirection_ok {K : Type} [Field K] [LinearOrder K] (ps : Segment K)
    (h : 2 ≤ ps.length) : ∃ d, computeDirection ps = .ok d := by
  unfold computeDirection
  match ps, h with
  | [a, b], _ =>
    simp [order]
    split_ifs <;> exact ⟨_, rfl⟩
  | [a, b, c], _ =>
    simp [order]
    split_ifs <;> exact ⟨_, rfl⟩
  | [a, b, c, d], _ =>
    simp [order]
    split_ifs <;> exact ⟨_, rfl⟩
  | a :: b :: c :: d :: e :: l, _ =>
    have h1 : ¬ order (a :: b :: c :: d :: e :: l) = 1 := by simp [order]; omega
    have h2 : ¬ order (a :: b :: c :: d :: e :: l) = 2 := by simp [order]; omega
    have h3 : ¬ order (a :: b :: c :: d :: e :: l) = 3 := by simp [order]; omega
    simp [h1, h2, h3]

/-- The constructor succeeds for two or more control points. -/
theorem new_ok (ps : Segment ℝ) (h : 2 ≤ ps.length) :
    ∃ b, Bezier.new ps = .ok b ∧ b.controlPoints = ps ∧ b.t1 = 0 ∧ b.t2 = 1 := by
  obtain ⟨d, hd⟩ := computeDirection_ok ps h
  match ps, h with
  | a :: b :: l, _ =>
    unfold new
    rw [hd, ok_bind, pyGet_zero_cons, ok_bind, pyGet_neg_one _ (by simp), ok_bind]
    obtain ⟨ang, hang⟩ := rawSlopeAngle_ok [a, (a :: b :: l).getLast (by simp)] (by simp)
    rw [alignPoints_ok _ _ a ang rfl hang, ok_bind, pyGet_one_cons, ok_bind]
    exact ⟨_, rfl, rfl, rfl, rfl⟩

theorem new_controlPoints {ps : Segment ℝ} {b : Bezier} (h : Bezier.new ps = .ok b) :
    b.controlPoints = ps ∧ b.t1 = 0 ∧ b.t2 = 1 := by
  unfold new at h
  obtain ⟨_, _, h⟩ := bind_eq_ok.mp h
  obtain ⟨_, _, h⟩ := bind_eq_ok.mp h
  obtain ⟨_, _, h⟩ := bind_eq_ok.mp h
  obtain ⟨_, _, h⟩ := bind_eq_ok.mp h
  obtain ⟨_, _, h⟩ := bind_eq_ok.mp h
  cases h
  exact ⟨rfl, rfl, rfl⟩

theorem hull_three {K : Type} [Field K] (a b c : Pt K) (t : K) : hull [a, b, c] t =
    [a, b, c, butils.lerp t a b, butils.lerp t b c,
      butils.lerp t (butils.lerp t a b) (butils.lerp t b c)] := by
  unfold hull
  rw [hullLoop, hullLoop, hullLoop]
  simp [hullStep]

theorem hull_four {K : Type} [Field K] (a b c d : Pt K) (t : K) : hull [a, b, c, d] t =
    let ab := butils.lerp t a b
    let bc := butils.lerp t b c
    let cd := butils.lerp t c d
    let abc := butils.lerp t ab bc
    let bcd := butils.lerp t bc cd
    [a, b, c, d, ab, bc, cd, abc, bcd, butils.lerp t abc bcd] := by
  unfold hull
  rw [hullLoop, hullLoop, hullLoop, hullLoop]
  simp [hullStep]

theorem map01 (v ts te : ℝ) : butils.map v 0 1 ts te = .ok (ts + (te - ts) * v) := by
  simp [butils.map]

/-- `split(t)` of a quadratic or cubic curve. -/
theorem split1_spec (b : Bezier) (hn : b.controlPoints.length = 3 ∨ b.controlPoints.length = 4) (t : ℝ) :
    ∃ l r, split1 b t = .ok (l, r, hull b.controlPoints t) ∧
      l.controlPoints.length = b.controlPoints.length ∧
      r.controlPoints.length = b.controlPoints.length ∧
      l.t1 = b.t1 ∧ l.t2 = b.t1 + (b.t2 - b.t1) * t ∧
      r.t1 = b.t1 + (b.t2 - b.t1) * t ∧ r.t2 = b.t2 ∧
      (∀ s, curve l.controlPoints s = curve b.controlPoints (t * s)) ∧
      (∀ s, curve r.controlPoints s = curve b.controlPoints (t + s * (1 - t))) := by
  obtain ⟨ps, t1, t2, dir, lin, cw⟩ := b
  simp only at hn ⊢
  rcases hn with hn | hn
  · match ps, hn with
    | [p0, p1, p2], _ =>
      unfold split1
      simp only
      rw [hull_three]
      obtain ⟨l, hl, el, _, _⟩ := new_ok [p0, butils.lerp t p0 p1,
        butils.lerp t (butils.lerp t p0 p1) (butils.lerp t p1 p2)] (by simp)
      obtain ⟨r, hr, er, _, _⟩ := new_ok [butils.lerp t (butils.lerp t p0 p1) (butils.lerp t p1 p2),
        butils.lerp t p1 p2, p2] (by simp)
      refine ⟨{ l with t1 := t1, t2 := t1 + (t2 - t1) * t },
        { r with t1 := t1 + (t2 - t1) * t, t2 := t2 }, ?_, ?_, ?_, rfl, rfl, rfl, rfl, ?_, ?_⟩
      · have e : order [p0, p1, p2] = 2 := rfl
        rw [if_pos e]
        simp only [map01, mul_zero, mul_one, add_zero, add_sub_cancel]
        simp [pyGet, hl, hr]
      · simp [el]
      · simp [er]
      · intro s
        simp only [el, curve_three, butils.lerp]
        ext <;> simp only <;> ring
      · intro s
        simp only [er, curve_three, butils.lerp]
        ext <;> simp only <;> ring
  · match ps, hn with
    | [p0, p1, p2, p3], _ =>
      unfold split1
      simp only
      rw [hull_four]
      simp only
      obtain ⟨l, hl, el, _, _⟩ := new_ok [p0, butils.lerp t p0 p1,
        butils.lerp t (butils.lerp t p0 p1) (butils.lerp t p1 p2),
        butils.lerp t (butils.lerp t (butils.lerp t p0 p1) (butils.lerp t p1 p2))
          (butils.lerp t (butils.lerp t p1 p2) (butils.lerp t p2 p3))] (by simp)
      obtain ⟨r, hr, er, _, _⟩ := new_ok [
        butils.lerp t (butils.lerp t (butils.lerp t p0 p1) (butils.lerp t p1 p2))
          (butils.lerp t (butils.lerp t p1 p2) (butils.lerp t p2 p3)),
        butils.lerp t (butils.lerp t p1 p2) (butils.lerp t p2 p3),
        butils.lerp t p2 p3, p3] (by simp)
      refine ⟨{ l with t1 := t1, t2 := t1 + (t2 - t1) * t },
        { r with t1 := t1 + (t2 - t1) * t, t2 := t2 }, ?_, ?_, ?_, rfl, rfl, rfl, rfl, ?_, ?_⟩
      · have e : ¬ order [p0, p1, p2, p3] = 2 := by simp [order]
        rw [if_neg e]
        simp only [map01, mul_zero, mul_one, add_zero, add_sub_cancel]
        simp [pyGet, hl, hr]
      · simp [el]
      · simp [er]
      · intro s
        simp only [el, curve_four, butils.lerp]
        ext <;> simp only <;> ring
      · intro s
        simp only [er, curve_four, butils.lerp]
        ext <;> simp only <;> ring

end real
end Bezier
end PathLib
