import Verif.Lemmas.MirroredContour
import Verif.Lemmas.GrownContour
import Verif.Props.Reversed

/-!
# Lemmas about curves mirrored in the axes

`flipBy s u` with `s` and `u` equal to 1 or -1 is a mirroring in an axis, a half turn or nothing.
-/

set_option linter.unusedSectionVars false
set_option linter.unusedSimpArgs false

namespace PathLib
namespace Flipped
open Spec Bezier
open Moved (map_eq_ok map_eq_error map_do map_map map_mapM filterM_moved mapM_moved mapM_same)

/-- `s` is 1 or -1. -/
abbrev Unit (s : ℝ) : Prop := s = 1 ∨ s = -1

variable {s u : ℝ}

theorem flip_cases (hs : Unit s) (hu : Unit u) : (flipBy s u = turnBy s 0 ∧ s * s + 0 * 0 = 1) ∨ (flipBy s u = mirrorBy s 0 ∧ s * s + 0 * 0 = 1) := by
  rcases hs with rfl | rfl <;> rcases hu with rfl | rfl
  · left; exact ⟨by funext p; simp [flipBy, turnBy], by norm_num⟩
  · right; exact ⟨by funext p; simp [flipBy, mirrorBy], by norm_num⟩
  · right; exact ⟨by funext p; simp [flipBy, mirrorBy], by norm_num⟩
  · left; exact ⟨by funext p; simp [flipBy, turnBy], by norm_num⟩

@[simp] theorem flippedBy_length (s u : ℝ) (ps : Segment ℝ) : (flippedBy s u ps).length = ps.length := by simp [flippedBy]

@[simp] theorem flippedBy_order (s u : ℝ) (ps : Segment ℝ) : order (flippedBy s u ps) = order ps := by simp [order]

theorem pyGet_flipped (s u : ℝ) (ps : Segment ℝ) (i : Int) : pyGet (flippedBy s u ps) i = (pyGet ps i).map (flipBy s u) := Flt.pyGet_map _ _ _

theorem get_flipped (hs : Unit s) (hu : Unit u) (ps : Segment ℝ) (t : ℝ) : Bezier.get (flippedBy s u ps) t = (Bezier.get ps t).map (flipBy s u) := by
  unfold flippedBy
  rcases flip_cases hs hu with ⟨e, -⟩ | ⟨e, -⟩ <;> rw [e]
  · exact Turned.get_turned _ _ _ _
  · exact Mirrored.get_mirrored _ _ _ _

theorem hull_flipped (hs : Unit s) (hu : Unit u) (ps : Segment ℝ) (t : ℝ) : hull (flippedBy s u ps) t = flippedBy s u (hull ps t) := by
  unfold flippedBy
  rcases flip_cases hs hu with ⟨e, -⟩ | ⟨e, -⟩ <;> rw [e]
  · exact Turned.hull_turned _ _ _ _
  · exact Mirrored.hull_mirrored _ _ _ _

theorem dcPoints_flipped (hs : Unit s) (hu : Unit u) (ps : Segment ℝ) : dcPoints (flippedBy s u ps) = (dcPoints ps).map (flippedBy s u) := by
  have e0 : flippedBy s u = List.map (flipBy s u) := rfl
  rw [e0]
  rcases flip_cases hs hu with ⟨e, -⟩ | ⟨e, -⟩ <;> rw [e]
  · exact Turned.dcPoints_turned _ _ _
  · exact Mirrored.dcPoints_mirrored _ _ _

/-! ### The attribute `linear` -/

theorem floor_other (x : ℝ) : Transform.roundHalfEven (-x) = -Transform.roundHalfEven x := by
  unfold Transform.roundHalfEven
  by_cases hx : ((⌊x⌋ : ℤ) : ℝ) = x
  · have h2 : ⌊-x⌋ = -⌊x⌋ := by rw [← hx, ← Int.cast_neg, Int.floor_intCast, Int.floor_intCast]
    simp only [h2, Int.cast_neg, hx, sub_self, sub_neg_eq_add, neg_add_cancel]
    norm_num
  · have lo := Int.floor_le x
    have hi := Int.lt_floor_add_one x
    have lo' : ((⌊x⌋ : ℤ) : ℝ) < x := lt_of_le_of_ne lo hx
    have h2 : ⌊-x⌋ = -⌊x⌋ - 1 := by
      rw [Int.floor_eq_iff]
      push_cast
      constructor <;> linarith
    simp only [h2]
    push_cast
    generalize ⌊x⌋ = f at *
    split_ifs <;> first | omega | linarith

theorem round_other (hs : Unit s) (x : ℝ) : Transform.round15 (s * x) = s * Transform.round15 x := by
  rcases hs with rfl | rfl
  · simp
  · unfold Transform.round15
    rw [show (-1 : ℝ) * x * 10 ^ 15 = -(x * 10 ^ 15) by ring, floor_other]
    push_cast
    ring

theorem trig_flipped (hs : Unit s) (hu : Unit u) (x y : ℝ) (h : ¬ (x = 0 ∧ y = 0)) :
    Real.cos (butils.atan2 (u * y) (s * x)) = s * Real.cos (butils.atan2 y x) ∧ Real.sin (butils.atan2 (u * y) (s * x)) = u * Real.sin (butils.atan2 y x) := by
  unfold butils.atan2
  have sq : ∀ {r : ℝ}, Unit r → r * r = 1 := by rintro r (rfl | rfl) <;> norm_num
  have z : (⟨x, y⟩ : ℂ) ≠ 0 := fun e => h ⟨congrArg Complex.re e, congrArg Complex.im e⟩
  have w : (⟨s * x, u * y⟩ : ℂ) ≠ 0 := by
    intro e
    have e1 : s * x = 0 := congrArg Complex.re e
    have e2 : u * y = 0 := congrArg Complex.im e
    rcases hs with rfl | rfl <;> rcases hu with rfl | rfl <;> exact h ⟨by linarith, by linarith⟩
  have n : ‖(⟨s * x, u * y⟩ : ℂ)‖ = ‖(⟨x, y⟩ : ℂ)‖ := by
    rw [Complex.norm_eq_sqrt_sq_add_sq, Complex.norm_eq_sqrt_sq_add_sq]
    congr 1
    linear_combination x ^ 2 * sq hs + y ^ 2 * sq hu
  rw [Complex.cos_arg w, Complex.cos_arg z, Complex.sin_arg, Complex.sin_arg, n]
  constructor <;> simp only [mul_div_assoc]

theorem rad_deg (x : ℝ) : Transform.radians (-PathUtilities.degrees x) = -x := by
  unfold Transform.radians PathUtilities.degrees
  have := Real.pi_ne_zero
  field_simp

theorem align_flipped (hs : Unit s) (hu : Unit u) (a b p : Pt ℝ) (θ θ' : ℝ) (h : θ = PathUtilities.degrees (butils.atan2 (b.2 - a.2) (b.1 - a.1)))
    (h' : θ' = PathUtilities.degrees (butils.atan2 (u * (b.2 - a.2)) (s * (b.1 - a.1)))) :
    |(alignMap (flipBy s u a) θ' (flipBy s u p)).2| = |(alignMap a θ p).2| := by
  subst h h'
  simp only [alignMap, Transform.cos, Transform.sin, rad_deg, Real.cos_neg, Real.sin_neg, flipBy]
  by_cases z : b.1 - a.1 = 0 ∧ b.2 - a.2 = 0
  · have e0 : ∀ r : ℝ, butils.atan2 (u * 0) (r * 0) = 0 := by intro r; simp [butils.atan2, show (⟨0, 0⟩ : ℂ) = 0 from rfl]
    have e1 : butils.atan2 0 0 = 0 := by simp [butils.atan2, show (⟨0, 0⟩ : ℂ) = 0 from rfl]
    rw [z.1, z.2, e0, e1, Real.sin_zero, Real.cos_zero, neg_zero, round15_zero, round15_one]
    simp only [zero_mul, zero_add, one_mul, ← mul_sub, abs_mul]
    rcases hu with rfl | rfl <;> simp
  · obtain ⟨c, d⟩ := trig_flipped hs hu _ _ z
    rw [c, d, ← mul_neg, round_other hs, round_other hu]
    rcases hs with rfl | rfl <;> rcases hu with rfl | rfl
    all_goals first
      | (congr 1; ring1)
      | (rw [← abs_neg]; congr 1; ring1)

theorem new_flipped (hs : Unit s) (hu : Unit u) (ps : Segment ℝ) : Bezier.new (flippedBy s u ps) = (Bezier.new ps).map (flipped s u) := by
  by_cases hl : ps.length < 2
  · rw [Turned.new_short ps hl, Turned.new_short _ (by simpa using hl)]; rfl
  obtain ⟨c, e1, p1, t1, t2⟩ := new_ok ps (by omega)
  obtain ⟨c', e2, p2, t3, t4⟩ := new_ok (flippedBy s u ps) (by simp; omega)
  rw [e1, e2, map_eq_ok]
  congr 1
  have d2 := Turned.new_direction e2
  have k : c'.linear = c.linear := by
    have w1 := e1
    have w2 := e2
    unfold Bezier.new at w1 w2
    simp only [bind_eq_ok, pure_eq_ok, Except.ok.injEq] at w1 w2
    obtain ⟨-, -, f, h1, l, h2, al, h3, -, -, rfl⟩ := w1
    obtain ⟨-, -, f', h1', l', h2', al', h3', -, -, rfl⟩ := w2
    rw [pyGet_flipped, h1] at h1'
    rw [pyGet_flipped, h2] at h2'
    cases h1'
    cases h2'
    obtain ⟨θ, r1⟩ : ∃ θ, PathUtilities.rawSlopeAngle [f, l] = .ok θ := ⟨_, rfl⟩
    obtain ⟨θ', r2⟩ : ∃ θ', PathUtilities.rawSlopeAngle [flipBy s u f, flipBy s u l] = .ok θ' := ⟨_, rfl⟩
    rw [alignPoints_ok ps [f, l] f θ rfl r1] at h3
    rw [alignPoints_ok _ _ (flipBy s u f) θ' rfl r2] at h3'
    cases h3
    cases h3'
    simp only [decide_eq_decide, List.length_eq_zero_iff, List.filter_eq_nil_iff, flippedBy, List.map_map, List.forall_mem_map, Function.comp_apply]
    have q1 : θ = PathUtilities.degrees (butils.atan2 (l.2 - f.2) (l.1 - f.1)) := (Except.ok.inj r1).symm
    have q2 : θ' = PathUtilities.degrees (butils.atan2 (u * (l.2 - f.2)) (s * (l.1 - f.1))) := by
      rw [mul_sub, mul_sub]
      exact (Except.ok.inj r2).symm
    simp only [align_flipped hs hu f l _ θ θ' q1 q2]
  obtain ⟨cp, u1, u2, dir, lin, cw⟩ := c'
  simp only at p2 t3 t4 d2 k
  unfold flipped
  simp only [Bezier.mk.injEq]
  refine ⟨by rw [p2, p1], by rw [t3, t1], by rw [t4, t2], ?_, k, ?_⟩
  · unfold directionOf; rw [p1, d2]
  · unfold clockwiseOf; rw [p1, e2]

theorem split1_flipped (hs : Unit s) (hu : Unit u) (c : Bezier) (t : ℝ) :
    split1 (flipped s u c) t = (split1 c t).map fun (l, r, q) => (flipped s u l, flipped s u r, flippedBy s u q) := by
  unfold split1
  have e3 : ∀ x y z : Pt ℝ, Bezier.new [flipBy s u x, flipBy s u y, flipBy s u z] = (Bezier.new [x, y, z]).map (flipped s u) :=
    fun _ _ _ => new_flipped hs hu [_, _, _]
  have e4 : ∀ x y z w : Pt ℝ, Bezier.new [flipBy s u x, flipBy s u y, flipBy s u z, flipBy s u w] = (Bezier.new [x, y, z, w]).map (flipped s u) :=
    fun _ _ _ _ => new_flipped hs hu [_, _, _, _]
  simp only [flipped, hull_flipped hs hu, pyGet_flipped, Flt.map_bind, flippedBy_order, e3, e4]
  split_ifs <;> simp only [map_do, bind_assoc, Flt.map_bind, pure_eq_ok, ok_bind, map_eq_ok, flipped]

/-! ### Extrema -/

theorem droots_flipped (hs : Unit s) (p : List ℝ) : (butils.droots (p.map (s * ·))).Perm (butils.droots p) := by
  rcases hs with rfl | rfl
  · simp
  match p with
  | [] => exact List.Perm.refl _
  | [a] => exact List.Perm.refl _
  | [a, b] =>
    simp only [List.map_cons, List.map_nil, butils.droots, ne_eq, neg_mul, one_mul, neg_inj]
    split_ifs
    · exact List.Perm.refl _
    · rw [show -a / (-a - -b) = a / (a - b) by rw [show -a - -b = -(a - b) by ring, neg_div_neg_eq]]
  | [a, b, c] =>
    simp only [List.map_cons, List.map_nil, butils.droots, ne_eq, neg_mul, one_mul, neg_inj]
    have hd : -a - 2 * -b + -c = -(a - 2 * b + c) := by ring
    have hr : -(b * -b) - -(a * -c) = b * b - a * c := by ring
    rw [hd, hr]
    by_cases h0 : a - 2 * b + c = 0
    · simp only [h0, neg_zero, not_true_eq_false, if_false]
      split_ifs
      · rw [show 2 * -b - -c = -(2 * b - c) by ring, show 2 * (-b - -c) = -(2 * (b - c)) by ring, neg_div_neg_eq]
      · exact List.Perm.refl _
    · simp only [h0, neg_eq_zero, not_false_eq_true, if_true]
      cases butils.sqrt (b * b - a * c) with
      | none => exact List.Perm.refl _
      | some r =>
        simp only [Option.map_some]
        rw [show -(-r + (- -a + -b)) / -(a - 2 * b + c) = -(- -r + (-a + b)) / (a - 2 * b + c) by
            rw [neg_div_neg_eq, show -(- -r + (-a + b)) = -r + (- -a + -b) by ring],
          show -(- -r + (- -a + -b)) / -(a - 2 * b + c) = -(-r + (-a + b)) / (a - 2 * b + c) by
            rw [neg_div_neg_eq, show -(-r + (-a + b)) = - -r + (- -a + -b) by ring]]
        exact List.Perm.swap _ _ _
  | a :: b :: c :: d :: l => exact List.Perm.refl _

/-- The factor of a coordinate. -/
def sign (s u : ℝ) (dim : Fin 2) : ℝ := if dim = 0 then s else u

theorem sign_unit (hs : Unit s) (hu : Unit u) (dim : Fin 2) : Unit (sign s u dim) := by
  unfold sign; split_ifs <;> assumption

theorem coord_flipped (s u : ℝ) (dim : Fin 2) (ps : Segment ℝ) : (flippedBy s u ps).map (coord dim) = (ps.map (coord dim)).map (sign s u dim * ·) := by
  simp only [flippedBy, List.map_map]
  refine List.map_congr_left fun p _ => ?_
  simp only [Function.comp_apply, coord, flipBy, sign]
  split_ifs <;> rfl

theorem extremaDim_flipped (hs : Unit s) (hu : Unit u) (n : Int) (dc : List (Segment ℝ)) (dim : Fin 2) :
    (∃ e, extremaDim n (dc.map (flippedBy s u)) dim = .error e ∧ extremaDim n dc dim = .error e) ∨
    ∃ l l', extremaDim n (dc.map (flippedBy s u)) dim = .ok l' ∧ extremaDim n dc dim = .ok l ∧ l'.Perm l := by
  unfold extremaDim
  simp only [Flt.pyGet_map, Flt.map_bind, coord_flipped]
  cases pyGet dc 0 with
  | error e => exact .inl ⟨e, rfl, rfl⟩
  | ok d0 =>
    have k := sign_unit hs hu dim
    by_cases hn : n = 3
    · simp only [hn, if_true, ok_bind]
      cases pyGet dc 1 with
      | error e => exact .inl ⟨e, rfl, rfl⟩
      | ok d1 => exact .inr ⟨_, _, rfl, rfl, ((droots_flipped k _).append (droots_flipped k _)).filterMap _⟩
    · simp only [hn, if_false, ok_bind, pure_eq_ok]
      exact .inr ⟨_, _, rfl, rfl, (droots_flipped k _).filterMap _⟩

theorem sorted_perm {l l' : List ℝ} (h : l'.Perm l) : sorted l' = sorted l := by
  unfold sorted
  refine List.Perm.eq_of_pairwise (le := (· ≤ ·)) (fun a b _ _ h1 h2 => le_antisymm h1 h2) (List.pairwise_insertionSort _ _) (List.pairwise_insertionSort _ _) ?_
  exact (List.perm_insertionSort _ _).trans (h.trans (List.perm_insertionSort _ _).symm)

theorem extrema_flipped (hs : Unit s) (hu : Unit u) (ps : Segment ℝ) :
    (∃ e, extrema (flippedBy s u ps) = .error e ∧ extrema ps = .error e) ∨
    ∃ e e', extrema (flippedBy s u ps) = .ok e' ∧ extrema ps = .ok e ∧ e'.all = e.all ∧ e'.x.Perm e.x ∧ e'.y.Perm e.y := by
  unfold extrema extremaOf
  rw [dcPoints_flipped hs hu, flippedBy_order]
  rcases extremaDim_flipped hs hu (order ps) (dcPoints ps) 0 with ⟨e, h1, h2⟩ | ⟨x, x', h1, h2, hx⟩
  · exact .inl ⟨e, by rw [h1]; rfl, by rw [h2]; rfl⟩
  rcases extremaDim_flipped hs hu (order ps) (dcPoints ps) 1 with ⟨e, h3, h4⟩ | ⟨y, y', h3, h4, hy⟩
  · exact .inl ⟨e, by rw [h1, h3]; rfl, by rw [h2, h4]; rfl⟩
  refine .inr ⟨_, _, by rw [h1, h3]; rfl, by rw [h2, h4]; rfl, ?_, hx, hy⟩
  simp only [sorted_perm hx, sorted_perm hy]

/-! ### Bounds -/

theorem curve_flipped (hs : Unit s) (hu : Unit u) (ps : Segment ℝ) (h : ps ≠ []) (t : ℝ) : curve (flippedBy s u ps) t = flipBy s u (curve ps t) := by
  have := get_flipped hs hu ps t
  rw [get_ok ps h, get_ok (flippedBy s u ps) (by simpa [flippedBy] using h)] at this
  exact Except.ok.inj this

theorem minmax_flipped (hs : Unit s) (hu : Unit u) (ps : Segment ℝ) (hne : ps ≠ []) (dim : Fin 2) (l l' : List ℝ) (hl : ∀ t, t ∈ l' ↔ t ∈ l) :
    minmaxLoop (flippedBy s u ps) dim l' = (minmaxLoop ps dim l).map (flippedRange (sign s u dim)) := by
  obtain ⟨m, M, e, h1, h2⟩ := minmaxLoop_ok ps hne dim l
  obtain ⟨m', M', e', h1', h2'⟩ := minmaxLoop_ok (flippedBy s u ps) (by simpa [flippedBy] using hne) dim l'
  have hc : ∀ t, coord dim (curve (flippedBy s u ps) t) = sign s u dim * coord dim (curve ps t) := by
    intro t
    rw [curve_flipped hs hu ps hne]
    unfold coord flipBy sign
    split_ifs <;> rfl
  have hmax : (maxSafe : ℝ) = 9007199254740991 := by norm_num [maxSafe]
  have hmin : (minSafe : ℝ) = -9007199254740991 := by norm_num [minSafe]
  rw [e, e', map_eq_ok]
  simp only [hc, hl] at h1' h2'
  rw [hmax] at h1 h1'
  rw [hmin] at h2 h2'
  congr 1
  rcases sign_unit hs hu dim with k | k <;> rw [k] at h1' h2' ⊢ <;> unfold flippedRange
  · rw [if_pos one_pos]
    simp only [one_mul] at h1' h2'
    have a1 : m' = m := le_antisymm ((h1 _).mpr ((h1' _).mp le_rfl)) ((h1' _).mpr ((h1 _).mp le_rfl))
    have a2 : M' = M := le_antisymm ((h2' _).mpr ((h2 _).mp le_rfl)) ((h2 _).mpr ((h2' _).mp le_rfl))
    rw [a1, a2]
  · rw [if_neg (by norm_num)]
    simp only [neg_mul, one_mul] at h1' h2'
    have a1 : m' = -M := by
      apply le_antisymm
      · obtain ⟨x, y⟩ := (h1' m').mp le_rfl
        have := (h2 (-m')).mpr ⟨by linarith, fun t ht => by have := y t ht; linarith⟩
        linarith
      · obtain ⟨x, y⟩ := (h2 M).mp le_rfl
        exact (h1' _).mpr ⟨by linarith, fun t ht => by have := y t ht; linarith⟩
    have a2 : M' = -m := by
      apply le_antisymm
      · obtain ⟨x, y⟩ := (h1 m).mp le_rfl
        exact (h2' _).mpr ⟨by linarith, fun t ht => by have := y t ht; linarith⟩
      · obtain ⟨x, y⟩ := (h2' M').mp le_rfl
        have := (h1 (-M')).mpr ⟨by linarith, fun t ht => by have := y t ht; linarith⟩
        linarith
    rw [a1, a2]

theorem bbox_flipped (hs : Unit s) (hu : Unit u) (ps : Segment ℝ) :
    bbox (flippedBy s u ps) = (bbox ps).map fun z => (flippedRange s z.1, flippedRange u z.2) := by
  unfold bbox
  rcases extrema_flipped hs hu ps with ⟨e, h1, h2⟩ | ⟨e, e', h1, h2, -, hx, hy⟩
  · rw [h1, h2]; rfl
  · rw [h1, h2, ok_bind, ok_bind]
    by_cases hne : ps = []
    · subst hne
      have : flippedBy s u ([] : Segment ℝ) = [] := rfl
      rw [this] at h1
      rw [h1] at h2
      cases h2
      have z : ∀ d (l : List ℝ), minmaxLoop ([] : Segment ℝ) d (addEnds l) = .error .indexError := by
        intro d l
        have : (0 : ℝ) ∈ addEnds l := by simp [mem_addEnds]
        obtain ⟨t, rest, ht⟩ := List.exists_cons_of_ne_nil (List.ne_nil_of_mem this)
        rw [ht]
        unfold minmaxLoop
        rw [List.foldlM_cons, Moved.get_nil]
        rfl
      simp only [getminmax, this, z]
      rfl
    · simp only [getminmax]
      rw [minmax_flipped hs hu ps hne 0 (addEnds e.x) (addEnds e'.x) (fun t => by simp only [mem_addEnds, hx.mem_iff]),
        minmax_flipped hs hu ps hne 1 (addEnds e.y) (addEnds e'.y) (fun t => by simp only [mem_addEnds, hy.mem_iff])]
      simp only [Flt.map_bind, map_do, pure_eq_ok, map_eq_ok, sign]
      rfl

theorem rect_new_flipped (hs : Unit s) (hu : Unit u) (ps : List (Pt ℝ)) : BoundsRectangle.new (ps.map (flipBy s u)) = flippedRect s u (BoundsRectangle.new ps) := by
  have step : ∀ (r : BoundsRectangle ℝ) (p : Pt ℝ), (flippedRect s u r).addPoint (flipBy s u p) = flippedRect s u (r.addPoint p) := by
    intro r p
    simp only [BoundsRectangle.addPoint, flippedRect, flipBy, flippedRange, pyMin_eq, pyMax_eq]
    rcases hs with rfl | rfl <;> rcases hu with rfl | rfl <;> norm_num [min_neg_neg, max_neg_neg]
  have key : ∀ (ps : List (Pt ℝ)) (r : BoundsRectangle ℝ), (ps.map (flipBy s u)).foldl BoundsRectangle.addPoint (flippedRect s u r) =
      flippedRect s u (ps.foldl BoundsRectangle.addPoint r) := by
    intro ps
    induction ps with
    | nil => intro r; rfl
    | cons p ps ih => intro r; rw [List.map_cons, List.foldl_cons, List.foldl_cons, step, ih]
  unfold BoundsRectangle.new
  rw [← key]
  congr 1
  simp only [BoundsRectangle.init, flippedRect, flippedRange]
  rcases hs with rfl | rfl <;> rcases hu with rfl | rfl <;> norm_num

theorem rect_two (a b c d : ℝ) : BoundsRectangle.new [(a, b), (c, d)] = BoundsRectangle.new [(c, b), (a, d)] ∧
    BoundsRectangle.new [(a, b), (c, d)] = BoundsRectangle.new [(a, d), (c, b)] := by
  simp only [BoundsRectangle.new, List.foldl_cons, List.foldl_nil, BoundsRectangle.addPoint, pyMin_eq, pyMax_eq, min_assoc, max_assoc, min_comm a c, max_comm a c,
    min_comm b d, max_comm b d]
  exact ⟨trivial, trivial⟩

theorem rect_corners (hs : Unit s) (hu : Unit u) (x y : ℝ × ℝ) :
    BoundsRectangle.new [((flippedRange s x).1, (flippedRange u y).1), ((flippedRange s x).2, (flippedRange u y).2)] =
      flippedRect s u (BoundsRectangle.new [(x.1, y.1), (x.2, y.2)]) := by
  rw [← rect_new_flipped hs hu]
  simp only [List.map_cons, List.map_nil, flipBy, flippedRange]
  rcases hs with rfl | rfl <;> rcases hu with rfl | rfl
  · norm_num
  · rw [if_pos one_pos, if_neg (by norm_num)]
    simp only [one_mul, neg_mul]
    exact (rect_two _ _ _ _).2
  · rw [if_pos one_pos, if_neg (by norm_num)]
    simp only [one_mul, neg_mul]
    exact (rect_two _ _ _ _).1
  · rw [if_neg (by norm_num), if_neg (by norm_num)]
    simp only [one_mul, neg_mul]
    exact ((rect_two _ _ _ _).1).trans (rect_two _ _ _ _).2

theorem boundsRectangle_flipped (hs : Unit s) (hu : Unit u) (ps : Segment ℝ) :
    boundsRectangle (flippedBy s u ps) = (boundsRectangle ps).map (flippedRect s u) := by
  unfold boundsRectangle
  rw [bbox_flipped hs hu, Flt.map_bind]
  simp only [map_do, pure_eq_ok, map_eq_ok, rect_corners hs hu]

theorem union_flipped (hs : Unit s) (hu : Unit u) (a b : BoundsRectangle ℝ) : (flippedRect s u a).union (flippedRect s u b) = flippedRect s u (a.union b) := by
  have key : ∀ (s : ℝ) (x y : ℝ × ℝ), (min (flippedRange s x).1 (flippedRange s y).1, max (flippedRange s x).2 (flippedRange s y).2) =
      flippedRange s (min x.1 y.1, max x.2 y.2) := by
    intro s x y
    unfold flippedRange
    split_ifs
    · rfl
    · simp only [min_neg_neg, max_neg_neg]
  unfold BoundsRectangle.union
  simp only [pyMin_eq, pyMax_eq]
  rw [← rect_corners hs hu (min a.left b.left, max a.right b.right) (min a.bottom b.bottom, max a.top b.top), ← key s (a.left, a.right) (b.left, b.right),
    ← key u (a.bottom, a.top) (b.bottom, b.top)]
  rfl

theorem intersection_flipped (hs : Unit s) (hu : Unit u) (a b : BoundsRectangle ℝ) :
    (flippedRect s u a).intersection (flippedRect s u b) = (a.intersection b).map (flippedRect s u) := by
  have key : ∀ (s : ℝ) (x y : ℝ × ℝ), (max (flippedRange s x).1 (flippedRange s y).1, min (flippedRange s x).2 (flippedRange s y).2) =
      flippedRange s (max x.1 y.1, min x.2 y.2) := by
    intro s x y
    unfold flippedRange
    split_ifs
    · rfl
    · simp only [min_neg_neg, max_neg_neg]
  have kl : ∀ (s : ℝ) (x : ℝ × ℝ), (flippedRange s x).2 < (flippedRange s x).1 ↔ x.2 < x.1 := by
    intro s x
    unfold flippedRange
    split_ifs
    · rfl
    · simp only [neg_lt_neg_iff]
  have e1 := Prod.ext_iff.mp (key s (a.left, a.right) (b.left, b.right))
  have e2 := Prod.ext_iff.mp (key u (a.bottom, a.top) (b.bottom, b.top))
  simp only at e1 e2
  unfold BoundsRectangle.intersection
  simp only [pyMin_eq, pyMax_eq, flippedRect, e1.1, e1.2, e2.1, e2.2, kl]
  split_ifs
  · rfl
  · rw [Option.map_some]
    congr 1
    exact rect_corners hs hu (max a.left b.left, min a.right b.right) (max a.bottom b.bottom, min a.top b.top)

theorem overlaps_flipped (hs : Unit s) (hu : Unit u) (a b : Bezier) : overlaps (flipped s u a) (flipped s u b) = overlaps a b := by
  unfold overlaps
  simp only [show ∀ c, (flipped s u c).controlPoints = flippedBy s u c.controlPoints from fun _ => rfl, boundsRectangle_flipped hs hu, Flt.map_bind,
    intersection_flipped hs hu, Option.isSome_map]

end Flipped
end PathLib
