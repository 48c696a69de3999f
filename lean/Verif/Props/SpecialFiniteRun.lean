import Verif.Props.SpecialFinite

set_option linter.unusedSectionVars false
set_option linter.unusedSimpArgs false

/-!
# For finite coordinates the two models agree, part 2: contours, transforms, new curves, splitting and intersections: C115
-/

namespace PathLib
open Special Special.Num

section field
variable {K : Type} [Field K] [LinearOrder K]

/-- C115: dividing by zero raises `ZeroDivisionError` whatever is divided, NaN and infinities included. Every other division succeeds, and the
quotient is NaN exactly if one of the numbers is NaN or both are infinite. -/
theorem C115_division (a b : Num K) : (b = fin 0 → div a b = .error .zeroDivisionError) ∧
    (b ≠ fin 0 → ∃ c, div a b = .ok c ∧ (c = nan ↔ a = nan ∨ b = nan ∨ (∃ p, a = inf p) ∧ ∃ q, b = inf q)) := by
  constructor
  · rintro rfl
    cases a <;> simp [div]
  · intro h
    have h' : ∀ y, b = fin y → y ≠ 0 := by rintro y rfl rfl; exact h rfl
    cases a with
    | fin x => cases b with
      | fin y => have := h' y rfl; exact ⟨fin (x / y), by simp [div, this], by simp⟩
      | inf q => exact ⟨fin 0, rfl, by simp⟩
      | nan => exact ⟨nan, rfl, by simp⟩
    | inf p => cases b with
      | fin y => have := h' y rfl; exact ⟨inf (p == decide (0 < y)), by simp [div, this], by simp⟩
      | inf q => exact ⟨nan, rfl, by simp⟩
      | nan => exact ⟨nan, rfl, by simp⟩
    | nan => cases b with
      | fin y => have := h' y rfl; exact ⟨nan, by simp [div, this], by simp⟩
      | inf q => exact ⟨nan, rfl, by simp⟩
      | nan => exact ⟨nan, rfl, by simp⟩

example : div (nan : Num ℚ) (fin 0) = .error .zeroDivisionError ∧ div (inf true : Num ℚ) (fin (-2)) = .ok (inf false) := by decide +kernel

theorem Special.union_sides (a b : BoundsRectangle K) : union (sides a) (sides b) = sides (a.union b) := by
  unfold union BoundsRectangle.union
  have := C115_finite_rectangle [(pyMin a.left b.left, pyMin a.bottom b.bottom), (pyMax a.right b.right, pyMax a.top b.top)]
  rw [← this]
  simp only [sides, min_fin, max_fin]
  rfl

theorem Special.intersection_sides (a b : BoundsRectangle K) : intersection (sides a) (sides b) = (a.intersection b).map sides := by
  unfold intersection BoundsRectangle.intersection
  simp only [sides, min_fin, max_fin, lt]
  by_cases h : pyMin a.right b.right < pyMax a.left b.left ∨ pyMin a.top b.top < pyMax a.bottom b.bottom
  · rw [if_pos h, if_pos (by simpa using h)]; rfl
  · rw [if_neg h, if_neg (by simpa using h)]
    have := C115_finite_rectangle [(pyMax a.left b.left, pyMax a.bottom b.bottom), (pyMin a.right b.right, pyMin a.top b.top)]
    simp only [Option.map]
    rw [← this]
    rfl

/-- C115: for finite coordinates union, intersection, width, height, area, the test for a point and the bounds of a contour are those of the exact model. -/
theorem C115_finite_contour (a b : BoundsRectangle K) (p : Pt K) (contour : Contour K) :
    union (sides a) (sides b) = sides (a.union b) ∧ intersection (sides a) (sides b) = (a.intersection b).map sides ∧
    width (sides a) = fin a.width ∧ height (sides a) = fin a.height ∧ area (sides a) = fin a.area ∧
    enclosesPoint (sides a) (pt p) = a.enclosesPoint p ∧
    fromContour (contour.map (List.map pt)) = sides (BoundsRectangle.fromContour contour) := by
  have hle : ∀ x y : K, le (fin x) (fin y) = decide (x ≤ y) := by
    intro x y; simp only [le, lt, eq]; rw [Bool.eq_iff_iff]; simp [le_iff_lt_or_eq]
  refine ⟨union_sides a b, intersection_sides a b, sub_fin _ _, sub_fin _ _, ?_, ?_, ?_⟩
  · unfold area width height
    simp only [sides, sub_fin, mul_fin]
    rfl
  · simp only [enclosesPoint, sides, pt, hle, BoundsRectangle.enclosesPoint]
  · unfold fromContour BoundsRectangle.fromContour
    suffices h : ∀ b : BoundsRectangle K, (contour.map (List.map pt)).foldl (fun bounds segment => union bounds (rectangle segment)) (sides b) =
        sides (contour.foldl (fun bounds segment => bounds.union (BoundsRectangle.new segment)) b) from h (BoundsRectangle.new [])
    induction contour with
    | nil => intro b; rfl
    | cons s l ih =>
      intro b
      rw [List.map_cons, List.foldl_cons, List.foldl_cons, C115_finite_rectangle, union_sides]
      exact ih _

/-- C115: the bounds of a contour have no NaN side and contain every point of it without NaN coordinate. -/
theorem C115_contour (contour : Contour (Num K)) : (∃ l, fromContour contour = rectangle l) ∧
    ∀ s ∈ contour, ∀ p ∈ s, p.1 ≠ nan → p.2 ≠ nan → enclosesPoint (fromContour contour) p = true := by
  unfold fromContour
  suffices h : ∀ l : Segment (Num K), (∃ l', contour.foldl (fun bounds segment => union bounds (rectangle segment)) (rectangle l) = rectangle l') ∧
      (∀ p, enclosesPoint (rectangle l) p = true → enclosesPoint (contour.foldl (fun bounds segment => union bounds (rectangle segment)) (rectangle l)) p = true) ∧
      ∀ s ∈ contour, ∀ p ∈ s, p.1 ≠ nan → p.2 ≠ nan →
        enclosesPoint (contour.foldl (fun bounds segment => union bounds (rectangle segment)) (rectangle l)) p = true from ⟨(h []).1, (h []).2.2⟩
  induction contour with
  | nil => intro l; exact ⟨⟨l, rfl⟩, fun p h => h, by simp⟩
  | cons s rest ih =>
    intro l
    rw [List.foldl_cons]
    obtain ⟨⟨l', e⟩, hu⟩ := C115_union l s
    rw [e] at hu
    rw [e]
    obtain ⟨h1, h2, h3⟩ := ih l'
    refine ⟨h1, fun p hp => h2 p (hu p (.inl hp)), fun s' hs p hp hx hy => ?_⟩
    rcases List.mem_cons.mp hs with rfl | hs
    · exact h2 p (hu p (.inr ((C115_enclosesPoint (rectangle s') s' p).2 hx hy hp)))
    · exact h3 s' hs p hp hx hy

example : fromContour [[(fin 0, nan), (fin 5, fin 7)], [((inf true : Num ℚ), fin 1)]] = ⟨fin 0, fin 1, inf true, fin 7⟩ := by decide +kernel

/-- C115: for finite coordinates and a finite matrix a transform is that of the exact model. -/
theorem C115_finite_transform (T : Transform K) (p : Pt K) : Special.applyToPoint (T.transform.map (List.map fin)) (pt p) = (T.applyToPoint p).map pt := by
  unfold Special.applyToPoint Transform.applyToPoint
  have hm : ∀ row : Row K, Special.multiplyRowByMatrix (row.map fin) (T.transform.map (List.map fin)) =
      (Transform.multiplyRowByMatrix row T.transform).map (List.map fin) := by
    intro row
    unfold Special.multiplyRowByMatrix
    split
    · rename_i r1 r2 r3 m11 m12 m13 m21 m22 m23 m31 m32 m33 e1 e2
      obtain ⟨t, rfl⟩ : ∃ t, T = ⟨t⟩ := ⟨T.transform, rfl⟩
      simp only at e2 ⊢
      match row, e1 with
      | [a, b, c], e1 =>
        simp only [List.map_cons, List.map_nil, List.cons.injEq, and_true] at e1
        obtain ⟨rfl, rfl, rfl⟩ := e1
        match t, e2 with
        | [[a1, a2, a3], [b1, b2, b3], [c1, c2, c3]], e2 =>
          simp only [List.map_cons, List.map_nil, List.cons.injEq, and_true] at e2
          obtain ⟨⟨rfl, rfl, rfl⟩, ⟨rfl, rfl, rfl⟩, rfl, rfl, rfl⟩ := e2
          rfl
    · rename_i hn
      unfold Transform.multiplyRowByMatrix
      split
      · rename_i e2
        exfalso
        rw [e2] at hn
        exact hn _ _ _ _ _ _ _ _ _ _ _ _ rfl rfl
      · rfl
  have := hm [p.1, p.2, 1]
  simp only [List.map_cons, List.map_nil] at this
  rw [show ([(pt p).1, (pt p).2, fin 1] : Row (Num K)) = [fin p.1, fin p.2, fin 1] from rfl, this]
  have hd : ∀ x y : K, div (fin x) (fin y) = (pdiv x y).map fin := by
    intro x y; unfold div pdiv; by_cases h : y = 0 <;> simp [h, Except.map]
  cases Transform.multiplyRowByMatrix [p.1, p.2, 1] T.transform with
  | error e => rfl
  | ok rp =>
    simp only [Except.map, ok_bind, Flt.pyGet_map]
    cases pyGet rp 0 with
    | error e => rfl
    | ok a =>
      cases pyGet rp 2 with
      | error e => rfl
      | ok w =>
        cases pyGet rp 1 with
        | error e => simp only [Except.map, ok_bind, hd]; cases pdiv a w <;> rfl
        | ok b =>
          simp only [Except.map, ok_bind, hd]
          cases pdiv a w with
          | error e => rfl
          | ok x => cases pdiv b w <;> rfl

end field

namespace Special

/-- A curve with finite coordinates. -/
def finite (b : Bezier) : Curve := ⟨b.controlPoints.map pt, b.t1, b.t2, b.direction, b.linear, b.clockwise⟩

theorem mapM_pt (f : Pt (Num ℝ) → Py (Pt (Num ℝ))) (g : Pt ℝ → Py (Pt ℝ)) (h : ∀ p, f (pt p) = (g p).map pt) (ps : Segment ℝ) :
    (ps.map pt).mapM f = (ps.mapM g).map (List.map pt) := by
  induction ps with
  | nil => rfl
  | cons p ps ih =>
    rw [List.map_cons, List.mapM_cons, List.mapM_cons, ih, h]
    cases g p with
    | error e => rfl
    | ok q =>
      cases ps.mapM g with
      | error e => rfl
      | ok qs => rfl

theorem angle_fin (o v1 v2 : Pt ℝ) : angle (pt o) (pt v1) (pt v2) = fin (butils.angle o v1 v2) := by
  simp only [angle, pt, sub_fin, mul_fin, add_fin, atan2, butils.angle]

theorem alignPoints_fin (ps : Segment ℝ) (first last : Pt ℝ) :
    alignPoints (ps.map pt) (pt first) (pt last) = (Bezier.alignPoints ps [first, last]).map (List.map pt) := by
  unfold alignPoints Bezier.alignPoints
  have hd : PathUtilities.rawSlopeAngle [first, last] = .ok (PathUtilities.degrees (butils.atan2 (last.2 - first.2) (last.1 - first.1))) := rfl
  rw [hd]
  simp only [ok_bind, pyGet_zero_cons]
  have ha : Num.lift PathUtilities.degrees (atan2 (sub (pt last).2 (pt first).2) (sub (pt last).1 (pt first).1)) =
      fin (PathUtilities.degrees (butils.atan2 (last.2 - first.2) (last.1 - first.1))) := by
    simp only [pt, sub_fin, atan2, Num.lift]
  rw [ha]
  generalize PathUtilities.degrees (butils.atan2 (last.2 - first.2) (last.1 - first.1)) = a
  have hT : ∃ m : Mat ℝ, Transform.moveAndRotate first (0, 0) (-a) = .ok ⟨m⟩ ∧
      moveAndRotateOf (pt first) (fin 0, fin 0) (Num.lift Transform.sin (neg (fin a))) (Num.lift Transform.cos (neg (fin a))) = .ok (m.map (List.map fin)) := by
    refine ⟨_, rfl, ?_⟩
    simp only [moveAndRotateOf, neg, Num.lift, pt, sub_fin]
    rfl
  obtain ⟨m, e1, e2⟩ := hT
  rw [e1, e2]
  simp only [ok_bind]
  exact mapM_pt _ _ (fun p => C115_finite_transform ⟨m⟩ p) ps

theorem new_fin (ps : Segment ℝ) (hl : 2 ≤ ps.length) (hl' : ps.length ≤ 4) : new (ps.map pt) = (Bezier.new ps).map finite := by
  unfold new Bezier.new
  rw [C115_finite_direction ps hl hl', Flt.pyGet_map, Flt.pyGet_map, Flt.pyGet_map]
  cases Bezier.computeDirection ps with
  | error e => rfl
  | ok d =>
    cases pyGet ps 0 with
    | error e => rfl
    | ok first =>
      cases pyGet ps (-1) with
      | error e => rfl
      | ok last =>
        simp only [ok_bind, Except.map]
        rw [alignPoints_fin]
        cases Bezier.alignPoints ps [first, last] with
        | error e => rfl
        | ok al =>
          cases pyGet ps 1 with
          | error e => rfl
          | ok second =>
            simp only [ok_bind, Except.map, pure_eq_ok, angle_fin]
            have e : ((al.map pt).filter fun x => lt (fin (1 / 10000)) (Num.abs x.2)) = (al.filter fun x => decide (|x.2| > 1 / 10000)).map pt := by
              rw [List.filter_map]
              rfl
            rw [e, List.length_map]
            simp only [finite, lt, gt_iff_lt, Except.ok.injEq, Curve.mk.injEq, true_and, and_true]
            rw [Bool.eq_iff_iff]
            simp

theorem overlaps_fin (b c : Bezier) (hb : 2 ≤ b.controlPoints.length) (hc : 2 ≤ c.controlPoints.length) : overlaps (finite b) (finite c) = Bezier.overlaps b c := by
  unfold overlaps Bezier.overlaps finite
  simp only
  rw [C115_finite_bounds _ hb, C115_finite_bounds _ hc]
  cases Bezier.boundsRectangle b.controlPoints with
  | error e => rfl
  | ok r1 =>
    cases Bezier.boundsRectangle c.controlPoints with
    | error e => rfl
    | ok r2 =>
      simp only [ok_bind, Except.map, pure_eq_ok, intersection_sides]
      cases r1.intersection r2 <;> rfl

theorem split_fin (b : Bezier) (t : ℝ) : split (finite b) t = (Bezier.split1 b t).map fun r => (finite r.1, finite r.2.1) := by
  unfold split Bezier.split1 Bezier.order
  simp only [finite, List.length_map, (C115_finite_get b.controlPoints t).2, Flt.pyGet_map]
  generalize Bezier.hull b.controlPoints t = q
  have m : ∀ x, ∃ y, butils.map x 0 1 b.t1 b.t2 = .ok y := by
    intro x; unfold butils.map; simp [pdiv, ok_bind, pure_eq_ok]
  obtain ⟨y0, m0⟩ := m 0
  obtain ⟨yt, mt⟩ := m t
  obtain ⟨y1, m1⟩ := m 1
  rw [m0, mt, m1]
  have n3 : ∀ a b c : Pt ℝ, new [pt a, pt b, pt c] = (Bezier.new [a, b, c]).map finite := fun a b c => new_fin [a, b, c] (by simp) (by simp)
  have n4 : ∀ a b c d : Pt ℝ, new [pt a, pt b, pt c, pt d] = (Bezier.new [a, b, c, d]).map finite := fun a b c d => new_fin [a, b, c, d] (by simp) (by simp)
  by_cases h : b.controlPoints.length = 3
  · rw [if_pos h, if_pos (by omega)]
    rcases pyGet q 0 with e | q0 <;> simp only [Except.map, ok_bind, error_bind]
    rcases pyGet q 3 with e | q3 <;> simp only [Except.map, ok_bind, error_bind]
    rcases pyGet q 5 with e | q5 <;> simp only [Except.map, ok_bind, error_bind]
    rw [n3]
    rcases Bezier.new [q0, q3, q5] with e | l <;> simp only [Except.map, ok_bind, error_bind]
    rcases pyGet q 4 with e | q4 <;> simp only [Except.map, ok_bind, error_bind]
    rcases pyGet q 2 with e | q2 <;> simp only [Except.map, ok_bind, error_bind]
    rw [n3]
    rcases Bezier.new [q5, q4, q2] with e | r <;> simp only [Except.map, ok_bind, error_bind, pure_eq_ok, finite]
  · rw [if_neg h, if_neg (by omega)]
    rcases pyGet q 0 with e | q0 <;> simp only [Except.map, ok_bind, error_bind]
    rcases pyGet q 4 with e | q4 <;> simp only [Except.map, ok_bind, error_bind]
    rcases pyGet q 7 with e | q7 <;> simp only [Except.map, ok_bind, error_bind]
    rcases pyGet q 9 with e | q9 <;> simp only [Except.map, ok_bind, error_bind]
    rw [n4]
    rcases Bezier.new [q0, q4, q7, q9] with e | l <;> simp only [Except.map, ok_bind, error_bind]
    rcases pyGet q 8 with e | q8 <;> simp only [Except.map, ok_bind, error_bind]
    rcases pyGet q 6 with e | q6 <;> simp only [Except.map, ok_bind, error_bind]
    rcases pyGet q 3 with e | q3 <;> simp only [Except.map, ok_bind, error_bind]
    rw [n4]
    rcases Bezier.new [q9, q8, q6, q3] with e | r <;> simp only [Except.map, ok_bind, error_bind, pure_eq_ok, finite]

theorem new_points {ps : Segment ℝ} {b : Bezier} (h : Bezier.new ps = .ok b) : b.controlPoints = ps := by
  unfold Bezier.new at h
  obtain ⟨_, -, h⟩ := bind_eq_ok.mp h
  obtain ⟨_, -, h⟩ := bind_eq_ok.mp h
  obtain ⟨_, -, h⟩ := bind_eq_ok.mp h
  obtain ⟨_, -, h⟩ := bind_eq_ok.mp h
  obtain ⟨_, -, h⟩ := bind_eq_ok.mp h
  rw [pure_eq_ok, Except.ok.injEq] at h
  rw [← h]

theorem split1_points {b l r : Bezier} {q : Segment ℝ} {t : ℝ} (h : Bezier.split1 b t = .ok (l, r, q)) :
    2 ≤ l.controlPoints.length ∧ 2 ≤ r.controlPoints.length := by
  unfold Bezier.split1 at h
  obtain ⟨⟨l', r'⟩, e, h⟩ := bind_eq_ok.mp h
  have k : 2 ≤ l'.controlPoints.length ∧ 2 ≤ r'.controlPoints.length := by
    split_ifs at e
    · obtain ⟨_, -, e⟩ := bind_eq_ok.mp e
      obtain ⟨_, -, e⟩ := bind_eq_ok.mp e
      obtain ⟨_, -, e⟩ := bind_eq_ok.mp e
      obtain ⟨l2, hl, e⟩ := bind_eq_ok.mp e
      obtain ⟨_, -, e⟩ := bind_eq_ok.mp e
      obtain ⟨_, -, e⟩ := bind_eq_ok.mp e
      obtain ⟨_, -, e⟩ := bind_eq_ok.mp e
      obtain ⟨r2, hr, e⟩ := bind_eq_ok.mp e
      rw [pure_eq_ok, Except.ok.injEq, Prod.mk.injEq] at e
      rw [← e.1, ← e.2, new_points hl, new_points hr]
      simp
    · obtain ⟨_, -, e⟩ := bind_eq_ok.mp e
      obtain ⟨_, -, e⟩ := bind_eq_ok.mp e
      obtain ⟨_, -, e⟩ := bind_eq_ok.mp e
      obtain ⟨_, -, e⟩ := bind_eq_ok.mp e
      obtain ⟨l2, hl, e⟩ := bind_eq_ok.mp e
      obtain ⟨_, -, e⟩ := bind_eq_ok.mp e
      obtain ⟨_, -, e⟩ := bind_eq_ok.mp e
      obtain ⟨_, -, e⟩ := bind_eq_ok.mp e
      obtain ⟨_, -, e⟩ := bind_eq_ok.mp e
      obtain ⟨r2, hr, e⟩ := bind_eq_ok.mp e
      rw [pure_eq_ok, Except.ok.injEq, Prod.mk.injEq] at e
      rw [← e.1, ← e.2, new_points hl, new_points hr]
      simp
  obtain ⟨_, -, h⟩ := bind_eq_ok.mp h
  obtain ⟨_, -, h⟩ := bind_eq_ok.mp h
  obtain ⟨_, -, h⟩ := bind_eq_ok.mp h
  obtain ⟨_, -, h⟩ := bind_eq_ok.mp h
  rw [pure_eq_ok, Except.ok.injEq, Prod.mk.injEq, Prod.mk.injEq] at h
  rw [← h.1, ← h.2.1]
  exact k

theorem filterM_fin {α β : Type} (g : α → β) (f : β → Py Bool) (f' : α → Py Bool) (l : List α) (h : ∀ a ∈ l, f (g a) = f' a) :
    (l.map g).filterM f = (l.filterM f').map (List.map g) := by
  have key : ∀ (l acc : List α), (∀ a ∈ l, f (g a) = f' a) → List.filterAuxM f (l.map g) (acc.map g) = (List.filterAuxM f' l acc).map (List.map g) := by
    intro l
    induction l with
    | nil => intro acc _; rfl
    | cons a l ih =>
      intro acc h
      rw [List.map_cons, List.filterAuxM, List.filterAuxM, h a (by simp)]
      have h' := fun a ha => h a (List.mem_cons_of_mem _ ha)
      rcases f' a with e | (_ | _)
      · rfl
      · exact ih acc h'
      · exact ih (a :: acc) h'
  unfold List.filterM
  have := key l [] h
  rw [List.map_nil] at this
  rw [this]
  rcases List.filterAuxM f' l [] with e | k
  · rfl
  · simp only [Except.map, ok_bind, pure_eq_ok, List.map_reverse]

theorem mapM_fin {α β γ : Type} (g : α → β) (f : β → Py γ) (f' : α → Py γ) (l : List α) (h : ∀ a ∈ l, f (g a) = f' a) :
    (l.map g).mapM f = l.mapM f' := by
  induction l with
  | nil => rfl
  | cons a l ih =>
    rw [List.map_cons, List.mapM_cons, List.mapM_cons, h a (by simp), ih fun a ha => h a (List.mem_cons_of_mem _ ha)]

theorem pairiteration_fin (depth : Nat) (c1 c2 : Bezier) (h1 : 2 ≤ c1.controlPoints.length) (h2 : 2 ≤ c2.controlPoints.length) (threshold : ℝ) :
    pairiteration depth (finite c1) (finite c2) threshold = Bezier.pairiteration depth c1 c2 threshold := by
  induction depth generalizing c1 c2 with
  | zero => rfl
  | succ depth ih =>
    unfold pairiteration Bezier.pairiteration
    rw [show (finite c1).points = c1.controlPoints.map pt from rfl, show (finite c2).points = c2.controlPoints.map pt from rfl,
      C115_finite_bounds _ h1, C115_finite_bounds _ h2, split_fin, split_fin]
    rcases Bezier.boundsRectangle c1.controlPoints with e | r1
    · rfl
    rcases Bezier.boundsRectangle c2.controlPoints with e | r2
    · rfl
    simp only [Except.map, ok_bind]
    have hs : ∀ r : BoundsRectangle ℝ, lt (add (height (sides r)) (width (sides r))) (fin threshold) = decide (r.height + r.width < threshold) := by
      intro r
      simp only [height, width, sides, sub_fin, add_fin, lt]
      rfl
    rw [hs, hs]
    by_cases hc : r1.height + r1.width < threshold ∧ r2.height + r2.width < threshold
    · rw [if_pos hc, if_pos (by simpa using hc)]
      rfl
    rw [if_neg hc, if_neg (by simpa using hc)]
    rcases s1 : Bezier.split1 c1 (1 / 2) with e | ⟨l1, k1, q1⟩
    · rfl
    rcases s2 : Bezier.split1 c2 (1 / 2) with e | ⟨l2, k2, q2⟩
    · rfl
    simp only [ok_bind]
    obtain ⟨a1, a2⟩ := split1_points s1
    obtain ⟨b1, b2⟩ := split1_points s2
    have e := filterM_fin (fun p : Bezier × Bezier => (finite p.1, finite p.2)) (fun pair => overlaps pair.1 pair.2) (fun pair => Bezier.overlaps pair.1 pair.2)
      [(l1, l2), (l1, k2), (k1, k2), (k1, l2)] (by
        intro a ha
        simp only [List.mem_cons, List.not_mem_nil, or_false] at ha
        rcases ha with rfl | rfl | rfl | rfl <;> exact overlaps_fin _ _ (by assumption) (by assumption))
    simp only [List.map_cons, List.map_nil] at e
    rw [e]
    rcases hf : List.filterM (fun pair : Bezier × Bezier => Bezier.overlaps pair.1 pair.2) [(l1, l2), (l1, k2), (k1, k2), (k1, l2)] with e | pairs
    · rfl
    simp only [Except.map, ok_bind]
    rw [mapM_fin (fun p : Bezier × Bezier => (finite p.1, finite p.2)) (fun pair => pairiteration depth pair.1 pair.2 threshold)
      (fun pair => Bezier.pairiteration depth pair.1 pair.2 threshold) pairs]
    intro a ha
    have ha := ((filterM_mem _ _ _ hf a).mp ha).1
    simp only [List.mem_cons, List.not_mem_nil, or_false] at ha
    rcases ha with rfl | rfl | rfl | rfl <;> exact ih _ _ (by assumption) (by assumption)

end Special

/-- C115: for finite control points a new curve, the parts of a split, the test whether two curves overlap and the recursion for intersections are those of the
exact model, exceptions included. -/
theorem C115_finite_run (ps : Segment ℝ) (hl : 2 ≤ ps.length) (hl' : ps.length ≤ 4) (b c : Bezier) (hb : 2 ≤ b.controlPoints.length)
    (hc : 2 ≤ c.controlPoints.length) (t threshold : ℝ) (depth : Nat) :
    Special.new (ps.map pt) = (Bezier.new ps).map finite ∧
    Special.split (finite b) t = (Bezier.split1 b t).map (fun r => (finite r.1, finite r.2.1)) ∧
    Special.overlaps (finite b) (finite c) = Bezier.overlaps b c ∧
    Special.pairiteration depth (finite b) (finite c) threshold = Bezier.pairiteration depth b c threshold :=
  ⟨new_fin ps hl hl', split_fin b t, overlaps_fin b c hb hc, pairiteration_fin depth b c hb hc threshold⟩

/-- An arch. -/
example : Special.new [(fin 0, fin 0), (fin 5, fin 10), (fin 10, fin 0)] = (Bezier.new [(0, 0), (5, 10), (10, 0)]).map finite :=
  new_fin [(0, 0), (5, 10), (10, 0)] (by simp) (by simp)

end PathLib
