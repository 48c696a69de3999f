import Verif.Props.SpecialRun
import Verif.Lemmas.FloatRun

set_option linter.unusedSectionVars false
set_option linter.unusedSimpArgs false

/-!
# For finite coordinates the two models agree: C115
-/

namespace PathLib
open Special Special.Num

/-- A point with finite coordinates. -/
def Special.pt {K : Type} (p : Pt K) : Pt (Num K) := (fin p.1, fin p.2)

/-- A rectangle with finite sides. -/
def Special.sides {K : Type} (b : BoundsRectangle K) : BoundsRectangle (Num K) := ⟨fin b.left, fin b.bottom, fin b.right, fin b.top⟩

namespace Special
section field
variable {K : Type} [Field K] [LinearOrder K]

theorem min_fin (x y : K) : Num.min (fin x) (fin y) = fin (pyMin x y) := by
  unfold Num.min pyMin; by_cases h : y < x <;> simp [lt, h]

theorem max_fin (x y : K) : Num.max (fin x) (fin y) = fin (pyMax x y) := by
  unfold Num.max pyMax; by_cases h : x < y <;> simp [lt, h]

theorem sub_fin (x y : K) : sub (fin x) (fin y) = fin (x - y) := by simp [sub, neg, add, sub_eq_add_neg]
theorem add_fin (x y : K) : add (fin x) (fin y) = fin (x + y) := rfl
theorem mul_fin (x y : K) : mul (fin x) (fin y) = fin (x * y) := rfl
theorem neg_fin (x : K) : neg (fin x) = fin (-x) := rfl

theorem coordinate_pt (d : Fin 2) (p : Pt K) : coordinate d (pt p) = fin (Bezier.coord d p) := by
  fin_cases d <;> rfl

theorem zip_pt (f : Pt (Num K) → Pt (Num K) → Pt (Num K)) (g : Pt K → Pt K → Pt K) (h : ∀ a b, f (pt a) (pt b) = pt (g a b)) (ps qs : Segment K) :
    List.zipWith f (ps.map pt) (qs.map pt) = (List.zipWith g ps qs).map pt := by
  rw [List.zipWith_map, List.map_zipWith]
  simp only [h]

theorem lerp_pt (t : K) (a b : Pt K) : lerp t (pt a) (pt b) = pt (butils.lerp t a b) := by
  simp [lerp, pt, butils.lerp, sub_fin, mul_fin, add_fin]

theorem step_pt (t : K) (a b : Pt K) : ((add (pt a).1 (mul (sub (pt b).1 (pt a).1) (fin t)), add (pt a).2 (mul (sub (pt b).2 (pt a).2) (fin t))) : Pt (Num K)) =
    pt (a.1 + (b.1 - a.1) * t, a.2 + (b.2 - a.2) * t) := by
  simp [pt, sub_fin, mul_fin, add_fin]

theorem pyGet_pt (ps : Segment K) (i : Int) : pyGet (ps.map pt) i = (pyGet ps i).map pt := Flt.pyGet_map pt ps i

theorem casteljau_pt (t : K) (n : Nat) (ps : Segment K) (hn : ps.length = n) : casteljau t (ps.map pt) = (Bezier.casteljau t ps).map pt := by
  induction n using Nat.strong_induction_on generalizing ps with
  | _ n ih =>
    unfold casteljau Bezier.casteljau
    rw [List.length_map]
    split
    · rw [← List.map_tail, zip_pt _ (fun a b => (a.1 + (b.1 - a.1) * t, a.2 + (b.2 - a.2) * t)) (fun a b => step_pt t a b)]
      exact ih (n - 1) (by omega) _ (by simp [Bezier.casteljauStep, hn])
    · exact pyGet_pt ps 0

theorem hullLoop_pt (t : K) (n : Nat) (ps : Segment K) (hn : ps.length = n) : hullLoop t (ps.map pt) = (Bezier.hullLoop t ps).map pt := by
  induction n using Nat.strong_induction_on generalizing ps with
  | _ n ih =>
    unfold hullLoop Bezier.hullLoop
    rw [List.length_map]
    split
    · rw [← List.map_tail, zip_pt _ (butils.lerp t) (fun a b => lerp_pt t a b), List.map_append]
      exact congrArg _ (ih (n - 1) (by omega) _ (by simp [hn]))
    · rfl

theorem dcStep_pt (ps : Segment K) : dcStep (ps.map pt) = (Bezier.dcStep ps).map pt := by
  unfold dcStep Bezier.dcStep
  rw [← List.map_tail, List.length_map]
  refine zip_pt _ _ (fun a b => ?_) _ _
  simp [pt, sub_fin, mul_fin]

theorem addPoint_pt (b : BoundsRectangle K) (p : Pt K) :
    (⟨Num.min (sides b).left (pt p).1, Num.min (sides b).bottom (pt p).2, Num.max (sides b).right (pt p).1, Num.max (sides b).top (pt p).2⟩ : BoundsRectangle (Num K)) =
      sides (b.addPoint p) := by
  simp [sides, pt, BoundsRectangle.addPoint, min_fin, max_fin]

end field
end Special

section field
variable {K : Type} [Field K] [LinearOrder K]

/-- C115: for finite coordinates the rectangle is that of `C08`. -/
theorem C115_finite_rectangle (ps : Segment K) : rectangle (ps.map pt) = sides (BoundsRectangle.new ps) := by
  unfold rectangle BoundsRectangle.new
  suffices h : ∀ b : BoundsRectangle K, (ps.map pt).foldl (fun b p =>
      { left := Num.min b.left p.1, right := Num.max b.right p.1, bottom := Num.min b.bottom p.2, top := Num.max b.top p.2 }) (sides b) =
      sides (ps.foldl BoundsRectangle.addPoint b) from h BoundsRectangle.init
  induction ps with
  | nil => intro b; rfl
  | cons p ps ih =>
    intro b
    rw [List.map_cons, List.foldl_cons, List.foldl_cons, addPoint_pt]
    exact ih _

/-- C115: for finite control points `get` and `hull` give the points of the exact model, exceptions included. -/
theorem C115_finite_get (ps : Segment K) (t : K) : Special.get (ps.map pt) t = (Bezier.get ps t).map pt ∧ Special.hull (ps.map pt) t = (Bezier.hull ps t).map pt := by
  constructor
  · unfold Special.get Bezier.get Bezier.order
    rw [List.length_map]
    by_cases h0 : t = 0
    · rw [if_pos h0, if_pos h0]; exact pyGet_pt ps 0
    rw [if_neg h0, if_neg h0]
    by_cases h1 : t = 1
    · rw [if_pos h1, if_pos h1]; exact pyGet_pt ps _
    rw [if_neg h1, if_neg h1]
    match ps with
    | [] => rfl
    | [a] => rfl
    | [a, b] =>
      simp [pyGet_zero_cons, pyGet_one_cons, ok_bind, pure_eq_ok, pt, mul_fin, add_fin, Except.map]
    | [a, b, c] =>
      simp [pyGet_zero_cons, pyGet_one_cons, pyGet_two_cons, pyGet_three_cons, ok_bind, pure_eq_ok, pt, mul_fin, add_fin, Except.map]
    | [a, b, c, d] =>
      simp [pyGet_zero_cons, pyGet_one_cons, pyGet_two_cons, pyGet_three_cons, ok_bind, pure_eq_ok, pt, mul_fin, add_fin, Except.map]
    | a :: b :: c :: d :: e :: l =>
      simp only [List.length_cons]
      rw [if_neg (by omega), if_neg (by omega), if_neg (by omega), if_neg (by push_cast; omega), if_neg (by push_cast; omega), if_neg (by push_cast; omega)]
      exact casteljau_pt t _ _ rfl
  · unfold Special.hull Bezier.hull
    rw [List.map_append, hullLoop_pt t _ ps rfl]

end field

namespace Special

/-- NaN for a missing number. -/
def opt : Option ℝ → Num ℝ
  | some x => fin x
  | none => nan

theorem sqrt_fin (x : ℝ) : Num.sqrt (fin x) = opt (butils.sqrt x) := by
  unfold Num.sqrt butils.sqrt
  by_cases h : x < 0
  · simp [h, opt]
  · simp [h, opt]

theorem droots_fin (p : List ℝ) : droots (p.map fin) = .ok ((butils.droots p).map opt) := by
  unfold droots butils.droots
  match p with
  | [] => rfl
  | [a] => rfl
  | [a, b] =>
    simp only [List.map_cons, List.map_nil, eq, sub_fin]
    by_cases h : a = b
    · simp [h, pure_eq_ok]
    · have : a - b ≠ 0 := sub_ne_zero.mpr h
      simp [h, div, this, ok_bind, pure_eq_ok, opt]
  | [a, b, c] =>
    simp only [List.map_cons, List.map_nil, sub_fin, mul_fin, add_fin, eq, neg_fin]
    by_cases h : a - 2 * b + c = 0
    · by_cases hbc : b = c
      · subst hbc
        simp [h, pure_eq_ok]
      · have : b - c ≠ 0 := sub_ne_zero.mpr hbc
        simp [h, hbc, div, this, ok_bind, pure_eq_ok, opt]
    · simp only [h, decide_false, Bool.not_false, if_true, ne_eq, not_false_eq_true]
      rw [sqrt_fin]
      cases butils.sqrt (b * b - a * c) with
      | none => simp [opt, neg, add, div, h, ok_bind, pure_eq_ok]
      | some s => simp [opt, neg, add, div, h, ok_bind, pure_eq_ok]
  | a :: b :: c :: d :: l => rfl

theorem keep_opt (l : List (Option ℝ)) : keep (l.map opt) = l.filterMap fun t => t.filter fun t => t ≥ 0 ∧ t ≤ 1 := by
  unfold keep
  rw [List.filterMap_map]
  congr 1
  funext t
  cases t with
  | none => rfl
  | some t =>
    simp only [Function.comp, opt, Option.filter]
    by_cases h : 0 ≤ t ∧ t ≤ 1
    · simp [h]
    · rw [if_neg h, if_neg (by simpa using h)]

theorem map_coordinate (d : Fin 2) (ps : Segment ℝ) : (ps.map pt).map (coordinate d) = (ps.map (Bezier.coord d)).map fin := by
  rw [List.map_map, List.map_map]
  congr 1
  funext p
  exact coordinate_pt d p

theorem extremaDim_pt (ps : Segment ℝ) (hl : 2 ≤ ps.length) (d : Fin 2) :
    extremaDim (ps.map pt) d = Bezier.extremaDim (Bezier.order ps) (Bezier.dcPoints ps) d := by
  unfold extremaDim Bezier.extremaDim
  rw [dcStep_pt, dcStep_pt, map_coordinate, map_coordinate, droots_fin, droots_fin, List.length_map]
  have h0 : pyGet (Bezier.dcPoints ps) 0 = .ok (Bezier.dcStep ps) := by
    unfold Bezier.dcPoints; rw [if_pos (by omega)]; exact pyGet_zero_cons ..
  rw [h0]
  simp only [ok_bind]
  by_cases h : ps.length = 4
  · have h1 : pyGet (Bezier.dcPoints ps) 1 = .ok (Bezier.dcStep (Bezier.dcStep ps)) := by
      unfold Bezier.dcPoints; rw [if_pos (by omega)]; unfold Bezier.dcPoints; rw [if_pos (by rw [Bezier.dcStep_length]; omega)]; exact pyGet_one_cons ..
    rw [if_pos h, if_pos (by unfold Bezier.order; omega), h1]
    simp only [ok_bind, pure_eq_ok, ← List.map_append, keep_opt]
  · rw [if_neg h, if_neg (by unfold Bezier.order; omega)]
    simp only [ok_bind, pure_eq_ok, keep_opt]

theorem getminmax_pt (ps : Segment ℝ) (d : Fin 2) (l : List ℝ) :
    getminmax (ps.map pt) d l = ((Bezier.getminmax ps d l).1).map fun x => (fin x.1, fin x.2) := by
  unfold getminmax Bezier.getminmax Bezier.minmaxLoop
  simp only
  suffices h : ∀ (l : List ℝ) (a b : ℝ), l.foldlM (fun acc t => do
      let c ← Special.get (ps.map pt) t
      let min := if lt (coordinate d c) acc.1 then coordinate d c else acc.1
      let max := if lt acc.2 (coordinate d c) then coordinate d c else acc.2
      return (min, max)) (fin a, fin b) = (l.foldlM (fun acc t => do
      let c ← Bezier.get ps t
      let min := if Bezier.coord d c < acc.1 then Bezier.coord d c else acc.1
      let max := if Bezier.coord d c > acc.2 then Bezier.coord d c else acc.2
      return (min, max)) (a, b) : Py (ℝ × ℝ)).map fun x => (fin x.1, fin x.2) from h _ _ _
  intro l
  induction l with
  | nil => intro a b; rfl
  | cons t l ih =>
    intro a b
    rw [List.foldlM_cons, List.foldlM_cons, (C115_finite_get ps t).1]
    cases Bezier.get ps t with
    | error e => rfl
    | ok c =>
      simp only [Except.map, ok_bind, pure_eq_ok, coordinate_pt]
      have e1 : (if lt (fin (Bezier.coord d c)) (fin a) then fin (Bezier.coord d c) else fin a) = fin (if Bezier.coord d c < a then Bezier.coord d c else a) := by
        by_cases h : Bezier.coord d c < a <;> simp [lt, h]
      have e2 : (if lt (fin b) (fin (Bezier.coord d c)) then fin (Bezier.coord d c) else fin b) = fin (if Bezier.coord d c > b then Bezier.coord d c else b) := by
        by_cases h : b < Bezier.coord d c <;> simp [lt, h]
      rw [e1, e2]
      exact ih _ _

end Special

/-- C115: for finite control points the bounds are those of the exact model. -/
theorem C115_finite_bounds (ps : Segment ℝ) (hl : 2 ≤ ps.length) : Special.boundsRectangle (ps.map pt) = (Bezier.boundsRectangle ps).map sides := by
  unfold Special.boundsRectangle Bezier.boundsRectangle Special.bbox Bezier.bbox Bezier.extrema Bezier.extremaOf
  rw [extremaDim_pt ps hl, extremaDim_pt ps hl]
  cases hx : Bezier.extremaDim (Bezier.order ps) (Bezier.dcPoints ps) 0 with
  | error e => rfl
  | ok x =>
    cases hy : Bezier.extremaDim (Bezier.order ps) (Bezier.dcPoints ps) 1 with
    | error e => rfl
    | ok y =>
      simp only [ok_bind, pure_eq_ok, getminmax_pt]
      cases (Bezier.getminmax ps 0 x).1 with
      | error e => rfl
      | ok a =>
        cases (Bezier.getminmax ps 1 y).1 with
        | error e => rfl
        | ok b =>
          simp only [Except.map, ok_bind, pure_eq_ok]
          exact congrArg Except.ok (C115_finite_rectangle [(a.1, b.1), (a.2, b.2)])

/-- C115: for finite control points the direction is that of the exact model, for lines, quadratics and cubics. -/
theorem C115_finite_direction {K : Type} [Field K] [LinearOrder K] (ps : Segment K) (hl : 2 ≤ ps.length) (hl' : ps.length ≤ 4) :
    Special.computeDirection (ps.map pt) = Bezier.computeDirection ps := by
  have hle : ∀ x y : K, le (fin x) (fin y) = decide (x ≤ y) := by
    intro x y; simp only [le, lt, eq]; rw [Bool.eq_iff_iff]; simp [le_iff_lt_or_eq]
  unfold Special.computeDirection Bezier.computeDirection Bezier.order
  match ps, hl, hl' with
  | [a, b], _, _ => simp [pyGet_zero_cons, pyGet_one_cons, ok_bind, pure_eq_ok, pt, eq, lt]
  | [a, b, c], _, _ => simp [pyGet_zero_cons, pyGet_one_cons, pyGet_two_cons, ok_bind, pure_eq_ok, pt, hle]
  | [a, b, c, d], _, _ => simp [pyGet_zero_cons, pyGet_one_cons, pyGet_two_cons, pyGet_three_cons, ok_bind, pure_eq_ok, pt, hle, and_assoc]

/-! ## Cases -/

/-- The bounds of a quadratic with NaN in the middle: the ends. -/
example : ∃ r, Special.boundsRectangle [(fin 0, fin 0), (nan, fin 5), (fin 10, fin 0)] = .ok r ∧ r.left = fin 0 ∧ r.right = fin 10 := by
  obtain ⟨r, hr, -⟩ := C115_bounds [(fin 0, fin 0), (nan, fin 5), (fin 10, fin 0)] (by simp) (by simp)
  have := ((C115_bounds_nan _ (by simp) (by simp) (fin 0, fin 0) (fin 10, fin 0) rfl rfl r hr).1 ⟨(nan, fin 5), by simp, rfl⟩).2 (by simp) (by
    rintro x (rfl | rfl) - <;> norm_num [le, lt])
  obtain ⟨h1, h2, h3⟩ := this
  refine ⟨r, hr, ?_, ?_⟩
  · rcases h1 with h | h
    · exact h
    · have := (h3 (fin 0) (.inl rfl) (by simp)).1
      rw [h] at this
      norm_num [le, lt, eq] at this
  · rcases h2 with h | h
    · have := (h3 (fin 10) (.inr rfl) (by simp)).2
      rw [h] at this
      norm_num [le, lt, eq] at this
    · exact h

/-- A curve of NaN against an arch: no recursion limit is enough, also for the default threshold. -/
example (c c' : Special.Curve) (h : c.points = [(nan, nan), (nan, nan), (nan, nan)]) (h' : c'.points = [(fin 0, fin 0), (fin 5, fin 5), (fin 10, fin 0)]) (depth : Nat) :
    Special.pairiteration depth c c' (1 / 2) = .error .recursionError :=
  C115_recursion depth c c' (by rw [h]; simp) (by rw [h']; simp) (by rw [h]; simp) _ (by norm_num)

/-- Such a curve counts as straight and not clockwise. -/
example : ∃ c, Special.new [(nan, nan), (fin 1, fin 7), (fin 2, fin 0)] = .ok c ∧ c.linear = true ∧ c.clockwise = false := by
  obtain ⟨c, hc, -, h1, h2⟩ := C115_new [(nan, nan), (fin 1, fin 7), (fin 2, fin 0)] (by simp) (by simp) _ _ (fin 2, fin 0) _ rfl rfl
  exact ⟨c, hc, h1 (.inl (by simp)), h2 (.inl rfl)⟩

end PathLib
