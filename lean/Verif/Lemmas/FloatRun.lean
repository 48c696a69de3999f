import Verif.Lemmas.Float
import Verif.Props.BezierReduce
import Verif.Model.Rounded

/-!
# Running the rounded model

The functions of `Model/Rounded.lean` are defined on real numbers. For control points that are rational numbers (every `float` is one)
and Python's `float` arithmetic, the functions here compute the same results, and can be evaluated. They are a tool for proofs about
concrete curves; the theorems `..._run` connect them with the model.
-/

set_option linter.unusedSectionVars false
set_option linter.unusedSimpArgs false

namespace PathLib
namespace Flt

open Spec Bezier

/-- A point with rational coordinates. -/
def pt (p : Pt ℚ) : Pt ℝ := ((p.1 : ℝ), (p.2 : ℝ))

/-- Control points with rational coordinates. -/
def seg (ps : Segment ℚ) : Segment ℝ := ps.map pt

def add (a b : ℚ) : ℚ := fl (a + b)
def sub (a b : ℚ) : ℚ := fl (a - b)
def mul (a b : ℚ) : ℚ := fl (a * b)
def div (a b : ℚ) : ℚ := fl (a / b)

/-- Rounding to Python's `float`. -/
noncomputable abbrev F : Rounding := (binary 52).toRounding

theorem add_run (a b : ℚ) : F.add (a : ℝ) b = ((add a b : ℚ) : ℝ) := float_add a b
theorem sub_run (a b : ℚ) : F.sub (a : ℝ) b = ((sub a b : ℚ) : ℝ) := float_sub a b
theorem mul_run (a b : ℚ) : F.mul (a : ℝ) b = ((mul a b : ℚ) : ℝ) := float_mul a b
theorem div_run (a b : ℚ) : F.div (a : ℝ) b = ((div a b : ℚ) : ℝ) := float_div a b

theorem zero_cast : (0 : ℝ) = ((0 : ℚ) : ℝ) := by norm_num
theorem one_cast : (1 : ℝ) = ((1 : ℚ) : ℝ) := by norm_num
theorem two_cast : (2 : ℝ) = ((2 : ℚ) : ℝ) := by norm_num

theorem pyGet_map {α β : Type} (f : α → β) (l : List α) (i : Int) : pyGet (l.map f) i = (pyGet l i).map f := by
  unfold pyGet
  simp only [List.length_map, List.getElem?_map]
  by_cases h : (if i < 0 then i + (l.length : Int) else i) < 0
  · rw [if_pos h, if_pos h]; rfl
  · rw [if_neg h, if_neg h]
    cases l[(if i < 0 then i + (l.length : Int) else i).toNat]? <;> rfl

theorem map_bind {α β γ : Type} (f : α → β) (x : Py α) (g : β → Py γ) : (x.map f >>= g) = x >>= fun a => g (f a) := by
  cases x <;> rfl

def lerp (r : ℚ) (v1 v2 : Pt ℚ) : Pt ℚ := (add v1.1 (mul r (sub v2.1 v1.1)), add v1.2 (mul r (sub v2.2 v1.2)))

theorem lerp_run (r : ℚ) (v1 v2 : Pt ℚ) : Rounded.lerp F (r : ℝ) (pt v1) (pt v2) = pt (lerp r v1 v2) := by
  simp only [Rounded.lerp, lerp, pt, sub_run, mul_run, add_run]

def hullStep (t : ℚ) (ps : Segment ℚ) : Segment ℚ := List.zipWith (lerp t) ps ps.tail

theorem hullStep_length (t : ℚ) (ps : Segment ℚ) : (hullStep t ps).length = ps.length - 1 := by simp [hullStep]

theorem hullStep_run (t : ℚ) (ps : Segment ℚ) : Rounded.hullStep F (t : ℝ) (seg ps) = seg (hullStep t ps) := by
  unfold Rounded.hullStep hullStep seg
  rw [← List.map_tail, List.zipWith_map, List.map_zipWith]
  simp only [lerp_run]

/-- `hullLoop` with the number of levels as an argument, so that it can be evaluated. -/
def hullLoop (n : ℕ) (t : ℚ) (ps : Segment ℚ) : Segment ℚ :=
  match n with
  | 0 => []
  | n + 1 => hullStep t ps ++ hullLoop n t (hullStep t ps)

theorem hullLoop_run (n : ℕ) (t : ℚ) (ps : Segment ℚ) (h : ps.length = n + 1) :
    Rounded.hullLoop F (t : ℝ) (seg ps) = seg (hullLoop n t ps) := by
  induction n generalizing ps with
  | zero => rw [Rounded.hullLoop, if_neg (by simp [seg]; omega)]; rfl
  | succ n ih =>
    rw [Rounded.hullLoop, if_pos (by simp [seg]; omega), hullStep_run, ih _ (by rw [hullStep_length]; omega)]
    simp only [hullLoop, seg, List.map_append]

def hull (ps : Segment ℚ) (t : ℚ) : Segment ℚ := ps ++ hullLoop (ps.length - 1) t ps

theorem hull_run (ps : Segment ℚ) (t : ℚ) (h : ps ≠ []) : Rounded.hull F (seg ps) (t : ℝ) = seg (hull ps t) := by
  unfold Rounded.hull hull
  rw [hullLoop_run (ps.length - 1) t ps (by have := List.length_pos_iff.mpr h; omega)]
  simp only [seg, List.map_append]

theorem order_seg (ps : Segment ℚ) : order (seg ps) = order ps := by simp [order, seg]

def splitPoints (ps : Segment ℚ) (t : ℚ) : Py (Segment ℚ × Segment ℚ) := do
  let q := hull ps t
  if order ps = 2 then
    return ([← pyGet q 0, ← pyGet q 3, ← pyGet q 5], [← pyGet q 5, ← pyGet q 4, ← pyGet q 2])
  else
    return ([← pyGet q 0, ← pyGet q 4, ← pyGet q 7, ← pyGet q 9], [← pyGet q 9, ← pyGet q 8, ← pyGet q 6, ← pyGet q 3])

theorem splitPoints_run (ps : Segment ℚ) (t : ℚ) (h : ps ≠ []) :
    Rounded.splitPoints F (seg ps) (t : ℝ) = (splitPoints ps t).map fun r => (seg r.1, seg r.2) := by
  unfold Rounded.splitPoints splitPoints
  simp only [hull_run ps t h, order_seg]
  generalize hull ps t = q
  simp only [seg, pyGet_map, map_bind]
  by_cases h2 : order ps = 2
  · simp only [if_pos h2]
    cases pyGet q 0 <;> cases pyGet q 2 <;> cases pyGet q 3 <;> cases pyGet q 4 <;> cases pyGet q 5 <;> rfl
  · simp only [if_neg h2]
    cases pyGet q 0 <;> cases pyGet q 4 <;> cases pyGet q 7 <;> cases pyGet q 9 <;> try rfl
    cases pyGet q 8 <;> cases pyGet q 6 <;> cases pyGet q 3 <;> rfl

def dcStep (ps : Segment ℚ) : Segment ℚ :=
  let c : ℚ := ((ps.length - 1 : Nat) : ℚ)
  List.zipWith (fun a b => (mul c (sub b.1 a.1), mul c (sub b.2 a.2))) ps ps.tail

theorem dcStep_run (ps : Segment ℚ) : Rounded.dcStep F (seg ps) = seg (dcStep ps) := by
  unfold Rounded.dcStep dcStep seg
  rw [← List.map_tail, List.zipWith_map, List.map_zipWith]
  simp only [List.length_map, pt, sub_run]
  congr 1
  funext a b
  rw [show ((ps.length - 1 : Nat) : ℝ) = (((ps.length - 1 : Nat) : ℚ) : ℝ) by norm_num]
  simp only [mul_run]

def derivative (ps : Segment ℚ) (t : ℚ) : Py (Pt ℚ) := do
  let p ← (if ps.length > 1 then .ok (dcStep ps) else .error .indexError : Py (Segment ℚ))
  let mt := sub 1 t
  let (p, a, b, c) ← (if order ps = 2 then do
      return ([← pyGet p 0, ← pyGet p 1, (0, 0)], mt, t, 0)
    else return (p, mul mt mt, mul (mul mt t) 2, mul t t) : Py (Segment ℚ × ℚ × ℚ × ℚ))
  let p0 ← pyGet p 0
  let p1 ← pyGet p 1
  let p2 ← pyGet p 2
  return (add (add (mul a p0.1) (mul b p1.1)) (mul c p2.1), add (add (mul a p0.2) (mul b p1.2)) (mul c p2.2))

theorem derivative_run (ps : Segment ℚ) (t : ℚ) : Rounded.derivative F (seg ps) (t : ℝ) = (derivative ps t).map pt := by
  unfold Rounded.derivative Rounded.firstDerivative Rounded.derivativeOf derivative
  rw [dcStep_run, order_seg, show (seg ps).length = ps.length by simp [seg]]
  by_cases h1 : ps.length > 1
  · simp only [if_pos h1, ok_bind]
    generalize dcStep ps = p
    rw [show F.sub 1 (t : ℝ) = ((sub 1 t : ℚ) : ℝ) by rw [one_cast, sub_run]]
    by_cases h2 : order ps = 2
    · simp only [if_pos h2, seg, pyGet_map, map_bind]
      cases pyGet p 0 with
      | error e => rfl
      | ok p0 =>
        cases pyGet p 1 with
        | error e => rfl
        | ok p1 =>
          simp only [ok_bind, pure_eq_ok, pyGet_zero_cons, pyGet_one_cons, pyGet_two_cons, pt, Except.map]
          rw [zero_cast]
          simp only [mul_run, add_run]
    · simp only [if_neg h2, pure_eq_ok, ok_bind, seg, pyGet_map, map_bind]
      cases pyGet p 0 with
      | error e => rfl
      | ok p0 =>
        cases pyGet p 1 with
        | error e => rfl
        | ok p1 =>
          cases pyGet p 2 with
          | error e => rfl
          | ok p2 =>
            simp only [ok_bind, pure_eq_ok, pt, Except.map]
            rw [two_cast]
            simp only [mul_run, add_run]
  · simp only [if_neg h1, error_bind]; rfl

def pdiv (a b : ℚ) : Py ℚ := if b = 0 then .error .zeroDivisionError else .ok (div a b)

theorem pdiv_run (a b : ℚ) : Rounded.pdiv F (a : ℝ) b = (pdiv a b).map fun x => ((x : ℚ) : ℝ) := by
  unfold Rounded.pdiv pdiv
  by_cases h : b = 0
  · rw [if_pos h, if_pos (by exact_mod_cast h)]; rfl
  · rw [if_neg h, if_neg (by exact_mod_cast h), div_run]; rfl

def normal (ps : Segment ℚ) (t : ℚ) : Py (Pt ℚ) := do
  let d ← derivative ps t
  let q := flSqrt (add (mul d.1 d.1) (mul d.2 d.2))
  return (← pdiv (-d.2) q, ← pdiv d.1 q)

theorem fl_nonneg {q : ℚ} (h : 0 ≤ q) : 0 ≤ fl q := by
  have h1 : (0:ℝ) ≤ q := by exact_mod_cast h
  have := (binary 52).mono 0 q h1
  rw [(binary 52).rnd_zero, float_rnd] at this
  exact_mod_cast this

theorem normal_run (ps : Segment ℚ) (t : ℚ) : Rounded.normal F (seg ps) (t : ℝ) = (normal ps t).map pt := by
  unfold Rounded.normal normal
  rw [derivative_run, map_bind]
  cases derivative ps t with
  | error e => rfl
  | ok d =>
    simp only [ok_bind, pt, mul_run, add_run]
    have hq : 0 ≤ add (mul d.1 d.1) (mul d.2 d.2) :=
      fl_nonneg (add_nonneg (fl_nonneg (mul_self_nonneg _)) (fl_nonneg (mul_self_nonneg _)))
    have : Rounded.sqrt F ((add (mul d.1 d.1) (mul d.2 d.2) : ℚ) : ℝ) = ((flSqrt (add (mul d.1 d.1) (mul d.2 d.2)) : ℚ) : ℝ) :=
      float_sqrt _ hq
    rw [this, ← Rat.cast_neg, pdiv_run, pdiv_run]
    cases pdiv (-d.2) (flSqrt (add (mul d.1 d.1) (mul d.2 d.2))) <;>
      cases pdiv d.1 (flSqrt (add (mul d.1 d.1) (mul d.2 d.2))) <;> rfl

/-- The sign of `angle`. -/
def side (o v1 v2 : Pt ℚ) : Int :=
  let dx1 := sub v1.1 o.1
  let dy1 := sub v1.2 o.2
  let dx2 := sub v2.1 o.1
  let dy2 := sub v2.2 o.2
  let cross := sub (mul dx1 dy2) (mul dy1 dx2)
  let dot := add (mul dx1 dx2) (mul dy1 dy2)
  if 0 < cross ∨ (cross = 0 ∧ dot < 0) then 1 else if cross < 0 then -1 else 0

theorem side_run (o v1 v2 : Pt ℚ) :
    (Rounded.angle F (pt o) (pt v1) (pt v2) > 0 ↔ side o v1 v2 = 1) ∧
    (Rounded.angle F (pt o) (pt v1) (pt v2) < 0 ↔ side o v1 v2 = -1) := by
  unfold Rounded.angle butils.atan2 side
  rw [gt_iff_lt, arg_pos_iff, Complex.arg_neg_iff]
  simp only [pt, sub_run, mul_run, add_run]
  generalize sub (mul (sub v1.1 o.1) (sub v2.2 o.2)) (mul (sub v1.2 o.2) (sub v2.1 o.1)) = c
  generalize add (mul (sub v1.1 o.1) (sub v2.1 o.1)) (mul (sub v1.2 o.2) (sub v2.2 o.2)) = d
  have e1 : (0 < (c:ℝ) ∨ ((c:ℝ) = 0 ∧ (d:ℝ) < 0)) ↔ (0 < c ∨ (c = 0 ∧ d < 0)) := by norm_cast
  have e2 : ((c:ℝ) < 0) ↔ c < 0 := by norm_cast
  rw [e1, e2]
  by_cases h1 : 0 < c ∨ (c = 0 ∧ d < 0)
  · rw [if_pos h1]
    refine ⟨by simp [h1], ?_⟩
    constructor
    · intro h
      rcases h1 with h1 | h1 <;> linarith
    · intro h; exact absurd h (by decide)
  · rw [if_neg h1]
    by_cases h2 : c < 0
    · rw [if_pos h2]; simp [h1, h2]
    · rw [if_neg h2]; simp [h1, h2]

def simple (ps : Segment ℚ) : Py Bool := do
  let early ← (if order ps = 3 then do
      let a1 := side (← pyGet ps 0) (← pyGet ps 3) (← pyGet ps 1)
      let a2 := side (← pyGet ps 0) (← pyGet ps 3) (← pyGet ps 2)
      return decide ((a1 = 1 ∧ a2 = -1) ∨ (a1 = -1 ∧ a2 = 1))
    else return false : Py Bool)
  if early then return false
  else
    let n1 ← normal ps 0
    let n2 ← normal ps 1
    let s := add (mul n1.1 n2.1) (mul n1.2 n2.2)
    if s < -1 ∨ 1 < s then .error .valueError else return decide (1 / 2 < s)

theorem acos_run (s : ℚ) : (do return decide (|← acos (s : ℝ)| < Real.pi / 3) : Py Bool) =
    if s < -1 ∨ 1 < s then .error .valueError else .ok (decide (1 / 2 < s)) := by
  by_cases h : s < -1 ∨ 1 < s
  · have h' : ((s:ℝ) < -1 ∨ 1 < (s:ℝ)) := by
      rcases h with h | h
      · left; exact_mod_cast h
      · right; exact_mod_cast h
    rw [if_pos h, acos, if_pos h']; rfl
  · rw [if_neg h]
    push Not at h
    obtain ⟨y, hy, hiff⟩ := acos_test (x := (s:ℝ)) (by exact_mod_cast h.1) (by exact_mod_cast h.2)
    simp only [hy, ok_bind, pure_eq_ok, hiff]
    congr 1
    rw [decide_eq_decide, show (1 / 2 : ℝ) = ((1 / 2 : ℚ) : ℝ) by norm_num, Rat.cast_lt]

theorem simple_run (ps : Segment ℚ) : Rounded.simple F (seg ps) = simple ps := by
  have fin : (do
        let n1 ← Rounded.normal F (seg ps) 0
        let n2 ← Rounded.normal F (seg ps) 1
        let s := F.add (F.mul n1.1 n2.1) (F.mul n1.2 n2.2)
        return decide (|← acos s| < Real.pi / 3) : Py Bool) = (do
        let n1 ← normal ps 0
        let n2 ← normal ps 1
        let s := add (mul n1.1 n2.1) (mul n1.2 n2.2)
        if s < -1 ∨ 1 < s then .error .valueError else return decide (1 / 2 < s)) := by
    have h0 := normal_run ps 0
    have h1 := normal_run ps 1
    rw [← zero_cast] at h0
    rw [← one_cast] at h1
    rw [h0, h1]
    simp only [map_bind]
    cases normal ps 0 with
    | error e => rfl
    | ok n1 =>
      cases normal ps 1 with
      | error e => rfl
      | ok n2 =>
        simp only [ok_bind, pt, mul_run, add_run]
        exact acos_run _
  unfold Rounded.simple simple
  rw [order_seg]
  by_cases h3 : order ps = 3
  · simp only [if_pos h3]
    rw [show seg ps = ps.map pt from rfl]
    simp only [pyGet_map, map_bind]
    cases pyGet ps 0 with
    | error e => rfl
    | ok p0 =>
      cases pyGet ps 3 with
      | error e => rfl
      | ok p3 =>
        cases pyGet ps 1 with
        | error e => rfl
        | ok p1 =>
          cases pyGet ps 2 with
          | error e => rfl
          | ok p2 =>
            simp only [ok_bind, pure_eq_ok, decide_eq_true_eq]
            have hiff : ((Rounded.angle F (pt p0) (pt p3) (pt p1) > 0 ∧ Rounded.angle F (pt p0) (pt p3) (pt p2) < 0) ∨
                (Rounded.angle F (pt p0) (pt p3) (pt p1) < 0 ∧ Rounded.angle F (pt p0) (pt p3) (pt p2) > 0)) ↔
                ((side p0 p3 p1 = 1 ∧ side p0 p3 p2 = -1) ∨ (side p0 p3 p1 = -1 ∧ side p0 p3 p2 = 1)) := by
              rw [(side_run p0 p3 p1).1, (side_run p0 p3 p1).2, (side_run p0 p3 p2).1, (side_run p0 p3 p2).2]
            by_cases hc : (side p0 p3 p1 = 1 ∧ side p0 p3 p2 = -1) ∨ (side p0 p3 p1 = -1 ∧ side p0 p3 p2 = 1)
            · rw [if_pos hc, if_pos (hiff.mpr hc)]
            · rw [if_neg hc, if_neg (fun h => hc (hiff.mp h))]
              exact fin
  · simp only [if_neg h3, pure_eq_ok, ok_bind, Bool.false_eq_true, if_false]
    exact fin

/-! ### `reduce` -/

def dcPoints (n : ℕ) (ps : Segment ℚ) : List (Segment ℚ) :=
  match n with
  | 0 => []
  | n + 1 => dcStep ps :: dcPoints n (dcStep ps)

theorem dcPoints_run (n : ℕ) (ps : Segment ℚ) (h : ps.length = n + 1) :
    Rounded.dcPoints F (seg ps) = (dcPoints n ps).map seg := by
  induction n generalizing ps with
  | zero => rw [Rounded.dcPoints, if_neg (by simp [seg]; omega)]; rfl
  | succ n ih =>
    rw [Rounded.dcPoints, if_pos (by simp [seg]; omega), dcStep_run, ih _ (by simp [dcStep]; omega)]
    rfl

def droots (p : List ℚ) : List (Option ℚ) :=
  match p with
  | [a, b, c] =>
    let d := add (sub a (mul 2 b)) c
    if d ≠ 0 then
      let x := sub (mul b b) (mul a c)
      let m1 := if x < 0 then none else some (-flSqrt x)
      let m2 := add (-a) b
      let v1 := m1.map fun m1 => div (-add m1 m2) d
      let v2 := m1.map fun m1 => div (-add (-m1) m2) d
      [v1, v2]
    else if b ≠ c ∧ d = 0 then
      [some (div (sub (mul 2 b) c) (mul 2 (sub b c)))]
    else []
  | [a, b] => if a ≠ b then [some (div a (sub a b))] else []
  | _ => []

/-- A number. -/
def num (x : ℚ) : ℝ := x

theorem droots_run (p : List ℚ) : Rounded.droots F (p.map num) = (droots p).map (Option.map num) := by
  match p with
  | [] => rfl
  | [a] => rfl
  | [a, b] =>
    show Rounded.droots F [(a:ℝ), (b:ℝ)] = _
    unfold Rounded.droots droots
    simp only [sub_run, div_run]
    by_cases h : a = b
    · rw [if_neg (by simpa using h), if_neg (by simpa using h)]; rfl
    · rw [if_pos (by exact_mod_cast h), if_pos h]; rfl
  | [a, b, c] =>
    show Rounded.droots F [(a:ℝ), (b:ℝ), (c:ℝ)] = _
    unfold Rounded.droots droots
    simp only [two_cast, sub_run, mul_run, add_run, div_run]
    by_cases hd : add (sub a (mul 2 b)) c = 0
    · simp only [hd, ne_eq, Rat.cast_zero, not_true_eq_false, if_false, and_true, Rat.cast_inj]
      by_cases hb : b = c
      · simp only [hb, not_true_eq_false, if_false]; rfl
      · simp only [hb, not_false_eq_true, if_true]; rfl
    · rw [if_pos (by exact_mod_cast hd), if_pos hd]
      by_cases hx : sub (mul b b) (mul a c) < 0
      · rw [if_pos (by exact_mod_cast hx), if_pos hx]; rfl
      · rw [if_neg (by exact_mod_cast hx), if_neg hx]
        have : Rounded.sqrt F ((sub (mul b b) (mul a c) : ℚ) : ℝ) = ((flSqrt (sub (mul b b) (mul a c)) : ℚ) : ℝ) :=
          float_sqrt _ (not_lt.mp hx)
        simp only [this, Option.map_some, ← Rat.cast_neg, add_run, div_run]
        rfl
  | a :: b :: c :: d :: l => rfl

/-- `point[d]`. -/
def coord (d : Fin 2) (p : Pt ℚ) : ℚ := if d = 0 then p.1 else p.2

theorem coord_run (d : Fin 2) (p : Pt ℚ) : Bezier.coord d (pt p) = num (coord d p) := by
  unfold Bezier.coord coord
  by_cases h : d = 0
  · rw [if_pos h, if_pos h]; rfl
  · rw [if_neg h, if_neg h]; rfl

def extremaDim (n : Int) (dc : List (Segment ℚ)) (dim : Fin 2) : Py (List ℚ) := do
  let p := (← pyGet dc 0).map (coord dim)
  let result := droots p
  let result ← (if n = 3 then do
      let p := (← pyGet dc 1).map (coord dim)
      return result ++ droots p
    else return result : Py (List (Option ℚ)))
  return result.filterMap fun t => t.filter fun t => t ≥ 0 ∧ t ≤ 1

theorem coords_run (dim : Fin 2) (p : Segment ℚ) : (seg p).map (Bezier.coord dim) = (p.map (coord dim)).map num := by
  unfold seg
  rw [List.map_map, List.map_map]
  congr 1
  funext x
  exact coord_run dim x

theorem filter_run (l : List (Option ℚ)) :
    (l.map (Option.map num)).filterMap (fun t => t.filter fun t => decide (t ≥ 0 ∧ t ≤ 1)) =
      (l.filterMap fun t => t.filter fun t => decide (t ≥ 0 ∧ t ≤ 1)).map num := by
  induction l with
  | nil => rfl
  | cons a l ih =>
    rw [List.map_cons, List.filterMap_cons, List.filterMap_cons]
    cases a with
    | none => exact ih
    | some x =>
      have : (num x ≥ 0 ∧ num x ≤ 1) ↔ (x ≥ 0 ∧ x ≤ 1) := by unfold num; norm_cast
      simp only [Option.map_some, Option.filter_some, decide_eq_true_eq]
      by_cases h : x ≥ 0 ∧ x ≤ 1
      · rw [if_pos h, if_pos (this.mpr h)]
        simp only [List.map_cons, ih]
      · rw [if_neg h, if_neg (fun hh => h (this.mp hh))]
        exact ih

theorem extremaDim_run (n : Int) (dc : List (Segment ℚ)) (dim : Fin 2) :
    Rounded.extremaDim F n (dc.map seg) dim = (extremaDim n dc dim).map (List.map num) := by
  unfold Rounded.extremaDim extremaDim
  simp only [pyGet_map, map_bind]
  cases pyGet dc 0 with
  | error e => rfl
  | ok p =>
    simp only [ok_bind, coords_run, droots_run]
    by_cases h : n = 3
    · simp only [if_pos h]
      cases pyGet dc 1 with
      | error e => rfl
      | ok p' =>
        simp only [ok_bind, pure_eq_ok, Except.map, ← List.map_append, filter_run]
    · simp only [if_neg h, ok_bind, pure_eq_ok, Except.map, filter_run]

def sorted (l : List ℚ) : List ℚ := l.insertionSort (· ≤ ·)

theorem sorted_run (l : List ℚ) : Bezier.sorted (l.map num) = (sorted l).map num := by
  unfold Bezier.sorted sorted
  refine (List.map_insertionSort (· ≤ ·) (· ≤ ·) num l ?_).symm
  intro a _ b _
  unfold num
  norm_cast

theorem idxOf_map {α β : Type} [DecidableEq α] [DecidableEq β] {f : α → β} (inj : Function.Injective f) (l : List α) (v : α) :
    (l.map f).idxOf (f v) = l.idxOf v := by
  induction l with
  | nil => rfl
  | cons a l ih =>
    rw [List.map_cons, List.idxOf_cons, List.idxOf_cons, ih]
    by_cases h : a = v
    · subst h; simp
    · have h' : f a ≠ f v := fun hh => h (inj hh)
      rw [beq_eq_false_iff_ne.mpr h, beq_eq_false_iff_ne.mpr h']

theorem removeDuplicates_map {α β : Type} [DecidableEq α] [DecidableEq β] {f : α → β} (inj : Function.Injective f) (l : List α) :
    butils.removeDuplicates (l.map f) = (butils.removeDuplicates l).map f := by
  have key : ∀ (is : List Nat) (acc : List α),
      is.foldl (fun (result : List β) (i : Nat) =>
        match (l.map f)[i]? with
        | some v => if (l.map f).idxOf v = i then result ++ [v] else result
        | none => result) (acc.map f) =
      (is.foldl (fun (result : List α) (i : Nat) =>
        match l[i]? with
        | some v => if l.idxOf v = i then result ++ [v] else result
        | none => result) acc).map f := by
    intro is
    induction is with
    | nil => intro acc; rfl
    | cons i is ih =>
      intro acc
      rw [List.foldl_cons, List.foldl_cons, ← ih]
      congr 1
      rw [List.getElem?_map]
      cases l[i]? with
      | none => rfl
      | some v =>
        simp only [Option.map_some, idxOf_map inj]
        by_cases h : l.idxOf v = i
        · rw [if_pos h, if_pos h, List.map_append]; rfl
        · rw [if_neg h, if_neg h]
  unfold butils.removeDuplicates
  rw [List.length_map]
  exact key _ []

theorem removeDuplicates_run (l : List ℚ) :
    butils.removeDuplicates (l.map num) = (butils.removeDuplicates l).map num :=
  removeDuplicates_map (fun _ _ h => Rat.cast_injective h) l

/-- The list `extrema[2]`. -/
def extrema (ps : Segment ℚ) : Py (List ℚ) := do
  let x ← extremaDim (order ps) (dcPoints (ps.length - 1) ps) 0
  let y ← extremaDim (order ps) (dcPoints (ps.length - 1) ps) 1
  return butils.removeDuplicates (sorted (sorted x ++ sorted y))

theorem extrema_run (ps : Segment ℚ) (h : ps ≠ []) :
    (Rounded.extrema F (seg ps)).map Extrema.all = (extrema ps).map (List.map num) := by
  unfold Rounded.extrema extrema
  rw [dcPoints_run (ps.length - 1) ps (by have := List.length_pos_iff.mpr h; omega), order_seg, extremaDim_run, extremaDim_run]
  simp only [map_bind]
  cases extremaDim (order ps) (dcPoints (ps.length - 1) ps) 0 with
  | error e => rfl
  | ok x =>
    cases extremaDim (order ps) (dcPoints (ps.length - 1) ps) 1 with
    | error e => rfl
    | ok y =>
      simp only [ok_bind, pure_eq_ok, Except.map, sorted_run, ← List.map_append, removeDuplicates_run]

def map (v ds de ts te : ℚ) : Py ℚ := do
  let d1 := sub de ds
  let d2 := sub te ts
  let v2 := sub v ds
  let r ← pdiv v2 d1
  return add ts (mul d2 r)

theorem map_run (v ds de ts te : ℚ) : Rounded.map F v ds de ts te = (map v ds de ts te).map num := by
  unfold Rounded.map map
  simp only [sub_run, pdiv_run, map_bind]
  cases pdiv (sub v ds) (sub de ds) with
  | error e => rfl
  | ok r => simp only [ok_bind, pure_eq_ok, Except.map, mul_run, add_run]; rfl

def splitPiece (ps : Segment ℚ) (t1 t2 : ℚ) : Py (Segment ℚ) := do
  if t1 = 0 ∧ t2 ≠ 0 then return (← splitPoints ps t2).1
  else if t2 = 1 then return (← splitPoints ps t1).2
  else
    let (_, right) ← splitPoints ps t1
    if t2 = 0 then .error .attributeError
    else
      let t2 ← map t2 t1 1 0 1
      return (← splitPoints right t2).1

theorem splitPoints_right {ps : Segment ℚ} {t : ℚ} {r : Segment ℚ × Segment ℚ} (h : splitPoints ps t = .ok r) : r.2 ≠ [] := by
  unfold splitPoints at h
  simp only at h
  by_cases h2 : order ps = 2
  · simp only [if_pos h2, bind_eq_ok, pure_eq_ok, Except.ok.injEq] at h
    obtain ⟨_, _, _, _, _, _, _, _, _, _, _, _, rfl⟩ := h
    simp
  · simp only [if_neg h2, bind_eq_ok, pure_eq_ok, Except.ok.injEq] at h
    obtain ⟨_, _, _, _, _, _, _, _, _, _, _, _, _, _, _, _, rfl⟩ := h
    simp

theorem splitPiece_run (ps : Segment ℚ) (t1 t2 : ℚ) (h : ps ≠ []) :
    Rounded.splitPiece F (seg ps) t1 t2 = (splitPiece ps t1 t2).map seg := by
  unfold Rounded.splitPiece splitPiece
  rw [splitPoints_run ps t1 h, splitPoints_run ps t2 h]
  have c1 : ((t1:ℝ) = 0 ∧ (t2:ℝ) ≠ 0) ↔ (t1 = 0 ∧ t2 ≠ 0) := by norm_cast
  have c2 : (t2:ℝ) = 1 ↔ t2 = 1 := by norm_cast
  have c3 : (t2:ℝ) = 0 ↔ t2 = 0 := by norm_cast
  by_cases h1 : t1 = 0 ∧ t2 ≠ 0
  · rw [if_pos h1, if_pos (c1.mpr h1)]
    cases splitPoints ps t2 <;> rfl
  · rw [if_neg h1, if_neg (fun hh => h1 (c1.mp hh))]
    by_cases h2 : t2 = 1
    · rw [if_pos h2, if_pos (c2.mpr h2)]
      cases splitPoints ps t1 <;> rfl
    · rw [if_neg h2, if_neg (fun hh => h2 (c2.mp hh))]
      rw [map_bind]
      cases hs : splitPoints ps t1 with
      | error e => rfl
      | ok r =>
        simp only [ok_bind]
        by_cases h3 : t2 = 0
        · rw [if_pos h3, if_pos (c3.mpr h3)]; rfl
        · rw [if_neg h3, if_neg (fun hh => h3 (c3.mp hh))]
          have hm := map_run t2 t1 1 0 1
          push_cast at hm
          rw [hm, map_bind]
          cases map t2 t1 1 0 1 with
          | error e => rfl
          | ok t =>
            simp only [ok_bind]
            rw [show num t = (t:ℝ) from rfl, splitPoints_run _ _ (splitPoints_right hs)]
            cases splitPoints r.2 t <;> rfl

def step : ℚ := fl (1 / 100)

theorem step_run : Rounded.step F = ((step : ℚ) : ℝ) := by
  unfold Rounded.step step
  rw [← float_rnd]
  push_cast
  rfl

def reducePass1 (ps : Segment ℚ) (t1 : ℚ) (rest : List ℚ) : Py (List (Segment ℚ)) :=
  match rest with
  | [] => return []
  | t2 :: rest => do
    let segment ← splitPiece ps t1 t2
    return segment :: (← reducePass1 ps t2 rest)

theorem reducePass1_run (ps : Segment ℚ) (h : ps ≠ []) (t1 : ℚ) (rest : List ℚ) :
    Rounded.reducePass1 F (seg ps) t1 (rest.map num) = (reducePass1 ps t1 rest).map (List.map seg) := by
  induction rest generalizing t1 with
  | nil => rfl
  | cons t2 rest ih =>
    rw [List.map_cons, Rounded.reducePass1, reducePass1, show num t2 = (t2:ℝ) from rfl, splitPiece_run ps t1 t2 h, ih t2,
      map_bind]
    cases splitPiece ps t1 t2 with
    | error e => rfl
    | ok s => cases reducePass1 ps t2 rest <;> rfl

def reduceLoop (fuel : ℕ) (p1 : Segment ℚ) (t1 t2 : ℚ) : Option (Py (Option (List (Segment ℚ) × ℚ))) :=
  match fuel with
  | 0 => none
  | fuel + 1 =>
    if t2 ≤ 1 then
      match (do simple (← splitPiece p1 t1 t2) : Py Bool) with
      | .error e => some (.error e)
      | .ok true => reduceLoop fuel p1 t1 (add t2 step)
      | .ok false =>
        let t2' := sub t2 step
        if |sub t1 t2'| < step then some (.ok none)
        else
          match splitPiece p1 t1 t2' with
          | .error e => some (.error e)
          | .ok segment =>
            match reduceLoop fuel p1 t2' (add t2' step) with
            | none => none
            | some (.error e) => some (.error e)
            | some (.ok none) => some (.ok none)
            | some (.ok (some (ps, tEnd))) => some (.ok (some (segment :: ps, tEnd)))
    else some (.ok (some ([], t1)))

theorem reduceLoop_run (fuel : ℕ) (p1 : Segment ℚ) (h : p1 ≠ []) (t1 t2 : ℚ) :
    Rounded.reduceLoop F fuel (seg p1) t1 t2 =
      (reduceLoop fuel p1 t1 t2).map (Except.map (Option.map fun r => (r.1.map seg, num r.2))) := by
  induction fuel generalizing t1 t2 with
  | zero => rfl
  | succ fuel ih =>
    rw [Rounded.reduceLoop, reduceLoop]
    by_cases h1 : t2 ≤ 1
    · rw [if_pos h1, if_pos (by exact_mod_cast h1)]
      have e : (do Rounded.simple F (← Rounded.splitPiece F (seg p1) t1 t2) : Py Bool) =
          (do simple (← splitPiece p1 t1 t2)) := by
        rw [splitPiece_run p1 t1 t2 h, map_bind]
        simp only [simple_run]
      rw [e]
      cases (do simple (← splitPiece p1 t1 t2) : Py Bool) with
      | error e => rfl
      | ok b =>
        cases b with
        | true =>
          simp only
          rw [step_run, add_run, ih]
        | false =>
          simp only [step_run, sub_run, add_run]
          have c : |((sub t1 (sub t2 step) : ℚ) : ℝ)| < ((step : ℚ) : ℝ) ↔ |sub t1 (sub t2 step)| < step := by
            rw [← Rat.cast_abs]; exact Rat.cast_lt
          by_cases h2 : |sub t1 (sub t2 step)| < step
          · rw [if_pos h2, if_pos (c.mpr h2)]; rfl
          · rw [if_neg h2, if_neg (fun hh => h2 (c.mp hh)), splitPiece_run _ _ _ h, ih]
            cases splitPiece p1 t1 (sub t2 step) with
            | error e => rfl
            | ok s =>
              cases reduceLoop fuel p1 (sub t2 step) (add (sub t2 step) step) with
              | none => rfl
              | some r =>
                cases r with
                | error e => rfl
                | ok r => cases r <;> rfl
    · rw [if_neg h1, if_neg (by exact_mod_cast h1)]; rfl

def reducePass2 (fuel : ℕ) (pass1 : List (Segment ℚ)) : Option (Py (Option (List (Segment ℚ)))) :=
  match pass1 with
  | [] => some (.ok (some []))
  | p1 :: rest =>
    match reduceLoop fuel p1 0 (add 0 step) with
    | none => none
    | some (.error e) => some (.error e)
    | some (.ok none) => some (.ok none)
    | some (.ok (some (ps, t1))) =>
      match (if t1 < 1 then do return [← splitPiece p1 t1 1] else return [] : Py (List (Segment ℚ))) with
      | .error e => some (.error e)
      | .ok last =>
        match reducePass2 fuel rest with
        | none => none
        | some (.error e) => some (.error e)
        | some (.ok none) => some (.ok none)
        | some (.ok (some more)) => some (.ok (some (ps ++ last ++ more)))

theorem reducePass2_run (fuel : ℕ) (pass1 : List (Segment ℚ)) (h : ∀ p ∈ pass1, p ≠ []) :
    Rounded.reducePass2 F fuel (pass1.map seg) = (reducePass2 fuel pass1).map (Except.map (Option.map (List.map seg))) := by
  induction pass1 with
  | nil => rfl
  | cons p1 rest ih =>
    have hp : p1 ≠ [] := h p1 (by simp)
    rw [List.map_cons, Rounded.reducePass2, reducePass2, ih (fun p hp => h p (by simp [hp])), step_run]
    have hl := reduceLoop_run fuel p1 hp 0 (add 0 step)
    rw [← add_run, ← zero_cast] at hl
    rw [hl]
    cases reduceLoop fuel p1 0 (add 0 step) with
    | none => rfl
    | some r =>
      cases r with
      | error e => rfl
      | ok r =>
        cases r with
        | none => rfl
        | some r =>
          simp only [Option.map_some, Except.map]
          have e : (if num r.2 < 1 then do return [← Rounded.splitPiece F (seg p1) (num r.2) 1] else return [] :
              Py (List (Segment ℝ))) =
              (if r.2 < 1 then do return [← splitPiece p1 r.2 1] else return [] : Py (List (Segment ℚ))).map (List.map seg) := by
            have c : num r.2 < 1 ↔ r.2 < 1 := by unfold num; norm_cast
            by_cases h1 : r.2 < 1
            · rw [if_pos h1, if_pos (c.mpr h1)]
              have := splitPiece_run p1 r.2 1 hp
              rw [← one_cast] at this
              rw [show num r.2 = (r.2 : ℝ) from rfl, this]
              cases splitPiece p1 r.2 1 <;> rfl
            · rw [if_neg h1, if_neg (fun hh => h1 (c.mp hh))]; rfl
          rw [e]
          cases (if r.2 < 1 then do return [← splitPiece p1 r.2 1] else return [] : Py (List (Segment ℚ))) with
          | error e => rfl
          | ok last =>
            simp only [Except.map]
            cases reducePass2 fuel rest with
            | none => rfl
            | some q =>
              cases q with
              | error e => rfl
              | ok q =>
                cases q with
                | none => rfl
                | some q => simp only [Option.map_some, Except.map, List.map_append]

def addEnds (list : List ℚ) : List ℚ :=
  let list := if 0 ∈ list then list else 0 :: list
  if 1 ∈ list then list else list ++ [1]

def reduceFirst (ps : Segment ℚ) : Py (List (Segment ℚ)) := do
  match addEnds (← extrema ps) with
  | [] => .error .indexError
  | t1 :: rest => reducePass1 ps t1 rest

def reduce (fuel : ℕ) (ps : Segment ℚ) : Option (Py (List (Segment ℚ))) :=
  match reduceFirst ps with
  | .error e => some (.error e)
  | .ok pass1 =>
    match reducePass2 fuel pass1 with
    | none => none
    | some (.error e) => some (.error e)
    | some (.ok none) => some (.ok [])
    | some (.ok (some pass2)) => some (.ok pass2)

theorem addEnds_run (l : List ℚ) : Bezier.addEnds (l.map num) = (addEnds l).map num := by
  have inj : Function.Injective num := fun _ _ h => Rat.cast_injective h
  have m0 : ∀ l : List ℚ, (0:ℝ) ∈ l.map num ↔ 0 ∈ l := by
    intro l
    rw [show (0:ℝ) = num 0 from zero_cast]
    exact List.mem_map_of_injective inj
  have m1 : ∀ l : List ℚ, (1:ℝ) ∈ l.map num ↔ 1 ∈ l := by
    intro l
    rw [show (1:ℝ) = num 1 from one_cast]
    exact List.mem_map_of_injective inj
  have e0 : (if (0:ℝ) ∈ l.map num then l.map num else 0 :: l.map num) = (if 0 ∈ l then l else 0 :: l).map num := by
    by_cases h : 0 ∈ l
    · rw [if_pos h, if_pos ((m0 l).mpr h)]
    · rw [if_neg h, if_neg (fun hh => h ((m0 l).mp hh)), List.map_cons, show num 0 = 0 from zero_cast.symm]
  unfold Bezier.addEnds addEnds
  simp only [e0]
  generalize (if 0 ∈ l then l else 0 :: l) = k
  by_cases h : 1 ∈ k
  · rw [if_pos h, if_pos ((m1 k).mpr h)]
  · rw [if_neg h, if_neg (fun hh => h ((m1 k).mp hh)), List.map_append, List.map_cons, List.map_nil,
      show num 1 = 1 from one_cast.symm]

theorem splitPoints_left {ps : Segment ℚ} {t : ℚ} {r : Segment ℚ × Segment ℚ} (h : splitPoints ps t = .ok r) : r.1 ≠ [] := by
  unfold splitPoints at h
  simp only at h
  by_cases h2 : order ps = 2
  · simp only [if_pos h2, bind_eq_ok, pure_eq_ok, Except.ok.injEq] at h
    obtain ⟨_, _, _, _, _, _, _, _, _, _, _, _, rfl⟩ := h
    simp
  · simp only [if_neg h2, bind_eq_ok, pure_eq_ok, Except.ok.injEq] at h
    obtain ⟨_, _, _, _, _, _, _, _, _, _, _, _, _, _, _, _, rfl⟩ := h
    simp

theorem splitPiece_ne {ps : Segment ℚ} {t1 t2 : ℚ} {r : Segment ℚ} (h : splitPiece ps t1 t2 = .ok r) : r ≠ [] := by
  unfold splitPiece at h
  by_cases h1 : t1 = 0 ∧ t2 ≠ 0
  · simp only [if_pos h1, bind_eq_ok, pure_eq_ok, Except.ok.injEq] at h
    obtain ⟨q, hq, rfl⟩ := h
    exact splitPoints_left hq
  · rw [if_neg h1] at h
    by_cases h2 : t2 = 1
    · simp only [if_pos h2, bind_eq_ok, pure_eq_ok, Except.ok.injEq] at h
      obtain ⟨q, hq, rfl⟩ := h
      exact splitPoints_right hq
    · simp only [if_neg h2, bind_eq_ok] at h
      obtain ⟨q, hq, h⟩ := h
      by_cases h3 : t2 = 0
      · rw [if_pos h3] at h; cases h
      · simp only [if_neg h3, bind_eq_ok, pure_eq_ok, Except.ok.injEq] at h
        obtain ⟨_, _, p, hp, rfl⟩ := h
        exact splitPoints_left hp

theorem reducePass1_ne {ps : Segment ℚ} {t1 : ℚ} {rest : List ℚ} {l : List (Segment ℚ)} (h : reducePass1 ps t1 rest = .ok l) :
    ∀ p ∈ l, p ≠ [] := by
  induction rest generalizing t1 l with
  | nil =>
    cases h
    simp
  | cons t2 rest ih =>
    unfold reducePass1 at h
    simp only [bind_eq_ok, pure_eq_ok, Except.ok.injEq] at h
    obtain ⟨s, hs, m, hm, rfl⟩ := h
    intro p hp
    rcases List.mem_cons.mp hp with rfl | hp
    · exact splitPiece_ne hs
    · exact ih hm p hp

theorem reduceFirst_run (ps : Segment ℚ) (h : ps ≠ []) :
    Rounded.reduceFirst F (seg ps) = (reduceFirst ps).map (List.map seg) := by
  unfold Rounded.reduceFirst reduceFirst
  have hx := extrema_run ps h
  cases hq : extrema ps with
  | error e =>
    rw [hq] at hx
    cases hr : Rounded.extrema F (seg ps) with
    | error e' => rw [hr] at hx; cases hx; rfl
    | ok x => rw [hr] at hx; cases hx
  | ok l =>
    rw [hq] at hx
    cases hr : Rounded.extrema F (seg ps) with
    | error e' => rw [hr] at hx; cases hx
    | ok x =>
      rw [hr] at hx
      have : x.all = l.map num := Except.ok.inj hx
      simp only [ok_bind, this, addEnds_run]
      cases addEnds l with
      | nil => rfl
      | cons t rest => exact reducePass1_run ps h t rest

theorem reduce_run (fuel : ℕ) (ps : Segment ℚ) (h : ps ≠ []) :
    Rounded.reduce F fuel (seg ps) = (reduce fuel ps).map (Except.map (List.map seg)) := by
  unfold Rounded.reduce reduce
  rw [reduceFirst_run ps h]
  cases hp : reduceFirst ps with
  | error e => rfl
  | ok pass1 =>
    have hne : ∀ p ∈ pass1, p ≠ [] := by
      unfold reduceFirst at hp
      simp only [bind_eq_ok] at hp
      obtain ⟨l, _, hl⟩ := hp
      cases ha : addEnds l with
      | nil => rw [ha] at hl; cases hl
      | cons t rest => rw [ha] at hl; exact reducePass1_ne hl
    simp only [Except.map, reducePass2_run fuel pass1 hne]
    cases reducePass2 fuel pass1 with
    | none => rfl
    | some r =>
      cases r with
      | error e => rfl
      | ok r => cases r <;> rfl

example : reduce 3 [(0, 0), (3, 3), (6, 6)] = some (.error .valueError) := by decide +kernel

example : simple [(0, 0), (3, 3), (6, 6)] = .error .valueError := by decide +kernel
example : simple [(0, 0), (1, 1), (3, 1)] = .ok true := by decide +kernel

end Flt
end PathLib
