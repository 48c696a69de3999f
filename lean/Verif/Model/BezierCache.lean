import Verif.Model.Bezier

/-!
# Model of PathLib/Bezier.py, part 3: the caches of a `Bezier` object

The state of a method call is the object with its caches, together with the one piece of global state these methods touch: the
precision of the decimal context. A method returns its result (or exception) and the new state.
-/

namespace PathLib

/-- PathLib/Bezier.py:41-63: a `Bezier` object with its caches. -/
structure CachedBezier where
  val : Bezier
  dc : Option (List (Segment ℝ)) := none
  ext : Option Bezier.Extrema := none
  len : Option ℝ := none
  box : Option ((ℝ × ℝ) × (ℝ × ℝ)) := none
  rect : Option (BoundsRectangle ℝ) := none
  lut : List (Pt ℝ) := []

/-- The object and `decimal.getcontext().prec`. -/
structure World where
  obj : CachedBezier
  prec : Int

namespace CachedBezier

/-- Shorthand for `self.controlPoints`. -/
def pts (o : CachedBezier) : Segment ℝ := o.val.controlPoints

/-- PathLib/Bezier.py:41-63 `Bezier.__init__`: all caches empty. -/
noncomputable def new (ps : Segment ℝ) : Py CachedBezier := do return { val := ← Bezier.new ps }

end CachedBezier

namespace World
open Bezier

/-- A method: result or exception, and the state afterwards. -/
abbrev Method (α : Type) := World → Py α × World

/-- PathLib/Bezier.py:317-337 `dcPoints`; `None` and `[]` are falsy. -/
noncomputable def dcPoints : Method (List (Segment ℝ)) := fun w =>
  match w.obj.dc with
  | some (d :: ds) => (.ok (d :: ds), w)
  | _ =>
    let d := Bezier.dcPoints w.obj.pts
    (.ok d, { w with obj := { w.obj with dc := some d } })

/-- PathLib/Bezier.py:174-203 `_derivative`. -/
noncomputable def derivative (t : ℝ) : Method (Pt ℝ) := fun w =>
  match dcPoints w with
  | (.error e, w) => (.error e, w)
  | (.ok dc, w) => (do derivativeOf (order w.obj.pts) (← pyGet dc 0) t, w)

/-- PathLib/Bezier.py:552-555 `normal`. -/
noncomputable def normal (t : ℝ) : Method (Pt ℝ) := fun w =>
  match derivative t w with
  | (.error e, w) => (.error e, w)
  | (.ok d, w) =>
    let q := Real.sqrt (d.1 * d.1 + d.2 * d.2)
    (do return (← pdiv (-d.2) q, ← pdiv d.1 q), w)

/-- PathLib/Bezier.py:339-358 `extrema`. -/
noncomputable def extrema : Method Extrema := fun w =>
  match w.obj.ext with
  | some e => (.ok e, w)
  | none =>
    match dcPoints w with
    | (.error e, w) => (.error e, w)
    | (.ok dc, w) =>
      match extremaOf (order w.obj.pts) dc with
      | .error e => (.error e, w)
      | .ok ex => (.ok ex, { w with obj := { w.obj with ext := some ex } })

/-- PathLib/Bezier.py:254-265 `bbox`. `_getminmax` completes the lists inside the cached `extrema`. -/
noncomputable def bbox : Method ((ℝ × ℝ) × (ℝ × ℝ)) := fun w =>
  match w.obj.box with
  | some b => (.ok b, w)
  | none =>
    match extrema w with
    | (.error e, w) => (.error e, w)
    | (.ok ex, w) =>
      let (rx, lx) := getminmax w.obj.pts 0 ex.x
      let ex := { ex with x := lx }
      let w := { w with obj := { w.obj with ext := some ex } }
      match rx with
      | .error e => (.error e, w)
      | .ok x =>
        let (ry, ly) := getminmax w.obj.pts 1 ex.y
        let w := { w with obj := { w.obj with ext := some { ex with y := ly } } }
        match ry with
        | .error e => (.error e, w)
        | .ok y => (.ok (x, y), { w with obj := { w.obj with box := some (x, y) } })

/-- PathLib/Bezier.py:276-284 `boundsRectangle`. -/
noncomputable def boundsRectangle : Method (BoundsRectangle ℝ) := fun w =>
  match w.obj.rect with
  | some r => (.ok r, w)
  | none =>
    match bbox w with
    | (.error e, w) => (.error e, w)
    | (.ok ((minX, maxX), (minY, maxY)), w) =>
      let r := BoundsRectangle.new [(minX, minY), (maxX, maxY)]
      (.ok r, { w with obj := { w.obj with rect := some r } })

/-- PathLib/Bezier.py:379-389 `getLUT`. The table is emptied before it is rebuilt; the only exception is the
`ZeroDivisionError` of the first entry. -/
noncomputable def getLUT (steps : Int) : Method (List (Pt ℝ)) := fun w =>
  if (w.obj.lut.length : Int) = steps then (.ok w.obj.lut, w)
  else
    match lutOf w.obj.pts steps with
    | .error e => (.error e, { w with obj := { w.obj with lut := [] } })
    | .ok l => (.ok l, { w with obj := { w.obj with lut := l } })

/-- PathLib/Bezier.py:414-416, the quadrature loop of `length`, through the cached derivative points. -/
noncomputable def lengthLoop (is : List Nat) (sum : ℝ) : Method ℝ := fun w =>
  match is with
  | [] => (.ok sum, w)
  | i :: is =>
    match pyGet butils.tValues (i : Int), pyGet butils.cValues (i : Int) with
    | .ok tv, .ok cv =>
      match derivative ((tv : ℝ) * (1 / 2) + 1 / 2) w with
      | (.error e, w) => (.error e, w)
      | (.ok d, w) => lengthLoop is ((cv : ℝ) * Real.sqrt (d.1 * d.1 + d.2 * d.2) + sum) w
    | _, _ => (.error .indexError, w)

/-- PathLib/Bezier.py:407-422 `length`; `None` and `Decimal(0)` are falsy. The precision is raised before and
lowered after the loop, but not when the loop raises. -/
noncomputable def length : Method ℝ := fun w =>
  let compute : Unit → Py ℝ × World := fun _ =>
    match lengthLoop (List.range butils.tValues.length) 0 { w with prec := w.prec + 2 } with
    | (.error e, w) => (.error e, w)
    | (.ok sum, w) =>
      let length := 1 / 2 * sum
      (.ok length, { w with prec := w.prec - 2, obj := { w.obj with len := some length } })
  match w.obj.len with
  | some l => if l = 0 then compute () else (.ok l, w)
  | none => compute ()

/-- PathLib/Bezier.py:569-615 `reduce`. The list `extrema[2]` is completed inside the cache. -/
noncomputable def reduce : Method (List Bezier) := fun w =>
  match extrema w with
  | (.error e, w) => (.error e, w)
  | (.ok ex, w) =>
    (reduceWith w.obj.val ex.all,
      { w with obj := { w.obj with ext := some { ex with all := addEnds ex.all } } })

/-- PathLib/Bezier.py:360-361 `overlaps(curve)`, as seen by `self`; the other curve's rectangle is given. -/
noncomputable def overlaps (r2 : BoundsRectangle ℝ) : Method Bool := fun w =>
  match boundsRectangle w with
  | (.error e, w) => (.error e, w)
  | (.ok r1, w) => (.ok (r1.intersection r2).isSome, w)

end World
end PathLib
