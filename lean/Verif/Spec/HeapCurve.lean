import Verif.Spec.Heap
import Verif.Model.HeapCurve
import Mathlib.Data.Option.Basic

/-!
# What a curve with its lists stands for
-/

namespace PathLib.Spec

/-- Three different lists that hold the numbers of `e`. -/
def IsExtrema (S : Set Nat) (h : Heap ℝ) (r : Nat × Nat × Nat) (e : Bezier.Extrema) : Prop :=
  IsRow S h r.1 e.x ∧ IsRow S h r.2.1 e.y ∧ IsRow S h r.2.2 e.all ∧ r.1 ≠ r.2.1 ∧ r.1 ≠ r.2.2 ∧ r.2.1 ≠ r.2.2

/-- The curve `c` on the heap stands for the curve `o` of the model with lists as values. `S` contains the addresses of the lists that the curve has created; the list of its
control points, which it was given, is not among them. -/
structure IsCurve (S : Set Nat) (h : Heap ℝ) (c : Heap.Curve) (o : CachedBezier) : Prop where
  notOwn : c.points ∉ S
  points : h[c.points]? = some (.pts o.val.controlPoints)
  val : o.val = c.view o.val.controlPoints
  dc : Option.Rel (IsContour S h) c.dc o.dc
  ext : Option.Rel (IsExtrema S h) c.ext o.ext
  len : c.len = o.len
  box : c.box = o.box
  rect : c.rect = o.rect
  lut : IsSegment S h c.lut o.lut

/-- The list at `i` is one of the three lists of `extrema`. -/
def ExtremaList (c : Heap.Curve) (i : Nat) : Prop := ∃ r, c.ext = some r ∧ (i = r.1 ∨ i = r.2.1 ∨ i = r.2.2)

/-- What a call can do to lists: it creates new ones, and of the old ones it changes at most the curve's lists of extrema. -/
structure Changes (p p' : Heap.Place) : Prop where
  length : p.heap.length ≤ p'.heap.length
  points : p'.curve.points = p.curve.points
  same : ∀ i < p.heap.length, ¬ ExtremaList p.curve i → p'.heap[i]? = p.heap[i]?
  ext : ∀ i, ExtremaList p'.curve i → ExtremaList p.curve i ∨ p.heap.length ≤ i

/-- The result of a call on the heap agrees with the result of the call in the model with lists as values: the same exception, or results that are related by `R`; the
curve afterwards stands for the one there; only the lists of extrema have been changed. -/
def Agrees {α β : Type} (S : Set Nat) (p : Heap.Place) (R : Set Nat → Heap ℝ → α → β → Prop) (out : Py α × Heap.Place) (out' : Py β × World) : Prop :=
  IsCurve (S ∪ newSince p.heap.length) out.2.heap out.2.curve out'.2.obj ∧ out.2.prec = out'.2.prec ∧ Changes p out.2 ∧
    match out'.1 with
    | .ok b => ∃ a, out.1 = .ok a ∧ R (S ∪ newSince p.heap.length) out.2.heap a b
    | .error e => out.1 = .error e

end PathLib.Spec
