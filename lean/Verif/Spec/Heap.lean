import Verif.Model.Heap
import Mathlib.Data.Set.Basic
import Mathlib.Data.List.Forall2

/-!
# What a list object stands for

`IsSegment S h r s` says that the list at address `r` of the heap `h` holds the points `s`; the set `S` contains its address. For lists of lists `S` contains the addresses
of all lists involved. So nothing that happens to lists outside `S` can change what is read.
-/

namespace PathLib.Spec
variable {K β : Type}

/-- The list at `r` holds the numbers `l`. -/
def IsRow (S : Set Nat) (h : Heap K) (r : Nat) (l : List K) : Prop := r ∈ S ∧ h[r]? = some (.nums l)

/-- The list at `r` holds the points `s`. -/
def IsSegment (S : Set Nat) (h : Heap K) (r : Nat) (s : Segment K) : Prop := r ∈ S ∧ h[r]? = some (.pts s)

/-- The list at `r` holds lists that stand for `bs`, in this order. -/
def IsListOf (B : Set Nat → Heap K → Nat → β → Prop) (S : Set Nat) (h : Heap K) (r : Nat) (bs : List β) : Prop :=
  r ∈ S ∧ ∃ rs, h[r]? = some (.refs rs) ∧ List.Forall₂ (B S h) rs bs

/-- The list at `r` is the matrix `m`. -/
def IsMatrix (S : Set Nat) (h : Heap K) (r : Nat) (m : Mat K) : Prop := IsListOf IsRow S h r m

/-- The list at `r` is the contour `c`. -/
def IsContour (S : Set Nat) (h : Heap K) (r : Nat) (c : Contour K) : Prop := IsListOf IsSegment S h r c

/-- The list at `r` holds the contours `cs`. -/
def IsContours (S : Set Nat) (h : Heap K) (r : Nat) (cs : List (Contour K)) : Prop := IsListOf IsContour S h r cs

/-- The addresses from `n` on: those of the lists created since the heap had `n` lists. -/
def newSince (n : Nat) : Set Nat := {i | n ≤ i}

/-- The heaps `h` and `h'` have the same lists with the same items at the addresses in `S`. -/
def SameOn (S : Set Nat) (h h' : Heap K) : Prop := ∀ i ∈ S, h'[i]? = h[i]?

/-- The pen at hand stands for the pen `s` of the model with lists as values: the list of contours, the lists of the stored contours and
of the contour under construction are different objects, and all lists of the pen have addresses in `S`. -/
def IsPen (S : Set Nat) (h : Heap K) (p : Heap.Pen K) (s : SegmentPen K) : Prop :=
  p.lastOnCurve = s.lastOnCurve ∧ p.contours ∈ S ∧ ∃ rs, h[p.contours]? = some (.refs rs) ∧
    List.Forall₂ (IsContour S h) rs s.contours ∧ p.contours ∉ rs ∧
    match p.contour, s.contour with
    | none, none => True
    | some r, some c => IsContour S h r c ∧ r ∉ rs ∧ r ≠ p.contours
    | _, _ => False

/-- The addresses of the lists created between two heaps. -/
def created (h h' : Heap K) : Set Nat := {i | h.length ≤ i ∧ i < h'.length}

variable [Field K] [DecidableEq K]

/-- What can happen to a pen and its lists: it is created, its methods are called (also after calls that raised), and other code creates lists and changes
lists that are not the pen's. `S` collects the addresses of the lists created by the pen, `s` follows the calls in the model with lists as values. -/
inductive PenHistory (depth : Nat) (gs : GlyphSet K) : Set Nat → Heap K → Heap.Pen K → SegmentPen K → Prop
  | new (h : Heap K) (p : Heap.Pen K) (h' : Heap K) : Heap.newPen h = (.ok p, h') → PenHistory depth gs (created h h') h' p SegmentPen.init
  | call (S : Set Nat) (h : Heap K) (p : Heap.Pen K) (s : SegmentPen K) (c : PenCall K) (p' : Heap.Pen K) (r : Py Unit) (h' : Heap K) :
      PenHistory depth gs S h p s → Heap.call (Heap.drawGlyph depth gs) c p h = (p', r, h') →
      PenHistory depth gs (S ∪ created h h') h' p' (s.call (SegmentPen.drawGlyph depth gs) c).1
  | other (S : Set Nat) (h : Heap K) (p : Heap.Pen K) (s : SegmentPen K) (h' : Heap K) :
      PenHistory depth gs S h p s → SameOn S h h' → h.length ≤ h'.length → PenHistory depth gs S h' p s

end PathLib.Spec
