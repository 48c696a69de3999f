import Verif.Model.PathUtilities
import Verif.Spec.Bounds

set_option linter.unusedSectionVars false

namespace PathLib
open Spec

namespace BoundsRectangle
variable {K : Type} [Field K] [LinearOrder K]

theorem ext' {a b : BoundsRectangle K} (h1 : a.left = b.left) (h2 : a.bottom = b.bottom)
    (h3 : a.right = b.right) (h4 : a.top = b.top) : a = b := by
  cases a; cases b; simp_all

theorem enclosesPoint_iff (b : BoundsRectangle K) (p : Pt K) :
    b.enclosesPoint p = true ↔ InBox b.left b.bottom b.right b.top p := by
  simp [enclosesPoint, InBox]

private theorem fold_spec (ps : List (Pt K)) (b : BoundsRectangle K) :
    (∀ x, x ≤ (ps.foldl addPoint b).left ↔ x ≤ b.left ∧ ∀ p ∈ ps, x ≤ p.1) ∧
    (∀ x, x ≤ (ps.foldl addPoint b).bottom ↔ x ≤ b.bottom ∧ ∀ p ∈ ps, x ≤ p.2) ∧
    (∀ x, (ps.foldl addPoint b).right ≤ x ↔ b.right ≤ x ∧ ∀ p ∈ ps, p.1 ≤ x) ∧
    (∀ x, (ps.foldl addPoint b).top ≤ x ↔ b.top ≤ x ∧ ∀ p ∈ ps, p.2 ≤ x) := by
  induction ps generalizing b with
  | nil => simp
  | cons q ps ih =>
    obtain ⟨h1, h2, h3, h4⟩ := ih (b.addPoint q)
    simp only [List.foldl_cons, h1, h2, h3, h4]
    simp [addPoint, and_assoc]

theorem le_left_iff (ps : List (Pt K)) (x : K) :
    x ≤ (new ps).left ↔ x ≤ 32768 ∧ ∀ p ∈ ps, x ≤ p.1 := (fold_spec ps init).1 x
theorem le_bottom_iff (ps : List (Pt K)) (x : K) :
    x ≤ (new ps).bottom ↔ x ≤ 32768 ∧ ∀ p ∈ ps, x ≤ p.2 := (fold_spec ps init).2.1 x
theorem right_le_iff (ps : List (Pt K)) (x : K) :
    (new ps).right ≤ x ↔ -32768 ≤ x ∧ ∀ p ∈ ps, p.1 ≤ x := (fold_spec ps init).2.2.1 x
theorem top_le_iff (ps : List (Pt K)) (x : K) :
    (new ps).top ≤ x ↔ -32768 ≤ x ∧ ∀ p ∈ ps, p.2 ≤ x := (fold_spec ps init).2.2.2 x

theorem left_le_of_mem {ps : List (Pt K)} {p : Pt K} (h : p ∈ ps) : (new ps).left ≤ p.1 :=
  ((le_left_iff ps _).mp le_rfl).2 p h
theorem bottom_le_of_mem {ps : List (Pt K)} {p : Pt K} (h : p ∈ ps) : (new ps).bottom ≤ p.2 :=
  ((le_bottom_iff ps _).mp le_rfl).2 p h
theorem le_right_of_mem {ps : List (Pt K)} {p : Pt K} (h : p ∈ ps) : p.1 ≤ (new ps).right :=
  ((right_le_iff ps _).mp le_rfl).2 p h
theorem le_top_of_mem {ps : List (Pt K)} {p : Pt K} (h : p ∈ ps) : p.2 ≤ (new ps).top :=
  ((top_le_iff ps _).mp le_rfl).2 p h

theorem left_le_max (ps : List (Pt K)) : (new ps).left ≤ 32768 := ((le_left_iff ps _).mp le_rfl).1
theorem bottom_le_max (ps : List (Pt K)) : (new ps).bottom ≤ 32768 :=
  ((le_bottom_iff ps _).mp le_rfl).1
theorem min_le_right (ps : List (Pt K)) : -32768 ≤ (new ps).right :=
  ((right_le_iff ps _).mp le_rfl).1
theorem min_le_top (ps : List (Pt K)) : -32768 ≤ (new ps).top := ((top_le_iff ps _).mp le_rfl).1

theorem encloses_of_mem {ps : List (Pt K)} {p : Pt K} (h : p ∈ ps) :
    (new ps).enclosesPoint p = true :=
  (enclosesPoint_iff _ _).mpr
    ⟨⟨left_le_of_mem h, le_right_of_mem h⟩, ⟨bottom_le_of_mem h, le_top_of_mem h⟩⟩

theorem new_congr {ps qs : List (Pt K)} (h : ∀ p, p ∈ ps ↔ p ∈ qs) : new ps = new qs := by
  apply ext'
  · apply eq_of_forall_le_iff; intro x; simp [le_left_iff, h]
  · apply eq_of_forall_le_iff; intro x; simp [le_bottom_iff, h]
  · apply eq_of_forall_ge_iff; intro x; simp only [right_le_iff, h]
  · apply eq_of_forall_ge_iff; intro x; simp only [top_le_iff, h]

theorem proper_new {ps : List (Pt K)} (h : ps ≠ []) : Proper (new ps) := by
  obtain ⟨p, hp⟩ := List.exists_mem_of_ne_nil ps h
  exact ⟨(left_le_of_mem hp).trans (le_right_of_mem hp),
    (bottom_le_of_mem hp).trans (le_top_of_mem hp), left_le_max _, bottom_le_max _,
    min_le_right _, min_le_top _⟩

theorem union_comm (a b : BoundsRectangle K) : a.union b = b.union a := by
  simp [union, min_comm, max_comm]

theorem proper_union (a b : BoundsRectangle K) : Proper (a.union b) := proper_new (by simp)

theorem new_two_of_le {l b r t : K} (h1 : l ≤ r) (h2 : b ≤ t) (hl : l ≤ 32768) (hb : b ≤ 32768)
    (hr : -32768 ≤ r) (ht : -32768 ≤ t) :
    new [(l, b), (r, t)] = { left := l, bottom := b, right := r, top := t } := by
  simp [new, init, addPoint, h1, h2, hl, hb, hr, ht]

/-- Explicit value of the union of a proper rectangle with any rectangle. -/
theorem union_eq {a b : BoundsRectangle K} (ha : Proper a) :
    a.union b = { left := min a.left b.left, bottom := min a.bottom b.bottom,
                  right := max a.right b.right, top := max a.top b.top } := by
  unfold union
  simp only [pyMin_eq, pyMax_eq]
  apply new_two_of_le
  · exact (min_le_left _ _).trans (ha.lr.trans (le_max_left _ _))
  · exact (min_le_left _ _).trans (ha.bt.trans (le_max_left _ _))
  · exact (min_le_left _ _).trans ha.hl
  · exact (min_le_left _ _).trans ha.hb
  · exact ha.hr.trans (le_max_left _ _)
  · exact ha.ht.trans (le_max_left _ _)

theorem Proper.range {b : BoundsRectangle K} (h : Proper b) :
    b.left ≤ 32768 ∧ b.bottom ≤ 32768 ∧ -32768 ≤ b.right ∧ -32768 ≤ b.top :=
  ⟨h.hl, h.hb, h.hr, h.ht⟩

theorem new_range (ps : List (Pt K)) :
    (new ps).left ≤ 32768 ∧ (new ps).bottom ≤ 32768 ∧ -32768 ≤ (new ps).right ∧
      -32768 ≤ (new ps).top :=
  ⟨left_le_max _, bottom_le_max _, min_le_right _, min_le_top _⟩

/-- A union never loses a point of either side. -/
theorem union_left_le (a b : BoundsRectangle K) :
    (a.union b).left ≤ a.left ∧ (a.union b).bottom ≤ a.bottom ∧
    a.right ≤ (a.union b).right ∧ a.top ≤ (a.union b).top := by
  unfold union
  refine ⟨?_, ?_, ?_, ?_⟩
  · exact (left_le_of_mem (p := (pyMin a.left b.left, pyMin a.bottom b.bottom)) (by simp)).trans
      (by simp)
  · exact (bottom_le_of_mem (p := (pyMin a.left b.left, pyMin a.bottom b.bottom)) (by simp)).trans
      (by simp)
  · exact le_trans (by simp)
      (le_right_of_mem (p := (pyMax a.right b.right, pyMax a.top b.top)) (by simp))
  · exact le_trans (by simp)
      (le_top_of_mem (p := (pyMax a.right b.right, pyMax a.top b.top)) (by simp))

theorem enclosesPoint_union_left {a b : BoundsRectangle K} {p : Pt K}
    (h : a.enclosesPoint p = true) : (a.union b).enclosesPoint p = true := by
  rw [enclosesPoint_iff] at *
  obtain ⟨h1, h2, h3, h4⟩ := union_left_le a b
  exact ⟨⟨h1.trans h.1.1, h.1.2.trans h3⟩, ⟨h2.trans h.2.1, h.2.2.trans h4⟩⟩

theorem enclosesPoint_union_right {a b : BoundsRectangle K} {p : Pt K}
    (h : b.enclosesPoint p = true) : (a.union b).enclosesPoint p = true := by
  rw [union_comm]; exact enclosesPoint_union_left h

theorem new_union_new {ps qs : List (Pt K)} (h : ps ≠ []) :
    (new ps).union (new qs) = new (ps ++ qs) := by
  rw [union_eq (proper_new h)]
  apply ext'
  · apply eq_of_forall_le_iff; intro x; simp only [le_left_iff, le_min_iff, List.mem_append]
    constructor
    · rintro ⟨⟨h1, h2⟩, _, h3⟩; exact ⟨h1, fun p hp => hp.elim (h2 p) (h3 p)⟩
    · rintro ⟨h1, h2⟩; exact ⟨⟨h1, fun p hp => h2 p (.inl hp)⟩, h1, fun p hp => h2 p (.inr hp)⟩
  · apply eq_of_forall_le_iff; intro x; simp only [le_bottom_iff, le_min_iff, List.mem_append]
    constructor
    · rintro ⟨⟨h1, h2⟩, _, h3⟩; exact ⟨h1, fun p hp => hp.elim (h2 p) (h3 p)⟩
    · rintro ⟨h1, h2⟩; exact ⟨⟨h1, fun p hp => h2 p (.inl hp)⟩, h1, fun p hp => h2 p (.inr hp)⟩
  · apply eq_of_forall_ge_iff; intro x; simp only [right_le_iff, max_le_iff, List.mem_append]
    constructor
    · rintro ⟨⟨h1, h2⟩, _, h3⟩; exact ⟨h1, fun p hp => hp.elim (h2 p) (h3 p)⟩
    · rintro ⟨h1, h2⟩; exact ⟨⟨h1, fun p hp => h2 p (.inl hp)⟩, h1, fun p hp => h2 p (.inr hp)⟩
  · apply eq_of_forall_ge_iff; intro x; simp only [top_le_iff, max_le_iff, List.mem_append]
    constructor
    · rintro ⟨⟨h1, h2⟩, _, h3⟩; exact ⟨h1, fun p hp => hp.elim (h2 p) (h3 p)⟩
    · rintro ⟨h1, h2⟩; exact ⟨⟨h1, fun p hp => h2 p (.inl hp)⟩, h1, fun p hp => h2 p (.inr hp)⟩

end BoundsRectangle

end PathLib
