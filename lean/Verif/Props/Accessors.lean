import Verif.Model.Accessors
import Verif.Props.Bezier
import Mathlib.Data.Rat.Floor
import Mathlib.Tactic.Linarith

set_option linter.unusedSectionVars false
set_option linter.unusedSimpArgs false

/-!
# C87: the layout of a plot. C88: accessors
-/

namespace PathLib
open Spec Bezier

section layout
variable {K : Type} [Field K] [LinearOrder K] [IsStrictOrderedRing K] [FloorRing K]

/-- C87: the content margins are whole numbers, at most 1/20 of the width and the height and less than 1 below that; left and right
are equal, and so are bottom and top. The frame margins are 10, and the labels are half as high as the top margin. -/
theorem C87_layout (left bottom right top : K) :
    ∃ m n : ℤ, plotLayout (left, bottom, right, top) = ⟨(m, n, m, n), (10, 10, 10, 10), (n / 2, n / 2)⟩ ∧
      (m : K) ≤ (right - left) / 20 ∧ (right - left) / 20 < m + 1 ∧ (n : K) ≤ (top - bottom) / 20 ∧ (top - bottom) / 20 < n + 1 :=
  ⟨⌊(right - left) / 20⌋, ⌊(top - bottom) / 20⌋, rfl, Int.floor_le _, Int.lt_floor_add_one _, Int.floor_le _, Int.lt_floor_add_one _⟩

/-- C87: in a plot less than 20 units high labels have size 0. -/
theorem C87_low (left bottom right top : K) (h : bottom ≤ top) :
    (plotLayout (left, bottom, right, top)).labelFontSize = (0, 0) ↔ top - bottom < 20 := by
  obtain ⟨m, n, e, -, -, h1, h2⟩ := C87_layout left bottom right top
  rw [e]
  simp only [Prod.mk.injEq, and_self, div_eq_zero_iff, OfNat.ofNat_ne_zero, or_false, Int.cast_eq_zero]
  have h0 : 0 ≤ (top - bottom) / 20 := div_nonneg (by linarith) (by norm_num)
  constructor
  · rintro rfl
    rw [Int.cast_zero, zero_add, div_lt_one (by norm_num)] at h2
    exact h2
  · intro hlt
    have a : (top - bottom) / 20 < 1 := by rw [div_lt_one (by norm_num)]; exact hlt
    have b : (n : K) < 1 := lt_of_le_of_lt h1 a
    have c : (0 : K) < n + 1 := lt_of_le_of_lt h0 h2
    have b' : n < 1 := by exact_mod_cast b
    have c' : 0 < n + 1 := by exact_mod_cast c
    omega

/-- A plot 500 wide and 330 high has margins 25 and 16 and labels of size 8. -/
example : (plotLayout ((0:ℚ), 0, 500, 330)).content = (25, 16, 25, 16) ∧ (plotLayout ((0:ℚ), 0, 500, 330)).labelFontSize = (8, 8) := by
  decide +kernel

end layout

section ends
variable {K : Type} [Field K] [LinearOrder K]

/-- C88: `start`, `end` and `midpoint` are the points of the curve at 0, 1 and 1/2; `startX` and the others are their coordinates. -/
theorem C88_ends (ps : Segment K) (h : ps ≠ []) :
    start ps = .ok (curve ps 0) ∧ stop ps = .ok (curve ps 1) ∧ Bezier.midpoint ps = .ok (curve ps (1 / 2)) ∧
    startX ps = .ok (curve ps 0).1 ∧ startY ps = .ok (curve ps 0).2 ∧ endX ps = .ok (curve ps 1).1 ∧ endY ps = .ok (curve ps 1).2 := by
  have h0 : start ps = .ok (curve ps 0) := by
    rw [curve_zero ps h]
    match ps, h with
    | a :: l, _ => rfl
  have h1 : stop ps = .ok (curve ps 1) := by rw [curve_at_one ps h]; exact pyGet_neg_one ps h
  refine ⟨h0, h1, get_ok ps h _, ?_, ?_, ?_, ?_⟩
  · rw [startX, h0]; rfl
  · rw [startY, h0]; rfl
  · rw [endX, h1]; rfl
  · rw [endY, h1]; rfl

/-- C88: `start` and `end` are what `get(0)` and `get(1)` return. -/
theorem C88_get (ps : Segment K) (h : ps ≠ []) : start ps = get ps 0 ∧ stop ps = get ps 1 := by
  obtain ⟨h0, h1, -⟩ := C88_ends ps h
  exact ⟨by rw [h0, get_ok ps h], by rw [h1, get_ok ps h]⟩

/-- The ends and the middle of a quadratic. -/
example : start [((0:ℚ), 0), (1, 3), (4, 4)] = .ok (0, 0) ∧ stop [((0:ℚ), 0), (1, 3), (4, 4)] = .ok (4, 4) ∧
    Bezier.midpoint [((0:ℚ), 0), (1, 3), (4, 4)] = .ok (3 / 2, 5 / 2) := by decide +kernel

end ends

section str
variable {K : Type}

private theorem cut {α : Type} (c : α) : ∀ a b x y : List α, c ∉ a → c ∉ b → a ++ c :: x = b ++ c :: y → a = b ∧ x = y
  | [], [], x, y, _, _, h => ⟨rfl, by simpa using h⟩
  | [], b :: bs, x, y, _, hb, h => by
    simp only [List.nil_append, List.cons_append, List.cons.injEq] at h
    exact absurd (h.1 ▸ List.mem_cons_self) hb
  | a :: as, [], x, y, ha, _, h => by
    simp only [List.nil_append, List.cons_append, List.cons.injEq] at h
    exact absurd (h.1 ▸ List.mem_cons_self) ha
  | a :: as, b :: bs, x, y, ha, hb, h => by
    simp only [List.cons_append, List.cons.injEq] at h
    obtain ⟨h1, h2⟩ := cut c as bs x y (fun h => ha (by simp [h])) (fun h => hb (by simp [h])) h.2
    exact ⟨by rw [h.1, h1], h2⟩

/-- C88: rectangles with different edges have different texts, when different coordinates have different texts and those contain neither
commas nor parentheses. -/
theorem C88_str (str : K → List Char) (hi : ∀ x y, str x = str y → x = y) (hc : ∀ x, ',' ∉ str x ∧ ')' ∉ str x)
    (b c : BoundsRectangle K) (h : b.toStr str = c.toStr str) : b = c := by
  unfold BoundsRectangle.toStr at h
  simp only [List.append_assoc, List.cons_append, List.nil_append, List.cons.injEq, true_and] at h
  obtain ⟨h1, h⟩ := cut ',' _ _ _ _ (hc _).1 (hc _).1 h
  simp only [List.cons.injEq, true_and] at h
  obtain ⟨h2, h⟩ := cut ')' _ _ _ _ (hc _).2 (hc _).2 h
  simp only [List.cons.injEq, true_and] at h
  obtain ⟨h3, h⟩ := cut ',' _ _ _ _ (hc _).1 (hc _).1 h
  simp only [List.cons.injEq, true_and] at h
  obtain ⟨h4, -⟩ := cut ')' _ _ _ _ (hc _).2 (hc _).2 h
  cases b; cases c
  simp only at h1 h2 h3 h4
  rw [hi _ _ h1, hi _ _ h2, hi _ _ h3, hi _ _ h4]

/-- Printing numbers in unary, as a case of the hypotheses. -/
example : (∀ x y : ℕ, List.replicate x '1' = List.replicate y '1' → x = y) ∧
    ∀ x : ℕ, ',' ∉ List.replicate x '1' ∧ ')' ∉ List.replicate x '1' := by
  refine ⟨fun x y h => by simpa using congrArg List.length h, fun x => ⟨?_, ?_⟩⟩ <;> simp [List.mem_replicate]

end str

end PathLib
