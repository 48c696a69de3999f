import Verif.Props.BContour

set_option linter.unusedSectionVars false

/-!
# What `BContour.getLUT` returns after any history: C54

The contour keeps the last table it computed and hands it out again whenever its length equals the number of steps asked for. Here
this is described by a small machine that remembers only from which curves and with how many steps the kept table was computed.
-/

namespace PathLib
open Spec Bezier BContour

namespace Spec

/-- What can be done with a contour. -/
inductive Use
  | edit (e : Edit)
  | getLUT (steps : Int)
  | findClosestPoint (point : Pt ℝ) (steps : Int)

/-- The curves of the contour, and the curves and the number of steps of the table it keeps. -/
structure Memo where
  current : List (Segment ℝ)
  kept : Option (List (Segment ℝ) × Nat)

/-- The number of points of the kept table. -/
def Memo.keptLength (s : Memo) : Nat := s.kept.elim 0 fun k => k.1.length * (k.2 - 1) + 1

/-- Asking for a table: the kept one is used if its length is the number of steps, otherwise a new one is kept, which is empty for
fewer than two steps. -/
def Memo.ask (steps : Int) (s : Memo) : Memo :=
  if (s.keptLength : Int) = steps then s
  else { s with kept := if 2 ≤ steps ∧ s.current ≠ [] then some (s.current, steps.toNat) else none }

def Memo.use (s : Memo) : Use → Memo
  | .edit e => { s with current := e.onList s.current }
  | .getLUT steps => s.ask steps
  | .findClosestPoint _ steps => s.ask steps

/-- The contour with these curves after a history. -/
def Memo.after (c : List (Segment ℝ)) (us : List Use) : Memo := us.foldl Memo.use ⟨c, none⟩

end Spec

/-- Doing something with a contour. -/
noncomputable def BContour.use (bc : BContour) : Use → BContour
  | .edit e => (edit e bc).2
  | .getLUT steps => (getLUT steps bc).2
  | .findClosestPoint point steps => (findClosestPoint point steps bc).2

/-- The contour is in the state described by `s`. -/
structure Remembers (bc : BContour) (s : Memo) : Prop where
  refines : bc.Refines s.current
  lut : bc.lut = s.kept.elim [] fun k => freshLut k.2 k.1
  kept : ∀ k ∈ s.kept, k.1 ≠ [] ∧ (∀ x ∈ k.1, x ≠ []) ∧ 2 ≤ k.2

private theorem remembers_length {bc : BContour} {s : Memo} (h : Remembers bc s) : bc.lut.length = s.keptLength := by
  rw [h.lut]
  unfold Memo.keptLength
  cases hk : s.kept with
  | none => rfl
  | some k =>
    obtain ⟨h1, -, h3⟩ := h.kept k hk
    simp [freshLut_length k.2 h3 k.1 h1]

private theorem lutLoop_few (n : Int) (hn : n ≤ 0) : ∀ (bs : List Bezier) k, lutLoop n bs k [] = (.ok (), []) := by
  intro bs
  induction bs with
  | nil => intro k; rfl
  | cons b bs ih =>
    intro k
    unfold lutLoop
    rw [(C40_few_steps _).2 n (by omega)]
    simpa using ih 1

private theorem lutLoop_one (b : Bezier) (bs : List Bezier) : lutLoop 1 (b :: bs) 0 [] = (.error .zeroDivisionError, []) := by
  unfold lutLoop; rw [(C40_few_steps _).1]

private theorem ask_remembers {bc : BContour} {s : Memo} (h : Remembers bc s) (n : Int) : Remembers (getLUT n bc).2 (s.ask n) := by
  unfold getLUT Memo.ask
  rw [remembers_length h]
  by_cases he : (s.keptLength : Int) = n
  · rw [if_pos he, if_pos he]; exact h
  · rw [if_neg he, if_neg he]
    have hne := refines_ne h.refines.curves
    have hp := refines_points h.refines.curves
    by_cases hn : 2 ≤ n
    · obtain ⟨n', rfl⟩ : ∃ n' : Nat, n = n' := ⟨n.toNat, by omega⟩
      rw [lutLoop_fresh n' (by omega) _ _ hp hne]
      by_cases hl : s.current = []
      · refine ⟨⟨h.refines.curves, h.refines.ends⟩, ?_, ?_⟩
        · simp [hl, freshLut]
        · simp [hl]
      · refine ⟨⟨h.refines.curves, h.refines.ends⟩, ?_, ?_⟩
        · simp [hl, show (2 : Int) ≤ n' from hn]
        · simp [hl, show (2 : Int) ≤ n' from hn]
          exact ⟨hne, by omega⟩
    · have hk : (if 2 ≤ n ∧ s.current ≠ [] then some (s.current, n.toNat) else none) = none := by simp [hn]
      rw [hk]
      by_cases hn1 : n = 1
      · subst hn1
        have hc := h.refines.curves
        cases hb : bc.beziers with
        | nil =>
          rw [hb] at hc
          exact ⟨⟨hc, h.refines.ends⟩, rfl, by simp⟩
        | cons b bs =>
          rw [hb] at hc
          rw [lutLoop_one]
          exact ⟨⟨hc, h.refines.ends⟩, rfl, by simp⟩
      · rw [lutLoop_few n (by omega)]
        exact ⟨⟨h.refines.curves, h.refines.ends⟩, rfl, by simp⟩

private theorem closest_state (p : Pt ℝ) (n : Int) (bc : BContour) : (findClosestPoint p n bc).2 = (getLUT n bc).2 := by
  unfold findClosestPoint
  rcases getLUT n bc with ⟨_ | _, _⟩ <;> rfl

private theorem use_remembers {bc : BContour} {s : Memo} (h : Remembers bc s) (u : Use) : Remembers (bc.use u) (s.use u) := by
  cases u with
  | edit e =>
    obtain ⟨h1, -, -, h4⟩ := contour_edit_spec bc s.current h.refines e
    exact ⟨h1, h4.trans h.lut, h.kept⟩
  | getLUT n => exact ask_remembers h n
  | findClosestPoint p n =>
    show Remembers (findClosestPoint p n bc).2 _
    rw [closest_state]
    exact ask_remembers h n

private theorem remembers_after (c : Contour ℝ) (bc : BContour) (h : BContour.new c = .ok bc) (us : List Use) :
    Remembers (us.foldl BContour.use bc) (Memo.after c us) := by
  obtain ⟨hr, -, hlut⟩ := contour_history c bc h []
  have h0 : Remembers bc ⟨c, none⟩ := ⟨hr, hlut, by simp⟩
  unfold Memo.after
  clear hr hlut h
  generalize (⟨c, none⟩ : Memo) = s at h0
  induction us generalizing bc s with
  | nil => exact h0
  | cons u us ih => exact ih _ _ (use_remembers h0 u)

/-- C54: after any history of edits, tables and closest points, `getLUT(n)` returns the table of the current curves with `n` steps,
except when the kept table has `n` points: then it returns that one. -/
theorem C54_returned (c : Contour ℝ) (bc : BContour) (h : BContour.new c = .ok bc) (us : List Use) (n : Nat) (hn : 2 ≤ n)
    (hl : (Memo.after c us).current ≠ []) :
    ∃ tbl, (getLUT n (us.foldl BContour.use bc)).1 = .ok tbl ∧
      if (Memo.after c us).keptLength = n then ∃ l m, (Memo.after c us).kept = some (l, m) ∧ 2 ≤ m ∧ IsLut l m tbl
      else IsLut (Memo.after c us).current n tbl := by
  have hR := remembers_after c bc h us
  generalize Memo.after c us = s at hR hl
  generalize us.foldl BContour.use bc = b at hR
  unfold getLUT
  rw [remembers_length hR]
  by_cases he : s.keptLength = n
  · rw [if_pos (by exact_mod_cast he)]
    refine ⟨_, rfl, ?_⟩
    rw [if_pos he, hR.lut]
    cases hk : s.kept with
    | none => simp [Memo.keptLength, hk] at he; omega
    | some k =>
      obtain ⟨h1, h2, h3⟩ := hR.kept k hk
      exact ⟨k.1, k.2, rfl, h3, freshLut_isLut k.2 h3 k.1 h1 h2⟩
  · rw [if_neg (by exact_mod_cast he)]
    have hne := refines_ne hR.refines.curves
    rw [lutLoop_fresh n hn _ _ (refines_points hR.refines.curves) hne]
    refine ⟨_, rfl, ?_⟩
    rw [if_neg he]
    exact freshLut_isLut n hn _ hl hne

/-- C54: with one step `getLUT` raises `ZeroDivisionError`, and with fewer it returns no points, whatever happened before. -/
theorem C54_few_steps (c : Contour ℝ) (bc : BContour) (h : BContour.new c = .ok bc) (us : List Use)
    (hl : (Memo.after c us).current ≠ []) :
    (getLUT 1 (us.foldl BContour.use bc)).1 = .error .zeroDivisionError ∧
    ∀ n : Int, n ≤ 0 → (getLUT n (us.foldl BContour.use bc)).1 = .ok [] := by
  have hR := remembers_after c bc h us
  generalize Memo.after c us = s at hR hl
  generalize us.foldl BContour.use bc = b at hR
  constructor
  · unfold getLUT
    rw [remembers_length hR, if_neg]
    · have := refines_points hR.refines.curves
      cases hb : b.beziers with
      | nil => rw [hb] at this; exact absurd this.symm hl
      | cons x xs => rw [lutLoop_one]
    · unfold Memo.keptLength
      cases hk : s.kept with
      | none => simp
      | some k =>
        obtain ⟨h1, h2, h3⟩ := hR.kept k hk
        have : 0 < k.1.length * (k.2 - 1) := Nat.mul_pos (List.length_pos_iff.mpr h1) (by omega)
        simp only [Option.elim_some]
        omega
  · intro n hn
    unfold getLUT
    split_ifs with he
    · have : b.lut = [] := List.eq_nil_of_length_eq_zero (by omega)
      rw [this]
    · rw [lutLoop_few n hn]

/-- C54: on a contour of two or more curves the table returned is the right one exactly when the kept table does not have as many
points as there are steps. -/
theorem C54_iff (c : Contour ℝ) (bc : BContour) (h : BContour.new c = .ok bc) (us : List Use) (n : Nat) (hn : 2 ≤ n)
    (hl : 2 ≤ (Memo.after c us).current.length) :
    ∃ tbl, (getLUT n (us.foldl BContour.use bc)).1 = .ok tbl ∧
      (IsLut (Memo.after c us).current n tbl ↔ (Memo.after c us).keptLength ≠ n) := by
  obtain ⟨tbl, h1, h2⟩ := C54_returned c bc h us n hn (by rintro h0; simp [h0] at hl)
  refine ⟨tbl, h1, ?_⟩
  split_ifs at h2 with he
  · obtain ⟨l, m, hk, hm, hI⟩ := h2
    simp only [he, ne_eq, not_true, iff_false]
    intro hI'
    have e1 := hI.1
    have e2 := hI'.1
    have e3 : l.length * (m - 1) + 1 = n := by rw [← he]; simp [Memo.keptLength, hk]
    have : 2 * (n - 1) ≤ (Memo.after c us).current.length * (n - 1) := Nat.mul_le_mul_right _ hl
    omega
  · simp [h2, he]

/-- C54: on a contour of one curve the kept table can be wrong only after an edit: it is right exactly when the curve it was
computed from has the same samples. -/
theorem C54_one_iff (c : Contour ℝ) (bc : BContour) (h : BContour.new c = .ok bc) (us : List Use) (n : Nat) (hn : 2 ≤ n)
    (v s : Segment ℝ) (hl : (Memo.after c us).current = [v]) (hk : (Memo.after c us).kept = some ([s], n)) :
    ∃ tbl, (getLUT n (us.foldl BContour.use bc)).1 = .ok tbl ∧
      (IsLut [v] n tbl ↔ ∀ j ≤ n - 1, Bezier.get v ((j : ℝ) / ((n - 1 : Nat) : ℝ)) = Bezier.get s ((j : ℝ) / ((n - 1 : Nat) : ℝ))) := by
  obtain ⟨tbl, h1, h2⟩ := C54_returned c bc h us n hn (by simp [hl])
  refine ⟨tbl, h1, ?_⟩
  have he : (Memo.after c us).keptLength = n := by simp [Memo.keptLength, hk]; omega
  rw [if_pos he] at h2
  obtain ⟨l, m, hk', hm, hI⟩ := h2
  rw [hk] at hk'
  cases hk'
  constructor
  · intro hI' j hj
    obtain ⟨p, e1, e2⟩ := hI.2 0 (by simp) j hj (.inl rfl)
    obtain ⟨p', e3, e4⟩ := hI'.2 0 (by simp) j hj (.inl rfl)
    rw [e2] at e4
    cases e4
    exact e3.trans e1.symm
  · intro hs
    refine ⟨hI.1, ?_⟩
    intro k hk j hj hkj
    simp only [List.length_singleton, Nat.lt_one_iff] at hk
    subst hk
    obtain ⟨p, e1, e2⟩ := hI.2 0 (by simp) j hj (.inl rfl)
    exact ⟨p, (hs j hj).trans e1, e2⟩

/-- A history: two curves, asked for 3 steps (5 points are kept), then for 5. -/
example : (Memo.after [[(0, 0), (1, 0)], [(1, 0), (0, 0)]] [.getLUT 3, .edit (.del 7)]).keptLength = 5 := by
  simp [Memo.after, Memo.use, Memo.ask, Memo.keptLength, Edit.onList, Edit.Possible, IsIndex]

end PathLib
