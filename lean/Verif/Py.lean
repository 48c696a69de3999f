import Mathlib.Algebra.Field.Basic
import Mathlib.Algebra.Order.Field.Basic
import Mathlib.Tactic.Ring
import Mathlib.Tactic.FieldSimp
import Mathlib.Tactic.Linarith
import Mathlib.Tactic.NormNum
import Mathlib.Tactic.LinearCombination
import Mathlib.Tactic.Positivity

/-!
# Python runtime conventions shared by all model files

Python exceptions are values of `PyErr`; a computation that may raise is a `Py α`.
-/

namespace PathLib

/-- The Python exception classes raised by the modelled code. -/
inductive PyErr
  | indexError
  | zeroDivisionError
  | valueError
  | typeError
  | attributeError
  | keyError
  | recursionError
  | notImplementedError
  deriving DecidableEq, Repr

/-- A Python computation without side effects: a value or an exception. -/
abbrev Py (α : Type) := Except PyErr α

/-- `PathTypes.Point = tuple[float, float]` (PathLib/PathTypes.py:11). -/
abbrev Pt (K : Type) := K × K

/-- `PathTypes.Segment` (PathLib/PathTypes.py:12). -/
abbrev Segment (K : Type) := List (Pt K)

/-- `PathTypes.Contour` (PathLib/PathTypes.py:13). -/
abbrev Contour (K : Type) := List (Segment K)

/-- Python's `l[i]`, including negative indices; `IndexError` when out of range. -/
def pyGet {α : Type} (l : List α) (i : Int) : Py α :=
  let j : Int := if i < 0 then i + l.length else i
  if j < 0 then .error .indexError
  else match l[j.toNat]? with
    | some x => .ok x
    | none => .error .indexError

/-- Python's `a / b`: `ZeroDivisionError` when `b == 0`. -/
def pdiv {K : Type} [Field K] [DecidableEq K] (a b : K) : Py K :=
  if b = 0 then .error .zeroDivisionError else .ok (a / b)

/-- Python's builtin `min(a, b)`: returns the first argument unless the second is smaller. -/
def pyMin {α : Type} [LT α] [DecidableLT α] (a b : α) : α := if b < a then b else a

/-- Python's builtin `max(a, b)`: returns the first argument unless the second is larger. -/
def pyMax {α : Type} [LT α] [DecidableLT α] (a b : α) : α := if a < b then b else a

section lemmas
variable {α : Type}

@[simp] theorem pyMin_eq [LinearOrder α] (a b : α) : pyMin a b = min a b := by
  unfold pyMin; rcases lt_or_ge b a with h | h
  · simp [h, le_of_lt h]
  · simp [not_lt.mpr h, h]

@[simp] theorem pyMax_eq [LinearOrder α] (a b : α) : pyMax a b = max a b := by
  unfold pyMax; rcases lt_or_ge a b with h | h
  · simp [h, le_of_lt h]
  · simp [not_lt.mpr h, h]

theorem pyGet_nat (l : List α) (n : Nat) :
    pyGet l (n : Int) = match l[n]? with | some x => .ok x | none => .error .indexError := by
  unfold pyGet
  have h : ¬ ((n : Int) < 0) := by omega
  simp [h]

theorem pyGet_nat_lt (l : List α) (n : Nat) (h : n < l.length) :
    pyGet l (n : Int) = .ok l[n] := by
  rw [pyGet_nat]; simp [h]

@[simp] theorem pyGet_zero_cons (a : α) (l : List α) : pyGet (a :: l) 0 = .ok a := rfl
@[simp] theorem pyGet_one_cons (a b : α) (l : List α) : pyGet (a :: b :: l) 1 = .ok b := rfl
@[simp] theorem pyGet_two_cons (a b c : α) (l : List α) : pyGet (a :: b :: c :: l) 2 = .ok c := rfl
@[simp] theorem pyGet_three_cons (a b c d : α) (l : List α) :
    pyGet (a :: b :: c :: d :: l) 3 = .ok d := rfl
@[simp] theorem pyGet_nil (i : Int) : pyGet ([] : List α) i = .error .indexError := by
  unfold pyGet; split <;> simp_all

/-- `l[-1]` is the last element. -/
theorem pyGet_neg_one (l : List α) (h : l ≠ []) : pyGet l (-1) = .ok (l.getLast h) := by
  have hl : 0 < l.length := List.length_pos_iff.mpr h
  unfold pyGet
  have e : ((-1 : Int) + (l.length : Int)).toNat = l.length - 1 := by omega
  have h2 : ¬ ((-1 : Int) + (l.length : Int) < 0) := by omega
  simp only [show (-1 : Int) < 0 by decide, if_true, h2, if_false, e]
  rw [List.getElem?_eq_getElem (by omega)]
  simp [List.getLast_eq_getElem]

theorem pdiv_of_ne {K : Type} [Field K] [DecidableEq K] (a : K) {b : K} (h : b ≠ 0) :
    pdiv a b = .ok (a / b) := by simp [pdiv, h]

@[simp] theorem pdiv_zero {K : Type} [Field K] [DecidableEq K] (a : K) :
    pdiv a (0 : K) = .error .zeroDivisionError := by simp [pdiv]

@[simp] theorem pdiv_one {K : Type} [Field K] [DecidableEq K] (a : K) :
    pdiv a (1 : K) = .ok a := by simp [pdiv]

@[simp] theorem ok_bind {β : Type} (a : α) (f : α → Py β) :
    ((Except.ok a : Py α) >>= f) = f a := rfl

@[simp] theorem error_bind {β : Type} (e : PyErr) (f : α → Py β) :
    ((Except.error e : Py α) >>= f) = .error e := rfl

@[simp] theorem bind_ok_self (x : Py α) : (x >>= fun a => Except.ok a) = x := by cases x <;> rfl

theorem bind_eq_ok {β : Type} {x : Py α} {f : α → Py β} {b : β} :
    (x >>= f) = .ok b ↔ ∃ a, x = .ok a ∧ f a = .ok b := by
  cases x <;> simp

@[simp] theorem pure_eq_ok (a : α) : (pure a : Py α) = .ok a := rfl

/-- Success of `mapM` in `Py` is pointwise success. -/
theorem mapM_eq_ok_iff {β : Type} (f : α → Py β) (l : List α) (r : List β) :
    l.mapM f = .ok r ↔ List.Forall₂ (fun a b => f a = .ok b) l r := by
  induction l generalizing r with
  | nil =>
    constructor
    · intro h; have : r = [] := by simpa using h.symm
      subst this; exact .nil
    · intro h; cases h; rfl
  | cons a l ih =>
    rw [List.mapM_cons]
    constructor
    · intro h
      obtain ⟨b, hb, h⟩ := bind_eq_ok.mp h
      obtain ⟨bs, hbs, h⟩ := bind_eq_ok.mp h
      simp at h; subst h
      exact .cons hb ((ih bs).mp hbs)
    · intro h
      cases h with
      | cons h1 h2 => rw [h1, ok_bind, (ih _).mpr h2]; rfl

theorem mapM_ok {β : Type} (f : α → Py β) (g : α → β) (l : List α)
    (h : ∀ a ∈ l, f a = .ok (g a)) : l.mapM f = .ok (l.map g) := by
  rw [mapM_eq_ok_iff]
  induction l with
  | nil => exact .nil
  | cons a l ih =>
    exact .cons (h a (by simp)) (ih fun b hb => h b (by simp [hb]))

end lemmas

end PathLib
