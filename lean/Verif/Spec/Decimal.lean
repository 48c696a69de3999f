import Verif.Spec.Rounding
import Mathlib.Data.Rat.Cast.Order
import Mathlib.Data.Nat.Digits.Defs

/-!
# Specification vocabulary: decimal numbers and how they are read

Independent of the model. `readNumber` follows the grammar of numbers in SVG path data (SVG 1.1, 8.3.9): an optional sign, digits with an
optional decimal point, an optional exponent.
-/

namespace PathLib.Spec

/-- The number `0.d₁d₂… · 10 ^ point`, with a sign. -/
structure Decimal where
  neg : Bool
  digits : List (Fin 10)
  point : ℤ

namespace Decimal

/-- The digits as a natural number. -/
def number (ds : List (Fin 10)) : ℕ := ds.foldl (fun a d => 10 * a + d.val) 0

/-- The number that is meant. -/
def value (d : Decimal) : ℚ := (if d.neg then -1 else 1) * (number d.digits * 10 ^ (d.point - d.digits.length))

/-- The number that a list of digit characters denotes. -/
def charsNumber (cs : List Char) : ℕ := cs.foldl (fun a c => 10 * a + (c.toNat - 48)) 0

/-- Read a non-empty list of digits. -/
def readDigits (cs : List Char) : Option ℤ := if cs ≠ [] ∧ cs.all Char.isDigit = true then some ((charsNumber cs : ℕ) : ℤ) else none

/-- Read an optional exponent up to the end. -/
def readExponent : List Char → Option ℤ
  | [] => some 0
  | 'e' :: '+' :: cs => readDigits cs
  | 'e' :: '-' :: cs => (readDigits cs).map (- ·)
  | 'e' :: cs => readDigits cs
  | _ => none

/-- An optional point with digits, and the rest. -/
def readFraction : List Char → List Char × List Char
  | '.' :: r => (r.takeWhile Char.isDigit, r.dropWhile Char.isDigit)
  | r => ([], r)

/-- Read a number without a sign. -/
def readUnsigned (w : List Char) : Option ℚ :=
  let i := w.takeWhile Char.isDigit
  let (f, rest) := readFraction (w.dropWhile Char.isDigit)
  if i ++ f = [] then none else (readExponent rest).map fun (e : ℤ) => (charsNumber (i ++ f) : ℚ) * 10 ^ (e - f.length)

/-- Read a number. -/
def readNumber : List Char → Option ℚ
  | '-' :: w => (readUnsigned w).map (- ·)
  | w => readUnsigned w

/-- Read a number into a variable that holds rounded numbers only. -/
def readRounded (R : Rounding) (w : List Char) : Option ℝ := (readNumber w).map fun (q : ℚ) => R.rnd (q : ℝ)

/-- What the documentation of Python promises of `repr` for floating point numbers: a decimal that rounds to the number, with as few digits as
possible. -/
structure Shortest (R : Rounding) (repr : ℝ → Decimal) : Prop where
  nonempty : ∀ x, R.rnd x = x → (repr x).digits ≠ []
  rounds : ∀ x, R.rnd x = x → R.rnd ((repr x).value : ℝ) = x
  fewest : ∀ x, R.rnd x = x → ∀ d : Decimal, d.digits ≠ [] → R.rnd (d.value : ℝ) = x → (repr x).digits.length ≤ d.digits.length

end Decimal
end PathLib.Spec
