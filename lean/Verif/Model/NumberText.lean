import Verif.Spec.Decimal

/-!
# The text of numbers

`str(i)` in PathLib/Bezier.py:949-950 and PathLib/ContourPlotter.py:63-64. Python computes the digits of a `float` (a parameter, see
`Spec.Decimal.Shortest`) and lays them out as in `format_float_short` of CPython's `pystrtod.c`, with format code `r`.
-/

namespace PathLib.NumberText
open Spec

/-- The character of a digit. -/
def digitChar (d : Fin 10) : Char := Char.ofNat (48 + d)

/-- `str(n)` for a natural number. -/
def natText (n : ℕ) : List Char := if n = 0 then ['0'] else (Nat.digits 10 n).reverse.map fun d => Char.ofNat (48 + d)

/-- `str(n)` for an `int` (PathLib/ContourPlotter.py:63-64 with integer coordinates). -/
def intText (n : ℤ) : List Char := if n < 0 then '-' :: natText n.natAbs else natText n.natAbs

/-- The layout without exponent, used for numbers from 0.0001 to below 10^16 (PathLib/Bezier.py:949-950). -/
def fixedText (ds : List (Fin 10)) (point : ℤ) : List Char :=
  let cs := ds.map digitChar
  if point ≤ 0 then '0' :: '.' :: (List.replicate (-point).toNat '0' ++ cs)
  else if point.toNat < cs.length then cs.take point.toNat ++ '.' :: cs.drop point.toNat
  else cs ++ (List.replicate (point.toNat - cs.length) '0' ++ ['.', '0'])

/-- The layout with exponent; the exponent has a sign and at least two digits (PathLib/Bezier.py:949-950). -/
def exponentText (ds : List (Fin 10)) (point : ℤ) : List Char :=
  let cs := ds.map digitChar
  let e := natText (point - 1).natAbs
  let e := List.replicate (2 - e.length) '0' ++ e
  cs.take 1 ++ ((if cs.length ≤ 1 then [] else '.' :: cs.drop 1) ++ 'e' :: (if point - 1 < 0 then '-' else '+') :: e)

/-- `str(x)` for the `float` with the given digits (PathLib/Bezier.py:949-950, PathLib/ContourPlotter.py:63-64). -/
def reprText (d : Decimal) : List Char :=
  let body := if d.point ≤ -4 ∨ 16 < d.point then exponentText d.digits d.point else fixedText d.digits d.point
  if d.neg then '-' :: body else body

end PathLib.NumberText
