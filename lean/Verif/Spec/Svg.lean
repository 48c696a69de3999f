import Verif.Spec.Geometry

/-!
# Specification vocabulary: SVG path data

An interpreter for the absolute commands `M`, `L`, `H`, `V`, `Q`, `C` and `Z` of SVG path data (SVG 1.1, chapter 8), written from
that document and independent of the model: a command letter may be left out when it repeats the previous one, and coordinates that
follow a complete `M` are implicit `L` commands. Strings are lists of characters; how numbers are read is a parameter.
-/

namespace PathLib.Spec.Svg

variable {K : Type}

/-- The pieces of path data: command letters and numbers. -/
inductive Token (K : Type)
  | cmd (c : Char)
  | num (x : K)
  deriving DecidableEq, Repr

/-- The command letters. -/
def isCommand (c : Char) : Bool := ['M', 'L', 'H', 'V', 'Q', 'C', 'Z'].contains c

/-- The characters that separate numbers. -/
def isSeparator (c : Char) : Bool := [' ', ','].contains c

/-- A word that is complete, in front of the remaining tokens. -/
def flush (read : List Char → Option K) (word : List Char) (rest : Option (List (Token K))) : Option (List (Token K)) :=
  if word = [] then rest else do return .num (← read word) :: (← rest)

/-- The tokens of path data; `word` holds the characters of the number being read. `none` if a number cannot be read. -/
def tokens (read : List Char → Option K) (word : List Char) : List Char → Option (List (Token K))
  | [] => flush read word (some [])
  | c :: cs =>
    if isCommand c then flush read word ((tokens read [] cs).map (Token.cmd c :: ·))
    else if isSeparator c then flush read word (tokens read [] cs)
    else tokens read (word ++ [c]) cs

/-- What path data draws: moves of the pen, curves given by their control points (lines have two), and closing lines. -/
inductive Event (K : Type)
  | move (p : Pt K)
  | draw (s : Segment K)
  | close
  deriving DecidableEq, Repr

/-- Interpret the tokens; `cur` is the command that applies to coordinates without a command, `pen` the current point and
`start` the start of the current subpath. `none` for malformed path data. -/
def run (cur : Char) (pen start : Pt K) : List (Token K) → Option (List (Event K))
  | [] => some []
  | .cmd c :: ts =>
    if c = 'Z' then (run 'Z' start start ts).map (.close :: ·)
    else match ts with
      | .num _ :: _ => run c pen start ts
      | _ => none
  | .num x :: ts =>
    if cur = 'H' then (run cur (x, pen.2) start ts).map (.draw [pen, (x, pen.2)] :: ·)
    else if cur = 'V' then (run cur (pen.1, x) start ts).map (.draw [pen, (pen.1, x)] :: ·)
    else if cur = 'L' then match ts with
      | .num y :: ts => (run cur (x, y) start ts).map (.draw [pen, (x, y)] :: ·)
      | _ => none
    else if cur = 'M' then match ts with
      | .num y :: ts => (run 'L' (x, y) (x, y) ts).map (.move (x, y) :: ·)
      | _ => none
    else if cur = 'Q' then match ts with
      | .num y :: .num x2 :: .num y2 :: ts => (run cur (x2, y2) start ts).map (.draw [pen, (x, y), (x2, y2)] :: ·)
      | _ => none
    else if cur = 'C' then match ts with
      | .num y :: .num x2 :: .num y2 :: .num x3 :: .num y3 :: ts =>
        (run cur (x3, y3) start ts).map (.draw [pen, (x, y), (x2, y2), (x3, y3)] :: ·)
      | _ => none
    else none

/-- Path data starts with `M`. -/
def interpretTokens [Zero K] (ts : List (Token K)) : Option (List (Event K)) :=
  match ts with
  | [] => some []
  | .cmd 'M' :: _ => run 'Z' (0, 0) (0, 0) ts
  | _ => none

/-- What a `d` attribute draws. -/
def interpret [Zero K] (read : List Char → Option K) (d : List Char) : Option (List (Event K)) :=
  (tokens read [] d).bind interpretTokens

/-- `str x` is a number in the sense of path data that is read back as `x`. -/
def Printable (str : K → List Char) (read : List Char → Option K) (x : K) : Prop :=
  read (str x) = some x ∧ str x ≠ [] ∧ ∀ c ∈ str x, isCommand c = false ∧ isSeparator c = false

/-- Both coordinates can be printed. -/
def PrintablePt (str : K → List Char) (read : List Char → Option K) (p : Pt K) : Prop :=
  Printable str read p.1 ∧ Printable str read p.2

/-- A line of length zero. -/
def isDot [DecidableEq K] : Segment K → Bool
  | [a, b] => decide (a = b)
  | _ => false

/-- The command that draws a segment of two to four points with the fewest numbers; none is needed for a line of length zero. -/
def commandOf [DecidableEq K] : Segment K → Option Char
  | [a, b] => if a = b then none else if a.1 = b.1 then some 'V' else if a.2 = b.2 then some 'H' else some 'L'
  | [_, _, _] => some 'Q'
  | [_, _, _, _] => some 'C'
  | _ => none

end PathLib.Spec.Svg
