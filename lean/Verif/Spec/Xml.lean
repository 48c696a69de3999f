import Mathlib.Data.List.Basic

/-!
# Specification vocabulary: empty-element tags of XML

A reader for tags such as `<path d='M0,0' fill='none'/>`, written from XML 1.0 (productions 10, 41 and 44) and independent of the
model. Names are restricted to ASCII letters, digits, `-`, `_`, `:` and `.`, white space is the space, and an attribute value is
taken literally: `<` and `&` are not allowed in it, so there are no references to expand.
-/

namespace PathLib.Spec.Xml

/-- The characters of names. -/
def isName (c : Char) : Bool := c.isAlphanum || c == '-' || c == '_' || c == ':' || c == '.'

/-- Where the reader is in a tag. -/
inductive State
  /-- reading the name of the element -/
  | tag (name : List Char)
  /-- after the name or after a value; `space` tells whether there has been a space since -/
  | between (space : Bool)
  /-- reading the name of an attribute -/
  | attribute (name : List Char)
  /-- after `=` -/
  | equals (name : List Char)
  /-- in a value that ends with `quote` -/
  | value (name : List Char) (quote : Char) (text : List Char)
  /-- after `/` -/
  | slash
  /-- after `>` -/
  | done

/-- What has been read: the name of the element and its attributes. -/
abbrev Element := List Char × List (List Char × List Char)

/-- Read a tag from a state on; `e` is what has been read before. -/
def run (st : State) (e : Element) : List Char → Option Element
  | [] => match st with
    | .done => some e
    | _ => none
  | c :: cs => match st with
    | .tag n =>
      if isName c then run (.tag (n ++ [c])) e cs
      else if n = [] then none
      else if c = ' ' then run (.between true) (n, e.2) cs
      else if c = '/' then run .slash (n, e.2) cs
      else none
    | .between space =>
      if c = ' ' then run (.between true) e cs
      else if c = '/' then run .slash e cs
      else if space && isName c then run (.attribute [c]) e cs
      else none
    | .attribute n =>
      if isName c then run (.attribute (n ++ [c])) e cs
      else if c = '=' then run (.equals n) e cs
      else none
    | .equals n => if c = '\'' || c = '"' then run (.value n c []) e cs else none
    | .value n q t =>
      if c = q then run (.between false) (e.1, e.2 ++ [(n, t)]) cs
      else if c = '<' || c = '&' then none
      else run (.value n q (t ++ [c])) e cs
    | .slash => if c = '>' then run .done e cs else none
    | .done => none

/-- The name and the attributes of an empty-element tag, `none` if the text is not one or an attribute occurs twice. -/
def read (text : List Char) : Option Element :=
  match text with
  | '<' :: cs => (run (.tag []) ([], []) cs).filter fun e => decide (e.2.map (·.1)).Nodup
  | _ => none

/-- Text that can stand between single quotes. -/
def Plain (text : List Char) : Prop := ∀ c ∈ text, c ≠ '\'' ∧ c ≠ '<' ∧ c ≠ '&'

/-- A name. -/
def IsName (n : List Char) : Prop := n ≠ [] ∧ ∀ c ∈ n, isName c = true

end PathLib.Spec.Xml
