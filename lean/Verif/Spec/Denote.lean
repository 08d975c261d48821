import Verif.Spec.AstView
import Verif.Spec.Document
/-!
Specification for C79, C80 and C81: what identifiers mean in the DOT language (https://graphviz.org/doc/info/lang.html), and which edge operators fit a graph. Nothing here is
taken from the code: it is what the readers of the written documents do.
-/
namespace Gographviz.Spec

open Gographviz Ast

/-- What the inside of a quoted string means: `\"` is a double quote, a backslash at the end of a line joins it to the next one, and nothing else is special; two backslashes
stay two backslashes. -/
def unquoted : Str → Str
  | [] => []
  | [c] => [c]
  | c :: d :: s =>
    if c = 92 ∧ d = 34 then 34 :: unquoted s
    else if c = 92 ∧ d = 92 then 92 :: 92 :: unquoted s
    else if c = 92 ∧ d = 10 then unquoted s
    else c :: unquoted (d :: s)

/-- The value of an identifier: a text or HTML. -/
inductive Value where
  | text (s : Str)
  | html (s : Str)
  deriving DecidableEq

/-- The value of an identifier: a quoted string means what is inside, as a word or numeral means itself. -/
def idValue (s : Str) : Value :=
  if s.head? = some 34 then .text (unquoted (s.drop 1).dropLast)
  else if s.head? = some 60 then .html (s.drop 1).dropLast
  else .text s

/-- A reader's table of character references: the text for the name between `&` and `;`. -/
abbrev Entities := Str → Option Str

/-- The table has the references for the five characters that are special in HTML. -/
structure KnowsFive (E : Entities) : Prop where
  quote : E (b!"#34") = some [34]
  apostrophe : E (b!"#39") = some [39]
  amp : E (b!"amp") = some [38]
  lt : E (b!"lt") = some [60]
  gt : E (b!"gt") = some [62]

/-- `u` is the text `s` with the character references replaced. An ampersand that begins no reference stays. -/
inductive Decoded (E : Entities) : Str → Str → Prop where
  | nil : Decoded E [] []
  | plain {c : Nat} {s u : Str} : c ≠ 38 → Decoded E s u → Decoded E (c :: s) (c :: u)
  | ref {n t s u : Str} : 59 ∉ n → E n = some t → Decoded E s u → Decoded E (38 :: (n ++ 59 :: s)) (t ++ u)
  | amp {s u : Str} : (∀ n r, s = n ++ 59 :: r → 59 ∉ n → E n = none) → Decoded E s u → Decoded E (38 :: s) (38 :: u)

/-- The text with every line that ends in a backslash joined to the next one (an even number of backslashes joins nothing). -/
def joined : Str → Str
  | [] => []
  | [c] => [c]
  | c :: d :: s =>
    if c = 92 ∧ d = 92 then 92 :: 92 :: joined s
    else if c = 92 ∧ d = 10 then joined s
    else c :: joined (d :: s)

/-- A reader shows the text `u` for the identifier `x`. -/
def Shows (E : Entities) (x u : Str) : Prop := ∃ v, idValue x = .text v ∧ Decoded E v u

/-- The operators of a statement: `true` for `->`, `false` for `--`. -/
def operators : Stmt → List Bool
  | .edge _ rhs _ => rhs.map fun r => match r with | .mk op _ => op
  | _ => []

/-- Every operator of the document, at any depth, fits its kind: `->` in a `digraph`, `--` in a `graph`. -/
def OperatorsFit (t : Ast.Graph) : Prop := ∀ s ∈ allStmts t.stmts, ∀ op ∈ operators s, op = t.type_

/-- Every edge of the graph is directed exactly if the graph is. -/
def EdgesFit (g : Gographviz.Graph) : Prop := ∀ e ∈ g.edges.edges, e.dir = g.directed

/-- No two different spellings of one value among the names. -/
def OneSpelling (names : List Str) : Prop := ∀ a ∈ names, ∀ b ∈ names, idValue a = idValue b → a = b

end Gographviz.Spec
