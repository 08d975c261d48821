import Verif.Model.Lexer
import Verif.Spec.Lexical
/-!
Specification: what the token sequence of a source text is. Uses the class `TokenText` and `Layout` of Spec/Lexical.lean and the record
`Token` of the model, nothing else of the scanner.
-/
namespace Gographviz.Spec

open Gographviz Gographviz.Lex

/-- No white space and no comment starts `rem`. -/
def NoLayoutAhead (rem : Str) : Prop := ∀ p, LayoutPiece p → ¬ p <+: rem

/-- The longest prefix of `rem` that is the text of a token is `lit`, and its type is `typ`; type 0 (INVALID): no prefix of `rem` is
the text of a token. -/
def Longest (typ : Nat) (lit rem : Str) : Prop :=
  if typ = 0 then ∀ t w, w <+: runes rem → ¬ TokenText t w
  else TokenText typ (runes lit) ∧ ∀ t w, w <+: runes rem → TokenText t w → w.length ≤ (runes lit).length

/-- `TokensOf off rem ts`: `ts` is the token sequence of the text `rem` that starts at offset `off`: layout, a token,
layout, a token, ..., layout, end of input. Every token text is a non-empty slice of the source at its offset, taken by longest match;
characters are never cut. -/
inductive TokensOf : Nat → Str → List Token → Prop where
  | eof {off : Nat} {gap : Str} {t : Token} : Layout gap → t.typ = 1 → t.lit = [] → t.offset = off + gap.length → TokensOf off gap [t]
  | cons {off : Nat} {gap rest : Str} {t : Token} {ts : List Token} : Layout gap → t.typ ≠ 1 → t.lit ≠ [] → t.offset = off + gap.length →
      NoLayoutAhead (t.lit ++ rest) → Longest t.typ t.lit (t.lit ++ rest) →
      runes (gap ++ (t.lit ++ rest)) = runes gap ++ (runes t.lit ++ runes rest) →
      TokensOf (t.offset + t.lit.length) rest ts → TokensOf off (gap ++ (t.lit ++ rest)) (t :: ts)

/-- The line of the position after the text `s`: one more than the number of newlines. -/
def lineAfter (s : Str) : Nat := 1 + s.count 10

/-- The column of the position after the text `s`: one plus the width of what follows the last newline or carriage return; a tab
is 4 wide, every other character 1. -/
def columnAfter (s : Str) : Nat :=
  1 + (((runes s).reverse.takeWhile fun r => r != 10 && r != 13).map fun r => if r = 9 then 4 else 1).sum

end Gographviz.Spec
