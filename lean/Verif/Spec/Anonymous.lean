import Verif.Model.Parser
import Verif.Spec.Renaming
/-!
Specification for C100: the names generated for anonymous subgraphs.
-/
namespace Gographviz.Spec

open Gographviz Gographviz.Parse

/-- The names generated while the generator goes from position `c` to `c'` are all different, and none of them is an identifier of the text with these tokens. -/
structure Unused (rnd : Nat → Nat) (c c' : Nat) (ts : List Lex.Token) : Prop where
  distinct : ∀ i j, c ≤ i → i < c' → c ≤ j → j < c' → rnd i = rnd j → i = j
  new : ∀ i, c ≤ i → i < c' → ∀ t ∈ ts, t.typ = 18 → t.lit ≠ anonName (rnd i)

/-- The string is one of the names generated between the positions. -/
def GeneratedName (rnd : Nat → Nat) (c c' : Nat) (s : Str) : Prop := ∃ i, c ≤ i ∧ i < c' ∧ s = anonName (rnd i)

end Gographviz.Spec
