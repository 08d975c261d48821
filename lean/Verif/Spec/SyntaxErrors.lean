import Verif.Spec.Grammar
/-!
Specification: what a syntax error has to say about a token sequence.
-/
namespace Gographviz.Spec.SyntaxErrors

open Gographviz Gographviz.Lex Gographviz.Spec.Grammar

/-- The tokens are the beginning of some document of the grammar. -/
def Viable (us : List Token) : Prop := ∃ w, Sentence (us ++ w)

/-- After these tokens a token of type `k` may come: the end of input (type 1) if they are a complete document, any other type if some
document begins with these tokens and a token of that type. -/
def MayFollow (us : List Token) (k : Nat) : Prop :=
  (k = 1 ∧ Sentence us) ∨ (k ≠ 1 ∧ ∃ u w, u.typ = k ∧ Sentence (us ++ u :: w))

end Gographviz.Spec.SyntaxErrors
