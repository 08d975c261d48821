import Verif.Model.Graph
import Verif.Spec.Utf8
import Verif.Spec.Lexical
/-!
Specification for C96: texts in UTF-8.
-/
namespace Gographviz.Spec

open Gographviz

/-- The bytes `s` are the encodings of the characters `rs`, one after another. -/
inductive Decodes : List Nat → Str → Prop where
  | nil : Decodes [] []
  | char {r : Nat} {rs : List Nat} {bs s : Str} : Encodes r bs → Decodes rs s → Decodes (r :: rs) (bs ++ s)

/-- The text is in UTF-8. -/
def Utf8 (s : Str) : Prop := ∃ rs, Decodes rs s

/-- The text is in UTF-8 and contains neither NUL nor the replacement character U+FFFD. -/
def CleanUtf8 (s : Str) : Prop := ∃ rs, Decodes rs s ∧ 0 ∉ rs ∧ 0xFFFD ∉ rs

/-- A comment of dot.bnf: `# …` and `// …` up to the end of the line, `/* … */`. -/
inductive Comment : Str → Prop where
  | hash {b : Str} : 10 ∉ b → Comment (35 :: (b ++ [10]))
  | slashes {b : Str} : 10 ∉ b → Comment (47 :: 47 :: (b ++ [10]))
  | block {b : Str} : NoStarSlash (b ++ [42]) → Comment (47 :: 42 :: (b ++ [42, 47]))

/-- The text consists of comments and of pieces of clean UTF-8. -/
inductive CleanButComments : Str → Prop where
  | nil : CleanButComments []
  | clean {p s : Str} : CleanUtf8 p → CleanButComments s → CleanButComments (p ++ s)
  | comment {p s : Str} : Comment p → CleanButComments s → CleanButComments (p ++ s)

/-- All the texts of a call except the names of attributes (which the graph compares with the registered names) and the parent graph. -/
def argTexts : Op → List Str
  | .setName n => [n]
  | .addPortEdge s sp d dp _ as => s :: sp :: d :: dp :: as.map (·.2)
  | .addEdge s d _ as => s :: d :: as.map (·.2)
  | .addNode _ n as => n :: as.map (·.2)
  | .addAttr _ _ v => [v]
  | .addSubGraph _ n as => n :: as.map (·.2)
  | _ => []

end Gographviz.Spec
