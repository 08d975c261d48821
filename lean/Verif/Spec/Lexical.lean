import Verif.Model.Base
/-!
Specification: the lexical grammar of dot.bnf (lines 18-150), written down independently of the generated tables. Characters
are runes (code points); a token text `lit` is in a class if `runes lit` is.

One deviation of the generated scanner from dot.bnf is built in: inside an HTML string a tag `<...>` must not be empty (dot.bnf allows
`<>`, the generated automaton does not; `C48_empty_tag_rejected`).
-/
namespace Gographviz.Spec

open Gographviz

/-- dot.bnf `_letter`: ASCII letters, `_`, and everything from U+0080 except U+FFFD. -/
def letter (r : Nat) : Prop :=
  (97 ≤ r ∧ r ≤ 122) ∨ (65 ≤ r ∧ r ≤ 90) ∨ r = 95 ∨ (128 ≤ r ∧ r ≤ 0x10FFFF ∧ r ≠ 0xFFFD)

/-- dot.bnf `_decimal_digit`. -/
def digit (r : Nat) : Prop := 48 ≤ r ∧ r ≤ 57

/-- dot.bnf `_unicode_char`: a character of a quoted string other than `"` and `\`: not NUL, not U+FFFD. -/
def strChar (r : Nat) : Prop := 1 ≤ r ∧ r ≤ 0x10FFFF ∧ r ≠ 34 ∧ r ≠ 92 ∧ r ≠ 0xFFFD

/-- dot.bnf `_html_char`: U+0001 to U+00FF except `<` and `>`. -/
def htmlChar (r : Nat) : Prop := 1 ≤ r ∧ r ≤ 255 ∧ r ≠ 60 ∧ r ≠ 62

instance (r : Nat) : Decidable (letter r) := by unfold letter; infer_instance
instance (r : Nat) : Decidable (digit r) := by unfold digit; infer_instance
instance (r : Nat) : Decidable (strChar r) := by unfold strChar; infer_instance
instance (r : Nat) : Decidable (htmlChar r) := by unfold htmlChar; infer_instance

/-- A letter followed by letters and digits. -/
def Word (w : List Nat) : Prop := ∃ c cs, w = c :: cs ∧ letter c ∧ ∀ x ∈ cs, letter x ∨ digit x

/-- dot.bnf `_int_lit`: `[-]? ( .[0-9]+ | [0-9]+ (.[0-9]*)? )`. -/
def Numeral (w : List Nat) : Prop :=
  ∃ m ds fs : List Nat, (m = [] ∨ m = [45]) ∧ (∀ x ∈ ds, digit x) ∧ (∀ x ∈ fs, digit x) ∧
    ((fs ≠ [] ∧ w = m ++ 46 :: fs) ∨ (ds ≠ [] ∧ w = m ++ ds) ∨ (ds ≠ [] ∧ w = m ++ ds ++ 46 :: fs))

/-- The inside of a quoted string: characters and escape pairs. -/
inductive StrBody : List Nat → Prop where
  | nil : StrBody []
  | char {r : Nat} {b : List Nat} : strChar r → StrBody b → StrBody (r :: b)
  | esc {r : Nat} {b : List Nat} : (strChar r ∨ r = 34 ∨ r = 92) → StrBody b → StrBody (92 :: r :: b)

/-- dot.bnf `_string_lit`. -/
def Quoted (w : List Nat) : Prop := ∃ b, StrBody b ∧ w = 34 :: (b ++ [34])

/-- The inside of an HTML string: characters and non-empty tags. -/
inductive HtmlBody : List Nat → Prop where
  | nil : HtmlBody []
  | char {r : Nat} {b : List Nat} : htmlChar r → HtmlBody b → HtmlBody (r :: b)
  | tag {t b : List Nat} : t ≠ [] → (∀ x ∈ t, htmlChar x) → HtmlBody b → HtmlBody (60 :: (t ++ 62 :: b))

/-- dot.bnf `_html_lit` (with non-empty tags). -/
def Html (w : List Nat) : Prop := ∃ b, HtmlBody b ∧ w = 60 :: (b ++ [62])

/-- The inside of an HTML string exactly as dot.bnf line 145 has it: tags may be empty. -/
inductive HtmlBodyBnf : List Nat → Prop where
  | nil : HtmlBodyBnf []
  | char {r : Nat} {b : List Nat} : htmlChar r → HtmlBodyBnf b → HtmlBodyBnf (r :: b)
  | tag {t b : List Nat} : (∀ x ∈ t, htmlChar x) → HtmlBodyBnf b → HtmlBodyBnf (60 :: (t ++ 62 :: b))

/-- dot.bnf lines 22-68: the spellings of the keywords with their token types. -/
def keywords : List (List Nat × Nat) := [
  (b!"node", 9), (b!"Node", 9), (b!"NODE", 9),
  (b!"edge", 10), (b!"Edge", 10), (b!"EDGE", 10),
  (b!"graph", 2), (b!"Graph", 2), (b!"GRAPH", 2),
  (b!"digraph", 6), (b!"Digraph", 6), (b!"diGraph", 6), (b!"DiGraph", 6), (b!"DIGRAPH", 6),
  (b!"subgraph", 15), (b!"Subgraph", 15), (b!"subGraph", 15), (b!"SubGraph", 15), (b!"SUBGRAPH", 15),
  (b!"strict", 5), (b!"Strict", 5), (b!"STRICT", 5)]

/-- The punctuation tokens with their token types. -/
def puncts : List (List Nat × Nat) := [
  (b!"{", 3), (b!"}", 4), (b!";", 7), (b!"=", 8), (b!"[", 11), (b!"]", 12), (b!",", 13), (b!":", 14), (b!"->", 16), (b!"--", 17)]

/-- dot.bnf `id`: a word that is not a keyword, a numeral, a quoted string or an HTML string. -/
def IdLexeme (w : List Nat) : Prop := (Word w ∧ w ∉ keywords.map Prod.fst) ∨ Numeral w ∨ Quoted w ∨ Html w

/-- The texts of the token type `t` (18 is `id`). -/
def TokenText (t : Nat) (w : List Nat) : Prop := (w, t) ∈ keywords ∨ (w, t) ∈ puncts ∨ (t = 18 ∧ IdLexeme w)

/-- `*/` does not occur. -/
def NoStarSlash : Str → Prop
  | [] => True
  | [_] => True
  | a :: b :: s => ¬ (a = 42 ∧ b = 47) ∧ NoStarSlash (b :: s)

/-- One piece of layout: a blank, a line comment with its newline, or a block comment. -/
inductive LayoutPiece : Str → Prop where
  | blank {c : Nat} : c = 32 ∨ c = 9 ∨ c = 10 ∨ c = 13 → LayoutPiece [c]
  | hash {b : Str} : 10 ∉ b → LayoutPiece (35 :: (b ++ [10]))
  | slashes {b : Str} : 10 ∉ b → LayoutPiece (47 :: 47 :: (b ++ [10]))
  | block {b : Str} : NoStarSlash (b ++ [42]) → LayoutPiece (47 :: 42 :: (b ++ [42, 47]))

/-- White space and comments. -/
inductive Layout : Str → Prop where
  | nil : Layout []
  | cons {p w : Str} : LayoutPiece p → Layout w → Layout (p ++ w)

end Gographviz.Spec
