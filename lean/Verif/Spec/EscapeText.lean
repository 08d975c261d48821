import Verif.Model.Base
/-!
Specification of escaping: what the escaped form of a text is. The vocabulary is the bytes of the text (`Str`) and the characters in it
(`runes`, what a Go `range` loop visits); nothing of escape.go is mentioned. `U` tells which characters above U+007F Unicode calls letters
and digits.
-/
namespace Gographviz.Spec

open Gographviz

/-- The white space characters of Unicode. -/
def whiteSpace : List Nat :=
  [9, 10, 11, 12, 13, 32, 0x85, 0xA0, 0x1680, 0x2000, 0x2001, 0x2002, 0x2003, 0x2004, 0x2005, 0x2006, 0x2007, 0x2008, 0x2009, 0x200A,
   0x2028, 0x2029, 0x202F, 0x205F, 0x3000]

/-- The first character that is not white space is `<`. -/
def StartsWithAngle (s : Str) : Prop := ∃ blanks rest, runes s = blanks ++ 60 :: rest ∧ ∀ r ∈ blanks, r ∈ whiteSpace

/-- HTML: it starts with `<` and has as many `<` as `>`. -/
def HtmlText (s : Str) : Prop := StartsWithAngle s ∧ s.count 60 = s.count 62

/-- A letter or underscore; of the other alphabets everything but `ε`. -/
def LetterChar (U : Unicode) (c : Nat) : Prop :=
  (97 ≤ c ∧ c ≤ 122) ∨ (65 ≤ c ∧ c ≤ 90) ∨ c = 95 ∨ (128 ≤ c ∧ U.isLetter c = true ∧ c ≠ 949)

/-- Begins with a letter and has no white space, `-`, `/` or `.`. -/
def WordText (U : Unicode) (s : Str) : Prop :=
  (∃ c cs, runes s = c :: cs ∧ LetterChar U c) ∧ ∀ r ∈ runes s, r ∉ whiteSpace ∧ r ≠ 45 ∧ r ≠ 46 ∧ r ≠ 47

/-- A digit or a dot. -/
def NumeralChar (U : Unicode) (c : Nat) : Prop := (48 ≤ c ∧ c ≤ 57) ∨ c = 46 ∨ (128 ≤ c ∧ U.isDigit c = true)

/-- Digits and dots, at least one; or the same after a minus sign and other characters that are neither digits nor dots. -/
def NumeralText (U : Unicode) (s : Str) : Prop :=
  ∃ sign ds, runes s = sign ++ ds ∧ ds ≠ [] ∧ (∀ c ∈ ds, NumeralChar U c) ∧
    (sign = [] ∨ ∃ other, sign = 45 :: other ∧ ∀ c ∈ other, ¬ NumeralChar U c)

/-- Between double quotes, every double quote inside directly after a backslash. -/
def QuotedText (s : Str) : Prop :=
  ∃ body, s = [34] ++ body ++ [34] ∧ ∀ pre post, runes body = pre ++ 34 :: post → pre.getLast? = some 92

/-- What HTML escaping writes for a byte. -/
def htmlEntities : List (Nat × Str) :=
  [(0, [0xEF, 0xBF, 0xBD]), (34, b!"&#34;"), (39, b!"&#39;"), (38, b!"&amp;"), (60, b!"&lt;"), (62, b!"&gt;")]

/-- The HTML-escaped text. -/
def htmlEscaped (s : Str) : Str := s.flatMap fun c => (htmlEntities.lookup c).getD [c]

/-- A backslash before every double quote. -/
def quoteEscaped (s : Str) : Str := s.flatMap fun c => if c = 34 then [92, 34] else [c]

/-- The texts that escaping has to leave alone. -/
def LeftAlone (U : Unicode) (s : Str) : Prop := HtmlText s ∨ WordText U s ∨ NumeralText U s ∨ QuotedText s

/-- `s'` is the escaped form of `s`. The blank texts and the text `"` have none. -/
def EscapedText (U : Unicode) (s s' : Str) : Prop :=
  (s = [] ∧ s' = []) ∨
  ((∃ r ∈ runes s, r ∉ whiteSpace) ∧ s ≠ [34] ∧
    ((LeftAlone U s ∧ s' = s) ∨
     (¬ LeftAlone U s ∧ StartsWithAngle s ∧ s' = [34] ++ quoteEscaped s ++ [34]) ∨
     (¬ LeftAlone U s ∧ ¬ StartsWithAngle s ∧ s' = [34] ++ htmlEscaped s ++ [34])))

end Gographviz.Spec
