import Verif.Spec.Lexical
import Verif.Spec.Numerals
import Verif.Spec.Utf8
/-!
Specification for C52: the wording of a syntax error. Independent of the model: only texts and the token types of `Spec/Lexical.lean`.
-/
namespace Gographviz.Spec.ErrorText

open Gographviz Gographviz.Spec

/-- A keyword in lower case. -/
def LowerCase (w : Str) : Prop := ∀ c ∈ w, 97 ≤ c ∧ c ≤ 122

/-- How a kind of token is called in a message. Punctuation is quoted; keywords are in lower case, but `graph` is called `graphx`, after its
symbol in dot.bnf; the end of the input is the symbol `␚` (U+241A, in UTF-8), without quotes. -/
inductive TokenName : Nat → Str → Prop where
  | punct {w : Str} {k : Nat} : (w, k) ∈ puncts → TokenName k ([34] ++ w ++ [34])
  | keyword {w : Str} {k : Nat} : (w, k) ∈ keywords → LowerCase w → w ≠ b!"graph" → TokenName k w
  | graph : TokenName 2 (b!"graphx")
  | ident : TokenName 18 (b!"id")
  | eof : TokenName 1 [0xE2, 0x90, 0x9A]

/-- The symbol of a kind of token in dot.bnf, as it stands there. -/
inductive SymbolName : Nat → Str → Prop where
  | punct {w : Str} {k : Nat} : (w, k) ∈ puncts → SymbolName k w
  | keyword {w : Str} {k : Nat} : (w, k) ∈ keywords → LowerCase w → w ≠ b!"graph" → SymbolName k w
  | graph : SymbolName 2 (b!"graphx")
  | ident : SymbolName 18 (b!"id")
  | eof : SymbolName 1 [0xE2, 0x90, 0x9A]

/-- The symbols of kinds of tokens, in the same order, each with a blank behind it. -/
inductive SymbolList : List Nat → Str → Prop where
  | nil : SymbolList [] []
  | cons {k : Nat} {w : Str} {ks : List Nat} {ws : Str} : SymbolName k w → SymbolList ks ws → SymbolList (k :: ks) (w ++ b!" " ++ ws)

/-- One name for each kind, in the same order. -/
inductive TokenNames : List Nat → List Str → Prop where
  | nil : TokenNames [] []
  | cons {k : Nat} {w : Str} {ks : List Nat} {ws : List Str} : TokenName k w → TokenNames ks ws → TokenNames (k :: ks) (w :: ws)

/-- The sentence that lists what was expected. -/
inductive Expected : List Str → Str → Prop where
  | one (a : Str) : Expected [a] (b!"expected " ++ a)
  | two (a b : Str) : Expected [a, b] (b!"expected either " ++ a ++ b!" or " ++ b)
  | three (a b c : Str) : Expected [a, b, c] (b!"expected one of " ++ a ++ b!", " ++ b ++ b!" or " ++ c)
  | more (as : List Str) (z : Str) : 3 ≤ as.length →
      Expected (as ++ [z]) (b!"expected one of " ++ as.flatMap (fun a => a ++ b!", ") ++ b!"or " ++ z)

/-- A text that is quoted as it is: printable ASCII characters other than the quote and the backslash. -/
def Plain (w : Str) : Prop := ∀ c ∈ w, 32 ≤ c ∧ c ≤ 126 ∧ c ≠ 34 ∧ c ≠ 92

/-- Characters that are shown as they are: printable ASCII and Latin-1 (without the soft hyphen); above U+00FF the Unicode tables decide. -/
def ShownAsIs (up : Nat → Bool) (r : Nat) : Prop := (32 ≤ r ∧ r ≤ 126) ∨ (161 ≤ r ∧ r ≤ 255 ∧ r ≠ 173) ∨ (256 ≤ r ∧ up r = true)

/-- Control characters with a letter of their own: `\\a`, `\\b`, `\\f`, `\\n`, `\\r`, `\\t`, `\\v`. -/
def letterEscapes : List (Nat × Nat) := [(7, 97), (8, 98), (12, 102), (10, 110), (13, 114), (9, 116), (11, 118)]

/-- How a character is written inside quotes, as in a Go string literal; `bs` is its encoding. -/
inductive QuotedChar (up : Nat → Bool) : Nat → Str → Str → Prop where
  | mark {r : Nat} {bs : Str} : r = 34 ∨ r = 92 → QuotedChar up r bs [92, r]
  | shown {r : Nat} {bs : Str} : ShownAsIs up r → r ≠ 34 → r ≠ 92 → QuotedChar up r bs bs
  | letter {r l : Nat} {bs : Str} : (r, l) ∈ letterEscapes → QuotedChar up r bs [92, l]
  | hex2 {r : Nat} {bs h : Str} : r < 32 ∨ r = 127 → (∀ l, (r, l) ∉ letterEscapes) → Hexadecimal 2 r h → QuotedChar up r bs (b!"\\x" ++ h)
  | hex4 {r : Nat} {bs h : Str} : ¬ ShownAsIs up r → 128 ≤ r → r < 65536 → Hexadecimal 4 r h → QuotedChar up r bs (b!"\\u" ++ h)
  | hex8 {r : Nat} {bs h : Str} : ¬ ShownAsIs up r → 65536 ≤ r → Hexadecimal 8 r h → QuotedChar up r bs (b!"\\U" ++ h)

/-- A text inside quotes: character by character; bytes that begin no character are written in hexadecimal. -/
inductive QuotedText (up : Nat → Bool) : Str → Str → Prop where
  | nil : QuotedText up [] []
  | char {r : Nat} {bs q s qs : Str} : Encodes r bs → QuotedChar up r bs q → QuotedText up s qs → QuotedText up (bs ++ s) (q ++ qs)
  | invalid {b : Nat} {h s qs : Str} : (¬ ∃ r bs rest, b :: s = bs ++ rest ∧ Encodes r bs) → Hexadecimal 2 b h → QuotedText up s qs →
      QuotedText up (b :: s) (b!"\\x" ++ h ++ qs)

end Gographviz.Spec.ErrorText
