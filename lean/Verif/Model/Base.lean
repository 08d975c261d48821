/-!
Go strings, runes and the library functions of `strings`, `unicode`, `utf8` and `text/template` that the code uses.
Nothing in this file models code of /repo itself, it models the Go standard library where /repo calls it.
-/
namespace Gographviz

/-- A Go `string` or `[]byte`: a list of byte values. Go bytes are below 256; the model does not enforce this,
so every theorem about all `Str` covers all byte strings. -/
abbrev Str := List Nat

open Lean in
/-- `b!"abc"` is the byte string of an ASCII literal: `[97, 98, 99]`. -/
macro "b!" s:str : term => do
  let bytes := s.getString.toUTF8.toList
  let elems ← bytes.toArray.mapM fun b => `($(Syntax.mkNumLit (toString b.toNat)))
  `(([$elems,*] : List Nat))

/-- Go `<` on strings: bytewise lexicographic. -/
def slt : Str → Str → Bool
  | [], [] => false
  | [], _ :: _ => true
  | _ :: _, [] => false
  | a :: as, b :: bs => if a < b then true else if b < a then false else slt as bs

/-- Insertion into an ascending list of strings (helper of `ssort`). -/
def sinsert (x : Str) : List Str → List Str
  | [] => [x]
  | y :: ys => if slt y x then y :: sinsert x ys else x :: y :: ys

/-- `sort.Strings`. The algorithm is irrelevant: strings are totally ordered, so the ascending permutation of a
list of strings is unique (`Proofs/Str.lean`, `ssort_unique`). -/
def ssort : List Str → List Str
  | [] => []
  | x :: xs => sinsert x (ssort xs)

/-- `strings.HasPrefix(s, p)`. -/
def hasPrefix (s p : Str) : Bool := p.isPrefixOf s

/-- `strings.HasSuffix(s, p)`. -/
def hasSuffix (s p : Str) : Bool := p.isSuffixOf s

/-- `strings.TrimSuffix(s, "\n")`. -/
def trimSuffixNL (s : Str) : Str :=
  match s.reverse with
  | 10 :: r => r.reverse
  | _ => s

/-- `strings.Split(s, ":")` (58 is `:`): the list of the maximal colon-free pieces; never empty. -/
def splitColon : Str → List Str
  | [] => [[]]
  | c :: cs =>
    if c = 58 then [] :: splitColon cs
    else match splitColon cs with
      | [] => [[c]]
      | p :: ps => (c :: p) :: ps

/-- `strings.Join(ss, sep)`. -/
def sjoin (sep : Str) : List Str → Str
  | [] => []
  | [s] => s
  | s :: ss => s ++ sep ++ sjoin sep ss

/-! ### UTF-8 -/

/-- `utf8.RuneError` = U+FFFD. -/
def runeError : Nat := 0xFFFD

/-- A UTF-8 continuation byte. -/
def isCont (b : Nat) : Bool := 0x80 ≤ b && b ≤ 0xBF

/-- `utf8.DecodeRune`: the first rune of `s` and its width in bytes. Invalid encodings (stray continuation bytes, overlong
forms, surrogates, values above U+10FFFF, truncated sequences) give `(RuneError, 1)`, empty input `(RuneError, 0)`. -/
def decodeRune : Str → Nat × Nat
  | [] => (runeError, 0)
  | b0 :: rest =>
    if b0 < 0x80 then (b0, 1)
    else if 0xC2 ≤ b0 && b0 ≤ 0xDF then
      match rest with
      | b1 :: _ => if isCont b1 then ((b0 - 0xC0) * 64 + (b1 - 0x80), 2) else (runeError, 1)
      | _ => (runeError, 1)
    else if 0xE0 ≤ b0 && b0 ≤ 0xEF then
      match rest with
      | b1 :: b2 :: _ =>
        let lo := if b0 = 0xE0 then 0xA0 else 0x80
        let hi := if b0 = 0xED then 0x9F else 0xBF
        if lo ≤ b1 && b1 ≤ hi && isCont b2 then
          ((b0 - 0xE0) * 4096 + (b1 - 0x80) * 64 + (b2 - 0x80), 3)
        else (runeError, 1)
      | _ => (runeError, 1)
    else if 0xF0 ≤ b0 && b0 ≤ 0xF4 then
      match rest with
      | b1 :: b2 :: b3 :: _ =>
        let lo := if b0 = 0xF0 then 0x90 else 0x80
        let hi := if b0 = 0xF4 then 0x8F else 0xBF
        if lo ≤ b1 && b1 ≤ hi && isCont b2 && isCont b3 then
          ((b0 - 0xF0) * 262144 + (b1 - 0x80) * 4096 + (b2 - 0x80) * 64 + (b3 - 0x80), 4)
        else (runeError, 1)
      | _ => (runeError, 1)
    else (runeError, 1)

/-- Fuelled version of `runes` (fuel: number of bytes, each step consumes at least one). -/
def runesN : Nat → Str → List Nat
  | 0, _ => []
  | _ + 1, [] => []
  | n + 1, b :: s =>
    let (r, w) := decodeRune (b :: s)
    r :: runesN n ((b :: s).drop w)

/-- The runes visited by `for _, c := range s`. -/
def runes (s : Str) : List Nat := runesN s.length s

/-! ### unicode -/

/-- `unicode.IsLetter` and `unicode.IsDigit` for runes ≥ 0x80: large tables that the model leaves abstract.
Theorems are stated for every value of this parameter. -/
structure Unicode where
  isLetter : Nat → Bool
  isDigit : Nat → Bool

/-- `unicode.IsSpace`. -/
def isSpaceRune (r : Nat) : Bool :=
  (9 ≤ r && r ≤ 13) || r == 32 || r == 0x85 || r == 0xA0 || r == 0x1680 || (0x2000 ≤ r && r ≤ 0x200A) ||
  r == 0x2028 || r == 0x2029 || r == 0x202F || r == 0x205F || r == 0x3000

/-- If `s` starts with the UTF-8 encoding of a white space rune (`isSpaceRune`), the rest of `s`. -/
def stripSpacePrefix : Str → Option Str
  | b0 :: rest =>
    if (9 ≤ b0 && b0 ≤ 13) || b0 == 32 then some rest
    else if b0 = 0xC2 then
      match rest with
      | b1 :: r => if b1 == 0x85 || b1 == 0xA0 then some r else none
      | _ => none
    else if b0 = 0xE1 then
      match rest with
      | b1 :: b2 :: r => if b1 == 0x9A && b2 == 0x80 then some r else none
      | _ => none
    else if b0 = 0xE2 then
      match rest with
      | b1 :: b2 :: r =>
        if (b1 == 0x80 && ((0x80 ≤ b2 && b2 ≤ 0x8A) || b2 == 0xA8 || b2 == 0xA9 || b2 == 0xAF)) ||
           (b1 == 0x81 && b2 == 0x9F) then some r else none
      | _ => none
    else if b0 = 0xE3 then
      match rest with
      | b1 :: b2 :: r => if b1 == 0x80 && b2 == 0x80 then some r else none
      | _ => none
    else none
  | [] => none

/-- Like `stripSpacePrefix` at the end of a string, on the reversed string (the last rune as `utf8.DecodeLastRune`
finds it: continuation bytes cannot start a rune, so the encoding that ends the string is unique). -/
def stripSpaceRev : Str → Option Str
  | b0 :: rest =>
    if (9 ≤ b0 && b0 ≤ 13) || b0 == 32 then some rest
    else match rest with
      | b1 :: r =>
        if b1 == 0xC2 && (b0 == 0x85 || b0 == 0xA0) then some r
        else match r with
          | b2 :: r' =>
            if (b2 == 0xE1 && b1 == 0x9A && b0 == 0x80) ||
               (b2 == 0xE2 && b1 == 0x80 && ((0x80 ≤ b0 && b0 ≤ 0x8A) || b0 == 0xA8 || b0 == 0xA9 || b0 == 0xAF)) ||
               (b2 == 0xE2 && b1 == 0x81 && b0 == 0x9F) ||
               (b2 == 0xE3 && b1 == 0x80 && b0 == 0x80) then some r' else none
          | [] => none
      | [] => none
  | [] => none

/-- Repeated `stripSpacePrefix` (fuel: number of bytes). -/
def trimLeftN : Nat → Str → Str
  | 0, s => s
  | n + 1, s => match stripSpacePrefix s with
    | some r => trimLeftN n r
    | none => s

/-- Repeated `stripSpaceRev` (fuel: number of bytes). -/
def trimRevN : Nat → Str → Str
  | 0, s => s
  | n + 1, s => match stripSpaceRev s with
    | some r => trimRevN n r
    | none => s

/-- `strings.TrimSpace`: leading white space runes are removed, then trailing ones. -/
def trimSpace (s : Str) : Str :=
  let l := trimLeftN s.length s
  (trimRevN l.length l.reverse).reverse

/-! ### text/template -/

/-- `template.HTMLEscapeString`: bytewise replacement of NUL, `"`, `'`, `&`, `<`, `>`. -/
def htmlEscapeByte (c : Nat) : Str :=
  if c = 0 then [0xEF, 0xBF, 0xBD]
  else if c = 34 then b!"&#34;"
  else if c = 39 then b!"&#39;"
  else if c = 38 then b!"&amp;"
  else if c = 60 then b!"&lt;"
  else if c = 62 then b!"&gt;"
  else [c]

/-- `template.HTMLEscapeString`. -/
def htmlEscape (s : Str) : Str := s.flatMap htmlEscapeByte

/-- `strings.Replace(s, "\"", "\\\"", -1)`. -/
def escapeQuotes (s : Str) : Str := s.flatMap fun c => if c = 34 then [92, 34] else [c]

/-- Decimal digits of a number (fuelled; `%d` of `fmt.Sprintf`). -/
def decDigitsN : Nat → Nat → Str → Str
  | 0, _, acc => acc
  | f + 1, n, acc =>
    let acc := (48 + n % 10) :: acc
    if n / 10 = 0 then acc else decDigitsN f (n / 10) acc

/-- `fmt.Sprintf("%d", n)` for a non-negative integer. -/
def decDigits (n : Nat) : Str := decDigitsN (n + 1) n []

end Gographviz
