import Verif.Model.Errors
/-!
internal/util (litconv.go, rune.go), the methods of tokens in internal/token/token.go that the parser itself does not use, and `NewLexerFile`.
`Float32Value` and `Float64Value` (token.go:90-101) are not modelled: they are calls of `strconv.ParseFloat`.
-/
namespace Gographviz.Lit

open Gographviz Gographviz.Lex Gographviz.Parse

/-! ### internal/util/litconv.go -/

/-- litconv.go:90-100 `digitVal`. -/
def digitVal (ch : Nat) : Nat :=
  if 48 ≤ ch ∧ ch ≤ 57 then ch - 48
  else if 97 ≤ ch ∧ ch ≤ 102 then ch - 97 + 10
  else if 65 ≤ ch ∧ ch ≤ 70 then ch - 65 + 10
  else 16

/-- litconv.go:73-82: the loop of `escapeCharVal`: `i`, `offset`, `x` (a `uint32`). `none`: panic. -/
def escLoop (lit : Str) (base : Nat) : Nat → Nat → Nat → Option Nat
  | 0, _, x => some x
  | i + 1, offset, x =>
    if offset < lit.length - 1 then
      let (ch, size) := decodeRune (lit.drop offset)
      let d := digitVal ch
      if d ≥ base then none
      else escLoop lit base i (offset + size) ((x * base + d) % 2 ^ 32)
    else some x

/-- litconv.go:72-87: the rest of `escapeCharVal` after the `switch`. -/
def escNumber (lit : Str) (i base max offset : Nat) : Option Nat :=
  match escLoop lit base i offset 0 with
  | none => none
  | some x => if x > max ∨ (0xD800 ≤ x ∧ x < 0xE000) then none else some x

/-- litconv.go:38-87 `escapeCharVal`. `none`: panic (also of the index `lit[2]`). -/
def escapeCharVal (lit : Str) : Option Nat := match lit[2]? with
  | none => none
  | some c =>
    if c = 97 then some 7
    else if c = 98 then some 8
    else if c = 102 then some 12
    else if c = 110 then some 10
    else if c = 114 then some 13
    else if c = 116 then some 9
    else if c = 118 then some 11
    else if c = 92 then some 92
    else if c = 39 then some 39
    else if 48 ≤ c ∧ c ≤ 55 then escNumber lit 3 8 255 2
    else if c = 120 then escNumber lit 2 16 255 3
    else if c = 117 then escNumber lit 4 16 0x10FFFF 3
    else if c = 85 then escNumber lit 8 16 0x10FFFF 3
    else none

/-- litconv.go:15-24 `RuneValue`. `none`: panic. -/
def runeValue (lit : Str) : Option Nat := match lit[1]? with
  | none => none
  | some c =>
    if c = 92 then escapeCharVal lit
    else
      let (r, size) := decodeRune (lit.drop 1)
      if size ≠ lit.length - 2 then none else some r

/-- The outcome of the functions of `strconv`: a value, `ErrSyntax` or `ErrRange` (with the value that comes with it). -/
inductive NumRes (α : Type) where
  | ok (v : α)
  | syntaxErr
  | rangeErr (v : α)
  deriving DecidableEq, Repr

/-- The loop of `strconv.ParseUint(s, 10, 64)` (standard library). Letters are digits from 10 on and so syntax errors here. -/
def parseUintLoop : Nat → Str → NumRes Nat
  | n, [] => .ok n
  | n, c :: s =>
    if 48 ≤ c ∧ c ≤ 57 then
      if n ≥ 2 ^ 64 / 10 + 1 then .rangeErr (2 ^ 64 - 1)
      else if n * 10 + (c - 48) ≥ 2 ^ 64 then .rangeErr (2 ^ 64 - 1)
      else parseUintLoop (n * 10 + (c - 48)) s
    else .syntaxErr

/-- `strconv.ParseUint(s, 10, 64)` (standard library). -/
def parseUint (s : Str) : NumRes Nat := if s = [] then .syntaxErr else parseUintLoop 0 s

/-- The part of `strconv.ParseInt(s, 10, 64)` behind the sign (standard library). -/
def parseIntTail (neg : Bool) (s : Str) : NumRes Int := match parseUint s with
  | .syntaxErr => .syntaxErr
  | .rangeErr _ => if neg then .rangeErr (-2 ^ 63) else .rangeErr (2 ^ 63 - 1)
  | .ok un =>
    if neg = false ∧ un ≥ 2 ^ 63 then .rangeErr (2 ^ 63 - 1)
    else if neg = true ∧ un > 2 ^ 63 then .rangeErr (-2 ^ 63)
    else .ok (if neg then -(un : Int) else un)

/-- `strconv.ParseInt(s, 10, 64)` (standard library). -/
def parseInt (s : Str) : NumRes Int := match s with
  | [] => .syntaxErr
  | c :: rest => if c = 43 then parseIntTail false rest else if c = 45 then parseIntTail true rest else parseIntTail false s

/-- litconv.go:27-29 `IntValue`. -/
def intValue (lit : Str) : NumRes Int := parseInt lit

/-- litconv.go:32-34 `UintValue`. -/
def uintValue (lit : Str) : NumRes Nat := parseUint lit

/-! ### internal/util/rune.go -/

/-- `fmt.Sprintf("%0kx", r)`: hexadecimal digits, padded with zeros to `k` characters (the sign is one of them). -/
def hexPad (k : Nat) (r : Int) : Str :=
  let digits := fun n => (hexDigits 16 n).dropWhile (· == 48)
  let pad := fun (w : Nat) (s : Str) => List.replicate (w - s.length) 48 ++ s
  if r < 0 then [45] ++ pad (k - 1) (digits r.natAbs) else pad k (digits r.natAbs)

/-- rune.go:9-41 `RuneToString`; a rune is an `int32`. -/
def runeToString (r : Int) : Str :=
  if 0x20 ≤ r ∧ r < 0x7f then [39, r.toNat, 39]
  else if r = 0x07 then b!"'\\a'"
  else if r = 0x08 then b!"'\\b'"
  else if r = 0x0C then b!"'\\f'"
  else if r = 0x0A then b!"'\\n'"
  else if r = 0x0D then b!"'\\r'"
  else if r = 0x09 then b!"'\\t'"
  else if r = 0x0b then b!"'\\v'"
  else if r = 0x5c then b!"'\\\\\\'"
  else if r = 0x27 then b!"'\\''"
  else if r = 0x22 then b!"'\\\"'"
  else if r < 0x10000 then b!"\\u" ++ hexPad 4 r
  else b!"\\U" ++ hexPad 8 r

/-! ### internal/token/token.go, internal/token/context.go -/

/-- context.go: what is attached to a position: nothing (or a value without `Source`), or a value with the method `Source` and its result. -/
inductive Context where
  | plain
  | source (path : Str)
  deriving DecidableEq, Repr

/-- `%d` of an `int`. -/
def decInt (n : Int) : Str := if n < 0 then [45] ++ decDigits n.natAbs else decDigits n.natAbs

/-- token.go:31-39 `Pos.String`. -/
def posString (ctx : Context) (offset line column : Nat) : Str := match ctx with
  | .source path => path ++ b!":" ++ decDigits line ++ b!":" ++ decDigits column
  | .plain => b!"Pos(offset=" ++ decDigits offset ++ b!", line=" ++ decDigits line ++ b!", column=" ++ decDigits column ++ b!")"

/-- token.go:46-51 `TokenMap.Id` for every `int`. `none`: panic (index out of range). -/
def idOf (k : Int) : Option Str := if k < 0 then none else some (tokId k.toNat)

/-- token.go:64-66 `TokenMap.StringType`. -/
def stringType (k : Int) : Option Str := (idOf k).map fun id => id ++ b!"(" ++ decInt k ++ b!")"

/-- token.go:60-62 `TokenMap.TokenString`. -/
def tokenString (k : Int) (lit : Str) : Option Str := (idOf k).map fun id => id ++ b!"(" ++ decInt k ++ b!"," ++ lit ++ b!")"

/-- The argument of `Equals`: a value of another type, or a pointer to a token (with its address) or nil. -/
inductive EqArg where
  | other
  | nil
  | tok (addr : Nat) (t : Token)

/-- token.go:69-76 `Equals` of a token at an address. `none`: panic (nil pointer). -/
def equals (addr : Nat) (t : Token) : EqArg → Option Bool
  | .other => some false
  | .nil => none
  | .tok a u => some (addr == a || (t.typ == u.typ && t.lit == u.lit))

/-- token.go:79-81 `CharLiteralValue`, token.go:133-135 `StringValue`: `Lit[1 : len(Lit)-1]`. `none`: panic (slice bounds). -/
def inner (lit : Str) : Option Str := if lit.length < 2 then none else some ((lit.drop 1).take (lit.length - 1 - 1))

/-- The low 32 bits of a number as an `int32`. -/
def toInt32 (v : Int) : Int := (v + 2 ^ 31) % 2 ^ 32 - 2 ^ 31

/-- token.go:105-111 `Int32Value`: the value, or whether the error is one of range. -/
def int32Value (lit : Str) : NumRes Int := match parseInt lit with
  | .ok v => .ok (toInt32 v)
  | .syntaxErr => .syntaxErr
  | .rangeErr _ => .rangeErr 0

/-- token.go:115-117 `Int64Value`. -/
def int64Value (lit : Str) : NumRes Int := parseInt lit

/-- token.go:121-128 `UTF8Rune`: the rune and whether there is an error. -/
def utf8Rune (lit : Str) : Nat × Bool :=
  let (r, _) := decodeRune lit
  if r = runeError then (r, true) else (r, false)

/-! ### internal/lexer/lexer.go -/

/-- lexer.go:47-55 `NewLexerFile`: the scanner and its context; `file` is what `ioutil.ReadFile` returns: the bytes or an error. -/
def newLexerFile (path : Str) (file : Except Str Str) : Except Str (Lexer × Context) := match file with
  | .error e => .error e
  | .ok src => .ok (newLexer src, .source path)

/-- lexer.go:57-124 `Scan` with the context, which every token gets. -/
def scanCtx (l : Lexer × Context) : Option ((Token × Context) × (Lexer × Context)) :=
  (scan l.1).map fun r => ((r.1, l.2), (r.2, l.2))

/-- lexer.go:126-128 `Reset`. -/
def reset (l : Lexer) : Lexer := { l with pos := 0 }

end Gographviz.Lit
