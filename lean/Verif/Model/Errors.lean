import Verif.Model.Parser
import Verif.Model.TokTables
/-!
Error handling of the parser: internal/parser/parser.go (`Error`, `popNonRecoveryStates`, `firstRecoveryState`, `newError`),
internal/errors/errors.go and the parts of internal/token/token.go they use.
-/
namespace Gographviz.Parse

open Gographviz Gographviz.Lex

/-! ### internal/token/token.go -/

/-- token.go:47-52 `TokenMap.Id`. -/
def tokId (k : Nat) : Str := match typeMap[k]? with
  | some s => s
  | none => b!"unknown"

/-- token.go:54-59 `TokenMap.Type`. -/
def tokType (s : Str) : Nat := ((idMap.find? fun e => e.1 == s).map (·.2)).getD 0

/-! ### Error recovery: internal/parser/parser.go -/

variable {σ : Type}

/-- parser.go:158-165 `firstRecoveryState`, on the states of the stack (top first). `none`: panic (table access out of range). The
result is an index from the bottom of the stack, as in Go. -/
def firstRecoveryState : List Nat → Option (Nat × Bool)
  | [] => none
  | s :: rest => match canRecoverTab[s]? with
    | none => none
    | some true => some (rest.length, true)
    | some false => match rest with
      | [] => some (0, false)
      | _ :: _ => firstRecoveryState rest

/-- parser.go:144-155 `popNonRecoveryStates`: the stack it leaves. The attributes of the popped entries, which go to `ErrorSymbols`, are
not modelled: no message uses them (`newError` makes a new `Error` without them). -/
def popNonRecoveryStates (stk : List (Nat × Attrib)) : Option (List (Nat × Attrib)) := match firstRecoveryState (stk.map (·.1)) with
  | none => none
  | some (rs, true) => some (stk.drop (stk.length - 1 - rs))
  | some (_, false) => some stk

/-- parser.go:131-139: skip tokens until one has an action in the state on top. The fuel bounds the number of iterations. -/
def skipTokens (scan : σ → Option (Token × σ)) (row : List (Nat × Action)) : Nat → PState σ → Option (Bool × PState σ)
  | 0, _ => none
  | n + 1, st =>
    if (rowAction row st.next.typ).isSome then some (true, st)
    else if st.next.typ = 1 then some (false, st)
    else match scan st.sc with
      | none => none
      | some (t, sc) => skipTokens scan row n { st with next := t, sc := sc }

/-- parser.go:112-142 `Error`: whether it recovered, `errorAttrib.ErrorToken`, and the state of the parser. `none`: panic. The
attribute pushed for the error (`errorAttrib`) is modelled by nil. -/
def recover (scan : σ → Option (Token × σ)) (fuel : Nat) (st : PState σ) : Option (Bool × Token × PState σ) :=
  match popNonRecoveryStates st.stack with
  | none => none
  | some [] => none
  | some ((top, a) :: rest) => match actionTab[top]? with
    | none => none
    | some row => match rowAction row (tokType (b!"error")) with
      | none => some (false, st.next, { st with stack := (top, a) :: rest })
      | some (.shift s) => match actionTab[s]? with
        | none => none
        | some row' => (skipTokens scan row' fuel { st with stack := (s, .nil) :: (top, a) :: rest }).map fun r => (r.1, st.next, r.2)
      | some _ => none

/-- parser.go:167-180 `newError(nil)` after lines 187-191 of `Parse`. -/
def newError (tok : Token) (st : PState σ) : PRes Attrib := match st.stack with
  | [] => .panic
  | (top, _) :: _ => match actionTab[top]? with
    | none => .panic
    | some row => .syntaxErr tok (row.map (·.1))

/-- parser.go:185-215: one iteration of the loop of `Parse` with the error recovery that `step` leaves out. -/
def stepFull (scan : σ → Option (Token × σ)) (rnd : Nat → Nat) (fuel : Nat) (st : PState σ) : PStep σ :=
  match st.stack with
  | [] => .stop .panic
  | (top, _) :: _ => match actionTab[top]? with
    | none => .stop .panic
    | some row => match rowAction row st.next.typ with
      | some _ => step scan rnd st
      | none => match recover scan fuel st with
        | none => .stop .panic
        | some (false, tok, st') => .stop (newError tok st')
        | some (true, _, st') => match st'.stack with
          | [] => .stop .panic
          | (top', _) :: _ => match actionTab[top']? with
            | none => .stop .panic
            | some row' => match rowAction row' st'.next.typ with
              | none => .stop .panic
              | some _ => step scan rnd st'

/-- parser.go:185-217: the loop of `Parse` with error recovery. -/
def loopFull (scan : σ → Option (Token × σ)) (rnd : Nat → Nat) (f : Nat) : Nat → PState σ → PRes Attrib
  | 0, _ => .diverge
  | n + 1, st => match stepFull scan rnd f st with
    | .stop r => r
    | .cont st' => loopFull scan rnd f n st'

/-- parser.go:182-217 `Parse` with error recovery; `f` bounds the number of skipped tokens. -/
def parseFull (scan : σ → Option (Token × σ)) (rnd : Nat → Nat) (f fuel cnt : Nat) (sc : σ) : PRes Attrib :=
  match scan sc with
  | none => .panic
  | some (t, sc) => loopFull scan rnd f fuel { stack := [(0, .nil)], next := t, sc := sc, cnt := cnt }

/-! ### strconv.Quote -/

/-- A hexadecimal digit. -/
def hexDigit (n : Nat) : Nat := if n < 10 then 48 + n else 87 + n

/-- The last `k` hexadecimal digits of a number. -/
def hexDigits : Nat → Nat → Str
  | 0, _ => []
  | k + 1, n => hexDigits k (n / 16) ++ [hexDigit (n % 16)]

/-- `strconv.IsPrint`. Above U+00FF it is a table that the model leaves abstract (`up`). -/
def isPrint (up : Nat → Bool) (r : Nat) : Bool :=
  if r ≤ 0xFF then (0x20 ≤ r && r < 0x7F) || (0xA1 ≤ r && r != 0xAD) else up r

/-- `strconv.appendEscapedRune` with `"` as quote; `enc` is the encoding of the rune in the source. (A rune decoded from a string is
always valid.) -/
def escapeRune (up : Nat → Bool) (r : Nat) (enc : Str) : Str :=
  if r = 34 ∨ r = 92 then [92, r]
  else if isPrint up r then enc
  else if r = 7 then b!"\\a"
  else if r = 8 then b!"\\b"
  else if r = 12 then b!"\\f"
  else if r = 10 then b!"\\n"
  else if r = 13 then b!"\\r"
  else if r = 9 then b!"\\t"
  else if r = 11 then b!"\\v"
  else if r < 32 ∨ r = 127 then b!"\\x" ++ hexDigits 2 r
  else if r < 0x10000 then b!"\\u" ++ hexDigits 4 r
  else b!"\\U" ++ hexDigits 8 r

/-- The loop of `strconv.appendQuotedWith`; the fuel is the number of bytes. -/
def quoteLoop (up : Nat → Bool) : Nat → Str → Str
  | 0, _ => []
  | _ + 1, [] => []
  | n + 1, b :: s =>
    let (r, w) := decodeRune (b :: s)
    (if w = 1 ∧ r = runeError then b!"\\x" ++ hexDigits 2 b else escapeRune up r ((b :: s).take w)) ++ quoteLoop up n ((b :: s).drop w)

/-- `strconv.Quote(s)`, and `fmt.Sprintf("%q", s)` for strings and byte slices. -/
def quote (up : Nat → Bool) (s : Str) : Str := [34] ++ quoteLoop up s.length s ++ [34]

/-! ### internal/errors/errors.go -/

/-- `unicode.IsLetter` below U+0100. -/
def isLetterLatin1 (r : Nat) : Bool :=
  (65 ≤ r && r ≤ 90) || (97 ≤ r && r ≤ 122) || r == 0xAA || r == 0xB5 || r == 0xBA || (0xC0 ≤ r && r ≤ 0xD6) || (0xD8 ≤ r && r ≤ 0xF6) ||
    (0xF8 ≤ r && r ≤ 0xFF)

/-- errors.go:46-67 `DescribeExpected`. -/
def describeExpected : List Str → Str
  | [] => b!"unexpected additional tokens"
  | [a] => b!"expected " ++ a
  | [a, b] => b!"expected either " ++ a ++ b!" or " ++ b
  | [a, b, c] => b!"expected one of " ++ a ++ b!", " ++ b ++ b!" or " ++ c
  | ts => b!"expected one of " ++ sjoin (b!", ") (ts.dropLast ++ [b!"or " ++ ts.getLastD []])

/-- errors.go:69-78 `DescribeToken`. -/
def describeToken (up : Nat → Bool) (t : Token) : Str :=
  if t.typ = 0 then b!"unknown/invalid token " ++ quote up t.lit
  else if t.typ = 1 then b!"end-of-file"
  else quote up t.lit

/-- errors.go:95-101: how an expected token is named: quoted unless its first byte, taken as a rune, is a letter. (No name is empty.) -/
def expectedName (up : Nat → Bool) (k : Nat) : Str :=
  let s := tokId k
  if isLetterLatin1 (s.headD 0) then s else quote up s

/-- errors.go:80-108 `(*Error).Error` for a syntax error: `Err` is nil, and the position has no context, because `NewLexer` sets none
(lexer.go:26-35). -/
def errorText (up : Nat → Bool) (t : Token) (x : List Nat) : Str :=
  decDigits t.line ++ b!":" ++ decDigits t.column ++ b!": error: " ++ describeExpected (x.map (expectedName up)) ++ b!"; got: " ++
    describeToken up t

/-- errors.go:25-44 `(*Error).String` for an error made by `newError(nil)` (no `ErrorSymbols`). -/
def errorString (t : Token) (x : List Nat) : Str :=
  b!"Error\nToken: type=" ++ decDigits t.typ ++ b!", lit=" ++ t.lit ++ b!"\nPos: offset=" ++ decDigits t.offset ++ b!", line=" ++
    decDigits t.line ++ b!", column=" ++ decDigits t.column ++ b!"\nExpected one of: " ++ x.flatMap (fun k => tokId k ++ b!" ") ++
    b!"ErrorSymbol:\n"

end Gographviz.Parse
