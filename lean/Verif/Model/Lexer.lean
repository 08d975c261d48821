import Verif.Model.Base
import Verif.Model.LexTables
/-!
internal/lexer/lexer.go and internal/token/token.go: the scanner.
-/
namespace Gographviz.Lex

open Gographviz

/-- internal/token/token.go:12-28 `Token`; `typ` is the token type: 0 INVALID, 1 end of input, 2 `graph`, 3 `{`, 4 `}`,
5 `strict`, 6 `digraph`, 7 `;`, 8 `=`, 9 `node`, 10 `edge`, 11 `[`, 12 `]`, 13 `,`, 14 `:`, 15 `subgraph`, 16 `->`, 17 `--`, 18 identifier
(token.go:138-160). The context (file name) is not modelled. -/
structure Token where
  typ : Nat
  lit : Str
  offset : Nat
  line : Nat
  column : Nat
  deriving DecidableEq, Repr

/-- internal/lexer/lexer.go:18-24. -/
structure Lexer where
  src : Str
  pos : Nat
  line : Nat
  column : Nat
  deriving DecidableEq, Repr

/-- internal/lexer/lexer.go:26-35 `NewLexer`. -/
def newLexer (src : Str) : Lexer := ⟨src, 0, 1, 1⟩

/-- internal/lexer/transitiontable.go: the `switch` of a row: the first case whose range contains the rune. -/
def findCase (r : Nat) : List (Nat × Nat × Nat) → Option Nat
  | [] => none
  | (lo, hi, t) :: cs => if lo ≤ r ∧ r ≤ hi then some t else findCase r cs

/-- internal/lexer/transitiontable.go: the function of one row applied to a rune (`none` is `NoState`). -/
def transRow (row : List (Nat × Nat × Nat) × Option Nat) (r : Nat) : Option Nat :=
  match findCase r row.1 with
  | some t => some t
  | none => row.2

/-- lexer.go:83-93: the line and column after reading a rune. -/
def advance (r line column : Nat) : Nat × Nat :=
  if r = 10 then (line + 1, 1)
  else if r = 13 then (line, 1)
  else if r = 9 then (line, column + 4)
  else (line, column + 1)

/-- The local variables of `Scan` (lexer.go:65-67) with the mutable fields of the lexer. -/
structure ScanSt where
  start : Nat
  startLine : Nat
  startColumn : Nat
  end_ : Nat
  typ : Nat
  state : Nat
  pos : Nat
  line : Nat
  column : Nat
  deriving DecidableEq, Repr

/-- lexer.go:68-113: the loop of `Scan`; the result is the state on leaving the loop. `none` means an index out of the
table bounds (a run-time panic) or exhausted fuel; neither happens (`Props/LexProps.lean`). The fuel bounds the
number of iterations. -/
def scanLoop (src : Str) : Nat → ScanSt → Option ScanSt
  | 0, _ => none
  | n + 1, st =>
    if st.pos ≥ src.length then
      some (if st.typ = 0 then { st with end_ := st.pos } else st)
    else
      let (r, size) := decodeRune (src.drop st.pos)
      let pos := st.pos + size
      match transTab[st.state]? with
      | none => none
      | some row => match transRow row r with
        | none => some (if st.typ = 0 then { st with pos := pos, end_ := pos } else { st with pos := pos })
        | some s =>
          let (line, column) := advance r st.line st.column
          match actTab[s]? with
          | none => none
          | some (some t) => scanLoop src n { st with state := s, pos, line, column, typ := t, end_ := pos }
          | some none =>
            scanLoop src n { st with
              start := pos, startLine := line, startColumn := column, state := 0, pos, line, column
              typ := if pos ≥ src.length then 1 else st.typ }

/-- lexer.go:57-124 `Scan`. -/
def scan (l : Lexer) : Option (Token × Lexer) :=
  if l.pos ≥ l.src.length then some (⟨1, [], l.pos, l.line, l.column⟩, l)
  else
    match scanLoop l.src (l.src.length - l.pos + 1)
        ⟨l.pos, l.line, l.column, 0, 0, 0, l.pos, l.line, l.column⟩ with
    | none => none
    | some st =>
      if st.end_ > st.start then
        some (⟨st.typ, (l.src.drop st.start).take (st.end_ - st.start), st.start, st.startLine, st.startColumn⟩,
              { l with pos := st.end_, line := st.line, column := st.column })
      else
        some (⟨st.typ, [], st.start, st.startLine, st.startColumn⟩,
              { l with pos := st.pos, line := st.line, column := st.column })

/-- All tokens of a source text up to and including the first end-of-input token: what repeated calls of `Scan` return
(not a function of the code; used to state properties). The fuel bounds the number of calls. -/
def scanAll : Nat → Lexer → Option (List Token)
  | 0, _ => none
  | n + 1, l => match scan l with
    | none => none
    | some (t, l') => if t.typ = 1 then some [t] else (scanAll n l').map (t :: ·)

/-- The tokens of a source text (one call per byte and one for the end is enough, `Props/LexProps.lean`). -/
def tokens (src : Str) : Option (List Token) := scanAll (src.length + 1) (newLexer src)

end Gographviz.Lex
