import Verif.Model.Parser
/-!
The scanner and the parser once more, with counters: how many characters the scanner decodes (each is one pass of its loop, with one look into each table), and how often
the parser goes through its loop (one shift or one reduction each). `Props/CostProps.lean` proves that the results are those without counters.
-/
namespace Gographviz.Parse

open Gographviz Gographviz.Lex

/-- internal/lexer/lexer.go:68-113: the loop of `Scan`, with the number of calls of `utf8.DecodeRune`. -/
def scanLoopC (src : Str) : Nat → ScanSt → Nat → Option (ScanSt × Nat)
  | 0, _, _ => none
  | n + 1, st, k =>
    if st.pos ≥ src.length then
      some (if st.typ = 0 then { st with end_ := st.pos } else st, k)
    else
      let (r, size) := decodeRune (src.drop st.pos)
      let pos := st.pos + size
      match transTab[st.state]? with
      | none => none
      | some row => match transRow row r with
        | none => some (if st.typ = 0 then { st with pos := pos, end_ := pos } else { st with pos := pos }, k + 1)
        | some s =>
          let (line, column) := advance r st.line st.column
          match actTab[s]? with
          | none => none
          | some (some t) => scanLoopC src n { st with state := s, pos, line, column, typ := t, end_ := pos } (k + 1)
          | some none =>
            scanLoopC src n { st with
              start := pos, startLine := line, startColumn := column, state := 0, pos, line, column
              typ := if pos ≥ src.length then 1 else st.typ } (k + 1)

/-- lexer.go:57-124 `Scan`; the counter goes on counting. -/
def scanC (x : Lexer × Nat) : Option (Token × (Lexer × Nat)) :=
  let l := x.1
  if l.pos ≥ l.src.length then some (⟨1, [], l.pos, l.line, l.column⟩, l, x.2)
  else
    match scanLoopC l.src (l.src.length - l.pos + 1)
        ⟨l.pos, l.line, l.column, 0, 0, 0, l.pos, l.line, l.column⟩ x.2 with
    | none => none
    | some (st, k) =>
      if st.end_ > st.start then
        some (⟨st.typ, (l.src.drop st.start).take (st.end_ - st.start), st.start, st.startLine, st.startColumn⟩,
              { l with pos := st.end_, line := st.line, column := st.column }, k)
      else
        some (⟨st.typ, [], st.start, st.startLine, st.startColumn⟩,
              { l with pos := st.pos, line := st.line, column := st.column }, k)

variable {σ : Type}

/-- internal/parser/parser.go:185-217: the loop of `Parse`, with the number of iterations, and the scanner as it is left. -/
def loopC (scan : σ → Option (Token × σ)) (rnd : Nat → Nat) : Nat → Nat → PState σ → PRes Attrib × Nat × σ
  | 0, i, st => (.diverge, i, st.sc)
  | n + 1, i, st => match step scan rnd st with
    | .stop r => (r, i + 1, st.sc)
    | .cont st' => loopC scan rnd n (i + 1) st'

/-- parser.go:182-217 `Parse` on a source text: the result, the iterations of the parser and the characters decoded. -/
def parseC (rnd : Nat → Nat) (fuel cnt : Nat) (src : Str) : PRes Attrib × Nat × Nat :=
  match scanC (newLexer src, 0) with
  | none => (.panic, 0, 0)
  | some (t, sc) => match loopC scanC rnd fuel 0 { stack := [(0, .nil)], next := t, sc := sc, cnt := cnt } with
    | (r, i, sc) => (r, i, sc.2)

end Gographviz.Parse
