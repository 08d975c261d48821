import Verif.Model.Parser
/-!
Concurrent use of the package: any number of goroutines, each in a call of `Parse`. The only package-level variables that are written
after initialisation are the generator `r` of ast/ast.go:30 and its lock `randLock` (line 31); the tables of the lexer and the parser,
`token.TokMap` (internal/token/token.go) and `validAttrs` (attr.go:385) are only read, and everything else a call of `Parse` touches is allocated by that call. So a goroutine
is modelled by its own parser state, and the shared memory by the lock and the position of the generator.

Simplification: memory is sequentially consistent. `r.Int63()` is modelled as a read of the generator's state followed by a
write, two separate atomic steps, so without the lock two goroutines could draw the same value.
-/
namespace Gographviz.Conc

open Gographviz Gographviz.Lex Gographviz.Parse

/-- Whether the next iteration of the parser (parser.go:185-215) is a reduction whose action calls `randInt63` (ast.go:197, 209). -/
def drawsNext (st : PState Lexer) : Bool :=
  match st.stack with
  | [] => false
  | (top, _) :: _ => match (actionTab[top]?).bind (rowAction · st.next.typ) with
    | some (.reduce p) => match prodTab[p]?, prodActs[p]? with
      | some (_, n), some act =>
        if st.stack.length < n then false else actDraws ((st.stack.take n).map (·.2)).reverse act
      | _, _ => false
    | _ => false

/-- internal/parser/main.go:36-48, the last lines: what `ParseBytes` makes of the result of the parser. -/
def finish : PRes Attrib → PRes Ast.Graph
  | .ok (.graph g) n => .ok g n
  | .ok _ _ => .panic
  | .syntaxErr t e => .syntaxErr t e
  | .reduceErr t => .reduceErr t
  | .panic => .panic
  | .diverge => .diverge

/-- Where a goroutine is. `st` is its own parser; `st.cnt` is the number of values it has drawn itself. -/
inductive Proc where
  /-- before `Parse` -/
  | fresh (src : Str)
  /-- at the head of the loop of `Parse` (parser.go:185) -/
  | run (st : PState Lexer)
  /-- about to execute `randLock.Lock()` (ast.go:210) -/
  | atLock (st : PState Lexer)
  /-- about to execute `r.Int63()` (ast.go:211) -/
  | locked (st : PState Lexer)
  /-- inside `r.Int63()`: the generator's state has been read -/
  | loaded (st : PState Lexer) (p : Nat)
  /-- about to execute `randLock.Unlock()` (ast.go:212); the result is value number `p` of the generator -/
  | stored (st : PState Lexer) (p : Nat)
  /-- `randInt63` has returned (ast.go:213) -/
  | drawn (st : PState Lexer) (p : Nat)
  /-- `Parse` has returned -/
  | done (r : PRes Ast.Graph)

/-- The goroutines, indexed by `ι`, and the shared memory. -/
structure World (ι : Type) where
  procs : ι → Proc
  /-- `randLock`: the goroutine that holds it -/
  lock : Option ι
  /-- the state of `r`: the number of values drawn so far by everybody -/
  pos : Nat

variable {ι : Type} [DecidableEq ι]

/-- Goroutine `i` moves to `p`. -/
def World.set (w : World ι) (i : ι) (p : Proc) : World ι := { w with procs := fun j => if j = i then p else w.procs j }

/-- What a goroutine does after an iteration of the parser's loop. -/
def after : PStep Lexer → Proc
  | .cont st => .run st
  | .stop r => .done (finish r)

/-- internal/parser/parser.go:182-184: the start of `Parse`: reset the stack, scan the first token. -/
def start (src : Str) : Proc :=
  match scan (newLexer src) with
  | none => .done .panic
  | some (t, sc) => .run { stack := [(0, .nil)], next := t, sc := sc, cnt := 0 }

/-- One atomic step of goroutine `i`. The label is the position of the generator's sequence that the step draws, if any. `gen p` is
value number `p` of the generator. A goroutine at `Lock` can only move when the lock is free. -/
inductive Step (gen : Nat → Nat) (i : ι) : World ι → Option Nat → World ι → Prop where
  /- internal/parser/main.go:36-48, parser.go:182-184 -/
  | start {w : World ι} {src : Str} : w.procs i = .fresh src → Step gen i w none (w.set i (start src))
  /- parser.go:185-215, an iteration that does not call `randInt63`; the value given to `step` is not used -/
  | iter {w : World ι} {st : PState Lexer} : w.procs i = .run st → drawsNext st = false →
      Step gen i w none (w.set i (after (step scan (fun _ => 0) st)))
  /- ast.go:197 -/
  | call {w : World ι} {st : PState Lexer} : w.procs i = .run st → drawsNext st = true → Step gen i w none (w.set i (.atLock st))
  /- ast.go:210 -/
  | lock {w : World ι} {st : PState Lexer} : w.procs i = .atLock st → w.lock = none →
      Step gen i w none { w.set i (.locked st) with lock := some i }
  /- ast.go:211 -/
  | load {w : World ι} {st : PState Lexer} : w.procs i = .locked st → Step gen i w none (w.set i (.loaded st w.pos))
  /- ast.go:211 -/
  | store {w : World ι} {st : PState Lexer} {p : Nat} : w.procs i = .loaded st p →
      Step gen i w (some p) { w.set i (.stored st p) with pos := p + 1 }
  /- ast.go:212 -/
  | unlock {w : World ι} {st : PState Lexer} {p : Nat} : w.procs i = .stored st p →
      Step gen i w none { w.set i (.drawn st p) with lock := none }
  /- ast.go:197, 213, parser.go:204-211: the rest of the iteration -/
  | use {w : World ι} {st : PState Lexer} {p : Nat} : w.procs i = .drawn st p →
      Step gen i w none (w.set i (after (step scan (fun _ => gen p) st)))

/-- A schedule: who moved, and what was drawn; in order. -/
abbrev Schedule (ι : Type) := List (ι × Option Nat)

/-- Goroutine `i` is to parse `srcs i`; `pos0` values have been drawn before. -/
def World.init (srcs : ι → Str) (pos0 : Nat) : World ι := ⟨fun i => .fresh (srcs i), none, pos0⟩

/-- The worlds that can be reached, with the schedule that led there. -/
inductive Reach (gen : Nat → Nat) (srcs : ι → Str) (pos0 : Nat) : Schedule ι → World ι → Prop where
  | init : Reach gen srcs pos0 [] (World.init srcs pos0)
  | step {tr : Schedule ι} {w w' : World ι} {i : ι} {e : Option Nat} : Reach gen srcs pos0 tr w → Step gen i w e w' →
      Reach gen srcs pos0 (tr ++ [(i, e)]) w'

end Gographviz.Conc
