import Verif.Model.Lexer
import Verif.Model.ParseTables
import Verif.Model.Analyse
/-!
internal/parser/parser.go, productionstable.go, main.go, the constructors of ast/ast.go, and gographviz.go.
-/
namespace Gographviz.Parse

open Gographviz Gographviz.Lex Gographviz.Ast

/-- parser `Attrib` (an empty interface): the dynamic types that occur. `stmt` stands for the pointer and list types
`*NodeStmt`, `*EdgeStmt`, `NodeAttrs`, `EdgeAttrs`, `GraphAttrs`; `*SubGraph` and `*Attr` are separate because
they are also asserted to other interfaces. -/
inductive Attrib where
  | nil
  | tok (t : Token)
  | id (s : Str)
  | port (p : Port)
  | nodeId (n : NodeID)
  | stmt (s : Stmt)
  | sub (id : Str) (body : List Stmt)
  | attr (a : Attr)
  | alist (as : AList)
  | attrList (as : AttrList)
  | op (directed : Bool)
  | rhs (es : List EdgeRH)
  | stmts (ss : List Stmt)
  | graph (g : Ast.Graph)

/-- The type assertion `a.(Stmt)`: the seven statement types (ast.go:174-187). `none`: panic. -/
def asStmt : Attrib → Option Stmt
  | .stmt s => some s
  | .sub id body => some (.sub id body)
  | .attr a => some (.attr a)
  | _ => none

/-- The type assertion `a.(Location)`: `*NodeID` or `*SubGraph` (ast.go:471-483). -/
def asLoc : Attrib → Option Loc
  | .nodeId n => some (.node n)
  | .sub id body => some (.sub id body)
  | _ => none

/-- `a.(ID)`. -/
def asID : Attrib → Option Str
  | .id s => some s
  | _ => none

/-- `a.(StmtList)`. -/
def asStmts : Attrib → Option (List Stmt)
  | .stmts s => some s
  | _ => none

/-- `a.(AttrList)`. -/
def asAttrList : Attrib → Option AttrList
  | .attrList s => some s
  | _ => none

/-- `a.(AList)`. -/
def asAList : Attrib → Option AList
  | .alist s => some s
  | _ => none

/-- `a.(*Attr)`. -/
def asAttr : Attrib → Option Attr
  | .attr s => some s
  | _ => none

/-- `a.(EdgeOp)`. -/
def asOp : Attrib → Option Bool
  | .op s => some s
  | _ => none

/-- `a.(EdgeRHS)`. -/
def asRHS : Attrib → Option (List EdgeRH)
  | .rhs s => some s
  | _ => none

/-- `a.(*NodeID)`. -/
def asNodeId : Attrib → Option NodeID
  | .nodeId s => some s
  | _ => none

/-- `a.(Port)`. -/
def asPort : Attrib → Option Port
  | .port s => some s
  | _ => none

/-- `a.(*token.Token)`. -/
def asTok : Attrib → Option Token
  | .tok s => some s
  | _ => none

/-- `a == nil`. -/
def isNil : Attrib → Bool
  | .nil => true
  | _ => false

/-- An argument of an action: `X[i]` (index out of range: panic, `none`) or `nil`. -/
def arg (X : List Attrib) : Option Nat → Option Attrib
  | none => some .nil
  | some i => X[i]?

/-- The assertion is only made when the value is not nil: `if a != nil { x = a.(T) }`, with the default otherwise. -/
def orNil {α : Type} (a : Attrib) (dflt : α) (f : Attrib → Option α) : Option α :=
  if isNil a then some dflt else f a

/-- ast.go:196-202: whether `NewSubGraph` generates a name. -/
def drawsName : Attrib → Bool
  | .nil => true
  | .id [] => true
  | _ => false

/-- Result of a `ReduceFunc`: `none` is a panic (failed type assertion or index), `some (.error _)` a returned error,
`some (.ok a)` a value. -/
abbrev Red := Option (Except Unit Attrib)

/-- A successful result. -/
def okA (a : Attrib) : Red := some (.ok a)

/-- The bodies of the `ReduceFunc`s (productionstable.go), with the constructors of ast.go they call. `anon` is the name
that `NewSubGraph` would generate. -/
def evalAct (anon : Str) (X : List Attrib) : Act → Red
  | .x i => do okA (← arg X (some i))
  /- ast.go:608-613 -/
  | .op d => okA (.op d)
  /- ast.go:97-106 -/
  | .newGraph t st id l => do
    let id ← orNil (← arg X id) [] asID
    let l ← orNil (← arg X l) [] asStmts
    okA (.graph ⟨t, st, id, l⟩)
  /- ast.go:133-137 -/
  | .newStmtList s => do okA (.stmts [← asStmt (← arg X s)])
  /- ast.go:139-143 -/
  | .appendStmtList ss s => do
    let ss ← asStmts (← arg X ss)
    okA (.stmts (ss ++ [← asStmt (← arg X s)]))
  /- ast.go:441-452 -/
  | .newAttr f v => do
    let f ← asID (← arg X f)
    let v ← arg X v
    if isNil v then okA (.attr ⟨f, b!"true"⟩)
    else match asID v with
      | some v => okA (.attr ⟨f, v⟩)
      | none => some (.error ())
  /- ast.go:309-311, 281-283, 253-255 -/
  | .newGraphAttrs a => do okA (.stmt (.graphAttrs (← asAttrList (← arg X a))))
  | .newNodeAttrs a => do okA (.stmt (.nodeAttrs (← asAttrList (← arg X a))))
  | .newEdgeAttrs a => do okA (.stmt (.edgeAttrs (← asAttrList (← arg X a))))
  /- ast.go:337-343 -/
  | .newAttrList a => do
    let a ← arg X a
    if isNil a then okA (.attrList []) else okA (.attrList [← asAList a])
  /- ast.go:345-352 -/
  | .appendAttrList as a => do
    let as ← asAttrList (← arg X as)
    let a ← arg X a
    if isNil a then okA (.attrList as) else okA (.attrList (as ++ [← asAList a]))
  /- ast.go:405-409 -/
  | .newAList a => do okA (.alist [← asAttr (← arg X a)])
  /- ast.go:411-416 -/
  | .appendAList as a => do
    let as ← asAList (← arg X as)
    okA (.alist (as ++ [← asAttr (← arg X a)]))
  /- ast.go:491-503 -/
  | .newEdgeStmt id e as => do
    let as ← orNil (← arg X as) [] asAttrList
    okA (.stmt (.edge (← asLoc (← arg X id)) (← asRHS (← arg X e)) as))
  /- ast.go:525-527 -/
  | .newEdgeRHS op id => do okA (.rhs [.mk (← asOp (← arg X op)) (← asLoc (← arg X id))])
  /- ast.go:529-533 -/
  | .appendEdgeRHS e op id => do
    let e ← asRHS (← arg X e)
    okA (.rhs (e ++ [.mk (← asOp (← arg X op)) (← asLoc (← arg X id))]))
  /- ast.go:576-589 -/
  | .newNodeStmt id as => do
    let id ← asNodeId (← arg X id)
    let as ← orNil (← arg X as) [] asAttrList
    okA (.stmt (.node id as))
  /- ast.go:634-639 -/
  | .newNodeID id p => do
    let id ← asID (← arg X id)
    okA (.nodeId ⟨id, ← orNil (← arg X p) ⟨[], []⟩ asPort⟩)
  /- ast.go:680-689 -/
  | .newPort a b => do
    let a ← orNil (← arg X a) [] asID
    let b ← orNil (← arg X b) [] asID
    okA (.port ⟨a, b⟩)
  /- ast.go:194-207 -/
  | .newSubGraph id l => do
    let id ← arg X id
    if drawsName id then
      okA (.sub anon (← orNil (← arg X l) [] asStmts))
    else match asID id with
      | some s => okA (.sub s (← orNil (← arg X l) [] asStmts))
      | none => some (.error ())
  /- ast.go:713-719 -/
  | .newID a => do
    let a ← arg X a
    if isNil a then okA (.id []) else okA (.id (← asTok a).lit)

/-- Whether the action calls `randInt63` (ast.go:197). -/
def actDraws (X : List Attrib) : Act → Bool
  | .newSubGraph id _ => ((arg X id).map drawsName).getD false
  | _ => false

/-- ast.go:197: the generated name for the value `n` of the generator. -/
def anonName (n : Nat) : Str := b!"anon" ++ decDigits n

/-- parser.go:21-24, 90-95: the parser. The stack has its top first. `cnt` is the number of values drawn so far from the
package's random generator. -/
structure PState (σ : Type) where
  stack : List (Nat × Attrib)
  next : Token
  sc : σ
  cnt : Nat

/-- Outcome of parsing. -/
inductive PRes (α : Type) where
  /-- the result and the number of generator values used so far -/
  | ok (a : α) (cnt : Nat)
  /-- parser.go:167-180 `newError(nil)`: offending token and expected token types -/
  | syntaxErr (tok : Token) (expected : List Nat)
  /-- parser.go:207-208: an error of a `ReduceFunc` -/
  | reduceErr (tok : Token)
  | panic
  | diverge

/-- Outcome of one iteration. -/
inductive PStep (σ : Type) where
  | cont (st : PState σ)
  | stop (r : PRes Attrib)

variable {σ : Type}

/-- Lookup in an action row. -/
def rowAction (row : List (Nat × Action)) (t : Nat) : Option Action := (row.find? fun e => e.1 == t).map (·.2)

/-- parser.go:185-215: one iteration of the loop of `Parse`. `rnd n` is the `n`-th value of the generator. When there is no
action, lines 187-191 return an error: `Error` (lines 112-142) finds no recovery state, because `canRecover`
is false in every row, and `TokMap.Type("error")` is 0 (INVALID), for which no row has an action. -/
def step (scan : σ → Option (Token × σ)) (rnd : Nat → Nat) (st : PState σ) : PStep σ :=
  match st.stack with
  | [] => .stop .panic
  | (top, a) :: rest =>
    match actionTab[top]? with
    | none => .stop .panic
    | some row => match rowAction row st.next.typ with
      | none => .stop (.syntaxErr st.next (row.map (·.1)))
      | some .accept => .stop (.ok a st.cnt)
      | some (.shift s) => match scan st.sc with
        | none => .stop .panic
        | some (t, sc) => .cont { stack := (s, .tok st.next) :: (top, a) :: rest, next := t, sc := sc, cnt := st.cnt }
      | some (.reduce p) => match prodTab[p]?, prodActs[p]? with
        | some (nt, n), some act =>
          if st.stack.length < n then .stop .panic
          else
            let X := ((st.stack.take n).map (·.2)).reverse
            match evalAct (anonName (rnd st.cnt)) X act with
            | none => .stop .panic
            | some (.error _) => .stop (.reduceErr st.next)
            | some (.ok a) => match st.stack.drop n with
              | [] => .stop .panic
              | (s0, a0) :: rest0 => match gotoTab[s0]? with
                | none => .stop .panic
                | some grow => match grow[nt]? with
                  | some (some s') =>
                    .cont { st with stack := (s', a) :: (s0, a0) :: rest0,
                                    cnt := st.cnt + (if actDraws X act then 1 else 0) }
                  | _ => .stop .panic
        | _, _ => .stop .panic

/-- parser.go:185-217: the loop of `Parse`; the fuel bounds the number of iterations. (A state -1 pushed from an empty goto
entry, line 210, would make the next table access panic: `step` panics at once.) -/
def loop (scan : σ → Option (Token × σ)) (rnd : Nat → Nat) : Nat → PState σ → PRes Attrib
  | 0, _ => .diverge
  | n + 1, st => match step scan rnd st with
    | .stop r => r
    | .cont st' => loop scan rnd n st'

/-- parser.go:182-217 `Parse` with 107-110 `Reset`. -/
def parse (scan : σ → Option (Token × σ)) (rnd : Nat → Nat) (fuel cnt : Nat) (sc : σ) : PRes Attrib :=
  match scan sc with
  | none => .panic
  | some (t, sc) => loop scan rnd fuel { stack := [(0, .nil)], next := t, sc := sc, cnt := cnt }

/-- Enough iterations for an input of `n` bytes (proved in `Props/ParseProps.lean, `C34_no_bound``). -/
def fuelFor (n : Nat) : Nat := 40 * (n + 2)

/-- internal/parser/main.go:36-48 `ParseBytes` = gographviz.go:42-44 `Parse`, 47-49 `ParseString`. -/
def parseBytes (rnd : Nat → Nat) (cnt : Nat) (src : Str) : PRes Ast.Graph :=
  match parse scan rnd (fuelFor src.length) cnt (newLexer src) with
  | .ok (.graph g) n => .ok g n
  | .ok _ _ => .panic
  | .syntaxErr t e => .syntaxErr t e
  | .reduceErr t => .reduceErr t
  | .panic => .panic
  | .diverge => .diverge

/-- Outcome of `Read`. -/
inductive ReadRes where
  | ok (g : Gographviz.Graph)
  | parseErr
  | analyseErr (msg : Str)
  | panic
  | diverge

/-- gographviz.go:52-58 `Read`. -/
def read (rnd : Nat → Nat) (cnt : Nat) (src : Str) : ReadRes :=
  match parseBytes rnd cnt src with
  | .ok t _ => match newAnalysedGraph t with
    | .ok g => .ok g
    | .error m => .analyseErr m
  | .syntaxErr _ _ => .parseErr
  | .reduceErr _ => .parseErr
  | .panic => .panic
  | .diverge => .diverge

end Gographviz.Parse
