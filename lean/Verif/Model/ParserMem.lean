import Verif.Model.Slices
import Verif.Model.Parser
import Verif.Model.Errors
/-!
The parser with its memory: the caller's buffer, which the tokens refer to; the two slices of the parser's stack, whose arrays are used again and again and of
which the `ReduceFunc`s get a part as argument; and the slices that the lists of the syntax tree are, which `append` extends in place where it can.
`Model/Parser.lean` has values instead. That both agree is proved in `Props/ParserMemProps.lean`.
-/
namespace Gographviz.ParseMem
open Gographviz Gographviz.Lex Gographviz.Ast Gographviz.Parse Gographviz.Slices

/-! ### Tokens -/

/-- internal/token/token.go:12-28 `Token`: `Lit` is the part `buf[lo:hi]` of the caller's buffer (lexer.go:115; an empty slice has `lo = hi`). -/
structure MTok where
  typ : Nat
  lo : Nat
  hi : Nat
  offset : Nat
  line : Nat
  column : Nat
  deriving DecidableEq, Repr

/-- internal/lexer/lexer.go:18-24 without `src`, which is the caller's buffer (line 28: no copy). -/
structure MLexer where
  pos : Nat
  line : Nat
  column : Nat
  deriving DecidableEq, Repr

/-- lexer.go:57-124 `Scan`. -/
def mscan (buf : Str) (l : MLexer) : Option (MTok × MLexer) :=
  if l.pos ≥ buf.length then some (⟨1, l.pos, l.pos, l.pos, l.line, l.column⟩, l)
  else match scanLoop buf (buf.length - l.pos + 1) ⟨l.pos, l.line, l.column, 0, 0, 0, l.pos, l.line, l.column⟩ with
    | none => none
    | some st =>
      if st.end_ > st.start then
        some (⟨st.typ, st.start, st.end_, st.start, st.startLine, st.startColumn⟩, ⟨st.end_, st.line, st.column⟩)
      else some (⟨st.typ, st.start, st.start, st.start, st.startLine, st.startColumn⟩, ⟨st.pos, st.line, st.column⟩)

/-- The bytes of a token, as they are in the buffer now. -/
def lit (buf : Str) (t : MTok) : Str := (buf.drop t.lo).take (t.hi - t.lo)

/-- What a token is, as long as the buffer is `buf`. -/
def seeTok (buf : Str) (t : MTok) : Token := ⟨t.typ, lit buf t, t.offset, t.line, t.column⟩

/-! ### The syntax tree -/

/-- ast.go:471-483 `Location`. Pointers to structs are modelled by the structs, which nobody changes after they are made. -/
inductive MLoc where
  | node (n : NodeID)
  | sub (id : Str) (body : Slice)

/-- ast.go:174-187 `Stmt`; the lists (`StmtList`, `AttrList`, `EdgeRHS`) are slices. -/
inductive MStmt where
  | node (n : NodeID) (attrs : Slice)
  | edge (src : MLoc) (rhs attrs : Slice)
  | nodeAttrs (attrs : Slice)
  | edgeAttrs (attrs : Slice)
  | graphAttrs (attrs : Slice)
  | sub (id : Str) (body : Slice)
  | attr (a : Attr)

/-- An element of one of the slices: `Stmt`, `*Attr`, `AList` (itself a slice), `*EdgeRH`. -/
inductive Cell where
  | stmt (s : MStmt)
  | attr (a : Attr)
  | alist (s : Slice)
  | rh (op : Bool) (dst : MLoc)

/-- All arrays behind the slices of syntax trees. -/
abbrev Heap := Mem Cell

/-- ast.go:90-95 `Graph`. -/
structure MGraph where
  type_ : Bool
  strict : Bool
  id : Str
  stmts : Slice

/-- The values on the parser's stack. -/
inductive MAttrib where
  | nil
  | tok (t : MTok)
  | id (s : Str)
  | port (p : Port)
  | nodeId (n : NodeID)
  | stmt (s : MStmt)
  | sub (id : Str) (body : Slice)
  | attr (a : Attr)
  | alist (as : Slice)
  | attrList (as : Slice)
  | op (directed : Bool)
  | rhs (es : Slice)
  | stmts (ss : Slice)
  | graph (g : MGraph)

/-- The nil slice. -/
def nilSlice : Slice := ⟨0, 0, 0⟩

/-- `make([]T, 1)` with its element set, and the composite literal `[]T{x}`. -/
def single (h : Heap) (c : Cell) : Heap × Slice := (h ++ [[some c]], ⟨h.length, 1, 1⟩)

/-- Type assertions, as in `Model/Parser.lean`. -/
def mStmt : MAttrib → Option MStmt
  | .stmt s => some s
  | .sub id body => some (.sub id body)
  | .attr a => some (.attr a)
  | _ => none
def mLoc : MAttrib → Option MLoc
  | .nodeId n => some (.node n)
  | .sub id body => some (.sub id body)
  | _ => none
def mID : MAttrib → Option Str
  | .id s => some s
  | _ => none
def mStmts : MAttrib → Option Slice
  | .stmts s => some s
  | _ => none
def mAttrList : MAttrib → Option Slice
  | .attrList s => some s
  | _ => none
def mAList : MAttrib → Option Slice
  | .alist s => some s
  | _ => none
def mAttr : MAttrib → Option Attr
  | .attr a => some a
  | _ => none
def mOp : MAttrib → Option Bool
  | .op d => some d
  | _ => none
def mRHS : MAttrib → Option Slice
  | .rhs s => some s
  | _ => none
def mNodeId : MAttrib → Option NodeID
  | .nodeId n => some n
  | _ => none
def mPort : MAttrib → Option Port
  | .port p => some p
  | _ => none
def mTok : MAttrib → Option MTok
  | .tok t => some t
  | _ => none
def mIsNil : MAttrib → Bool
  | .nil => true
  | _ => false

/-- `X[i]`, or nil. -/
def marg (X : List MAttrib) : Option Nat → Option MAttrib
  | none => some .nil
  | some i => X[i]?

/-- `if a != nil { x = a.(T) }`. -/
def mOrNil {α : Type} (a : MAttrib) (dflt : α) (f : MAttrib → Option α) : Option α := if mIsNil a then some dflt else f a

/-- ast.go:196-202. -/
def mDrawsName : MAttrib → Bool
  | .nil => true
  | .id [] => true
  | _ => false

/-- Result of a `ReduceFunc` with the arrays afterwards. -/
abbrev MRed := Option (Except Unit (MAttrib × Heap))

/-- A successful result. -/
def okM (a : MAttrib) (h : Heap) : MRed := some (.ok (a, h))

/-- ast.go:494-499, 579-584: `attrs.(AttrList)`, or `NewAttrList(nil)`, an empty slice made by line 338. -/
def attrsOr (h : Heap) (a : MAttrib) : Option (Slice × Heap) :=
  if mIsNil a then let (h, s) := make h; some (s, h) else (mAttrList a).map fun s => (s, h)

/-- The bodies of the `ReduceFunc`s (productionstable.go:20-622), with the constructors of ast.go they call. -/
def evalActM (grow : Growth) (buf anon : Str) (h : Heap) (X : List MAttrib) : Act → MRed
  | .x i => do okM (← marg X (some i)) h
  | .op d => okM (.op d) h
  /- ast.go:97-106 -/
  | .newGraph t st id l => do
    let id ← mOrNil (← marg X id) [] mID
    let l ← mOrNil (← marg X l) nilSlice mStmts
    okM (.graph ⟨t, st, id, l⟩) h
  /- ast.go:133-137 -/
  | .newStmtList s => do
    let (h, r) := single h (.stmt (← mStmt (← marg X s)))
    okM (.stmts r) h
  /- ast.go:139-143 -/
  | .appendStmtList ss s => do
    let ss ← mStmts (← marg X ss)
    let (h, r) := append grow h ss [some (.stmt (← mStmt (← marg X s)))]
    okM (.stmts r) h
  /- ast.go:441-452 -/
  | .newAttr f v => do
    let f ← mID (← marg X f)
    let v ← marg X v
    if mIsNil v then okM (.attr ⟨f, b!"true"⟩) h
    else match mID v with
      | some v => okM (.attr ⟨f, v⟩) h
      | none => some (.error ())
  /- ast.go:309-311, 281-283, 253-255 -/
  | .newGraphAttrs a => do okM (.stmt (.graphAttrs (← mAttrList (← marg X a)))) h
  | .newNodeAttrs a => do okM (.stmt (.nodeAttrs (← mAttrList (← marg X a)))) h
  | .newEdgeAttrs a => do okM (.stmt (.edgeAttrs (← mAttrList (← marg X a)))) h
  /- ast.go:337-343 -/
  | .newAttrList a => do
    let a ← marg X a
    let (h, as) := make h
    if mIsNil a then okM (.attrList as) h
    else
      let (h, r) := append grow h as [some (.alist (← mAList a))]
      okM (.attrList r) h
  /- ast.go:345-352 -/
  | .appendAttrList as a => do
    let as ← mAttrList (← marg X as)
    let a ← marg X a
    if mIsNil a then okM (.attrList as) h
    else
      let (h, r) := append grow h as [some (.alist (← mAList a))]
      okM (.attrList r) h
  /- ast.go:405-409 -/
  | .newAList a => do
    let (h, r) := single h (.attr (← mAttr (← marg X a)))
    okM (.alist r) h
  /- ast.go:411-416 -/
  | .appendAList as a => do
    let as ← mAList (← marg X as)
    let (h, r) := append grow h as [some (.attr (← mAttr (← marg X a)))]
    okM (.alist r) h
  /- ast.go:491-503 -/
  | .newEdgeStmt id e as => do
    let (as, h) ← attrsOr h (← marg X as)
    okM (.stmt (.edge (← mLoc (← marg X id)) (← mRHS (← marg X e)) as)) h
  /- ast.go:525-527 -/
  | .newEdgeRHS op id => do
    let (h, r) := single h (.rh (← mOp (← marg X op)) (← mLoc (← marg X id)))
    okM (.rhs r) h
  /- ast.go:529-533 -/
  | .appendEdgeRHS e op id => do
    let e ← mRHS (← marg X e)
    let (h, r) := append grow h e [some (.rh (← mOp (← marg X op)) (← mLoc (← marg X id)))]
    okM (.rhs r) h
  /- ast.go:576-589 -/
  | .newNodeStmt id as => do
    let id ← mNodeId (← marg X id)
    let (as, h) ← attrsOr h (← marg X as)
    okM (.stmt (.node id as)) h
  /- ast.go:634-639 -/
  | .newNodeID id p => do
    let id ← mID (← marg X id)
    okM (.nodeId ⟨id, ← mOrNil (← marg X p) ⟨[], []⟩ mPort⟩) h
  /- ast.go:680-689 -/
  | .newPort a b => do
    let a ← mOrNil (← marg X a) [] mID
    let b ← mOrNil (← marg X b) [] mID
    okM (.port ⟨a, b⟩) h
  /- ast.go:194-207 -/
  | .newSubGraph id l => do
    let id ← marg X id
    if mDrawsName id then okM (.sub anon (← mOrNil (← marg X l) nilSlice mStmts)) h
    else match mID id with
      | some s => okM (.sub s (← mOrNil (← marg X l) nilSlice mStmts)) h
      | none => some (.error ())
  /- ast.go:713-719: `string(...)` copies the bytes -/
  | .newID a => do
    let a ← marg X a
    if mIsNil a then okM (.id []) h else okM (.id (lit buf (← mTok a))) h

/-- Whether the action calls `randInt63` (ast.go:197). -/
def mActDraws (X : List MAttrib) : Act → Bool
  | .newSubGraph id _ => ((marg X id).map mDrawsName).getD false
  | _ => false

/-! ### The stack -/

/-- parser.go:21-24 `stack`. -/
structure MStack where
  smem : Mem Nat
  states : Slice
  amem : Mem MAttrib
  attribs : Slice

/-- parser.go:28-33 `newStack`: capacity 100. -/
def newStack : MStack := ⟨[List.replicate 100 none], ⟨0, 0, 100⟩, [List.replicate 100 none], ⟨0, 0, 100⟩⟩

/-- parser.go:35-38 `reset`. -/
def MStack.reset (s : MStack) : MStack := { s with states := s.states.upto 0, attribs := s.attribs.upto 0 }

/-- parser.go:40-43 `push`. -/
def MStack.push (grow : Growth) (s : MStack) (state : Nat) (a : MAttrib) : MStack :=
  let (sm, st) := append grow s.smem s.states [some state]
  let (am, at_) := append grow s.amem s.attribs [some a]
  ⟨sm, st, am, at_⟩

/-- parser.go:45-47 `top`. `none`: panic. -/
def MStack.top (s : MStack) : Option Nat := if s.states.len = 0 then none else cell s.smem s.states (s.states.len - 1)

/-- parser.go:57-66 `popN`: the upper part of the array of attributes, which stays where it is, and the shortened stack. `none`: panic. -/
def MStack.popN (s : MStack) (n : Nat) : Option (List MAttrib × MStack) :=
  if s.states.len < n then none
  else
    let lo := s.states.len - n
    let X := ((((s.amem[s.attribs.arr]?).getD []).take s.states.len).drop lo).map (·.getD .nil)
    some (X, { s with states := s.states.upto lo, attribs := s.attribs.upto lo })

/-! ### The loop -/

/-- parser.go:90-95 `Parser`, with the lexer, the arrays of the tree and the number of generator values used. -/
structure MState where
  stack : MStack
  next : MTok
  lex : MLexer
  heap : Heap
  cnt : Nat

/-- Outcome of parsing. -/
inductive MRes where
  | ok (a : MAttrib) (h : Heap) (cnt : Nat)
  | syntaxErr (tok : MTok) (expected : List Nat)
  | reduceErr (tok : MTok)
  | panic
  | diverge

/-- Outcome of one iteration. -/
inductive MStep where
  | cont (st : MState)
  | stop (r : MRes)

/-- parser.go:185-215: one iteration of the loop of `Parse`, without the error recovery, which never happens (C52). -/
def stepM (grow : Growth) (buf : Str) (rnd : Nat → Nat) (st : MState) : MStep :=
  match st.stack.top with
  | none => .stop .panic
  | some top => match actionTab[top]? with
    | none => .stop .panic
    | some row => match rowAction row st.next.typ with
      | none => .stop (.syntaxErr st.next (row.map (·.1)))
      | some .accept => match st.stack.popN 1 with
        | some (a :: _, _) => .stop (.ok a st.heap st.cnt)
        | _ => .stop .panic
      | some (.shift s) => match mscan buf st.lex with
        | none => .stop .panic
        | some (t, l) => .cont { st with stack := st.stack.push grow s (.tok st.next), next := t, lex := l }
      | some (.reduce p) => match prodTab[p]?, prodActs[p]? with
        | some (nt, n), some act => match st.stack.popN n with
          | none => .stop .panic
          | some (X, stk) => match evalActM grow buf (anonName (rnd st.cnt)) st.heap X act with
            | none => .stop .panic
            | some (.error _) => .stop (.reduceErr st.next)
            | some (.ok (a, h)) => match stk.top with
              | none => .stop .panic
              | some s0 => match gotoTab[s0]? with
                | none => .stop .panic
                | some grow' => match grow'[nt]? with
                  | some (some s') => .cont { st with stack := stk.push grow s' a, heap := h,
                                                      cnt := st.cnt + (if mActDraws X act then 1 else 0) }
                  | _ => .stop .panic
        | _, _ => .stop .panic

/-- parser.go:185-217: the loop of `Parse`. -/
def loopM (grow : Growth) (buf : Str) (rnd : Nat → Nat) : Nat → MState → MRes
  | 0, _ => .diverge
  | n + 1, st => match stepM grow buf rnd st with
    | .stop r => r
    | .cont st' => loopM grow buf rnd n st'

/-- parser.go:107-110 `Reset`, 182-217 `Parse`, with a parser whose stack is `stk` and arrays `h` of trees made before. -/
def parseM (grow : Growth) (buf : Str) (rnd : Nat → Nat) (fuel cnt : Nat) (stk : MStack) (h : Heap) : MRes :=
  match mscan buf ⟨0, 1, 1⟩ with
  | none => .panic
  | some (t, l) => loopM grow buf rnd fuel { stack := stk.reset.push grow 0 .nil, next := t, lex := l, heap := h, cnt := cnt }

/-- internal/parser/main.go:36-48 `ParseBytes` with 101-105 `NewParser` of parser.go. -/
def parseBytesM (grow : Growth) (rnd : Nat → Nat) (cnt : Nat) (h : Heap) (buf : Str) : MRes :=
  match parseM grow buf rnd (fuelFor buf.length) cnt newStack h with
  | .ok (.graph g) h n => .ok (.graph g) h n
  | .ok _ _ _ => .panic
  | r => r

/-! ### Looking at a tree -/

/-- All or nothing. -/
def each {α β : Type} (f : α → Option β) : List α → Option (List β)
  | [] => some []
  | x :: xs => match f x, each f xs with
    | some y, some ys => some (y :: ys)
    | _, _ => none

/-- The elements of a slice. -/
def look (h : Heap) (s : Slice) : Option (List Cell) := if (view h s).length = s.len then each id (view h s) else none

/-- The attribute of a cell. -/
def cellAttr : Cell → Option Attr
  | .attr a => some a
  | _ => none

/-- An `AList`. -/
def seeAList (h : Heap) (s : Slice) : Option AList := (look h s).bind (each cellAttr)

/-- The `AList` of a cell. -/
def cellAList (h : Heap) : Cell → Option AList
  | .alist s => seeAList h s
  | _ => none

/-- An `AttrList`. -/
def seeAttrList (h : Heap) (s : Slice) : Option AttrList := (look h s).bind (each (cellAList h))

/-- A location; `f` looks at the statement list of a subgraph. -/
def seeLoc (f : Slice → Option (List Stmt)) : MLoc → Option Loc
  | .node n => some (.node n)
  | .sub id body => (f body).map (.sub id)

/-- The edge end of a cell. -/
def cellRH (f : Slice → Option (List Stmt)) : Cell → Option EdgeRH
  | .rh op dst => (seeLoc f dst).map (.mk op)
  | _ => none

/-- An `EdgeRHS`. -/
def seeRHS (h : Heap) (f : Slice → Option (List Stmt)) (s : Slice) : Option (List EdgeRH) := (look h s).bind (each (cellRH f))

/-- A statement. -/
def seeStmt (h : Heap) (f : Slice → Option (List Stmt)) : MStmt → Option Stmt
  | .node n as => (seeAttrList h as).map (.node n)
  | .edge src rhs as => match seeLoc f src, seeRHS h f rhs, seeAttrList h as with
    | some l, some r, some a => some (.edge l r a)
    | _, _, _ => none
  | .nodeAttrs as => (seeAttrList h as).map .nodeAttrs
  | .edgeAttrs as => (seeAttrList h as).map .edgeAttrs
  | .graphAttrs as => (seeAttrList h as).map .graphAttrs
  | .sub id body => (f body).map (.sub id)
  | .attr a => some (.attr a)

/-- The statement of a cell. -/
def cellStmt (h : Heap) (f : Slice → Option (List Stmt)) : Cell → Option Stmt
  | .stmt s => seeStmt h f s
  | _ => none

/-- A statement list, with at most `n` levels of subgraphs: what one sees when one follows the pointers from the slice `s`. -/
def seeStmts (h : Heap) : Nat → Slice → Option (List Stmt)
  | 0, _ => none
  | n + 1, s => (look h s).bind (each (cellStmt h (seeStmts h n)))

/-- A syntax tree with at most `n` levels. -/
def seeGraph (h : Heap) (n : Nat) (g : MGraph) : Option Ast.Graph := (seeStmts h n g.stmts).map fun ss => ⟨g.type_, g.strict, g.id, ss⟩

/-! ### The message of a syntax error -/

/-- internal/errors/errors.go:80-108 `(*Error).Error`: it reads the literal of the token (`ErrorToken`, parser.go:168-180), which is a part of the caller's buffer,
when it is called; `buf` is what the buffer contains then. -/
def errorTextM (up : Nat → Bool) (buf : Str) (t : MTok) (x : List Nat) : Str := errorText up (seeTok buf t) x

end Gographviz.ParseMem
