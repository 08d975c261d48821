import Verif.Model.WriteMem
/-!
The methods that build and change graphs, with all accesses to memory, and scripts of calls for goroutines. (`Model/Heap.lean` has the same
methods as functions on a memory that nobody else uses.) The variable with the registered attribute names (attr.go), which is never changed, is not part of
the memory.
-/
namespace Gographviz.Threads

open Gographviz Gographviz.Heap

/-- Reading a map of the caller. -/
def getArg (r : Nat) : Prog (Map Str) := .read (.arg r) fun
  | some (.arg m) => .ret (.ok m)
  | _ => .ret .panic

/-- An assignment to a field of the graph or to an entry of one of its containers: the graph is loaded and stored again. -/
def modGraph (i : Nat) (f : HGraph → HGraph) : Prog Unit := do
  let g ← getGraph i
  store (.graph i) (.graph (f g))

/-- graph.go:35-46 `NewGraph`. -/
def newGraphM : Prog Nat := do
  let a ← new (.map [])
  new (.graph ⟨a, [], false, false, [], [], [], [], [], [], newRelations⟩)

/-- attrs.go:36-47 `Attrs.Add` and `add`, on the map at `a`. -/
def addM (a : Nat) (field value : Str) : Prog (Option Err) :=
  match newAttr field with
  | .error e => .pure (some e)
  | .ok k => do
    mapSet a k value
    .pure none

/-- attrs.go:27-31: the loop of `NewAttrs` over the argument at `r`. -/
def newAttrsLoopM (a r : Nat) : List Str → Prog (Option Err)
  | [] => .pure none
  | k :: ks => do
    let m ← getArg r
    let e ← addM a k (mgetS m k)
    match e with
    | some e => .pure (some e)
    | none => newAttrsLoopM a r ks

/-- attrs.go:25-33 `NewAttrs`; the argument is nil or the map at an address. -/
def newAttrsM (arg : Option Nat) : Prog (Except Err Nat) := do
  let a ← new (.map [])
  match arg with
  | none => .pure (.ok a)
  | some r =>
    let m ← getArg r
    let ks ← rangeOf (mkeys m)
    let e ← newAttrsLoopM a r ks
    match e with
    | some e => .pure (.error e)
    | none => .pure (.ok a)

/-- nodes.go:56-64 `Nodes.Add` of the object at `p`, with attrs.go:50-54 `Extend`. -/
def nodesAddM (i p : Nat) : Prog Unit := do
  let o ← getNode p
  let g ← getGraph i
  match mget g.lookup o.name with
  | some q =>
    let n ← getNode q
    copyInto n.attrs o.attrs
  | none =>
    modGraph i fun g => { g with lookup := mset g.lookup o.name p }
    modGraph i fun g => { g with list := g.list ++ [p] }

/-- edges.go:44-62 `Edges.Add` of the object at `p`. -/
def edgesAddM (i p : Nat) : Prog Unit := do
  let e ← getEdge p
  modGraph i fun g => { g with srcToDsts := edgeIndexAdd g.srcToDsts e.src e.dst p }
  modGraph i fun g => { g with dstToSrcs := edgeIndexAdd g.dstToSrcs e.dst e.src p }
  modGraph i fun g => { g with edges := g.edges ++ [p] }

/-- graph.go:71-78 `AddPortEdge`. -/
def addPortEdgeM (i : Nat) (src srcPort dst dstPort : Str) (directed : Bool) (arg : Option Nat) : Prog (Option Err) := do
  let r ← newAttrsM arg
  match r with
  | .error e => .pure (some e)
  | .ok a =>
    let p ← new (.edge ⟨src, srcPort, dst, dstPort, directed, a⟩)
    edgesAddM i p
    .pure none

/-- graph.go:90-98 `AddNode`. -/
def addNodeM (i : Nat) (parent name : Str) (arg : Option Nat) : Prog (Option Err) := do
  let r ← newAttrsM arg
  match r with
  | .error e => .pure (some e)
  | .ok a =>
    let p ← new (.node ⟨name, a⟩)
    nodesAddM i p
    modGraph i fun g => { g with relations := g.relations.add parent name }
    .pure none

/-- A set of edges that is not yet part of a graph. -/
structure EdgeSet where
  srcToDsts : Map (Map (List Nat))
  dstToSrcs : Map (Map (List Nat))
  edges : List Nat

/-- edges.go:44-62 `Edges.Add` on it. -/
def EdgeSet.add (s : EdgeSet) (e : EdgeObj) (p : Nat) : EdgeSet :=
  ⟨edgeIndexAdd s.srcToDsts e.src e.dst p, edgeIndexAdd s.dstToSrcs e.dst e.src p, s.edges ++ [p]⟩

/-- graph.go:110-116, 168-174: the loop over the old edges. -/
def rebuildLoopM (keep : EdgeObj → Bool) (acc : EdgeSet) : List Nat → Prog EdgeSet
  | [] => .pure acc
  | p :: ps => do
    let e ← getEdge p
    rebuildLoopM keep (if keep e then acc.add e p else acc) ps

/-- graph.go:109-118 and 167-176: a new set of edges, filled with the objects that are kept. -/
def edgesRebuildM (i : Nat) (keep : EdgeObj → Bool) : Prog Unit := do
  let g ← getGraph i
  let es ← rebuildLoopM keep ⟨[], [], []⟩ g.edges
  modGraph i fun g => { g with srcToDsts := es.srcToDsts, dstToSrcs := es.dstToSrcs, edges := es.edges }

/-- nodes.go:41-50: the search loop of `Remove`. -/
def removeLoopM (name : Str) : List Nat → Prog (Option (List Nat))
  | [] => .pure none
  | p :: ps => do
    let o ← getNode p
    if o.name = name then .pure (some ps)
    else do
      let r ← removeLoopM name ps
      .pure (r.map (p :: ·))

/-- graph.go:101-121 `RemoveNode`, with nodes.go:40-53 `Nodes.Remove`. -/
def removeNodeM (i : Nat) (parent name : Str) : Prog (Option Err) := do
  let g ← getGraph i
  let r ← removeLoopM name g.list
  match r with
  | none => .pure (some (.nodeNotFound name))
  | some l =>
    modGraph i fun g => { g with list := l }
    modGraph i fun g => { g with lookup := mdel g.lookup name }
    modGraph i fun g => { g with relations := g.relations.remove parent name }
    edgesRebuildM i fun e => !(decide (e.dst = name) || decide (e.src = name))
    .pure none

/-- graph.go:123-141 `AddAttr` with `getAttrs`. -/
def addAttrM (i : Nat) (parent field value : Str) : Prog (Option Err) := do
  let g ← getGraph i
  if g.name = parent then addM g.attrs field value
  else match mget g.subGraphs parent with
    | none => .pure (some (.noSuchGraph parent))
    | some p =>
      let s ← getSub p
      addM s.attrs field value

/-- graph.go:147-151: the loop of `AddSubGraph` over the argument at `r`. -/
def addAttrsM (i : Nat) (name : Str) (r : Nat) : List Str → Prog (Option Err)
  | [] => .pure none
  | k :: ks => do
    let m ← getArg r
    let e ← addAttrM i name k (mgetS m k)
    match e with
    | some e => .pure (some e)
    | none => addAttrsM i name r ks

/-- subgraphs.go:46-50 `SubGraphs.Add` with subgraphs.go:28-33 `NewSubGraph`. -/
def subsAddM (i : Nat) (name : Str) : Prog Unit := do
  let g ← getGraph i
  if mhas g.subGraphs name then .pure ()
  else do
    let a ← new (.map [])
    let p ← new (.sub ⟨a, name⟩)
    modGraph i fun g => { g with subGraphs := mset g.subGraphs name p }

/-- graph.go:144-153 `AddSubGraph`. -/
def addSubGraphM (i : Nat) (parent name : Str) (arg : Option Nat) : Prog (Option Err) := do
  modGraph i fun g => { g with relations := g.relations.add parent name }
  subsAddM i name
  match arg with
  | none => .pure none
  | some r =>
    let m ← getArg r
    let ks ← rangeOf (mkeys m)
    addAttrsM i name r ks

/-- graph.go:157-162. -/
def removeNodesM (i : Nat) (parent : Str) : List Str → Prog (Option Err)
  | [] => .pure none
  | c :: cs => do
    let e ← removeNodeM i parent c
    match e with
    | some e => .pure (some e)
    | none => removeNodesM i parent cs

/-- graph.go:156-179 `RemoveSubGraph`. (The `range` is over the children the subgraph has at the beginning, as in `Model/Heap.lean`.) -/
def removeSubGraphM (i : Nat) (parent name : Str) : Prog (Option Err) := do
  let g ← getGraph i
  let ks ← rangeOf (mkeys (g.relations.children name))
  let e ← removeNodesM i parent ks
  match e with
  | some e => .pure (some e)
  | none =>
    modGraph i fun g => { g with relations := g.relations.remove parent name }
    modGraph i fun g => { g with subGraphs := mdel g.subGraphs name }
    edgesRebuildM i fun e => !(decide (e.dst = name) || decide (e.dstPort = name) || decide (e.src = name) || decide (e.srcPort = name))
    .pure none

/-- The calls that change a graph; an argument map is nil or a map of the caller. -/
inductive Change where
  | setStrict (b : Bool)
  | setDir (b : Bool)
  | setName (n : Str)
  | addPortEdge (src srcPort dst dstPort : Str) (directed : Bool) (arg : Option Nat)
  | addEdge (src dst : Str) (directed : Bool) (arg : Option Nat)
  | addNode (parent name : Str) (arg : Option Nat)
  | addAttr (parent field value : Str)
  | addSubGraph (parent name : Str) (arg : Option Nat)
  | removeNode (parent name : Str)
  | removeSubGraph (parent name : Str)
  deriving Repr

/-- The call on the graph at an address: graph.go:51-179. -/
def Change.prog (i : Nat) : Change → Prog (Option Err)
  | .setStrict b => do
    modGraph i fun g => { g with strict := b }
    .pure none
  | .setDir b => do
    modGraph i fun g => { g with directed := b }
    .pure none
  | .setName n => do
    modGraph i fun g => { g with name := n }
    .pure none
  | .addPortEdge s sp d dp dir arg => addPortEdgeM i s sp d dp dir arg
  | .addEdge s d dir arg => addPortEdgeM i s [] d [] dir arg
  | .addNode p n arg => addNodeM i p n arg
  | .addAttr p f v => addAttrM i p f v
  | .addSubGraph p n arg => addSubGraphM i p n arg
  | .removeNode p n => removeNodeM i p n
  | .removeSubGraph p n => removeSubGraphM i p n

/-! ### goroutines that do several things -/

/-- The map argument of a call. -/
def Change.arg : Change → Option Nat
  | .addPortEdge _ _ _ _ _ arg => arg
  | .addEdge _ _ _ arg => arg
  | .addNode _ _ arg => arg
  | .addSubGraph _ _ arg => arg
  | _ => none

/-- What a goroutine does. -/
inductive Cmd where
  /-- `NewGraph()`: the goroutine's next own graph -/
  | new
  /-- a call that changes its own graph number `j` -/
  | change (j : Nat) (c : Change)
  /-- a call that reads its own graph number `j` -/
  | ask (j : Nat) (q : Query)
  /-- a call that reads a graph which existed before -/
  | askShared (n : Nat) (q : Query)

/-- What it gets back. -/
inductive Reply where
  | created
  /-- the error of a call, or nil -/
  | error (e : Option Err)
  | out (o : Out)

/-- The error of a call as a value. -/
def Prog.reply : Prog Out → Prog Reply
  | .ret (.ok o) => .ret (.ok (.out o))
  | .ret (.err e) => .ret (.ok (.error (some e)))
  | .ret .panic => .ret .panic
  | .ret .diverge => .ret .diverge
  | .read l k => .read l fun c => (k c).reply
  | .write l c k => .write l c k.reply
  | .alloc c k => .alloc c fun n => (k n).reply
  | .order ks k => .order ks fun l => (k l).reply

/-- The commands one after the other; `own` are the addresses of the own graphs. The result: all replies, and these addresses. -/
def scriptM (sorter : Nat → SortTree) (fuel : Nat) (own : List Nat) : List Cmd → Prog (List Reply × List Nat)
  | [] => .pure ([], own)
  | .new :: cs => do
    let n ← newGraphM
    let r ← scriptM sorter fuel (own ++ [n]) cs
    .pure (.created :: r.1, r.2)
  | .change j c :: cs => match own[j]? with
    | none => .ret .panic
    | some n => do
      let e ← c.prog n
      let r ← scriptM sorter fuel own cs
      .pure (.error e :: r.1, r.2)
  | .ask j q :: cs => match own[j]? with
    | none => .ret .panic
    | some n => do
      let x ← (q.prog sorter fuel n).reply
      let r ← scriptM sorter fuel own cs
      .pure (x :: r.1, r.2)
  | .askShared n q :: cs => do
    let x ← (q.prog sorter fuel n).reply
    let r ← scriptM sorter fuel own cs
    .pure (x :: r.1, r.2)

end Gographviz.Threads
