import Verif.Model.Threads
/-!
write.go again, and the parts of the other files that it uses, with all accesses to memory. The syntax tree that is built is a value (it belongs to
the caller), and so are slices of strings.
-/
namespace Gographviz.Threads

open Gographviz Gographviz.Heap
open Gographviz.Ast (Stmt)

/-- Dereferencing `g`. -/
def getGraph (i : Nat) : Prog HGraph := .read (.graph i) fun
  | some (.graph g) => .ret (.ok g)
  | _ => .ret .panic

/-- Dereferencing a `*Node`. -/
def getNode (p : Nat) : Prog NodeObj := .read (.node p) fun
  | some (.node o) => .ret (.ok o)
  | _ => .ret .panic

/-- Dereferencing an `*Edge`. -/
def getEdge (p : Nat) : Prog EdgeObj := .read (.edge p) fun
  | some (.edge o) => .ret (.ok o)
  | _ => .ret .panic

/-- Dereferencing a `*SubGraph`. -/
def getSub (p : Nat) : Prog SubObj := .read (.sub p) fun
  | some (.sub o) => .ret (.ok o)
  | _ => .ret .panic

/-- Reading a map. -/
def getMap (a : Nat) : Prog (Map Str) := .read (.map a) fun
  | some (.map m) => .ret (.ok m)
  | _ => .ret .panic

/-- Reading the array of a slice. -/
def getArr (r : Nat) : Prog (List Nat) := .read (.arr r) fun
  | some (.arr l) => .ret (.ok l)
  | _ => .ret .panic

/-- Reading `writtenLocations`. -/
def getSet (r : Nat) : Prog Written := .read (.set r) fun
  | some (.set w) => .ret (.ok w)
  | _ => .ret .panic

/-- Storing. -/
def store (l : Threads.Loc) (c : Cell) : Prog Unit := .write l c (.ret (.ok ()))

/-- Allocating. -/
def new (c : Cell) : Prog Nat := .alloc c fun n => .ret (.ok n)

/-- The keys of a map in the order of a `range`. -/
def rangeOf (ks : List Str) : Prog (List Str) := .order ks fun l => .ret (.ok l)

/-- `m[k] = v`. -/
def mapSet (a : Nat) (k v : Str) : Prog Unit := do
  let m ← getMap a
  store (.map a) (.map (mset m k v))

/-- `writtenLocations[k] = true`. -/
def setAdd (r : Nat) (k : Str) : Prog Unit := do
  let w ← getSet r
  store (.set r) (.set (mset w k ()))

/-- The body of a loop for each key. -/
def forKeys (f : Str → Prog Unit) : List Str → Prog Unit
  | [] => .pure ()
  | k :: ks => do
    f k
    forKeys f ks

/-- attrs.go:67-69, 95-97, edges.go:105-107: `for k, v := range src { dst[k] = v }`. -/
def copyInto (dst src : Nat) : Prog Unit := do
  let m ← getMap src
  let ks ← rangeOf (mkeys m)
  forKeys (fun k => do
    let m ← getMap src
    mapSet dst k (mgetS m k)) ks

/-- attrs.go:93-99 `Copy`, and 65-71 `toMap`, the same code. -/
def copyMap (a : Nat) : Prog Nat := do
  let b ← new (.map [])
  copyInto b a
  .pure b

/-- attrs.go:83-90 `sortedNames`. -/
def sortedNamesM (a : Nat) : Prog (List Str) := do
  let m ← getMap a
  let ks ← rangeOf (mkeys m)
  .pure (ssort ks)

/-- The values of the given keys of the map at `a`, one after the other. -/
def fieldsM (a : Nat) : List Str → Prog (List Ast.Attr)
  | [] => .pure []
  | k :: ks => do
    let m ← getMap a
    let rest ← fieldsM a ks
    .pure (⟨k, mgetS m k⟩ :: rest)

/-- write.go:32-41 `appendAttrs` (onto an empty list). -/
def attrStmtsM (a : Nat) : Prog (List Stmt) := do
  let ks ← sortedNamesM a
  let as ← fieldsM a ks
  .pure (as.map .attr)

/-- ast/ast.go:378-391 `PutMap` of the map at `a`. -/
def putMapM (a : Nat) : Prog Ast.AttrList := do
  let ks ← sortedNamesM a
  let as ← fieldsM a ks
  .pure [as]

/-- write.go:77, 115 `ast.PutMap(x.Attrs.toMap())`. -/
def attrListM (a : Nat) : Prog Ast.AttrList := do
  let m ← copyMap a
  putMapM m

/-- edges.go:110-116: the attribute loop of `Less`. -/
def attrsLessM (a b : Nat) : List Str → Prog Bool
  | [] => .pure false
  | k :: ks => do
    let x ← getMap a
    let y ← getMap b
    if slt (mgetS x k) (mgetS y k) then .pure true
    else if slt (mgetS y k) (mgetS x k) then .pure false
    else attrsLessM a b ks

/-- edges.go:77-118: comparing two edges. -/
def compareM (x y : EdgeObj) : Prog Bool :=
  if slt x.src y.src then .pure true else if slt y.src x.src then .pure false
  else if slt x.dst y.dst then .pure true else if slt y.dst x.dst then .pure false
  else if slt x.srcPort y.srcPort then .pure true else if slt y.srcPort x.srcPort then .pure false
  else if slt x.dstPort y.dstPort then .pure true else if slt y.dstPort x.dstPort then .pure false
  else if x.dir ≠ y.dir then .pure x.dir
  else do
    let c ← copyMap x.attrs
    copyInto c y.attrs
    let ks ← sortedNamesM c
    attrsLessM x.attrs y.attrs ks

/-- edges.go:76-119 `Less` (the fields of an edge are read together). -/
def lessM (r i j : Nat) : Prog Bool := do
  let es ← getArr r
  match es[i]?, es[j]? with
  | some p, some q =>
    let x ← getEdge p
    let y ← getEdge q
    compareM x y
  | _, _ => .ret .panic

/-- edges.go:75 `Swap`. -/
def swapM (r i j : Nat) : Prog Unit := do
  let es ← getArr r
  match swapAt es i j with
  | some es' => store (.arr r) (.arr es')
  | none => .ret .panic

/-- edges.go:68 `sort.Sort(es)`. -/
def sortM (r : Nat) : SortTree → Prog Unit
  | .done => .pure ()
  | .less i j k => do
    let b ← lessM r i j
    sortM r (k b)
  | .swap i j k => do
    swapM r i j
    sortM r k

/-- edges.go:65-70 `Edges.Sorted`: the slice is copied and the copy is sorted. -/
def edgesSortedM (sorter : Nat → SortTree) (i : Nat) : Prog (List Nat) := do
  let g ← getGraph i
  let r ← new (.arr g.edges)
  sortM r (sorter g.edges.length)
  getArr r

/-- nodes.go:67-78 `Nodes.Sorted`: `nodes.Lookup[key]` for the sorted keys. -/
def nodesSortedM (i : Nat) : Prog (List (Option Nat)) := do
  let g ← getGraph i
  let ks ← rangeOf (mkeys g.lookup)
  let g ← getGraph i
  .pure ((ssort ks).map (mget g.lookup))

/-- subgraphs.go:58-69 `SubGraphs.Sorted`. -/
def subGraphsSortedM (i : Nat) : Prog (List (Option Nat)) := do
  let g ← getGraph i
  let ks ← rangeOf (mkeys g.subGraphs)
  let g ← getGraph i
  .pure ((ssort ks).map (mget g.subGraphs))

/-- relations.go:57-64 `SortedChildren`. -/
def sortedChildrenM (i : Nat) (parent : Str) : Prog (List Str) := do
  let g ← getGraph i
  let ks ← rangeOf (mkeys (g.relations.children parent))
  .pure (ssort ks)

/-- graph.go:182-185 `IsNode`. -/
def isNodeM (i : Nat) (name : Str) : Prog Bool := do
  let g ← getGraph i
  .pure (mhas g.lookup name)

/-- graph.go:188-191 `IsSubGraph`. -/
def isSubGraphM (i : Nat) (name : Str) : Prog Bool := do
  let g ← getGraph i
  .pure (mhas g.subGraphs name)

/-- graph.go:193-197. -/
def isClusterM (i : Nat) (name : Str) : Prog Bool := do
  let b ← isSubGraphM i name
  .pure (b && hasPrefix name (b!"cluster"))

/-- `w.Nodes.Lookup[name]`, dereferenced. -/
def lookupM (i : Nat) (name : Str) : Prog NodeObj := do
  let g ← getGraph i
  match mget g.lookup name with
  | some p => getNode p
  | none => .ret .panic

/-- write.go:71-79 `newNodeStmt`. `r` is `writtenLocations`. -/
def newNodeStmtM (i r : Nat) (name : Str) : Prog Stmt := do
  let node ← lookupM i name
  setAdd r node.name
  let as ← attrListM node.attrs
  .pure (.node (Ast.makeNodeID node.name []) as)

/-- write.go:50-62: the loop over the children. -/
def childLoopM (i r : Nat) (rec_ : Str → Prog (Str × List Stmt)) : List Str → Prog (List Stmt)
  | [] => .pure []
  | child :: rest => do
    let s ← (do
      let b ← isNodeM i child
      if b then newNodeStmtM i r child
      else do
        let b ← isSubGraphM i child
        if b then do
          let s ← rec_ child
          .pure (.sub s.1 s.2)
        else .ret (.err (.notNodeOrSubGraph child)))
    let ss ← childLoopM i r rec_ rest
    .pure (s :: ss)

/-- write.go:43-64 `newSubGraph`. -/
def newSubGraphM (i r : Nat) : Nat → Str → Prog (Str × List Stmt)
  | 0, _ => .ret .diverge
  | fuel + 1, name => do
    let g ← getGraph i
    match mget g.subGraphs name with
    | none => .ret .panic
    | some p =>
      let sub ← getSub p
      setAdd r sub.name
      let as ← attrStmtsM sub.attrs
      let cs ← sortedChildrenM i name
      let ss ← childLoopM i r (newSubGraphM i r fuel) cs
      .pure (sub.name, as ++ ss)

/-- write.go:81-96 `newLocation`, with 66-69 `newNodeID`. -/
def newLocationM (i r fuel : Nat) (name port : Str) : Prog Ast.Loc := do
  let b ← isNodeM i name
  if b then do
    let node ← lookupM i name
    .pure (.node (Ast.makeNodeID node.name port))
  else do
    let b ← isClusterM i name
    if b then
      if port.length ≠ 0 then .ret (.err (.subGraphPort port)) else .pure (.node (Ast.makeNodeID name port))
    else do
      let b ← isSubGraphM i name
      if b then
        if port.length ≠ 0 then .ret (.err (.subGraphPort port))
        else do
          let s ← newSubGraphM i r fuel name
          .pure (.sub s.1 s.2)
      else .ret (.err (.notNodeOrSubGraph name))

/-- write.go:98-118 `newEdgeStmt`. -/
def newEdgeStmtM (i r fuel : Nat) (p : Nat) : Prog Stmt := do
  let e ← getEdge p
  let s ← newLocationM i r fuel e.src e.srcPort
  let d ← newLocationM i r fuel e.dst e.dstPort
  let as ← attrListM e.attrs
  .pure (.edge s [.mk e.dir d] as)

/-- write.go:128-134. -/
def edgeStmtsM (i r fuel : Nat) : List Nat → Prog (List Stmt)
  | [] => .pure []
  | p :: ps => do
    let s ← newEdgeStmtM i r fuel p
    let ss ← edgeStmtsM i r fuel ps
    .pure (s :: ss)

/-- write.go:136-147. -/
def rootSubsM (i r fuel : Nat) : List (Option Nat) → Prog (List Stmt)
  | [] => .pure []
  | none :: _ => .ret .panic
  | some p :: ps => do
    let s ← getSub p
    let w ← getSet r
    let g ← getGraph i
    if !mhas w s.name && mhas (g.relations.children g.name) s.name then do
      let x ← newSubGraphM i r fuel s.name
      let xs ← rootSubsM i r fuel ps
      .pure (.sub x.1 x.2 :: xs)
    else rootSubsM i r fuel ps

/-- write.go:149-154. -/
def rootNodesM (i r : Nat) : List (Option Nat) → Prog (List Stmt)
  | [] => .pure []
  | none :: _ => .ret .panic
  | some p :: ps => do
    let n ← getNode p
    let w ← getSet r
    if !mhas w n.name then do
      let x ← newNodeStmtM i r n.name
      let xs ← rootNodesM i r ps
      .pure (x :: xs)
    else rootNodesM i r ps

/-- write.go:160-163 `WriteAst`, 28-30 `newWriter` and 120-157 `Write`, of graph `i`. `fuel` bounds the depth of nested subgraphs. -/
def writeAstM (sorter : Nat → SortTree) (fuel i : Nat) : Prog Ast.Graph := do
  let r ← new (.set [])
  let g ← getGraph i
  let as ← attrStmtsM g.attrs
  let es ← edgesSortedM sorter i
  let es ← edgeStmtsM i r fuel es
  let subs ← subGraphsSortedM i
  let ss ← rootSubsM i r fuel subs
  let nodes ← nodesSortedM i
  let ns ← rootNodesM i r nodes
  .pure { type_ := g.directed, strict := g.strict, id := g.name, stmts := as ++ es ++ ss ++ ns }

/-- The methods that return something about a graph and change nothing. -/
inductive Query where
  /-- `g.WriteAst()` -/
  | writeAst
  /-- `g.String()` -/
  | string
  /-- `g.IsNode(name)` -/
  | isNode (name : Str)
  /-- `g.IsSubGraph(name)` -/
  | isSubGraph (name : Str)
  /-- `g.Relations.SortedChildren(parent)` -/
  | sortedChildren (parent : Str)
  /-- `g.Edges.Sorted()` -/
  | edgesSorted
  /-- `g.Nodes.Sorted()` -/
  | nodesSorted
  /-- `g.SubGraphs.Sorted()` -/
  | subGraphsSorted

/-- What they return. Pointers to nodes, edges and subgraphs are addresses (`none` would be nil). -/
inductive Out where
  | tree (t : Ast.Graph)
  | text (s : Str)
  | bool (b : Bool)
  | names (l : List Str)
  | ptrs (l : List (Option Nat))

/-- write.go:166-172 `String`: an error of `WriteAst` becomes text. -/
def Prog.toText : Prog Ast.Graph → Prog Out
  | .ret (.ok t) => .ret (.ok (.text (Ast.graphStr t)))
  | .ret (.err e) => .ret (.ok (.text (b!"error: " ++ e.msg)))
  | .ret .panic => .ret .panic
  | .ret .diverge => .ret .diverge
  | .read l k => .read l fun c => (k c).toText
  | .write l c k => .write l c k.toText
  | .alloc c k => .alloc c fun n => (k n).toText
  | .order ks k => .order ks fun l => (k l).toText

/-- The call of a method of graph `i`: write.go:160-172, graph.go:182-191, relations.go:57-64, edges.go:65-70, nodes.go:67-78, subgraphs.go:58-69. -/
def Query.prog (sorter : Nat → SortTree) (fuel i : Nat) : Query → Prog Out
  | .writeAst => do
    let t ← writeAstM sorter fuel i
    .pure (.tree t)
  | .string => (writeAstM sorter fuel i).toText
  | .isNode n => do
    let b ← isNodeM i n
    .pure (.bool b)
  | .isSubGraph n => do
    let b ← isSubGraphM i n
    .pure (.bool b)
  | .sortedChildren p => do
    let l ← sortedChildrenM i p
    .pure (.names l)
  | .edgesSorted => do
    let l ← edgesSortedM sorter i
    .pure (.ptrs (l.map some))
  | .nodesSorted => do
    let l ← nodesSortedM i
    .pure (.ptrs l)
  | .subGraphsSorted => do
    let l ← subGraphsSortedM i
    .pure (.ptrs l)

end Gographviz.Threads
