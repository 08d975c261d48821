import Verif.Model.AttrTable
import Verif.Model.GoMap
/-!
attr.go, attrs.go, nodes.go, edges.go, relations.go, subgraphs.go.
-/
namespace Gographviz

/-- The errors the package creates (and `other` for errors of foreign `Interface` implementations). -/
inductive Err where
  /-- attr.go:26 -/
  | invalidAttr (key : Str)
  /-- nodes.go:52 -/
  | nodeNotFound (name : Str)
  /-- graph.go:129 -/
  | noSuchGraph (name : Str)
  /-- write.go:60 and write.go:95 -/
  | notNodeOrSubGraph (name : Str)
  /-- write.go:86 and write.go:91 -/
  | subGraphPort (port : Str)
  | other (msg : Str)
  deriving DecidableEq, Repr

/-- The text of an error: the format strings at the lines cited at `Err`. -/
def Err.msg : Err → Str
  | .invalidAttr k => k ++ b!" is not a valid attribute"
  | .nodeNotFound n => b!"node " ++ n ++ b!" not found"
  | .noSuchGraph n => b!"graph or subgraph " ++ n ++ b!" does not exist"
  | .notNodeOrSubGraph n => n ++ b!" is not a node or a subgraph"
  | .subGraphPort p => b!"subgraph cannot have a port: " ++ p
  | .other m => m

/-! ### attr.go, attrs.go -/

/-- attr.go:23-29 `NewAttr`. -/
def newAttr (key : Str) : Except Err Str :=
  if validAttrs.contains key then .ok key else .error (.invalidAttr key)

/-- attrs.go:22 `type Attrs map[Attr]string` (an `Attr` is a string). -/
abbrev Attrs := Map Str

/-- attrs.go:36-43 `Attrs.Add`. -/
def attrsAdd (as : Attrs) (field value : Str) : Except Err Attrs :=
  match newAttr field with
  | .error e => .error e
  | .ok a => .ok (mset as a value)

/-- attrs.go:25-33 `NewAttrs`: the loop of lines 27-31 started with the map built so far. `kvs` lists the entries of the
argument map in the order in which the `range` visits them. -/
def newAttrsFrom (as : Attrs) : List (Str × Str) → Except Err Attrs
  | [] => .ok as
  | (k, v) :: rest => match attrsAdd as k v with
    | .error e => .error e
    | .ok as' => newAttrsFrom as' rest

/-- attrs.go:25-33 `NewAttrs`. -/
def newAttrs (kvs : List (Str × Str)) : Except Err Attrs := newAttrsFrom [] kvs

/-- attrs.go:50-54 `Attrs.Extend` (overwrites). The iteration order does not matter (`Proofs/GoMap.lean`), the model
visits `more` in key order. -/
def attrsExtend (as more : Attrs) : Attrs := msetAll as more

/-- attrs.go:57-63 `Attrs.Ammend` and analyse.go:99-106 `ammend` (only adds missing keys). The model visits
`more` in key order. -/
def attrsAmmend (as : Map Str) (more : List (Str × Str)) : Map Str :=
  more.foldl (fun m e => if mhas m e.1 then m else mset m e.1 e.2) as

/-- attrs.go:83-90 `sortedNames`. -/
def sortedNames (as : Attrs) : List Str := ssort (mkeys as)

/-- attrs.go:65-71 `toMap`: the entries assigned into a new map; and attrs.go:93-99 `Copy`, the same code. -/
def attrsCopy (as : Attrs) : Map Str := msetAll [] as

/-! ### nodes.go -/

/-- nodes.go:23-26. -/
structure Node where
  name : Str
  attrs : Attrs
  deriving DecidableEq, Repr

/-- nodes.go:29-32. A `*Node` is an index into `heap` (allocation is appending, nothing is ever freed), so that sharing
between the map and the slice is explicit. -/
structure Nodes where
  heap : List Node
  lookup : Map Nat
  list : List Nat
  deriving DecidableEq, Repr

/-- nodes.go:35-37 `NewNodes`. -/
def newNodes : Nodes := ⟨[], [], []⟩

/-- Dereferencing a pointer into the heap. -/
def Nodes.deref (ns : Nodes) (p : Nat) : Option Node := ns.heap[p]?

/-- nodes.go:41-50: the search loop of `Remove`; the list without the first pointer whose node has the name. -/
def Nodes.removeLoop (ns : Nodes) (name : Str) : List Nat → Option (List Nat)
  | [] => none
  | p :: ps =>
    if (ns.deref p).map Node.name = some name then some ps
    else (ns.removeLoop name ps).map (p :: ·)

/-- nodes.go:40-53 `Nodes.Remove`. (The in-place shift of the backing array is modelled in `Model/Slices.lean`: slices saved
by the caller before the call are outside this model.) -/
def Nodes.remove (ns : Nodes) (name : Str) : Nodes × Option Err :=
  match ns.removeLoop name ns.list with
  | none => (ns, some (.nodeNotFound name))
  | some l => ({ ns with lookup := mdel ns.lookup name, list := l }, none)

/-- Changing the attributes of the node behind a pointer. -/
def Nodes.updateAttrs (ns : Nodes) (p : Nat) (f : Attrs → Attrs) : Nodes :=
  { ns with heap := ns.heap.modify p (fun n => { n with attrs := f n.attrs }) }

/-- nodes.go:56-64 `Nodes.Add`. In the first branch the argument object is dropped by the code (the model does
not allocate it). -/
def Nodes.add (ns : Nodes) (node : Node) : Nodes :=
  match mget ns.lookup node.name with
  | some p => ns.updateAttrs p (fun as => attrsExtend as node.attrs)
  | none =>
    { heap := ns.heap ++ [node]
      lookup := mset ns.lookup node.name ns.heap.length
      list := ns.list ++ [ns.heap.length] }

/-- `nodes.Lookup[name]`, dereferenced. -/
def Nodes.find (ns : Nodes) (name : Str) : Option Node := (mget ns.lookup name).bind ns.deref

/-- nodes.go:67-78 `Nodes.Sorted` (`none` entries would be nil pointers; there are none, `Props`). -/
def Nodes.sorted (ns : Nodes) : List (Option Node) := (ssort (mkeys ns.lookup)).map ns.find

/-! ### edges.go -/

/-- edges.go:22-29. -/
structure Edge where
  src : Str
  srcPort : Str
  dst : Str
  dstPort : Str
  dir : Bool
  attrs : Attrs
  deriving DecidableEq, Repr

/-- edges.go:32-36. Edges are never changed by the package after insertion, so a `*Edge` is modelled by its value. -/
structure Edges where
  srcToDsts : Map (Map (List Edge))
  dstToSrcs : Map (Map (List Edge))
  edges : List Edge
  deriving DecidableEq, Repr

/-- edges.go:39-41 `NewEdges`. -/
def newEdges : Edges := ⟨[], [], []⟩

/-- edges.go:45-51 (and 53-59 with the arguments swapped): create the inner map and the slice if missing, then append. -/
def edgeIndexAdd {α : Type} (m : Map (Map (List α))) (k1 k2 : Str) (e : α) : Map (Map (List α)) :=
  let m := if mhas m k1 then m else mset m k1 []
  let inner := (mget m k1).getD []
  let inner := if mhas inner k2 then inner else mset inner k2 []
  mset m k1 (mset inner k2 ((mget inner k2).getD [] ++ [e]))

/-- edges.go:44-62 `Edges.Add`. -/
def Edges.add (es : Edges) (e : Edge) : Edges :=
  { srcToDsts := edgeIndexAdd es.srcToDsts e.src e.dst e
    dstToSrcs := edgeIndexAdd es.dstToSrcs e.dst e.src e
    edges := es.edges ++ [e] }

/-- edges.go:110-116: the attribute loop of `Less` over the sorted union of the names. -/
def attrsLess (a b : Attrs) : List Str → Bool
  | [] => false
  | k :: ks =>
    if slt (mgetS a k) (mgetS b k) then true
    else if slt (mgetS b k) (mgetS a k) then false
    else attrsLess a b ks

/-- edges.go:76-119 `edgeSorter.Less`. -/
def edgeLess (a b : Edge) : Bool :=
  if slt a.src b.src then true else if slt b.src a.src then false
  else if slt a.dst b.dst then true else if slt b.dst a.dst then false
  else if slt a.srcPort b.srcPort then true else if slt b.srcPort a.srcPort then false
  else if slt a.dstPort b.dstPort then true else if slt b.dstPort a.dstPort then false
  else if a.dir ≠ b.dir then a.dir
  else attrsLess a.attrs b.attrs (sortedNames (msetAll (attrsCopy a.attrs) b.attrs))

/-- The contract of `sort.Sort` (edges.go:65-70 `Edges.Sorted` copies the slice and sorts the copy): the result is
a permutation in which no later element is `Less` than an earlier one. The algorithm (unstable) is not fixed. -/
structure SortContract (sortE : List Edge → List Edge) : Prop where
  perm : ∀ es, (sortE es).Perm es
  sorted : ∀ es, (sortE es).Pairwise fun a b => edgeLess b a = false

/-- Insertion into a sorted list of edges. -/
def edgeInsert (x : Edge) : List Edge → List Edge
  | [] => [x]
  | y :: ys => if edgeLess y x then y :: edgeInsert x ys else x :: y :: ys

/-- One function meeting `SortContract` (proved in `Props`), used in examples. -/
def edgeInsertionSort : List Edge → List Edge
  | [] => []
  | x :: xs => edgeInsert x (edgeInsertionSort xs)

/-! ### relations.go -/

/-- relations.go:23-26. -/
structure Relations where
  parentToChildren : Map (Map Bool)
  childToParents : Map (Map Bool)
  deriving DecidableEq, Repr

/-- relations.go:29-31. -/
def newRelations : Relations := ⟨[], []⟩

/-- relations.go:35-38 (and 39-42 with the arguments swapped). -/
def relIndexAdd (m : Map (Map Bool)) (k1 k2 : Str) : Map (Map Bool) :=
  let m := if mhas m k1 then m else mset m k1 []
  mset m k1 (mset ((mget m k1).getD []) k2 true)

/-- relations.go:47-49 (and 51-53 with the arguments swapped). -/
def relIndexDel (m : Map (Map Bool)) (k1 k2 : Str) : Map (Map Bool) :=
  match mget m k1 with
  | some inner => mset m k1 (mdel inner k2)
  | none => m

/-- relations.go:34-43 `Relations.Add`. -/
def Relations.add (r : Relations) (parent child : Str) : Relations :=
  ⟨relIndexAdd r.parentToChildren parent child, relIndexAdd r.childToParents child parent⟩

/-- relations.go:46-54 `Relations.Remove`. -/
def Relations.remove (r : Relations) (parent child : Str) : Relations :=
  ⟨relIndexDel r.parentToChildren parent child, relIndexDel r.childToParents child parent⟩

/-- `relations.ParentToChildren[parent]` (a nil map, i.e. no entries, if missing). -/
def Relations.children (r : Relations) (parent : Str) : Map Bool := (mget r.parentToChildren parent).getD []

/-- `relations.ChildToParents[child]`. -/
def Relations.parents (r : Relations) (child : Str) : Map Bool := (mget r.childToParents child).getD []

/-- relations.go:57-64 `SortedChildren`. -/
def Relations.sortedChildren (r : Relations) (parent : Str) : List Str := ssort (mkeys (r.children parent))

/-! ### subgraphs.go -/

/-- subgraphs.go:22-25. -/
structure SubGraph where
  attrs : Attrs
  name : Str
  deriving DecidableEq, Repr

/-- subgraphs.go:46-50 `SubGraphs.Add` with subgraphs.go:28-33 `NewSubGraph`. -/
def subGraphsAdd (sgs : Map SubGraph) (name : Str) : Map SubGraph :=
  if mhas sgs name then sgs else mset sgs name ⟨[], name⟩

/-- subgraphs.go:58-69 `SubGraphs.Sorted`. -/
def subGraphsSorted (sgs : Map SubGraph) : List (Option SubGraph) := (ssort (mkeys sgs)).map (mget sgs)

end Gographviz
