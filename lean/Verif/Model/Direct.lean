import Verif.Model.Containers
/-!
The exported containers used directly: `NewNodes().Add(n)`, `g.Relations.Remove(..)`, `attrs.Extend(..)` and so on, without `Graph`. All objects that a
caller can hold a pointer to are in memories (lists; making an object is appending), so that the same `*Node`, `*Edge` or `Attrs` map may be in several
containers, and `Attrs` may be nil. (`Model/Containers.lean` models the containers as `Graph` uses them.)
-/
namespace Gographviz

/-- nodes.go:23-26 `Node` made by the caller; `attrs` is the map or nil. -/
structure DNode where
  name : Str
  attrs : Option Nat
  deriving DecidableEq, Repr

/-- edges.go:22-29 `Edge` made by the caller. -/
structure DEdge where
  src : Str
  srcPort : Str
  dst : Str
  dstPort : Str
  dir : Bool
  attrs : Option Nat
  deriving DecidableEq, Repr

/-- subgraphs.go:22-25 `SubGraph`. -/
structure DSub where
  attrs : Nat
  name : Str
  deriving DecidableEq, Repr

/-- nodes.go:29-32 `Nodes`. -/
structure DNodes where
  lookup : Map Nat
  list : List Nat
  deriving DecidableEq, Repr

/-- edges.go:32-36 `Edges`. -/
structure DEdges where
  srcToDsts : Map (Map (List Nat))
  dstToSrcs : Map (Map (List Nat))
  edges : List Nat
  deriving DecidableEq, Repr

/-- All objects. -/
structure Direct where
  maps : List Attrs
  nodes : List DNode
  edges : List DEdge
  subs : List DSub
  nodesCs : List DNodes
  edgesCs : List DEdges
  relations : List Relations
  subGraphs : List (Map Nat)
  deriving DecidableEq, Repr

/-- Nothing made yet. -/
def Direct.empty : Direct := ⟨[], [], [], [], [], [], [], []⟩

/-- How a call ends: normally, with an error, or with a panic. -/
inductive DOut where
  | ok
  | err (e : Err)
  | panic
  deriving DecidableEq, Repr

/-- The entries of an `Attrs` (a nil map has none). -/
def Direct.attrs (d : Direct) : Option Nat → Attrs
  | none => []
  | some a => (d.maps[a]?).getD []

/-- The calls. Containers and objects are named by their place in the memory. -/
inductive DOp where
  | newAttrs (kvs : List (Str × Str))
  | attrsAdd (a : Option Nat) (field value : Str)
  | attrsExtend (a b : Option Nat)
  | attrsAmmend (a b : Option Nat)
  | attrsCopy (a : Option Nat)
  | newNode (name : Str) (attrs : Option Nat)
  | newNodes
  | nodesAdd (c p : Nat)
  | nodesRemove (c : Nat) (name : Str)
  | newEdge (e : DEdge)
  | newEdges
  | edgesAdd (c p : Nat)
  | newRelations
  | relationsAdd (c : Nat) (parent child : Str)
  | relationsRemove (c : Nat) (parent child : Str)
  | newSubGraphs
  | subGraphsAdd (c : Nat) (name : Str)
  | subGraphsRemove (c : Nat) (name : Str)

/-- attrs.go:25-33 `NewAttrs`. -/
def Direct.newAttrs (d : Direct) (kvs : List (Str × Str)) : Direct × DOut := match Gographviz.newAttrs kvs with
  | .ok m => ({ d with maps := d.maps ++ [m] }, .ok)
  | .error e => (d, .err e)

/-- attrs.go:36-48 `Attrs.Add`: assigning to a nil map panics. -/
def Direct.attrsAdd (d : Direct) (a : Option Nat) (field value : Str) : Direct × DOut := match newAttr field with
  | .error e => (d, .err e)
  | .ok k => match a with
    | none => (d, .panic)
    | some i => ({ d with maps := d.maps.modify i fun m => mset m k value }, .ok)

/-- attrs.go:50-54 `Attrs.Extend`: nothing is assigned when `more` is empty. `more` may be the map itself: then only entries it has are
assigned, and the contents stay. -/
def Direct.attrsExtend (d : Direct) (a b : Option Nat) : Direct × DOut := match a with
  | none => if (d.attrs b).isEmpty then (d, .ok) else (d, .panic)
  | some i => ({ d with maps := d.maps.modify i fun m => Gographviz.attrsExtend m (d.attrs b) }, .ok)

/-- attrs.go:57-63 `Attrs.Ammend`. -/
def Direct.attrsAmmend (d : Direct) (a b : Option Nat) : Direct × DOut := match a with
  | none => if (d.attrs b).isEmpty then (d, .ok) else (d, .panic)
  | some i => ({ d with maps := d.maps.modify i fun m => Gographviz.attrsAmmend m (d.attrs b) }, .ok)

/-- attrs.go:93-99 `Attrs.Copy`: a new map, also for nil. -/
def Direct.attrsCopy (d : Direct) (a : Option Nat) : Direct × DOut :=
  ({ d with maps := d.maps ++ [Gographviz.attrsCopy (d.attrs a)] }, .ok)

/-- nodes.go:56-64 `Nodes.Add`. -/
def Direct.nodesAdd (d : Direct) (c p : Nat) : Direct × DOut := match d.nodesCs[c]?, d.nodes[p]? with
  | some ns, some node => match mget ns.lookup node.name with
    | some q => match d.nodes[q]? with
      | some n => d.attrsExtend n.attrs node.attrs
      | none => (d, .panic)
    | none => ({ d with nodesCs := d.nodesCs.set c ⟨mset ns.lookup node.name p, ns.list ++ [p]⟩ }, .ok)
  | _, _ => (d, .panic)

/-- nodes.go:41-50: the search loop of `Remove`; the slice without the first pointer whose node has the name. -/
def Direct.removeLoop (d : Direct) (name : Str) : List Nat → Option (List Nat)
  | [] => none
  | p :: ps =>
    if (d.nodes[p]?).map DNode.name = some name then some ps
    else (d.removeLoop name ps).map (p :: ·)

/-- nodes.go:40-53 `Nodes.Remove`. (The effect on slices the caller saved is in `Model/Slices.lean`.) -/
def Direct.nodesRemove (d : Direct) (c : Nat) (name : Str) : Direct × DOut := match d.nodesCs[c]? with
  | some ns => match d.removeLoop name ns.list with
    | some l => ({ d with nodesCs := d.nodesCs.set c ⟨mdel ns.lookup name, l⟩ }, .ok)
    | none => (d, .err (.nodeNotFound name))
  | none => (d, .panic)

/-- edges.go:44-62 `Edges.Add`. -/
def Direct.edgesAdd (d : Direct) (c p : Nat) : Direct × DOut := match d.edgesCs[c]?, d.edges[p]? with
  | some es, some e => ({ d with edgesCs := d.edgesCs.set c ⟨edgeIndexAdd es.srcToDsts e.src e.dst p,
      edgeIndexAdd es.dstToSrcs e.dst e.src p, es.edges ++ [p]⟩ }, .ok)
  | _, _ => (d, .panic)

/-- subgraphs.go:46-50 `SubGraphs.Add` with subgraphs.go:28-33 `NewSubGraph`. -/
def Direct.subGraphsAdd (d : Direct) (c : Nat) (name : Str) : Direct × DOut := match d.subGraphs[c]? with
  | some m => if mhas m name then (d, .ok) else
      ({ d with maps := d.maps ++ [[]], subs := d.subs ++ [⟨d.maps.length, name⟩], subGraphs := d.subGraphs.set c (mset m name d.subs.length) }, .ok)
  | none => (d, .panic)

/-- subgraphs.go:53-55 `SubGraphs.Remove`. -/
def Direct.subGraphsRemove (d : Direct) (c : Nat) (name : Str) : Direct × DOut := match d.subGraphs[c]? with
  | some m => ({ d with subGraphs := d.subGraphs.set c (mdel m name) }, .ok)
  | none => (d, .panic)

/-- One call. Lines: nodes.go:35-37 `NewNodes`, edges.go:39-41 `NewEdges`, relations.go:29-31 `NewRelations`, relations.go:34-43 and 46-54,
subgraphs.go:41-43 `NewSubGraphs`; the others at the functions above. Calls on containers that do not exist, which no caller can make, are
modelled as panics (nil pointers). -/
def Direct.step (d : Direct) : DOp → Direct × DOut
  | .newAttrs kvs => d.newAttrs kvs
  | .attrsAdd a f v => d.attrsAdd a f v
  | .attrsExtend a b => d.attrsExtend a b
  | .attrsAmmend a b => d.attrsAmmend a b
  | .attrsCopy a => d.attrsCopy a
  | .newNode n a => ({ d with nodes := d.nodes ++ [⟨n, a⟩] }, .ok)
  | .newNodes => ({ d with nodesCs := d.nodesCs ++ [⟨[], []⟩] }, .ok)
  | .nodesAdd c p => d.nodesAdd c p
  | .nodesRemove c n => d.nodesRemove c n
  | .newEdge e => ({ d with edges := d.edges ++ [e] }, .ok)
  | .newEdges => ({ d with edgesCs := d.edgesCs ++ [⟨[], [], []⟩] }, .ok)
  | .edgesAdd c p => d.edgesAdd c p
  | .newRelations => ({ d with relations := d.relations ++ [Gographviz.newRelations] }, .ok)
  | .relationsAdd c p ch => match d.relations[c]? with
    | some r => ({ d with relations := d.relations.set c (r.add p ch) }, .ok)
    | none => (d, .panic)
  | .relationsRemove c p ch => match d.relations[c]? with
    | some r => ({ d with relations := d.relations.set c (r.remove p ch) }, .ok)
    | none => (d, .panic)
  | .newSubGraphs => ({ d with subGraphs := d.subGraphs ++ [[]] }, .ok)
  | .subGraphsAdd c n => d.subGraphsAdd c n
  | .subGraphsRemove c n => d.subGraphsRemove c n

/-- A history of calls (a panic changes nothing; the caller may recover). -/
def Direct.run (d : Direct) : List DOp → Direct
  | [] => d
  | o :: os => (d.step o).1.run os

/-- nodes.go:67-78 `Nodes.Sorted`: the pointers in the order of their keys. -/
def DNodes.sorted (ns : DNodes) : List (Option Nat) := (ssort (mkeys ns.lookup)).map (mget ns.lookup)

end Gographviz
