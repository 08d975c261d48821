import Verif.Model.Graph
/-!
graph.go and the containers with explicit pointers: the objects behind `*Node`, `*Edge`, `*SubGraph` and the attribute maps live in a memory
that several graphs and the caller share. `Model/Graph.lean` has values instead of pointers for edges, subgraphs and attribute maps; that
this is justified is proved in `Props/HeapProps.lean`. (The backing arrays of slices are the subject of `Model/Slices.lean` and are plain
lists here. The structs behind `*Nodes`, `*Edges`, `*SubGraphs` and `*Relations` are part of the graph.)
-/
namespace Gographviz.Heap

/-- nodes.go:23-26. `attrs` is a reference to a map. -/
structure NodeObj where
  name : Str
  attrs : Nat
  deriving DecidableEq, Repr

/-- edges.go:22-29. -/
structure EdgeObj where
  src : Str
  srcPort : Str
  dst : Str
  dstPort : Str
  dir : Bool
  attrs : Nat
  deriving DecidableEq, Repr

/-- subgraphs.go:22-25. -/
structure SubObj where
  attrs : Nat
  name : Str
  deriving DecidableEq, Repr

/-- The memory: the objects of each type, in the order of their allocation (an address is an index, nothing is ever freed). -/
structure Mem where
  maps : List Attrs
  nodes : List NodeObj
  edges : List EdgeObj
  subs : List SubObj
  deriving Repr

/-- The map at an address. -/
def Mem.map (m : Mem) (a : Nat) : Attrs := (m.maps[a]?).getD []

/-- graph.go:23-32 with nodes.go:29-32, edges.go:32-36, subgraphs.go:36-38: everything that was a Go pointer is an address. -/
structure HGraph where
  attrs : Nat
  name : Str
  directed : Bool
  strict : Bool
  lookup : Map Nat
  list : List Nat
  srcToDsts : Map (Map (List Nat))
  dstToSrcs : Map (Map (List Nat))
  edges : List Nat
  subGraphs : Map Nat
  relations : Relations
  deriving Repr

/-- graph.go:35-46 `NewGraph`: allocates the map of the graph. -/
def newHGraph (m : Mem) : Mem × HGraph :=
  ({ m with maps := m.maps ++ [[]] },
    { attrs := m.maps.length, name := [], directed := false, strict := false, lookup := [], list := [], srcToDsts := [], dstToSrcs := [],
      edges := [], subGraphs := [], relations := newRelations })

/-- attrs.go:45-47 `attrs[field] = value`, in place. -/
def Mem.set (m : Mem) (a : Nat) (k v : Str) : Mem := { m with maps := m.maps.modify a fun as => mset as k v }

/-- attrs.go:36-43 `Attrs.Add`. -/
def add (m : Mem) (a : Nat) (field value : Str) : Mem × Option Err :=
  match newAttr field with
  | .error e => (m, some e)
  | .ok k => (m.set a k value, none)

/-- attrs.go:27-31: the loop of `NewAttrs`, which fills the map at `a`. `kvs` are the entries of the argument in the order of the `range`. -/
def newAttrsLoop (m : Mem) (a : Nat) : List (Str × Str) → Mem × Option Err
  | [] => (m, none)
  | (k, v) :: rest => match add m a k v with
    | (m', some e) => (m', some e)
    | (m', none) => newAttrsLoop m' a rest

/-- attrs.go:25-33 `NewAttrs`: a new map (which stays behind, unused, on errors). -/
def newAttrs (m : Mem) (kvs : List (Str × Str)) : Mem × Except Err Nat :=
  match newAttrsLoop { m with maps := m.maps ++ [[]] } m.maps.length kvs with
  | (m', some e) => (m', .error e)
  | (m', none) => (m', .ok m.maps.length)

/-- attrs.go:50-54 `Extend`: the entries of the map at `b` are assigned into the map at `a`. -/
def extend (m : Mem) (a b : Nat) : Mem := (m.map b).foldl (fun m e => m.set a e.1 e.2) m

/-- nodes.go:56-64 `Nodes.Add` of the object at `p`. -/
def nodesAdd (m : Mem) (g : HGraph) (p : Nat) : Mem × HGraph :=
  match m.nodes[p]? with
  | none => (m, g) -- a nil pointer: not possible
  | some o => match mget g.lookup o.name with
    | some q => match m.nodes[q]? with
      | none => (m, g)
      | some n => (extend m n.attrs o.attrs, g)
    | none => (m, { g with lookup := mset g.lookup o.name p, list := g.list ++ [p] })

/-- nodes.go:41-50: the search loop of `Remove`. -/
def removeLoop (m : Mem) (name : Str) : List Nat → Option (List Nat)
  | [] => none
  | p :: ps =>
    if (m.nodes[p]?).map NodeObj.name = some name then some ps
    else (removeLoop m name ps).map (p :: ·)

/-- edges.go:44-62 `Edges.Add` of the object at `p` (the index entries as in `Model/Containers.lean`, but of addresses). -/
def edgesAdd (m : Mem) (g : HGraph) (p : Nat) : HGraph :=
  match m.edges[p]? with
  | none => g -- a nil pointer: not possible
  | some e =>
    { g with
      srcToDsts := edgeIndexAdd g.srcToDsts e.src e.dst p
      dstToSrcs := edgeIndexAdd g.dstToSrcs e.dst e.src p
      edges := g.edges ++ [p] }

/-- graph.go:71-78 `AddPortEdge`. -/
def addPortEdge (m : Mem) (g : HGraph) (src srcPort dst dstPort : Str) (directed : Bool) (attrs : List (Str × Str)) :
    (Mem × HGraph) × Option Err :=
  match newAttrs m attrs with
  | (m, .error e) => ((m, g), some e)
  | (m, .ok a) =>
    let p := m.edges.length
    let m := { m with edges := m.edges ++ [⟨src, srcPort, dst, dstPort, directed, a⟩] }
    ((m, edgesAdd m g p), none)

/-- graph.go:90-98 `AddNode`. -/
def addNode (m : Mem) (g : HGraph) (parent name : Str) (attrs : List (Str × Str)) : (Mem × HGraph) × Option Err :=
  match newAttrs m attrs with
  | (m, .error e) => ((m, g), some e)
  | (m, .ok a) =>
    let p := m.nodes.length
    let m := { m with nodes := m.nodes ++ [⟨name, a⟩] }
    let (m, g) := nodesAdd m g p
    ((m, { g with relations := g.relations.add parent name }), none)

/-- graph.go:109-118 and 167-176: a new set of edges, filled with the objects that are kept. -/
def edgesRebuild (m : Mem) (g : HGraph) (keep : EdgeObj → Bool) : HGraph :=
  g.edges.foldl (fun acc p => match m.edges[p]? with
      | some e => if keep e then edgesAdd m acc p else acc
      | none => acc) { g with srcToDsts := [], dstToSrcs := [], edges := [] }

/-- graph.go:101-121 `RemoveNode`. -/
def removeNode (m : Mem) (g : HGraph) (parent name : Str) : HGraph × Option Err :=
  match removeLoop m name g.list with
  | none => (g, some (.nodeNotFound name))
  | some l =>
    (edgesRebuild m { g with list := l, lookup := mdel g.lookup name, relations := g.relations.remove parent name }
      (fun e => !(decide (e.dst = name) || decide (e.src = name))), none)

/-- graph.go:134-141 `AddAttr` with graph.go:123-132 `getAttrs`: the map of the graph or of the subgraph object is changed in place. -/
def addAttr (m : Mem) (g : HGraph) (parent field value : Str) : Mem × Option Err :=
  if g.name = parent then add m g.attrs field value
  else match (mget g.subGraphs parent).bind fun p => m.subs[p]? with
    | none => (m, some (.noSuchGraph parent))
    | some s => add m s.attrs field value

/-- graph.go:147-151. -/
def addAttrs (m : Mem) (g : HGraph) (name : Str) : List (Str × Str) → Mem × Option Err
  | [] => (m, none)
  | (k, v) :: rest => match addAttr m g name k v with
    | (m', some e) => (m', some e)
    | (m', none) => addAttrs m' g name rest

/-- subgraphs.go:46-50 `SubGraphs.Add` with subgraphs.go:28-33 `NewSubGraph`. -/
def subsAdd (m : Mem) (g : HGraph) (name : Str) : Mem × HGraph :=
  if mhas g.subGraphs name then (m, g)
  else ({ m with maps := m.maps ++ [[]], subs := m.subs ++ [⟨m.maps.length, name⟩] },
    { g with subGraphs := mset g.subGraphs name m.subs.length })

/-- graph.go:144-153 `AddSubGraph`. -/
def addSubGraph (m : Mem) (g : HGraph) (parent name : Str) (attrs : List (Str × Str)) : (Mem × HGraph) × Option Err :=
  let (m, g) := subsAdd m { g with relations := g.relations.add parent name } name
  let (m, e) := addAttrs m g name attrs
  ((m, g), e)

/-- graph.go:157-162. -/
def removeNodes (m : Mem) (g : HGraph) (parent : Str) : List Str → HGraph × Option Err
  | [] => (g, none)
  | c :: cs => match removeNode m g parent c with
    | (g', some e) => (g', some e)
    | (g', none) => removeNodes m g' parent cs

/-- graph.go:156-179 `RemoveSubGraph`. -/
def removeSubGraph (m : Mem) (g : HGraph) (parent name : Str) (order : List Str) : HGraph × Option Err :=
  match removeNodes m g parent order with
  | (g', some e) => (g', some e)
  | (g', none) =>
    (edgesRebuild m { g' with relations := g'.relations.remove parent name, subGraphs := mdel g'.subGraphs name }
      (fun e => !(decide (e.dst = name) || decide (e.dstPort = name) || decide (e.src = name) || decide (e.srcPort = name))), none)

/-- One call of the API (graph.go:51-179). -/
def step (m : Mem) (g : HGraph) : Op → (Mem × HGraph) × Option Err
  | .setStrict b => ((m, { g with strict := b }), none)
  | .setDir b => ((m, { g with directed := b }), none)
  | .setName n => ((m, { g with name := n }), none)
  | .addPortEdge s sp d dp dir as => addPortEdge m g s sp d dp dir as
  | .addEdge s d dir as => addPortEdge m g s [] d [] dir as
  | .addNode p n as => addNode m g p n as
  | .addAttr p f v => let (m', e) := addAttr m g p f v; ((m', g), e)
  | .addSubGraph p n as => addSubGraph m g p n as
  | .removeNode p n => let (g', e) := removeNode m g p n; ((m, g'), e)
  | .removeSubGraph p n o => let (g', e) := removeSubGraph m g p n o; ((m, g'), e)

/-! ### several graphs and a caller -/

/-- The things that have an attribute map: the graph number `i`, or the object at an address. -/
inductive Owner where
  | graph (i : Nat)
  | node (p : Nat)
  | edge (p : Nat)
  | sub (p : Nat)
  deriving DecidableEq, Repr

/-- Everything there is: the memory, the graphs created so far, and the maps of type `map[string]string` that the caller made to use as
arguments. (The latter and `Attrs` are different types, not convertible into each other, so an `Attrs` is never an argument.) -/
structure State where
  mem : Mem
  graphs : List HGraph
  args : List (Map Str)
  deriving Repr

/-- Nothing created yet. -/
def start : State := ⟨⟨[], [], [], []⟩, [], []⟩

/-- The address of the attribute map of something. -/
def State.owned (s : State) : Owner → Option Nat
  | .graph i => (s.graphs[i]?).map (·.attrs)
  | .node p => (s.mem.nodes[p]?).map (·.attrs)
  | .edge p => (s.mem.edges[p]?).map (·.attrs)
  | .sub p => (s.mem.subs[p]?).map (·.attrs)

/-- What a program using the package does. -/
inductive Act where
  /-- `NewGraph()` -/
  | newGraph
  /-- a call of a method of graph `i`; the map argument is `args[arg]`, or nil -/
  | call (i : Nat) (op : Op) (arg : Option Nat)
  /-- the caller writes `x.Attrs[k] = v` through a pointer it holds, e.g. `g.Nodes.Lookup["a"].Attrs["label"] = "b"` -/
  | write (o : Owner) (k v : Str)
  /-- the caller makes a map for arguments -/
  | newArg (m : Map Str)
  /-- ... and changes it, `m[k] = v` -/
  | setArg (a : Nat) (k v : Str)
  deriving Repr

/-- Doing it. -/
def State.act (s : State) : Act → State × Option Err
  | .newGraph => let (m, g) := newHGraph s.mem; ({ s with mem := m, graphs := s.graphs ++ [g] }, none)
  | .call i op _ => match s.graphs[i]? with
    | none => (s, none) -- no such graph: not possible
    | some g => let r := step s.mem g op; ({ s with mem := r.1.1, graphs := s.graphs.set i r.1.2 }, r.2)
  | .write o k v => match s.owned o with
    | none => (s, none) -- no such object: not possible
    | some a => ({ s with mem := s.mem.set a k v }, none)
  | .newArg m => ({ s with args := s.args ++ [m] }, none)
  | .setArg a k v => ({ s with args := s.args.modify a fun m => mset m k v }, none)

/-- A history. -/
def State.run (s : State) : List Act → State
  | [] => s
  | a :: as => (s.act a).1.run as

/-- The map argument of a call (entries in the order of the `range`). -/
def argOf : Op → List (Str × Str)
  | .addPortEdge _ _ _ _ _ as => as
  | .addEdge _ _ _ as => as
  | .addNode _ _ as => as
  | .addSubGraph _ _ as => as
  | _ => []

/-- What can happen: the graph exists, the `range` over the map argument visits each of its entries once, and `RemoveSubGraph` visits the
children the subgraph has. -/
def Act.Ok (s : State) : Act → Prop
  | .call i op arg => ∃ g, s.graphs[i]? = some g ∧ (argOf op).Perm ((arg.bind (s.args[·]?)).getD []) ∧
      ∀ p n o, op = .removeSubGraph p n o → o.Perm (mkeys (g.relations.children n))
  | .newArg m => MapWF m
  | _ => True

/-- Everything in the history can happen. -/
def OkActs (s : State) : List Act → Prop
  | [] => True
  | a :: as => a.Ok s ∧ OkActs (s.act a).1 as

end Gographviz.Heap
