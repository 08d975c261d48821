import Verif.Model.Heap
/-!
What one observes of a graph with pointers: its contents, as plain values, and what each call does to them.
-/
namespace Gographviz.Spec

open Gographviz Heap

/-- The contents of a graph: all its values, without any pointers. -/
structure Contents where
  name : Str
  directed : Bool
  strict : Bool
  attrs : Attrs
  /-- the nodes in the order of `g.Nodes.Nodes` -/
  nodes : List Node
  /-- the edges in the order of `g.Edges.Edges` -/
  edges : List Edge
  subs : Map SubGraph
  relations : Relations
  deriving DecidableEq, Repr

/-- The contents of a graph of `Model/Graph.lean`. -/
def contentsOf (g : Graph) : Contents :=
  { name := g.name, directed := g.directed, strict := g.strict, attrs := g.attrs
    nodes := g.nodes.list.map fun p => (g.nodes.deref p).getD ⟨[], []⟩
    edges := g.edges.edges, subs := g.subGraphs, relations := g.relations }

/-- The value of the node object at an address. -/
def nodeAt (m : Mem) (p : Nat) : Node := match m.nodes[p]? with
  | some o => ⟨o.name, m.map o.attrs⟩
  | none => ⟨[], []⟩

/-- The value of the edge object at an address. -/
def edgeAt (m : Mem) (p : Nat) : Edge := match m.edges[p]? with
  | some o => ⟨o.src, o.srcPort, o.dst, o.dstPort, o.dir, m.map o.attrs⟩
  | none => ⟨[], [], [], [], false, []⟩

/-- The value of the subgraph object at an address. -/
def subAt (m : Mem) (p : Nat) : SubGraph := match m.subs[p]? with
  | some o => ⟨m.map o.attrs, o.name⟩
  | none => ⟨[], []⟩

/-- The contents of a graph with pointers. -/
def contents (m : Mem) (g : HGraph) : Contents :=
  { name := g.name, directed := g.directed, strict := g.strict, attrs := m.map g.attrs
    nodes := g.list.map (nodeAt m), edges := g.edges.map (edgeAt m), subs := g.subGraphs.map fun e => (e.1, subAt m e.2)
    relations := g.relations }

/-- Add an edge. -/
def Contents.addEdge (c : Contents) (src srcPort dst dstPort : Str) (dir : Bool) (kvs : List (Str × Str)) : Contents × Option Err :=
  match newAttrs kvs with
  | .error e => (c, some e)
  | .ok as => ({ c with edges := c.edges ++ [⟨src, srcPort, dst, dstPort, dir, as⟩] }, none)

/-- Add a node, or extend the attributes of the one with this name. -/
def Contents.addNode (c : Contents) (parent name : Str) (kvs : List (Str × Str)) : Contents × Option Err :=
  match newAttrs kvs with
  | .error e => (c, some e)
  | .ok as => ({ c with
      nodes := if c.nodes.any (fun n => decide (n.name = name))
        then c.nodes.map fun n => if n.name = name then { n with attrs := attrsExtend n.attrs as } else n
        else c.nodes ++ [⟨name, as⟩]
      relations := c.relations.add parent name }, none)

/-- Remove a node and its edges. -/
def Contents.removeNode (c : Contents) (parent name : Str) : Contents × Option Err :=
  if c.nodes.any (fun n => decide (n.name = name)) then
    ({ c with
      nodes := c.nodes.filter fun n => !decide (n.name = name)
      edges := c.edges.filter fun e => !(decide (e.dst = name) || decide (e.src = name))
      relations := c.relations.remove parent name }, none)
  else (c, some (.nodeNotFound name))

/-- Remove nodes until one is missing. -/
def Contents.removeNodes (c : Contents) (parent : Str) : List Str → Contents × Option Err
  | [] => (c, none)
  | n :: ns => match c.removeNode parent n with
    | (c', some e) => (c', some e)
    | (c', none) => c'.removeNodes parent ns

/-- Set an attribute of the graph or of a subgraph. -/
def Contents.addAttr (c : Contents) (parent field value : Str) : Contents × Option Err :=
  if c.name = parent then
    match attrsAdd c.attrs field value with
    | .error e => (c, some e)
    | .ok as => ({ c with attrs := as }, none)
  else match mget c.subs parent with
    | none => (c, some (.noSuchGraph parent))
    | some s => match attrsAdd s.attrs field value with
      | .error e => (c, some e)
      | .ok as => ({ c with subs := mset c.subs parent { s with attrs := as } }, none)

/-- Set attributes until one has no registered name. -/
def Contents.addAttrs (c : Contents) (name : Str) : List (Str × Str) → Contents × Option Err
  | [] => (c, none)
  | (k, v) :: rest => match c.addAttr name k v with
    | (c', some e) => (c', some e)
    | (c', none) => c'.addAttrs name rest

/-- What each call does to the contents. -/
def Contents.step (c : Contents) : Op → Contents × Option Err
  | .setStrict b => ({ c with strict := b }, none)
  | .setDir b => ({ c with directed := b }, none)
  | .setName n => ({ c with name := n }, none)
  | .addPortEdge s sp d dp dir as => c.addEdge s sp d dp dir as
  | .addEdge s d dir as => c.addEdge s [] d [] dir as
  | .addNode p n as => c.addNode p n as
  | .addAttr p f v => c.addAttr p f v
  | .addSubGraph p n as => { c with relations := c.relations.add p n, subs := subGraphsAdd c.subs n }.addAttrs n as
  | .removeNode p n => c.removeNode p n
  | .removeSubGraph p n o => match c.removeNodes p o with
    | (c', some e) => (c', some e)
    | (c', none) => ({ c' with
        relations := c'.relations.remove p n
        subs := mdel c'.subs n
        edges := c'.edges.filter fun e => !(decide (e.dst = n) || decide (e.dstPort = n) || decide (e.src = n) || decide (e.srcPort = n)) },
        none)

/-- The attributes of something (none if it does not exist). -/
def attrsOf (s : State) (o : Owner) : Option Attrs := (s.owned o).map s.mem.map

/-- The calls made on graph `i` in a history that starts in `s`. -/
def opsOn (i : Nat) : List Act → List Op
  | [] => []
  | .call j op _ :: as => if j = i then op :: opsOn i as else opsOn i as
  | _ :: as => opsOn i as

/-- No direct writes to attributes. -/
def NoWrites (as : List Act) : Prop := ∀ o k v, Act.write o k v ∉ as

/-- The states a program can reach. -/
def Reached (s : State) : Prop := ∃ acts, OkActs start acts ∧ s = start.run acts

/-- The object is a node, an edge or a subgraph of the graph (by pointer). -/
def InGraph (g : HGraph) : Owner → Prop
  | .graph _ => False
  | .node p => p ∈ g.list
  | .edge p => p ∈ g.edges
  | .sub p => ∃ k, mget g.subGraphs k = some p

/-- An object that exists, but is in no graph (any more). -/
def Detached (s : State) (o : Owner) : Prop :=
  (∃ a, s.owned o = some a) ∧ (∀ i, o ≠ .graph i) ∧ ∀ g ∈ s.graphs, ¬ InGraph g o

/-- Old elements that stay come first, in their old order; then new ones (objects that did not exist before, so at addresses from `n`). -/
def Grown (n : Nat) (l l' : List Nat) : Prop := ∃ old new, l' = old ++ new ∧ List.Sublist old l ∧ ∀ p ∈ new, n ≤ p

/-- `g.Nodes.Lookup[name]` (an address) for graph `i`. -/
def nodePtr (s : State) (i : Nat) (name : Str) : Option Nat := (s.graphs[i]?).bind fun g => mget g.lookup name

/-- `g.SubGraphs.SubGraphs[name]` (an address) for graph `i`. -/
def subPtr (s : State) (i : Nat) (name : Str) : Option Nat := (s.graphs[i]?).bind fun g => mget g.subGraphs name

/-- Something holds before and after every action of a history. -/
def Throughout (P : State → Prop) (s : State) : List Act → Prop
  | [] => P s
  | a :: as => P s ∧ Throughout P (s.act a).1 as

end Gographviz.Spec
