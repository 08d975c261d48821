import Verif.Model.Graph
/-!
The slices of nodes.go and edges.go with their backing arrays. `Model/Containers.lean` has plain lists instead; here the
arrays are explicit, so that one can speak about a slice that the caller saved (`saved := g.Nodes.Nodes`) before later calls.
That both models agree is proved in `Props/SliceProps.lean`.
-/
namespace Gographviz.Slices

variable {α : Type}

/-- The backing arrays of one element type, in the order of their allocation (never freed). A cell is a pointer; `none` is
nil, the content of the cells that nobody has written yet. -/
abbrev Mem (α : Type) := List (List (Option α))

/-- A Go slice. All slices stored by the package start at offset 0 of their array. -/
structure Slice where
  arr : Nat
  len : Nat
  cap : Nat
  deriving DecidableEq, Repr

/-- The elements one sees through a slice. -/
def view (m : Mem α) (s : Slice) : List (Option α) := ((m[s.arr]?).getD []).take s.len

/-- `s[i]` (`none` also if out of range). -/
def cell (m : Mem α) (s : Slice) (i : Nat) : Option α := ((view m s)[i]?).getD none

/-- `make([]T, 0)`. -/
def make (m : Mem α) : Mem α × Slice := (m ++ [[]], ⟨m.length, 0, 0⟩)

/-- `s[:i]`: the same array and capacity. -/
def Slice.upto (s : Slice) (i : Nat) : Slice := { s with len := i }

/-- Writing `xs` into the cells from `pos` on. -/
def overwrite (a : List (Option α)) (pos : Nat) (xs : List (Option α)) : List (Option α) :=
  a.take pos ++ xs ++ a.drop (pos + xs.length)

/-- How much spare capacity a growing `append` leaves, as a function of the number of arrays allocated so far and of the length
needed. The language leaves this open; the theorems hold for every such function. -/
abbrev Growth := Nat → Nat → Nat

/-- The built-in `append(s, xs...)`: in place if the capacity suffices, else into a new array. -/
def append (grow : Growth) (m : Mem α) (s : Slice) (xs : List (Option α)) : Mem α × Slice :=
  if s.len + xs.length ≤ s.cap then
    (m.modify s.arr (fun a => overwrite a s.len xs), { s with len := s.len + xs.length })
  else
    let extra := grow m.length (s.len + xs.length)
    (m ++ [view m s ++ xs ++ List.replicate extra none],
      ⟨m.length, s.len + xs.length, s.len + xs.length + extra⟩)

/-! ### nodes.go -/

/-- nodes.go:29-32 with the arrays of all `[]*Node`. A `*Node` is an index into `heap`, as in `Gographviz.Nodes`. -/
structure SNodes where
  heap : List Node
  lookup : Map Nat
  slice : Slice
  mem : Mem Nat
  deriving Repr

/-- nodes.go:35-37. -/
def newSNodes : SNodes := let (m, s) := make []; ⟨[], [], s, m⟩

/-- nodes.go:40-53 `Remove`: the first index whose node has the name, `append(nodes.Nodes[:i], nodes.Nodes[i+1:]...)` — which
shifts the cells of the shared array — and the deletion from the map. -/
def SNodes.remove (grow : Growth) (ns : SNodes) (name : Str) : SNodes × Option Err :=
  let v := view ns.mem ns.slice
  match v.findIdx? (fun p => (p.bind (ns.heap[·]?)).map Node.name = some name) with
  | none => (ns, some (.nodeNotFound name))
  | some i =>
    let (m, s) := append grow ns.mem (ns.slice.upto i) (v.drop (i + 1))
    ({ ns with lookup := mdel ns.lookup name, slice := s, mem := m }, none)

/-- nodes.go:56-64 `Add`. -/
def SNodes.add (grow : Growth) (ns : SNodes) (node : Node) : SNodes :=
  match mget ns.lookup node.name with
  | some p => { ns with heap := ns.heap.modify p (fun n => { n with attrs := attrsExtend n.attrs node.attrs }) }
  | none =>
    let (m, s) := append grow ns.mem ns.slice [some ns.heap.length]
    { heap := ns.heap ++ [node]
      lookup := mset ns.lookup node.name ns.heap.length
      slice := s
      mem := m }

/-! ### edges.go -/

/-- edges.go:32-36. -/
structure SEdges where
  srcToDsts : Map (Map Slice)
  dstToSrcs : Map (Map Slice)
  edges : Slice
  deriving Repr

/-- edges.go:39-41 `NewEdges`. -/
def newSEdges (m : Mem Edge) : Mem Edge × SEdges := let (m, s) := make m; (m, ⟨[], [], s⟩)

/-- edges.go:45-51 (and 53-59 with the arguments swapped): make the inner map and the slice if missing, then append. -/
def indexAdd (grow : Growth) (m : Mem Edge) (idx : Map (Map Slice)) (k1 k2 : Str) (e : Edge) :
    Mem Edge × Map (Map Slice) :=
  let idx := if mhas idx k1 then idx else mset idx k1 []
  let inner := (mget idx k1).getD []
  let (m, s) := match mget inner k2 with
    | some s => (m, s)
    | none => make m
  let (m, s) := append grow m s [some e]
  (m, mset idx k1 (mset inner k2 s))

/-- edges.go:44-62 `Edges.Add`. -/
def SEdges.add (grow : Growth) (m : Mem Edge) (es : SEdges) (e : Edge) : Mem Edge × SEdges :=
  let (m, sd) := indexAdd grow m es.srcToDsts e.src e.dst e
  let (m, ds) := indexAdd grow m es.dstToSrcs e.dst e.src e
  let (m, s) := append grow m es.edges [some e]
  (m, ⟨sd, ds, s⟩)

/-- graph.go:110-116 and 168-174: `for _, e := range g.Edges.Edges { ...; edges.Add(e) }`. `old` is the slice the `range`
statement evaluated at its start; element `i` is read from the current memory in iteration `i`, for the `i` listed. (A nil
element would make the code panic; the model skips it. There is none: `Props/SliceProps.lean`.) -/
def rebuildLoop (grow : Growth) (keep : Edge → Bool) (old : Slice) : List Nat → Mem Edge → SEdges → Mem Edge × SEdges
  | [], m, es => (m, es)
  | i :: is, m, es =>
    match cell m old i with
    | none => rebuildLoop grow keep old is m es
    | some e =>
      if keep e then
        let r := es.add grow m e
        rebuildLoop grow keep old is r.1 r.2
      else rebuildLoop grow keep old is m es

/-- graph.go:109-116 and 167-174: `NewEdges` and the loop. -/
def rebuild (grow : Growth) (keep : Edge → Bool) (m : Mem Edge) (es : SEdges) : Mem Edge × SEdges :=
  let r := newSEdges m
  rebuildLoop grow keep es.edges (List.range es.edges.len) r.1 r.2

/-- edges.go:65-70 `Edges.Sorted`: a new array of the same length, `copy`, and a sort in place of the copy (`sortP`: what `sort.Sort`
does to the cells of the slice it is given). -/
def SEdges.sorted (sortP : List (Option Edge) → List (Option Edge)) (m : Mem Edge) (es : SEdges) : Mem Edge × Slice :=
  let c : Slice := ⟨m.length, es.edges.len, es.edges.len⟩
  let m := m ++ [List.replicate es.edges.len none]
  let m := m.modify c.arr (fun a => overwrite a 0 (view m es.edges))
  (m.modify c.arr (fun a => sortP (a.take c.len) ++ a.drop c.len), c)

/-! ### graph.go -/

/-- graph.go:23-32. The fields without slices are those of `rest` (whose own `nodes` and `edges` are not used). -/
structure SGraph where
  rest : Graph
  nodes : SNodes
  edges : SEdges
  emem : Mem Edge
  deriving Repr

/-- graph.go:35-46. -/
def newSGraph : SGraph := let (m, es) := newSEdges []; ⟨newGraph, newSNodes, es, m⟩

/-- graph.go:71-78 `AddPortEdge`. -/
def SGraph.addPortEdge (grow : Growth) (g : SGraph) (src srcPort dst dstPort : Str) (directed : Bool)
    (attrs : List (Str × Str)) : SGraph × Option Err :=
  match newAttrs attrs with
  | .error e => (g, some e)
  | .ok as =>
    let (m, es) := g.edges.add grow g.emem ⟨src, srcPort, dst, dstPort, directed, as⟩
    ({ g with edges := es, emem := m }, none)

/-- graph.go:90-98 `AddNode`. -/
def SGraph.addNode (grow : Growth) (g : SGraph) (parent name : Str) (attrs : List (Str × Str)) : SGraph × Option Err :=
  match newAttrs attrs with
  | .error e => (g, some e)
  | .ok as =>
    ({ g with nodes := g.nodes.add grow ⟨name, as⟩
              rest := { g.rest with relations := g.rest.relations.add parent name } }, none)

/-- graph.go:101-121 `RemoveNode`. -/
def SGraph.removeNode (grow : Growth) (g : SGraph) (parent name : Str) : SGraph × Option Err :=
  match g.nodes.remove grow name with
  | (_, some e) => (g, some e)
  | (ns, none) =>
    let (m, es) := rebuild grow (fun e => !(decide (e.dst = name) || decide (e.src = name))) g.emem g.edges
    ({ nodes := ns
       rest := { g.rest with relations := g.rest.relations.remove parent name }
       edges := es
       emem := m }, none)

/-- graph.go:157-162. -/
def SGraph.removeNodes (grow : Growth) (g : SGraph) (parent : Str) : List Str → SGraph × Option Err
  | [] => (g, none)
  | c :: cs => match g.removeNode grow parent c with
    | (g', some e) => (g', some e)
    | (g', none) => g'.removeNodes grow parent cs

/-- graph.go:156-179 `RemoveSubGraph`. -/
def SGraph.removeSubGraph (grow : Growth) (g : SGraph) (parent name : Str) (order : List Str) : SGraph × Option Err :=
  match g.removeNodes grow parent order with
  | (g', some e) => (g', some e)
  | (g', none) =>
    let (m, es) := rebuild grow (fun e => !(decide (e.dst = name) || decide (e.dstPort = name) ||
                    decide (e.src = name) || decide (e.srcPort = name))) g'.emem g'.edges
    ({ g' with
        rest := { g'.rest with
          relations := g'.rest.relations.remove parent name
          subGraphs := mdel g'.rest.subGraphs name }
        edges := es
        emem := m }, none)

/-- One call of the API. The calls that touch no slice are those of `Graph` (graph.go:51-66, 123-153). -/
def SGraph.step (grow : Growth) (g : SGraph) : Op → SGraph × Option Err
  | .addPortEdge s sp d dp dir as => g.addPortEdge grow s sp d dp dir as
  | .addEdge s d dir as => g.addPortEdge grow s [] d [] dir as
  | .addNode p n as => g.addNode grow p n as
  | .removeNode p n => g.removeNode grow p n
  | .removeSubGraph p n o => g.removeSubGraph grow p n o
  | op => ({ g with rest := (g.rest.step op).1 }, (g.rest.step op).2)

/-- A history of calls. -/
def SGraph.run (grow : Growth) (g : SGraph) : List Op → SGraph
  | [] => g
  | op :: ops => (g.step grow op).1.run grow ops

/-- The errors of a history. -/
def SGraph.runErrs (grow : Growth) (g : SGraph) : List Op → List (Option Err)
  | [] => []
  | op :: ops => (g.step grow op).2 :: (g.step grow op).1.runErrs grow ops

/-- The caller's loop `for _, n := range g.Nodes.Nodes { g.RemoveNode(parent, n.Name) }`, errors ignored. `saved` is the slice that
`range` evaluated at its start; element `i` is read in iteration `i`. (A nil element would make the loop panic; the model stops.) -/
def removeWhileRanging (grow : Growth) (parent : Str) (saved : Slice) : List Nat → SGraph → SGraph
  | [], g => g
  | i :: is, g =>
    match (cell g.nodes.mem saved i).bind (g.nodes.heap[·]?) with
    | none => g
    | some n => removeWhileRanging grow parent saved is (g.removeNode grow parent n.name).1

end Gographviz.Slices
