import Verif.Model.Containers
/-!
graph.go.
-/
namespace Gographviz

/-- graph.go:23-32. -/
structure Graph where
  attrs : Attrs
  name : Str
  directed : Bool
  strict : Bool
  nodes : Nodes
  edges : Edges
  subGraphs : Map SubGraph
  relations : Relations
  deriving DecidableEq, Repr

/-- graph.go:35-46 `NewGraph`. -/
def newGraph : Graph :=
  { attrs := [], name := [], directed := false, strict := false, nodes := newNodes, edges := newEdges
    subGraphs := [], relations := newRelations }

/-- graph.go:51-54. -/
def Graph.setStrict (g : Graph) (strict : Bool) : Graph × Option Err := ({ g with strict := strict }, none)

/-- graph.go:57-60. -/
def Graph.setDir (g : Graph) (dir : Bool) : Graph × Option Err := ({ g with directed := dir }, none)

/-- graph.go:63-66. -/
def Graph.setName (g : Graph) (name : Str) : Graph × Option Err := ({ g with name := name }, none)

/-- graph.go:71-78 `AddPortEdge`. Here and below `attrs` lists the entries of the argument map in the order in which Go's
`range` visits them. -/
def Graph.addPortEdge (g : Graph) (src srcPort dst dstPort : Str) (directed : Bool) (attrs : List (Str × Str)) :
    Graph × Option Err :=
  match newAttrs attrs with
  | .error e => (g, some e)
  | .ok as => ({ g with edges := g.edges.add ⟨src, srcPort, dst, dstPort, directed, as⟩ }, none)

/-- graph.go:83-85 `AddEdge`. -/
def Graph.addEdge (g : Graph) (src dst : Str) (directed : Bool) (attrs : List (Str × Str)) : Graph × Option Err :=
  g.addPortEdge src [] dst [] directed attrs

/-- graph.go:90-98 `AddNode`. -/
def Graph.addNode (g : Graph) (parent name : Str) (attrs : List (Str × Str)) : Graph × Option Err :=
  match newAttrs attrs with
  | .error e => (g, some e)
  | .ok as => ({ g with nodes := g.nodes.add ⟨name, as⟩, relations := g.relations.add parent name }, none)

/-- graph.go:109-116 and 167-174: rebuild the edge set keeping the edges that satisfy `keep`. -/
def edgesRebuild (keep : Edge → Bool) (es : List Edge) : Edges :=
  es.foldl (fun acc e => if keep e then acc.add e else acc) newEdges

/-- graph.go:101-121 `RemoveNode`. -/
def Graph.removeNode (g : Graph) (parent name : Str) : Graph × Option Err :=
  match g.nodes.remove name with
  | (_, some e) => (g, some e)
  | (ns, none) =>
    ({ g with
        nodes := ns
        relations := g.relations.remove parent name
        edges := edgesRebuild (fun e => !(decide (e.dst = name) || decide (e.src = name))) g.edges.edges }, none)

/-- graph.go:134-141 `AddAttr` with graph.go:123-132 `getAttrs`: the attribute map is looked up (root name first) and
changed in place. -/
def Graph.addAttr (g : Graph) (parent field value : Str) : Graph × Option Err :=
  if g.name = parent then
    match attrsAdd g.attrs field value with
    | .error e => (g, some e)
    | .ok as => ({ g with attrs := as }, none)
  else match mget g.subGraphs parent with
    | none => (g, some (.noSuchGraph parent))
    | some sub => match attrsAdd sub.attrs field value with
      | .error e => (g, some e)
      | .ok as => ({ g with subGraphs := mset g.subGraphs parent { sub with attrs := as } }, none)

/-- graph.go:147-151: the loop of `AddSubGraph`; stops at the first error. -/
def Graph.addAttrs (g : Graph) (name : Str) : List (Str × Str) → Graph × Option Err
  | [] => (g, none)
  | (k, v) :: rest => match g.addAttr name k v with
    | (g', some e) => (g', some e)
    | (g', none) => g'.addAttrs name rest

/-- graph.go:144-153 `AddSubGraph`. -/
def Graph.addSubGraph (g : Graph) (parent name : Str) (attrs : List (Str × Str)) : Graph × Option Err :=
  { g with relations := g.relations.add parent name, subGraphs := subGraphsAdd g.subGraphs name }.addAttrs name attrs

/-- graph.go:157-162: the loop of `RemoveSubGraph` over the children in the order of the `range`. -/
def Graph.removeNodes (g : Graph) (parent : Str) : List Str → Graph × Option Err
  | [] => (g, none)
  | c :: cs => match g.removeNode parent c with
    | (g', some e) => (g', some e)
    | (g', none) => g'.removeNodes parent cs

/-- graph.go:156-179 `RemoveSubGraph`. `order` is the order in which the `range` of line 157 visits the keys of
`ParentToChildren[name]`. (Line 158 may delete the visited key from the map being ranged over, never another
one, so every key is visited exactly once.) -/
def Graph.removeSubGraph (g : Graph) (parent name : Str) (order : List Str) : Graph × Option Err :=
  match g.removeNodes parent order with
  | (g', some e) => (g', some e)
  | (g', none) =>
    ({ g' with
        relations := g'.relations.remove parent name
        subGraphs := mdel g'.subGraphs name
        edges := edgesRebuild (fun e => !(decide (e.dst = name) || decide (e.dstPort = name) ||
                    decide (e.src = name) || decide (e.srcPort = name))) g'.edges.edges }, none)

/-- graph.go:182-185 `IsNode`. -/
def Graph.isNode (g : Graph) (name : Str) : Bool := mhas g.nodes.lookup name

/-- graph.go:188-191 `IsSubGraph`. -/
def Graph.isSubGraph (g : Graph) (name : Str) : Bool := mhas g.subGraphs name

/-- graph.go:193-197. -/
def Graph.isClusterSubGraph (g : Graph) (name : Str) : Bool := g.isSubGraph name && hasPrefix name (b!"cluster")

/-- One call of the `Graph` API with its arguments (maps as entry lists in `range` order). -/
inductive Op where
  | setStrict (strict : Bool)
  | setDir (dir : Bool)
  | setName (name : Str)
  | addPortEdge (src srcPort dst dstPort : Str) (directed : Bool) (attrs : List (Str × Str))
  | addEdge (src dst : Str) (directed : Bool) (attrs : List (Str × Str))
  | addNode (parent name : Str) (attrs : List (Str × Str))
  | addAttr (parent field value : Str)
  | addSubGraph (parent name : Str) (attrs : List (Str × Str))
  | removeNode (parent name : Str)
  | removeSubGraph (parent name : Str) (order : List Str)
  deriving Repr

/-- Executing one call. -/
def Graph.step (g : Graph) : Op → Graph × Option Err
  | .setStrict b => g.setStrict b
  | .setDir b => g.setDir b
  | .setName n => g.setName n
  | .addPortEdge s sp d dp dir as => g.addPortEdge s sp d dp dir as
  | .addEdge s d dir as => g.addEdge s d dir as
  | .addNode p n as => g.addNode p n as
  | .addAttr p f v => g.addAttr p f v
  | .addSubGraph p n as => g.addSubGraph p n as
  | .removeNode p n => g.removeNode p n
  | .removeSubGraph p n o => g.removeSubGraph p n o

/-- Arguments that can occur: entry lists come from maps (no key twice), and the order of `RemoveSubGraph` is an order of
the actual children. -/
def Op.Ok (g : Graph) : Op → Prop
  | .addPortEdge _ _ _ _ _ as => (as.map Prod.fst).Nodup
  | .addEdge _ _ _ as => (as.map Prod.fst).Nodup
  | .addNode _ _ as => (as.map Prod.fst).Nodup
  | .addSubGraph _ _ as => (as.map Prod.fst).Nodup
  | .removeSubGraph _ n o => o.Perm (mkeys (g.relations.children n))
  | _ => True

/-- The graphs that some history of API calls produces from `NewGraph()` (failing calls included). -/
inductive Reachable : Graph → Prop where
  | init : Reachable newGraph
  | step {g : Graph} (op : Op) : Reachable g → op.Ok g → Reachable (g.step op).1

/-- Running a history of calls. -/
def Graph.run (g : Graph) : List Op → Graph
  | [] => g
  | op :: ops => (g.step op).1.run ops

/-- The errors returned by the calls of a history, in order (`none`: nil). -/
def Graph.runErrs (g : Graph) : List Op → List (Option Err)
  | [] => []
  | op :: ops => (g.step op).2 :: (g.step op).1.runErrs ops

/-- Every call of the history has possible arguments. -/
def OkHistory (g : Graph) : List Op → Prop
  | [] => True
  | op :: ops => op.Ok g ∧ OkHistory (g.step op).1 ops

instance (g : Graph) (op : Op) : Decidable (op.Ok g) := by
  cases op <;> unfold Op.Ok <;> infer_instance

instance decOkHistory (g : Graph) : (ops : List Op) → Decidable (OkHistory g ops)
  | [] => .isTrue trivial
  | op :: ops => @instDecidableAnd _ _ _ (decOkHistory (g.step op).1 ops)

theorem Reachable.run {g : Graph} (h : Reachable g) {ops : List Op} (hok : OkHistory g ops) : Reachable (g.run ops) := by
  induction ops generalizing g with
  | nil => exact h
  | cons op ops ih => exact ih (.step op h hok.1) hok.2

end Gographviz
