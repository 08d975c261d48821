import Verif.Model.Graph
import Verif.Spec.Attributes
/-!
Specification: the "obvious" abstract machine a user of the `Graph` API has in mind. Nothing here refers to the
data structures of the model: finite maps are functions, containment is a relation.
-/
namespace Gographviz.Spec

open Gographviz

/-- Attributes: a partial function from names to values. -/
abbrev AAttrs := Str → Option Str

/-- An edge with abstract attributes. -/
structure AEdge where
  src : Str
  srcPort : Str
  dst : Str
  dstPort : Str
  dir : Bool
  attrs : AAttrs

/-- The abstract graph. -/
structure AGraph where
  name : Str
  directed : Bool
  strict : Bool
  /-- attributes of the root graph -/
  attrs : AAttrs
  /-- nodes with their attributes -/
  node : Str → Option AAttrs
  /-- edges, oldest first -/
  edges : List AEdge
  /-- subgraphs with their attributes -/
  sub : Str → Option AAttrs
  /-- `contains p c`: `c` is recorded as a child of `p` -/
  contains : Str → Str → Bool

/-- The empty graph. -/
def AGraph.empty : AGraph :=
  { name := [], directed := false, strict := false, attrs := fun _ => none, node := fun _ => none, edges := [],
    sub := fun _ => none, contains := fun _ _ => false }

/-- The value that a list of entries gives to a key (keys are unique, `Op.Ok`). -/
def entry (kvs : List (Str × Str)) (k : Str) : Option Str := (kvs.find? fun e => e.1 == k).map (·.2)

/-- Entries override the old attributes. -/
def merge (old : AAttrs) (kvs : List (Str × Str)) : AAttrs := fun k => (entry kvs k).or (old k)

/-- The first entry with an unregistered name. -/
def firstBad (kvs : List (Str × Str)) : Option Err :=
  (kvs.find? fun e => !decide (Registered e.1)).map fun e => .invalidAttr e.1

/-- Point update of a function. -/
def upd {α : Type} (f : Str → α) (k : Str) (v : α) : Str → α := fun x => if x = k then v else f x

/-- Removing one node: the node, its incident edges and its containment in `parent`. -/
def AGraph.removeNode (a : AGraph) (parent n : Str) : AGraph :=
  { a with
    node := upd a.node n none
    edges := a.edges.filter fun e => !(e.src == n || e.dst == n)
    contains := fun p c => if p = parent ∧ c = n then false else a.contains p c }

/-- Removing nodes one after the other; stops with an error at the first name that is not a node. -/
def AGraph.removeNodes (a : AGraph) (parent : Str) : List Str → AGraph × Option Err
  | [] => (a, none)
  | n :: ns => match a.node n with
    | none => (a, some (.nodeNotFound n))
    | some _ => (a.removeNode parent n).removeNodes parent ns

/-- Setting one attribute of the root graph (if it has the given name) or else of a subgraph. -/
def AGraph.setAttr (a : AGraph) (target k v : Str) : AGraph :=
  if a.name = target then { a with attrs := upd a.attrs k (some v) }
  else match a.sub target with
    | some as => { a with sub := upd a.sub target (some (upd as k (some v))) }
    | none => a

/-- Setting attributes one after the other; stops at the first unregistered name. -/
def AGraph.setAttrs (a : AGraph) (target : Str) : List (Str × Str) → AGraph × Option Err
  | [] => (a, none)
  | (k, v) :: rest => if Registered k then (a.setAttr target k v).setAttrs target rest else (a, some (.invalidAttr k))

/-- One call on the abstract graph: the new graph and the error, if any. -/
def AGraph.step (a : AGraph) : Op → AGraph × Option Err
  | .setStrict b => ({ a with strict := b }, none)
  | .setDir b => ({ a with directed := b }, none)
  | .setName n => ({ a with name := n }, none)
  | .addPortEdge s sp d dp dir as => match firstBad as with
    | some e => (a, some e)
    | none => ({ a with edges := a.edges ++ [⟨s, sp, d, dp, dir, entry as⟩] }, none)
  | .addEdge s d dir as => match firstBad as with
    | some e => (a, some e)
    | none => ({ a with edges := a.edges ++ [⟨s, [], d, [], dir, entry as⟩] }, none)
  | .addNode p n as => match firstBad as with
    | some e => (a, some e)
    | none => ({ a with
        node := upd a.node n (some (merge ((a.node n).getD fun _ => none) as))
        contains := fun p' c' => (p' = p && c' = n) || a.contains p' c' }, none)
  | .addAttr t k v =>
    if a.name = t ∨ (a.sub t).isSome then
      if Registered k then (a.setAttr t k v, none) else (a, some (.invalidAttr k))
    else (a, some (.noSuchGraph t))
  | .addSubGraph p n as =>
    { a with
      sub := upd a.sub n (some ((a.sub n).getD fun _ => none))
      contains := fun p' c' => (p' = p && c' = n) || a.contains p' c' }.setAttrs n as
  | .removeNode p n => match a.node n with
    | none => (a, some (.nodeNotFound n))
    | some _ => (a.removeNode p n, none)
  | .removeSubGraph p n order => match a.removeNodes p order with
    | (a', some e) => (a', some e)
    | (a', none) => ({ a' with
        sub := upd a'.sub n none
        edges := a'.edges.filter fun e => !(e.src == n || e.srcPort == n || e.dst == n || e.dstPort == n)
        contains := fun p' c' => if p' = p ∧ c' = n then false else a'.contains p' c' }, none)

end Gographviz.Spec
