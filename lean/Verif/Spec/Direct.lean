import Verif.Model.Direct
import Verif.Spec.Attributes
/-!
Specification for C65: what a caller expects of the containers `Nodes`, `Edges`, `Relations`, `SubGraphs` and of `Attrs`, used directly. In terms of the calls
and of what the caller can see: the slices and maps.
-/
namespace Gographviz.Spec.Direct

open Gographviz Gographviz.Spec

/-- The name of a node object. -/
def nodeName (d : Direct) (p : Nat) : Option Str := (d.nodes[p]?).map DNode.name

/-- The calls of `Nodes.Add` and `Nodes.Remove`. -/
inductive NodesCall where
  | add (p : Nat)
  | remove (name : Str)

/-- The calls on the container `c`. -/
def nodesCall (c : Nat) : DOp → Option NodesCall
  | .nodesAdd c' p => if c' = c then some (.add p) else none
  | .nodesRemove c' n => if c' = c then some (.remove n) else none
  | _ => none

/-- What a call makes of the slice: a node is appended unless there is one with its name; the nodes with the removed name are left out. -/
def sliceAfter (name : Nat → Option Str) (l : List Nat) : NodesCall → List Nat
  | .add p => if l.any (fun q => name q == name p) then l else l ++ [p]
  | .remove n => l.filter fun q => name q != some n

/-- The edges added to the container `c`, in order. -/
def edgesAdded (c : Nat) (os : List DOp) : List Nat := os.filterMap fun
  | .edgesAdd c' p => if c' = c then some p else none
  | _ => none

/-- Whether the container `c` relates `p` and `ch` after the calls: the last call about the pair decides. -/
def relatedAfter (c : Nat) (p ch : Str) (before : Bool) : List DOp → Bool
  | [] => before
  | .relationsAdd c' p' ch' :: os => relatedAfter c p ch (before || (c' == c && p' == p && ch' == ch)) os
  | .relationsRemove c' p' ch' :: os => relatedAfter c p ch (before && !(c' == c && p' == p && ch' == ch)) os
  | _ :: os => relatedAfter c p ch before os

/-- Whether the container `c` has a subgraph with the name after the calls. -/
def subGraphAfter (c : Nat) (n : Str) (before : Bool) : List DOp → Bool
  | [] => before
  | .subGraphsAdd c' n' :: os => subGraphAfter c n (before || (c' == c && n' == n)) os
  | .subGraphsRemove c' n' :: os => subGraphAfter c n (before && !(c' == c && n' == n)) os
  | _ :: os => subGraphAfter c n before os

/-- The objects a call mentions exist. -/
def Known (d : Direct) : DOp → Prop
  | .nodesAdd c p => c < d.nodesCs.length ∧ p < d.nodes.length
  | .nodesRemove c _ => c < d.nodesCs.length
  | .edgesAdd c p => c < d.edgesCs.length ∧ p < d.edges.length
  | .relationsAdd c _ _ => c < d.relations.length
  | .relationsRemove c _ _ => c < d.relations.length
  | .subGraphsAdd c _ => c < d.subGraphs.length
  | .subGraphsRemove c _ => c < d.subGraphs.length
  | .attrsAdd (some a) _ _ => a < d.maps.length
  | .attrsExtend (some a) _ => a < d.maps.length
  | .attrsAmmend (some a) _ => a < d.maps.length
  | .newNode _ (some a) => a < d.maps.length
  | _ => True

/-- A history in which each call mentions only objects that exist. -/
def Sensible (d : Direct) : List DOp → Prop
  | [] => True
  | o :: os => Known d o ∧ Sensible (d.step o).1 os

/-- The slice and the map of a `Nodes` agree: the slice has no pointer twice, and the map has exactly the nodes of the slice, under their names. -/
structure NodesAgree (d : Direct) (ns : DNodes) : Prop where
  once : ns.list.Nodup
  lookup : ∀ n p, mget ns.lookup n = some p ↔ p ∈ ns.list ∧ nodeName d p = some n
  exist : ∀ p ∈ ns.list, p < d.nodes.length

/-- The edges of a slice with the given ends. -/
def between (d : Direct) (l : List Nat) (s t : Str) : List Nat :=
  l.filter fun p => (d.edges[p]?).map DEdge.src == some s && (d.edges[p]?).map DEdge.dst == some t

/-- The two maps of an `Edges` have exactly the edges of the slice, by their ends, in the order of the slice. -/
structure EdgesAgree (d : Direct) (es : DEdges) : Prop where
  src : ∀ s t, ((mget es.srcToDsts s).bind (mget · t)).getD [] = between d es.edges s t
  dst : ∀ s t, ((mget es.dstToSrcs t).bind (mget · s)).getD [] = between d es.edges s t
  exist : ∀ p ∈ es.edges, p < d.edges.length

/-- A call that would assign to a nil map. -/
def NilWrite (d : Direct) : DOp → Prop
  | .attrsAdd none f _ => Registered f
  | .attrsExtend none b => d.attrs b ≠ []
  | .attrsAmmend none b => d.attrs b ≠ []
  | .nodesAdd c p => ∃ ns n q m, d.nodesCs[c]? = some ns ∧ d.nodes[p]? = some n ∧ q ∈ ns.list ∧ d.nodes[q]? = some m ∧ m.name = n.name ∧
      m.attrs = none ∧ d.attrs n.attrs ≠ []
  | _ => False

/-- A call that returns an error, and the error. -/
def Fails (d : Direct) : DOp → Err → Prop
  | .newAttrs kvs, e => ∃ pre k v post, kvs = pre ++ (k, v) :: post ∧ (∀ x ∈ pre, Registered x.1) ∧ ¬ Registered k ∧ e = .invalidAttr k
  | .attrsAdd _ f _, e => ¬ Registered f ∧ e = .invalidAttr f
  | .nodesRemove c n, e => e = .nodeNotFound n ∧ ∀ ns, d.nodesCs[c]? = some ns → ∀ p ∈ ns.list, nodeName d p ≠ some n
  | _, _ => False

end Gographviz.Spec.Direct
