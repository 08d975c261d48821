import Verif.Model.WriteMem
import Verif.Spec.Heap
/-!
What it means that goroutines may share graphs which none of them changes.
-/
namespace Gographviz.Spec.Sharing

open Gographviz Gographviz.Heap Gographviz.Threads

/-- The objects of package gographviz in memory, and the maps of the caller. -/
def worldOf (s : State) : World
  | .graph n => (s.graphs[n]?).map .graph
  | .node p => (s.mem.nodes[p]?).map .node
  | .edge p => (s.mem.edges[p]?).map .edge
  | .sub p => (s.mem.subs[p]?).map .sub
  | .map a => (s.mem.maps[a]?).map .map
  | .arr _ => none
  | .set _ => none
  | .arg n => (s.args[n]?).map .arg

/-- A graph with pointers as a graph of values (`Model/Graph.lean`): what is behind the pointers now. -/
def valueOf (m : Mem) (h : HGraph) : Graph :=
  { attrs := m.map h.attrs, name := h.name, directed := h.directed, strict := h.strict
    nodes := ⟨m.nodes.map fun o => ⟨o.name, m.map o.attrs⟩, h.lookup, h.list⟩
    edges := ⟨h.srcToDsts.map fun e => (e.1, e.2.map fun e => (e.1, e.2.map (edgeAt m))),
      h.dstToSrcs.map fun e => (e.1, e.2.map fun e => (e.1, e.2.map (edgeAt m))), h.edges.map (edgeAt m)⟩
    subGraphs := h.subGraphs.map fun e => (e.1, subAt m e.2)
    relations := h.relations }

/-- The value of a result. -/
def okOf {α : Type} (f : α → Out) : WRes α → WRes Out
  | .ok a => .ok (f a)
  | .err e => .err e
  | .panic => .panic
  | .diverge => .diverge

/-- Where the objects of a memory are in another one. -/
structure Places where
  graph : Nat → Nat
  node : Nat → Nat
  edge : Nat → Nat
  sub : Nat → Nat
  map : Nat → Nat

/-- At the same address. -/
def Places.same : Places := ⟨id, id, id, id, id⟩

/-- What the method returns if nothing else happens: `g` is the graph as a value (`Model/Write.lean`, ...), `h` the same graph with pointers. (`ν` tells where
the objects really are.) -/
def Right (ν : Places) (sortE : List Edge → List Edge) (fuel : Nat) (m : Mem) (h : HGraph) (g : Graph) : Query → WRes Out → Prop
  | .writeAst, r => r = okOf .tree (writeAst sortE fuel g)
  | .string, r => r = okOf .text (graphString sortE fuel g)
  | .isNode n, r => r = .ok (.bool (g.isNode n))
  | .isSubGraph n, r => r = .ok (.bool (g.isSubGraph n))
  | .sortedChildren p, r => r = .ok (.names (g.relations.sortedChildren p))
  | .edgesSorted, r => ∃ ps : List Nat, r = .ok (.ptrs (ps.map fun p => some (ν.edge p))) ∧ ps.Perm h.edges ∧ ps.map (edgeAt m) = sortE g.edges.edges
  | .nodesSorted, r => ∃ ps : List Nat, r = .ok (.ptrs (ps.map fun p => some (ν.node p))) ∧ ps.Perm h.list ∧ ps.map (fun p => some (nodeAt m p)) = g.nodes.sorted
  | .subGraphsSorted, r => ∃ ps : List Nat, r = .ok (.ptrs (ps.map fun p => some (ν.sub p))) ∧ (∀ p, p ∈ ps ↔ ∃ k, mget h.subGraphs k = some p) ∧
      ps.map (fun p => some (subAt m p)) = subGraphsSorted g.subGraphs

/-- The address of an access. -/
def touched : Acc → Option Threads.Loc
  | .read l => some l
  | .write l => some l
  | .alloc l => some l
  | .order => none

/-- It changes what is there. -/
def changes : Acc → Bool
  | .write _ => true
  | .alloc _ => true
  | _ => false

/-- Two accesses conflict: the same address, and one of them changes it. -/
def Conflict (a b : Acc) : Prop := ∃ l, touched a = some l ∧ touched b = some l ∧ (changes a = true ∨ changes b = true)

/-- No two goroutines make conflicting accesses (at whatever time). -/
def RaceFree {ι : Type} (tr : List (ι × Acc)) : Prop := ∀ x ∈ tr, ∀ y ∈ tr, x.1 ≠ y.1 → ¬ Conflict x.2 y.2

/-- Goroutine `i` calls the method `(calls i).2` of graph number `(calls i).1`; nothing has happened yet. -/
def calling {ι : Type} (sorter : Nat → SortTree) (fuel : Nat) (calls : ι → Nat × Query) (s : State) : Conf ι Out :=
  ⟨fun i => (calls i).2.prog sorter fuel (calls i).1, worldOf s⟩

/-- Goroutine `i` has returned `r`. -/
def Returned {ι : Type} (c : Conf ι Out) (i : ι) (r : WRes Out) : Prop := c.procs i = .ret r

end Gographviz.Spec.Sharing
