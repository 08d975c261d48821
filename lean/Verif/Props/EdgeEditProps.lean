import Verif.Proofs.EdgeEdits
import Verif.Props.GraphProps
/-!
C99: the edge list may be edited directly.
-/
namespace Gographviz.Props

open Gographviz Spec EdgeEdit

/-- C99. However a caller mixes calls of the API and assignments to `g.Edges.Edges` (filtered, reordered or extended lists), the graph has the same fields as a
graph made by calls alone, except for the maps `SrcToDsts` and `DstToSrcs`, and it is written as that graph: `WriteAst` and `String` have the same results. -/
theorem C99_edited {g : Graph} (h : Edited g) :
    ∃ g', Reachable g' ∧ SameButIndexes g g' ∧
      ∀ (sortE : List Edge → List Edge) (f : Nat), writeAst sortE f g = writeAst sortE f g' ∧ graphString sortE f g = graphString sortE f g' := by
  obtain ⟨E, hE, he⟩ := Edited.sim h
  refine ⟨withE g E, hE, ⟨rfl, rfl, rfl, rfl, rfl, he.symm, rfl, rfl⟩, fun sortE f => ⟨(writeAst_withE g he sortE f).symm, ?_⟩⟩
  unfold graphString
  rw [writeAst_withE g he sortE f]

/-- C99. The maps are not needed for anything: a call returns the same error (or none) and leaves the same fields on two graphs that differ only in them. -/
theorem C99_calls {g g' : Graph} (h : SameButIndexes g g') (op : Op) :
    (g.step op).2 = (g'.step op).2 ∧ SameButIndexes (g.step op).1 (g'.step op).1 := by
  have e : g' = withE g g'.edges := by
    obtain ⟨h1, h2, h3, h4, h5, -, h7, h8⟩ := h
    cases g; cases g'
    simp only at h1 h2 h3 h4 h5 h7 h8
    subst h1 h2 h3 h4 h5 h7 h8
    rfl
  obtain ⟨E', h1, h2⟩ := step_withE g g'.edges op
  rw [← e] at h1
  rw [h1]
  exact ⟨rfl, ⟨rfl, rfl, rfl, rfl, rfl, (h2 h.edges.symm).symm, rfl, rfl⟩⟩

/-- C99. `RemoveNode` and `RemoveSubGraph`, if they return no error, put the maps right again: the graph is one that calls alone make. -/
theorem C99_repaired {g : Graph} (h : Edited g) {op : Op} (hop : (∃ p n, op = .removeNode p n) ∨ ∃ p n o, op = .removeSubGraph p n o)
    (hok : op.Ok g) (hn : (g.step op).2 = none) : Reachable (g.step op).1 := by
  obtain ⟨E, hE, he⟩ := Edited.sim h
  rcases hop with ⟨p, n, rfl⟩ | ⟨p, n, o, rfl⟩
  · obtain ⟨E', h1, -, -, h2⟩ := removeNode_withE g E p n
    have hs := Reachable.step (.removeNode p n) hE trivial
    simp only [Graph.step] at hs hn ⊢
    rw [h1, h2 he hn] at hs
    exact hs
  · obtain ⟨E', h1, -, -, h2⟩ := removeSubGraph_withE g E p n o
    have hs := Reachable.step (.removeSubGraph p n o) hE hok
    simp only [Graph.step] at hs hn ⊢
    rw [h1, h2 he hn] at hs
    exact hs

/-! ### a concrete caller -/

/-- A caller that drops the edges from `b`: `g.Edges.Edges = …`. -/
def dropB (g : Graph) : Move := .assign (g.edges.edges.filter fun e => decide (e.src ≠ (b!"b")))

def editedBase : Graph := newGraph.run [.setName (b!"G"), .addNode (b!"G") (b!"a") [], .addNode (b!"G") (b!"b") [], .addNode (b!"G") (b!"c") [],
  .addEdge (b!"a") (b!"b") true [(b!"label", b!"x")], .addEdge (b!"b") (b!"c") true []]

theorem edited_of_reachable {g : Graph} (h : Reachable g) : Edited g := by
  induction h with
  | init => exact .init
  | step op _ hok ih => exact .step (.call op) ih hok

/-- The hypotheses can be met; the maps go stale (`SrcToDsts` still knows the edge from `b` to `c`), the written graph does not have the edge, and removing
node `c` repairs the maps. -/
theorem example_edited : ∃ g, Edited g ∧ g.edges.edges.length = 1 ∧ ((mget g.edges.srcToDsts (b!"b")).bind fun m => mget m (b!"c")) ≠ none ∧
    ¬ Reachable g ∧ ∃ g', g.step (.removeNode (b!"G") (b!"c")) = (g', none) ∧ mget g'.edges.srcToDsts (b!"b") = none := by
  have hr : Reachable editedBase := Reachable.init.run (by decide +kernel)
  have hed : Edited (moved editedBase (dropB editedBase)) := by
    refine .step _ (edited_of_reachable hr) fun e he => ?_
    have ho := hr.inv.edges.attrs e (List.mem_filter.1 he).1
    exact ⟨ho.wf, fun k v hk => ho.reg _ (mem_of_mget hk)⟩
  refine ⟨_, hed, by decide +kernel, by decide +kernel, fun hx => ?_, _, rfl, by decide +kernel⟩
  have := (C02_edge_indexes_agree hx (b!"b") (b!"c")).2.2.1
  revert this
  decide +kernel

end Gographviz.Props
