import Verif.Props.RoundTrip
import Verif.Props.EncodingProps
/-!
C97: a graph can be copied through its syntax tree, whatever the names in it are.
-/
namespace Gographviz.Props

open Gographviz Spec
open Gographviz.Ast (Stmt Loc EdgeRH AttrList)

/-- C97. `NewAnalysedGraph(g.WriteAst())` gives the same graph, without going through text, so nothing is asked of the names and values of `g`:
they may be no DOT identifiers at all. The copy has the same name, flags, attributes, nodes, written subgraphs with their attributes and members,
and edges; its edges are in the order of the sort. -/
theorem C97_copy {g : Graph} (h : Reachable g) (hp : TwoPartPorts g) (hna : NamesApart g) {sortE : List Edge → List Edge}
    (hs : SortContract sortE) {f : Nat} {t : Ast.Graph} (ht : writeAst sortE f g = .ok t) :
    ∃ g', newAnalysedGraph t = .ok g' ∧ Reachable g' ∧ ReadBack g g' ∧ g'.edges.edges = (sortE g.edges.edges).map edgeRead := by
  obtain ⟨g', hg'⟩ := written_analysed h hs ht
  exact ⟨g', hg', analysed_back h hp hna hs ht hg'⟩

/-- C97. If no edge has a port or ends at a cluster and no edge attribute has the empty value, the copy is written as the same tree, and
`String` gives the same text for both (whether it can be parsed or not). -/
theorem C97_same_tree {g : Graph} (h : Reachable g) (hv : NoEmptyEdgeValues g) (hna : NamesApart g) (hcl : NoClusterEnds g) (hnp : NoPorts g)
    {sortE sortE' : List Edge → List Edge} (hs : SortContract sortE) (hs' : SortContract sortE') {f : Nat} {t : Ast.Graph}
    (ht : writeAst sortE f g = .ok t) :
    ∃ g', newAnalysedGraph t = .ok g' ∧ Reachable g' ∧ writeAst sortE' f g' = .ok t ∧ graphString sortE' f g' = graphString sortE f g := by
  obtain ⟨g', hg'⟩ := written_analysed h hs ht
  have hw := write_back h hv hna hcl hnp hs ht hg' hs'
  refine ⟨g', hg', (analysed_effect hg').1, hw, ?_⟩
  unfold graphString
  rw [hw, ht]

/-- The hypotheses of `C97_same_tree` about names, clusters and values hold for the copy if they hold for the graph. -/
theorem ReadBack.hyps {g g' : Graph} (h : Reachable g) (h' : Reachable g') (hb : ReadBack g g') (hna : NamesApart g) (hcl : NoClusterEnds g)
    (hv : NoEmptyEdgeValues g) : NamesApart g' ∧ NoClusterEnds g' ∧ NoEmptyEdgeValues g' := by
  have hnode := isNode_back h.inv h'.inv (ReadBack.sameNodes hb hcl)
  have hsub : ∀ n, g'.isSubGraph n = true → g.isSubGraph n = true := fun n hn => isWritten_sub ((hb.subs n).1 hn)
  refine ⟨⟨fun n ⟨h1, h2⟩ => hna.disjoint n ⟨(hnode n).symm.trans h1, hsub n h2⟩, ?_⟩, fun e' he' => ?_, fun e' he' k hk => ?_⟩
  · cases hx : g'.isSubGraph g'.name with
    | false => rfl
    | true => have := hsub _ hx; rw [hb.name, hna.root] at this; cases this
  · obtain ⟨e, he, rfl⟩ := List.mem_map.1 (hb.edges.mem_iff.2 he')
    have key : ∀ n, (g.isNode n = true ∨ g.isClusterSubGraph n = false) → g'.isNode n = true ∨ g'.isClusterSubGraph n = false := by
      rintro n (hn | hn)
      · exact .inl ((hnode n).trans hn)
      · refine .inr ?_
        unfold Graph.isClusterSubGraph at hn ⊢
        cases hx : g'.isSubGraph n with
        | false => rfl
        | true => rw [hsub n hx] at hn; exact hn
    exact ⟨key _ (hcl e he).1, key _ (hcl e he).2⟩
  · obtain ⟨e, he, rfl⟩ := List.mem_map.1 (hb.edges.mem_iff.2 he')
    exact hv e he k hk

/-- C97. With ports, copies settle: a port is kept by the first copy (with a colon put before it) and lost by the second (C38); copying
the second copy changes nothing any more. -/
theorem C97_settles {g : Graph} (h : Reachable g) (hp : TwoPartPorts g) (hna : NamesApart g) (hcl : NoClusterEnds g) (hv : NoEmptyEdgeValues g)
    {sortE : List Edge → List Edge} (hs : SortContract sortE) {f : Nat} {t t' t'' : Ast.Graph} {g' g'' : Graph}
    (ht : writeAst sortE f g = .ok t) (hg' : newAnalysedGraph t = .ok g') (ht' : writeAst sortE f g' = .ok t')
    (hg'' : newAnalysedGraph t' = .ok g'') (ht'' : writeAst sortE f g'' = .ok t'') :
    NoPorts g'' ∧ ∃ g₃, newAnalysedGraph t'' = .ok g₃ ∧ writeAst sortE f g₃ = .ok t'' := by
  obtain ⟨h', hb, -⟩ := analysed_back h hp hna hs ht hg'
  obtain ⟨hna', hcl', hv'⟩ := ReadBack.hyps h h' hb hna hcl hv
  have hsh := C38_port_stored_partial hg'
  obtain ⟨h'', hb', -⟩ := analysed_back h' (fun e he => ⟨(hsh e he).1.elim .inl fun h => .inr (.inr (.inr h)),
    (hsh e he).2.elim .inl fun h => .inr (.inr (.inr h))⟩) hna' hs ht' hg''
  obtain ⟨hna'', hcl'', hv''⟩ := ReadBack.hyps h' h'' hb' hna' hcl' hv'
  have hnp : NoPorts g'' := by
    intro e' he'
    obtain ⟨e, he, rfl⟩ := List.mem_map.1 (hb'.edges.mem_iff.2 he')
    have key : ∀ p : Str, (p = [] ∨ ∃ r, p = 58 :: r) → portRead p = [] := by rintro p (rfl | ⟨r, rfl⟩) <;> rfl
    exact ⟨key _ (hsh e he).1, key _ (hsh e he).2⟩
  refine ⟨hnp, ?_⟩
  obtain ⟨g₃, h1, -, h2, -⟩ := C97_same_tree h'' hv'' hna'' hcl'' hnp hs hs ht''
  exact ⟨g₃, h1, h2⟩

/-! ### the hypotheses can be met, and are needed -/

/-- A graph whose names and values are no identifiers: spaces, unbalanced quotes and brackets, keywords, the empty name, a newline. -/
def oddOps : List Op := [
  .setName (b!"the graph"), .setDir true, .addAttr (b!"the graph") (b!"label") (b!"{;}"),
  .addSubGraph (b!"the graph") (b!"cluster \"") [(b!"color", b!"])")], .addNode (b!"cluster \"") (b!"") [(b!"label", b!"")],
  .addNode (b!"the graph") (b!"node") [(b!"label", b!"\n")], .addNode (b!"the graph") (b!"a -> b") [],
  .addEdge (b!"") (b!"node") true [(b!"weight", b!"=")], .addEdge (b!"a -> b") (b!"") true []]

/-- ... meets the hypotheses of `C97_copy` and `C97_same_tree`; the text written for it cannot be parsed, so `C37` says nothing about it. -/
theorem example_copy : ∃ g t text, Reachable g ∧ NoEmptyEdgeValues g ∧ TwoPartPorts g ∧ NamesApart g ∧ NoClusterEnds g ∧ NoPorts g ∧
    writeAst edgeInsertionSort 3 g = .ok t ∧ g.edges.edges.length = 2 ∧ t.stmts.length = 6 ∧
    graphString edgeInsertionSort 3 g = .ok text ∧
    g.isNode [] = true ∧ ¬ ValidId [] ∧ ¬ ∃ t' n, Parse.parseBytes (fun k => k) 0 text = .ok t' n := by
  have hr : Reachable (newGraph.run oddOps) := Reachable.init.run (by decide +kernel)
  have hd : NamesDisjoint (newGraph.run oddOps) := by
    rintro n ⟨h1, h2⟩
    have h1 := (mhas_iff _ _).1 h1
    have h2 := (mhas_iff _ _).1 h2
    have e : ∀ n ∈ mkeys (newGraph.run oddOps).nodes.lookup, n ∉ mkeys (newGraph.run oddOps).subGraphs := by decide +kernel
    exact e n h1 h2
  have hnp : NoPorts (newGraph.run oddOps) := by unfold NoPorts; decide +kernel
  have hv : NoEmptyEdgeValues (newGraph.run oddOps) := by
    intro e he k hk
    have : ∀ e ∈ (newGraph.run oddOps).edges.edges, ∀ kv ∈ e.attrs, kv.2 ≠ [] := by decide +kernel
    exact this e he _ (mem_of_mget hk) rfl
  refine ⟨newGraph.run oddOps, _, _, hr, hv, fun e he => ⟨.inl (hnp e he).1, .inl (hnp e he).2⟩, ⟨hd, by decide +kernel⟩,
    by unfold NoClusterEnds; decide +kernel, hnp, rfl, by decide +kernel, by decide +kernel, rfl, by decide +kernel,
    fun h => validId_ne h rfl, Enc.accepted_not (by decide +kernel)⟩

/-- C97. The hypothesis on ports is needed: of a port of three parts the copy keeps two. -/
theorem C97_third_part :
    ∃ g t g', Reachable g ∧ NamesApart g ∧ writeAst edgeInsertionSort 1 g = .ok t ∧ newAnalysedGraph t = .ok g' ∧
      (g.edges.edges.map (·.srcPort)) = [b!"p:n:x"] ∧ (g'.edges.edges.map (·.srcPort)) = [b!":p:n"] := by
  refine ⟨newGraph.run [.addNode (b!"") (b!"a") [], .addPortEdge (b!"a") (b!"p:n:x") (b!"a") [] false []], _, _,
    Reachable.init.run (by decide +kernel), ⟨?_, by decide +kernel⟩, rfl, rfl, by decide +kernel, by decide +kernel⟩
  rintro n ⟨h1, h2⟩
  cases h2

/-- C97. The hypothesis that no name is both a node and a subgraph is needed: the copy has no node `x`. -/
theorem C97_name_clash :
    ∃ g t g', Reachable g ∧ TwoPartPorts g ∧ writeAst edgeInsertionSort 2 g = .ok t ∧ newAnalysedGraph t = .ok g' ∧
      g.isNode (b!"x") = true ∧ g'.isNode (b!"x") = false := by
  refine ⟨newGraph.run [.setName (b!"G"), .addNode (b!"G") (b!"x") [(b!"label", b!"1")], .addSubGraph (b!"G") (b!"x") []], _, _,
    Reachable.init.run (by decide +kernel), ?_, rfl, rfl, by decide +kernel, by decide +kernel⟩
  intro e he
  cases he

end Gographviz.Props
