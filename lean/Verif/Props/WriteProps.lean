import Verif.Proofs.WriteCongr
import Verif.Proofs.GraphOps
import Verif.Props.Example
/-!
Properties C13–C21, C42 and C47: sorted views and the writer.
-/
namespace Gographviz.Props

open Gographviz Spec
open Gographviz.Ast (Stmt Loc EdgeRH)

/-! ### C13 -/

/-- C13. `Less` is irreflexive, asymmetric and transitive, and incomparability is transitive. -/
theorem C13_strict_weak_order :
    (∀ a, edgeLess a a = false) ∧
    (∀ a b, edgeLess a b = true → edgeLess b a = false) ∧
    (∀ a b c, edgeLess a b = true → edgeLess b c = true → edgeLess a c = true) ∧
    (∀ a b c, edgeLess a b = false → edgeLess b a = false → edgeLess b c = false → edgeLess c b = false →
      edgeLess a c = false ∧ edgeLess c a = false) := by
  refine ⟨fun a => (not_edgeLess_iff a a).2 (EdgeLt.irrefl a), ?_, ?_, ?_⟩
  · intro a b h
    rw [edgeLess_iff] at h
    rw [not_edgeLess_iff]
    exact fun h' => EdgeLt.irrefl a (h.trans h')
  · intro a b c h1 h2
    rw [edgeLess_iff] at *
    exact h1.trans h2
  · intro a b c h1 h2 h3 h4
    exact (edgeSame_iff a c).2 (((edgeSame_iff a b).1 ⟨h1, h2⟩).trans ((edgeSame_iff b c).1 ⟨h3, h4⟩))

/-- C13. Two edges are incomparable exactly when they agree on endpoints, ports, direction and on every attribute value, an absent
attribute counting as empty. -/
theorem C13_incomparable (a b : Edge) :
    (edgeLess a b = false ∧ edgeLess b a = false) ↔
      a.src = b.src ∧ a.dst = b.dst ∧ a.srcPort = b.srcPort ∧ a.dstPort = b.dstPort ∧ a.dir = b.dir ∧
      ∀ k, (mget a.attrs k).getD [] = (mget b.attrs k).getD [] := edgeSame_iff a b

/-- C13. What the order is: lexicographic on source, destination, source port, destination port, directed first, then the first
attribute (in ascending key order) on which they differ. -/
theorem C13_lexicographic (a b : Edge) :
    edgeLess a b = true ↔
      slt a.src b.src = true ∨ a.src = b.src ∧ (slt a.dst b.dst = true ∨ a.dst = b.dst ∧
        (slt a.srcPort b.srcPort = true ∨ a.srcPort = b.srcPort ∧ (slt a.dstPort b.dstPort = true ∨ a.dstPort = b.dstPort ∧
          ((a.dir = true ∧ b.dir = false) ∨ a.dir = b.dir ∧
            ∃ k, slt ((mget a.attrs k).getD []) ((mget b.attrs k).getD []) = true ∧
              ∀ k', slt k' k = true → (mget a.attrs k').getD [] = (mget b.attrs k').getD [])))) := edgeLess_iff a b

example : edgeLess ⟨b!"a", [], b!"b", [], true, [(b!"color", b!"red")]⟩ ⟨b!"a", [], b!"b", [], true, [(b!"label", b!"x")]⟩ = false ∧
    edgeLess ⟨b!"a", [], b!"b", [], true, [(b!"label", b!"x")]⟩ ⟨b!"a", [], b!"b", [], true, [(b!"color", b!"red")]⟩ = true := by
  decide +kernel

/-! ### C14 -/

/-- C14. Whatever (unstable) sorting algorithm is used, `Edges.Sorted` is determined up to edges that agree on everything the
order looks at: position by position, the results of two algorithms on two orders of the same edges agree on endpoints, ports,
direction and attribute values. It has the same elements and is ascending; such an algorithm exists. -/
theorem C14_edges_sorted {g : Graph} (h : Reachable g) {sortE sortE' : List Edge → List Edge} (hs : SortContract sortE)
    (hs' : SortContract sortE') {es' : List Edge} (hp : g.edges.edges.Perm es') :
    (sortE g.edges.edges).Perm g.edges.edges ∧
    (sortE g.edges.edges).Pairwise (fun a b => edgeLess b a = false) ∧
    Forall2 (fun a b => a.src = b.src ∧ a.dst = b.dst ∧ a.srcPort = b.srcPort ∧ a.dstPort = b.dstPort ∧ a.dir = b.dir ∧
      ∀ k, (mget a.attrs k).getD [] = (mget b.attrs k).getD []) (sortE g.edges.edges) (sortE' es') := by
  refine ⟨hs.perm _, hs.sorted _, ?_⟩
  apply sorted_unique _ (hs.sorted _) (hs'.sorted _)
  · exact (hs.perm _).trans (hp.trans (hs'.perm _).symm)
  · intro e he
    exact (h.inv.edges.attrs e ((hs.perm _).mem_iff.1 he)).wf

/-- C14. The assumption on `sort.Sort` can be met. -/
theorem C14_sort_exists : SortContract edgeInsertionSort := insertionSort_contract

/-- The ascending list of the keys of a Go map does not depend on the order in which `range` visits the keys. -/
theorem C14_key_order_irrelevant {α : Type} (m : Map α) (order : List Str) (h : order.Perm (mkeys m)) :
    ssort order = ssort (mkeys m) ∧ (ssort order).Perm order ∧ (ssort order).Pairwise (fun a b => slt b a = false) :=
  ⟨ssort_unique h, ssort_perm _, ssort_sorted _⟩

/-- C14. `Nodes.Sorted` contains no nil, exactly the listed nodes, each once, in strictly ascending name order. -/
theorem C14_nodes_sorted {g : Graph} (h : Reachable g) :
    ∃ l : List Node, g.nodes.sorted = l.map some ∧ (l.map some).Perm (g.nodes.list.map fun p => g.nodes.heap[p]?) ∧
      l.Pairwise fun a b => slt a.name b.name = true := by
  have hi := h.inv.nodes
  have hk : ssort (mkeys g.nodes.lookup) = mkeys g.nodes.lookup := mkeys_ssort hi.wf
  -- the values of the lookup map
  have hfind : ∀ n ∈ mkeys g.nodes.lookup, ∃ nd, g.nodes.find n = some nd ∧ nd.name = n := by
    intro n hn
    exact (isNode_find h.inv n).1 ((mhas_iff _ _).2 hn)
  have hl : ∃ l : List Node, (mkeys g.nodes.lookup).map g.nodes.find = l.map some ∧ l.map Node.name = mkeys g.nodes.lookup := by
    revert hfind
    generalize mkeys g.nodes.lookup = ks
    intro hfind
    induction ks with
    | nil => exact ⟨[], rfl, rfl⟩
    | cons k ks ih =>
      obtain ⟨l, hl, hn⟩ := ih fun n hn => hfind n (List.mem_cons_of_mem _ hn)
      obtain ⟨nd, hf, hnd⟩ := hfind k (List.mem_cons_self ..)
      exact ⟨nd :: l, by simp [hf, hl], by simp [hnd, hn]⟩
  obtain ⟨l, hl, hn⟩ := hl
  refine ⟨l, ?_, ?_, ?_⟩
  · unfold Nodes.sorted; rw [hk, hl]
  · rw [← hl]
    have hfe : ∀ n ∈ mkeys g.nodes.lookup, g.nodes.find n = (fun n => ((mget g.nodes.lookup n).bind fun p => g.nodes.heap[p]?)) n := fun _ _ => rfl
    rw [List.map_congr_left hfe]
    -- the pointers of the lookup map are a permutation of the list
    have hvals : (g.nodes.lookup.map Prod.snd).Perm g.nodes.list := by
      have hnd : (g.nodes.lookup.map Prod.snd).Nodup := by
        unfold List.Nodup
        rw [List.pairwise_map]
        have := hi.wf
        refine List.Pairwise.imp_of_mem ?_ this
        intro a b ha hb hab hne
        have h1 := mget_of_mem hi.wf ha
        have h2 := mget_of_mem hi.wf hb
        obtain ⟨_, n1, d1, e1⟩ := (hi.look a.1 a.2).1 h1
        obtain ⟨_, n2, d2, e2⟩ := (hi.look b.1 b.2).1 h2
        rw [hne, d2] at d1
        cases d1
        rw [← e1, ← e2, slt_irrefl] at hab
        cases hab
      apply (List.perm_ext_iff_of_nodup hnd hi.nodup).2
      intro p
      constructor
      · intro hp
        obtain ⟨e, he, rfl⟩ := List.mem_map.1 hp
        exact ((hi.look e.1 e.2).1 (mget_of_mem hi.wf he)).1
      · intro hp
        obtain ⟨n, hn⟩ := hi.valid p hp
        exact List.mem_map.2 ⟨(n.name, p), mem_of_mget ((hi.look n.name p).2 ⟨hp, n, hn, rfl⟩), rfl⟩
    have : (mkeys g.nodes.lookup).map (fun n => ((mget g.nodes.lookup n).bind fun p => g.nodes.heap[p]?)) =
        (g.nodes.lookup.map Prod.snd).map fun p => g.nodes.heap[p]? := by
      unfold mkeys
      rw [List.map_map, List.map_map]
      apply List.map_congr_left
      intro e he
      simp only [Function.comp]
      rw [mget_of_mem hi.wf he]; rfl
    rw [this]
    exact hvals.map _
  · have : (l.map Node.name).Pairwise fun a b => slt a b = true := by
      rw [hn]
      unfold mkeys
      rw [List.pairwise_map]
      exact hi.wf
    rwa [List.pairwise_map] at this

/-- C14. `SubGraphs.Sorted` contains no nil, exactly the stored subgraphs, each once, in strictly ascending name order. -/
theorem C14_subgraphs_sorted {g : Graph} (h : Reachable g) :
    ∃ l : List SubGraph, subGraphsSorted g.subGraphs = l.map some ∧
      (∀ s, s ∈ l ↔ mget g.subGraphs s.name = some s) ∧ l.Pairwise fun a b => slt a.name b.name = true := by
  have hi := h.inv.subs
  have hname : ∀ e ∈ g.subGraphs, e.2.name = e.1 := fun e he => hi.name e.1 e.2 (mget_of_mem hi.wf he)
  refine ⟨g.subGraphs.map Prod.snd, ?_, ?_, ?_⟩
  · unfold subGraphsSorted
    rw [mkeys_ssort hi.wf]
    unfold mkeys
    rw [List.map_map, List.map_map]
    apply List.map_congr_left
    intro e he
    exact mget_of_mem hi.wf he
  · intro s
    constructor
    · intro hs
      obtain ⟨e, he, rfl⟩ := List.mem_map.1 hs
      rw [hname e he]
      exact mget_of_mem hi.wf he
    · intro hs
      exact List.mem_map.2 ⟨_, mem_of_mget hs, rfl⟩
  · rw [List.pairwise_map]
    refine List.Pairwise.imp_of_mem ?_ hi.wf
    intro a b ha hb hab
    rw [hname a ha, hname b hb]
    exact hab

/-- C14. `SortedChildren` lists exactly the recorded children, each once, in strictly ascending order. -/
theorem C14_children_sorted {g : Graph} (h : Reachable g) (p : Str) :
    (∀ c, c ∈ g.relations.sortedChildren p ↔ mhas (g.relations.children p) c = true) ∧
    (g.relations.sortedChildren p).Pairwise fun a b => slt a b = true := by
  refine ⟨fun c => mem_sortedChildren, ?_⟩
  unfold Relations.sortedChildren
  have hw := h.inv.rels.iwf1 p
  rw [mkeys_ssort hw]
  unfold mkeys
  rw [List.pairwise_map]
  exact hw

example : Example.g.nodes.sorted.length = 3 ∧ (Example.g.nodes.sorted.map (·.map Node.name)) = [some (b!"a"), some (b!"b"), some (b!"c")] ∧
    Example.g.relations.sortedChildren (b!"G") = [b!"S", b!"a", b!"cluster_x"] := by decide +kernel

/-! ### C15 -/

/-- C15. Two reachable graphs with the same content print the same text, whatever the histories that built them, and whatever the
two runs of `sort.Sort` do with equivalent edges, provided no edge stores an empty attribute value. -/
theorem C15_string_canonical {g g' : Graph} (h : Reachable g) (h' : Reachable g') (hs : SameContent g g')
    (hne : ∀ e ∈ g.edges.edges, ∀ k, mget e.attrs k ≠ some [])
    {sortE sortE' : List Edge → List Edge} (hc : SortContract sortE) (hc' : SortContract sortE') (f : Nat) :
    graphString sortE f g = graphString sortE' f g' ∧ writeAst sortE f g = writeAst sortE' f g' := by
  have hw : writeAst sortE f g = writeAst sortE' f g' := by
    apply WSame.writeAst h.inv h'.inv (SameContent.wsame h.inv h'.inv hs)
    exact sorted_canonical hc hc' hs.edges (fun e he => (h.inv.edges.attrs e he).wf) hne
  exact ⟨by unfold graphString; rw [hw], hw⟩

/-- A graph with two edges that differ only in an empty attribute value. -/
def emptyAttrOps (swap : Bool) : List Op := [
  .addNode [] (b!"a") [],
  if swap then .addEdge (b!"a") (b!"a") true [(b!"label", [])] else .addEdge (b!"a") (b!"a") true [],
  if swap then .addEdge (b!"a") (b!"a") true [] else .addEdge (b!"a") (b!"a") true [(b!"label", [])]]

/-- C15. The restriction to non-empty values is needed: with an empty attribute value two graphs with the same content can print
differently. -/
theorem C15_empty_value_order_visible :
    ∃ g g', Reachable g ∧ Reachable g' ∧ SameContent g g' ∧
      ∃ s s', graphString edgeInsertionSort 1 g = .ok s ∧ graphString edgeInsertionSort 1 g' = .ok s' ∧ s ≠ s' := by
  refine ⟨newGraph.run (emptyAttrOps false), newGraph.run (emptyAttrOps true),
    Reachable.init.run (by decide +kernel), Reachable.init.run (by decide +kernel), ?_, ?_⟩
  · refine ⟨rfl, rfl, rfl, fun _ => rfl, fun _ => rfl, fun _ => rfl, fun n s s' hs hs' => ?_, fun _ _ => rfl, ?_⟩
    · rw [show (newGraph.run (emptyAttrOps false)).subGraphs = [] from rfl] at hs
      cases hs
    · exact List.Perm.swap _ _ _
  · refine ⟨_, _, rfl, rfl, by decide +kernel⟩

example : ∃ g', Reachable g' ∧ g' ≠ Example.g ∧ SameContent Example.g g' ∧
    (∀ e ∈ Example.g.edges.edges, ∀ k, mget e.attrs k ≠ some []) := by
  -- the same graph with the edges added in another order
  let ops' : List Op := [
    .setName (b!"G"), .setDir true, .setStrict false,
    .addNode (b!"G") (b!"a") [(b!"label", b!"two"), (b!"shape", b!"box")],
    .addEdge (b!"a") (b!"b") true [],
    .addSubGraph (b!"G") (b!"S") [(b!"color", b!"red")],
    .addNode (b!"cluster_x") (b!"c") [(b!"color", b!"blue")],
    .addNode (b!"S") (b!"b") [],
    .addSubGraph (b!"G") (b!"cluster_x") [],
    .addEdge (b!"b") (b!"c") true [],
    .addPortEdge (b!"a") (b!"p") (b!"b") (b!"q") true [(b!"weight", b!"2")],
    .addAttr (b!"G") (b!"rankdir") (b!"LR")]
  refine ⟨newGraph.run ops', Reachable.init.run (by decide +kernel), by decide +kernel, ?_, ?_⟩
  · refine ⟨rfl, rfl, rfl, fun k => ?_, fun n => ?_, fun n => ?_, fun n s s' hs hs' => ?_, fun p c => ?_, by decide +kernel⟩
    · rfl
    · have e1 : (fun n => (Example.g.nodes.find n).map Node.attrs) = fun n => ((newGraph.run ops').nodes.find n).map Node.attrs := by
        have h1 : Example.g.nodes = { Example.g.nodes with } := rfl
        funext n
        by_cases ha : n = b!"a"
        · subst ha; decide +kernel
        by_cases hb : n = b!"b"
        · subst hb; decide +kernel
        by_cases hc : n = b!"c"
        · subst hc; decide +kernel
        have l1 : Example.g.nodes.lookup = [(b!"a", 0), (b!"b", 1), (b!"c", 2)] := by decide +kernel
        have l2 : (newGraph.run ops').nodes.lookup = [(b!"a", 0), (b!"b", 2), (b!"c", 1)] := by decide +kernel
        simp only [Nodes.find, l1, l2, mget]
        simp [Ne.symm ha, Ne.symm hb, Ne.symm hc]
      exact congrFun e1 n
    · have : Example.g.subGraphs = (newGraph.run ops').subGraphs := by decide +kernel
      rw [this]
    · have : Example.g.subGraphs = (newGraph.run ops').subGraphs := by decide +kernel
      rw [this, hs'] at hs
      cases hs
      exact fun _ => rfl
    · have : Example.g.relations.parentToChildren = (newGraph.run ops').relations.parentToChildren := by decide +kernel
      unfold Relations.children
      rw [this]
  · have : ∀ e ∈ Example.g.edges.edges, ∀ kv ∈ e.attrs, kv.2 ≠ [] := by decide +kernel
    intro e he k hk
    exact this e he _ (mem_of_mget hk) rfl

/-! ### C16 -/

/-- C16. If no subgraph that has to be written reaches a containment cycle, `WriteAst` terminates: recursion depth one more than
the number of subgraphs is enough, and the outcome is then a tree or an error, the same for every larger depth. -/
theorem C16_terminates {g : Graph} (h : Reachable g) {sortE : List Edge → List Edge} (hs : SortContract sortE)
    (hac : ∀ n, MustWrite g n → ¬ ReachesCycle g n) :
    ∃ r, (∀ f, g.subGraphs.length < f → writeAst sortE f g = r) ∧ ((∃ t, r = .ok t) ∨ (∃ e, r = .err e)) := by
  have hnd : ∀ f, g.subGraphs.length < f → writeAst sortE f g ≠ .diverge := by
    intro f hf hd
    rcases writeAst_cases h.inv hs f with ⟨t, ht⟩ | ⟨e, he, _⟩ | ⟨_, n, hm, hb⟩
    · rw [ht] at hd; cases hd
    · rw [he] at hd; cases hd
    · exact subBody_fuel h.inv (fun m hst hp => hac n hm ⟨m, hst, hp⟩) hm.1 hf hb
  refine ⟨writeAst sortE (g.subGraphs.length + 1) g, fun f hf => ?_, ?_⟩
  · exact writeAst_mono h.inv (hnd _ (Nat.lt_succ_self _)) hf
  · rcases writeAst_cases h.inv hs (g.subGraphs.length + 1) with ⟨t, ht⟩ | ⟨e, he, _⟩ | ⟨hd, _⟩
    · exact .inl ⟨t, ht⟩
    · exact .inr ⟨e, he⟩
    · exact absurd hd (hnd _ (Nat.lt_succ_self _))

/-- Corollary: acyclic containment is enough. -/
theorem C16_terminates_acyclic {g : Graph} (h : Reachable g) {sortE : List Edge → List Edge} (hs : SortContract sortE)
    (hac : Acyclic g) :
    ∃ r, (∀ f, g.subGraphs.length < f → writeAst sortE f g = r) ∧ ((∃ t, r = .ok t) ∨ (∃ e, r = .err e)) :=
  C16_terminates h hs fun _ _ ⟨m, _, hp⟩ => hac m hp

/-- C16. If a subgraph that has to be written reaches a containment cycle, `WriteAst` never succeeds, at any recursion depth (no
name being both a node and a subgraph). -/
theorem C16_cycle_never_succeeds {g : Graph} (h : Reachable g) {sortE : List Edge → List Edge} (hs : SortContract sortE)
    (hd : NamesDisjoint g) {n : Str} (hm : MustWrite g n) (hc : ReachesCycle g n) (f : Nat) (t : Ast.Graph) :
    writeAst sortE f g ≠ .ok t := by
  intro ht
  have hok := (writeAst_ok_iff h.inv hs hd).1 ⟨f, t, ht⟩
  obtain ⟨m, hst, hp⟩ := hc
  have hw : Writable g n := by
    rcases hm.2 with hch | ⟨hn, hcl, e, he, hend⟩
    · exact hok.2 n hm.1 hch
    · have := hok.1 e he
      rcases hend with rfl | rfl
      · exact this.1.2 hn hcl
      · exact this.2.2 hn hcl
  exact (hw.star hst).no_cycle hp

/-- C16. If moreover no name dangles, so that no error can stop the recursion, `WriteAst` recurses without bound: it exceeds every
recursion depth. -/
theorem C16_cycle_diverges {g : Graph} (h : Reachable g) {sortE : List Edge → List Edge} (hs : SortContract sortE)
    (hd : NamesDisjoint g) {n : Str} (hm : MustWrite g n) (hc : ReachesCycle g n)
    (hnb : ∀ e ∈ g.edges.edges, ¬ BadEnd g e.src e.srcPort ∧ ¬ BadEnd g e.dst e.dstPort)
    (hnd : ∀ n, MustWrite g n → ¬ Dangles g n) (f : Nat) : writeAst sortE f g = .diverge := by
  rcases writeAst_cases h.inv hs f with ⟨t, ht⟩ | ⟨e, he, ⟨e', he', hb⟩ | ⟨m, hm', hdg⟩⟩ | ⟨hdv, _⟩
  · exact absurd ht (C16_cycle_never_succeeds h hs hd hm hc f t)
  · rcases hb with hb | hb
    · exact absurd hb (hnb e' he').1
    · exact absurd hb (hnb e' he').2
  · exact absurd hdg (hnd m hm')
  · exact hdv

/-- Two subgraphs contained in each other, one of them in the root graph. -/
def cyclicOps : List Op := [.setName (b!"G"), .addSubGraph (b!"G") (b!"A") [], .addSubGraph (b!"A") (b!"B") [],
  .addSubGraph (b!"B") (b!"A") []]

example : ∃ g n, Reachable g ∧ NamesDisjoint g ∧ MustWrite g n ∧ ReachesCycle g n ∧ ∀ n, ¬ Dangles g n := by
  refine ⟨newGraph.run cyclicOps, b!"A", Reachable.init.run (by decide +kernel), ?_, ?_, ?_, ?_⟩
  · intro n ⟨hn, _⟩
    cases hn
  · exact ⟨by decide +kernel, .inl (by decide +kernel)⟩
  · refine ⟨b!"A", .refl _, b!"B", ?_, .head (b := b!"A") ?_ (.refl _)⟩ <;> (unfold SubChild; decide +kernel)
  · rintro n ⟨m, c, _, hc, _, hs⟩
    have hch : ∀ e ∈ (newGraph.run cyclicOps).relations.parentToChildren, ∀ c ∈ mkeys e.2,
        (newGraph.run cyclicOps).isSubGraph c = true := by decide +kernel
    unfold Relations.children at hc
    cases hm : mget (newGraph.run cyclicOps).relations.parentToChildren m with
    | none => rw [hm] at hc; cases hc
    | some i =>
      rw [hm] at hc
      rw [hch _ (mem_of_mget hm) c ((mhas_iff _ _).1 hc)] at hs
      cases hs

/-! ### C17 -/

/-- The top-level statements of a written tree. -/
theorem written_parts {g : Graph} (h : Reachable g) {sortE : List Edge → List Edge} {f : Nat} {t : Ast.Graph}
    (ht : writeAst sortE f g = .ok t) : ∃ es ss ns,
    Forall2 (fun e s => edgeOf g f e = .ok s) (sortE g.edges.edges) es ∧
    rootSubsOf g f (marksL es) (mkeys g.subGraphs) = .ok ss ∧
    Forall2 (fun n s => nodeStmtOf g n = .ok s) ((mkeys g.nodes.lookup).filter fun n => !decide (n ∈ marksL es ++ marksL ss)) ns ∧
    t = { type_ := g.directed, strict := g.strict, id := g.name, stmts := attrsAsStmts g.attrs ++ es ++ ss ++ ns } :=
  writeAst_ok h.inv ht

/-- Every statement of a written tree: an attribute of the graph, an edge at top level, or a node or subgraph statement that is
faithful to the graph. -/
theorem written_inner {g : Graph} (h : Reachable g) {sortE : List Edge → List Edge} {f : Nat} {t : Ast.Graph}
    (ht : writeAst sortE f g = .ok t) :
    ∀ x ∈ allStmts t.stmts, (isEdgeStmt x = true ∧ x ∈ t.stmts) ∨ InnerOk g x := by
  obtain ⟨es, ss, ns, hes, hss, hns, rfl⟩ := written_parts h ht
  intro x hx
  simp only [allStmts_append, List.mem_append, allStmts_attrs] at hx
  rcases hx with ((hx | hx) | hx) | hx
  · obtain ⟨e, _, rfl⟩ := List.mem_map.1 hx
    exact .inr trivial
  · obtain ⟨s, hs, hin⟩ := mem_allStmts.1 hx
    obtain ⟨e, _, hes'⟩ := hes.mem_right hs
    obtain ⟨src, dst, hse, _, _, hall⟩ := edgeOf_inner h.inv hes'
    rcases hall x hin with rfl | ⟨h', _⟩
    · left
      exact ⟨by rw [hse]; rfl, by simp [hs]⟩
    · exact .inr h'
  · obtain ⟨s, hs, hin⟩ := mem_allStmts.1 hx
    obtain ⟨m, b, _, rfl, hb, _⟩ := (rootSubsOf_ok hss).1 s hs
    have hok := subBody_ok h.inv hb
    simp only [allStmt, List.mem_cons] at hin
    rcases hin with rfl | hin
    · exact .inr hok.1
    · exact .inr (hok.2.1 x hin)
  · obtain ⟨s, hs, hin⟩ := mem_allStmts.1 hx
    obtain ⟨n, _, hn⟩ := hns.mem_right hs
    obtain ⟨nd, hf, rfl⟩ := nodeStmtOf_ok h.inv hn
    simp only [allStmt, List.mem_singleton] at hin
    subst hin
    exact .inr ⟨rfl, nd, hf, rfl⟩

/-- C17. In a successfully written tree every node statement, at any depth, is about a node of the graph, without port and with
exactly the node's attributes (once each, in ascending order). -/
theorem C17_node_statements_faithful {g : Graph} (h : Reachable g) {sortE : List Edge → List Edge} {f : Nat} {t : Ast.Graph}
    (ht : writeAst sortE f g = .ok t) {id : Ast.NodeID} {as : Ast.AttrList} (hin : Stmt.node id as ∈ allStmts t.stmts) :
    id.port = ⟨[], []⟩ ∧ ∃ nd, g.nodes.find id.id = some nd ∧ as = attrsAsList nd.attrs := by
  rcases written_inner h ht _ hin with ⟨he, _⟩ | h'
  · cases he
  · exact h'

/-- C17. In a successfully written tree every node of the graph has a node statement with exactly its attributes, if no name is
both a node and a subgraph. -/
theorem C17_no_node_lost {g : Graph} (h : Reachable g) (hd : NamesDisjoint g) {sortE : List Edge → List Edge} {f : Nat}
    {t : Ast.Graph} (ht : writeAst sortE f g = .ok t) {n : Str} (hn : g.isNode n = true) :
    ∃ nd, g.nodes.find n = some nd ∧ Stmt.node ⟨n, ⟨[], []⟩⟩ (attrsAsList nd.attrs) ∈ allStmts t.stmts := by
  obtain ⟨nd, hf, _⟩ := (isNode_find h.inv n).1 hn
  refine ⟨nd, hf, ?_⟩
  have hinner := written_inner h ht
  obtain ⟨es, ss, ns, hes, hss, hns, rfl⟩ := written_parts h ht
  by_cases hm : n ∈ marksL es ++ marksL ss
  · -- marked: a node statement for it occurs, since a subgraph of this name cannot
    have hm' : n ∈ marksL (es ++ ss) := by rw [marksL_append]; exact hm
    have hsubset : ∀ x ∈ allStmts (es ++ ss), x ∈ allStmts (attrsAsStmts g.attrs ++ es ++ ss ++ ns) := by
      intro x hx
      simp only [allStmts_append, List.mem_append] at hx ⊢
      rcases hx with hx | hx
      · exact .inl (.inl (.inr hx))
      · exact .inl (.inr hx)
    rcases (mem_marksL n (es ++ ss)).1 hm' with ⟨id, as, hin, rfl⟩ | ⟨body, hin⟩
    · have hin := hsubset _ hin
      rcases hinner _ hin with ⟨he, _⟩ | ⟨hp, nd', hf', rfl⟩
      · cases he
      · rw [hf] at hf'; cases hf'
        cases id
        simp only at hp
        subst hp
        exact hin
    · rcases hinner _ (hsubset _ hin) with ⟨he, _⟩ | ⟨sub, hsub, _⟩
      · cases he
      · exact absurd ⟨hn, (isSub_get g n).2 ⟨sub, hsub⟩⟩ (hd n)
  · have : n ∈ (mkeys g.nodes.lookup).filter fun n => !decide (n ∈ marksL es ++ marksL ss) := by
      rw [List.mem_filter]
      exact ⟨(mhas_iff _ _).1 hn, by simpa using hm⟩
    obtain ⟨s, hs, hst⟩ := hns.mem_left this
    obtain ⟨nd', hf', rfl⟩ := nodeStmtOf_ok h.inv hst
    rw [hf] at hf'; cases hf'
    simp only [allStmts_append, List.mem_append]
    exact .inr (mem_allStmts_of_mem hs)

theorem countP_nodup_map {α : Type} [DecidableEq α] {l : List α} (hn : l.Nodup) {a : α} (ha : a ∈ l) :
    l.countP (fun x => decide (x = a)) = 1 := by
  induction l with
  | nil => cases ha
  | cons b l ih =>
    rw [List.nodup_cons] at hn
    rw [List.countP_cons]
    by_cases hb : b = a
    · subst hb
      have : l.countP (fun x => decide (x = b)) = 0 := by
        rw [List.countP_eq_zero]
        intro x hx
        simp only [decide_eq_true_eq]
        intro e; subst e; exact hn.1 hx
      simp [this]
    · rcases List.mem_cons.1 ha with rfl | ha
      · exact absurd rfl hb
      · simp [hb, ih hn.2 ha]

/-- C17. A node that is not a recorded child of any subgraph occurring in the written tree has exactly one node statement in the
whole tree, and it is at top level. A node that is a child of such a subgraph has none at top level. -/
theorem C17_once {g : Graph} (h : Reachable g) (hd : NamesDisjoint g) {sortE : List Edge → List Edge} {f : Nat}
    {t : Ast.Graph} (ht : writeAst sortE f g = .ok t) {n : Str} (hn : g.isNode n = true) :
    ((∀ m body, Stmt.sub m body ∈ allStmts t.stmts → mhas (g.relations.children m) n = false) →
      (allStmts t.stmts).countP (isNodeStmtFor n) = 1 ∧ t.stmts.countP (isNodeStmtFor n) = 1) ∧
    ((∃ m body, Stmt.sub m body ∈ allStmts t.stmts ∧ mhas (g.relations.children m) n = true) →
      t.stmts.countP (isNodeStmtFor n) = 0) := by
  obtain ⟨es, ss, ns, hes, hss, hns, rfl⟩ := written_parts h ht
  simp only
  have hz1 : (attrsAsStmts g.attrs).countP (isNodeStmtFor n) = 0 := by
    rw [List.countP_eq_zero]
    intro s hs
    obtain ⟨e, _, rfl⟩ := List.mem_map.1 hs
    simp [isNodeStmtFor]
  have hz2 : es.countP (isNodeStmtFor n) = 0 := by
    rw [List.countP_eq_zero]
    intro s hs
    obtain ⟨e, _, he⟩ := hes.mem_right hs
    obtain ⟨src, dst, rfl, _⟩ := edgeOf_inner h.inv he
    simp [isNodeStmtFor]
  have hz3 : ss.countP (isNodeStmtFor n) = 0 := by
    rw [List.countP_eq_zero]
    intro s hs
    obtain ⟨m, b, _, rfl, _⟩ := (rootSubsOf_ok hss).1 s hs
    simp [isNodeStmtFor]
  -- the node statements at top level
  have hns' : ns.countP (isNodeStmtFor n) =
      ((mkeys g.nodes.lookup).filter fun n => !decide (n ∈ marksL es ++ marksL ss)).countP (fun x => decide (x = n)) := by
    revert hns
    generalize ((mkeys g.nodes.lookup).filter fun n => !decide (n ∈ marksL es ++ marksL ss)) = ks
    intro hns
    clear ht
    induction hns with
    | nil => rfl
    | cons h1 _ ih =>
      rw [List.countP_cons, List.countP_cons, ih]
      obtain ⟨nd, _, rfl⟩ := nodeStmtOf_ok h.inv h1
      simp [isNodeStmtFor]
  have hall_ns : allStmts ns = ns := by
    have : ∀ s ∈ ns, allStmt s = [s] := by
      intro s hs
      obtain ⟨m, _, hm⟩ := hns.mem_right hs
      obtain ⟨nd, _, rfl⟩ := nodeStmtOf_ok h.inv hm
      rfl
    revert this
    generalize ns = l
    intro this
    induction l with
    | nil => rfl
    | cons s l ih =>
      simp only [allStmts]
      rw [this s (List.mem_cons_self ..), ih fun s hs => this s (List.mem_cons_of_mem _ hs)]
      rfl
  -- marked names are children of written subgraphs
  have hcontained : ∀ id as, Stmt.node id as ∈ allStmts (es ++ ss) → ∃ m body, Stmt.sub m body ∈ allStmts (es ++ ss) ∧
      mhas (g.relations.children m) id.id = true := by
    intro id as hin
    rw [allStmts_append, List.mem_append] at hin
    rcases hin with hin | hin
    · obtain ⟨s, hs, hin⟩ := mem_allStmts.1 hin
      obtain ⟨e, _, he⟩ := hes.mem_right hs
      obtain ⟨src, dst, hse, _, _, hall⟩ := edgeOf_inner h.inv he
      rcases hall _ hin with h' | ⟨_, _, h'⟩
      · rw [hse] at h'; cases h'
      · obtain ⟨m, body, hm, hc⟩ := h' id as rfl
        exact ⟨m, body, by rw [allStmts_append, List.mem_append]; exact .inl (mem_allStmts.2 ⟨s, hs, hm⟩), hc⟩
    · obtain ⟨s, hs, hin⟩ := mem_allStmts.1 hin
      obtain ⟨m0, b0, _, rfl, hb, _⟩ := (rootSubsOf_ok hss).1 s hs
      simp only [allStmt, List.mem_cons, reduceCtorEq, false_or] at hin
      obtain ⟨m, body, hm, hc⟩ := (subBody_ok h.inv hb).2.2 id as hin
      refine ⟨m, body, ?_, hc⟩
      rw [allStmts_append, List.mem_append]
      refine .inr (mem_allStmts.2 ⟨_, hs, ?_⟩)
      simp only [allStmt]
      exact hm
  have hmem4 : ∀ x, x ∈ allStmts (attrsAsStmts g.attrs ++ es ++ ss ++ ns) ↔
      x ∈ attrsAsStmts g.attrs ∨ x ∈ allStmts (es ++ ss) ∨ x ∈ ns := by
    intro x
    simp only [allStmts_append, List.mem_append, allStmts_attrs, hall_ns]
    constructor
    · rintro (((h | h) | h) | h)
      · exact .inl h
      · exact .inr (.inl (.inl h))
      · exact .inr (.inl (.inr h))
      · exact .inr (.inr h)
    · rintro (h | (h | h) | h)
      · exact .inl (.inl (.inl h))
      · exact .inl (.inl (.inr h))
      · exact .inl (.inr h)
      · exact .inr h
  have htop : (attrsAsStmts g.attrs ++ es ++ ss ++ ns).countP (isNodeStmtFor n) = ns.countP (isNodeStmtFor n) := by
    simp only [List.countP_append, hz1, hz2, hz3, Nat.zero_add]
  constructor
  · intro hno
    have hes0 : (allStmts (es ++ ss)).countP (isNodeStmtFor n) = 0 := by
      rw [List.countP_eq_zero]
      intro s hs hh
      cases s <;> simp only [isNodeStmtFor, Bool.false_eq_true, decide_eq_true_eq] at hh
      rename_i id as
      subst hh
      obtain ⟨m, body, hm, hc⟩ := hcontained _ _ hs
      rw [hno m body ((hmem4 _).2 (.inr (.inl hm)))] at hc
      cases hc
    have hnm : n ∉ marksL es ++ marksL ss := by
      rw [← marksL_append, mem_marksL]
      rintro (⟨id, as, hin, rfl⟩ | ⟨body, hin⟩)
      · obtain ⟨m, body, hm, hc⟩ := hcontained _ _ hin
        rw [hno m body ((hmem4 _).2 (.inr (.inl hm)))] at hc
        cases hc
      · rcases written_inner h ht _ ((hmem4 _).2 (.inr (.inl hin))) with ⟨he, _⟩ | ⟨sub, hsub, _⟩
        · cases he
        · exact hd n ⟨hn, (isSub_get g n).2 ⟨sub, hsub⟩⟩
    have hone : ns.countP (isNodeStmtFor n) = 1 := by
      rw [hns']
      apply countP_nodup_map
      · exact h.inv.nodes.wf.nodup.filter _
      · rw [List.mem_filter]
        exact ⟨(mhas_iff _ _).1 hn, by simpa using hnm⟩
    refine ⟨?_, by rw [htop, hone]⟩
    have hsplit : (allStmts (attrsAsStmts g.attrs ++ es ++ ss ++ ns)).countP (isNodeStmtFor n) =
        (attrsAsStmts g.attrs).countP (isNodeStmtFor n) + (allStmts (es ++ ss)).countP (isNodeStmtFor n) +
          ns.countP (isNodeStmtFor n) := by
      simp only [allStmts_append, List.countP_append, allStmts_attrs, hall_ns, Nat.add_assoc]
    rw [hsplit, hz1, hes0, hone]
  · rintro ⟨m, body, hm, hc⟩
    rw [htop, hns', List.countP_eq_zero]
    intro x hx
    simp only [decide_eq_true_eq]
    intro e
    subst e
    rw [List.mem_filter] at hx
    have hx2 := hx.2
    simp only [Bool.not_eq_true', decide_eq_false_iff_not] at hx2
    apply hx2
    -- the subgraph's body has a statement for x
    have hm' : Stmt.sub m body ∈ allStmts (es ++ ss) := by
      rcases (hmem4 _).1 hm with h' | h' | h'
      · obtain ⟨e, _, he⟩ := List.mem_map.1 h'; cases he
      · exact h'
      · obtain ⟨q, _, hq⟩ := hns.mem_right h'
        obtain ⟨nd, _, he⟩ := nodeStmtOf_ok h.inv hq
        cases he
    rcases written_inner h ht _ hm with ⟨he, _⟩ | ⟨sub, _, cs, hbody, hcs⟩
    · cases he
    · obtain ⟨s, hs, hdc⟩ := hcs.mem_left (mem_sortedChildren.2 hc)
      have hsin : s ∈ allStmts (es ++ ss) := by
        have key : ∀ l : List Stmt, Stmt.sub m body ∈ allStmts l → s ∈ allStmts l := by
          have hsb : s ∈ allStmts body := by
            rw [hbody, allStmts_append, List.mem_append]
            exact .inr (mem_allStmts_of_mem hs)
          intro l hl
          exact mem_allStmts_trans l hl hsb
        exact key _ hm'
      rw [← marksL_append, mem_marksL]
      cases s with
      | node id as =>
        left
        exact ⟨id, as, hsin, by rw [hdc.1]⟩
      | sub id b =>
        exfalso
        have := hdc.2.1
        rw [hn] at this; cases this
      | edge => exact hdc.elim
      | nodeAttrs => exact hdc.elim
      | edgeAttrs => exact hdc.elim
      | graphAttrs => exact hdc.elim
      | attr => exact hdc.elim

end Gographviz.Props
