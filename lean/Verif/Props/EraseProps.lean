import Verif.Proofs.Erase
import Verif.Props.DiffProps
import Verif.Props.GraphProps
/-!
C101: a removed node or subgraph takes its own statements with it and no others.
-/
namespace Gographviz.Props

open Gographviz.Spec Gographviz.Spec.Erase
open Gographviz.Ast (Stmt Loc EdgeRH AttrList)

/-- C101. Removing a node that is not also a subgraph, whose edges have other ends that are written by name, from a graph that can be written: if no subgraph
other than `p` has a statement of the node, the new tree is the old one without the statements about the node; otherwise the graph can no longer be
written, and the error names the node. -/
theorem C101_node {g : Graph} (hr : Reachable g) {p n : Str} (hok : (g.removeNode p n).2 = none) (hs : g.isSubGraph n = false)
    (hend : ∀ e ∈ g.edges.edges, (e.src = n → ByName g e.dst e.dstPort) ∧ (e.dst = n → ByName g e.src e.srcPort))
    (hne : ∀ e ∈ g.edges.edges, ∀ k, mget e.attrs k ≠ some [])
    {sortE : List Edge → List Edge} (hc : SortContract sortE) {f : Nat} {t : Ast.Graph} (hw : writeAst sortE f g = .ok t) :
    (¬ Elsewhere (fun x => decide (x = n)) p t.stmts →
      writeAst sortE f (g.removeNode p n).1 = .ok { t with stmts := erase (fun x => decide (x = n)) t.stmts }) ∧
    (Elsewhere (fun x => decide (x = n)) p t.stmts → writeAst sortE f (g.removeNode p n).1 = .err (.notNodeOrSubGraph n)) := by
  have hi := hr.inv
  have hi' := hi.removeNode p n
  rcases Option.eq_none_or_eq_some (mget g.nodes.lookup n) with hq | ⟨q, hq⟩
  · rw [removeNode_absent hi p hq] at hok; cases hok
  · rw [removeNode_without hi hq] at hi' ⊢
    have hnode : g.isNode n = true := by unfold Graph.isNode mhas; rw [hq]; rfl
    have E : Del g (g.without p n q) (fun x => decide (x = n)) p := by
      refine ⟨fun x => ?_, fun x hx => ?_, fun x => ?_, fun a b => ?_, fun x c hx hnx => ?_, fun x hx hsx => ?_, rfl⟩
      · unfold Graph.isNode mhas
        rw [without_lookup]
        by_cases h : n = x
        · simp [h]
        · simp [h, Ne.symm h]
      · have hx : x ≠ n := by simpa using hx
        have : (g.without p n q).nodes.find x = if n = x then none else g.nodes.find x := NodesInv.find_removed ..
        rw [this, if_neg (Ne.symm hx)]
      · show mget g.subGraphs x = _
        split
        · rename_i h
          have h : x = n := by simpa using h
          subst h
          cases hm : mget g.subGraphs x with
          | none => rfl
          | some s => simp [Graph.isSubGraph, mhas, hm] at hs
        · rfl
      · simp only [Graph.without, Relations.children_remove]
        by_cases h1 : p = a
        · subst h1
          simp only [if_true, mhas_mdel, decide_true, Bool.true_and]
          by_cases hx : n = b
          · subst hx; simp
          · simp [hx, Ne.symm hx]
        · simp [h1, Ne.symm h1]
      · have hx : x = n := by simpa using hx
        subst hx; rw [hnode] at hnx; cases hnx
      · have hx : x = n := by simpa using hx
        subst hx; rw [hs] at hsx; cases hsx
    have hout := E.write hi hi' rfl rfl rfl (by
        simp only [Graph.without, edgesRebuild_edges]
        apply List.filter_congr
        intro e _
        simp [touchesD, Bool.and_comm, Bool.or_comm])
      (fun e he ht => by
        simp only [touchesD, Bool.or_eq_true, decide_eq_true_eq] at ht ⊢
        obtain ⟨h1, h2⟩ := hend e he
        rcases ht with h | h
        · exact ⟨.inl h, .inr (h1 h)⟩
        · exact ⟨.inr (h2 h), .inl h⟩) hc hne hw
    constructor
    · intro h
      rcases hout with ⟨_, h'⟩ | ⟨h', _⟩
      · exact h'
      · exact absurd h' h
    · intro h
      rcases hout with ⟨h', _⟩ | ⟨_, c, hcn, h'⟩
      · exact absurd h h'
      · have : c = n := by simpa using hcn
        subst this; exact h'

/-- The subgraph and its recorded children. -/
def family (g : Graph) (n x : Str) : Bool := decide (x = n) || mhas (g.relations.children n) x

/-- C101. Removing a subgraph `n` (not also a node) whose children are nodes and not also subgraphs, where edges that end at `n` or one of these nodes have other
ends that are written by name or are removed too, and no edge has a port that is called `n`: the new tree is the old one without the statements about
`n` and these nodes, unless a subgraph other than `p` (and `n`) has such a statement; then the graph can no longer be written, and the error
names one of them. -/
theorem C101_subgraph {g : Graph} (hr : Reachable g) {p n : Str} {o : List Str} (ho : o.Perm (mkeys (g.relations.children n)))
    (hok : (g.removeSubGraph p n o).2 = none) (hn : g.isNode n = false)
    (hs : ∀ c, mhas (g.relations.children n) c = true → g.isSubGraph c = false)
    (hport : ∀ e ∈ g.edges.edges, e.srcPort ≠ n ∧ e.dstPort ≠ n)
    (hend : ∀ e ∈ g.edges.edges, family g n e.src = true ∨ family g n e.dst = true →
      (family g n e.src = true ∨ ByName g e.src e.srcPort) ∧ (family g n e.dst = true ∨ ByName g e.dst e.dstPort))
    (hne : ∀ e ∈ g.edges.edges, ∀ k, mget e.attrs k ≠ some [])
    {sortE : List Edge → List Edge} (hc : SortContract sortE) {f : Nat} {t : Ast.Graph} (hw : writeAst sortE f g = .ok t) :
    (¬ Elsewhere (family g n) p t.stmts →
      writeAst sortE f (g.removeSubGraph p n o).1 = .ok { t with stmts := erase (family g n) t.stmts }) ∧
    (Elsewhere (family g n) p t.stmts → ∃ c, family g n c = true ∧ writeAst sortE f (g.removeSubGraph p n o).1 = .err (.notNodeOrSubGraph c)) := by
  have hi := hr.inv
  have hod : o.Nodup := ho.symm.nodup (hi.rels.iwf1 n).nodup
  have hmem : ∀ x, x ∈ o ↔ mhas (g.relations.children n) x = true := fun x => by rw [ho.mem_iff, mhas_iff]
  have hall : ∀ c ∈ o, mhas g.nodes.lookup c = true := fun c hc => (C07_removeSubGraph_partial hr p n o ho).1.1 hok c ((hmem c).1 hc)
  obtain ⟨g', e, hi', h1, h2, h3, h4, h5, h6, h7, h8, h9⟩ := removeNodes_closed hi p o hod hall
  have hi'' := hi.removeSubGraph p n o
  unfold Graph.removeSubGraph at hi'' ⊢
  rw [e] at hi'' ⊢
  simp only at hi'' ⊢
  have hfam : ∀ x, family g n x = (decide (x = n) || decide (x ∈ o)) := fun x => by unfold family; congr 1; rw [Bool.eq_iff_iff]; simp [hmem]
  have hno : n ∉ o := fun h => by have := hall n h; unfold Graph.isNode at hn; rw [hn] at this; cases this
  generalize hG : ({ g' with
        relations := g'.relations.remove p n
        subGraphs := mdel g'.subGraphs n
        edges := edgesRebuild (fun e => !(decide (e.dst = n) || decide (e.dstPort = n) || decide (e.src = n) || decide (e.srcPort = n))) g'.edges.edges } : Graph) = G at hi'' ⊢
  have E : Del g G (family g n) p := by
    subst hG
    refine ⟨fun x => ?_, fun x hx => ?_, fun x => ?_, fun a b => ?_, fun x c hx hnx hc => ?_, fun x hx hsx => ?_, h5⟩
    · show mhas g'.nodes.lookup x = _
      rw [h2, hfam]
      by_cases hx : x = n
      · subst hx; unfold Graph.isNode at hn ⊢; rw [hn]; rfl
      · simp [Graph.isNode, hx]
    · rw [hfam, Bool.or_eq_false_iff] at hx
      show g'.nodes.find x = _
      rw [h1, if_neg (by simpa using hx.2)]
    · show mget (mdel g'.subGraphs n) x = _
      rw [mget_mdel, h8, hfam]
      by_cases hx : n = x
      · subst hx; simp
      · by_cases hxo : x ∈ o
        · have := hs x ((hmem x).1 hxo)
          cases hm : mget g.subGraphs x with
          | none => simp
          | some s => simp [Graph.isSubGraph, mhas, hm] at this
        · simp [hx, Ne.symm hx, hxo]
    · simp only [Relations.children_remove]
      by_cases ha : p = a
      · subst ha
        rw [if_pos rfl, mhas_mdel, h9, hfam]
        by_cases hb : n = b
        · subst hb; simp
        · simp [hb, Ne.symm hb]
      · rw [if_neg ha, h9]
        simp [Ne.symm ha]
    · rw [hfam, Bool.or_eq_true] at hx
      have hxn : x = n := by
        rcases hx with h | h
        · simpa using h
        · have := hall x (by simpa using h); unfold Graph.isNode at hnx; rw [hnx] at this; cases this
      subst hxn
      exact ⟨by unfold family; rw [hc]; simp, hall c ((hmem c).2 hc)⟩
    · rw [hfam, Bool.or_eq_true] at hx
      rcases hx with h | h
      · have h : x = n := by simpa using h
        subst h; exact hn
      · rw [hs x ((hmem x).1 (by simpa using h))] at hsx; cases hsx
  have hout := E.write hi hi'' (by rw [← hG]; exact h4) (by rw [← hG]; exact h6) (by rw [← hG]; exact h7) (by
      rw [← hG]
      simp only [edgesRebuild_edges, h3, List.filter_filter]
      apply List.filter_congr
      intro e he
      obtain ⟨p1, p2⟩ := hport e he
      simp only [touchesD, hfam, p1, p2, decide_false, Bool.or_false]
      cases decide (e.src = n) <;> cases decide (e.dst = n) <;> cases decide (e.src ∈ o) <;> cases decide (e.dst ∈ o) <;> rfl)
    (fun e he ht => hend e he (by simpa [touchesD] using ht)) hc hne hw
  constructor
  · intro h
    rcases hout with ⟨_, h'⟩ | ⟨h', _⟩
    · exact h'
    · exact absurd h' h
  · intro h
    rcases hout with ⟨h', _⟩ | ⟨_, c, hcn, h'⟩
    · exact absurd h h'
    · exact ⟨c, hcn, h'⟩

/-! ### examples -/

/-- A graph with a cluster of two nodes, an edge to the cluster and edges between the nodes; `b` is also a child of the subgraph `T`. -/
def eraseOps : List Op := [.setName (b!"G"), .setDir true, .addSubGraph (b!"G") (b!"cluster_S") [], .addSubGraph (b!"G") (b!"T") [(b!"label", b!"x")],
  .addNode (b!"cluster_S") (b!"a") [(b!"color", b!"red")], .addNode (b!"cluster_S") (b!"b") [], .addNode (b!"G") (b!"c") [], .addNode (b!"T") (b!"d") [],
  .addEdge (b!"a") (b!"b") true [], .addEdge (b!"c") (b!"cluster_S") true [], .addEdge (b!"c") (b!"d") true []]

/-- The same, with `a` recorded also under `T`. -/
def eraseTwice : List Op := eraseOps ++ [.addNode (b!"T") (b!"a") []]

/-- The written statements. -/
def eraseStmtsOf (g : Graph) : List Stmt := match writeAst edgeInsertionSort 3 g with
  | .ok t => t.stmts
  | _ => []

/-- The name in the error of the writer. -/
def eraseError (g : Graph) : Option Str := match writeAst edgeInsertionSort 3 g with
  | .err (.notNodeOrSubGraph c) => some c
  | _ => none

/-- Its text, and the texts without node `a` and without the cluster. With `a` recorded also under `T`, the graph without `a` cannot be written. An edge
with a port that is called like a removed subgraph goes with the subgraph. -/
theorem example_erase : Reachable (newGraph.run eraseOps) ∧ ((newGraph.run eraseOps).removeNode (b!"cluster_S") (b!"a")).2 = none ∧
    ((newGraph.run eraseOps).removeSubGraph (b!"G") (b!"cluster_S") [b!"b", b!"a"]).2 = none ∧
    smallText (newGraph.run eraseOps) = b!"digraph G {\n\ta->b;\n\tc->cluster_S;\n\tc->d;\n\tsubgraph T {\n\t\tlabel=x;\n\t\td;\n\t};\n\tsubgraph cluster_S {\n\t\ta [ color=red ];\n\t\tb;\n\t};\n\tc;\n}\n" ∧
    smallText ((newGraph.run eraseOps).removeNode (b!"cluster_S") (b!"a")).1 =
      b!"digraph G {\n\tc->cluster_S;\n\tc->d;\n\tsubgraph T {\n\t\tlabel=x;\n\t\td;\n\t};\n\tsubgraph cluster_S {\n\t\tb;\n\t};\n\tc;\n}\n" ∧
    smallText ((newGraph.run eraseOps).removeSubGraph (b!"G") (b!"cluster_S") [b!"b", b!"a"]).1 =
      b!"digraph G {\n\tc->d;\n\tsubgraph T {\n\t\tlabel=x;\n\t\td;\n\t};\n\tc;\n}\n" ∧
    eraseError ((newGraph.run eraseTwice).removeNode (b!"cluster_S") (b!"a")).1 = some (b!"a") ∧
    (((newGraph.run eraseOps).addPortEdge (b!"c") (b!"T") (b!"a") [] true []).1.removeSubGraph (b!"G") (b!"T") [b!"d"]).1.edges.edges.length = 2 := by
  refine ⟨Reachable.init.run (by decide +kernel), by decide +kernel, by decide +kernel, by decide +kernel, by decide +kernel, by decide +kernel,
    by decide +kernel, by decide +kernel⟩

/-- The example meets all the hypotheses, so the theorems apply to it. -/
theorem example_erase_applies : ∃ t, writeAst edgeInsertionSort 3 (newGraph.run eraseOps) = .ok t ∧
    writeAst edgeInsertionSort 3 ((newGraph.run eraseOps).removeNode (b!"cluster_S") (b!"a")).1 = .ok { t with stmts := erase (fun x => decide (x = b!"a")) t.stmts } ∧
    writeAst edgeInsertionSort 3 ((newGraph.run eraseOps).removeSubGraph (b!"G") (b!"cluster_S") [b!"b", b!"a"]).1 =
      .ok { t with stmts := erase (family (newGraph.run eraseOps) (b!"cluster_S")) t.stmts } := by
  have hr : Reachable (newGraph.run eraseOps) := Reachable.init.run (by decide +kernel)
  have hc : SortContract edgeInsertionSort := insertionSort_contract
  have hattr : ∀ e ∈ (newGraph.run eraseOps).edges.edges, e.attrs = [] := by decide +kernel
  have hne : ∀ e ∈ (newGraph.run eraseOps).edges.edges, ∀ k, mget e.attrs k ≠ some [] := fun e he k => by rw [hattr e he]; simp [mget]
  obtain ⟨t, ht⟩ : ∃ t, writeAst edgeInsertionSort 3 (newGraph.run eraseOps) = .ok t := ⟨_, rfl⟩
  refine ⟨t, ht, ?_, ?_⟩
  · have h := C101_node hr (p := b!"cluster_S") (n := b!"a") (by decide +kernel) (by decide +kernel) (by unfold ByName; decide +kernel) hne hc ht
    refine h.1 fun hel => ?_
    have h2 : eraseError ((newGraph.run eraseOps).removeNode (b!"cluster_S") (b!"a")).1 = none := by decide +kernel
    unfold eraseError at h2
    rw [h.2 hel] at h2
    cases h2
  · have h := C101_subgraph hr (p := b!"G") (n := b!"cluster_S") (o := [b!"b", b!"a"]) (by decide +kernel) (by decide +kernel) (by decide +kernel)
      (fun c hcc => by
        have : c ∈ mkeys ((newGraph.run eraseOps).relations.children (b!"cluster_S")) := (mhas_iff _ _).1 hcc
        clear hcc; revert this; revert c; decide +kernel)
      (by decide +kernel) (by unfold ByName; decide +kernel) hne hc ht
    refine h.1 fun hel => ?_
    obtain ⟨c, _, h3⟩ := h.2 hel
    have h2 : eraseError ((newGraph.run eraseOps).removeSubGraph (b!"G") (b!"cluster_S") [b!"b", b!"a"]).1 = none := by decide +kernel
    unfold eraseError at h2
    rw [h3] at h2
    cases h2

end Gographviz.Props
