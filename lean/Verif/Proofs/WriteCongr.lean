import Verif.Proofs.WriteTerm
/-!
The writer depends only on the content of the graph.
-/
namespace Gographviz

open Spec
open Ast (Stmt Loc EdgeRH)

/-- Equality of everything the writer looks at. -/
structure WSame (g g' : Graph) : Prop where
  name : g.name = g'.name
  directed : g.directed = g'.directed
  strict : g.strict = g'.strict
  attrs : g.attrs = g'.attrs
  subs : g.subGraphs = g'.subGraphs
  keys : mkeys g.nodes.lookup = mkeys g'.nodes.lookup
  find : ∀ n, g.nodes.find n = g'.nodes.find n
  children : ∀ p, g.relations.children p = g'.relations.children p

theorem SameContent.wsame {g g' : Graph} (h : GInv g) (h' : GInv g') (hs : SameContent g g') : WSame g g' := by
  have hfind : ∀ n, g.nodes.find n = g'.nodes.find n := by
    intro n
    have := hs.nodes n
    cases hf : g.nodes.find n with
    | none =>
      rw [hf] at this
      cases hf' : g'.nodes.find n with
      | none => rfl
      | some nd => rw [hf'] at this; cases this
    | some nd =>
      rw [hf] at this
      cases hf' : g'.nodes.find n with
      | none => rw [hf'] at this; cases this
      | some nd' =>
        rw [hf'] at this
        simp only [Option.map_some, Option.some.injEq] at this
        have e1 := (h.nodes.find_name hf).1
        have e2 := (h'.nodes.find_name hf').1
        cases nd; cases nd'
        simp only at this e1 e2
        rw [this, e1, e2]
  refine ⟨hs.name, hs.directed, hs.strict, Map.ext h.attrs.wf h'.attrs.wf hs.attrs, ?_, ?_, hfind, ?_⟩
  · apply Map.ext h.subs.wf h'.subs.wf
    intro n
    have hn := hs.subs n
    simp only [mhas] at hn
    cases hm : mget g.subGraphs n with
    | none =>
      rw [hm] at hn
      cases hm' : mget g'.subGraphs n with
      | none => rfl
      | some s => rw [hm'] at hn; cases hn
    | some s =>
      rw [hm] at hn
      cases hm' : mget g'.subGraphs n with
      | none => rw [hm'] at hn; cases hn
      | some s' =>
        have ha := Map.ext (h.subs.attrs n s hm).wf (h'.subs.attrs n s' hm').wf (hs.subAttrs n s s' hm hm')
        have e1 := h.subs.name n s hm
        have e2 := h'.subs.name n s' hm'
        cases s; cases s'
        simp only at ha e1 e2
        rw [ha, e1, e2]
  · -- the key lists are strictly sorted and have the same elements
    have hsub : ∀ n, n ∈ mkeys g.nodes.lookup ↔ n ∈ mkeys g'.nodes.lookup := by
      intro n
      rw [← mhas_iff, ← mhas_iff, h.nodes.has_iff_find, h'.nodes.has_iff_find, hfind]
    apply sasc_perm_eq h.nodes.wf.sorted h'.nodes.wf.sorted
    exact (List.perm_ext_iff_of_nodup h.nodes.wf.nodup h'.nodes.wf.nodup).2 hsub
  · intro p
    apply Map.ext (h.rels.iwf1 p) (h'.rels.iwf1 p)
    intro c
    have hc := hs.children p c
    simp only [mhas] at hc
    cases hm : mget (g.relations.children p) c with
    | none =>
      rw [hm] at hc
      cases hm' : mget (g'.relations.children p) c with
      | none => rfl
      | some s => rw [hm'] at hc; cases hc
    | some b =>
      rw [hm] at hc
      cases hm' : mget (g'.relations.children p) c with
      | none => rw [hm'] at hc; cases hc
      | some b' => rw [h.rels.tt p c b hm, h'.rels.tt p c b' hm']

theorem WSame.isNode {g g' : Graph} (h : WSame g g') (n : Str) : g.isNode n = g'.isNode n := by
  have : g.isNode n = true ↔ g'.isNode n = true := by
    unfold Graph.isNode
    rw [mhas_iff, mhas_iff, h.keys]
  cases hg : g.isNode n <;> cases hg' : g'.isNode n <;> simp_all

theorem WSame.isSub {g g' : Graph} (h : WSame g g') (n : Str) : g.isSubGraph n = g'.isSubGraph n := by
  unfold Graph.isSubGraph; rw [h.subs]

theorem WSame.subBody {g g' : Graph} (h : WSame g g') (f : Nat) : subBody g f = Gographviz.subBody g' f := by
  induction f with
  | zero => rfl
  | succ f ih =>
    funext n
    have hc : childOf g (Gographviz.subBody g f) = childOf g' (Gographviz.subBody g' f) := by
      funext c
      unfold childOf nodeStmtOf
      rw [h.isNode, h.isSub, h.find, ih]
    simp only [Gographviz.subBody]
    rw [h.subs, hc]
    unfold Relations.sortedChildren
    rw [h.children]

theorem WSame.locOf {g g' : Graph} (h : WSame g g') (f : Nat) (n p : Str) : locOf g f n p = Gographviz.locOf g' f n p := by
  unfold Gographviz.locOf Graph.isClusterSubGraph
  rw [h.isNode, h.isSub, h.find, h.subBody]

theorem WSame.rootSubsOf {g g' : Graph} (h : WSame g g') (f : Nat) (seen ns : List Str) :
    rootSubsOf g f seen ns = Gographviz.rootSubsOf g' f seen ns := by
  induction ns generalizing seen with
  | nil => rfl
  | cons n ns ih =>
    simp only [Gographviz.rootSubsOf]
    rw [h.subBody, h.children, h.name]
    simp only [ih]

theorem WSame.writeAst {g g' : Graph} (hi : GInv g) (hi' : GInv g') (h : WSame g g') {sortE sortE' : List Edge → List Edge} (f : Nat)
    (he : sortE g.edges.edges = sortE' g'.edges.edges) : writeAst sortE f g = Gographviz.writeAst sortE' f g' := by
  rw [writeAst_eq hi, writeAst_eq hi', he, h.subs, h.keys, h.directed, h.strict, h.name, h.attrs]
  have e1 : edgeOf g f = edgeOf g' f := by
    funext e
    unfold edgeOf
    simp only [h.locOf]
  have e2 : nodeStmtOf g = nodeStmtOf g' := by
    funext c
    unfold nodeStmtOf
    rw [h.find]
  rw [e1, e2]
  simp only [h.rootSubsOf]

end Gographviz
