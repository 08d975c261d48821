import Verif.Proofs.AnalyseKeep
/-!
Property C64: the maps that `Analyse` hands to implementations of `Interface`.
-/
namespace Gographviz.Props

open Gographviz Spec
open Gographviz.Ast (Stmt Loc EdgeRH AttrList)

variable {σ : Type}

/-- C64, implementations that look at a map during the call only (as `Graph` and `Escape` do): `Analyse` makes the same calls with the same
contents as if it passed copies, and leaves the maps `m` that the caller had before as they are. -/
theorem C64_copying (I : Iface σ) (t : Ast.Graph) (g : σ) (m : MMem) :
    (analyseM (copying I) t g m).g.1 = (analyseC I t g).g ∧ (analyseM (copying I) t g m).errs = (analyseC I t g).errs ∧
    ∀ (a : Nat) (x : Map Str), m[a]? = some x → (analyseM (copying I) t g m).mem[a]? = some x := by
  unfold analyseM analyseC
  generalize hc0 : (⟨(g, m), []⟩ : MCatcher σ) = c0
  have h0 : CRel c0 (⟨g, []⟩ : Catcher σ) := by rw [← hc0]; exact ⟨rfl, rfl⟩
  have m0 : c0.mem = m := by rw [← hc0]; rfl
  dsimp only
  generalize hd0 : (⟨g, []⟩ : Catcher σ) = d0 at h0 ⊢
  have hg : g = d0.g := by rw [← hd0]
  rw [hg]
  clear hg hd0 hc0
  generalize hc1 : c0.record ((copying I).setStrict c0.g t.strict) = c1
  have h1 : CRel c1 (d0.record (I.setStrict d0.g t.strict)) := by
    rw [← hc1]
    apply h0.record
    · show (I.setStrict c0.g.1 t.strict).1 = _; rw [h0.g]
    · show (I.setStrict c0.g.1 t.strict).2 = _; rw [h0.g]
  have m1 : c1.mem = m := by rw [← hc1, record_mem]; exact m0
  generalize d0.record (I.setStrict d0.g t.strict) = d1 at h1 ⊢
  generalize hc2 : c1.record ((copying I).setDir c1.g t.type_) = c2
  have h2 : CRel c2 (d1.record (I.setDir d1.g t.type_)) := by
    rw [← hc2]
    apply h1.record
    · show (I.setDir c1.g.1 t.type_).1 = _; rw [h1.g]
    · show (I.setDir c1.g.1 t.type_).2 = _; rw [h1.g]
  have m2 : c2.mem = m := by rw [← hc2, record_mem]; exact m1
  generalize d1.record (I.setDir d1.g t.type_) = d2 at h2 ⊢
  generalize hc3 : c2.record ((copying I).setName c2.g t.id) = c3
  have h3 : CRel c3 (d2.record (I.setName d2.g t.id)) := by
    rw [← hc3]
    apply h2.record
    · show (I.setName c2.g.1 t.id).1 = _; rw [h2.g]
    · show (I.setName c2.g.1 t.id).2 = _; rw [h2.g]
  have m3 : c3.mem = m := by rw [← hc3, record_mem]; exact m2
  generalize d2.record (I.setName d2.g t.id) = d3 at h3 ⊢
  have hn : ∀ a, (none : Option Nat) = some a → a < c3.mem.length := by intro a h; cases h
  obtain ⟨k1, k2, k3, k4⟩ := newMVisitor_spec t.id none none c3 hn hn
  obtain ⟨k5, k6⟩ := newMVisitor_rel hn hn t.id
  obtain ⟨g1, g2, g3, g4⟩ := copying_stmts I k5 (⟨k3.trans h3.g, k4.trans h3.errs⟩ : CRel (newMVisitor t.id none none c3).2 d3) t.stmts
  refine ⟨g2.g, g2.errs, ?_⟩
  intro a x hx
  have ha : a < m.length := by
    apply Classical.byContradiction
    intro h; rw [List.getElem?_eq_none (by omega)] at hx; cases hx
  have hlen := g4.len
  have hlen' := k6.len
  rw [m3] at hlen'
  have := g4.same a (by omega) (by
    rw [k1]
    simp only [MVisitor.maps, List.mem_cons, List.not_mem_nil, or_false, m3]
    omega)
  have h' := k6.same a (by rw [m3]; exact ha) (by simp)
  rw [h', m3] at this
  unfold List.mapAt at this
  rw [hx] at this
  generalize (mWalkStmts (copying I) (newMVisitor t.id none none c3).1 (newMVisitor t.id none none c3).2 t.stmts).2 = r at this hlen ⊢
  have hr : a < r.mem.length := by omega
  rw [List.getElem?_eq_getElem hr] at this ⊢
  simpa using this

/-- C64, part: an implementation that keeps the maps it is given (without changing them) gets maps that `Analyse` made itself; those of
edges never change again; those of nodes change at most by attributes of `node [...]` statements, and those of subgraphs at most by
attributes of `graph [...]` statements. Missing from the full claim: that they do not change at all, which is false
(`C64_node_map_changes`, `C64_subgraph_map_changes`). -/
theorem C64_kept_partial (t : Ast.Graph) (m : MMem) (x : Given) : x ∈ (analyseM keeper t [] m).g.1 →
    (m.length ≤ x.map ∧ x.map < (analyseM keeper t [] m).mem.length) ∧
    match x with
    | .edge a c => (analyseM keeper t [] m).mem[a]? = some c
    | .node _ a c => ∀ k, mget ((analyseM keeper t [] m).mem.mapAt a) k = mget c k ∨
        ∃ v, mget ((analyseM keeper t [] m).mem.mapAt a) k = some v ∧ (k, v) ∈ nodeEntries t.stmts
    | .sub _ a c => ∀ k, mget ((analyseM keeper t [] m).mem.mapAt a) k = mget c k ∨
        ∃ v, mget ((analyseM keeper t [] m).mem.mapAt a) k = some v ∧ (k, v) ∈ graphEntries t.stmts := by
  intro hx
  unfold analyseM at hx ⊢
  dsimp only at hx ⊢
  generalize hc3 : Catcher.record _ (keeper.setName _ t.id) = c3 at hx ⊢
  have m3 : c3.mem = m := by rw [← hc3]; rfl
  have l3 : c3.g.1 = [] := by rw [← hc3]; rfl
  have hn : ∀ a, (none : Option Nat) = some a → a < c3.mem.length := by intro a h; cases h
  obtain ⟨k1, k2, k3, -⟩ := newMVisitor_spec t.id none none c3 hn hn
  obtain ⟨k5, k6⟩ := newMVisitor_rel hn hn t.id
  have hw : WOk (newMVisitor t.id none none c3).1 (newMVisitor t.id none none c3).2.mem := by
    refine ⟨k5.ne, k5.ng, k5.eg, ?_⟩
    intro a ha
    simp only [MVisitor.maps, List.mem_cons, List.not_mem_nil, or_false] at ha
    rcases ha with rfl | rfl | rfl
    · exact k5.nl
    · exact k5.el
    · exact k5.gl
  obtain ⟨h1, -⟩ := keep_stmts hw t.stmts (D := nodeEntries t.stmts) (G := graphEntries t.stmts) (fun _ h => h) (fun _ h => h)
  generalize (mWalkStmts keeper (newMVisitor t.id none none c3).1 (newMVisitor t.id none none c3).2 t.stmts).2 = r at hx h1 ⊢
  obtain ⟨new, e, f⟩ := h1.log
  rw [k3, l3, List.nil_append] at e
  rw [e] at hx
  obtain ⟨g1, g2⟩ := f x hx
  have hlen := k6.len
  rw [m3] at hlen
  cases x with
  | edge a c =>
    refine ⟨⟨Nat.le_trans hlen g2.1, g1⟩, ?_⟩
    have := g2.2
    unfold List.mapAt at this
    have g1 : a < r.mem.length := g1
    show r.mem[a]? = some c
    rw [List.getElem?_eq_getElem g1] at this ⊢
    simpa using this
  | node n a c =>
    refine ⟨⟨?_, g1⟩, g2.2⟩
    rcases g2.1 with h | h
    · exact Nat.le_trans hlen h
    · show m.length ≤ a; rw [h, k1, ← m3]; dsimp only; omega
  | sub n a c =>
    refine ⟨⟨?_, g1⟩, g2.2⟩
    rcases g2.1 with h | h
    · exact Nat.le_trans hlen h
    · show m.length ≤ a; rw [h, k1, ← m3]; dsimp only; omega

/-- In a tree without `node [...]` statements the maps of all nodes keep what they had; without `graph [...]` statements those of subgraphs. -/
theorem C64_kept_without_defaults (t : Ast.Graph) (m : MMem) :
    (nodeEntries t.stmts = [] → ∀ n a c, Given.node n a c ∈ (analyseM keeper t [] m).g.1 →
      ∀ k, mget ((analyseM keeper t [] m).mem.mapAt a) k = mget c k) ∧
    (graphEntries t.stmts = [] → ∀ n a c, Given.sub n a c ∈ (analyseM keeper t [] m).g.1 →
      ∀ k, mget ((analyseM keeper t [] m).mem.mapAt a) k = mget c k) := by
  constructor
  · intro h n a c hx k
    rcases (C64_kept_partial t m _ hx).2 k with h1 | ⟨v, -, h1⟩
    · exact h1
    · rw [h] at h1; cases h1
  · intro h n a c hx k
    rcases (C64_kept_partial t m _ hx).2 k with h1 | ⟨v, -, h1⟩
    · exact h1
    · rw [h] at h1; cases h1

/-- A node without port. -/
def nd (s : Str) : Ast.NodeID := ⟨s, ⟨[], []⟩⟩

/-- `digraph G { a -> b; node [color=red]; c [shape=box]; c -> d }`. -/
def lateDefault : Ast.Graph := ⟨false, true, b!"G", [
  .edge (.node (nd (b!"a"))) [.mk true (.node (nd (b!"b")))] [],
  .nodeAttrs [[⟨b!"color", b!"red"⟩]],
  .node (nd (b!"c")) [[⟨b!"shape", b!"box"⟩]],
  .edge (.node (nd (b!"c"))) [.mk true (.node (nd (b!"d")))] []]⟩

/-- The code breaks the full claim: the map given for node `a` is empty during the call, and has the colour of a later `node [...]` statement
in the end. It is also the map given for `d`. -/
theorem C64_node_map_changes : ∃ i, Given.node (b!"a") i [] ∈ (analyseM keeper lateDefault [] []).g.1 ∧
    Given.node (b!"d") i [(b!"color", b!"red")] ∈ (analyseM keeper lateDefault [] []).g.1 ∧
    (analyseM keeper lateDefault [] []).mem.mapAt i = [(b!"color", b!"red")] :=
  ⟨0, by decide +kernel, by decide +kernel, by decide +kernel⟩

/-- The same for subgraphs: `digraph G { subgraph s { } graph [rankdir=LR] }`. -/
theorem C64_subgraph_map_changes : ∃ i, Given.sub (b!"s") i [] ∈
      (analyseM keeper ⟨false, true, b!"G", [.sub (b!"s") [], .graphAttrs [[⟨b!"rankdir", b!"LR"⟩]]]⟩ [] []).g.1 ∧
    (analyseM keeper ⟨false, true, b!"G", [.sub (b!"s") [], .graphAttrs [[⟨b!"rankdir", b!"LR"⟩]]]⟩ [] []).mem.mapAt i = [(b!"rankdir", b!"LR")] :=
  ⟨2, by decide +kernel, by decide +kernel⟩

/-- The edges of one statement `a -> b -> c` get the same map. -/
theorem C64_chain_shares : ∃ i, (analyseM keeper ⟨false, true, b!"G",
      [.edge (.node (nd (b!"a"))) [.mk true (.node (nd (b!"b"))), .mk true (.node (nd (b!"c")))] [[⟨b!"color", b!"red"⟩]]]⟩ [] []).g.1.filter
        (fun x => match x with | .edge .. => true | _ => false) =
    [.edge i [(b!"color", b!"red")], .edge i [(b!"color", b!"red")]] :=
  ⟨3, by decide +kernel⟩

/-- An implementation that fills in a missing label in the map it is given. -/
def labeller : MIface (List (Str × Map Str)) where
  setStrict := fun s _ => (s, none)
  setDir := fun s _ => (s, none)
  setName := fun s _ => (s, none)
  addPortEdge := fun s _ _ _ _ _ _ => (s, none)
  addNode := fun s _ n m =>
    let attrs := attrsAmmend (s.2.mapAt m) [(b!"label", n)]
    ((s.1 ++ [(n, attrs)], s.2.set m attrs), none)
  addAttr := fun s _ _ _ => (s, none)
  addSubGraph := fun s _ _ _ => (s, none)

/-- An implementation that changes the map it is given changes the defaults of the scope: in `digraph G { a -> b }` the node `b` gets the
label that the implementation gave to `a`. -/
theorem C64_writing_spreads :
    (analyseM labeller ⟨false, true, b!"G", [.edge (.node (nd (b!"a"))) [.mk true (.node (nd (b!"b")))] []]⟩ [] []).g.1 =
      [(b!"a", [(b!"label", b!"a")]), (b!"b", [(b!"label", b!"a")])] := by decide +kernel

/-- `C64_copying` on a graph with nested subgraphs, defaults and chains. -/
example : (analyseM (copying graphIface) lateDefault newGraph [[(b!"x", b!"y")]]).errs = [] ∧
    (analyseM (copying graphIface) lateDefault newGraph [[(b!"x", b!"y")]]).g.1.isNode (b!"d") = true := by
  rw [(C64_copying graphIface lateDefault newGraph [[(b!"x", b!"y")]]).1, (C64_copying graphIface lateDefault newGraph [[(b!"x", b!"y")]]).2.1]
  decide +kernel

end Gographviz.Props
