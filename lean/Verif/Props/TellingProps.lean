import Verif.Props.RoundTrip
import Verif.Spec.Telling
/-!
C94: the text of a graph tells graphs apart.
-/
namespace Gographviz.Props

open Gographviz Spec Spec.Telling Parse
open Gographviz.Ast (Stmt Loc EdgeRH AttrList NodeID)

namespace Tell

mutual
/-- The texts of the nodes of the node statements. -/
def nodeTexts : Stmt → List Str
  | .node n _ => [Ast.nodeIDStr n]
  | .edge src rhs _ => nodeTextsLoc src ++ nodeTextsRHS rhs
  | .sub _ body => nodeTextsL body
  | _ => []
def nodeTextsLoc : Loc → List Str
  | .node _ => []
  | .sub _ body => nodeTextsL body
def nodeTextsRHS : List EdgeRH → List Str
  | [] => []
  | .mk _ d :: rest => nodeTextsLoc d ++ nodeTextsRHS rest
def nodeTextsL : List Stmt → List Str
  | [] => []
  | s :: ss => nodeTexts s ++ nodeTextsL ss
end

theorem nodeTextsL_append (a b : List Stmt) : nodeTextsL (a ++ b) = nodeTextsL a ++ nodeTextsL b := by
  induction a with
  | nil => simp [nodeTextsL]
  | cons s a ih => simp [nodeTextsL, ih]

section
variable {φ : NodeID → NodeID} (hφ : ∀ n, Ast.nodeIDStr (φ n) = Ast.nodeIDStr n)
include hφ
mutual
theorem map_stmt : (s : Stmt) → nodeTexts (mapStmt φ s) = nodeTexts s
  | .node n as => by simp only [mapStmt, nodeTexts, hφ]
  | .edge src rhs as => by simp only [mapStmt, nodeTexts, map_loc src, map_rhs rhs]
  | .nodeAttrs as => by simp only [mapStmt]
  | .edgeAttrs as => by simp only [mapStmt]
  | .graphAttrs as => by simp only [mapStmt]
  | .sub id body => by simp only [mapStmt, nodeTexts, map_stmts body]
  | .attr a => by simp only [mapStmt]
theorem map_loc : (l : Loc) → nodeTextsLoc (mapLoc φ l) = nodeTextsLoc l
  | .node n => by simp only [mapLoc]
  | .sub id body => by simp only [mapLoc, nodeTextsLoc, map_stmts body]
theorem map_rhs : (r : List EdgeRH) → nodeTextsRHS (mapRHS φ r) = nodeTextsRHS r
  | [] => by simp only [mapRHS]
  | .mk op d :: rest => by simp only [mapRHS, nodeTextsRHS, map_loc d, map_rhs rest]
theorem map_stmts : (ss : List Stmt) → nodeTextsL (mapStmts φ ss) = nodeTextsL ss
  | [] => by simp only [mapStmts]
  | s :: ss => by simp only [mapStmts, nodeTextsL, map_stmt s, map_stmts ss]
end
end

theorem norm_defaults (mk : AttrList → Stmt) (hmk : ∀ as, nodeTexts (mk as) = []) (as : AttrList) : nodeTextsL (normDefaults mk as) = [] := by
  unfold normDefaults
  split
  · simp [nodeTextsL]
  · simp [nodeTextsL, hmk]

mutual
theorem norm_stmt : (s : Stmt) → nodeTextsL (normStmt s) = nodeTexts s
  | .node n as => by simp only [normStmt, nodeTextsL, nodeTexts, normNode_str, List.append_nil]
  | .edge src rhs as => by simp only [normStmt, nodeTextsL, nodeTexts, norm_loc src, norm_rhs rhs, List.append_nil]
  | .nodeAttrs as => by simp only [normStmt, nodeTexts]; exact norm_defaults _ (fun _ => by simp only [nodeTexts]) as
  | .edgeAttrs as => by simp only [normStmt, nodeTexts]; exact norm_defaults _ (fun _ => by simp only [nodeTexts]) as
  | .graphAttrs as => by simp only [normStmt, nodeTexts]; exact norm_defaults _ (fun _ => by simp only [nodeTexts]) as
  | .sub id body => by simp only [normStmt, nodeTextsL, nodeTexts, norm_stmts body, List.append_nil]
  | .attr a => by simp only [normStmt, nodeTextsL, nodeTexts, List.append_nil]
theorem norm_loc : (l : Loc) → nodeTextsLoc (normLoc l) = nodeTextsLoc l
  | .node n => by simp only [normLoc, nodeTextsLoc]
  | .sub id body => by simp only [normLoc, nodeTextsLoc, norm_stmts body]
theorem norm_rhs : (r : List EdgeRH) → nodeTextsRHS (normRHS r) = nodeTextsRHS r
  | [] => by simp only [normRHS]
  | .mk op d :: rest => by simp only [normRHS, nodeTextsRHS, norm_loc d, norm_rhs rest]
theorem norm_stmts : (ss : List Stmt) → nodeTextsL (normStmts ss) = nodeTextsL ss
  | [] => by simp only [normStmts]
  | s :: ss => by simp only [normStmts, nodeTextsL_append, nodeTextsL, norm_stmt s, norm_stmts ss]
end

mutual
theorem mem_stmt {x : Str} : (s : Stmt) → (x ∈ nodeTexts s ↔ ∃ n as, Stmt.node n as ∈ allStmt s ∧ Ast.nodeIDStr n = x)
  | .node n as => by simp [nodeTexts, allStmt, eq_comm]
  | .edge src rhs as => by simp [nodeTexts, allStmt, mem_loc src, mem_rhs rhs, or_and_right, exists_or]
  | .nodeAttrs as => by simp [nodeTexts, allStmt]
  | .edgeAttrs as => by simp [nodeTexts, allStmt]
  | .graphAttrs as => by simp [nodeTexts, allStmt]
  | .sub id body => by simp [nodeTexts, allStmt, mem_stmts body]
  | .attr a => by simp [nodeTexts, allStmt]
theorem mem_loc {x : Str} : (l : Loc) → (x ∈ nodeTextsLoc l ↔ ∃ n as, Stmt.node n as ∈ allLoc l ∧ Ast.nodeIDStr n = x)
  | .node n => by simp [nodeTextsLoc, allLoc]
  | .sub id body => by simp [nodeTextsLoc, allLoc, mem_stmts body]
theorem mem_rhs {x : Str} : (r : List EdgeRH) → (x ∈ nodeTextsRHS r ↔ ∃ n as, Stmt.node n as ∈ allRHS r ∧ Ast.nodeIDStr n = x)
  | [] => by simp [nodeTextsRHS, allRHS]
  | .mk op d :: rest => by simp [nodeTextsRHS, allRHS, mem_loc d, mem_rhs rest, or_and_right, exists_or]
theorem mem_stmts {x : Str} : (ss : List Stmt) → (x ∈ nodeTextsL ss ↔ ∃ n as, Stmt.node n as ∈ allStmts ss ∧ Ast.nodeIDStr n = x)
  | [] => by simp [nodeTextsL, allStmts]
  | s :: ss => by simp [nodeTextsL, allStmts, mem_stmt s, mem_stmts ss, or_and_right, exists_or]
end

/-- The texts of the node statements of a written tree are the names of the nodes. -/
theorem node_iff {g : Graph} (h : Reachable g) (hd : NamesDisjoint g) {sortE : List Edge → List Edge} {f : Nat} {t : Ast.Graph} (ht : writeAst sortE f g = .ok t) (n : Str) :
    n ∈ nodeTextsL t.stmts ↔ g.isNode n = true := by
  rw [mem_stmts]
  constructor
  · rintro ⟨id, as, hin, rfl⟩
    obtain ⟨hp, nd, hf, _⟩ := C17_node_statements_faithful h ht hin
    have : Ast.nodeIDStr id = id.id := by
      obtain ⟨i, p⟩ := id
      simp only at hp
      subst hp
      simp [Ast.nodeIDStr, Ast.portStr]
    rw [this]
    cases hn : g.isNode id.id with
    | true => rfl
    | false => rw [(isNode_find h.inv _).2 hn] at hf; cases hf
  · intro hn
    obtain ⟨nd, _, hin⟩ := C17_no_node_lost h hd ht hn
    exact ⟨_, _, hin, by simp [Ast.nodeIDStr, Ast.portStr]⟩

end Tell

/-- C94. If two graphs have the same text, they agree on everything that is written. -/
theorem C94_text_tells {g g' : Graph} (h : Reachable g) (h' : Reachable g') (hv : ValidGraph g) (hv' : ValidGraph g') (hna : NamesApart g) (hna' : NamesApart g')
    {sortE sortE' : List Edge → List Edge} (hs : SortContract sortE) (hs' : SortContract sortE') {f f' : Nat} {t t' : Ast.Graph}
    (ht : writeAst sortE f g = .ok t) (ht' : writeAst sortE' f' g' = .ok t') (heq : graphString sortE f g = graphString sortE' f' g') : Agree g g' := by
  obtain ⟨text, r, e1, e2, _, b⟩ := C37_round_trip h hv hna hs ht (fun _ => 0) 0
  obtain ⟨text', r', e1', e2', _, b'⟩ := C37_round_trip h' hv' hna' hs' ht' (fun _ => 0) 0
  have htx : text = text' := by
    rw [e1, e1'] at heq; exact WRes.ok.inj heq
  subst htx
  have hr : r = r' := by
    rw [e2] at e2'; cases e2'; rfl
  subst hr
  have hts : Ast.graphStr t = Ast.graphStr t' := by
    unfold graphString at heq
    rw [ht, ht'] at heq
    exact WRes.ok.inj heq
  have htree : norm (mapTree splitName t) = norm (mapTree splitName t') := by
    have p1 := C36_print_parse (written_printable h hv hs ht) (fun _ => 0) 0
    have p2 := C36_print_parse (written_printable h' hv' hs' ht') (fun _ => 0) 0
    rw [graphStr_map splitName_str] at p1 p2
    rw [hts, p2] at p1
    injection p1 with p1
    exact p1.symm
  have hnt : Tell.nodeTextsL t.stmts = Tell.nodeTextsL t'.stmts := by
    have := congrArg (fun x : Ast.Graph => Tell.nodeTextsL x.stmts) htree
    simp only [norm, mapTree, Tell.norm_stmts, Tell.map_stmts splitName_str] at this
    exact this
  have hnode : ∀ n, g.isNode n = g'.isNode n := fun n => by
    have i1 := Tell.node_iff h hna.disjoint ht n
    have i2 := Tell.node_iff h' hna'.disjoint ht' n
    rw [hnt] at i1
    cases h1 : g.isNode n <;> cases h2 : g'.isNode n <;> simp_all
  refine ⟨b.name.symm.trans b'.name, b.directed.symm.trans b'.directed, b.strict.symm.trans b'.strict, fun k => (b.attrs k).symm.trans (b'.attrs k), fun n => ?_,
    fun n => (b.subs n).symm.trans (b'.subs n), fun n hw s s' h1 h2 k => ?_, fun p hp c => ?_, b.edges.trans b'.edges.symm⟩
  · cases hn : g.isNode n with
    | false => rw [(isNode_find h.inv n).2 hn, (isNode_find h'.inv n).2 (by rw [← hnode]; exact hn)]
    | true =>
      have hn' : g'.isNode n = true := by rw [← hnode]; exact hn
      rw [b.nodes n (fun hc => by rw [hc.1] at hn; cases hn), b'.nodes n (fun hc => by rw [hc.1] at hn'; cases hn')]
  · obtain ⟨x, hx⟩ := (isSub_get r n).1 ((b.subs n).2 hw)
    rw [← b.subAttrs n s x h1 hx k, ← b'.subAttrs n s' x h2 hx k]
  · have hp' : IsWritten g' p := (b'.subs p).1 ((b.subs p).2 hp)
    rw [← b.children p hp c, ← b'.children p hp' c]

/-- C94. With ports that do not start with a colon, the text tells the edges exactly. -/
theorem C94_edges {g g' : Graph} (h : Agree g g') (hp : PlainPorts g) (hp' : PlainPorts g') : g.edges.edges.Perm g'.edges.edges := by
  have key : ∀ {l : List Edge}, (∀ e ∈ l, (∀ r, e.srcPort ≠ 58 :: r) ∧ ∀ r, e.dstPort ≠ 58 :: r) →
      (l.map edgeRead).map (fun e => ({ e with srcPort := e.srcPort.drop 1, dstPort := e.dstPort.drop 1 } : Edge)) = l := by
    intro l hl
    have port : ∀ p : Str, (∀ r, p ≠ 58 :: r) → (portRead p).drop 1 = p := by
      intro p hp
      unfold portRead
      split
      · rfl
      · rename_i r; exact absurd rfl (hp r)
      · rfl
    rw [List.map_map]
    conv => rhs; rw [← List.map_id l]
    apply List.map_congr_left
    intro e he
    obtain ⟨s, sp, d, dp, dir, a⟩ := e
    obtain ⟨h1, h2⟩ := hl _ he
    simp only [Function.comp_apply, edgeRead, id_eq, Edge.mk.injEq, true_and, and_true]
    exact ⟨port sp h1, port dp h2⟩
  have := h.edges.map (fun e => ({ e with srcPort := e.srcPort.drop 1, dstPort := e.dstPort.drop 1 } : Edge))
  rwa [key hp, key hp'] at this

/-- The same graph made in two ways. -/
def tellOps (swap : Bool) : List Op := [
  .setName (b!"G"), .setDir true] ++ (if swap then [.addNode (b!"G") (b!"b") [], .addSubGraph (b!"G") (b!"S") [(b!"color", b!"red")], .addNode (b!"S") (b!"a") [(b!"label", b!"1")],
    .addNode (b!"G") (b!"c") [], .addSubGraph (b!"nowhere") (b!"U") [], .addEdge (b!"c") (b!"S") true [], .addPortEdge (b!"a") (b!"n") (b!"b") [] true []] else
  [.addSubGraph (b!"G") (b!"S") [], .addNode (b!"S") (b!"a") [(b!"label", b!"1")], .addNode (b!"G") (b!"b") [], .addNode (b!"H") (b!"c") [],
    .addPortEdge (b!"a") (b!"n") (b!"b") [] true [], .addEdge (b!"c") (b!"S") true [], .addAttr (b!"S") (b!"color") (b!"red")])

/-- Two graphs that meet the hypotheses and have the same text, although they differ in what is not written: a subgraph in no written graph, and a parent
of a node that is no graph. -/
theorem example_telling : ∃ g g' t t', Reachable g ∧ Reachable g' ∧ ValidGraph g ∧ ValidGraph g' ∧ NamesApart g ∧ NamesApart g' ∧ PlainPorts g ∧ PlainPorts g' ∧
    writeAst edgeInsertionSort 4 g = .ok t ∧ writeAst edgeInsertionSort 4 g' = .ok t' ∧ graphString edgeInsertionSort 4 g = graphString edgeInsertionSort 4 g' ∧
    g.isSubGraph (b!"U") = true ∧ g'.isSubGraph (b!"U") = false ∧ mhas (g'.relations.children (b!"H")) (b!"c") = true ∧ g.edges.edges.length = 2 := by
  have apart : ∀ b, NamesApart (newGraph.run (tellOps b)) := by
    intro b
    refine ⟨?_, by cases b <;> decide +kernel⟩
    rintro n ⟨h1, h2⟩
    have h1 := (mhas_iff _ _).1 h1
    have h2 := (mhas_iff _ _).1 h2
    have e : ∀ n ∈ mkeys (newGraph.run (tellOps b)).nodes.lookup, n ∉ mkeys (newGraph.run (tellOps b)).subGraphs := by cases b <;> decide +kernel
    exact e n h1 h2
  have reach : ∀ b, Reachable (newGraph.run (tellOps b)) := by
    intro b
    exact Reachable.init.run (by cases b <;> decide +kernel)
  have valid : ∀ b, ValidGraph (newGraph.run (tellOps b)) := by
    intro b
    exact graphB_valid (reach b) (by cases b <;> decide +kernel)
  have plain : ∀ b, PlainPorts (newGraph.run (tellOps b)) := by
    intro b
    have e : ∀ e ∈ (newGraph.run (tellOps b)).edges.edges, e.srcPort.head? ≠ some 58 ∧ e.dstPort.head? ≠ some 58 := by cases b <;> decide +kernel
    intro x hx
    refine ⟨fun r hr => (e x hx).1 (by rw [hr]; rfl), fun r hr => (e x hx).2 (by rw [hr]; rfl)⟩
  exact ⟨newGraph.run (tellOps true), newGraph.run (tellOps false), _, _, reach _, reach _, valid _, valid _, apart _, apart _, plain _, plain _, rfl, rfl, rfl,
    by decide +kernel, by decide +kernel, by decide +kernel, by decide +kernel⟩

/-- C94. The restriction on ports is needed: a port that starts with a colon is not in the text. -/
theorem C94_colon_invisible : ∃ g g', Reachable g ∧ Reachable g' ∧ graphString edgeInsertionSort 4 g = graphString edgeInsertionSort 4 g' ∧
    ¬ g.edges.edges.Perm g'.edges.edges := by
  refine ⟨newGraph.run [.addNode [] (b!"a") [], .addPortEdge (b!"a") (b!":n") (b!"a") [] true []], newGraph.run [.addNode [] (b!"a") [], .addEdge (b!"a") (b!"a") true []],
    Reachable.init.run (by decide +kernel), Reachable.init.run (by decide +kernel), rfl, ?_⟩
  intro h
  have := h.mem_iff (a := (⟨b!"a", b!":n", b!"a", [], true, []⟩ : Edge))
  revert this
  decide +kernel

end Gographviz.Props
