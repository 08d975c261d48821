import Verif.Props.WriteProps
/-!
Properties C17 (witness), C18–C21, C42 and C47: the writer.
-/
namespace Gographviz.Props

open Gographviz Spec
open Gographviz.Ast (Stmt Loc EdgeRH)

/-! ### C17: the hypothesis on names -/

/-- C17. The hypothesis that no name is both a node and a subgraph is needed: here the node `x` is silently lost. -/
theorem C17_name_clash_loses_node :
    ∃ g t, Reachable g ∧ writeAst edgeInsertionSort 2 g = .ok t ∧ g.isNode (b!"x") = true ∧
      ∀ id as, Stmt.node id as ∉ allStmts t.stmts := by
  refine ⟨newGraph.run [.setName (b!"G"), .addNode (b!"G") (b!"x") [(b!"label", b!"1")], .addSubGraph (b!"G") (b!"x") []],
    { type_ := false, strict := false, id := b!"G", stmts := [.sub (b!"x") []] },
    Reachable.init.run (by decide +kernel), rfl, by decide +kernel, ?_⟩
  intro id as hin
  simp [allStmts, allStmt] at hin

/-- The example graph has disjoint names. -/
theorem example_disjoint : NamesDisjoint Example.g := by
  intro n ⟨h1, h2⟩
  have l1 : mkeys Example.g.nodes.lookup = [b!"a", b!"b", b!"c"] := by decide +kernel
  have l2 : mkeys Example.g.subGraphs = [b!"S", b!"cluster_x"] := by decide +kernel
  have h1 := (mhas_iff _ _).1 h1
  have h2 := (mhas_iff _ _).1 h2
  rw [l1] at h1
  rw [l2] at h2
  simp only [List.mem_cons, List.not_mem_nil, or_false] at h1 h2
  rcases h1 with rfl | rfl | rfl <;> rcases h2 with h2 | h2 <;> cases h2

/-- The tree written for the example graph. -/
def exampleTree : Ast.Graph :=
  { type_ := true, strict := false, id := b!"G",
    stmts := [
      .attr ⟨b!"rankdir", b!"LR"⟩,
      .edge (.node ⟨b!"a", ⟨[], []⟩⟩) [.mk true (.node ⟨b!"b", ⟨[], []⟩⟩)] [[]],
      .edge (.node ⟨b!"a", ⟨b!"p", []⟩⟩) [.mk true (.node ⟨b!"b", ⟨b!"q", []⟩⟩)] [[⟨b!"weight", b!"2"⟩]],
      .edge (.node ⟨b!"b", ⟨[], []⟩⟩) [.mk true (.node ⟨b!"c", ⟨[], []⟩⟩)] [[]],
      .sub (b!"S") [.attr ⟨b!"color", b!"red"⟩, .node ⟨b!"b", ⟨[], []⟩⟩ [[]]],
      .sub (b!"cluster_x") [.node ⟨b!"c", ⟨[], []⟩⟩ [[⟨b!"color", b!"blue"⟩]]],
      .node ⟨b!"a", ⟨[], []⟩⟩ [[⟨b!"label", b!"two"⟩, ⟨b!"shape", b!"box"⟩]]] }

example : Reachable Example.g ∧ NamesDisjoint Example.g ∧ writeAst edgeInsertionSort 3 Example.g = .ok exampleTree ∧
    Example.g.isNode (b!"a") = true ∧ Example.g.isNode (b!"b") = true :=
  ⟨Example.g_reachable, example_disjoint, by rfl, by decide +kernel, by decide +kernel⟩

/-! ### C18 -/

theorem endWritten {g : Graph} (h : Reachable g) {f : Nat} {n p : Str} {l : Loc} (hl : locOf g f n p = .ok l) :
    EndWritten g n p l := by
  have hi := locOf_inner h.inv hl
  have hok := locOf_ok h.inv hl
  by_cases hn : g.isNode n = true
  · exact .inl ⟨hi.2.2.2.1 (.inl hn), .inl hn⟩
  by_cases hc : g.isClusterSubGraph n = true
  · exact .inl ⟨hi.2.2.2.1 (.inr hc), .inr hc⟩
  have hn : g.isNode n = false := by simpa using hn
  have hc : g.isClusterSubGraph n = false := by simpa using hc
  obtain ⟨body, rfl⟩ := hi.2.2.2.2 hn hc
  right
  refine ⟨body, rfl, hi.1 (.sub n body) (by simp [allLoc]), hn, hc, ?_⟩
  have := hok.1
  unfold BadEnd at this
  cases p with
  | nil => rfl
  | cons c p => exact absurd ⟨hn, .inr (by simp)⟩ this

/-- C18. In a successfully written tree the edge statements at top level are, in order, one for each edge of the sorted edge list,
with the edge's endpoints, ports, direction and exactly its attributes; and there is no edge statement below top level. -/
theorem C18_edges_faithful {g : Graph} (h : Reachable g) {sortE : List Edge → List Edge} (hs : SortContract sortE) {f : Nat}
    {t : Ast.Graph} (ht : writeAst sortE f g = .ok t) :
    Forall2 (EdgeWritten g) (sortE g.edges.edges) (t.stmts.filter isEdgeStmt) ∧
    (allStmts t.stmts).filter isEdgeStmt = t.stmts.filter isEdgeStmt ∧
    (t.stmts.filter isEdgeStmt).length = g.edges.edges.length := by
  obtain ⟨es, ss, ns, hes, hss, hns, rfl⟩ := written_parts h ht
  have hf1 : ∀ a : Attrs, (attrsAsStmts a).filter isEdgeStmt = [] := by
    intro a
    rw [List.filter_eq_nil_iff]
    intro s hs
    obtain ⟨e, _, rfl⟩ := List.mem_map.1 hs
    simp [isEdgeStmt]
  have hf2 : es.filter isEdgeStmt = es := by
    rw [List.filter_eq_self]
    intro s hs
    obtain ⟨e, _, he⟩ := hes.mem_right hs
    obtain ⟨src, dst, rfl, _⟩ := edgeOf_inner h.inv he
    rfl
  have hf3 : (allStmts ss).filter isEdgeStmt = [] := by
    rw [List.filter_eq_nil_iff]
    intro x hx
    obtain ⟨s, hs, hin⟩ := mem_allStmts.1 hx
    obtain ⟨m, b, _, rfl, hb, _⟩ := (rootSubsOf_ok hss).1 s hs
    have hok := subBody_ok h.inv hb
    simp only [allStmt, List.mem_cons] at hin
    rcases hin with rfl | hin
    · simp [isEdgeStmt]
    · have := hok.2.1 x hin
      cases x <;> simp_all [isEdgeStmt, InnerOk]
  have hf3' : ss.filter isEdgeStmt = [] := by
    rw [List.filter_eq_nil_iff] at hf3 ⊢
    intro s hs
    exact hf3 s (mem_allStmts_of_mem hs)
  have hf4 : ns.filter isEdgeStmt = [] ∧ (allStmts ns).filter isEdgeStmt = [] := by
    constructor <;> rw [List.filter_eq_nil_iff] <;> intro x hx
    · obtain ⟨n, _, hn⟩ := hns.mem_right hx
      obtain ⟨nd, _, rfl⟩ := nodeStmtOf_ok h.inv hn
      simp [isEdgeStmt]
    · obtain ⟨s, hs, hin⟩ := mem_allStmts.1 hx
      obtain ⟨n, _, hn⟩ := hns.mem_right hs
      obtain ⟨nd, _, rfl⟩ := nodeStmtOf_ok h.inv hn
      simp only [allStmt, List.mem_singleton] at hin
      subst hin
      simp [isEdgeStmt]
  have hf5 : (allStmts es).filter isEdgeStmt = es := by
    clear ht hf2 hss hns
    revert hes
    generalize sortE g.edges.edges = l
    intro hes
    induction hes with
    | nil => rfl
    | cons he _ ih =>
      simp only [allStmts, List.filter_append]
      rw [ih]
      · obtain ⟨src, dst, rfl, hl, hl', _⟩ := edgeOf_inner h.inv he
        have hz : ∀ n p l, locOf g f n p = .ok l → (allLoc l).filter isEdgeStmt = [] := by
          intro n p l hl
          rw [List.filter_eq_nil_iff]
          intro x hx
          have := (locOf_inner h.inv hl).1 x hx
          cases x <;> simp_all [isEdgeStmt, InnerOk]
        simp only [allStmt, allRHS, List.filter_cons, isEdgeStmt, if_true, List.filter_append, hz _ _ _ hl, hz _ _ _ hl',
          List.append_nil, List.filter_nil]
        rfl
  have htop : (attrsAsStmts g.attrs ++ es ++ ss ++ ns).filter isEdgeStmt = es := by
    simp only [List.filter_append, hf1, hf2, hf3', hf4.1, List.nil_append, List.append_nil]
  refine ⟨?_, ?_, ?_⟩
  · show Forall2 _ _ ((attrsAsStmts g.attrs ++ es ++ ss ++ ns).filter isEdgeStmt)
    rw [htop]
    refine hes.and_mem.imp ?_
    rintro e s ⟨he, hmem, _⟩
    obtain ⟨src, dst, rfl, hl, hl', _⟩ := edgeOf_inner h.inv he
    refine ⟨src, dst, ?_, endWritten h hl, endWritten h hl'⟩
    rw [putMap_eq (h.inv.edges.attrs e ((hs.perm _).mem_iff.1 hmem)).wf]
  · show (allStmts (attrsAsStmts g.attrs ++ es ++ ss ++ ns)).filter isEdgeStmt = (attrsAsStmts g.attrs ++ es ++ ss ++ ns).filter isEdgeStmt
    rw [htop]
    simp only [allStmts_append, allStmts_attrs, List.filter_append, hf1, hf3, hf4.2, hf5, List.nil_append, List.append_nil]
  · show ((attrsAsStmts g.attrs ++ es ++ ss ++ ns).filter isEdgeStmt).length = _
    rw [htop, ← hes.length, (hs.perm _).length_eq]

example : writeAst edgeInsertionSort 3 Example.g = .ok exampleTree ∧ (exampleTree.stmts.filter isEdgeStmt).length = 3 :=
  ⟨by rfl, by rfl⟩

/-! ### C19 -/

/-- C19. An error means that an edge endpoint is an unknown name or a subgraph with a port, or that a subgraph that has to be written
has (in itself or nested) a child that is neither node nor subgraph. -/
theorem C19_error_cause {g : Graph} (h : Reachable g) {sortE : List Edge → List Edge} (hs : SortContract sortE) {f : Nat} {err : Err}
    (he : writeAst sortE f g = .err err) :
    (∃ e ∈ g.edges.edges, BadEnd g e.src e.srcPort ∨ BadEnd g e.dst e.dstPort) ∨ (∃ n, MustWrite g n ∧ Dangles g n) := by
  rcases writeAst_cases h.inv hs f with ⟨t, ht⟩ | ⟨_, _, hc⟩ | ⟨hd, _⟩
  · rw [ht] at he; cases he
  · exact hc
  · rw [hd] at he; cases he

/-- C19. Conversely, on graphs with acyclic containment in which no name is both a node and a subgraph, each of these causes makes
`WriteAst` fail with an error. -/
theorem C19_error_iff {g : Graph} (h : Reachable g) (hd : NamesDisjoint g) (hac : Acyclic g) {sortE : List Edge → List Edge}
    (hs : SortContract sortE) {f : Nat} (hf : g.subGraphs.length < f) :
    (∃ err, writeAst sortE f g = .err err) ↔
      (∃ e ∈ g.edges.edges, BadEnd g e.src e.srcPort ∨ BadEnd g e.dst e.dstPort) ∨ (∃ n, MustWrite g n ∧ Dangles g n) := by
  constructor
  · rintro ⟨err, he⟩
    exact C19_error_cause h hs he
  · intro hc
    obtain ⟨r, hr, hr'⟩ := C16_terminates_acyclic h hs hac
    rcases hr' with ⟨t, rfl⟩ | ⟨e, rfl⟩
    · exfalso
      have hok := (writeAst_ok_iff h.inv hs hd).1 ⟨f, t, hr f hf⟩
      rcases hc with ⟨e, he, hb | hb⟩ | ⟨n, hm, hdg⟩
      · exact (hok.1 e he).1.1 hb
      · exact (hok.1 e he).2.1 hb
      · have hw : Writable g n := by
          rcases hm.2 with hch | ⟨hn, hcl, e, he, hend⟩
          · exact hok.2 n hm.1 hch
          · have := hok.1 e he
            rcases hend with rfl | rfl
            · exact this.1.2 hn hcl
            · exact this.2.2 hn hcl
        obtain ⟨f', b, hb⟩ := hw.exists h.inv
        exact subBody_ok_not_dangles h.inv hb hdg
    · exact ⟨e, hr f hf⟩

example : ∃ g, Reachable g ∧ NamesDisjoint g ∧ Acyclic g ∧ (∃ e ∈ g.edges.edges, BadEnd g e.src e.srcPort ∨ BadEnd g e.dst e.dstPort) := by
  refine ⟨newGraph.run [.addNode [] (b!"a") [], .addEdge (b!"a") (b!"zz") true []], Reachable.init.run (by decide +kernel), ?_, ?_, ?_⟩
  · rintro n ⟨_, h⟩; cases h
  · rintro n ⟨m, ⟨_, _, h⟩, _⟩; cases h
  · refine ⟨_, List.mem_singleton.2 rfl, .inr ⟨by decide +kernel, .inl (by decide +kernel)⟩⟩

/-! ### C20 -/

/-- C20. In a successfully written tree each subgraph statement, at any depth (edge endpoints included), has exactly the attributes
of that subgraph followed by one statement per recorded child, in ascending order: the node statement with the node's attributes,
or the nested subgraph. -/
theorem C20_subgraphs_faithful {g : Graph} (h : Reachable g) {sortE : List Edge → List Edge} {f : Nat} {t : Ast.Graph}
    (ht : writeAst sortE f g = .ok t) {n : Str} {body : List Stmt} (hin : Stmt.sub n body ∈ allStmts t.stmts) :
    SubFaithful g n body := by
  rcases written_inner h ht _ hin with ⟨he, _⟩ | h'
  · cases he
  · exact h'

/-- C20. Each subgraph recorded as a child of the root graph occurs in the tree, if no name is both a node and a subgraph. -/
theorem C20_root_subgraphs_written {g : Graph} (h : Reachable g) (hd : NamesDisjoint g) {sortE : List Edge → List Edge} {f : Nat}
    {t : Ast.Graph} (ht : writeAst sortE f g = .ok t) {n : Str} (hn : g.isSubGraph n = true)
    (hc : mhas (g.relations.children g.name) n = true) :
    ∃ body, Stmt.sub n body ∈ allStmts t.stmts ∧ SubFaithful g n body := by
  have hfaith := fun body => C20_subgraphs_faithful h ht (n := n) (body := body)
  obtain ⟨es, ss, ns, hes, hss, hns, rfl⟩ := written_parts h ht
  have hm := (rootSubsOf_ok hss).2 n ((mhas_iff _ _).1 hn) hc
  have hnn : g.isNode n = false := by
    cases hnn : g.isNode n with
    | false => rfl
    | true => exact absurd ⟨hnn, hn⟩ (hd n)
  obtain ⟨_, body, _, hin⟩ := marked_written h.inv hes hss hm hnn
  have hin' : Stmt.sub n body ∈ allStmts (attrsAsStmts g.attrs ++ es ++ ss ++ ns) := by
    simp only [allStmts_append, List.mem_append] at hin ⊢
    rcases hin with hin | hin
    · exact .inl (.inl (.inr hin))
    · exact .inl (.inr hin)
  exact ⟨body, hin', hfaith body hin'⟩

/-- C20. The hypothesis on names is needed: the subgraph `T` of the root graph is lost because a node `T` was written inside `S`. -/
theorem C20_name_clash_loses_subgraph :
    ∃ g t, Reachable g ∧ writeAst edgeInsertionSort 3 g = .ok t ∧ g.isSubGraph (b!"T") = true ∧
      mhas (g.relations.children g.name) (b!"T") = true ∧ ∀ body, Stmt.sub (b!"T") body ∉ allStmts t.stmts := by
  refine ⟨newGraph.run [.setName (b!"G"), .addSubGraph (b!"G") (b!"S") [], .addNode (b!"S") (b!"T") [],
      .addSubGraph (b!"G") (b!"T") [(b!"label", b!"1")]],
    { type_ := false, strict := false, id := b!"G", stmts := [.sub (b!"S") [.node ⟨b!"T", ⟨[], []⟩⟩ [[]]]] },
    Reachable.init.run (by decide +kernel), rfl, by decide +kernel, by decide +kernel, ?_⟩
  intro body hin
  simp [allStmts, allStmt] at hin

example : writeAst edgeInsertionSort 3 Example.g = .ok exampleTree ∧ Example.g.isSubGraph (b!"S") = true ∧
    mhas (Example.g.relations.children Example.g.name) (b!"S") = true := ⟨by rfl, by decide +kernel, by decide +kernel⟩

/-! ### C21 -/

/-- C21. Converting a map to an attribute list and back gives the same map; the list is in strictly ascending key order and its
entries are exactly those of the map. -/
theorem C21_putMap_getMap {m : Map Str} (h : MapWF m) :
    Ast.getMap (Ast.putMap m) = m ∧
    ∃ al : List Ast.Attr, Ast.putMap m = [al] ∧ al.Pairwise (fun a b => slt a.field b.field = true) ∧
      ∀ k v, (⟨k, v⟩ : Ast.Attr) ∈ al ↔ mget m k = some v := by
  have hp : Ast.putMap m = attrsAsList m := by
    rw [← putMap_eq h]; unfold attrsCopy; rw [msetAll_empty h]
  rw [hp]
  refine ⟨getMap_attrsAsList h, _, rfl, ?_, ?_⟩
  · rw [List.pairwise_map]
    exact h
  · intro k v
    rw [← mem_iff_mget h]
    simp only [List.mem_map, Ast.Attr.mk.injEq]
    constructor
    · rintro ⟨e, he, rfl, rfl⟩; exact he
    · intro he; exact ⟨_, he, rfl, rfl⟩

theorem getMapFrom_eq (m : Map Str) (as : Ast.AttrList) :
    Ast.getMapFrom m as = msetAll m (as.flatten.map fun a => (a.field, a.value)) := by
  induction as generalizing m with
  | nil => rfl
  | cons al als ih => simp only [Ast.getMapFrom, ih, List.flatten_cons, List.map_append, msetAll_append]

/-- C21. In a list that mentions a key repeatedly, in the same or in different brackets, the last value counts; other keys are
absent. -/
theorem C21_last_value_counts (as : Ast.AttrList) (k : Str) :
    mget (Ast.getMap as) k = (as.flatten.reverse.find? fun a => decide (a.field = k)).map Ast.Attr.value := by
  unfold Ast.getMap
  rw [getMapFrom_eq]
  have key : ∀ l : List Ast.Attr, mget (msetAll [] (l.reverse.map fun a => (a.field, a.value))) k =
      (l.find? fun a => decide (a.field = k)).map Ast.Attr.value := by
    intro l
    induction l with
    | nil => rfl
    | cons a l ih =>
      rw [List.reverse_cons, List.map_append, msetAll_append]
      simp only [List.map_cons, List.map_nil, msetAll_cons, msetAll_nil, mget_mset]
      rw [List.find?_cons]
      by_cases ha : a.field = k
      · simp [ha]
      · rw [if_neg ha, ih]; simp [ha]
  have := key as.flatten.reverse
  rwa [List.reverse_reverse] at this

example : MapWF [(b!"color", b!"red"), (b!"label", b!"x")] ∧
    mget (Ast.getMap [[⟨b!"color", b!"red"⟩], [⟨b!"label", b!"x"⟩, ⟨b!"color", b!"blue"⟩]]) (b!"color") = some (b!"blue") := by
  unfold MapWF; decide +kernel

/-! ### C42 -/

theorem splitColon_no {p : Str} (hp : 58 ∉ p) : splitColon p = [p] := by
  induction p with
  | nil => rfl
  | cons c p ih =>
    simp only [List.mem_cons, not_or] at hp
    simp [splitColon, ih hp.2, Ne.symm hp.1]

theorem splitColon_two {p q : Str} (hp : 58 ∉ p) : splitColon (p ++ 58 :: q) = p :: splitColon q := by
  induction p with
  | nil => simp [splitColon]
  | cons c p ih =>
    simp only [List.mem_cons, not_or] at hp
    simp [splitColon, ih hp.2, Ne.symm hp.1]

/-- C42. `MakeNodeID(id, "")` prints as `id`; `MakeNodeID(id, p)` as `id:p`; `MakeNodeID(id, p:q)` as `id:p:q`, for non-empty port
parts without colon (58); and the parts are the two ports. -/
theorem C42_makeNodeID (id : Str) {p q : Str} (hp : 58 ∉ p) (hq : 58 ∉ q) (hpe : p ≠ []) (hqe : q ≠ []) :
    Ast.nodeIDStr (Ast.makeNodeID id []) = id ∧
    Ast.nodeIDStr (Ast.makeNodeID id p) = id ++ b!":" ++ p ∧
    Ast.nodeIDStr (Ast.makeNodeID id (p ++ b!":" ++ q)) = id ++ b!":" ++ p ++ b!":" ++ q ∧
    Ast.makeNodeID id p = ⟨id, ⟨p, []⟩⟩ ∧
    Ast.makeNodeID id (p ++ b!":" ++ q) = ⟨id, ⟨p, q⟩⟩ := by
  have h1 : Ast.makeNodeID id p = ⟨id, ⟨p, []⟩⟩ := by
    unfold Ast.makeNodeID
    rw [if_pos (List.length_pos_iff.2 hpe), splitColon_no hp]
  have h2 : Ast.makeNodeID id (p ++ b!":" ++ q) = ⟨id, ⟨p, q⟩⟩ := by
    unfold Ast.makeNodeID
    rw [if_pos (by simp only [List.length_append, List.length_cons]; omega), List.append_assoc]
    show (match splitColon (p ++ 58 :: q) with
      | [] => (⟨id, ⟨[], []⟩⟩ : Ast.NodeID) | [p1] => ⟨id, ⟨p1, []⟩⟩ | p1 :: p2 :: _ => ⟨id, ⟨p1, p2⟩⟩) = _
    rw [splitColon_two hp, splitColon_no hq]
  have hp0 : ¬ p.length = 0 := by simpa using hpe
  have hq0 : q.length > 0 := List.length_pos_iff.2 hqe
  refine ⟨by simp [Ast.makeNodeID, Ast.nodeIDStr, Ast.portStr], ?_, ?_, h1, h2⟩
  · rw [h1]
    simp [Ast.nodeIDStr, Ast.portStr, hpe]
  · rw [h2]
    simp [Ast.nodeIDStr, Ast.portStr, hpe, hqe, List.length_pos_iff]

example : Ast.nodeIDStr (Ast.makeNodeID (b!"a") (b!"p:ne")) = b!"a:p:ne" := by decide +kernel

/-! ### C47 -/

/-- C47. If a graph can be written and a node is removed with its only recorded parent as argument (no name being both a node and
a subgraph), the graph can still be written. -/
theorem C47_remove_keeps_writable {g : Graph} (h : Reachable g) (hd : NamesDisjoint g) {sortE : List Edge → List Edge}
    (hs : SortContract sortE) {p n : Str} (hn : g.isNode n = true)
    (hp : ∀ q, mhas (g.relations.children q) n = true → q = p)
    (hw : ∃ f t, writeAst sortE f g = .ok t) : ∃ f t, writeAst sortE f (g.removeNode p n).1 = .ok t := by
  obtain ⟨q, hq⟩ := (mhas_iff_mget _ _).1 hn
  have hi' := h.inv.removeNode p n
  have he := removeNode_present h.inv p hq
  have hok := (writeAst_ok_iff h.inv hs hd).1 hw
  have hname : (g.removeNode p n).1.name = g.name := by rw [he]
  have hsub : ∀ x, (g.removeNode p n).1.isSubGraph x = g.isSubGraph x := fun x => by rw [he]; rfl
  have hcl : ∀ x, (g.removeNode p n).1.isClusterSubGraph x = g.isClusterSubGraph x := fun x => by rw [he]; rfl
  have hnode : ∀ x, x ≠ n → (g.removeNode p n).1.isNode x = g.isNode x := by
    intro x hx
    rw [he]
    simp only [Graph.isNode, mhas_mdel]
    simp [Ne.symm hx]
  have hch : ∀ x c, mhas ((g.removeNode p n).1.relations.children x) c = true → mhas (g.relations.children x) c = true ∧ c ≠ n := by
    intro x c hc
    rw [he] at hc
    simp only [Relations.children_remove] at hc
    split at hc
    · rw [mhas_mdel, Bool.and_eq_true] at hc
      simp only [Bool.not_eq_true', decide_eq_false_iff_not] at hc
      exact ⟨hc.2, Ne.symm hc.1⟩
    · rename_i hx
      refine ⟨hc, ?_⟩
      rintro rfl
      exact hx (hp x hc).symm
  have hwr : ∀ m, Writable g m → Writable (g.removeNode p n).1 m := by
    intro m hm
    induction hm with
    | mk hsm _ ih =>
      refine .mk (by rw [hsub]; exact hsm) fun c hc hcn => ?_
      obtain ⟨hc', hne⟩ := hch _ c hc
      exact ih c hc' (by rw [← hnode c hne]; exact hcn)
  have hedges : (g.removeNode p n).1.edges.edges = g.edges.edges.filter fun e => !(decide (e.dst = n) || decide (e.src = n)) := by
    rw [he]
    exact edgesRebuild_edges _ _
  apply writeAst_exists hi' hs
  · intro e hm
    rw [hedges, List.mem_filter] at hm
    obtain ⟨hm, hk⟩ := hm
    simp only [Bool.not_eq_true', Bool.or_eq_false_iff, decide_eq_false_iff_not] at hk
    have hok := hok.1 e hm
    have key : ∀ x port, x ≠ n → EndOk g x port → EndOk (g.removeNode p n).1 x port := by
      intro x port hx ⟨h1, h2⟩
      refine ⟨?_, ?_⟩
      · unfold BadEnd at *
        rw [hnode x hx, hsub]
        exact h1
      · rw [hnode x hx, hcl]
        exact fun a b => hwr x (h2 a b)
    exact ⟨key _ _ hk.2 hok.1, key _ _ hk.1 hok.2⟩
  · intro m hm hc
    rw [hsub] at hm
    rw [hname] at hc
    exact hwr m (hok.2 m hm (hch _ m hc).1)

/-- C47. Naming another parent than the recorded one can make the graph unwritable. -/
theorem C47_wrong_parent_breaks :
    ∃ g, Reachable g ∧ NamesDisjoint g ∧ (∃ t, writeAst edgeInsertionSort 2 g = .ok t) ∧
      (g.removeNode (b!"G") (b!"a")).2 = none ∧
      ∃ e, writeAst edgeInsertionSort 2 (g.removeNode (b!"G") (b!"a")).1 = .err e := by
  refine ⟨newGraph.run [.setName (b!"G"), .addSubGraph (b!"G") (b!"S") [], .addNode (b!"S") (b!"a") []],
    Reachable.init.run (by decide +kernel), ?_, ⟨_, rfl⟩, by decide +kernel, ⟨_, rfl⟩⟩
  rintro n ⟨h1, h2⟩
  have h1 := (mhas_iff _ _).1 h1
  have h2 := (mhas_iff _ _).1 h2
  have e1 : mkeys (newGraph.run [.setName (b!"G"), .addSubGraph (b!"G") (b!"S") [], .addNode (b!"S") (b!"a") []]).nodes.lookup = [b!"a"] := by
    decide +kernel
  have e2 : mkeys (newGraph.run [.setName (b!"G"), .addSubGraph (b!"G") (b!"S") [], .addNode (b!"S") (b!"a") []]).subGraphs = [b!"S"] := by
    decide +kernel
  rw [e1] at h1
  rw [e2] at h2
  simp only [List.mem_singleton] at h1 h2
  subst h1
  cases h2

example : Example.g.isNode (b!"b") = true ∧ (∀ q, mhas (Example.g.relations.children q) (b!"b") = true → q = b!"S") ∧
    (∃ f t, writeAst edgeInsertionSort f Example.g = .ok t) := by
  refine ⟨by decide +kernel, ?_, 3, exampleTree, by rfl⟩
  intro q hq
  have : ∀ e ∈ Example.g.relations.parentToChildren, (b!"b") ∈ mkeys e.2 → e.1 = b!"S" := by decide +kernel
  unfold Relations.children at hq
  cases hm : mget Example.g.relations.parentToChildren q with
  | none => rw [hm] at hq; cases hq
  | some i =>
    rw [hm] at hq
    exact this _ (mem_of_mget hm) ((mhas_iff _ _).1 hq)

end Gographviz.Props
