import Verif.Proofs.Diff
import Verif.Props.WriteProps
import Verif.Props.PrintProps
/-!
C93: small changes of a graph are small changes of its text.
-/
namespace Gographviz.Props

open Gographviz.Spec Gographviz.Spec.Diff
open Gographviz.Ast (Stmt Loc EdgeRH AttrList)

namespace Small

theorem allReg_node {g : Graph} {p n : Str} {as : List (Str × Str)} (h : (g.addNode p n as).2 = none) : AllReg as := by
  apply Classical.byContradiction
  intro hr
  obtain ⟨e, _, _, h'⟩ := addNode_bad g p n hr
  rw [h'] at h; cases h

theorem allReg_edge {g : Graph} {s sp d dp : Str} {dir : Bool} {as : List (Str × Str)} (h : (g.addPortEdge s sp d dp dir as).2 = none) : AllReg as := by
  apply Classical.byContradiction
  intro hr
  obtain ⟨e, _, _, h'⟩ := addPortEdge_bad g s sp d dp dir hr
  rw [h'] at h; cases h

theorem sub_absent_append {p : Str} {a b : List Stmt} (h : ∀ x, Stmt.sub p x ∉ allStmts (a ++ b)) :
    (∀ x, Stmt.sub p x ∉ allStmts a) ∧ ∀ x, Stmt.sub p x ∉ allStmts b := by
  constructor
  · intro x hx; exact h x (by rw [allStmts_append]; exact List.mem_append_left _ hx)
  · intro x hx; exact h x (by rw [allStmts_append]; exact List.mem_append_right _ hx)

theorem attrs_no_sub {p : Str} {x : List Stmt} (as : Attrs) : Stmt.sub p x ∉ allStmts (attrStmts as) := by
  unfold attrStmts
  induction sortedNames as with
  | nil => simp [allStmts]
  | cons k ks ih => simp [allStmts, allStmt, ih]

theorem nodes_no_sub {g : Graph} {l : List Str} {ns : List Stmt} (h : mapW (nodeStmtOf g) l = .ok ns) {p : Str} {x : List Stmt} : Stmt.sub p x ∉ allStmts ns := by
  have := mapW_ok.1 h
  clear h
  induction this with
  | nil => simp [allStmts]
  | cons h _ ih =>
    unfold nodeStmtOf at h
    split at h
    · cases h
    · cases h; simp [allStmts, allStmt, ih]

theorem find_other {g : Graph} (hi : GInv g) {nd : Node} (hw : MapWF nd.attrs) {c : Str} (hc : nd.name ≠ c) : (g.nodes.add nd).find c = g.nodes.find c := by
  rw [hi.nodes.find_add nd hw, if_neg hc]

end Small

/-- C93. A new node: one node statement is added to the statements of the subgraph `p`, at the same place wherever the subgraph is written, and
nothing else changes; if `p` is not written as a subgraph, the statement is added to those of the graph. -/
theorem C93_node {g : Graph} (hr : Reachable g) {p n : Str} {as : List (Str × Str)} (hok : (g.addNode p n as).2 = none) (hn : g.isNode n = false)
    (hs : g.isSubGraph n = false) {sortE : List Edge → List Edge} {f : Nat} {t : Ast.Graph} (hw : writeAst sortE f g = .ok t) :
    ∃ nd t', (g.addNode p n as).1.nodes.find n = some nd ∧ writeAst sortE f (g.addNode p n as).1 = .ok t' ∧
      ((∃ b, Stmt.sub p b ∈ allStmts t.stmts) → ∃ k, t' = { t with stmts := inSub p (insertAt k (.node ⟨n, ⟨[], []⟩⟩ (attrsAsList nd.attrs))) t.stmts }) ∧
      ((∀ b, Stmt.sub p b ∉ allStmts t.stmts) → ∃ ss, t' = { t with stmts := ss } ∧ Inserted (.node ⟨n, ⟨[], []⟩⟩ (attrsAsList nd.attrs)) t.stmts ss) := by
  have hi := hr.inv
  have hreg := Small.allReg_node hok
  have hi' := hi.addNode p n as
  rw [addNode_ok g p n hreg] at hi' ⊢
  have hmw : MapWF (msetAll [] as) := (AttrsOk.nil.msetAll hreg).wf
  simp only at hi' ⊢
  generalize hgd : ({ g with nodes := g.nodes.add ⟨n, msetAll [] as⟩, relations := g.relations.add p n } : Graph) = g' at hi' ⊢
  have hfind : ∀ c, n ≠ c → g'.nodes.find c = g.nodes.find c := by
    intro c hc; rw [← hgd]; exact Small.find_other hi (nd := ⟨n, msetAll [] as⟩) hmw hc
  have hfn : ∃ nd, g'.nodes.find n = some nd := by
    rw [← hgd]; exact ⟨_, by rw [hi.nodes.find_add ⟨n, msetAll [] as⟩ hmw]; exact if_pos rfl⟩
  obtain ⟨nd, hnd⟩ := hfn
  have hnd' : (g.nodes.add ⟨n, msetAll [] as⟩).find n = some nd := by rw [← hgd] at hnd; exact hnd
  have hisN : ∀ c, n ≠ c → g'.isNode c = g.isNode c := fun c hc => by rw [isNode_iff_find hi', isNode_iff_find hi, hfind c hc]
  have hisNn : g'.isNode n = true := by rw [isNode_iff_find hi', hnd]; rfl
  have hsubs : g'.subGraphs = g.subGraphs := by rw [← hgd]
  have hisS : ∀ c, g'.isSubGraph c = g.isSubGraph c := fun c => by unfold Graph.isSubGraph; rw [hsubs]
  have hne : ∀ c, Known g c → n ≠ c := by
    rintro c hc rfl
    rcases hc with hc | hc
    · rw [hn] at hc; cases hc
    · rw [hs] at hc; cases hc
  have hst : nodeStmtOf g' n = .ok (.node ⟨n, ⟨[], []⟩⟩ (attrsAsList nd.attrs)) := by
    unfold nodeStmtOf; rw [hnd]
    simp only
    rw [putMap_eq (find_attrs hi' hnd).wf]
  have hbase : ∀ k, EditBase g g' keepNf (insBf p k (.node ⟨n, ⟨[], []⟩⟩ (attrsAsList nd.attrs))) := by
    intro k
    refine ⟨fun c hc => by rw [hisN c (hne c (.inl hc))]; exact hc, fun c h1 h2 => ?_, fun c s h => ?_⟩
    · rw [hisN c (hne c (.inr h2)), hisS]; exact ⟨h1, h2⟩
    · obtain ⟨nd', hf, rfl⟩ := nodeStmtOf_ok hi h
      have hc : g.isNode c = true := by rw [isNode_iff_find hi, hf]; rfl
      unfold nodeStmtOf at h ⊢
      rw [hfind c (hne c (.inl hc))]
      simpa only [editStmt, keepNf] using h
  obtain ⟨k, E⟩ := insert_body (d := 0) hi hbase (fun m _ => by rw [hsubs]) (fun m => by rw [← hgd]; exact Relations.children_add ..)
    (fun m => hi'.rels.iwf1 m) ⟨hn, hs⟩ (fun x hx => by simpa [marks] using hx) (fun f => by unfold childOf; rw [if_pos hisNn]; exact hst)
  have hname : g'.name = g.name := by rw [← hgd]
  obtain ⟨es, ss, ns, rfl, h0, h1, h2, h3, hkn, _, h4, hfl⟩ := E.write hi hi' hname (fun x hx => by
    rw [← hgd]
    simp only [Relations.children_add]
    split
    · rw [mhas_mset]; simp [hne x (.inr hx)]
    · rfl) hw
  have hkeys : ∃ A B, mkeys g.nodes.lookup = A ++ B ∧ mkeys g'.nodes.lookup = A ++ n :: B := by
    have hl : mget g.nodes.lookup n = none := by simpa [Graph.isNode, mhas] using hn
    obtain ⟨A, B, e1, e2⟩ := mset_new g.nodes.heap.length hl
    refine ⟨A.map Prod.fst, B.map Prod.fst, by rw [e1]; simp [mkeys], ?_⟩
    rw [← hgd]
    simp only [Nodes.add, hl, e2]
    simp [mkeys]
  obtain ⟨A, B, hA, hB⟩ := hkeys
  have hnA : n ∉ marksL es ++ marksL ss := fun h => hne n (hkn n h) rfl
  have hwr := writeAst_eq hi' sortE f
  rw [show g'.edges = g.edges by rw [← hgd], show g'.attrs = g.attrs by rw [← hgd], show g'.directed = g.directed by rw [← hgd],
    show g'.strict = g.strict by rw [← hgd], hname, hsubs] at hwr
  rw [show f + 0 = f from rfl] at h1 h2
  rw [h1] at hwr
  simp only [WRes.bind_ok] at hwr
  rw [h2] at hwr
  simp only [WRes.bind_ok] at hwr
  have hAttr : editStmts keepNf (insBf p k (.node ⟨n, ⟨[], []⟩⟩ (attrsAsList nd.attrs))) (attrStmts g.attrs) = attrStmts g.attrs := editStmts_attrs _
  by_cases hwn : ∃ b, Stmt.sub p b ∈ allStmts (attrStmts g.attrs ++ es ++ ss ++ ns)
  · have hmark : n ∈ marksL (editStmts keepNf (insBf p k (.node ⟨n, ⟨[], []⟩⟩ (attrsAsList nd.attrs))) es) ++
        marksL (editStmts keepNf (insBf p k (.node ⟨n, ⟨[], []⟩⟩ (attrsAsList nd.attrs))) ss) := by
      obtain ⟨b, hb⟩ := hwn
      have m1 : ∀ b, n ∈ marksL (insBf p k (.node ⟨n, ⟨[], []⟩⟩ (attrsAsList nd.attrs)) p b) := fun b => by
        unfold insBf; rw [if_pos rfl, mem_marksL_insertAt]; left; simp [marks]
      have m2 : ∀ m b, n ∈ marksL b → n ∈ marksL (insBf p k (.node ⟨n, ⟨[], []⟩⟩ (attrsAsList nd.attrs)) m b) := fun m b h => by
        unfold insBf; split
        · rw [mem_marksL_insertAt]; exact .inr h
        · exact h
      rw [allStmts_append, allStmts_append, allStmts_append, List.mem_append, List.mem_append, List.mem_append] at hb
      rw [List.mem_append]
      rcases hb with ((hb | hb) | hb) | hb
      · exact absurd hb (Small.attrs_no_sub _)
      · exact .inl (markedL_edit m1 m2 es hb)
      · exact .inr (markedL_edit m1 m2 ss hb)
      · exact absurd hb (Small.nodes_no_sub h4)
    have hf' : ((mkeys g'.nodes.lookup).filter fun x => !decide (x ∈ marksL (editStmts keepNf (insBf p k (.node ⟨n, ⟨[], []⟩⟩ (attrsAsList nd.attrs))) es) ++
        marksL (editStmts keepNf (insBf p k (.node ⟨n, ⟨[], []⟩⟩ (attrsAsList nd.attrs))) ss))) =
        (mkeys g.nodes.lookup).filter fun x => !decide (x ∈ marksL es ++ marksL ss) := by
      rw [← hfl, hA, hB, List.filter_append, List.filter_append, List.filter_cons]
      simp only [hmark, decide_true, Bool.not_true, Bool.false_eq_true, if_false]
    rw [hf', h3] at hwr
    refine ⟨nd, _, hnd', hwr, fun _ => ⟨k, ?_⟩, fun h => absurd hwn (by rintro ⟨b, hb⟩; exact h b hb)⟩
    show _ = Ast.Graph.mk _ _ _ (editStmts keepNf (insBf p k (.node ⟨n, ⟨[], []⟩⟩ (attrsAsList nd.attrs))) (attrStmts g.attrs ++ es ++ ss ++ ns))
    rw [editStmts_append, editStmts_append, editStmts_append, hAttr]
  · have habs : ∀ b, Stmt.sub p b ∉ allStmts (attrStmts g.attrs ++ es ++ ss ++ ns) := fun b hb => hwn ⟨b, hb⟩
    obtain ⟨habs1, habs2⟩ := Small.sub_absent_append habs
    obtain ⟨habs3, habs4⟩ := Small.sub_absent_append habs1
    obtain ⟨_, habs5⟩ := Small.sub_absent_append habs3
    have ab : ∀ {l : List Stmt}, (∀ b, Stmt.sub p b ∉ allStmts l) → editStmts keepNf (insBf p k (.node ⟨n, ⟨[], []⟩⟩ (attrsAsList nd.attrs))) l = l :=
      fun h => editStmts_absent _ h
    rw [ab habs5, ab habs4] at hwr
    rw [ab habs2] at h3
    have hf' : ((mkeys g'.nodes.lookup).filter fun x => !decide (x ∈ marksL es ++ marksL ss)) =
        (A.filter fun x => !decide (x ∈ marksL es ++ marksL ss)) ++ n :: (B.filter fun x => !decide (x ∈ marksL es ++ marksL ss)) := by
      rw [hB, List.filter_append, List.filter_cons]
      simp only [hnA, decide_false, Bool.not_false, if_true]
    rw [hA, List.filter_append, mapW_append] at h3
    obtain ⟨na, hna, h3⟩ := WRes.bind_eq_ok.1 h3
    obtain ⟨nb, hnb, h3⟩ := WRes.bind_eq_ok.1 h3
    cases h3
    rw [hf', mapW_append, hna, WRes.bind_ok] at hwr
    simp only [mapW, hst, hnb, WRes.bind_ok] at hwr
    refine ⟨nd, _, hnd', hwr, fun h => absurd h hwn, fun _ => ⟨_, rfl, ?_⟩⟩
    have := inserted_append (attrStmts g.attrs ++ es ++ ss ++ na) nb (Stmt.node ⟨n, ⟨[], []⟩⟩ (attrsAsList nd.attrs))
    simpa only [List.append_assoc] using this

/-- C93. More attributes for a node already recorded under `p`: the attribute lists of the statements of that node change, nothing else. -/
theorem C93_node_attrs {g : Graph} (hr : Reachable g) {p n : Str} {as : List (Str × Str)} (hok : (g.addNode p n as).2 = none) (hn : g.isNode n = true)
    (hp : mhas (g.relations.children p) n = true) {sortE : List Edge → List Edge} {f : Nat} {t : Ast.Graph} (hw : writeAst sortE f g = .ok t) :
    ∃ nd, (g.addNode p n as).1.nodes.find n = some nd ∧
      writeAst sortE f (g.addNode p n as).1 = .ok { t with stmts := withAttrs n (attrsAsList nd.attrs) t.stmts } := by
  have hi := hr.inv
  have hreg := Small.allReg_node hok
  have hi' := hi.addNode p n as
  rw [addNode_ok g p n hreg] at hi' ⊢
  have hmw : MapWF (msetAll [] as) := (AttrsOk.nil.msetAll hreg).wf
  simp only at hi' ⊢
  have hfn : ∃ nd, (g.nodes.add ⟨n, msetAll [] as⟩).find n = some nd := ⟨_, by rw [hi.nodes.find_add ⟨n, msetAll [] as⟩ hmw]; exact if_pos rfl⟩
  obtain ⟨nd, hnd⟩ := hfn
  refine ⟨nd, hnd, ?_⟩
  have hl : ∃ q, mget g.nodes.lookup n = some q := by
    rcases Option.eq_none_or_eq_some (mget g.nodes.lookup n) with h | h
    · simp [Graph.isNode, mhas, h] at hn
    · exact h
  obtain ⟨q, hq⟩ := hl
  have hch : ∀ m, (g.relations.add p n).children m = g.relations.children m := fun m => by
    rw [Relations.children_add]
    split
    · rename_i e; subst e
      obtain ⟨b, hb⟩ : ∃ b, mget (g.relations.children p) n = some b := by
        rcases Option.eq_none_or_eq_some (mget (g.relations.children p) n) with h | h
        · simp [mhas, h] at hp
        · exact h
      have := hi.rels.tt p n b hb
      subst this
      exact mset_self (hi.rels.iwf1 p) hb
    · rfl
  have E := attrs_edit (g' := { g with nodes := g.nodes.add ⟨n, msetAll [] as⟩, relations := g.relations.add p n }) hi hi' hnd
    (fun c hc => Small.find_other hi (nd := ⟨n, msetAll [] as⟩) hmw hc) hn rfl hch
  exact E.rewrite hi hi' rfl (fun x _ => by simp only [hch]) rfl rfl (by simp only [Nodes.add, hq]; rfl) rfl rfl rfl hw

/-- C93. An attribute of a subgraph: in the statements of the subgraph, wherever it is written, the statement `k=v` is added at the same place, or
gets the new value if there is one for `k`; nothing else changes. -/
theorem C93_sub_attr {g : Graph} (hr : Reachable g) {p k v : Str} (hok : (g.addAttr p k v).2 = none) (hp : p ≠ g.name)
    {sortE : List Edge → List Edge} {f : Nat} {t : Ast.Graph} (hw : writeAst sortE f g = .ok t) :
    ∃ sub, mget g.subGraphs p = some sub ∧
      (mget sub.attrs k = none → ∃ i, writeAst sortE f (g.addAttr p k v).1 = .ok { t with stmts := inSub p (insertAt i (.attr ⟨k, v⟩)) t.stmts }) ∧
      (mget sub.attrs k ≠ none → writeAst sortE f (g.addAttr p k v).1 = .ok { t with stmts := inSub p (List.map (setAttr k v)) t.stmts }) := by
  have hi := hr.inv
  have hi' := hi.addAttr p k v
  have hk : Registered k := by
    apply Classical.byContradiction
    intro h
    rw [addAttr_bad g p v h] at hok; cases hok
  rcases Option.eq_none_or_eq_some (mget g.subGraphs p) with hs | ⟨sub, hs⟩
  · unfold Graph.addAttr at hok
    rw [if_neg (Ne.symm hp), hs] at hok; cases hok
  have hwf : MapWF sub.attrs := (hi.subs.attrs p sub hs).wf
  rw [addAttr_sub g v hk (Ne.symm hp) hs] at hi' ⊢
  refine ⟨sub, hs, fun hnew => ?_, fun hold => ?_⟩
  · obtain ⟨a, b, e1, e2⟩ := attrStmts_new hwf v hnew
    have E := sub_edit (g' := { g with subGraphs := mset g.subGraphs p { sub with attrs := mset sub.attrs k v } }) (F := insertAt a.length (.attr ⟨k, v⟩)) hs rfl rfl rfl
      (by intro f l cs _
          simp only [e2]
          rw [e1, List.append_assoc, List.append_assoc, insertAt_append]
          rfl)
      (by intro b x; rw [mem_marksL_insertAt]; simp [marks])
    exact ⟨a.length, E.rewrite hi hi' rfl (fun x _ => rfl) rfl (mkeys_mset_old hi.subs.wf _ hs) rfl rfl rfl rfl hw⟩
  · obtain ⟨v0, hv0⟩ : ∃ v0, mget sub.attrs k = some v0 := by
      rcases Option.eq_none_or_eq_some (mget sub.attrs k) with h | h
      · exact absurd h hold
      · exact h
    have E := sub_edit (g' := { g with subGraphs := mset g.subGraphs p { sub with attrs := mset sub.attrs k v } }) (F := List.map (setAttr k v)) hs rfl rfl rfl
      (by intro f l cs hcs
          simp only [attrStmts_old hwf v hv0]
          rw [List.map_append]
          unfold inSub
          rw [editStmts_nonattr hcs])
      (by intro b x; rw [marks_setAttr])
    exact E.rewrite hi hi' rfl (fun x _ => rfl) rfl (mkeys_mset_old hi.subs.wf _ hs) rfl rfl rfl rfl hw

/-- C93. An attribute of the graph: the statement `k=v` is added to its statements, or gets the new value if there is one for `k`; nothing else
changes. -/
theorem C93_root_attr {g : Graph} (hr : Reachable g) {k v : Str} (hok : (g.addAttr g.name k v).2 = none)
    {sortE : List Edge → List Edge} {f : Nat} {t : Ast.Graph} (hw : writeAst sortE f g = .ok t) :
    (mget g.attrs k = none → ∃ ss, writeAst sortE f (g.addAttr g.name k v).1 = .ok { t with stmts := ss } ∧ Inserted (.attr ⟨k, v⟩) t.stmts ss) ∧
    (mget g.attrs k ≠ none → writeAst sortE f (g.addAttr g.name k v).1 = .ok { t with stmts := t.stmts.map (setAttr k v) }) := by
  have hi := hr.inv
  have hi' := hi.addAttr g.name k v
  have hk : Registered k := by
    apply Classical.byContradiction
    intro h
    rw [addAttr_bad g g.name v h] at hok; cases hok
  rw [addAttr_root g v hk] at hi' ⊢
  have E := same_edit (g := g) (g' := { g with attrs := mset g.attrs k v }) rfl rfl rfl
  obtain ⟨es, ss, ns, rfl, h0, h1, h2, h3, _, h4, h5, hfl⟩ := E.write hi hi' rfl (fun _ _ => rfl) hw
  have hwr := writeAst_eq hi' sortE f
  simp only [editStmts_id, Nat.add_zero] at h1 h2 h3 hfl
  simp only at hwr
  rw [h1, WRes.bind_ok, h2, WRes.bind_ok, h3, WRes.bind_ok] at hwr
  refine ⟨fun hnew => ?_, fun hold => ?_⟩
  · obtain ⟨a, b, e1, e2⟩ := attrStmts_new hi.attrs.wf v hnew
    refine ⟨_, hwr, ?_⟩
    have := inserted_append a (b ++ es ++ ss ++ ns) (Stmt.attr ⟨k, v⟩)
    rw [e2]
    simp only [e1]
    simpa only [List.append_assoc, List.cons_append] using this
  · obtain ⟨v0, hv0⟩ : ∃ v0, mget g.attrs k = some v0 := by
      rcases Option.eq_none_or_eq_some (mget g.attrs k) with h | h
      · exact absurd h hold
      · exact h
    rw [hwr, attrStmts_old hi.attrs.wf v hv0]
    simp only [List.map_append, setAttr_edges h0, setAttr_nodes h5, setAttr_subs _ _ _ h4]

/-- An end of an edge that is written as a name. -/
def ByName (g : Graph) (n port : Str) : Prop := g.isNode n = true ∨ (g.isClusterSubGraph n = true ∧ port = [])

/-- C93. A new edge between nodes or clusters: one edge statement is added to those of the graph, and nothing else changes, provided no edge has an
empty attribute value. -/
theorem C93_edge {g : Graph} (hr : Reachable g) {s sp d dp : Str} {dir : Bool} {as : List (Str × Str)} (hok : (g.addPortEdge s sp d dp dir as).2 = none)
    (hs : ByName g s sp) (hd : ByName g d dp) (hne : ∀ e ∈ (g.addPortEdge s sp d dp dir as).1.edges.edges, ∀ k, mget e.attrs k ≠ some [])
    {sortE : List Edge → List Edge} (hc : SortContract sortE) {f : Nat} {t : Ast.Graph} (hw : writeAst sortE f g = .ok t) :
    ∃ ea ss, (g.addPortEdge s sp d dp dir as).1.edges.edges = g.edges.edges ++ [⟨s, sp, d, dp, dir, ea⟩] ∧
      writeAst sortE f (g.addPortEdge s sp d dp dir as).1 = .ok { t with stmts := ss } ∧
      Inserted (.edge (.node (Ast.makeNodeID s sp)) [.mk dir (.node (Ast.makeNodeID d dp))] (attrsAsList ea)) t.stmts ss := by
  have hi := hr.inv
  have hreg := Small.allReg_edge hok
  have hi' := hi.addPortEdge s sp d dp dir as
  rw [addPortEdge_ok g s sp d dp dir hreg] at hi' hne ⊢
  have hmw : MapWF (msetAll [] as) := (AttrsOk.nil.msetAll hreg).wf
  simp only at hi' hne ⊢
  have loc : ∀ {n port : Str}, ByName g n port → locOf g f n port = .ok (.node (Ast.makeNodeID n port)) := by
    intro n port h
    unfold locOf
    by_cases hn : g.isNode n = true
    · rw [if_pos hn, if_pos (by rw [isNode_iff_find hi] at hn; exact hn)]
    · rcases h with h | ⟨h, rfl⟩
      · exact absurd h hn
      · rw [if_neg hn, if_pos h]; rfl
  obtain ⟨A, B, hA, hB⟩ := sorted_insert hc (es := g.edges.edges) (e := ⟨s, sp, d, dp, dir, msetAll [] as⟩) (fun x hx => (hi'.edges.attrs x hx).wf) hne
  have E := same_edit (g := g) (g' := { g with edges := g.edges.add ⟨s, sp, d, dp, dir, msetAll [] as⟩ }) rfl rfl rfl
  obtain ⟨es, ss, ns, rfl, h0, h1, h2, h3, _, h4, h5, hfl⟩ := E.write hi hi' rfl (fun _ _ => rfl) hw
  have hwr := writeAst_eq hi' sortE f
  simp only [editStmts_id, Nat.add_zero] at h1 h2 h3 hfl
  simp only [Edges.add] at hwr
  rw [hA, mapW_append] at h0
  obtain ⟨ea, hea, h0⟩ := WRes.bind_eq_ok.1 h0
  obtain ⟨eb, heb, h0⟩ := WRes.bind_eq_ok.1 h0
  cases h0
  have lift : ∀ {l es}, mapW (edgeOf g f) l = .ok es → mapW (edgeOf { g with edges := g.edges.add ⟨s, sp, d, dp, dir, msetAll [] as⟩ } f) l = .ok es := by
    intro l es h
    have := mapW_edit (fun a s h => E.edgeOf hi' h) h
    rwa [editStmts_id] at this
  have he : edgeOf { g with edges := g.edges.add ⟨s, sp, d, dp, dir, msetAll [] as⟩ } f ⟨s, sp, d, dp, dir, msetAll [] as⟩ =
      .ok (.edge (.node (Ast.makeNodeID s sp)) [.mk dir (.node (Ast.makeNodeID d dp))] (attrsAsList (msetAll [] as))) := by
    have : edgeOf g f ⟨s, sp, d, dp, dir, msetAll [] as⟩ =
      .ok (.edge (.node (Ast.makeNodeID s sp)) [.mk dir (.node (Ast.makeNodeID d dp))] (attrsAsList (msetAll [] as))) := by
      unfold edgeOf
      rw [loc hs, WRes.bind_ok, loc hd, WRes.bind_ok, putMap_eq hmw]
    have := E.edgeOf hi' this
    rwa [editStmt_id] at this
  simp only [Edges.add] at lift he
  rw [hB, mapW_append, lift hea, WRes.bind_ok] at hwr
  simp only [mapW, he, lift heb, WRes.bind_ok] at hwr
  have hm : marksL (ea ++ Stmt.edge (.node (Ast.makeNodeID s sp)) [.mk dir (.node (Ast.makeNodeID d dp))] (attrsAsList (msetAll [] as)) :: eb) = marksL (ea ++ eb) := by
    simp [marksL_append, marksL, marks, marksLoc, marksRHS]
  simp only [Edges.add] at h2 h3
  rw [hm, h2, WRes.bind_ok, h3, WRes.bind_ok] at hwr
  refine ⟨msetAll [] as, _, rfl, hwr, ?_⟩
  have := inserted_append (attrStmts g.attrs ++ ea) (eb ++ ss ++ ns) (Stmt.edge (.node (Ast.makeNodeID s sp)) [.mk dir (.node (Ast.makeNodeID d dp))] (attrsAsList (msetAll [] as)))
  simpa only [List.append_assoc, List.cons_append] using this

/-- C93. A new subgraph: if it is added to a subgraph `p` that is written, one subgraph statement is added to the statements of `p`, at the same place
wherever the subgraph is written; if it is added to the graph, one subgraph statement is added to those of the graph; nothing else changes. If `p` is
neither, the text does not change. (No subgraph with the name of the graph is written; one more level of recursion may be needed.) -/
theorem C93_subgraph {g : Graph} (hr : Reachable g) {p n : Str} {as : List (Str × Str)} (hok : (g.addSubGraph p n as).2 = none)
    (hn : g.isNode n = false) (hs : g.isSubGraph n = false) (hname : n ≠ g.name) (hnp : n ≠ p) (hpar : ∀ q, mhas (g.relations.children q) n = false)
    (hkid : ∀ q, mhas (g.relations.children n) q = false) {sortE : List Edge → List Edge} {f : Nat} {t : Ast.Graph} (hw : writeAst sortE f g = .ok t)
    (hps : p = g.name → ∀ b, Stmt.sub p b ∉ allStmts t.stmts) :
    ∃ sub t', mget (g.addSubGraph p n as).1.subGraphs n = some sub ∧ writeAst sortE (f + 1) (g.addSubGraph p n as).1 = .ok t' ∧
      (p ≠ g.name → (∃ b, Stmt.sub p b ∈ allStmts t.stmts) → ∃ k, t' = { t with stmts := inSub p (insertAt k (.sub n (attrsAsStmts sub.attrs))) t.stmts }) ∧
      (p ≠ g.name → (∀ b, Stmt.sub p b ∉ allStmts t.stmts) → t' = t) ∧
      (p = g.name → ∃ ss, t' = { t with stmts := ss } ∧ Inserted (.sub n (attrsAsStmts sub.attrs)) t.stmts ss) := by
  have hi := hr.inv
  have hreg : AllReg as := by
    apply Classical.byContradiction
    intro h
    obtain ⟨e, _, _, h'⟩ := addAttrs_bad (g := { g with relations := g.relations.add p n, subGraphs := subGraphsAdd g.subGraphs n }) (n := n)
      (by simp only [subGraphsAdd]; split <;> simp_all [mhas_mset]) h
    unfold Graph.addSubGraph at hok
    rw [h'] at hok; cases hok
  have hi' := hi.addSubGraph p n as
  have hsn : mget g.subGraphs n = none := by
    rcases Option.eq_none_or_eq_some (mget g.subGraphs n) with h | ⟨x, h⟩
    · exact h
    · simp [Graph.isSubGraph, mhas, h] at hs
  have hnl : mget g.nodes.lookup n = none := by
    rcases Option.eq_none_or_eq_some (mget g.nodes.lookup n) with h | ⟨x, h⟩
    · exact h
    · simp [Graph.isNode, mhas, h] at hn
  rw [addSubGraph_ok hi p n hreg, if_neg (Ne.symm hname)] at hi' ⊢
  have hse : mset (subGraphsAdd g.subGraphs n) n ⟨msetAll (((mget g.subGraphs n).map SubGraph.attrs).getD []) as, n⟩ =
      mset g.subGraphs n ⟨msetAll [] as, n⟩ := by
    unfold subGraphsAdd
    rw [if_neg (by simp [mhas, hsn]), hsn, mset_mset hi.subs.wf]
    rfl
  rw [hse] at hi' ⊢
  simp only at hi' ⊢
  generalize hgd : ({ g with relations := g.relations.add p n, subGraphs := mset g.subGraphs n ⟨msetAll [] as, n⟩ } : Graph) = g' at hi' ⊢
  have hsubn : mget g'.subGraphs n = some ⟨msetAll [] as, n⟩ := by rw [← hgd]; simp [mget_mset]
  have hsub' : mget (mset g.subGraphs n ⟨msetAll [] as, n⟩) n = some ⟨msetAll [] as, n⟩ := by simp [mget_mset]
  have hsubs : ∀ m, n ≠ m → mget g'.subGraphs m = mget g.subGraphs m := fun m hm => by rw [← hgd]; simp [mget_mset, hm]
  have hnodes : g'.nodes = g.nodes := by rw [← hgd]
  have hisN : ∀ c, g'.isNode c = g.isNode c := fun c => by unfold Graph.isNode; rw [hnodes]
  have hisS : ∀ c, n ≠ c → g'.isSubGraph c = g.isSubGraph c := fun c hc => by unfold Graph.isSubGraph mhas; rw [hsubs c hc]
  have hne : ∀ c, Known g c → n ≠ c := by
    rintro c hc rfl
    rcases hc with hc | hc
    · rw [hn] at hc; cases hc
    · rw [hs] at hc; cases hc
  have hchd : ∀ m, g'.relations.children m = if p = m then mset (g.relations.children m) n true else g.relations.children m := fun m => by
    rw [← hgd]; exact Relations.children_add ..
  have hmw : MapWF (msetAll [] as) := (AttrsOk.nil.msetAll hreg).wf
  have hkids : g'.relations.sortedChildren n = [] := by
    unfold Relations.sortedChildren
    rw [hchd, if_neg (Ne.symm hnp)]
    have : g.relations.children n = [] := by
      cases hc : g.relations.children n with
      | nil => rfl
      | cons e m => have := hkid e.1; rw [hc] at this; simp [mhas, mget] at this
    rw [this]; rfl
  have hbody : ∀ f, subBody g' (f + 1) n = .ok (attrsAsStmts (msetAll [] as)) := fun f => by
    simp only [subBody, hsubn, hkids, mapW, WRes.bind_ok, List.append_nil]
    rw [attrStmts_eq hmw]
  have hms : marksL (attrsAsStmts (msetAll [] as)) = [] := by
    have := marks_attrs_append (msetAll [] as) []
    rw [List.append_nil, attrStmts_eq hmw] at this
    rw [this]; rfl
  have hchild : ∀ f, childOf g' (subBody g' (f + 1)) n = .ok (.sub n (attrsAsStmts (msetAll [] as))) := fun f => by
    unfold childOf
    rw [hisN, hn, if_neg Bool.false_ne_true, if_pos (by simp [Graph.isSubGraph, mhas, hsubn]), hbody, WRes.bind_ok]
  generalize hst : Stmt.sub n (attrsAsStmts (msetAll [] as)) = st at hchild
  have hmst : marks st = [n] := by rw [← hst]; simp [marks, hms]
  have hbase : ∀ k, EditBase g g' keepNf (insBf p k st) := by
    intro k
    refine ⟨fun c hc => by rw [hisN]; exact hc, fun c h1 h2 => ?_, fun c s h => ?_⟩
    · rw [hisN, hisS c (hne c (.inr h2))]; exact ⟨h1, h2⟩
    · unfold nodeStmtOf at h ⊢
      rw [hnodes]
      split at h
      · cases h
      · cases h; simp only [editStmt, keepNf]
  obtain ⟨k, E⟩ := insert_body (d := 1) hi hbase (fun m hm => hsubs m (hne m (.inr hm))) hchd (fun m => hi'.rels.iwf1 m) ⟨hn, hs⟩
    (fun x hx => by rw [hmst] at hx; simpa using hx) hchild
  have hgn : g'.name = g.name := by rw [← hgd]
  obtain ⟨es, ss, ns, rfl, h0, h1, h2, h3, hkn, h5, h4, hfl⟩ := E.write hi hi' hgn (fun x hx => by
    rw [hchd]
    split
    · rw [mhas_mset]; simp [hne x (.inr hx)]
    · rfl) hw
  obtain ⟨A, B, hA, hB⟩ : ∃ A B, mkeys g.subGraphs = A ++ B ∧ mkeys g'.subGraphs = A ++ n :: B := by
    obtain ⟨A, B, e1, e2⟩ := mset_new (⟨msetAll [] as, n⟩ : SubGraph) hsn
    refine ⟨A.map Prod.fst, B.map Prod.fst, by rw [e1]; simp [mkeys], ?_⟩
    rw [← hgd]
    simp only [e2]
    simp [mkeys]
  have hwr := writeAst_eq hi' sortE (f + 1)
  rw [show g'.edges = g.edges by rw [← hgd], show g'.attrs = g.attrs by rw [← hgd], show g'.directed = g.directed by rw [← hgd],
    show g'.strict = g.strict by rw [← hgd], hgn, hnodes, h1] at hwr
  simp only [WRes.bind_ok, hB] at hwr
  rw [hA] at h2
  have hAttr : editStmts keepNf (insBf p k st) (attrStmts g.attrs) = attrStmts g.attrs := editStmts_attrs _
  by_cases hpn : p = g.name
  · have hroot : mhas (g'.relations.children g'.name) n = true := by
      rw [hchd, hgn, if_pos hpn, mhas_mset]; simp
    obtain ⟨habs1, habs2⟩ := Small.sub_absent_append (hps hpn)
    obtain ⟨habs3, habs4⟩ := Small.sub_absent_append habs1
    obtain ⟨_, habs5⟩ := Small.sub_absent_append habs3
    have ab : ∀ {l : List Stmt}, (∀ b, Stmt.sub p b ∉ allStmts l) → editStmts keepNf (insBf p k st) l = l := fun h => editStmts_absent _ h
    rw [ab habs5, ab habs4] at h2 hfl
    rw [ab habs5] at hwr
    rw [ab habs2] at h3
    have hnB : ∀ x ∈ A ++ B, g.isSubGraph x = true := fun x hx => by rw [← hA] at hx; exact (mhas_iff _ _).2 hx
    obtain ⟨sa, sb, rfl, hin⟩ := rootSubs_insert hroot (hbody f) hms (B := B)
      (fun x hx => by
        have hx' := hnB x (List.mem_append_right _ hx)
        exact ⟨by rw [hisS x (hne x (.inr hx'))]; exact hx', (hne x (.inr hx')).symm⟩)
      A (marksL es) ss (fun x hx => (hne x (.inr (hnB x (List.mem_append_left _ hx)))).symm)
      (fun h => hne n (hkn n (List.mem_append_left _ h)) rfl) (fun h => hne n (hkn n (List.mem_append_right _ h)) rfl) h2
    rw [hin] at hwr
    simp only [WRes.bind_ok] at hwr
    have hfl2 : ((mkeys g.nodes.lookup).filter fun x => !decide (x ∈ marksL es ++ marksL (sa ++ Stmt.sub n (attrsAsStmts (msetAll [] as)) :: sb))) =
        (mkeys g.nodes.lookup).filter fun x => !decide (x ∈ marksL es ++ marksL (sa ++ sb)) := by
      apply List.filter_congr
      intro x hx
      have hx' := hne x (.inl ((mhas_iff _ _).2 hx))
      congr 1
      simp [marksL_append, marksL, marks, hms, hx'.symm]
    rw [hfl2, h3] at hwr
    simp only [WRes.bind_ok] at hwr
    refine ⟨⟨msetAll [] as, n⟩, _, hsub', hwr, fun h => absurd hpn h, fun h => absurd hpn h, fun _ => ⟨_, rfl, ?_⟩⟩
    have := inserted_append (attrStmts g.attrs ++ es ++ sa) (sb ++ ns) (Stmt.sub n (attrsAsStmts (msetAll [] as)))
    simpa only [List.append_assoc, List.cons_append] using this
  · have hroot : mhas (g'.relations.children g'.name) n = false := by
      rw [hchd, hgn, if_neg hpn]; exact hpar _
    rw [rootSubs_skip hroot, h2] at hwr
    simp only [WRes.bind_ok] at hwr
    rw [hfl, h3] at hwr
    simp only [WRes.bind_ok] at hwr
    refine ⟨⟨msetAll [] as, n⟩, _, hsub', hwr, fun _ _ => ⟨k, ?_⟩, fun _ habs => ?_, fun h => absurd h hpn⟩
    · simp only
      rw [hst]
      show _ = Ast.Graph.mk _ _ _ (editStmts keepNf (insBf p k st) (attrStmts g.attrs ++ es ++ ss ++ ns))
      rw [editStmts_append, editStmts_append, editStmts_append, hAttr]
    · have := editStmts_absent (F := insertAt k st) _ habs
      have e2 : editStmts keepNf (insBf p k st) (attrStmts g.attrs ++ es ++ ss ++ ns) = attrStmts g.attrs ++ es ++ ss ++ ns := this
      rw [editStmts_append, editStmts_append, editStmts_append, hAttr] at e2
      rw [e2]

/-! ### the text -/

namespace Small

theorem lines_end (i : Str) (ss : List Stmt) : Ast.stmtsLines i ss = [] ∨ ∃ x, Ast.stmtsLines i ss = x ++ [10] := by
  induction ss with
  | nil => left; simp [Ast.stmtsLines]
  | cons s ss ih =>
    simp only [Ast.stmtsLines]
    rcases ih with h | ⟨x, h⟩
    · rw [h]
      split
      · right; exact ⟨Ast.stmtStr i s ++ b!";", by simp⟩
      · left; rfl
    · right
      rw [h]
      split
      · exact ⟨Ast.stmtStr i s ++ b!";\n" ++ x, by simp⟩
      · exact ⟨x, rfl⟩

theorem lines_nonempty {i : Str} {ss : List Stmt} {x : Stmt} (hx : x ∈ ss) (h : Ast.stmtStr i x ≠ []) : Ast.stmtsLines i ss ≠ [] := by
  induction ss with
  | nil => cases hx
  | cons s ss ih =>
    simp only [Ast.stmtsLines]
    rcases List.mem_cons.1 hx with rfl | hx
    · have : 0 < (Ast.stmtStr i x).length := by cases hh : Ast.stmtStr i x <;> simp_all
      rw [if_pos this]; simp
    · intro h'
      exact ih hx (List.append_eq_nil_iff.1 h').2

theorem graph_lines {t : Ast.Graph} (h : Ast.stmtsLines (b!"\t") t.stmts ≠ []) :
    Ast.graphStr t = (if t.strict then b!"strict " else []) ++ Ast.typeStr t.type_ ++ b!" " ++ t.id ++ b!" {\n" ++ Ast.stmtsLines (b!"\t") t.stmts ++ b!"}\n" := by
  unfold Ast.graphStr Ast.stmtListStr
  rcases lines_end (b!"\t") t.stmts with h' | ⟨x, h'⟩
  · exact absurd h' h
  · rw [h', Print.trimSuffixNL_snoc]; simp

end Small

/-- C93. One more statement in a tree is one more line in its text (if the tree has a statement already): the lines before and after are
unchanged. -/
theorem C93_text {t : Ast.Graph} {s : Stmt} {ss : List Stmt} (h : Inserted s t.stmts ss) (hs : Ast.stmtStr (b!"\t") s ≠ [])
    (ht : ∃ x ∈ t.stmts, Ast.stmtStr (b!"\t") x ≠ []) :
    ∃ pre post, Ast.graphStr t = pre ++ b!"\n" ++ post ∧ Ast.graphStr { t with stmts := ss } = pre ++ b!"\n" ++ (Ast.stmtStr (b!"\t") s ++ b!";\n") ++ post := by
  obtain ⟨k, _, rfl⟩ := h
  obtain ⟨x, hx, hxs⟩ := ht
  have hn := Small.lines_nonempty hx hxs
  have hn' : Ast.stmtsLines (b!"\t") (insertAt k s t.stmts) ≠ [] := Small.lines_nonempty (x := s) (by simp [insertAt]) hs
  have hpos : 0 < (Ast.stmtStr (b!"\t") s).length := by cases hh : Ast.stmtStr (b!"\t") s <;> simp_all
  have e1 : Ast.stmtsLines (b!"\t") t.stmts = Ast.stmtsLines (b!"\t") (t.stmts.take k) ++ Ast.stmtsLines (b!"\t") (t.stmts.drop k) := by
    rw [← stmtsLines_append, List.take_append_drop]
  have e2 : Ast.stmtsLines (b!"\t") (insertAt k s t.stmts) = Ast.stmtsLines (b!"\t") (t.stmts.take k) ++ ((Ast.stmtStr (b!"\t") s ++ b!";\n") ++
      Ast.stmtsLines (b!"\t") (t.stmts.drop k)) := by
    unfold insertAt
    rw [stmtsLines_append]
    simp only [Ast.stmtsLines, if_pos hpos]
  rw [Small.graph_lines hn, Small.graph_lines (t := { t with stmts := insertAt k s t.stmts }) hn', e1]
  simp only [e2]
  generalize (if t.strict then b!"strict " else []) ++ Ast.typeStr t.type_ ++ b!" " ++ t.id = hd
  have hp : ∃ p, b!" {\n" ++ Ast.stmtsLines (b!"\t") (t.stmts.take k) = p ++ b!"\n" := by
    rcases Small.lines_end (b!"\t") (t.stmts.take k) with h | ⟨x, h⟩
    · exact ⟨b!" {", by rw [h]; rfl⟩
    · exact ⟨b!" {\n" ++ x, by rw [h]; simp⟩
  obtain ⟨p, hp⟩ := hp
  refine ⟨hd ++ p, Ast.stmtsLines (b!"\t") (t.stmts.drop k) ++ b!"}\n", ?_, ?_⟩
  · rw [show hd ++ p ++ b!"\n" = hd ++ (b!" {\n" ++ Ast.stmtsLines (b!"\t") (t.stmts.take k)) by rw [hp]; simp]
    simp
  · rw [show hd ++ p ++ b!"\n" = hd ++ (b!" {\n" ++ Ast.stmtsLines (b!"\t") (t.stmts.take k)) by rw [hp]; simp]
    simp

namespace Small

theorem mapW_plain {α : Type} {F : α → WRes Stmt} (hF : ∀ a s, F a = .ok s → Ast.stmtStr (b!"\t") s ≠ []) {l : List α} {ss : List Stmt} (h : mapW F l = .ok ss) :
    ∀ s ∈ ss, Ast.stmtStr (b!"\t") s ≠ [] := by
  have := mapW_ok.1 h
  clear h
  induction this with
  | nil => intro s hs; cases hs
  | cons hc _ ih =>
    intro s hs
    rcases List.mem_cons.1 hs with rfl | hs
    · exact hF _ _ hc
    · exact ih s hs

theorem attrs_plain (as : Attrs) : ∀ s ∈ attrStmts as, Ast.stmtStr (b!"\t") s ≠ [] := by
  intro s hs
  unfold attrStmts at hs
  obtain ⟨k, _, rfl⟩ := List.mem_map.1 hs
  simp [Ast.stmtStr, Ast.attrStr]

theorem subs_plain {g : Graph} {f : Nat} : ∀ (ns seen : List Str) (ss : List Stmt), rootSubsOf g f seen ns = .ok ss → ∀ s ∈ ss, Ast.stmtStr (b!"\t") s ≠ []
  | [], _, ss, h => by simp only [rootSubsOf] at h; cases h; intro s hs; cases hs
  | n :: ns, seen, ss, h => by
    simp only [rootSubsOf] at h
    split at h
    · obtain ⟨b, hb, h⟩ := WRes.bind_eq_ok.1 h
      obtain ⟨rs, hrs, h⟩ := WRes.bind_eq_ok.1 h
      cases h
      intro s hs
      rcases List.mem_cons.1 hs with rfl | hs
      · simp [Ast.stmtStr]
      · exact subs_plain ns _ rs hrs s hs
    · exact subs_plain ns _ ss h

theorem write_plain {g : Graph} (hi : GInv g) {sortE : List Edge → List Edge} {f : Nat} {t : Ast.Graph} (hw : writeAst sortE f g = .ok t) :
    ∀ s ∈ t.stmts, Ast.stmtStr (b!"\t") s ≠ [] := by
  rw [writeAst_eq hi] at hw
  obtain ⟨es, hes, h⟩ := WRes.bind_eq_ok.1 hw
  obtain ⟨ss, hss, h⟩ := WRes.bind_eq_ok.1 h
  obtain ⟨ns, hns, h⟩ := WRes.bind_eq_ok.1 h
  cases h
  intro s hs
  simp only [List.mem_append] at hs
  rcases hs with ((hs | hs) | hs) | hs
  · exact attrs_plain _ s hs
  · refine mapW_plain (fun a s h => ?_) hes s hs
    unfold edgeOf at h
    obtain ⟨_, _, h⟩ := WRes.bind_eq_ok.1 h
    obtain ⟨_, _, h⟩ := WRes.bind_eq_ok.1 h
    cases h; simp [Ast.stmtStr]
  · exact subs_plain _ _ _ hss s hs
  · refine mapW_plain (fun a s h => ?_) hns s hs
    unfold nodeStmtOf at h
    split at h
    · cases h
    · cases h; simp [Ast.stmtStr]

end Small

/-- C93. A new edge between nodes or clusters of a graph whose text has a statement is one new line in the text; the other lines stay, in order. -/
theorem C93_edge_text {g : Graph} (hr : Reachable g) {s sp d dp : Str} {dir : Bool} {as : List (Str × Str)} (hok : (g.addPortEdge s sp d dp dir as).2 = none)
    (hs : ByName g s sp) (hd : ByName g d dp) (hne : ∀ e ∈ (g.addPortEdge s sp d dp dir as).1.edges.edges, ∀ k, mget e.attrs k ≠ some [])
    {sortE : List Edge → List Edge} (hc : SortContract sortE) {f : Nat} {t : Ast.Graph} (hw : writeAst sortE f g = .ok t) (hst : t.stmts ≠ []) :
    ∃ pre post ea, (g.addPortEdge s sp d dp dir as).1.edges.edges = g.edges.edges ++ [⟨s, sp, d, dp, dir, ea⟩] ∧
      graphString sortE f g = .ok (pre ++ b!"\n" ++ post) ∧ graphString sortE f (g.addPortEdge s sp d dp dir as).1 =
        .ok (pre ++ b!"\n" ++ (Ast.stmtStr (b!"\t") (.edge (.node (Ast.makeNodeID s sp)) [.mk dir (.node (Ast.makeNodeID d dp))] (attrsAsList ea)) ++ b!";\n") ++ post) := by
  obtain ⟨ea, ss, he, hw', hin⟩ := C93_edge hr hok hs hd hne hc hw
  obtain ⟨x, xs, hx⟩ := List.exists_cons_of_ne_nil hst
  obtain ⟨pre, post, h1, h2⟩ := C93_text hin (by simp [Ast.stmtStr]) ⟨x, by rw [hx]; exact List.mem_cons_self .., Small.write_plain hr.inv hw x (by rw [hx]; exact List.mem_cons_self ..)⟩
  exact ⟨pre, post, ea, he, by unfold graphString; rw [hw, ← h1], by unfold graphString; rw [hw', ← h2]⟩

/-- C93. A new node of a graph whose text has a statement, under a name that is not written as a subgraph (such as the name of the graph), is one new
line in the text; the other lines stay, in order. -/
theorem C93_node_text {g : Graph} (hr : Reachable g) {p n : Str} {as : List (Str × Str)} (hok : (g.addNode p n as).2 = none) (hn : g.isNode n = false)
    (hs : g.isSubGraph n = false) {sortE : List Edge → List Edge} {f : Nat} {t : Ast.Graph} (hw : writeAst sortE f g = .ok t) (hst : t.stmts ≠ [])
    (hp : ∀ b, Stmt.sub p b ∉ allStmts t.stmts) :
    ∃ pre post nd, (g.addNode p n as).1.nodes.find n = some nd ∧ graphString sortE f g = .ok (pre ++ b!"\n" ++ post) ∧
      graphString sortE f (g.addNode p n as).1 = .ok (pre ++ b!"\n" ++ (Ast.stmtStr (b!"\t") (.node ⟨n, ⟨[], []⟩⟩ (attrsAsList nd.attrs)) ++ b!";\n") ++ post) := by
  obtain ⟨nd, t', hnd, hw', _, h2⟩ := C93_node hr hok hn hs hw
  obtain ⟨ss, rfl, hin⟩ := h2 hp
  obtain ⟨x, xs, hx⟩ := List.exists_cons_of_ne_nil hst
  obtain ⟨pre, post, h1, h2⟩ := C93_text hin (by simp [Ast.stmtStr]) ⟨x, by rw [hx]; exact List.mem_cons_self .., Small.write_plain hr.inv hw x (by rw [hx]; exact List.mem_cons_self ..)⟩
  exact ⟨pre, post, nd, hnd, by unfold graphString; rw [hw, ← h1], by unfold graphString; rw [hw', ← h2]⟩

/-! ### an example -/

/-- A graph with a node, and a subgraph that is an end of an edge. -/
def smallOps : List Op := [.setName (b!"G"), .setDir true, .addNode (b!"G") (b!"b") [], .addSubGraph (b!"G") (b!"S") [], .addNode (b!"S") (b!"a") [(b!"color", b!"red")],
  .addEdge (b!"S") (b!"b") true []]

/-- The text of a graph. -/
def smallText (g : Graph) : Str := match graphString edgeInsertionSort 3 g with
  | .ok s => s
  | _ => []

/-- The example meets the hypotheses, and its text before and after a new node in the subgraph, a new node of the graph, a new attribute of the node, of
the subgraph and of the graph, a new edge and a new subgraph. -/
theorem example_small : Reachable (newGraph.run smallOps) ∧ (newGraph.run smallOps).isNode (b!"m") = false ∧ (newGraph.run smallOps).isSubGraph (b!"m") = false ∧
    ByName (newGraph.run smallOps) (b!"a") [] ∧ ByName (newGraph.run smallOps) (b!"b") (b!"n") ∧
    (∃ t, writeAst edgeInsertionSort 2 (newGraph.run smallOps) = .ok t ∧ ∃ b, Stmt.sub (b!"S") b ∈ allStmts t.stmts) ∧
    smallText (newGraph.run smallOps) = b!"digraph G {\n\tsubgraph S {\n\ta [ color=red ];\n}->b;\n\tb;\n}\n" ∧
    smallText ((newGraph.run smallOps).addNode (b!"S") (b!"m") []).1 = b!"digraph G {\n\tsubgraph S {\n\ta [ color=red ];\n\tm;\n}->b;\n\tb;\n}\n" ∧
    smallText ((newGraph.run smallOps).addNode (b!"G") (b!"m") []).1 = b!"digraph G {\n\tsubgraph S {\n\ta [ color=red ];\n}->b;\n\tb;\n\tm;\n}\n" ∧
    smallText ((newGraph.run smallOps).addNode (b!"S") (b!"a") [(b!"shape", b!"box")]).1 =
      b!"digraph G {\n\tsubgraph S {\n\ta [ color=red, shape=box ];\n}->b;\n\tb;\n}\n" ∧
    smallText ((newGraph.run smallOps).addAttr (b!"S") (b!"label") (b!"x")).1 = b!"digraph G {\n\tsubgraph S {\n\tlabel=x;\n\ta [ color=red ];\n}->b;\n\tb;\n}\n" ∧
    smallText ((newGraph.run smallOps).addAttr (b!"G") (b!"label") (b!"x")).1 = b!"digraph G {\n\tlabel=x;\n\tsubgraph S {\n\ta [ color=red ];\n}->b;\n\tb;\n}\n" ∧
    smallText ((newGraph.run smallOps).addPortEdge (b!"a") [] (b!"b") (b!"n") true []).1 =
      b!"digraph G {\n\tsubgraph S {\n\ta [ color=red ];\n}->b;\n\ta->b:n;\n\tb;\n}\n" ∧
    smallText ((newGraph.run smallOps).addSubGraph (b!"G") (b!"T") []).1 =
      b!"digraph G {\n\tsubgraph S {\n\ta [ color=red ];\n}->b;\n\tsubgraph T {\n\n\t};\n\tb;\n}\n" := by
  refine ⟨Reachable.init.run (by decide +kernel), by decide +kernel, by decide +kernel, .inl (by decide +kernel), .inl (by decide +kernel),
    ⟨_, rfl, _, by
      simp only [allStmts_append, List.mem_append]
      refine .inl (.inl (.inr ?_))
      simp only [allStmts, allStmt, allLoc, List.mem_append, List.mem_cons, Stmt.sub.injEq, true_and, reduceCtorEq, false_or]
      exact .inl (.inl (.inl rfl))⟩, by decide +kernel, by decide +kernel, by decide +kernel, by decide +kernel, by decide +kernel, by decide +kernel,
    by decide +kernel, by decide +kernel⟩

end Gographviz.Props
