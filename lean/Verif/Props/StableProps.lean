import Verif.Props.AgainProps
/-!
C60: from the second time on, formatting changes nothing, whatever names are used for.
-/
namespace Gographviz.Props

open Gographviz Spec Parse
open Gographviz.Ast (Stmt Loc EdgeRH)

namespace Stable

open ClusterFormat Again

/-- The subgraph stands in the tree. -/
def Stands (t : Ast.Graph) (n : Str) : Prop := ∃ body, Stmt.sub n body ∈ allStmts t.stmts

/-- The calls that the statements of a written tree make, one by one. -/
structure Calls (g : Graph) (t : Ast.Graph) (X : List Call) : Prop where
  node : ∀ n as, Stmt.node ⟨n, ⟨[], []⟩⟩ as ∈ allStmts t.stmts → ∃ nd p, g.nodes.find n = some nd ∧ Call.addNode p n nd.attrs ∈ X
  sub : ∀ n, Stands t n → ∃ p m, Call.addSubGraph p n m ∈ X
  attr : ∀ k v, mget g.attrs k = some v → Call.addAttr g.name k v ∈ X
  subAttr : ∀ n s k v, Stands t n → mget g.subGraphs n = some s → mget s.attrs k = some v → Call.addAttr n k v ∈ X
  child : ∀ p c, Stands t p → mhas (g.relations.children p) c = true → (∃ m, Call.addNode p c m ∈ X) ∨ ∃ m, Call.addSubGraph p c m ∈ X
  ends : ∀ e ∈ g.edges.edges, ∀ n, e.src = n ∨ e.dst = n → g.isNode n = true ∨ g.isClusterSubGraph n = true → ∃ p m, Call.addNode p n m ∈ X

theorem calls {g : Graph} (h : Reachable g) {sortE : List Edge → List Edge} (hs : SortContract sortE)
    {f : Nat} {t : Ast.Graph} (ht : writeAst sortE f g = .ok t) : Calls g t (stmtsCalls ⟨t.id, [], []⟩ [] t.stmts) := by
  have hid : t.id = g.name := written_id h ht
  have hnodeCall : ∀ {sc pre n nd}, g.nodes.find n = some nd → Occurs t sc pre (.node ⟨n, ⟨[], []⟩⟩ (attrsAsList nd.attrs)) →
      Call.addNode sc.name n nd.attrs ∈ stmtsCalls ⟨t.id, [], []⟩ [] t.stmts := by
    intro sc pre n nd hf hocc
    obtain ⟨hd1, hd2, hd3, hd4, hd5⟩ := occurs_plain (written_no_defaults h ht) hocc
    refine occurs_calls hocc ?_ rfl
    have hnd : sc.nodeDefaults pre = [] := by simp only [Scope.nodeDefaults, hd1, hd3]; rfl
    have hstr : Ast.nodeIDStr ⟨n, ⟨[], []⟩⟩ = n := by simp [Ast.nodeIDStr, Ast.portStr]
    simp only [stmtCalls, hstr, hnd, ite_self, mapOf_attrsAsList (find_attrs h.inv hf).wf, over_nil (find_attrs h.inv hf).wf, List.mem_singleton]
  have hstand : ∀ n, Stands t n → ∃ body, SubStands t n body ∧ SubFaithful g n body := by
    rintro n ⟨body, hb⟩
    exact ⟨body, tree_stands hb, C20_subgraphs_faithful h ht hb⟩
  constructor
  · intro n as hm
    obtain ⟨-, nd, hf, rfl⟩ := C17_node_statements_faithful h ht hm
    rcases tree_stands' hm with ⟨sc, pre, hocc⟩ | ⟨_, _, e, _⟩
    · exact ⟨nd, sc.name, hf, hnodeCall hf hocc⟩
    · cases e
  · intro n hn
    obtain ⟨body, hst, _⟩ := hstand n hn
    exact stands_calls hst
  · intro k v hk
    have hm : Stmt.attr ⟨k, v⟩ ∈ t.stmts := by
      obtain ⟨es, ss, ns, hes, hss, hns, rfl⟩ := written_parts h ht
      simp only [List.mem_append]
      exact .inl (.inl (.inl (List.mem_map.2 ⟨(k, v), (mem_iff_mget h.inv.attrs.wf k v).2 hk, rfl⟩)))
    obtain ⟨pre, hocc⟩ := occurs_exists hm
    exact occurs_calls hocc (by simp [stmtCalls, hid]) rfl
  · intro n s k v hn hsub hk
    obtain ⟨body, hst, sub, hsub', cs, rfl, _⟩ := hstand n hn
    rw [hsub] at hsub'
    cases hsub'
    have hm : Stmt.attr ⟨k, v⟩ ∈ attrsAsStmts s.attrs ++ cs :=
      List.mem_append_left _ (List.mem_map.2 ⟨(k, v), (mem_iff_mget (h.inv.subs.attrs n s hsub).wf k v).2 hk, rfl⟩)
    obtain ⟨pre, post, e⟩ := List.append_of_mem hm
    obtain ⟨sc, rfl, hocc⟩ := hst.inner e
    exact occurs_calls hocc (by simp [stmtCalls]) rfl
  · intro p c hp hc
    obtain ⟨body, hst, sub, hsub', cs, rfl, hf⟩ := hstand p hp
    obtain ⟨s, hsc, hdc⟩ := hf.mem_left (mem_sortedChildren.2 hc)
    obtain ⟨pre, post, e⟩ := List.append_of_mem (List.mem_append_right (attrsAsStmts sub.attrs) hsc)
    obtain ⟨sc, rfl, hocc⟩ := hst.inner e
    cases s with
    | node id as =>
      obtain ⟨rfl, nd, hf, rfl⟩ := hdc
      exact .inl ⟨_, hnodeCall hf hocc⟩
    | sub id bd =>
      obtain ⟨rfl, _⟩ := hdc
      exact .inr ⟨_, occurs_calls hocc (by simp only [stmtCalls]; exact List.mem_cons_self ..) rfl⟩
    | edge => cases hdc
    | nodeAttrs => cases hdc
    | edgeAttrs => cases hdc
    | graphAttrs => cases hdc
    | attr => cases hdc
  · intro e he n hends hn
    obtain ⟨h1, h2, _⟩ := C18_edges_faithful h hs ht
    obtain ⟨s, hsm, src, dst, rfl, hw1, hw2⟩ := h1.mem_left ((hs.perm _).mem_iff.2 he)
    have hsm := (List.mem_filter.1 hsm).1
    have key : ∀ {p : Str} {l : Loc}, EndWritten g n p l → n ∈ locNode l := by
      rintro p l (⟨rfl, _⟩ | ⟨b, rfl, _, hx, hy, _⟩)
      · simp [locNode, makeNodeID_id]
      · rw [hx, hy] at hn; simp at hn
    have hm : n ∈ mentioned t.stmts := by
      simp only [mentioned, List.mem_flatMap]
      refine ⟨_, hsm, ?_⟩
      simp only [mentions, dests, List.flatMap_cons, List.flatMap_nil, List.append_nil, List.mem_append]
      rcases hends with rfl | rfl
      · exact .inl (key hw1)
      · exact .inr (key hw2)
    rcases stmts_mentions ⟨t.id, [], []⟩ n t.stmts [] hm with h | h
    · cases h
    · exact h

/-- What is read from a written tree. -/
structure Back (g g' : Graph) (t : Ast.Graph) : Prop where
  name : g'.name = g.name
  directed : g'.directed = g.directed
  strict : g'.strict = g.strict
  attrs : g'.attrs = g.attrs
  old : ∀ n, g'.isNode n = true → g.isNode n = true ∨ ClusterEnd g n
  node : ∀ n as, Stmt.node ⟨n, ⟨[], []⟩⟩ as ∈ allStmts t.stmts → ¬ ClusterEnd g n → (g.nodes.find n).map Node.attrs = (g'.nodes.find n).map Node.attrs
  ends : ∀ e ∈ g.edges.edges, ∀ n, e.src = n ∨ e.dst = n → g.isNode n = true ∨ g.isClusterSubGraph n = true → g'.isNode n = true
  subs : ∀ n, g'.isSubGraph n = true ↔ Stands t n
  subAttrs : ∀ n s s', mget g.subGraphs n = some s → mget g'.subGraphs n = some s' → s'.attrs = s.attrs
  children : ∀ p, Stands t p → g'.relations.children p = g.relations.children p

theorem written_sub {g : Graph} (h : Reachable g) {sortE : List Edge → List Edge} (hs : SortContract sortE) {f : Nat} {t : Ast.Graph}
    (ht : writeAst sortE f g = .ok t) {n : Str} (hn : Stands t n) : IsWritten g n := by
  obtain ⟨body, hb⟩ := hn
  exact sub_written h hs ht hb

theorem back {g : Graph} (h : Reachable g) (hroot : g.isSubGraph g.name = false) {sortE : List Edge → List Edge} (hs : SortContract sortE) {f : Nat} {t : Ast.Graph}
    (ht : writeAst sortE f g = .ok t) {g' : Graph} (hg' : newAnalysedGraph t = .ok g') : Back g g' t := by
  obtain ⟨hr', hname, hdir, hstr, heff⟩ := analysed_effect hg'
  have hfine := fun x (hx : x ∈ stmtsCalls ⟨t.id, [], []⟩ [] t.stmts) => written_fine h hs ht hx
  have hcomp := calls h hs ht
  have hcs := fun {p c m} (hx : Call.addSubGraph p c m ∈ stmtsCalls ⟨t.id, [], []⟩ [] t.stmts) => (call_stands h hs ht hx).1
  have hws := fun {n} (hn : Stands t n) => written_sub h hs ht hn
  have ht' : t.id = g.name ∧ t.type_ = g.directed ∧ t.strict = g.strict := by
    obtain ⟨es, ss, ns, hes, hss, hns, rfl⟩ := written_parts h ht; exact ⟨rfl, rfl, rfl⟩
  generalize hX : stmtsCalls ⟨t.id, [], []⟩ [] t.stmts = X at *
  have hne : ∀ n, IsWritten g n → n ≠ g.name := by
    rintro n hn rfl
    have := isWritten_sub hn
    rw [hroot] at this; cases this
  have hsubs : ∀ n, g'.isSubGraph n = true ↔ Stands t n := by
    intro n
    have hex := heff.sub n
    simp only [abs, AGraph.empty, Option.isSome_none, Bool.false_eq_true, false_or, Option.isSome_map] at hex
    rw [isSub_get, ← Option.isSome_iff_exists, hex]
    constructor
    · rintro ⟨p, m, hm⟩
      exact hcs hm
    · exact hcomp.sub n
  have hnode : ∀ n, g'.isNode n = true ↔ ∃ p m, Call.addNode p n m ∈ X := by
    intro n
    rw [← abs_isNode hr', heff.node]
    simp [AGraph.empty]
  refine ⟨by rw [hname, ht'.1], by rw [hdir, ht'.2.1], by rw [hstr, ht'.2.2], ?_, ?_, ?_, ?_, hsubs, ?_, ?_⟩
  · apply Map.ext hr'.inv.attrs.wf h.inv.attrs.wf
    intro k
    have := heff.attrs k
    simp only [abs, AGraph.empty, Option.or_none] at this
    rw [this, ht'.1]
    apply lastAssign_eq_map h.inv.attrs.wf
    · intro e he
      rcases mem_graphGiven.1 he with ⟨p, m, hm, he⟩ | hm
      · rw [(hfine _ hm).1] at he; cases he
      · rcases hfine _ hm with ⟨_, hk⟩ | ⟨hw, _⟩
        · exact (mem_iff_mget h.inv.attrs.wf _ _).2 hk
        · exact absurd rfl (hne _ hw)
    · intro e he
      exact mem_graphGiven.2 (.inr (hcomp.attr _ _ (mget_of_mem h.inv.attrs.wf he)))
  · intro n hn
    obtain ⟨p, m, hm⟩ := (hnode n).1 hn
    rcases hfine _ hm with ⟨nd, hfn, _⟩ | ⟨_, hc, _⟩
    · left
      cases hx : g.isNode n with
      | true => rfl
      | false => rw [(isNode_find h.inv n).2 hx] at hfn; cases hfn
    · exact .inr hc
  · intro n as hin hncl
    have hex := heff.node n
    have hval := heff.nodeVal n
    simp only [abs, AGraph.empty, AGraph.nodeVal, Option.bind_none, Option.or_none, Option.isSome_none, Bool.false_eq_true, false_or] at hex hval
    obtain ⟨nd, p, hf, hp⟩ := hcomp.node n as hin
    rw [hf]
    have hw := (find_attrs h.inv hf).wf
    cases hf' : g'.nodes.find n with
    | none => have := hex.2 ⟨p, _, hp⟩; rw [hf'] at this; cases this
    | some nd' =>
      rw [hf'] at hval
      simp only [Option.map_some, Option.bind_some] at hval
      simp only [Option.map_some]
      congr 1
      apply Map.ext hw (find_attrs hr'.inv hf').wf
      intro k
      rw [hval k]
      symm
      apply lastAssign_eq_map hw
      · intro e he
        obtain ⟨p', m, hm, he⟩ := mem_nodeGiven.1 he
        rcases hfine _ hm with ⟨nd'', hfn, hm', _⟩ | ⟨_, hc, _⟩
        · rw [hf] at hfn; cases hfn
          rcases hm' with rfl | rfl
          · cases he
          · exact he
        · exact absurd hc hncl
      · intro e he
        exact mem_nodeGiven.2 ⟨p, _, hp, he⟩
  · intro e he n hends hn
    exact (hnode n).2 (hcomp.ends e he n hends hn)
  · intro n s s' hsn hsn'
    have hw := (h.inv.subs.attrs n s hsn).wf
    have hst : Stands t n := (hsubs n).1 ((isSub_get g' n).2 ⟨_, hsn'⟩)
    have hwr := hws hst
    apply Map.ext (hr'.inv.subs.attrs n s' hsn').wf hw
    intro k
    have := heff.subVal n k (by simp only [AGraph.empty]; rw [ht'.1]; exact hne n hwr)
    simp only [abs, AGraph.empty, AGraph.subVal, Option.bind_none, Option.or_none, hsn', Option.map_some, Option.bind_some] at this
    rw [this]
    apply lastAssign_eq_map hw
    · intro e he
      rcases mem_graphGiven.1 he with ⟨p, m, hm, he⟩ | hm
      · rw [(hfine _ hm).1] at he; cases he
      · rcases hfine _ hm with ⟨hk, _⟩ | ⟨_, sub, hsub, hk⟩
        · exact absurd hk (hne _ hwr)
        · rw [hsn] at hsub; cases hsub
          exact (mem_iff_mget hw _ _).2 hk
    · intro e he
      exact mem_graphGiven.2 (.inr (hcomp.subAttr _ s _ _ hst hsn (mget_of_mem hw he)))
  · intro p hp
    apply children_eq h.inv hr'.inv
    intro c
    have hc := heff.contains p c
    simp only [abs, AGraph.empty, Bool.false_eq_true, false_or] at hc
    have hpn := hne _ (hws hp)
    have : mhas (g'.relations.children p) c = true ↔ mhas (g.relations.children p) c = true := by
      rw [hc]
      constructor
      · rintro (⟨m, hm⟩ | ⟨m, hm⟩)
        · rcases hfine _ hm with ⟨_, _, _, rfl | ⟨_, hc⟩⟩ | ⟨rfl, _⟩
          · exact absurd rfl hpn
          · exact hc
          · exact absurd rfl hpn
        · obtain ⟨_, _, rfl | ⟨_, hc⟩⟩ := hfine _ hm
          · exact absurd rfl hpn
          · exact hc
      · exact hcomp.child p c hp
    cases h1 : mhas (g'.relations.children p) c <;> cases h2 : mhas (g.relations.children p) c <;> simp_all

theorem edges_back {g : Graph} (h : Reachable g) (hv : TwoPartPorts g) {sortE : List Edge → List Edge} (hs : SortContract sortE) {f : Nat} {t : Ast.Graph}
    (ht : writeAst sortE f g = .ok t) {g' : Graph} (hg' : newAnalysedGraph t = .ok g') : g'.edges.edges = (sortE g.edges.edges).map edgeRead := by
  obtain ⟨hr', -, -, -, heff⟩ := analysed_effect hg'
  apply absEdges_inj (fun e he => (hr'.inv.edges.attrs e he).wf)
  · intro e he
    obtain ⟨e', he', rfl⟩ := List.mem_map.1 he
    exact (h.inv.edges.attrs e' ((hs.perm _).mem_iff.1 he')).wf
  · have := heff.edges
    simp only [AGraph.empty, List.nil_append] at this
    rw [written_edges h hv hs ht] at this
    rw [List.map_map]
    exact this

/-! ### writing what was read -/

variable {g g' : Graph} {t : Ast.Graph}

/-- The statements of a subgraph in the tree are written the same way for the graph that was read. -/
theorem body_back (h : Reachable g) (h' : Reachable g') (hcl : NoClusterEnds g) (hb : Back g g' t)
    (hfaith : ∀ {n body}, Stmt.sub n body ∈ allStmts t.stmts → SubFaithful g n body) (f : Nat) : ∀ n, Stands t n → subBody g' f n = subBody g f n := by
  induction f with
  | zero => intro n _; rfl
  | succ f ih =>
    intro n hn
    simp only [subBody]
    obtain ⟨s', hs'⟩ := (isSub_get g' n).1 ((hb.subs n).2 hn)
    obtain ⟨body, hin⟩ := hn
    obtain ⟨s, hs, cs, rfl, hf⟩ := hfaith hin
    rw [hs, hs']
    simp only
    have hc := hb.children n ⟨_, hin⟩
    have hsc : g'.relations.sortedChildren n = g.relations.sortedChildren n := by unfold Relations.sortedChildren; rw [hc]
    rw [hb.subAttrs n s s' hs hs', hsc]
    congr 1
    apply mapW_congr
    intro c hcm
    obtain ⟨st, hst, hdc⟩ := hf.mem_left hcm
    have hm : st ∈ allStmts t.stmts := mem_allStmts_trans _ hin (mem_allStmts_of_mem (List.mem_append_right _ hst))
    unfold childOf
    cases st with
    | node id as =>
      obtain ⟨rfl, nd, hfn, rfl⟩ := hdc
      have e := hb.node c _ hm (NoClusterEnds.none hcl c)
      rw [isNode_back_at h.inv h'.inv e]
      have hn : g.isNode c = true := by
        cases hx : g.isNode c with
        | true => rfl
        | false => rw [(isNode_find h.inv c).2 hx] at hfn; cases hfn
      rw [if_pos hn, if_pos hn]
      unfold nodeStmtOf
      rw [find_eq_at h.inv h'.inv e]
    | sub id bd =>
      obtain ⟨rfl, hn, hsb⟩ := hdc
      have hn' : g'.isNode id = false := by
        cases hx : g'.isNode id with
        | false => rfl
        | true =>
          rcases hb.old id hx with hx | hx
          · rw [hn] at hx; cases hx
          · exact absurd hx (NoClusterEnds.none hcl id)
      rw [hn, hn', hsb, (hb.subs id).2 ⟨_, hm⟩, ih id ⟨_, hm⟩]
      rfl
    | edge => cases hdc
    | nodeAttrs => cases hdc
    | edgeAttrs => cases hdc
    | graphAttrs => cases hdc
    | attr => cases hdc

theorem rootSubs_again {f : Nat} {seen0 : List Str} (hname : g'.name = g.name)
    (hbody : ∀ n, g'.isSubGraph n = true → subBody g' f n = subBody g f n) (ns : List Str) :
    ∀ (seen : List Str) (ss : List Stmt), rootSubsOf g f seen ns = .ok ss → (∀ x ∈ seen0, x ∈ seen) →
      (∀ n b, Stmt.sub n b ∈ ss → mhas (g'.relations.children g.name) n = true ∧ g'.isSubGraph n = true) →
      (∀ n ∈ ns, g'.isSubGraph n = true → n ∉ seen0 → mhas (g'.relations.children g.name) n = true → mhas (g.relations.children g.name) n = true) →
      rootSubsOf g' f seen (ns.filter fun n => g'.isSubGraph n) = .ok ss := by
  induction ns with
  | nil => intro seen ss h _ _ _; exact h
  | cons n ns ih =>
    intro seen ss hr hsub hin hback
    simp only [rootSubsOf] at hr
    by_cases hcond : (!decide (n ∈ seen) && mhas (g.relations.children g.name) n) = true
    · rw [if_pos hcond] at hr
      obtain ⟨b, hb, hr⟩ := WRes.bind_eq_ok.1 hr
      obtain ⟨rs, hrs, hr⟩ := WRes.bind_eq_ok.1 hr
      cases hr
      simp only [Bool.and_eq_true] at hcond
      obtain ⟨h1, hn⟩ := hin n b (List.mem_cons_self ..)
      rw [List.filter_cons_of_pos (by simpa using hn)]
      simp only [rootSubsOf, hname]
      rw [if_pos (by simp only [Bool.and_eq_true]; exact ⟨hcond.1, h1⟩), hbody n hn, hb]
      simp only [WRes.bind_ok]
      rw [ih _ rs hrs (fun x hx => List.mem_append_left _ (hsub x hx)) (fun n b hm => hin n b (List.mem_cons_of_mem _ hm))
        (fun n hn => hback n (List.mem_cons_of_mem _ hn))]
      rfl
    · rw [if_neg hcond] at hr
      have ih' := ih seen ss hr hsub hin (fun n hn => hback n (List.mem_cons_of_mem _ hn))
      by_cases hn : g'.isSubGraph n = true
      · rw [List.filter_cons_of_pos (by simpa using hn)]
        simp only [rootSubsOf, hname]
        rw [if_neg, ih']
        intro hc
        simp only [Bool.and_eq_true, Bool.not_eq_true', decide_eq_false_iff_not] at hc hcond
        exact hcond ⟨hc.1, hback n (List.mem_cons_self ..) hn (fun h0 => hc.1 (hsub n h0)) hc.2⟩
      · rw [List.filter_cons_of_neg (by simpa using hn)]
        exact ih'

theorem keys_back (h : GInv g) (h' : GInv g') (hsub : ∀ n, g'.isSubGraph n = true → g.isSubGraph n = true) :
    mkeys g'.subGraphs = (mkeys g.subGraphs).filter fun n => g'.isSubGraph n := by
  apply sasc_perm_eq h'.subs.wf.sorted
  · exact List.Pairwise.filter _ h.subs.wf.sorted
  · refine (List.perm_ext_iff_of_nodup h'.subs.wf.nodup (h.subs.wf.nodup.filter _)).2 fun n => ?_
    rw [List.mem_filter, ← mhas_iff, ← mhas_iff]
    exact ⟨fun hn => ⟨hsub n hn, hn⟩, fun hn => hn.2⟩

/-- Where a subgraph in a written tree stands: directly in the graph; or at the end of an edge or inside such an end; or inside another subgraph, and then there is no node of its name. -/
theorem where_sub (h : Reachable g) {sortE : List Edge → List Edge} (hs : SortContract sortE) {f : Nat} (ht : writeAst sortE f g = .ok t) {es ss ns : List Stmt}
    (hes : Forall2 (fun e s => edgeOf g f e = .ok s) (sortE g.edges.edges) es) (hss : rootSubsOf g f (marksL es) (mkeys g.subGraphs) = .ok ss)
    (hns : ∀ s ∈ ns, ∃ id as, s = .node id as) (hst : t.stmts = attrsAsStmts g.attrs ++ es ++ ss ++ ns)
    {sc : Scope} {pre : List Stmt} {n : Str} {body : List Stmt}
    (ho : Occurs t sc pre (.sub n body) ∨ ∃ src rhs as, Occurs t sc pre (.edge src rhs as) ∧ Loc.sub n body ∈ src :: dests rhs) :
    (sc.name = g.name ∧ mhas (g.relations.children g.name) n = true) ∨ n ∈ marksL es ∨ (IsWritten g sc.name ∧ g.isNode n = false) := by
  rcases ho with ho | ⟨src, rhs, as, ho, hl⟩
  · rcases occ_written h hs ht ho with ⟨rfl, hm⟩ | ⟨hw, sub, hsub, hm | ⟨c, hc, hd⟩⟩
    · left
      refine ⟨written_id h ht, ?_⟩
      rw [hst] at hm
      simp only [List.mem_append] at hm
      rcases hm with ((hm | hm) | hm) | hm
      · obtain ⟨e, _, he⟩ := List.mem_map.1 hm; cases he
      · obtain ⟨e, _, he⟩ := hes.mem_right hm
        obtain ⟨src, dst, e', _⟩ := edgeOf_inner h.inv he
        cases e'
      · obtain ⟨n', b, hn, e, hb, hc, _⟩ := (rootSubsOf_ok hss).1 _ hm
        cases e
        exact hc
      · obtain ⟨id, as, e⟩ := hns _ hm
        cases e
    · obtain ⟨e, _, he⟩ := List.mem_map.1 hm; cases he
    · obtain ⟨rfl, hn, -⟩ := hd
      exact .inr (.inr ⟨hw, hn⟩)
  · right; left
    rcases occ_written h hs ht ho with ⟨rfl, hm⟩ | ⟨-, sub, hsub, hm | ⟨c, hc, hd⟩⟩
    · have hme : Stmt.edge src rhs as ∈ es := by
        rw [hst] at hm
        simp only [List.mem_append] at hm
        rcases hm with ((hm | hm) | hm) | hm
        · obtain ⟨e, _, he⟩ := List.mem_map.1 hm; cases he
        · exact hm
        · obtain ⟨n', b, hn, e, hb, hc, _⟩ := (rootSubsOf_ok hss).1 _ hm
          cases e
        · obtain ⟨id, as, e⟩ := hns _ hm
          cases e
      rw [mem_marksL]
      right
      refine ⟨body, mem_allStmts.2 ⟨_, hme, ?_⟩⟩
      simp only [allStmt, List.mem_cons, reduceCtorEq, false_or, List.mem_append]
      rcases List.mem_cons.1 hl with rfl | hl
      · left; simp [allLoc]
      · right; exact allLoc_mem hl _ (by simp [allLoc])
    · obtain ⟨e, _, he⟩ := List.mem_map.1 hm; cases he
    · cases hd

/-- Where a call that adds a subgraph comes from. -/
theorem call_where {p c : Str} {m : Map Str} (hx : Call.addSubGraph p c m ∈ stmtsCalls ⟨t.id, [], []⟩ [] t.stmts) :
    ∃ sc pre body, sc.name = p ∧ (Occurs t sc pre (.sub c body) ∨ ∃ src rhs as, Occurs t sc pre (.edge src rhs as) ∧ Loc.sub c body ∈ src :: dests rhs) := by
  obtain ⟨sc, pre, s, hocc, hown⟩ := treeCalls_origin hx
  cases s with
  | sub id body =>
    simp only [OwnCall] at hown
    cases hown
    exact ⟨sc, pre, body, rfl, .inl hocc⟩
  | edge src rhs as =>
    rcases hown with hown | hown | ⟨id, body, hl, hown⟩
    · exact absurd hown created_not_sub
    · exact absurd hown (chain_not_sub _ _ _ _)
    · cases hown
      exact ⟨sc, pre, body, rfl, .inr ⟨_, _, _, hocc, hl⟩⟩
  | node id as => simp [OwnCall, stmtCalls] at hown
  | nodeAttrs as => simp [OwnCall, stmtCalls] at hown
  | edgeAttrs as => simp [OwnCall, stmtCalls] at hown
  | graphAttrs as => simp [OwnCall, stmtCalls] at hown
  | attr as => simp [OwnCall, stmtCalls] at hown

/-- Writing the graph that was read back, without ports and clusters at the ends of edges, gives the same tree. -/
theorem write_again (h : Reachable g) (hv : NoEmptyEdgeValues g) (hroot : g.isSubGraph g.name = false) (hcl : NoClusterEnds g) (hnp : NoPorts g)
    {sortE : List Edge → List Edge} (hs : SortContract sortE) {f : Nat} (ht : writeAst sortE f g = .ok t)
    (hg' : newAnalysedGraph t = .ok g') {sortE' : List Edge → List Edge} (hs' : SortContract sortE') : writeAst sortE' f g' = .ok t := by
  have hb := back h hroot hs ht hg'
  have hedges := edges_back h (fun e he => ⟨.inl (hnp e he).1, .inl (hnp e he).2⟩) hs ht hg'
  obtain ⟨h', _, _, _, heff⟩ := analysed_effect hg'
  have hbody := body_back h h' hcl hb (C20_subgraphs_faithful h ht) f
  have hfine := fun {x} (hx : x ∈ stmtsCalls ⟨t.id, [], []⟩ [] t.stmts) => written_fine h hs ht hx
  have hcomp := calls h hs ht
  have hold : ∀ n, g'.isNode n = true → g.isNode n = true := fun n hn => (hb.old n hn).resolve_right (NoClusterEnds.none hcl n)
  have hsub : ∀ n, g'.isSubGraph n = true → g.isSubGraph n = true := fun n hn => isWritten_sub (written_sub h hs ht ((hb.subs n).1 hn))
  have hid := written_id h ht
  have hne : ∀ n, IsWritten g n → n ≠ g.name := by
    rintro n hn rfl
    have := isWritten_sub hn
    rw [hroot] at this; cases this
  -- the edges
  have hread : (sortE g.edges.edges).map edgeRead = sortE g.edges.edges := by
    conv => rhs; rw [← List.map_id (sortE g.edges.edges)]
    apply List.map_congr_left
    intro e he
    obtain ⟨h1, h2⟩ := hnp e ((hs.perm _).mem_iff.1 he)
    cases e
    simp only at h1 h2
    subst h1 h2
    rfl
  have hsort : sortE' g'.edges.edges = sortE g.edges.edges := by
    rw [hedges, hread]
    symm
    apply sorted_canonical hs hs' (hs.perm _).symm (fun e he => (h.inv.edges.attrs e he).wf)
    intro e he k hk
    exact hv e he k hk
  have ht0 := ht
  rw [writeAst_eq h.inv] at ht
  obtain ⟨es, hes, ht⟩ := WRes.bind_eq_ok.1 ht
  obtain ⟨ss, hss, ht⟩ := WRes.bind_eq_ok.1 ht
  obtain ⟨ns, hns, ht⟩ := WRes.bind_eq_ok.1 ht
  have hstm : t.stmts = attrsAsStmts g.attrs ++ es ++ ss ++ ns := by
    cases ht
    rw [← attrStmts_eq h.inv.attrs.wf]
  have hloc : ∀ {e : Edge} {n : Str} {l : Loc}, e ∈ g.edges.edges → e.src = n ∨ e.dst = n → locOf g f n [] = .ok l →
      (∀ body, l = .sub n body → Stands t n) → locOf g' f n [] = .ok l := by
    intro e n l he hends hl hst
    have hce := NoClusterEnds.none hcl n
    unfold locOf at hl ⊢
    cases hnn : g.isNode n with
    | true =>
      have hn' := hb.ends e he n hends (.inl hnn)
      obtain ⟨nd, hf, -⟩ := (isNode_find h.inv n).1 hnn
      obtain ⟨nd', hf', -⟩ := (isNode_find h'.inv n).1 hn'
      rw [hnn, hf] at hl
      rw [hn', hf']
      exact hl
    | false =>
      have hn' : g'.isNode n = false := by
        cases hx : g'.isNode n with
        | false => rfl
        | true => rw [hold n hx] at hnn; cases hnn
      have hc : g.isClusterSubGraph n = false := by
        cases hc : g.isClusterSubGraph n with
        | false => rfl
        | true => exact absurd ⟨hnn, hc, e, he, hends⟩ hce
      rw [hnn, hc] at hl
      simp only [Bool.false_eq_true, if_false] at hl
      by_cases hsb : g.isSubGraph n = true
      · rw [if_pos hsb, if_neg (by simp)] at hl
        obtain ⟨b, hbd, hl⟩ := WRes.bind_eq_ok.1 hl
        cases hl
        have hst := hst b rfl
        have hsb' := (hb.subs n).2 hst
        have hc' : g'.isClusterSubGraph n = false := by
          unfold Graph.isClusterSubGraph at hc ⊢
          rw [hsb] at hc
          rw [hsb']
          exact hc
        rw [hn', hc', hsb', hbody n hst, hbd]
        rfl
      · rw [if_neg hsb] at hl
        cases hl
  have hedgeOf : mapW (edgeOf g' f) (sortE' g'.edges.edges) = .ok es := by
    rw [hsort, ← hes]
    apply mapW_congr
    intro e he
    obtain ⟨st, hst, he1⟩ := (mapW_ok.1 hes).mem_left he
    have he := (hs.perm _).mem_iff.1 he
    obtain ⟨src, dst, rfl, h1, h2, -⟩ := edgeOf_inner h.inv he1
    rw [he1]
    rw [(hnp e he).1] at h1
    rw [(hnp e he).2] at h2
    have hin : ∀ {n : Str} {l : Loc}, l = src ∨ l = dst → ∀ body, l = .sub n body → Stands t n := by
      rintro n l hl body rfl
      refine ⟨body, mem_allStmts.2 ⟨_, by rw [hstm]; simp only [List.mem_append]; exact .inl (.inl (.inr hst)), ?_⟩⟩
      rcases hl with rfl | rfl <;> simp [allStmt, allLoc, allRHS]
    have e1 := hloc he (.inl rfl) h1 (hin (.inl rfl))
    have e2 := hloc he (.inr rfl) h2 (hin (.inr rfl))
    rw [← he1]
    unfold edgeOf
    rw [(hnp e he).1, (hnp e he).2, e1, e2, h1, h2]
  have hnsf : ∀ s ∈ ns, ∃ id as, s = .node id as := by
    intro s hm
    obtain ⟨e, _, he⟩ := (mapW_ok.1 hns).mem_right hm
    obtain ⟨nd, _, rfl⟩ := nodeStmtOf_ok h.inv he
    exact ⟨_, _, rfl⟩
  have hwhere := fun {sc pre n body} => where_sub h hs ht0 (mapW_ok.1 hes) hss hnsf hstm (sc := sc) (pre := pre) (n := n) (body := body)
  have hchild : ∀ n, mhas (g'.relations.children g.name) n = true ↔
      (∃ m, Call.addNode g.name n m ∈ stmtsCalls ⟨t.id, [], []⟩ [] t.stmts) ∨
      ∃ m, Call.addSubGraph g.name n m ∈ stmtsCalls ⟨t.id, [], []⟩ [] t.stmts := by
    intro n
    have := heff.contains g.name n
    simpa only [abs, AGraph.empty, Bool.false_eq_true, false_or] using this
  have hsubs : rootSubsOf g' f (marksL es) (mkeys g'.subGraphs) = .ok ss := by
    rw [keys_back h.inv h'.inv hsub]
    refine rootSubs_again (seen0 := marksL es) hb.name (fun n hn => hbody n ((hb.subs n).1 hn)) _ _ _ hss (fun _ h => h) ?_ ?_
    · intro n b hin
      have hmem : Stmt.sub n b ∈ t.stmts := by rw [hstm]; simp [hin]
      refine ⟨?_, (hb.subs n).2 ⟨b, mem_allStmts_of_mem hmem⟩⟩
      rw [hchild]
      obtain ⟨pre, hocc⟩ := occurs_exists hmem
      refine .inr ⟨_, occurs_calls hocc (by simp only [stmtCalls, hid]; exact List.mem_cons_self ..) rfl⟩
    · intro n _ hn' hseen hc
      rw [hchild] at hc
      rcases hc with ⟨m, hm⟩ | ⟨m, hm⟩
      · have hnn : g.isNode n = true := by
          rcases hfine hm with ⟨nd, hf, _⟩ | ⟨_, hce, _⟩
          · cases hnn : g.isNode n with
            | true => rfl
            | false => rw [(isNode_find h.inv n).2 hnn] at hf; cases hf
          · exact absurd hce (NoClusterEnds.none hcl n)
        obtain ⟨body, hin⟩ := (hb.subs n).1 hn'
        obtain ⟨sc, pre, ho⟩ := tree_stands hin
        rcases hwhere ho with ⟨-, hc⟩ | hmk | ⟨-, hx⟩
        · exact hc
        · exact absurd hmk hseen
        · rw [hnn] at hx; cases hx
      · obtain ⟨sc, pre, body, hsc, ho⟩ := call_where hm
        rcases hwhere ho with ⟨-, hc⟩ | hmk | ⟨hw, -⟩
        · exact hc
        · exact absurd hmk hseen
        · exact absurd hsc (hne _ hw)
  have hat : ∀ n, n ∈ mkeys g.nodes.lookup → n ∉ marksL es ++ marksL ss → (g.nodes.find n).map Node.attrs = (g'.nodes.find n).map Node.attrs := by
    intro n hn hmk
    obtain ⟨s, hsn, he⟩ := (mapW_ok.1 hns).mem_left (List.mem_filter.2 ⟨hn, by simpa using hmk⟩)
    obtain ⟨nd, hf, rfl⟩ := nodeStmtOf_ok h.inv he
    have hm : Stmt.node ⟨n, ⟨[], []⟩⟩ (attrsAsList nd.attrs) ∈ t.stmts := by rw [hstm]; simp [hsn]
    exact hb.node n _ (mem_allStmts_of_mem hm) (NoClusterEnds.none hcl n)
  rw [writeAst_eq h'.inv, hedgeOf]
  simp only [WRes.bind_ok]
  rw [hsubs]
  simp only [WRes.bind_ok]
  have hkeys : (mkeys g'.nodes.lookup).filter (fun n => !decide (n ∈ marksL es ++ marksL ss)) =
      (mkeys g.nodes.lookup).filter fun n => !decide (n ∈ marksL es ++ marksL ss) := by
    apply sasc_perm_eq (List.Pairwise.filter _ h'.inv.nodes.wf.sorted) (List.Pairwise.filter _ h.inv.nodes.wf.sorted)
    refine (List.perm_ext_iff_of_nodup (h'.inv.nodes.wf.nodup.filter _) (h.inv.nodes.wf.nodup.filter _)).2 fun n => ?_
    simp only [List.mem_filter, Bool.not_eq_true', decide_eq_false_iff_not]
    refine and_congr_left fun hn => ?_
    rw [← mhas_iff, ← mhas_iff]
    refine ⟨hold n, fun hx => ?_⟩
    have e := isNode_back_at h.inv h'.inv (hat n ((mhas_iff _ _).1 hx) hn)
    unfold Graph.isNode at e
    rw [e]
    exact hx
  have hnode : mapW (nodeStmtOf g') ((mkeys g.nodes.lookup).filter fun n => !decide (n ∈ marksL es ++ marksL ss)) =
      mapW (nodeStmtOf g) ((mkeys g.nodes.lookup).filter fun n => !decide (n ∈ marksL es ++ marksL ss)) := by
    apply mapW_congr
    intro c hc
    simp only [List.mem_filter, Bool.not_eq_true', decide_eq_false_iff_not] at hc
    unfold nodeStmtOf
    rw [find_eq_at h.inv h'.inv (hat c hc.1 hc.2)]
  rw [hkeys, hnode, hns]
  simp only [WRes.bind_ok]
  rw [hb.directed, hb.strict, hb.name, hb.attrs]
  exact ht

/-- After one formatting there are no ports and no clusters at the ends of edges. -/
theorem first (h : Good g) {sortE : List Edge → List Edge} (hs : SortContract sortE) {f : Nat} (ht : writeAst sortE f g = .ok t)
    (hg' : newAnalysedGraph t = .ok g') : NoPorts g' ∧ NoClusterEnds g' := by
  obtain ⟨hr, hv⟩ := h.valid
  have hb := back hr h.root hs ht hg'
  have he := edges_back hr (ValidGraph.plain hv) hs ht hg'
  constructor
  · intro e' he'
    rw [he] at he'
    obtain ⟨e, hem, rfl⟩ := List.mem_map.1 he'
    have key : ∀ {p : Str}, (p = [] ∨ ∃ r, p = 58 :: r) → portRead p = [] := by rintro p (rfl | ⟨r, rfl⟩) <;> rfl
    obtain ⟨t0, -, hg⟩ := h.made
    obtain ⟨h1, h2⟩ := C38_port_stored_partial hg e ((hs.perm _).mem_iff.1 hem)
    exact ⟨key h1, key h2⟩
  · intro e' he'
    rw [he] at he'
    obtain ⟨e, hem, rfl⟩ := List.mem_map.1 he'
    have hem := (hs.perm _).mem_iff.1 hem
    have key : ∀ n, e.src = n ∨ e.dst = n → g'.isNode n = true ∨ g'.isClusterSubGraph n = false := by
      intro n hends
      by_cases hx : g.isNode n = true ∨ g.isClusterSubGraph n = true
      · exact .inl (hb.ends e hem n hends hx)
      · right
        have hc : g.isClusterSubGraph n = false := by simpa using fun h => hx (.inr h)
        cases hy : g'.isSubGraph n with
        | false => unfold Graph.isClusterSubGraph; rw [hy]; rfl
        | true =>
          unfold Graph.isClusterSubGraph at hc ⊢
          rw [isWritten_sub (written_sub hr hs ht ((hb.subs n).1 hy))] at hc
          rw [hy]
          exact hc
    exact ⟨key e.src (.inl rfl), key e.dst (.inr rfl)⟩

end Stable

open Stable Again ClusterFormat

/-- C37. Writing, reading and writing again gives the same text, whatever names are used for both nodes and subgraphs, if no subgraph is called like the graph and no edge has a port or ends at a
cluster. -/
theorem C37_same_text_names {g : Graph} (h : Reachable g) (hv : ValidGraph g) (hroot : g.isSubGraph g.name = false) (hcl : NoClusterEnds g) (hnp : NoPorts g)
    {sortE sortE' : List Edge → List Edge} (hs : SortContract sortE) (hs' : SortContract sortE') {f : Nat} {t : Ast.Graph}
    (ht : writeAst sortE f g = .ok t) (rnd : Nat → Nat) (cnt : Nat) :
    ∃ text g', graphString sortE f g = .ok text ∧ Parse.read rnd cnt text = .ok g' ∧ graphString sortE' f g' = .ok text := by
  obtain ⟨g', hg'⟩ := written_analysed h hs ht
  refine ⟨Ast.graphStr t, g', by unfold graphString; rw [ht], ?_, ?_⟩
  · rw [read_print (written_printable h hv hs ht), hg']
  · unfold graphString
    rw [write_again h (ValidGraph.noEmpty hv) hroot hcl hnp hs ht hg' hs']

/-- C60 (partial). Formatting is idempotent for every text in which no edge has a port or ends at a cluster and no subgraph is called like the graph, if it can be formatted at all: nodes and
subgraphs may have the same names. -/
theorem C60_names_partial {rnd : Nat → Nat} {cnt : Nat} {src : Str} {t : Ast.Graph} {n : Nat} (hparse : parseBytes rnd cnt src = .ok t n)
    (htrim : ∀ s ∈ idents t, trimSpace s = s) {g : Graph} (hread : Parse.read rnd cnt src = .ok g) (hroot : g.isSubGraph g.name = false)
    (hnp : NoPorts g) (hcl : NoClusterEnds g) {sortE sortE' : List Edge → List Edge} (hs : SortContract sortE) (hs' : SortContract sortE')
    {f : Nat} {t' : Ast.Graph} (hw : writeAst sortE f g = .ok t') (rnd' : Nat → Nat) (cnt' : Nat) :
    ∃ text g', graphString sortE f g = .ok text ∧ Parse.read rnd' cnt' text = .ok g' ∧ graphString sortE' f g' = .ok text := by
  have hp := C36_parsed_printable rnd cnt src hparse htrim
  obtain ⟨t1, n1, hp1, hg⟩ := read_analysed hread
  rw [hparse] at hp1
  cases hp1
  have hgood : Good g := ⟨⟨_, hp, hg⟩, fun n hn => analysed_sub_trim hg htrim hn, hroot⟩
  exact C37_same_text_names hgood.valid.1 hgood.valid.2 hroot hcl hnp hs hs' hw rnd' cnt'

/-- C60 (partial). Every text that can be formatted, and in which no subgraph is called like the graph, is formatted to the same text from the second time on and for ever: with ports, clusters at
the ends of edges, and names used for both nodes and subgraphs. The sorting algorithms and the generated names may differ each time. `texts (i + 1)` is what formatting `texts i` gives, and from
`texts 2` on nothing changes. -/
theorem C60_stable_partial {rnd : Nat → Nat → Nat} {cnt : Nat → Nat} {src : Str} {t : Ast.Graph} {n : Nat} (hparse : parseBytes (rnd 0) (cnt 0) src = .ok t n)
    (htrim : ∀ s ∈ idents t, trimSpace s = s) {g : Graph} (hread : Parse.read (rnd 0) (cnt 0) src = .ok g) (hroot : g.isSubGraph g.name = false)
    {sortE : Nat → List Edge → List Edge} (hs : ∀ i, SortContract (sortE i)) {f : Nat} {t' : Ast.Graph} (hw : writeAst (sortE 0) f g = .ok t') :
    ∃ texts : Nat → Str, texts 0 = src ∧
      (∀ i, ∃ gi fi, Parse.read (rnd i) (cnt i) (texts i) = .ok gi ∧ ∀ f, fi ≤ f → graphString (sortE i) f gi = .ok (texts (i + 1))) ∧
      ∀ i, texts (i + 2) = texts 2 := by
  have hp := C36_parsed_printable (rnd 0) (cnt 0) src hparse htrim
  obtain ⟨t1, n1, hp1, hg⟩ := read_analysed hread
  rw [hparse] at hp1
  cases hp1
  have hgood : Good g := ⟨⟨_, hp, hg⟩, fun n hn => analysed_sub_trim hg htrim hn, hroot⟩
  -- the first time
  obtain ⟨g1, hgood1, hread1, hw1⟩ := hgood.next (hs 0) hw
  obtain ⟨x, hg1⟩ := written_analysed hgood.valid.1 (hs 0) hw
  obtain rfl : x = g1 := by
    have := read_print (written_printable hgood.valid.1 hgood.valid.2 (hs 0) hw) (rnd 0) (cnt 0)
    rw [hg1, hread1] at this
    injection this with h; exact h.symm
  obtain ⟨hnp1, hcl1⟩ := first hgood (hs 0) hw hg1
  -- the second time
  obtain ⟨t2, hw1⟩ := hw1 _ (hs 1)
  have hw2 := hw1 _ (Nat.lt_succ_self _)
  obtain ⟨g2, hg2⟩ := written_analysed hgood1.valid.1 (hs 1) hw2
  have hread2 := fun r c => read_print (written_printable hgood1.valid.1 hgood1.valid.2 (hs 1) hw2) r c
  rw [hg2] at hread2
  have hw3 := fun i => write_again hgood1.valid.1 (ValidGraph.noEmpty hgood1.valid.2) hgood1.root hcl1 hnp1 (hs 1) hw2 hg2 (hs i)
  have hr2 := (analysed_effect hg2).1
  refine ⟨fun i => match i with | 0 => src | 1 => Ast.graphStr t' | _ + 2 => Ast.graphStr t2, rfl, fun i => ?_, fun _ => rfl⟩
  match i with
  | 0 =>
    refine ⟨g, f, hread, fun f' hf => ?_⟩
    unfold graphString
    rw [writeAst_mono hgood.valid.1.inv (by rw [hw]; simp) hf, hw]
  | 1 =>
    refine ⟨x, x.subGraphs.length + 1, hread1 _ _, fun f' hf => ?_⟩
    unfold graphString
    rw [hw1 f' hf]
  | i + 2 =>
    refine ⟨g2, x.subGraphs.length + 1, hread2 _ _, fun f' hf => ?_⟩
    unfold graphString
    rw [writeAst_mono hr2.inv (by rw [hw3]; simp) hf, hw3]

/-! ### concrete cases -/

/-- A test for the witnesses below. -/
def stableB (P : Graph → Bool) (s : Str) : Bool :=
  match parseBytes (fun k => k) 0 s with
  | .ok t _ => (idents t).all (fun s => decide (trimSpace s = s)) &&
    match newAnalysedGraph t with
    | .ok g => !g.isSubGraph g.name && P g && match writeAst edgeInsertionSort 5 g with
        | .ok _ => true
        | _ => false
    | _ => false
  | _ => false

theorem stableB_ok {P : Graph → Bool} {src : Str} (h : stableB P src = true) : ∃ t n g t', parseBytes (fun k => k) 0 src = .ok t n ∧ (∀ s ∈ idents t, trimSpace s = s) ∧
    Parse.read (fun k => k) 0 src = .ok g ∧ g.isSubGraph g.name = false ∧ writeAst edgeInsertionSort 5 g = .ok t' ∧ P g = true := by
  unfold stableB at h
  split at h
  · rename_i t n hp
    split at h
    · rename_i g hg
      simp only [Bool.and_eq_true, Bool.not_eq_true'] at h
      obtain ⟨h1, ⟨h2, h3⟩, h4⟩ := h
      split at h4
      · rename_i t' ht'
        refine ⟨t, n, g, t', hp, fun s hs => of_decide_eq_true (List.all_eq_true.1 h1 s hs), ?_, h2, ht', h3⟩
        unfold Parse.read
        rw [hp]
        simp only [hg]
      · cases h4
    · simp at h
  · cases h

/-- A node `y` that is also a subgraph, and the end of an edge; the subgraph is nested in another one, which also contains the node. -/
def namesSample : Str := b!"digraph G { y [color=red]; y -> a; subgraph S { subgraph y { b } z; } subgraph z { c } z -> subgraph T { d } }"

/-- The hypotheses of `C60_names_partial` are met by a text with names that are not settled (`NamesSettled`), which loses data the first time. -/
theorem example_names : ∃ t n g t', parseBytes (fun k => k) 0 namesSample = .ok t n ∧ (∀ s ∈ idents t, trimSpace s = s) ∧
    Parse.read (fun k => k) 0 namesSample = .ok g ∧ g.isSubGraph g.name = false ∧ NoPorts g ∧ NoClusterEnds g ∧ ¬ NamesSettled g ∧ writeAst edgeInsertionSort 5 g = .ok t' := by
  obtain ⟨t, n, g, t', h1, h2, h3, k1, ht', h4⟩ := stableB_ok (P := fun g => decide (NoPorts g) && decide (NoClusterEnds g) &&
    g.isNode (b!"y") && g.isSubGraph (b!"y") && mhas (g.relations.children (b!"S")) (b!"y") && !decide (b!"S" = g.name)) (src := namesSample) (by decide +kernel)
  simp only [Bool.and_eq_true, Bool.not_eq_true', decide_eq_true_eq, decide_eq_false_iff_not] at h4
  obtain ⟨⟨⟨⟨⟨k2, k3⟩, k4⟩, k5⟩, k6⟩, k7⟩ := h4
  exact ⟨t, n, g, t', h1, h2, h3, k1, k2, k3, fun hn => k7 (((hn.twice _ k4 k5).2 _).1 k6), ht'⟩

/-- `C60_cluster_lost` is about a text that meets the hypotheses of `C60_stable_partial`: what is lost is lost the first two times. -/
theorem example_stable : ∃ t n g t', parseBytes (fun k => k) 0 (b!"digraph G { subgraph S { subgraph cluster_x { b } } a:p -> subgraph cluster_x {} }") = .ok t n ∧
    (∀ s ∈ idents t, trimSpace s = s) ∧
    Parse.read (fun k => k) 0 (b!"digraph G { subgraph S { subgraph cluster_x { b } } a:p -> subgraph cluster_x {} }") = .ok g ∧ g.isSubGraph g.name = false ∧
    ¬ NoPorts g ∧ ¬ NoClusterEnds g ∧ writeAst edgeInsertionSort 5 g = .ok t' := by
  obtain ⟨t, n, g, t', h1, h2, h3, k1, ht', h4⟩ := stableB_ok (P := fun g => !decide (NoPorts g) && !decide (NoClusterEnds g))
    (src := b!"digraph G { subgraph S { subgraph cluster_x { b } } a:p -> subgraph cluster_x {} }") (by decide +kernel)
  simp only [Bool.and_eq_true, Bool.not_eq_true', decide_eq_false_iff_not] at h4
  exact ⟨t, n, g, t', h1, h2, h3, k1, h4.1, h4.2, ht'⟩

end Gographviz.Props
