import Verif.Props.FormatProps
import Verif.Props.MakeableProps
/-!
C60: formatting is idempotent also with clusters at the ends of edges.
-/
namespace Gographviz.Props

open Gographviz Spec Parse
open Gographviz.Ast (Stmt Loc EdgeRH)

namespace ClusterFormat

/-! ### the names of subgraphs are among the identifiers -/

mutual
theorem stmt_idents {id : Str} {body : List Stmt} : (s : Stmt) → Stmt.sub id body ∈ allStmt s → id ∈ identsStmt s
  | .edge src rhs as, h => by
    simp only [allStmt, List.mem_cons, reduceCtorEq, List.mem_append, false_or] at h
    simp only [identsStmt, List.mem_append]
    rcases h with h | h
    · exact .inl (.inl (loc_idents src h))
    · exact .inl (.inr (rhs_idents rhs h))
  | .sub id' body', h => by
    simp only [allStmt, List.mem_cons, Stmt.sub.injEq] at h
    simp only [identsStmt, List.mem_cons]
    rcases h with ⟨rfl, -⟩ | h
    · exact .inl rfl
    · exact .inr (stmts_idents body' h)
  | .node .., h => by simp [allStmt] at h
  | .nodeAttrs _, h => by simp [allStmt] at h
  | .edgeAttrs _, h => by simp [allStmt] at h
  | .graphAttrs _, h => by simp [allStmt] at h
  | .attr _, h => by simp [allStmt] at h
theorem loc_idents {id : Str} {body : List Stmt} : (l : Loc) → Stmt.sub id body ∈ allLoc l → id ∈ identsLoc l
  | .node _, h => by simp [allLoc] at h
  | .sub id' body', h => by
    simp only [allLoc, List.mem_cons, Stmt.sub.injEq] at h
    simp only [identsLoc, List.mem_cons]
    rcases h with ⟨rfl, -⟩ | h
    · exact .inl rfl
    · exact .inr (stmts_idents body' h)
theorem rhs_idents {id : Str} {body : List Stmt} : (rhs : List EdgeRH) → Stmt.sub id body ∈ allRHS rhs → id ∈ identsRHS rhs
  | [], h => by simp [allRHS] at h
  | .mk _ dst :: rest, h => by
    simp only [allRHS, List.mem_append] at h
    simp only [identsRHS, List.mem_append]
    exact h.imp (loc_idents dst) (rhs_idents rest)
theorem stmts_idents {id : Str} {body : List Stmt} : (ss : List Stmt) → Stmt.sub id body ∈ allStmts ss → id ∈ identsStmts ss
  | [], h => by simp [allStmts] at h
  | s :: ss, h => by
    simp only [allStmts, List.mem_append] at h
    simp only [identsStmts, List.mem_append]
    exact h.imp (stmt_idents s) (stmts_idents ss)
end

theorem created_not_sub {sc : Scope} {pre : List Stmt} {seen : List Str} {l : Loc} {p n : Str} {m : Map Str} : Call.addSubGraph p n m ∉ createCall sc pre seen l := by
  intro hx
  cases l with
  | sub => cases hx
  | node n => simp only [createCall] at hx; split at hx <;> simp at hx

theorem chain_not_sub {sc : Scope} {pre : List Stmt} {p n : Str} {m : Map Str} : ∀ (rhs : List EdgeRH) seen prev attrs, Call.addSubGraph p n m ∉ chainCalls sc pre attrs seen prev rhs
  | [], seen, prev, attrs, hx => by simp [chainCalls] at hx
  | .mk op d :: rest, seen, prev, attrs, hx => by
    simp only [chainCalls, List.mem_append, List.mem_singleton, reduceCtorEq, or_false] at hx
    rcases hx with hx | hx
    · exact created_not_sub hx
    · exact chain_not_sub rest _ _ _ hx

/-- Every subgraph call of a document names a subgraph of the document. -/
theorem sub_call_ident {t : Ast.Graph} {p n : Str} {m : Map Str} (hx : Call.addSubGraph p n m ∈ treeCalls t) : n ∈ idents t := by
  simp only [treeCalls, List.mem_append, List.mem_cons, List.not_mem_nil, or_false, reduceCtorEq, false_or] at hx
  obtain ⟨sc, pre, s, ho, hown⟩ := treeCalls_origin hx
  have hmem := occurs_mem ho
  refine List.mem_cons_of_mem _ ?_
  cases s with
  | edge src rhs as =>
    rcases hown with h | h | ⟨id, body, hl, h⟩
    · exact absurd h created_not_sub
    · exact absurd h (chain_not_sub _ _ _ _)
    · injection h with _ h2 _
      subst h2
      have h1 : Stmt.sub n body ∈ allStmt (.edge src rhs as) := by
        simp only [allStmt, List.mem_cons, reduceCtorEq, false_or, List.mem_append]
        rcases List.mem_cons.1 hl with rfl | hl
        · left; simp [allLoc]
        · right; exact allLoc_mem hl _ (by simp [allLoc])
      exact stmts_idents _ (allStmts_trans t.stmts hmem h1)
  | sub id body =>
    simp only [OwnCall, Call.addSubGraph.injEq] at hown
    rw [hown.2.1]
    exact stmts_idents _ hmem
  | node id as => simp [OwnCall, stmtCalls] at hown
  | nodeAttrs as => simp [OwnCall, stmtCalls] at hown
  | edgeAttrs as => simp [OwnCall, stmtCalls] at hown
  | graphAttrs as => simp [OwnCall, stmtCalls] at hown
  | attr as => simp [OwnCall, stmtCalls] at hown

theorem analysed_sub_trim {t : Ast.Graph} {g : Graph} (h : newAnalysedGraph t = .ok g) (htrim : ∀ s ∈ idents t, trimSpace s = s) {n : Str}
    (hn : g.isSubGraph n = true) : trimSpace n = n := by
  obtain ⟨he, hok⟩ := analysed_run h
  obtain ⟨-, -, -, -, h5, -⟩ := C56_provenance _ hok
  rw [← he] at h5
  obtain ⟨p, kvs, hm⟩ := h5 n hn
  obtain ⟨x, hx, e⟩ := List.mem_map.1 hm
  cases x <;> cases e
  exact htrim n (sub_call_ident hx)

/-! ### the same graph without the nodes whose names are subgraphs -/

/-- `g0` is `g` without those nodes. -/
structure Settled (g g0 : Graph) : Prop where
  reach : Reachable g0
  name : g0.name = g.name
  directed : g0.directed = g.directed
  strict : g0.strict = g.strict
  attrs : g0.attrs = g.attrs
  subs : g0.subGraphs = g.subGraphs
  edges : g0.edges.edges = g.edges.edges
  children : ∀ p, g0.relations.children p = g.relations.children p
  gone : ∀ n, g.isSubGraph n = true → g0.nodes.find n = none
  kept : ∀ n, g.isSubGraph n = false → g0.nodes.find n = g.nodes.find n

theorem settled_exists {g : Graph} (h : Reachable g) : ∃ g0, Settled g g0 := by
  obtain ⟨g0, hr, ha⟩ := makeable_made (a := { abs g with node := fun n => if g.isSubGraph n then none else (abs g).node n }) (by
    have hs := Make.storable h.inv
    refine ⟨⟨hs.attrs, ?_, ?_, hs.subs, hs.subAttrs, hs.edges, hs.contains⟩, ?_⟩
    · obtain ⟨ns, hns⟩ := hs.nodes
      refine ⟨ns, fun n hn => hns n fun h0 => hn ?_⟩
      simp only [h0, ite_self]
    · intro n m hm
      simp only at hm
      split at hm
      · cases hm
      · exact hs.nodeAttrs n m hm
    · intro n hn hsub
      simp only at hn hsub
      split at hn
      · exact absurd rfl hn
      · rename_i hx
        exfalso
        apply hx
        unfold Graph.isSubGraph mhas
        cases hm : mget g.subGraphs n with
        | none => simp [abs, hm] at hsub
        | some s => rfl)
  have hi1 : GInv { g with nodes := g0.nodes } := ⟨hr.inv.nodes, h.inv.edges, h.inv.rels, h.inv.subs, h.inv.attrs⟩
  have hab : abs g0 = abs { g with nodes := g0.nodes } := by
    have : (abs { g with nodes := g0.nodes }) = { abs g with node := (abs g0).node } := rfl
    rw [this]
    conv => rhs; rw [ha]
    exact ha
  have hw := SameContent.wsame hr.inv hi1 (Make.same hr.inv hi1 hab)
  have hnode : ∀ n, ((g0.nodes.find n).map fun nd => mget nd.attrs) = if g.isSubGraph n then none else (g.nodes.find n).map fun nd => mget nd.attrs :=
    fun n => congrFun (congrArg AGraph.node ha) n
  refine ⟨g0, hr, hw.name, hw.directed, hw.strict, hw.attrs, hw.subs, Make.edges_eq (g' := { g with nodes := g0.nodes }) hr.inv hi1 hab, hw.children, ?_, ?_⟩
  · intro n hn
    have := hnode n
    rw [if_pos hn] at this
    cases hf : g0.nodes.find n with
    | none => rfl
    | some nd => rw [hf] at this; cases this
  · intro n hn
    have := hnode n
    rw [if_neg (by simp [hn])] at this
    refine find_eq_at h.inv hr.inv ?_
    cases hf : g0.nodes.find n with
    | none =>
      rw [hf] at this
      cases hf' : g.nodes.find n with
      | none => rfl
      | some nd => rw [hf'] at this; cases this
    | some nd =>
      rw [hf] at this
      cases hf' : g.nodes.find n with
      | none => rw [hf'] at this; cases this
      | some nd' =>
        rw [hf'] at this
        simp only [Option.map_some, Option.some.injEq] at this ⊢
        exact (Map.ext (hr.inv.nodes.find_name hf).2.wf (h.inv.nodes.find_name hf').2.wf fun k => congrFun this k).symm

theorem _root_.Gographviz.Spec.NoPorts.nodePorts {g : Graph} (h : NoPorts g) : NodePorts g := fun e he => ⟨fun _ => (h e he).1, fun _ => (h e he).2⟩

theorem Settled.isSub {g g0 : Graph} (h : Settled g g0) (n : Str) : g0.isSubGraph n = g.isSubGraph n := by unfold Graph.isSubGraph; rw [h.subs]

theorem Settled.isCluster {g g0 : Graph} (h : Settled g g0) (n : Str) : g0.isClusterSubGraph n = g.isClusterSubGraph n := by
  unfold Graph.isClusterSubGraph; rw [h.isSub]

theorem Settled.isNode {g g0 : Graph} (h : Settled g g0) (hr : Reachable g) (n : Str) : g0.isNode n = (g.isNode n && !g.isSubGraph n) := by
  have none_of : ∀ {x : Graph}, GInv x → x.nodes.find n = none → x.isNode n = false := by
    intro x hx hf
    cases hn : x.isNode n with
    | false => rfl
    | true =>
      obtain ⟨nd, hf', -⟩ := (isNode_find hx n).1 hn
      rw [hf] at hf'; cases hf'
  cases hs : g.isSubGraph n with
  | true =>
    rw [none_of h.reach.inv (h.gone n hs)]
    simp
  | false =>
    have hk := h.kept n hs
    cases hn : g.isNode n with
    | false => rw [none_of h.reach.inv (hk.trans ((isNode_find hr.inv n).2 hn))]; rfl
    | true =>
      cases hn0 : g0.isNode n with
      | true => rfl
      | false =>
        obtain ⟨nd, hf, -⟩ := (isNode_find hr.inv n).1 hn
        rw [hk.symm.trans ((isNode_find h.reach.inv n).2 hn0)] at hf
        cases hf

theorem Settled.subBody {g g0 : Graph} (h : Settled g g0) (hr : Reachable g) (hns : NamesSettled g) : ∀ (f : Nat) (n : Str),
    Gographviz.subBody g0 f n = Gographviz.subBody g f n
  | 0, _ => rfl
  | f + 1, n => by
    simp only [Gographviz.subBody]
    rw [h.subs]
    cases hm : mget g.subGraphs n with
    | none => rfl
    | some sub =>
      simp only
      have hsub : g.isSubGraph n = true := by unfold Graph.isSubGraph mhas; rw [hm]; rfl
      have hsc : g0.relations.sortedChildren n = g.relations.sortedChildren n := by unfold Relations.sortedChildren; rw [h.children]
      rw [hsc, mapW_congr (G := childOf g (Gographviz.subBody g f))]
      intro c hc
      have hch : mhas (g.relations.children n) c = true := mem_sortedChildren.1 hc
      unfold childOf nodeStmtOf
      rw [h.isNode hr, h.isSub, Settled.subBody h hr hns f c]
      cases hs : g.isSubGraph c with
      | false => rw [h.kept c hs]; simp
      | true =>
        cases hnc : g.isNode c with
        | false => simp
        | true =>
          exfalso
          have := ((hns.twice c hnc hs).2 n).1 hch
          rw [this, hns.root] at hsub
          cases hsub

theorem Settled.locOf {g g0 : Graph} (h : Settled g g0) (hr : Reachable g) (hns : NamesSettled g) (f : Nat) {n : Str}
    (he : ∃ e ∈ g.edges.edges, e.src = n ∨ e.dst = n) {p : Str} (hp : g.isSubGraph n = true → p = []) : Gographviz.locOf g0 f n p = Gographviz.locOf g f n p := by
  unfold Gographviz.locOf
  rw [h.isNode hr, h.isCluster, h.isSub, h.subBody hr hns]
  cases hs : g.isSubGraph n with
  | false => rw [h.kept n hs]; simp
  | true =>
    cases hnc : g.isNode n with
    | false => simp
    | true =>
      obtain rfl := hp hs
      have hc := (hns.twice n hnc hs).1.resolve_right (fun hx => hx he)
      obtain ⟨nd, hf, -⟩ := (isNode_find hr.inv n).1 hnc
      rw [hc, hf]
      simp

theorem Settled.rootSubsOf {g g0 : Graph} (h : Settled g g0) (hr : Reachable g) (hns : NamesSettled g) (f : Nat) : ∀ (ns seen : List Str),
    Gographviz.rootSubsOf g0 f seen ns = Gographviz.rootSubsOf g f seen ns
  | [], _ => rfl
  | n :: ns, seen => by
    simp only [Gographviz.rootSubsOf]
    rw [h.children, h.name, h.subBody hr hns]
    simp only [Settled.rootSubsOf h hr hns f ns]

/-- Both are written the same. -/
theorem Settled.writeAst {g g0 : Graph} (h : Settled g g0) (hr : Reachable g) (hns : NamesSettled g) (hnp : NodePorts g) {sortE : List Edge → List Edge}
    (hs : SortContract sortE) (f : Nat) : Gographviz.writeAst sortE f g0 = Gographviz.writeAst sortE f g := by
  rw [writeAst_eq hr.inv, writeAst_eq h.reach.inv, h.edges]
  have he : mapW (edgeOf g0 f) (sortE g.edges.edges) = mapW (edgeOf g f) (sortE g.edges.edges) := by
    refine mapW_congr fun e he => ?_
    have he := (hs.perm _).mem_iff.1 he
    unfold edgeOf
    rw [h.locOf hr hns f ⟨e, he, .inl rfl⟩ (hnp e he).1, h.locOf hr hns f ⟨e, he, .inr rfl⟩ (hnp e he).2]
  rw [he]
  cases hes : mapW (edgeOf g f) (sortE g.edges.edges) with
  | ok es =>
    simp only [WRes.bind_ok]
    rw [h.subs, h.rootSubsOf hr hns]
    cases hss : Gographviz.rootSubsOf g f (marksL es) (mkeys g.subGraphs) with
    | ok ss =>
      simp only [WRes.bind_ok]
      have hmark : ∀ n, g.isNode n = true → g.isSubGraph n = true → n ∈ marksL es ++ marksL ss := fun n hn hsub => by
        rw [List.mem_append]
        exact (rootSubsOf_ok hss).2 n ((mhas_iff _ _).1 hsub) (((hns.twice n hn hsub).2 g.name).2 rfl)
      have hkeys : (mkeys g0.nodes.lookup).filter (fun n => !decide (n ∈ marksL es ++ marksL ss)) =
          (mkeys g.nodes.lookup).filter fun n => !decide (n ∈ marksL es ++ marksL ss) := by
        apply sasc_perm_eq (List.Pairwise.filter _ h.reach.inv.nodes.wf.sorted) (List.Pairwise.filter _ hr.inv.nodes.wf.sorted)
        refine (List.perm_ext_iff_of_nodup (h.reach.inv.nodes.wf.nodup.filter _) (hr.inv.nodes.wf.nodup.filter _)).2 fun n => ?_
        simp only [List.mem_filter, Bool.not_eq_true', decide_eq_false_iff_not]
        refine and_congr_left fun hn => ?_
        rw [← mhas_iff, ← mhas_iff]
        have e := h.isNode hr n
        unfold Graph.isNode at e
        rw [e]
        cases hnode : mhas g.nodes.lookup n with
        | false => simp
        | true =>
          cases hsub : g.isSubGraph n with
          | false => simp
          | true => exact absurd (hmark n hnode hsub) hn
      have hnode : mapW (nodeStmtOf g0) ((mkeys g.nodes.lookup).filter fun n => !decide (n ∈ marksL es ++ marksL ss)) =
          mapW (nodeStmtOf g) ((mkeys g.nodes.lookup).filter fun n => !decide (n ∈ marksL es ++ marksL ss)) := by
        apply mapW_congr
        intro c hc
        simp only [List.mem_filter, Bool.not_eq_true', decide_eq_false_iff_not] at hc
        unfold nodeStmtOf
        rw [h.kept c]
        cases hsub : g.isSubGraph c with
        | false => rfl
        | true => exact absurd (hmark c ((mhas_iff _ _).2 hc.1) hsub) hc.2
      rw [hkeys, hnode, h.directed, h.strict, h.name, h.attrs]
    | err e => rfl
    | panic => rfl
    | diverge => rfl
  | err e => rfl
  | panic => rfl
  | diverge => rfl

theorem Settled.namesApart {g g0 : Graph} (h : Settled g g0) (hr : Reachable g) (hns : NamesSettled g) : NamesApart g0 := by
  refine ⟨?_, ?_⟩
  · rintro n ⟨h1, h2⟩
    rw [h.isNode hr] at h1
    rw [h.isSub] at h2
    simp [h2] at h1
  · rw [h.isSub, h.name]; exact hns.root

theorem Settled.ends {g g0 : Graph} (h : Settled g g0) (hr : Reachable g) {n : Str} (hc : ClusterEnd g0 n) : g.isClusterSubGraph n = true ∧
    (∃ e ∈ g.edges.edges, e.src = n ∨ e.dst = n) ∧ (ClusterEnd g n ∨ g.isNode n = true ∧ g.isSubGraph n = true) := by
  obtain ⟨-, h2, h3⟩ := hc
  rw [h.isCluster] at h2
  rw [h.edges] at h3
  refine ⟨h2, h3, ?_⟩
  cases hn : g.isNode n with
  | false => exact .inl ⟨hn, h2, h3⟩
  | true =>
    unfold Graph.isClusterSubGraph at h2
    simp only [Bool.and_eq_true] at h2
    exact .inr ⟨rfl, h2.1⟩

theorem Settled.rootClusters {g g0 : Graph} (h : Settled g g0) (hr : Reachable g) (hns : NamesSettled g) : RootClusters g0 := by
  intro n hc p
  rw [h.children, h.name]
  obtain ⟨-, -, hc | ⟨h1, h2⟩⟩ := h.ends hr hc
  · exact hns.ends n hc p
  · exact (hns.twice n h1 h2).2 p

theorem Settled.valid {g g0 : Graph} (h : Settled g g0) (hr : Reachable g) (hv : ValidGraph g) : ValidGraph g0 := by
  have hf : ∀ {n nd}, g0.nodes.find n = some nd → g.nodes.find n = some nd := by
    intro n nd hn
    cases hs : g.isSubGraph n with
    | true => rw [h.gone n hs] at hn; cases hn
    | false => rw [h.kept n hs] at hn; exact hn
  refine ⟨h.name ▸ hv.name, h.attrs ▸ hv.attrs, fun n nd hn => hv.nodes n nd (hf hn), fun n s hn => hv.subs n s (h.subs ▸ hn), ?_, ?_, h.edges ▸ hv.edges⟩
  · intro n hc
    obtain ⟨h1, h2, hc | ⟨h3, -⟩⟩ := h.ends hr hc
    · exact hv.ends n hc
    · exact hv.nodeEnds n h3 h2
  · intro n hn he
    rw [h.isNode hr] at hn
    simp only [Bool.and_eq_true] at hn
    exact hv.nodeEnds n hn.1 (h.edges ▸ he)

theorem Settled.string {g g0 : Graph} (h : Settled g g0) (hr : Reachable g) (hns : NamesSettled g) (hnp : NodePorts g) {sortE : List Edge → List Edge}
    (hs : SortContract sortE) (f : Nat) : graphString sortE f g0 = graphString sortE f g := by
  unfold graphString; rw [h.writeAst hr hns hnp hs]

/-! ### the graph read back -/

/-- The graph read back is settled. -/
theorem settled_back {g : Graph} (h : Reachable g) (hna : NamesApart g) (hcl : RootClusters g) {sortE : List Edge → List Edge} (hs : SortContract sortE) {f : Nat}
    {t : Ast.Graph} (ht : Gographviz.writeAst sortE f g = .ok t) {g' : Graph} (hg' : newAnalysedGraph t = .ok g') (hr' : Reachable g') (hb : ReadBack g g') : NamesSettled g' := by
  obtain ⟨_, _, _, _, heff⟩ := analysed_effect hg'
  have hfine := fun {x} (hx : x ∈ stmtsCalls ⟨t.id, [], []⟩ [] t.stmts) => written_fine h hs ht hx
  have hcompl := written_complete h hna hs ht
  have hsub : ∀ n, g'.isSubGraph n = true → g.isSubGraph n = true := fun n h => isWritten_sub ((hb.subs n).1 h)
  have hroot : ∀ {n}, IsWritten g n → n ≠ g.name := by
    rintro n hn rfl
    have := isWritten_sub hn
    rw [hna.root] at this; cases this
  have hce : ∀ n, g'.isNode n = true → g'.isSubGraph n = true → ClusterEnd g n := by
    intro n h1 h2
    refine Classical.byContradiction fun hc => ?_
    rw [isNode_back_at h.inv hr'.inv (hb.nodes n hc)] at h1
    exact hna.disjoint n ⟨h1, hsub n h2⟩
  refine ⟨?_, ?_, ?_⟩
  · cases hc : g'.isSubGraph g'.name with
    | false => rfl
    | true =>
      have := hsub _ hc
      rw [hb.name, hna.root] at this
      cases this
  · intro n h1 h2
    have hc := hce n h1 h2
    refine ⟨.inl ?_, fun p => ?_⟩
    · have h3 := hc.2.1
      unfold Graph.isClusterSubGraph at h3 ⊢
      rw [hsub n h2] at h3
      rw [h2]; exact h3
    · have hcont : mhas (g'.relations.children p) n = true ↔ (∃ m, Call.addNode p n m ∈ stmtsCalls ⟨t.id, [], []⟩ [] t.stmts) ∨
          ∃ m, Call.addSubGraph p n m ∈ stmtsCalls ⟨t.id, [], []⟩ [] t.stmts := by
        have := heff.contains p n
        simpa only [abs, AGraph.empty, Bool.false_eq_true, false_or] using this
      rw [hcont, hb.name]
      have no : ∀ {p}, IsWritten g p → mhas (g.relations.children p) n ≠ true := fun hw hch => hroot hw ((hcl n hc _).1 hch)
      constructor
      · rintro (⟨m, hm⟩ | ⟨m, hm⟩)
        · rcases hfine hm with ⟨_, _, _, hp | ⟨hw, hch⟩⟩ | ⟨hp, _⟩
          · exact hp
          · exact absurd hch (no hw)
          · exact hp
        · obtain ⟨_, _, hp | ⟨hw, hch⟩⟩ := hfine hm
          · exact hp
          · exact absurd hch (no hw)
      · rintro rfl
        obtain ⟨p, m, hm⟩ := hcompl.sub n ((hb.subs n).1 h2)
        obtain ⟨_, _, hp | ⟨hw, hch⟩⟩ := hfine hm
        · exact .inr ⟨m, hp ▸ hm⟩
        · exact absurd hch (no hw)
  · rintro n ⟨h1, h2, e', he', hends⟩
    exfalso
    obtain ⟨e, he, rfl⟩ := List.mem_map.1 (hb.edges.mem_iff.2 he')
    have hg2 : g'.isSubGraph n = true := by
      unfold Graph.isClusterSubGraph at h2
      exact (Bool.and_eq_true_iff.1 h2).1
    have hc : ClusterEnd g n := by
      refine ⟨?_, ?_, e, he, hends⟩
      · cases hn : g.isNode n with
        | false => rfl
        | true => exact absurd ⟨hn, hsub n hg2⟩ (hna.disjoint n)
      · unfold Graph.isClusterSubGraph at h2 ⊢
        rw [hg2] at h2
        rw [hsub n hg2]; exact h2
    have := hb.clusters n hc
    rw [(isNode_find hr'.inv n).2 h1] at this
    cases this

/-- The graph read back is valid, also with clusters at the ends of edges. -/
theorem valid_back {g g' : Graph} (hr : Reachable g) (hr' : Reachable g') (hb : ReadBack g g') (hv : ValidGraph g) (hns' : NamesSettled g')  : ValidGraph g' := by
  have hsub : ∀ n, g'.isSubGraph n = true → g.isSubGraph n = true := fun n h => isWritten_sub ((hb.subs n).1 h)
  have hedge : ∀ e' ∈ g'.edges.edges, ∃ e ∈ g.edges.edges, edgeRead e = e' := fun e' he' => List.mem_map.1 (hb.edges.mem_iff.2 he')
  refine ⟨?_, ?_, ?_, ?_, ?_, ?_, ?_⟩
  · rw [hb.name]; exact hv.name
  · intro k v hk
    rw [hb.attrs] at hk
    exact hv.attrs k v hk
  · intro n nd hn
    rcases Classical.em (ClusterEnd g n) with hc | hc
    · have := hb.clusters n hc
      rw [hn] at this
      simp only [Option.map_some, Option.some.injEq] at this
      refine ⟨.inl (hv.ends n hc), fun k v hk => ?_⟩
      rw [this] at hk; cases hk
    · rw [find_eq_at hr.inv hr'.inv (hb.nodes n hc)] at hn
      exact hv.nodes n nd hn
  · intro n s' hs'
    have hi : g'.isSubGraph n = true := by unfold Graph.isSubGraph mhas; rw [hs']; rfl
    have hi := hsub n hi
    unfold Graph.isSubGraph mhas at hi
    obtain ⟨s, hs⟩ := Option.isSome_iff_exists.1 hi
    obtain ⟨h1, h2⟩ := hv.subs n s hs
    refine ⟨h1, fun k v hk => h2 k v ?_⟩
    rw [← hb.subAttrs n s s' hs hs' k]; exact hk
  · rintro n ⟨h1, h2, e', he', hends⟩
    obtain ⟨e, he, rfl⟩ := hedge e' he'
    rcases Classical.em (ClusterEnd g n) with hc | hc
    · exact hv.ends n hc
    · rw [isNode_back_at hr.inv hr'.inv (hb.nodes n hc)] at h1
      refine absurd ⟨h1, ?_, e, he, hends⟩ hc
      unfold Graph.isClusterSubGraph at h2 ⊢
      have hg2 := (Bool.and_eq_true_iff.1 h2).1
      rw [hg2] at h2
      rw [hsub n hg2]; exact h2
  · rintro n hn ⟨e', he', hends⟩
    obtain ⟨e, he, rfl⟩ := hedge e' he'
    rcases Classical.em (ClusterEnd g n) with hc | hc
    · exact hv.ends n hc
    · rw [isNode_back_at hr.inv hr'.inv (hb.nodes n hc)] at hn
      exact hv.nodeEnds n hn ⟨e, he, hends⟩
  · intro e' he'
    obtain ⟨e, he, rfl⟩ := hedge e' he'
    obtain ⟨h1, -, -⟩ := hv.edges e he
    have key : ∀ p, ValidPort (portRead p) := by
      intro p
      unfold portRead
      split
      · exact .inl rfl
      · exact .inl rfl
      · exact .inr (.inr (.inr ⟨_, rfl⟩))
    exact ⟨h1, key _, key _⟩

/-- No cycle appears by writing and reading, also with clusters at the ends of edges. -/
theorem acyclic_back {g g' : Graph} (hr : Reachable g) (hr' : Reachable g') (hb : ReadBack g g')
    (hac : ∀ m, MustWrite g m → ¬ ReachesCycle g m) : ∀ m, MustWrite g' m → ¬ ReachesCycle g' m := by
  rintro m ⟨hm, -⟩ ⟨k, hk, c, hc1, hc2⟩
  obtain ⟨r, hr1, hr2⟩ := (hb.subs m).1 hm
  have hP : ∀ a b, IsWritten g a → SubChild g' a b → SubChild g a b ∧ IsWritten g b := by
    rintro a b ⟨r, hr1, hr2⟩ ⟨h1, h2, h3⟩
    have hw : IsWritten g a := ⟨r, hr1, hr2⟩
    have : SubChild g a b := ⟨by rw [← hb.children a hw b]; exact h1, by
      rcases Classical.em (ClusterEnd g b) with hc | hc
      · exact hc.1
      · rw [← isNode_back_at hr.inv hr'.inv (hb.nodes b hc)]; exact h2, isWritten_sub ((hb.subs b).1 h3)⟩
    exact ⟨this, r, hr1, hr2.trans (.head this (.refl _))⟩
  have hwm : IsWritten g m := ⟨r, hr1, hr2⟩
  obtain ⟨h1, h2⟩ := plus_mono hP hk hwm
  obtain ⟨h3, h4⟩ := hP _ _ h2 hc1
  obtain ⟨h5, -⟩ := plus_mono hP hc2 h4
  exact hac r hr1 ⟨k, hr2.trans h1, c, h3, h5⟩

end ClusterFormat

open ClusterFormat

/-- C37. Writing, reading and writing again gives the same text also when names are used twice, as long as they are settled (`NamesSettled`). -/
theorem C37_same_text_settled {g : Graph} (h : Reachable g) (hv : ValidGraph g) (hns : NamesSettled g) (hnp : NoPorts g)
    {sortE sortE' : List Edge → List Edge} (hs : SortContract sortE) (hs' : SortContract sortE') {f : Nat} {t : Ast.Graph}
    (ht : writeAst sortE f g = .ok t) (rnd : Nat → Nat) (cnt : Nat) :
    ∃ text g', graphString sortE f g = .ok text ∧ Parse.read rnd cnt text = .ok g' ∧ graphString sortE' f g' = .ok text := by
  obtain ⟨g0, h0⟩ := settled_exists h
  rw [← h0.writeAst h hns hnp.nodePorts hs] at ht
  obtain ⟨text, g', e1, e2, e3⟩ := C37_same_text_clusters h0.reach (h0.valid h hv) (h0.namesApart h hns) (h0.rootClusters h hns) (fun e he => hnp e (h0.edges ▸ he)) hs hs' ht rnd cnt
  exact ⟨text, g', (h0.string h hns hnp.nodePorts hs f).symm.trans e1, e2, e3⟩

/-- C60 (partial). As `C60_format_idempotent_partial`, but an edge may end at a cluster, and a name may be used for both a node and a subgraph, if such a cluster or subgraph is directly in the
graph and nowhere else (`NamesSettled`; otherwise `C60_cluster_lost`). -/
theorem C60_clusters_partial (rnd : Nat → Nat) (cnt : Nat) {src : Str} {t : Ast.Graph} {n : Nat} (hparse : parseBytes rnd cnt src = .ok t n)
    (htrim : ∀ s ∈ idents t, trimSpace s = s) {g : Graph} (hread : Parse.read rnd cnt src = .ok g)
    (hnp : NoPorts g) (hns : NamesSettled g) (hac : ∀ m, MustWrite g m → ¬ ReachesCycle g m)
    {sortE sortE' : List Edge → List Edge} (hs : SortContract sortE) (hs' : SortContract sortE') (rnd' : Nat → Nat) (cnt' : Nat) :
    ∃ text g', ∀ f, g.subGraphs.length < f →
      graphString sortE f g = .ok text ∧ Parse.read rnd' cnt' text = .ok g' ∧ graphString sortE' f g' = .ok text := by
  have hp := C36_parsed_printable rnd cnt src hparse htrim
  obtain ⟨t1, n1, hp1, hg⟩ := read_analysed hread
  rw [hparse] at hp1
  cases hp1
  obtain ⟨hr, hv⟩ := analysed_valid hp hg fun n hn => analysed_sub_trim hg htrim (by
    have := hn.2.1
    unfold Graph.isClusterSubGraph at this
    simp only [Bool.and_eq_true] at this
    exact this.1)
  obtain ⟨t', ht'⟩ := analysed_string hg hac hs
  refine ⟨Ast.graphStr t', ?_⟩
  have hall : ∀ f, g.subGraphs.length < f → ∃ g', graphString sortE f g = .ok (Ast.graphStr t') ∧
      Parse.read rnd' cnt' (Ast.graphStr t') = .ok g' ∧ graphString sortE' f g' = .ok (Ast.graphStr t') := by
    intro f hf
    obtain ⟨text, g', e1, e2, e3⟩ := C37_same_text_settled hr hv hns hnp hs hs' (ht' f hf).1 rnd' cnt'
    obtain rfl : Ast.graphStr t' = text := by
      have := (ht' f hf).2
      rw [e1] at this
      injection this with h; exact h.symm
    exact ⟨g', e1, e2, e3⟩
  obtain ⟨g', -, e2, -⟩ := hall _ (Nat.lt_succ_self _)
  refine ⟨g', fun f hf => ?_⟩
  obtain ⟨g'', e1, e2', e3⟩ := hall f hf
  rw [e2] at e2'
  cases e2'
  exact ⟨e1, e2, e3⟩

/-- C60 (partial). As `C60_stable_from_second_partial`, for clusters at the ends of edges and names used twice: with ports (not at an end that is called like a subgraph), reading and writing,
reading and writing, reading and writing gives the same text the last two times. -/
theorem C60_clusters_second_partial (rnd : Nat → Nat) (cnt : Nat) {src : Str} {t : Ast.Graph} {n : Nat} (hparse : parseBytes rnd cnt src = .ok t n)
    (htrim : ∀ s ∈ idents t, trimSpace s = s) {g : Graph} (hread : Parse.read rnd cnt src = .ok g)
    (hnp : NodePorts g) (hns : NamesSettled g) (hac : ∀ m, MustWrite g m → ¬ ReachesCycle g m)
    {sortE sortE' sortE'' : List Edge → List Edge} (hs : SortContract sortE) (hs' : SortContract sortE') (hs'' : SortContract sortE'')
    (rnd' rnd'' : Nat → Nat) (cnt' cnt'' : Nat) :
    ∃ text g' text' g'', ∀ f, g.subGraphs.length < f → g'.subGraphs.length < f →
      graphString sortE f g = .ok text ∧ Parse.read rnd' cnt' text = .ok g' ∧
      graphString sortE' f g' = .ok text' ∧ Parse.read rnd'' cnt'' text' = .ok g'' ∧ graphString sortE'' f g'' = .ok text' := by
  have hp := C36_parsed_printable rnd cnt src hparse htrim
  obtain ⟨t1, n1, hp1, hg⟩ := read_analysed hread
  rw [hparse] at hp1
  cases hp1
  obtain ⟨hr, hv⟩ := analysed_valid hp hg fun n hn => analysed_sub_trim hg htrim (by
    have := hn.2.1
    unfold Graph.isClusterSubGraph at this
    simp only [Bool.and_eq_true] at this
    exact this.1)
  obtain ⟨t1, ht1⟩ := analysed_string hg hac hs
  obtain ⟨g0, h0⟩ := settled_exists hr
  have hv0 := h0.valid hr hv
  have hna0 := h0.namesApart hr hns
  have ht0 := (h0.writeAst hr hns hnp hs _).trans (ht1 _ (Nat.lt_succ_self _)).1
  have hac0 : ∀ m, MustWrite g0 m → ¬ ReachesCycle g0 m := fun m hm hc => C16_cycle_never_succeeds h0.reach hs hna0.disjoint hm hc _ _ ht0
  obtain ⟨text, g', e1, e2, hr', hb⟩ := C37_round_trip h0.reach hv0 hna0 hs ht0 rnd' cnt'
  obtain rfl : Ast.graphStr t1 = text := by
    have := (ht1 _ (Nat.lt_succ_self _)).2
    rw [← h0.string hr hns hnp hs, e1] at this
    injection this with h; exact h.symm
  obtain ⟨_, _, -, hg'⟩ := read_analysed e2
  have hga : newAnalysedGraph t1 = .ok g' := by
    obtain ⟨x, hx⟩ := written_analysed h0.reach hs ht0
    have hy := read_print (written_printable h0.reach hv0 hs ht0) rnd' cnt'
    rw [hx] at hy
    simp only at hy
    rw [e2] at hy
    injection hy with hy
    rw [hx, hy]
  have hns' := settled_back h0.reach hna0 (h0.rootClusters hr hns) hs ht0 hga hr' hb
  have hv' := valid_back h0.reach hr' hb hv0 hns'
  have hac' := acyclic_back h0.reach hr' hb hac0
  have hnp' : NoPorts g' := by
    intro e' he'
    obtain ⟨e, he, rfl⟩ := List.mem_map.1 (hb.edges.mem_iff.2 he')
    have key : ∀ {p : Str}, (p = [] ∨ ∃ r, p = 58 :: r) → portRead p = [] := by rintro p (rfl | ⟨r, rfl⟩) <;> rfl
    obtain ⟨h1, h2⟩ := C38_port_stored_partial hg e (h0.edges ▸ he)
    exact ⟨key h1, key h2⟩
  obtain ⟨t2, ht2⟩ := analysed_string hg' hac' hs'
  have hall : ∀ f, g'.subGraphs.length < f → ∃ g'', Parse.read rnd'' cnt'' (Ast.graphStr t2) = .ok g'' ∧
      graphString sortE'' f g'' = .ok (Ast.graphStr t2) := by
    intro f hf
    obtain ⟨text, g'', e1, e2, e3⟩ := C37_same_text_settled hr' hv' hns' hnp' hs' hs'' (ht2 f hf).1 rnd'' cnt''
    obtain rfl : Ast.graphStr t2 = text := by
      have := (ht2 f hf).2
      rw [e1] at this
      injection this with h; exact h.symm
    exact ⟨g'', e2, e3⟩
  obtain ⟨g'', e3, -⟩ := hall _ (Nat.lt_succ_self _)
  refine ⟨Ast.graphStr t1, g', Ast.graphStr t2, g'', fun f hf hf' => ?_⟩
  obtain ⟨g3, e3', e4⟩ := hall f hf'
  rw [e3] at e3'
  cases e3'
  exact ⟨(ht1 f hf).2, e2, (ht2 f hf').2, e3, e4⟩

/-- The hypothesis on names is weaker than the one of `C60_format_idempotent_partial`. -/
theorem namesSettled_of_apart {g : Graph} (h : NamesApart g) (hc : NoClusterEnds g) : NamesSettled g :=
  ⟨h.root, fun n h1 h2 => absurd ⟨h1, h2⟩ (h.disjoint n), NoClusterEnds.rootClusters hc⟩

/-! ### concrete cases -/

/-- The subgraph is a child of the graph and of nothing else. -/
def placedB (g : Graph) (n : Str) : Bool :=
  mhas (g.relations.children g.name) n && (mkeys g.relations.parentToChildren).all fun p => !mhas (g.relations.children p) n || decide (p = g.name)

theorem placedB_ok {g : Graph} {n : Str} (h : placedB g n = true) (p : Str) : mhas (g.relations.children p) n = true ↔ p = g.name := by
  unfold placedB at h
  simp only [Bool.and_eq_true, List.all_eq_true, Bool.or_eq_true, Bool.not_eq_true', decide_eq_true_eq] at h
  constructor
  · intro hp
    by_cases hk : p ∈ mkeys g.relations.parentToChildren
    · rcases h.2 p hk with h' | h'
      · rw [hp] at h'; cases h'
      · exact h'
    · exfalso
      have : mget g.relations.parentToChildren p = none := by
        cases hm : mget g.relations.parentToChildren p with
        | none => rfl
        | some v => exact absurd ((mhas_iff _ _).1 (by unfold mhas; rw [hm]; rfl)) hk
      unfold Relations.children at hp
      rw [this] at hp
      cases hp
  · rintro rfl; exact h.1

/-- A test for `NamesSettled`. -/
def settledB (g : Graph) : Bool :=
  decide (g.isSubGraph g.name = false) &&
  (mkeys g.subGraphs).all fun n =>
    let atEnd := g.edges.edges.any fun e => decide (e.src = n) || decide (e.dst = n)
    (!g.isNode n || ((g.isClusterSubGraph n || !atEnd) && placedB g n)) && (!(g.isClusterSubGraph n && atEnd) || placedB g n)

theorem settledB_ok {g : Graph} (h : settledB g = true) : NamesSettled g := by
  unfold settledB at h
  simp only [Bool.and_eq_true, decide_eq_true_eq, List.all_eq_true, Bool.or_eq_true, Bool.not_eq_true', Bool.and_eq_false_iff] at h
  obtain ⟨h1, h2⟩ := h
  have hend : ∀ n, (g.edges.edges.any fun e => decide (e.src = n) || decide (e.dst = n)) = false → ¬ ∃ e ∈ g.edges.edges, e.src = n ∨ e.dst = n := by
    intro n hn ⟨e, he, hx⟩
    have := List.any_eq_false.1 hn e he
    simp at this
    rcases hx with hx | hx
    · exact this.1 hx
    · exact this.2 hx
  refine ⟨h1, fun n hn hs => ?_, fun n hc => ?_⟩
  · rcases (h2 n ((mhas_iff _ _).1 hs)).1 with h' | ⟨h', h''⟩
    · rw [hn] at h'; cases h'
    · exact ⟨h'.imp id (hend n), placedB_ok h''⟩
  · have hs := hc.2.1
    unfold Graph.isClusterSubGraph at hs
    simp only [Bool.and_eq_true] at hs
    rcases (h2 n ((mhas_iff _ _).1 hs.1)).2 with (h' | h') | h'
    · rw [hc.2.1] at h'; cases h'
    · exact absurd hc.2.2 (hend n h')
    · exact placedB_ok h'

/-- A text with an edge to a cluster that is defined later (so `cluster_x` is also a node, with an attribute), an edge from a cluster that is a subgraph there, and nested subgraphs. -/
def clusterSample : Str := b!"digraph G { node [shape=box]; a -> cluster_x; subgraph cluster_x { b; subgraph S { c } } subgraph cluster_y { d } -> b [label=1]; subgraph T { e; f } T [color=red] }"

/-- A test for the other hypotheses. -/
def clusterB (P : Graph → Bool) (s : Str) : Bool :=
  match parseBytes (fun k => k) 0 s with
  | .ok t _ => (idents t).all (fun s => decide (trimSpace s = s)) &&
    match newAnalysedGraph t with
    | .ok g => settledB g && P g && !(mkeys g.nodes.lookup).all (fun n => decide (n ∉ mkeys g.subGraphs)) && !decide (NoClusterEnds g) &&
      (mkeys g.subGraphs).all fun n => match subBody g 8 n with
        | .ok _ => true
        | _ => false
    | _ => false
  | _ => false

theorem clusterB_ok {P : Graph → Bool} {src : Str} (h : clusterB P src = true) : ∃ t n g, parseBytes (fun k => k) 0 src = .ok t n ∧ (∀ s ∈ idents t, trimSpace s = s) ∧
    Parse.read (fun k => k) 0 src = .ok g ∧ P g = true ∧ NamesSettled g ∧ ¬ NamesDisjoint g ∧ ¬ NoClusterEnds g ∧ (∀ m, MustWrite g m → ¬ ReachesCycle g m) := by
  unfold clusterB at h
  split at h
  · rename_i t n hp
    split at h
    · rename_i g hg
      simp only [Bool.and_eq_true, decide_eq_true_eq, Bool.not_eq_true', decide_eq_false_iff_not] at h
      obtain ⟨h1, ⟨⟨⟨h2, h3⟩, h4⟩, h5⟩, h6⟩ := h
      refine ⟨t, n, g, hp, fun s hs => of_decide_eq_true (List.all_eq_true.1 h1 s hs), ?_, h3, settledB_ok h2, ?_, h5, ?_⟩
      · unfold Parse.read
        rw [hp]
        simp only [hg]
      · intro hd
        obtain ⟨n, hn, hx⟩ := List.all_eq_false.1 h4
        simp only [decide_eq_true_eq, Decidable.not_not] at hx
        exact hd n ⟨(mhas_iff _ _).2 hn, (mhas_iff _ _).2 hx⟩
      · rintro m hm ⟨k, hk, hc⟩
        have := List.all_eq_true.1 h6 m ((mhas_iff _ _).1 hm.1)
        split at this
        · rename_i b hb
          exact ((subBody_ok_writable (analysed_effect hg).1.inv hb).star hk).no_cycle hc
        · cases this
    · simp at h
  · cases h

/-- The hypotheses of `C60_clusters_partial` are met by a text whose graph has names used twice and a cluster at the end of an edge. -/
theorem example_clusters : ∃ t n g, parseBytes (fun k => k) 0 clusterSample = .ok t n ∧ (∀ s ∈ idents t, trimSpace s = s) ∧
    Parse.read (fun k => k) 0 clusterSample = .ok g ∧ NoPorts g ∧ NamesSettled g ∧ ¬ NamesDisjoint g ∧ ¬ NoClusterEnds g ∧ (∀ m, MustWrite g m → ¬ ReachesCycle g m) ∧
    format clusterSample = some (b!"digraph G {\n\ta->cluster_x;\n\tcluster_y->b [ label=1 ];\n\tsubgraph T {\n\t\te [ shape=box ];\n\t\tf [ shape=box ];\n\t};\n\tsubgraph cluster_x {\n\t\tsubgraph S {\n\t\t\tc [ shape=box ];\n\t\t};\n\t\tb [ shape=box ];\n\t};\n\tsubgraph cluster_y {\n\t\td [ shape=box ];\n\t};\n\ta [ shape=box ];\n}\n") := by
  obtain ⟨t, n, g, h1, h2, h3, h4, h5⟩ := clusterB_ok (P := fun g => decide (NoPorts g)) (src := clusterSample) (by decide +kernel)
  exact ⟨t, n, g, h1, h2, h3, of_decide_eq_true h4, h5.1, h5.2.1, h5.2.2.1, h5.2.2.2, by decide +kernel⟩

instance (g : Graph) : Decidable (NodePorts g) := by unfold NodePorts; infer_instance

/-- As `clusterSample`, with ports. -/
def clusterPortSample : Str := b!"digraph G { a:z -> cluster_x [label=1]; a:y -> cluster_x [label=2]; subgraph cluster_x { b; subgraph S { c } } subgraph cluster_y { d } -> b:p; subgraph T { e } T [color=red] }"

/-- The hypotheses of `C60_clusters_second_partial` are met by a text with ports, names used twice and clusters at ends of edges; the first two texts differ. -/
theorem example_clusters_second : ∃ t n g, parseBytes (fun k => k) 0 clusterPortSample = .ok t n ∧ (∀ s ∈ idents t, trimSpace s = s) ∧
    Parse.read (fun k => k) 0 clusterPortSample = .ok g ∧ (NodePorts g ∧ ¬ NoPorts g) ∧ NamesSettled g ∧ ¬ NamesDisjoint g ∧ ¬ NoClusterEnds g ∧ (∀ m, MustWrite g m → ¬ ReachesCycle g m) ∧
    format clusterPortSample ≠ (format clusterPortSample).bind format ∧ (format clusterPortSample).bind format = ((format clusterPortSample).bind format).bind format := by
  obtain ⟨t, n, g, h1, h2, h3, h4, h5⟩ := clusterB_ok (P := fun g => decide (NodePorts g ∧ ¬ NoPorts g)) (src := clusterPortSample) (by decide +kernel)
  exact ⟨t, n, g, h1, h2, h3, of_decide_eq_true h4, h5.1, h5.2.1, h5.2.2.1, h5.2.2.2, by decide +kernel⟩

/-- The graph `clusterOps` (an edge from a node to a cluster) meets the hypotheses of `C37_same_text_clusters`. -/
theorem example_root_clusters : ∃ g t, Reachable g ∧ ValidGraph g ∧ NamesApart g ∧ RootClusters g ∧ NoPorts g ∧ writeAst edgeInsertionSort 2 g = .ok t ∧
    ClusterEnd g (b!"cluster_x") := by
  have hr : Reachable (newGraph.run clusterOps) := Reachable.init.run (by decide +kernel)
  refine ⟨newGraph.run clusterOps, clusterTree, hr, graphB_valid hr (by decide +kernel), ⟨?_, by decide +kernel⟩, (settledB_ok (by decide +kernel)).ends, by decide +kernel, rfl,
    ⟨by decide +kernel, by decide +kernel, by decide +kernel⟩⟩
  rintro n ⟨h1, h2⟩
  have h1 := (mhas_iff _ _).1 h1
  have h2 := (mhas_iff _ _).1 h2
  have e : ∀ n ∈ mkeys (newGraph.run clusterOps).nodes.lookup, n ∉ mkeys (newGraph.run clusterOps).subGraphs := by decide +kernel
  exact e n h1 h2

end Gographviz.Props
