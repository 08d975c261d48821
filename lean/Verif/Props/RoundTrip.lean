import Verif.Props.WriteProps2
import Verif.Props.AnalyseProps
import Verif.Props.PrintProps
import Verif.Proofs.NormCalls
import Verif.Proofs.SplitNames
import Verif.Proofs.Origin
import Verif.Spec.RoundTrip
/-!
C37, C38: writing a graph and reading the text again.
-/
namespace Gographviz.Props

open Gographviz Spec Parse
open Gographviz.Ast (Stmt Loc EdgeRH AttrList)

/-! ### the written tree is printable -/

/-- An ASCII word that is not a keyword. -/
def wordB (w : Str) : Bool :=
  (match w with
    | [] => false
    | c :: cs => decide (letter c) && cs.all fun x => decide (letter x ∨ digit x)) &&
  w.all (fun x => decide (x < 128)) && decide (w ∉ keywords.map Prod.fst)

theorem wordB_valid {w : Str} (h : wordB w = true) : ValidId w := by
  unfold wordB at h
  simp only [Bool.and_eq_true, List.all_eq_true, decide_eq_true_eq] at h
  obtain ⟨⟨h1, h2⟩, h3⟩ := h
  unfold ValidId
  rw [runes_all_ascii w h2]
  cases w with
  | nil => cases h1
  | cons c cs =>
    simp only [Bool.and_eq_true, decide_eq_true_eq, List.all_eq_true] at h1
    exact .inl ⟨⟨c, cs, rfl, h1.1, h1.2⟩, h3⟩

/-- Registered attribute names are identifiers. -/
theorem registered_valid {k : Str} (h : Registered k) : ValidId k := by
  have : ∀ k ∈ registered, wordB k = true := by decide +kernel
  exact wordB_valid (this k h)

theorem attrsAsList_valid {a : Attrs} (ha : AttrsOk a) (hv : ValidValues a) : ValidAttrs (attrsAsList a) := by
  intro al hal x hx
  rcases List.mem_singleton.1 hal with rfl
  obtain ⟨e, he, rfl⟩ := List.mem_map.1 hx
  exact ⟨registered_valid (ha.reg e he), hv e.1 e.2 (mget_of_mem ha.wf he)⟩

theorem printableStmts_iff (ss : List Stmt) : PrintableStmts ss ↔ ∀ s ∈ ss, PrintableStmt s := by
  induction ss with
  | nil => simp [PrintableStmts]
  | cons s ss ih => simp [PrintableStmts, ih]

theorem attrsAsStmts_printable {a : Attrs} (ha : AttrsOk a) (hv : ValidValues a) : PrintableStmts (attrsAsStmts a) := by
  rw [printableStmts_iff]
  intro s hs
  obtain ⟨e, he, rfl⟩ := List.mem_map.1 hs
  simp only [PrintableStmt]
  exact ⟨registered_valid (ha.reg e he), hv e.1 e.2 (mget_of_mem ha.wf he)⟩

theorem validId_ne {s : Str} (h : ValidId s) : s ≠ [] := by
  rintro rfl
  have hr : runes [] = [] := rfl
  unfold ValidId at h
  rw [hr] at h
  rcases h with ⟨⟨c, cs, h, _⟩, _⟩ | h | h | h
  · cases h
  · obtain ⟨m, ds, fs, _, _, _, h | h | h⟩ := h
    · simp at h
    · have := h.2; simp at this; exact h.1 this.2
    · have := h.2; simp at this
  · obtain ⟨q, _, h⟩ := h
    all_goals simp at h
  · obtain ⟨q, _, h⟩ := h
    all_goals simp at h

theorem attrsAsStmts_map (φ : Ast.NodeID → Ast.NodeID) (a : Attrs) : mapStmts φ (attrsAsStmts a) = attrsAsStmts a := by
  unfold attrsAsStmts
  induction a with
  | nil => simp [mapStmts]
  | cons e a ih => simp [mapStmts, mapStmt, ih]

/-- A node name, read as a node with a port. -/
theorem nodeName_node {n : Str} (h : NodeName n) : ∃ m, ValidNode m ∧ Ast.nodeIDStr m = Ast.nodeIDStr ⟨n, ⟨[], []⟩⟩ := by
  have h0 : Ast.nodeIDStr ⟨n, ⟨[], []⟩⟩ = n := by simp [Ast.nodeIDStr, Ast.portStr]
  rw [h0]
  rcases h with h | ⟨a, p, rfl, ha, hp⟩ | ⟨a, p, q, rfl, ha, hp, hq⟩
  · exact ⟨⟨n, ⟨[], []⟩⟩, ⟨h, .inl rfl⟩, h0⟩
  · refine ⟨⟨a, ⟨p, []⟩⟩, ⟨ha, .inr ⟨hp, .inl rfl⟩⟩, ?_⟩
    have := validId_ne hp.1
    simp [Ast.nodeIDStr, Ast.portStr, this]
  · refine ⟨⟨a, ⟨p, q⟩⟩, ⟨ha, .inr ⟨hp, .inr hq⟩⟩, ?_⟩
    have h1 := validId_ne hp.1
    have h2 := validId_ne hq.1
    simp [Ast.nodeIDStr, Ast.portStr, h1, h2]

theorem nodeStmt_printable {g : Graph} (h : GInv g) (hv : ValidGraph g) {c : Str} {nd : Node} (hf : g.nodes.find c = some nd) :
    PrintableStmt (mapStmt splitName (.node ⟨c, ⟨[], []⟩⟩ (attrsAsList nd.attrs))) := by
  simp only [mapStmt, PrintableStmt]
  exact ⟨splitName_valid (nodeName_node (hv.nodes c nd hf).1), attrsAsList_valid (find_attrs h hf) (hv.nodes c nd hf).2⟩

theorem subBody_printable {g : Graph} (h : GInv g) (hv : ValidGraph g) {f : Nat} {n : Str} {b : List Stmt} (hb : subBody g f n = .ok b) :
    PrintableStmts (mapStmts splitName b) := by
  induction f generalizing n b with
  | zero => cases hb
  | succ f ih =>
    simp only [subBody] at hb
    cases hs : mget g.subGraphs n with
    | none => rw [hs] at hb; cases hb
    | some sub =>
      rw [hs] at hb
      simp only at hb
      obtain ⟨cs, hcs, h'⟩ := WRes.bind_eq_ok.1 hb
      cases h'
      have hw := h.subs.attrs n sub hs
      rw [attrStmts_eq hw.wf, mapStmts_append, attrsAsStmts_map, printableStmts_append]
      refine ⟨attrsAsStmts_printable hw (hv.subs n sub hs).2, ?_⟩
      rw [printableStmts_iff]
      intro s hm
      obtain ⟨s, hs', rfl⟩ := mem_mapStmts hm
      obtain ⟨c, _, hc⟩ := (mapW_ok.1 hcs).mem_right hs'
      rcases (childOf_ok h hc).2 with ⟨nd, rfl, hf⟩ | ⟨b', hb', rfl, _, hsub⟩
      · exact nodeStmt_printable h hv hf
      · obtain ⟨s', hs'⟩ := (isSub_get g c).1 hsub
        simp only [mapStmt, PrintableStmt]
        exact ⟨(hv.subs c s' hs').1, ih hb'⟩

theorem makeNodeID_id (n p : Str) : (Ast.makeNodeID n p).id = n := by
  unfold Ast.makeNodeID
  split
  · split <;> rfl
  · rfl

theorem makeNodeID_nil (n : Str) : Ast.makeNodeID n [] = ⟨n, ⟨[], []⟩⟩ := rfl

theorem portRead_other {p : Str} (h : p ≠ []) (h' : ∀ r, p ≠ 58 :: r) : portRead p = 58 :: p := by
  unfold portRead
  split
  · exact absurd rfl h
  · exact absurd rfl (h' _)
  · rfl

theorem makeNodeID_lead (n r : Str) : ∃ q, Ast.makeNodeID n (58 :: r) = ⟨n, ⟨[], q⟩⟩ := by
  unfold Ast.makeNodeID
  rw [if_pos (by simp)]
  have : ∃ q qs, splitColon (58 :: r) = [] :: q :: qs := by
    simp only [splitColon, if_true]
    cases hs : splitColon r with
    | nil => exact absurd hs (by cases r <;> simp only [splitColon] <;> (try split) <;> (try split) <;> simp)
    | cons q qs => exact ⟨q, qs, rfl⟩
  obtain ⟨q, qs, hq⟩ := this
  rw [hq]
  exact ⟨q, rfl⟩

/-- A port comes back with a leading colon, or not at all if it already has one. -/
theorem plainPort_eq {p : Str} (hp : TwoPartPort p) (n : Str) : Ast.portStr (Ast.makeNodeID n p).port = portRead p := by
  rcases hp with rfl | ⟨hne, hc⟩ | ⟨q, r, rfl, hq', hcq, hr', hcr⟩ | ⟨r, rfl⟩
  · rfl
  · rw [(C42_makeNodeID n hc hc hne hne).2.2.2.1, portRead_other hne (fun r e => hc (by simp [e]))]
    simp [Ast.portStr, hne]
  · rw [(C42_makeNodeID n hcq hcr hq' hr').2.2.2.2, portRead_other (by simp) (fun r' e => by
      cases q with
      | nil => exact hq' rfl
      | cons x q => simp at e; exact hcq (by simp [e.1]))]
    simp [Ast.portStr, hq', hr', List.length_pos_iff]
  · obtain ⟨q, hq⟩ := makeNodeID_lead n r
    rw [hq]
    rfl

theorem ValidPort.plain {p : Str} (hp : ValidPort p) : TwoPartPort p := by
  rcases hp with rfl | ⟨hv, hc⟩ | ⟨q, r, rfl, hq, hcq, hr, hcr⟩ | ⟨r, rfl⟩
  · exact .inl rfl
  · exact .inr (.inl ⟨validId_ne hv.1, hc⟩)
  · exact .inr (.inr (.inl ⟨q, r, rfl, validId_ne hq.1, hcq, validId_ne hr.1, hcr⟩))
  · exact .inr (.inr (.inr ⟨r, rfl⟩))

theorem ValidGraph.plain {g : Graph} (hv : ValidGraph g) : TwoPartPorts g :=
  fun e he => ⟨ValidPort.plain (hv.edges e he).2.1, ValidPort.plain (hv.edges e he).2.2⟩

theorem ValidGraph.noEmpty {g : Graph} (hv : ValidGraph g) : NoEmptyEdgeValues g :=
  fun e he k hk => validId_ne ((hv.edges e he).1 k [] hk) rfl

/-- A valid port comes back with a leading colon, or not at all if it already has one. -/
theorem portRead_eq {p : Str} (hp : ValidPort p) (n : Str) : Ast.portStr (Ast.makeNodeID n p).port = portRead p := plainPort_eq (ValidPort.plain hp) n

theorem makeNodeID_valid {n p : Str} (hn : ValidName n) (hp : ValidPort p) : ValidNode (Ast.makeNodeID n p) := by
  rcases hp with rfl | ⟨hv, hc⟩ | ⟨q, r, rfl, hq, hcq, hr, hcr⟩ | ⟨r, rfl⟩
  · rw [makeNodeID_nil]
    exact ⟨hn, .inl rfl⟩
  · have hne := validId_ne hv.1
    rw [(C42_makeNodeID n hc hc hne hne).2.2.2.1]
    exact ⟨hn, .inr ⟨hv, .inl rfl⟩⟩
  · have hq' := validId_ne hq.1
    have hr' := validId_ne hr.1
    rw [(C42_makeNodeID n hcq hcr hq' hr').2.2.2.2]
    exact ⟨hn, .inr ⟨hq, .inr hr⟩⟩
  · obtain ⟨q, hq⟩ := makeNodeID_lead n r
    rw [hq]
    exact ⟨hn, .inl rfl⟩

/-- The ways of writing an endpoint. -/
theorem loc_written {g : Graph} (h : Reachable g) {f : Nat} {n p : Str} {l : Loc} (hl : locOf g f n p = .ok l) :
    (l = .node (Ast.makeNodeID n p) ∧ (g.isNode n = true ∨ g.isNode n = false ∧ g.isClusterSubGraph n = true)) ∨
    (∃ b, l = .sub n b ∧ subBody g f n = .ok b ∧ g.isNode n = false ∧ g.isClusterSubGraph n = false ∧ g.isSubGraph n = true ∧ p = []) := by
  rcases endWritten h hl with ⟨rfl, hn⟩ | ⟨b, rfl, _, hn, hcl, rfl⟩
  · left
    refine ⟨rfl, ?_⟩
    cases hnn : g.isNode n with
    | true => exact .inl rfl
    | false =>
      rcases hn with hn | hn
      · rw [hnn] at hn; cases hn
      · exact .inr ⟨rfl, hn⟩
  · right
    have hb : subBody g f n = .ok b := by
      unfold locOf at hl
      rw [if_neg (by simp [hn]), if_neg (by simp [hcl])] at hl
      split at hl
      · simp only [List.length_nil, ne_eq, not_true, if_false] at hl
        obtain ⟨b', hb', e⟩ := WRes.bind_eq_ok.1 hl
        cases e
        exact hb'
      · cases hl
    exact ⟨b, rfl, hb, hn, hcl, subBody_ok_isSub hb, rfl⟩

theorem loc_printable {g : Graph} (h : Reachable g) (hv : ValidGraph g) {f : Nat} {n p : Str} {l : Loc} (hl : locOf g f n p = .ok l)
    (hends : ∃ e ∈ g.edges.edges, e.src = n ∨ e.dst = n) (hp : ValidPort p) : PrintableLoc (mapLoc splitName l) := by
  rcases loc_written h hl with ⟨rfl, hn | hn⟩ | ⟨b, rfl, hb, _, _, hsub, _⟩
  · simp only [mapLoc, PrintableLoc]
    exact makeNodeID_valid (hv.nodeEnds n hn hends) hp
  · simp only [mapLoc, PrintableLoc]
    exact makeNodeID_valid (hv.ends n ⟨hn.1, hn.2, hends⟩) hp
  · obtain ⟨s, hs⟩ := (isSub_get g n).1 hsub
    simp only [mapLoc, PrintableLoc]
    exact ⟨(hv.subs n s hs).1, subBody_printable h.inv hv hb⟩

/-- The tree written for a valid graph can be printed faithfully, up to the ports in node names. -/
theorem written_printable {g : Graph} (h : Reachable g) (hv : ValidGraph g) {sortE : List Edge → List Edge}
    (hs : SortContract sortE) {f : Nat} {t : Ast.Graph} (ht : writeAst sortE f g = .ok t) : Printable (mapTree splitName t) := by
  obtain ⟨es, ss, ns, hes, hss, hns, rfl⟩ := written_parts h ht
  refine ⟨hv.name, ?_⟩
  simp only [mapTree, mapStmts_append, attrsAsStmts_map, printableStmts_append]
  refine ⟨⟨⟨attrsAsStmts_printable h.inv.attrs hv.attrs, ?_⟩, ?_⟩, ?_⟩
  · rw [printableStmts_iff]
    intro s hm
    obtain ⟨s, hs', rfl⟩ := mem_mapStmts hm
    obtain ⟨e, he, hes'⟩ := hes.mem_right hs'
    have he := (hs.perm _).mem_iff.1 he
    obtain ⟨src, dst, rfl, h1, h2, _⟩ := edgeOf_inner h.inv hes'
    simp only [mapStmt, mapRHS, PrintableStmt, PrintableRHS, and_true]
    refine ⟨loc_printable h hv h1 ⟨e, he, .inl rfl⟩ (hv.edges e he).2.1, by simp, loc_printable h hv h2 ⟨e, he, .inr rfl⟩ (hv.edges e he).2.2, ?_⟩
    rw [putMap_eq (h.inv.edges.attrs e he).wf]
    exact attrsAsList_valid (h.inv.edges.attrs e he) (hv.edges e he).1
  · rw [printableStmts_iff]
    intro s hm
    obtain ⟨s, hs', rfl⟩ := mem_mapStmts hm
    obtain ⟨n, b, hn, rfl, hb, _⟩ := (rootSubsOf_ok hss).1 s hs'
    obtain ⟨s', hs''⟩ := (isSub_get g n).1 (subBody_ok_isSub hb)
    simp only [mapStmt, PrintableStmt]
    exact ⟨(hv.subs n s' hs'').1, subBody_printable h.inv hv hb⟩
  · rw [printableStmts_iff]
    intro s hm
    obtain ⟨s, hs', rfl⟩ := mem_mapStmts hm
    obtain ⟨n, _, hn⟩ := hns.mem_right hs'
    obtain ⟨nd, hf, rfl⟩ := nodeStmtOf_ok h.inv hn
    exact nodeStmt_printable h.inv hv hf

/-- Reading what a printable tree prints is analysing the tree (also if the names of some nodes have the form of a name with a port). -/
theorem read_print {t : Ast.Graph} (h : Printable (mapTree splitName t)) (rnd : Nat → Nat) (cnt : Nat) :
    Parse.read rnd cnt (Ast.graphStr t) = match newAnalysedGraph t with
      | .ok g => .ok g
      | .error m => .analyseErr m := by
  unfold Parse.read
  rw [← graphStr_map splitName_str, C36_print_parse h]
  simp only [newAnalysedGraph_norm, newAnalysedGraph_map splitName_str]
  cases newAnalysedGraph t <;> rfl

/-! ### where the subgraphs of a written tree stand -/

/-- The statement is not a default statement. -/
def notDefault : Stmt → Bool
  | .nodeAttrs _ => false
  | .edgeAttrs _ => false
  | .graphAttrs _ => false
  | _ => true

theorem no_defaults {ss : List Stmt} (h : ∀ s ∈ ss, notDefault s = true) :
    nodeDefaultEntries ss = [] ∧ edgeDefaultEntries ss = [] ∧ graphDefaultEntries ss = [] := by
  induction ss with
  | nil => exact ⟨rfl, rfl, rfl⟩
  | cons s ss ih =>
    obtain ⟨h1, h2, h3⟩ := ih fun s hs => h s (List.mem_cons_of_mem _ hs)
    have hs := h s (List.mem_cons_self ..)
    cases s <;> simp_all [nodeDefaultEntries, edgeDefaultEntries, graphDefaultEntries, notDefault]

/-- In a tree without default statements no defaults are ever in force. -/
theorem occurs_plain {t : Ast.Graph} (hnd : ∀ s ∈ allStmts t.stmts, notDefault s = true) {sc : Scope} {pre : List Stmt} {s : Stmt}
    (h : Occurs t sc pre s) : sc.inhNode = [] ∧ sc.inhEdge = [] ∧ nodeDefaultEntries pre = [] ∧ edgeDefaultEntries pre = [] ∧
      graphDefaultEntries pre = [] := by
  have hpre : nodeDefaultEntries pre = [] ∧ edgeDefaultEntries pre = [] ∧ graphDefaultEntries pre = [] := by
    apply no_defaults
    intro x hx
    apply hnd
    rcases (occurs_where h).2 with ⟨_, post, e⟩ | ⟨body, hb, post, e⟩
    · exact mem_allStmts_of_mem (by rw [e]; simp [hx])
    · exact mem_allStmts_trans t.stmts hb (mem_allStmts_of_mem (by rw [e]; simp [hx]))
  suffices hsc : sc.inhNode = [] ∧ sc.inhEdge = [] from ⟨hsc.1, hsc.2, hpre⟩
  induction h with
  | root h => exact ⟨rfl, rfl⟩
  | @inSub sc pre id body pre' s post h hb ih =>
    have hp := no_defaults_pre hnd h
    have := ih hp
    simp only [Scope.nodeDefaults, Scope.edgeDefaults, hp.1, hp.2.1, this.1, this.2]
    exact ⟨rfl, rfl⟩
  | @inEnd sc pre src rhs as id body pre' s post h hl hb ih =>
    have hp := no_defaults_pre hnd h
    have := ih hp
    simp only [Scope.nodeDefaults, Scope.edgeDefaults, hp.1, hp.2.1, this.1, this.2]
    exact ⟨rfl, rfl⟩
where
  no_defaults_pre {t : Ast.Graph} (hnd : ∀ s ∈ allStmts t.stmts, notDefault s = true) {sc : Scope} {pre : List Stmt} {s : Stmt}
      (h : Occurs t sc pre s) : nodeDefaultEntries pre = [] ∧ edgeDefaultEntries pre = [] ∧ graphDefaultEntries pre = [] := by
    apply no_defaults
    intro x hx
    apply hnd
    rcases (occurs_where h).2 with ⟨_, post, e⟩ | ⟨body, hb, post, e⟩
    · exact mem_allStmts_of_mem (by rw [e]; simp [hx])
    · exact mem_allStmts_trans t.stmts hb (mem_allStmts_of_mem (by rw [e]; simp [hx]))

theorem written_no_defaults {g : Graph} (h : Reachable g) {sortE : List Edge → List Edge} {f : Nat} {t : Ast.Graph}
    (ht : writeAst sortE f g = .ok t) : ∀ s ∈ allStmts t.stmts, notDefault s = true := by
  intro s hs
  rcases written_inner h ht s hs with ⟨he, _⟩ | h'
  · cases s <;> first | rfl | cases he
  · cases s <;> first | rfl | cases h'

theorem top_written {g : Graph} (h : Reachable g) {sortE : List Edge → List Edge} {f : Nat}
    {t : Ast.Graph} (ht : writeAst sortE f g = .ok t) {n : Str} {body : List Stmt} (hm : Stmt.sub n body ∈ t.stmts) : IsWritten g n := by
  obtain ⟨es, ss, ns, hes, hss, hns, rfl⟩ := written_parts h ht
  simp only [List.mem_append] at hm
  rcases hm with ((hm | hm) | hm) | hm
  · obtain ⟨e, _, he⟩ := List.mem_map.1 hm; cases he
  · obtain ⟨e, _, he⟩ := hes.mem_right hm
    obtain ⟨src, dst, e', _⟩ := edgeOf_inner h.inv he
    cases e'
  · obtain ⟨n', b, hn, e, hb, hc, _⟩ := (rootSubsOf_ok hss).1 _ hm
    cases e
    exact ⟨n, ⟨subBody_ok_isSub hb, .inl hc⟩, .refl _⟩
  · obtain ⟨e, _, he⟩ := hns.mem_right hm
    obtain ⟨nd, _, e'⟩ := nodeStmtOf_ok h.inv he
    cases e'

theorem end_written {g : Graph} (h : Reachable g) {sortE : List Edge → List Edge} (hs : SortContract sortE) {f : Nat}
    {t : Ast.Graph} (ht : writeAst sortE f g = .ok t) {src : Loc} {rhs : List EdgeRH} {as : AttrList} {n : Str} {body : List Stmt}
    (hm : Stmt.edge src rhs as ∈ allStmts t.stmts) (hl : Loc.sub n body ∈ src :: dests rhs) : IsWritten g n := by
  obtain ⟨h1, h2, _⟩ := C18_edges_faithful h hs ht
  have hm' : Stmt.edge src rhs as ∈ t.stmts.filter isEdgeStmt := by
    rw [← h2]; exact List.mem_filter.2 ⟨hm, rfl⟩
  obtain ⟨e, he, src', dst', heq, hw1, hw2⟩ := h1.mem_right hm'
  have he := (hs.perm _).mem_iff.1 he
  cases heq
  simp only [dests, List.mem_cons, List.not_mem_nil, or_false] at hl
  have key : ∀ {n' p : Str} {l : Loc}, EndWritten g n' p l → (e.src = n' ∨ e.dst = n') → l = Loc.sub n body → IsWritten g n := by
    rintro n' p l (⟨rfl, _⟩ | ⟨b, rfl, ⟨sub, hsub, _⟩, hn, hcl, _⟩) hends heq
    · cases heq
    · cases heq
      exact ⟨n, ⟨(isSub_get g n).2 ⟨sub, hsub⟩, .inr ⟨hn, hcl, e, he, hends⟩⟩, .refl _⟩
  rcases hl with hl | hl
  · exact key hw1 (.inl rfl) hl.symm
  · exact key hw2 (.inr rfl) hl.symm

/-- In a written tree a statement stands at top level, or it is an attribute or a recorded child of a written subgraph. -/
theorem occ_written {g : Graph} (h : Reachable g) {sortE : List Edge → List Edge} (hs : SortContract sortE) {f : Nat}
    {t : Ast.Graph} (ht : writeAst sortE f g = .ok t) {sc : Scope} {pre : List Stmt} {s : Stmt} (hocc : Occurs t sc pre s) :
    (sc = ⟨t.id, [], []⟩ ∧ s ∈ t.stmts) ∨
    (IsWritten g sc.name ∧ ∃ sub, mget g.subGraphs sc.name = some sub ∧
      (s ∈ attrsAsStmts sub.attrs ∨ ∃ c, mhas (g.relations.children sc.name) c = true ∧ DirectChild g c s)) := by
  -- what is in a faithful body
  have hbody : ∀ {n : Str} {body pre : List Stmt} {s : Stmt} {post : List Stmt}, IsWritten g n →
      Stmt.sub n body ∈ allStmts t.stmts → body = pre ++ s :: post → (IsWritten g n ∧ ∃ sub, mget g.subGraphs n = some sub ∧
      (s ∈ attrsAsStmts sub.attrs ∨ ∃ c, mhas (g.relations.children n) c = true ∧ DirectChild g c s)) := by
    intro n body pre s post hw hb he
    obtain ⟨sub, hsub, cs, hcs, hf⟩ := C20_subgraphs_faithful h ht hb
    refine ⟨hw, sub, hsub, ?_⟩
    have hm : s ∈ attrsAsStmts sub.attrs ++ cs := by rw [← hcs, he]; simp
    rcases List.mem_append.1 hm with hm | hm
    · exact .inl hm
    · obtain ⟨c, hc, hd⟩ := hf.mem_right hm
      exact .inr ⟨c, mem_sortedChildren.1 hc, hd⟩
  induction hocc with
  | root hp => exact .inl ⟨rfl, by rw [hp]; simp⟩
  | @inSub sc pre id body pre' s post hin hb ih =>
    refine .inr (hbody ?_ (occurs_where hin).1 hb)
    rcases ih with ⟨rfl, hm⟩ | ⟨⟨m, hm, hst⟩, sub, hsub, hm' | ⟨c, hc, hd⟩⟩
    · exact top_written h ht hm
    · obtain ⟨e, _, he⟩ := List.mem_map.1 hm'; cases he
    · obtain ⟨rfl, hn, hsc⟩ := hd
      exact ⟨m, hm, hst.trans (.head ⟨hc, hn, hsc⟩ (.refl _))⟩
  | @inEnd sc pre src rhs as id body pre' s post hin hl hb ih =>
    have hw := end_written h hs ht (occurs_where hin).1 hl
    refine .inr (hbody hw ?_ hb)
    have h1 : Stmt.sub id body ∈ allStmt (.edge src rhs as) := by
      simp only [allStmt, List.mem_cons, reduceCtorEq, false_or, List.mem_append]
      rcases List.mem_cons.1 hl with rfl | hl
      · left; simp [allLoc]
      · right; exact allLoc_mem hl _ (by simp [allLoc])
    exact allStmts_trans t.stmts (occurs_where hin).1 h1

theorem sub_written {g : Graph} (h : Reachable g) {sortE : List Edge → List Edge} (hs : SortContract sortE) {f : Nat}
    {t : Ast.Graph} (ht : writeAst sortE f g = .ok t) {n : Str} {body : List Stmt} (hin : Stmt.sub n body ∈ allStmts t.stmts) : IsWritten g n := by
  obtain ⟨sc, pre, hocc | ⟨src, rhs, as, hocc, hl⟩⟩ := tree_stands hin
  · rcases occ_written h hs ht hocc with ⟨rfl, hm⟩ | ⟨⟨m, hm, hst⟩, sub, hsub, hm' | ⟨c, hc, hd⟩⟩
    · exact top_written h ht hm
    · obtain ⟨e, _, he⟩ := List.mem_map.1 hm'; cases he
    · obtain ⟨rfl, hn, hsc⟩ := hd
      exact ⟨m, hm, hst.trans (.head ⟨hc, hn, hsc⟩ (.refl _))⟩
  · exact end_written h hs ht (occurs_where hocc).1 hl

/-- The subgraphs in a written tree are those that have to be written and those nested in them. -/
theorem sub_iff_written {g : Graph} (h : Reachable g) (hd : NamesDisjoint g) {sortE : List Edge → List Edge} (hs : SortContract sortE) {f : Nat}
    {t : Ast.Graph} (ht : writeAst sortE f g = .ok t) (n : Str) : (∃ body, Stmt.sub n body ∈ allStmts t.stmts) ↔ IsWritten g n := by
  constructor
  · rintro ⟨body, hin⟩
    exact sub_written h hs ht hin
  · rintro ⟨m, hm, hst⟩
    have hm' : ∃ body, Stmt.sub m body ∈ allStmts t.stmts := by
      rcases hm.2 with hc | ⟨hn, hcl, e, he, hends⟩
      · obtain ⟨body, hb, _⟩ := C20_root_subgraphs_written h hd ht hm.1 hc
        exact ⟨body, hb⟩
      · obtain ⟨h1, h2, _⟩ := C18_edges_faithful h hs ht
        obtain ⟨s, hsm, src, dst, rfl, hw1, hw2⟩ := h1.mem_left ((hs.perm _).mem_iff.2 he)
        have hsm := mem_allStmts_of_mem (List.mem_filter.1 hsm).1
        have key : ∀ {p : Str} {l : Loc}, EndWritten g m p l → ∃ body, l = .sub m body := by
          rintro p l (⟨_, hx | hx⟩ | ⟨b, rfl, _⟩)
          · rw [hx] at hn; cases hn
          · rw [hx] at hcl; cases hcl
          · exact ⟨b, rfl⟩
        rcases hends with rfl | rfl
        · obtain ⟨b, rfl⟩ := key hw1
          exact ⟨b, allStmts_trans _ hsm (by simp [allStmt, allLoc])⟩
        · obtain ⟨b, rfl⟩ := key hw2
          exact ⟨b, allStmts_trans _ hsm (by simp [allStmt, allLoc, allRHS])⟩
    clear hm
    induction hst with
    | refl => exact hm'
    | @head a b c hab _ ih =>
      apply ih
      obtain ⟨body, hb⟩ := hm'
      obtain ⟨sub, hsub, cs, rfl, hf⟩ := C20_subgraphs_faithful h ht hb
      obtain ⟨s, hsc, hdc⟩ := hf.mem_left (mem_sortedChildren.2 hab.1)
      cases s with
      | node id as =>
        obtain ⟨rfl, nd, hf, _⟩ := hdc
        have := (isNode_find h.inv b).2 hab.2.1
        rw [this] at hf; cases hf
      | sub id bd =>
        obtain ⟨rfl, _⟩ := hdc
        exact ⟨bd, mem_allStmts_trans _ hb (mem_allStmts_of_mem (by simp [hsc]))⟩
      | edge => cases hdc
      | nodeAttrs => cases hdc
      | edgeAttrs => cases hdc
      | graphAttrs => cases hdc
      | attr => cases hdc

/-! ### the calls made when a written tree is read -/

theorem mapOf_attrsAsList {a : Attrs} (h : MapWF a) : mapOf (attrsAsList a) = a := by
  unfold mapOf entries attrsAsList
  simp only [List.flatten_cons, List.flatten_nil, List.append_nil, List.map_map]
  have : ((fun (a : Ast.Attr) => (a.field, a.value)) ∘ fun (e : Str × Str) => ({ field := e.1, value := e.2 } : Ast.Attr)) = id := rfl
  rw [this, List.map_id, msetAll_empty h]

theorem over_nil {a : Attrs} (h : MapWF a) : over a [] = a := msetAll_empty h

/-- What the calls made when a written tree is read may be. -/
def Fine (g : Graph) : Call → Prop
  | .addNode p n m => (∃ nd, g.nodes.find n = some nd ∧ (m = [] ∨ m = nd.attrs) ∧
      (p = g.name ∨ IsWritten g p ∧ mhas (g.relations.children p) n = true)) ∨ (p = g.name ∧ ClusterEnd g n ∧ m = [])
  | .addSubGraph p n m => m = [] ∧ IsWritten g n ∧ (p = g.name ∨ IsWritten g p ∧ mhas (g.relations.children p) n = true)
  | .addAttr p k v => (p = g.name ∧ mget g.attrs k = some v) ∨
      (IsWritten g p ∧ ∃ sub, mget g.subGraphs p = some sub ∧ mget sub.attrs k = some v)
  | .addPortEdge _ _ _ _ _ m => ∃ e ∈ g.edges.edges, m = e.attrs
  | _ => False

theorem fine_create {g : Graph} (h : Reachable g) {pre : List Stmt} (hp : nodeDefaultEntries pre = []) (seen : List Str)
    {n p : Str} {l : Loc} (hw : EndWritten g n p l) (hends : ∃ e ∈ g.edges.edges, e.src = n ∨ e.dst = n) :
    ∀ x ∈ createCall ⟨g.name, [], []⟩ pre seen l, Fine g x := by
  intro x hx
  rcases hw with ⟨rfl, hn⟩ | ⟨b, rfl, _⟩
  · simp only [createCall, makeNodeID_id] at hx
    split at hx
    · cases hx
    · rcases List.mem_singleton.1 hx with rfl
      cases hnn : g.isNode n with
      | true =>
        obtain ⟨nd, hf, _⟩ := (isNode_find h.inv n).1 hnn
        refine .inl ⟨nd, hf, .inl ?_, .inl rfl⟩
        simp only [Scope.nodeDefaults, hp]
        rfl
      | false =>
        refine .inr ⟨rfl, ⟨hnn, ?_, hends⟩, ?_⟩
        · rcases hn with hn | hn
          · rw [hnn] at hn; cases hn
          · exact hn
        · simp only [Scope.nodeDefaults, hp]
          rfl
  · cases hx

theorem written_fine {g : Graph} (h : Reachable g) {sortE : List Edge → List Edge} (hs : SortContract sortE)
    {f : Nat} {t : Ast.Graph} (ht : writeAst sortE f g = .ok t) {x : Call} (hx : x ∈ stmtsCalls ⟨t.id, [], []⟩ [] t.stmts) : Fine g x := by
  obtain ⟨sc, pre, s, hocc, hown⟩ := treeCalls_origin hx
  obtain ⟨hd1, hd2, hd3, hd4, hd5⟩ := occurs_plain (written_no_defaults h ht) hocc
  have hin := (occurs_where hocc).1
  have hplace := occ_written h hs ht hocc
  have hid : t.id = g.name := by obtain ⟨es, ss, ns, hes, hss, hns, rfl⟩ := written_parts h ht; rfl
  have hnd : sc.nodeDefaults pre = [] := by simp only [Scope.nodeDefaults, hd1, hd3]; rfl
  have hgd : graphDefaults pre = [] := by simp only [graphDefaults, hd5]; rfl
  have hed : sc.edgeDefaults pre = [] := by simp only [Scope.edgeDefaults, hd2, hd4]; rfl
  cases s with
  | node id as =>
    obtain ⟨hport, nd, hf, rfl⟩ := C17_node_statements_faithful h ht hin
    have hstr : Ast.nodeIDStr id = id.id := by cases id; simp only at hport; subst hport; simp [Ast.nodeIDStr, Ast.portStr]
    simp only [OwnCall, stmtCalls, List.mem_singleton] at hown
    subst hown
    rw [hstr, hnd, mapOf_attrsAsList (find_attrs h.inv hf).wf]
    simp only [ite_self]
    rw [over_nil (find_attrs h.inv hf).wf]
    refine .inl ⟨nd, hf, .inr rfl, ?_⟩
    rcases hplace with ⟨rfl, _⟩ | ⟨hw, sub, hsub, hm | ⟨c, hc, rfl, _⟩⟩
    · exact .inl hid
    · obtain ⟨e, _, he⟩ := List.mem_map.1 hm; cases he
    · exact .inr ⟨hw, hc⟩
  | edge src rhs as =>
    rcases hplace with ⟨rfl, hm⟩ | ⟨hw, sub, hsub, hm | ⟨c, hc, hd⟩⟩
    · obtain ⟨h1, h2, _⟩ := C18_edges_faithful h hs ht
      obtain ⟨e, he, src', dst', heq, hw1, hw2⟩ := h1.mem_right (List.mem_filter.2 ⟨hm, rfl⟩)
      have he := (hs.perm _).mem_iff.1 he
      cases heq
      have hwf := (h.inv.edges.attrs e he).wf
      simp only [OwnCall, chainCalls, List.append_nil, List.mem_append, List.mem_singleton] at hown
      rw [hid] at hown
      rcases hown with hown | (hown | hown) | ⟨n, body, hl, rfl⟩
      · exact fine_create h hd3 _ hw1 ⟨e, he, .inl rfl⟩ x hown
      · exact fine_create h hd3 _ hw2 ⟨e, he, .inr rfl⟩ x hown
      · subst hown
        refine ⟨e, he, ?_⟩
        rw [mapOf_attrsAsList hwf]
        have : (⟨g.name, [], []⟩ : Scope).edgeDefaults pre = [] := by rw [← hid]; exact hed
        rw [this, over_nil hwf]
      · exact ⟨hgd, end_written h hs ht hin hl, .inl rfl⟩
    · obtain ⟨e, _, he⟩ := List.mem_map.1 hm; cases he
    · cases hd
  | nodeAttrs as => have := written_no_defaults h ht _ hin; cases this
  | edgeAttrs as => have := written_no_defaults h ht _ hin; cases this
  | graphAttrs as => have := written_no_defaults h ht _ hin; cases this
  | sub id body =>
    simp only [OwnCall] at hown
    subst hown
    refine ⟨hgd, sub_written h hs ht hin, ?_⟩
    rcases hplace with ⟨rfl, _⟩ | ⟨hw, sub, hsub, hm | ⟨c, hc, rfl, _⟩⟩
    · exact .inl hid
    · obtain ⟨e, _, he⟩ := List.mem_map.1 hm; cases he
    · exact .inr ⟨hw, hc⟩
  | attr a =>
    simp only [OwnCall, stmtCalls, List.mem_singleton] at hown
    subst hown
    rcases hplace with ⟨rfl, hm⟩ | ⟨hw, sub, hsub, hm | ⟨c, hc, hd⟩⟩
    · refine .inl ⟨hid, ?_⟩
      obtain ⟨es, ss, ns, hes, hss, hns, rfl⟩ := written_parts h ht
      simp only [List.mem_append] at hm
      rcases hm with ((hm | hm) | hm) | hm
      · obtain ⟨e, he, heq⟩ := List.mem_map.1 hm
        cases heq
        exact mget_of_mem h.inv.attrs.wf he
      · obtain ⟨e, _, he⟩ := hes.mem_right hm
        obtain ⟨src, dst, e', _⟩ := edgeOf_inner h.inv he
        cases e'
      · obtain ⟨n', b, hn, e, hb, hc, _⟩ := (rootSubsOf_ok hss).1 _ hm
        cases e
      · obtain ⟨e, _, he⟩ := hns.mem_right hm
        obtain ⟨nd, _, e'⟩ := nodeStmtOf_ok h.inv he
        cases e'
    · obtain ⟨e, he, heq⟩ := List.mem_map.1 hm
      cases heq
      exact .inr ⟨hw, sub, hsub, mget_of_mem (h.inv.subs.attrs _ sub hsub).wf he⟩
    · cases hd

/-- The calls of a statement are among the calls of the tree. -/
theorem occurs_calls {t : Ast.Graph} {sc : Scope} {pre : List Stmt} {s : Stmt} (h : Occurs t sc pre s) {x : Call}
    (hx : x ∈ stmtCalls sc pre s) (hs : x.isSetter = false) : x ∈ stmtsCalls ⟨t.id, [], []⟩ [] t.stmts := by
  have := (occurs_infix h).subset hx
  simp only [treeCalls, List.mem_append, List.mem_cons, List.not_mem_nil, or_false] at this
  rcases this with (rfl | rfl | rfl) | h
  · cases hs
  · cases hs
  · cases hs
  · exact h

/-- The call that a subgraph that stands in the tree makes. -/
theorem stands_calls {t : Ast.Graph} {n : Str} {body : List Stmt} (h : SubStands t n body) :
    ∃ p m, Call.addSubGraph p n m ∈ stmtsCalls ⟨t.id, [], []⟩ [] t.stmts := by
  obtain ⟨sc, pre, h | ⟨src, rhs, as, h, hl⟩⟩ := h
  · exact ⟨_, _, occurs_calls h (by simp only [stmtCalls]; exact List.mem_cons_self ..) rfl⟩
  · have : MakesSub (stmtCalls sc pre (.edge src rhs as)) n := by
      simp only [stmtCalls]
      rcases List.mem_cons.1 hl with rfl | hl
      · obtain ⟨p, m, h⟩ := locCalls_made sc pre (id := n) (body := body)
        exact ⟨p, m, by simp [h]⟩
      · obtain ⟨p, m, h⟩ := rhsCalls_made sc pre hl
        exact ⟨p, m, by simp [h]⟩
    obtain ⟨p, m, hm⟩ := this
    exact ⟨p, m, occurs_calls h hm rfl⟩

structure Complete (g : Graph) (X : List Call) : Prop where
  node : ∀ n nd, g.nodes.find n = some nd → ∃ p, Call.addNode p n nd.attrs ∈ X
  sub : ∀ n, IsWritten g n → ∃ p m, Call.addSubGraph p n m ∈ X
  attr : ∀ k v, mget g.attrs k = some v → Call.addAttr g.name k v ∈ X
  subAttr : ∀ n s k v, IsWritten g n → mget g.subGraphs n = some s → mget s.attrs k = some v → Call.addAttr n k v ∈ X
  child : ∀ p c, IsWritten g p → mhas (g.relations.children p) c = true → (∃ m, Call.addNode p c m ∈ X) ∨ ∃ m, Call.addSubGraph p c m ∈ X
  cluster : ∀ n, ClusterEnd g n → ∃ p m, Call.addNode p n m ∈ X

/-- Every node that a statement of a list mentions was mentioned before or is created by the calls. -/
theorem stmts_mentions (sc : Scope) (n : Str) : ∀ (ss pre : List Stmt) (_ : n ∈ mentioned ss), n ∈ mentioned pre ∨ MakesNode (stmtsCalls sc pre ss) n
  | [], _, h => by cases h
  | s :: ss, pre, h => by
    have h : n ∈ mentions s ++ mentioned ss := by simpa [mentioned] using h
    have hs : n ∈ mentions s → n ∈ mentioned pre ∨ MakesNode (stmtsCalls sc pre (s :: ss)) n := by
      intro h
      rcases mentions_made sc pre s h with h | h
      · exact .inl h
      · exact .inr (h.mono fun x hx => by simp only [stmtsCalls]; exact List.mem_append_left _ hx)
    rcases List.mem_append.1 h with h | h
    · exact hs h
    · rcases stmts_mentions sc n ss (pre ++ [s]) h with h | h
      · rw [mentioned_append] at h
        rcases List.mem_append.1 h with h | h
        · exact .inl h
        · exact hs (by simpa [mentioned] using h)
      · exact .inr (h.mono fun x hx => by simp only [stmtsCalls]; exact List.mem_append_right _ hx)

theorem written_complete {g : Graph} (h : Reachable g) (hna : NamesApart g) {sortE : List Edge → List Edge} (hs : SortContract sortE)
    {f : Nat} {t : Ast.Graph} (ht : writeAst sortE f g = .ok t) : Complete g (stmtsCalls ⟨t.id, [], []⟩ [] t.stmts) := by
  have hid : t.id = g.name := by obtain ⟨es, ss, ns, hes, hss, hns, rfl⟩ := written_parts h ht; rfl
  have hnodeCall : ∀ {sc pre n nd}, g.nodes.find n = some nd → Occurs t sc pre (.node ⟨n, ⟨[], []⟩⟩ (attrsAsList nd.attrs)) →
      Call.addNode sc.name n nd.attrs ∈ stmtsCalls ⟨t.id, [], []⟩ [] t.stmts := by
    intro sc pre n nd hf hocc
    obtain ⟨hd1, hd2, hd3, hd4, hd5⟩ := occurs_plain (written_no_defaults h ht) hocc
    refine occurs_calls hocc ?_ rfl
    have hnd : sc.nodeDefaults pre = [] := by simp only [Scope.nodeDefaults, hd1, hd3]; rfl
    have hstr : Ast.nodeIDStr ⟨n, ⟨[], []⟩⟩ = n := by simp [Ast.nodeIDStr, Ast.portStr]
    simp only [stmtCalls, hstr, hnd, ite_self, mapOf_attrsAsList (find_attrs h.inv hf).wf, over_nil (find_attrs h.inv hf).wf, List.mem_singleton]
  have hstand : ∀ n, IsWritten g n → ∃ body, SubStands t n body ∧ SubFaithful g n body := by
    intro n hn
    obtain ⟨body, hb⟩ := (sub_iff_written h hna.disjoint hs ht n).2 hn
    exact ⟨body, tree_stands hb, C20_subgraphs_faithful h ht hb⟩
  constructor
  · intro n nd hf
    have hn : g.isNode n = true := by
      cases hn : g.isNode n with
      | true => rfl
      | false => rw [(isNode_find h.inv n).2 hn] at hf; cases hf
    obtain ⟨nd', hf', hm⟩ := C17_no_node_lost h hna.disjoint ht hn
    rw [hf] at hf'
    cases hf'
    rcases tree_stands' hm with ⟨sc, pre, hocc⟩ | ⟨_, _, e, _⟩
    · exact ⟨sc.name, hnodeCall hf hocc⟩
    · cases e
  · intro n hn
    obtain ⟨body, hst, _⟩ := hstand n hn
    exact stands_calls hst
  · intro k v hk
    have hm : Stmt.attr ⟨k, v⟩ ∈ t.stmts := by
      obtain ⟨es, ss, ns, hes, hss, hns, rfl⟩ := written_parts h ht
      simp only [List.mem_append]
      exact .inl (.inl (.inl (List.mem_map.2 ⟨(k, v), (mem_iff_mget h.inv.attrs.wf k v).2 hk, rfl⟩)))
    obtain ⟨pre, hocc⟩ := occurs_exists hm
    exact occurs_calls hocc (by simp [stmtCalls, hid]) rfl
  · intro n s k v hn hsub hk
    obtain ⟨body, hst, sub, hsub', cs, rfl, _⟩ := hstand n hn
    rw [hsub] at hsub'
    cases hsub'
    have hm : Stmt.attr ⟨k, v⟩ ∈ attrsAsStmts s.attrs ++ cs :=
      List.mem_append_left _ (List.mem_map.2 ⟨(k, v), (mem_iff_mget (h.inv.subs.attrs n s hsub).wf k v).2 hk, rfl⟩)
    obtain ⟨pre, post, e⟩ := List.append_of_mem hm
    obtain ⟨sc, rfl, hocc⟩ := hst.inner e
    exact occurs_calls hocc (by simp [stmtCalls]) rfl
  · intro p c hp hc
    obtain ⟨body, hst, sub, hsub', cs, rfl, hf⟩ := hstand p hp
    obtain ⟨s, hsc, hdc⟩ := hf.mem_left (mem_sortedChildren.2 hc)
    obtain ⟨pre, post, e⟩ := List.append_of_mem (List.mem_append_right (attrsAsStmts sub.attrs) hsc)
    obtain ⟨sc, rfl, hocc⟩ := hst.inner e
    cases s with
    | node id as =>
      obtain ⟨rfl, nd, hf, rfl⟩ := hdc
      exact .inl ⟨_, hnodeCall hf hocc⟩
    | sub id bd =>
      obtain ⟨rfl, _⟩ := hdc
      exact .inr ⟨_, occurs_calls hocc (by simp only [stmtCalls]; exact List.mem_cons_self ..) rfl⟩
    | edge => cases hdc
    | nodeAttrs => cases hdc
    | edgeAttrs => cases hdc
    | graphAttrs => cases hdc
    | attr => cases hdc
  · rintro n ⟨hn, hcl, e, he, hends⟩
    obtain ⟨h1, h2, _⟩ := C18_edges_faithful h hs ht
    obtain ⟨s, hsm, src, dst, rfl, hw1, hw2⟩ := h1.mem_left ((hs.perm _).mem_iff.2 he)
    have hsm := (List.mem_filter.1 hsm).1
    have key : ∀ {p : Str} {l : Loc}, EndWritten g n p l → n ∈ locNode l := by
      rintro p l (⟨rfl, _⟩ | ⟨b, rfl, _, _, hx, _⟩)
      · simp [locNode, makeNodeID_id]
      · rw [hx] at hcl; cases hcl
    have hm : n ∈ mentioned t.stmts := by
      simp only [mentioned, List.mem_flatMap]
      refine ⟨_, hsm, ?_⟩
      simp only [mentions, dests, List.flatMap_cons, List.flatMap_nil, List.append_nil, List.mem_append]
      rcases hends with rfl | rfl
      · exact .inl (key hw1)
      · exact .inr (key hw2)
    rcases stmts_mentions ⟨t.id, [], []⟩ n t.stmts [] hm with h | h
    · cases h
    · exact h

/-! ### the edges of a written tree -/

theorem written_edges {g : Graph} (h : Reachable g) (hv : TwoPartPorts g) {sortE : List Edge → List Edge} (hs : SortContract sortE)
    {f : Nat} {t : Ast.Graph} (ht : writeAst sortE f g = .ok t) :
    edgesMade (stmtsCalls ⟨t.id, [], []⟩ [] t.stmts) = (sortE g.edges.edges).map fun e => absEdge (edgeRead e) := by
  have hndt := written_no_defaults h ht
  have hinner := written_inner h ht
  obtain ⟨es, ss, ns, hes, hss, hns, rfl⟩ := written_parts h ht
  simp only at hndt hinner ⊢
  have hA : ∀ x ∈ allStmts (attrsAsStmts g.attrs), isEdgeStmt x = false := by
    intro x hx
    rw [allStmts_attrs] at hx
    obtain ⟨e, _, rfl⟩ := List.mem_map.1 hx; rfl
  have hN : ∀ x ∈ allStmts ns, isEdgeStmt x = false := by
    intro x hx
    obtain ⟨s, hs', hin⟩ := mem_allStmts.1 hx
    obtain ⟨e, _, he⟩ := hns.mem_right hs'
    obtain ⟨nd, _, rfl⟩ := nodeStmtOf_ok h.inv he
    simp only [allStmt, List.mem_singleton] at hin
    subst hin; rfl
  have hbodyNo : ∀ n b, subBody g f n = .ok b → ∀ x ∈ allStmts b, isEdgeStmt x = false := by
    intro n b hb x hx
    have := (subBody_ok h.inv hb).2.1 x hx
    cases x <;> first | rfl | cases this
  have hS : ∀ x ∈ allStmts ss, isEdgeStmt x = false := by
    intro x hx
    obtain ⟨s, hs', hin⟩ := mem_allStmts.1 hx
    obtain ⟨n, b, hn, rfl, hb, hc, _⟩ := (rootSubsOf_ok hss).1 s hs'
    simp only [allStmt, List.mem_cons] at hin
    rcases hin with rfl | hin
    · rfl
    · exact hbodyNo n b hb x hin
  simp only [stmtsCalls_append, edgesMade_append, stmts_no_edges _ _ _ hA, stmts_no_edges _ _ _ hS, stmts_no_edges _ _ _ hN, List.append_nil,
    List.nil_append]
  have hpreE : ∀ pre : List Stmt, (∀ s ∈ pre, notDefault s = true) → ∀ l l', Forall2 (fun e s => edgeOf g f e = .ok s) l l' →
      (∀ e ∈ l, e ∈ g.edges.edges) → edgesMade (stmtsCalls ⟨g.name, [], []⟩ pre l') = l.map fun e => absEdge (edgeRead e) := by
    intro pre hpre l l' hf hsub
    induction hf generalizing pre with
    | nil => simp [stmtsCalls, edgesMade]
    | @cons e s l l' he hf ih =>
      have hem := hsub e (List.mem_cons_self ..)
      obtain ⟨src, dst, rfl, h1, h2, _⟩ := edgeOf_inner h.inv he
      simp only [stmtsCalls, edgesMade_append, List.map_cons]
      have hloc : ∀ {n p : Str} {l : Loc}, locOf g f n p = .ok l → TwoPartPort p →
          (∀ x ∈ allLoc l, isEdgeStmt x = false) ∧ l.getID = n ∧ Ast.portStr l.getPort = portRead p := by
        intro n p l hl hp
        rcases loc_written h hl with ⟨rfl, _⟩ | ⟨b, rfl, hb, _, _, _, rfl⟩
        · refine ⟨(by simp [allLoc]), makeNodeID_id n p, ?_⟩
          exact plainPort_eq hp n
        · refine ⟨?_, rfl, rfl⟩
          intro x hx
          simp only [allLoc, List.mem_cons] at hx
          rcases hx with rfl | hx
          · rfl
          · exact hbodyNo n b hb x hx
      obtain ⟨a1, a2, a3⟩ := hloc h1 (hv e hem).1
      obtain ⟨b1, b2, b3⟩ := hloc h2 (hv e hem).2
      have hwf := (h.inv.edges.attrs e hem).wf
      rw [edge_one _ _ _ _ _ _ a1 b1, a2, a3, b2, b3, putMap_eq hwf, mapOf_attrsAsList hwf]
      have hd : (⟨g.name, [], []⟩ : Scope).edgeDefaults pre = [] := by
        simp only [Scope.edgeDefaults, (no_defaults hpre).2.1]; rfl
      rw [hd, over_nil hwf]
      rw [ih (pre ++ [_]) ?_ fun e he => hsub e (List.mem_cons_of_mem _ he)]
      · rfl
      · intro s hs'
        rcases List.mem_append.1 hs' with hs' | hs'
        · exact hpre s hs'
        · rcases List.mem_singleton.1 hs' with rfl; rfl
  apply hpreE _ _ _ _ hes fun e he => (hs.perm _).mem_iff.1 he
  intro s hs'
  obtain ⟨e, _, rfl⟩ := List.mem_map.1 hs'; rfl

/-! ### round trip -/

theorem mem_nodeGiven {n : Str} {X : List Call} {e : Str × Str} : e ∈ nodeGiven n X ↔ ∃ p m, Call.addNode p n m ∈ X ∧ e ∈ m := by
  induction X with
  | nil => simp [nodeGiven]
  | cons x X ih =>
    cases x with
    | addNode p' n' m' =>
      simp only [nodeGiven, List.mem_append, ih, List.mem_cons, Call.addNode.injEq]
      constructor
      · rintro (he | ⟨p, m, hm, he⟩)
        · split at he
          · rename_i hn; subst hn; exact ⟨p', m', .inl ⟨rfl, rfl, rfl⟩, he⟩
          · cases he
        · exact ⟨p, m, .inr hm, he⟩
      · rintro ⟨p, m, ⟨rfl, rfl, rfl⟩ | hm, he⟩
        · left; simpa using he
        · exact .inr ⟨p, m, hm, he⟩
    | setStrict b => simp [nodeGiven, ih]
    | setDir b => simp [nodeGiven, ih]
    | setName b => simp [nodeGiven, ih]
    | addPortEdge => simp [nodeGiven, ih]
    | addAttr => simp [nodeGiven, ih]
    | addSubGraph => simp [nodeGiven, ih]

theorem mem_graphGiven {n : Str} {X : List Call} {e : Str × Str} : e ∈ graphGiven n X ↔
    (∃ p m, Call.addSubGraph p n m ∈ X ∧ e ∈ m) ∨ Call.addAttr n e.1 e.2 ∈ X := by
  induction X with
  | nil => simp [graphGiven]
  | cons x X ih =>
    cases x with
    | addSubGraph p' n' m' =>
      simp only [graphGiven, List.mem_append, ih, List.mem_cons, Call.addSubGraph.injEq, reduceCtorEq, false_or]
      constructor
      · rintro (he | ⟨p, m, hm, he⟩ | he)
        · split at he
          · rename_i hn; subst hn; exact .inl ⟨p', m', .inl ⟨rfl, rfl, rfl⟩, he⟩
          · cases he
        · exact .inl ⟨p, m, .inr hm, he⟩
        · exact .inr he
      · rintro (⟨p, m, ⟨rfl, rfl, rfl⟩ | hm, he⟩ | he)
        · left; simpa using he
        · exact .inr (.inl ⟨p, m, hm, he⟩)
        · exact .inr (.inr he)
    | addAttr n' k v =>
      simp only [graphGiven, List.mem_append, ih, List.mem_cons, Call.addAttr.injEq, reduceCtorEq, false_or]
      constructor
      · rintro (he | he | he)
        · split at he
          · rename_i hn; subst hn
            rcases List.mem_singleton.1 he with rfl
            exact .inr (.inl ⟨rfl, rfl, rfl⟩)
          · cases he
        · exact .inl he
        · exact .inr (.inr he)
      · rintro (he | ⟨rfl, rfl, rfl⟩ | he)
        · exact .inr (.inl he)
        · left; simp
        · exact .inr (.inr he)
    | setStrict b => simp [graphGiven, ih]
    | setDir b => simp [graphGiven, ih]
    | setName b => simp [graphGiven, ih]
    | addPortEdge => simp [graphGiven, ih]
    | addNode => simp [graphGiven, ih]

theorem lastAssign_mem {es : List (Str × Str)} {k v : Str} (h : lastAssign es k = some v) : (k, v) ∈ es := by
  induction es with
  | nil => cases h
  | cons e es ih =>
    obtain ⟨k', v'⟩ := e
    simp only [lastAssign] at h
    cases hl : lastAssign es k with
    | some w => rw [hl] at h; cases h; exact List.mem_cons_of_mem _ (ih hl)
    | none =>
      rw [hl] at h
      simp only at h
      split at h
      · rename_i hk; subst hk; cases h; exact List.mem_cons_self ..
      · cases h

theorem lastAssign_eq_map {es : List (Str × Str)} {A : Map Str} (hw : MapWF A) (h1 : ∀ e ∈ es, e ∈ A) (h2 : ∀ e ∈ A, e ∈ es) (k : Str) :
    lastAssign es k = mget A k := by
  cases hl : lastAssign es k with
  | some v => exact ((mem_iff_mget hw k v).1 (h1 _ (lastAssign_mem hl))).symm
  | none =>
    cases hm : mget A k with
    | none => rfl
    | some v =>
      have := h2 _ ((mem_iff_mget hw k v).2 hm)
      exact absurd (List.mem_map.2 ⟨_, this, rfl⟩) (lastAssign_eq_none.1 hl)

theorem absEdge_inj {a b : Edge} (ha : MapWF a.attrs) (hb : MapWF b.attrs) (h : absEdge a = absEdge b) : a = b := by
  cases a; cases b
  simp only [absEdge, AEdge.mk.injEq] at h
  obtain ⟨rfl, rfl, rfl, rfl, rfl, h⟩ := h
  congr 1
  exact Map.ext ha hb fun k => congrFun h k

theorem absEdges_inj {l l' : List Edge} (ha : ∀ e ∈ l, MapWF e.attrs) (hb : ∀ e ∈ l', MapWF e.attrs) (h : l.map absEdge = l'.map absEdge) : l = l' := by
  induction l generalizing l' with
  | nil => cases l' with
    | nil => rfl
    | cons => cases h
  | cons a l ih => cases l' with
    | nil => cases h
    | cons b l' =>
      simp only [List.map_cons, List.cons.injEq] at h
      rw [absEdge_inj (ha a (List.mem_cons_self ..)) (hb b (List.mem_cons_self ..)) h.1,
        ih (fun e he => ha e (List.mem_cons_of_mem _ he)) (fun e he => hb e (List.mem_cons_of_mem _ he)) h.2]

/-- Analysing a written tree succeeds. -/
theorem written_analysed {g : Graph} (h : Reachable g) {sortE : List Edge → List Edge}
    (hs : SortContract sortE) {f : Nat} {t : Ast.Graph} (ht : writeAst sortE f g = .ok t) : ∃ g', newAnalysedGraph t = .ok g' := by
  rw [newAnalysedGraph_ok_iff]
  intro x hx k hk
  simp only [treeCalls, List.mem_append, List.mem_cons, List.not_mem_nil, or_false] at hx
  rcases hx with (rfl | rfl | rfl) | hx
  · cases hk
  · cases hk
  · cases hk
  have hfine := written_fine h hs ht hx
  have hreg : ∀ {a : Attrs}, AttrsOk a → k ∈ mkeys a → Registered k := by
    intro a ha hk
    obtain ⟨e, he, rfl⟩ := List.mem_map.1 hk
    exact ha.reg e he
  cases x with
  | addNode p n m =>
    rcases hfine with ⟨nd, hf, rfl | rfl, _⟩ | ⟨_, _, rfl⟩
    · cases hk
    · exact hreg (find_attrs h.inv hf) hk
    · cases hk
  | addSubGraph p n m =>
    obtain ⟨rfl, _⟩ := hfine
    cases hk
  | addAttr p k' v =>
    rcases List.mem_singleton.1 hk with rfl
    rcases hfine with ⟨_, hm⟩ | ⟨_, sub, hsub, hm⟩
    · exact h.inv.attrs.reg _ (mem_of_mget hm)
    · exact (h.inv.subs.attrs _ _ hsub).reg _ (mem_of_mget hm)
  | addPortEdge s sp d dp dir m =>
    obtain ⟨e, he, rfl⟩ := hfine
    exact hreg (h.inv.edges.attrs e he) hk
  | setStrict b => cases hfine
  | setDir b => cases hfine
  | setName b => cases hfine

/-- What analysing a written tree gives. -/
theorem analysed_back {g : Graph} (h : Reachable g) (hv : TwoPartPorts g) (hna : NamesApart g)
    {sortE : List Edge → List Edge} (hs : SortContract sortE) {f : Nat} {t : Ast.Graph} (ht : writeAst sortE f g = .ok t) {g' : Graph}
    (hg' : newAnalysedGraph t = .ok g') :
    Reachable g' ∧ ReadBack g g' ∧ g'.edges.edges = (sortE g.edges.edges).map edgeRead := by
  obtain ⟨hr', hname, hdir, hstr, heff⟩ := analysed_effect hg'
  have hfine := fun x (hx : x ∈ stmtsCalls ⟨t.id, [], []⟩ [] t.stmts) => written_fine h hs ht hx
  have hcomp := written_complete h hna hs ht
  have hedges := written_edges h hv hs ht
  have ht' : t.id = g.name ∧ t.type_ = g.directed ∧ t.strict = g.strict := by
    obtain ⟨es, ss, ns, hes, hss, hns, rfl⟩ := written_parts h ht; exact ⟨rfl, rfl, rfl⟩
  generalize hX : stmtsCalls ⟨t.id, [], []⟩ [] t.stmts = X at *
  have hroot : ∀ n, IsWritten g n → n ≠ g.name := by
    rintro n ⟨m, hm, hst⟩ rfl
    have hsub : ∀ {a b}, Star (SubChild g) a b → g.isSubGraph a = true → g.isSubGraph b = true := by
      intro a b hst
      induction hst with
      | refl => exact id
      | head hab _ ih => exact fun _ => ih hab.2.2
    have := hsub hst hm.1
    rw [hna.root] at this; cases this
  have hesq : g'.edges.edges = (sortE g.edges.edges).map edgeRead := by
    apply absEdges_inj (fun e he => (hr'.inv.edges.attrs e he).wf)
    · intro e he
      obtain ⟨e', he', rfl⟩ := List.mem_map.1 he
      exact (h.inv.edges.attrs e' ((hs.perm _).mem_iff.1 he')).wf
    · have := heff.edges
      simp only [AGraph.empty, List.nil_append] at this
      rw [hedges] at this
      rw [List.map_map]
      exact this
  refine ⟨hr', ⟨by rw [hname, ht'.1], by rw [hdir, ht'.2.1], by rw [hstr, ht'.2.2], ?_, ?_, ?_, ?_, ?_, ?_, ?_⟩, hesq⟩
  · intro k
    have := heff.attrs k
    simp only [abs, AGraph.empty, Option.or_none] at this
    rw [this, ht'.1]
    apply lastAssign_eq_map h.inv.attrs.wf
    · intro e he
      rcases mem_graphGiven.1 he with ⟨p, m, hm, he⟩ | hm
      · rw [(hfine _ hm).1] at he; cases he
      · rcases hfine _ hm with ⟨_, hk⟩ | ⟨hw, _⟩
        · exact (mem_iff_mget h.inv.attrs.wf _ _).2 hk
        · exact absurd rfl (hroot _ hw)
    · intro e he
      exact mem_graphGiven.2 (.inr (hcomp.attr _ _ (mget_of_mem h.inv.attrs.wf he)))
  · intro n hncl
    have hex := heff.node n
    have hval := heff.nodeVal n
    simp only [abs, AGraph.empty, AGraph.nodeVal, Option.bind_none, Option.or_none, Option.isSome_none, Bool.false_eq_true, false_or] at hex hval
    cases hf : g.nodes.find n with
    | none =>
      cases hf' : g'.nodes.find n with
      | none => rfl
      | some nd' =>
        rw [hf'] at hex
        obtain ⟨p, m, hm⟩ := hex.1 rfl
        rcases hfine _ hm with ⟨nd, hfn, _⟩ | ⟨_, hc, _⟩
        · rw [hf] at hfn; cases hfn
        · exact absurd hc hncl
    | some nd =>
      have hw := (find_attrs h.inv hf).wf
      obtain ⟨p, hp⟩ := hcomp.node n nd hf
      cases hf' : g'.nodes.find n with
      | none => have := hex.2 ⟨p, _, hp⟩; rw [hf'] at this; cases this
      | some nd' =>
        rw [hf'] at hval
        simp only [Option.map_some, Option.bind_some] at hval
        simp only [Option.map_some]
        congr 1
        apply Map.ext hw (find_attrs hr'.inv hf').wf
        intro k
        rw [hval k]
        symm
        apply lastAssign_eq_map hw
        · intro e he
          obtain ⟨p', m, hm, he⟩ := mem_nodeGiven.1 he
          rcases hfine _ hm with ⟨nd'', hfn, hm', _⟩ | ⟨_, hc, _⟩
          · rw [hf] at hfn; cases hfn
            rcases hm' with rfl | rfl
            · cases he
            · exact he
          · exact absurd hc hncl
        · intro e he
          exact mem_nodeGiven.2 ⟨p, _, hp, he⟩
  · intro n hn
    have hex := heff.node n
    have hval := heff.nodeVal n
    simp only [abs, AGraph.empty, AGraph.nodeVal, Option.bind_none, Option.or_none, Option.isSome_none, Bool.false_eq_true, false_or] at hex hval
    obtain ⟨p, m, hp⟩ := hcomp.cluster n hn
    cases hf' : g'.nodes.find n with
    | none => have := hex.2 ⟨p, m, hp⟩; rw [hf'] at this; cases this
    | some nd' =>
      rw [hf'] at hval
      simp only [Option.map_some, Option.bind_some] at hval
      simp only [Option.map_some]
      congr 1
      apply Map.ext (find_attrs hr'.inv hf').wf MapWF.nil
      intro k
      rw [hval k]
      apply lastAssign_eq_map MapWF.nil
      · intro e he
        obtain ⟨p', m, hm, he⟩ := mem_nodeGiven.1 he
        rcases hfine _ hm with ⟨nd'', hfn, hm', _⟩ | ⟨_, _, rfl⟩
        · rw [(isNode_find h.inv n).2 hn.1] at hfn; cases hfn
        · exact he
      · intro e he
        cases he
  · intro n
    have hex := heff.sub n
    simp only [abs, AGraph.empty, Option.isSome_none, Bool.false_eq_true, false_or, Option.isSome_map] at hex
    rw [isSub_get, ← Option.isSome_iff_exists, hex]
    constructor
    · rintro ⟨p, m, hm⟩
      exact (hfine _ hm).2.1
    · exact hcomp.sub n
  · intro n s s' hsn hsn' k
    have hw := (h.inv.subs.attrs n s hsn).wf
    have hwr : IsWritten g n := by
      have hex := heff.sub n
      simp only [abs, AGraph.empty, Option.isSome_none, Bool.false_eq_true, false_or, Option.isSome_map, hsn', Option.isSome_some, true_iff] at hex
      obtain ⟨p, m, hm⟩ := hex
      exact (hfine _ hm).2.1
    have := heff.subVal n k (by simp only [AGraph.empty]; rw [ht'.1]; exact hroot n hwr)
    simp only [abs, AGraph.empty, AGraph.subVal, Option.bind_none, Option.or_none, hsn', Option.map_some, Option.bind_some] at this
    rw [this]
    apply lastAssign_eq_map hw
    · intro e he
      rcases mem_graphGiven.1 he with ⟨p, m, hm, he⟩ | hm
      · rw [(hfine _ hm).1] at he; cases he
      · rcases hfine _ hm with ⟨hk, _⟩ | ⟨_, sub, hsub, hk⟩
        · exact absurd hk (hroot _ hwr)
        · rw [hsn] at hsub; cases hsub
          exact (mem_iff_mget hw _ _).2 hk
    · intro e he
      exact mem_graphGiven.2 (.inr (hcomp.subAttr _ s _ _ hwr hsn (mget_of_mem hw he)))
  · intro p hp c
    have hc := heff.contains p c
    simp only [abs, AGraph.empty, Bool.false_eq_true, false_or] at hc
    have : mhas (g'.relations.children p) c = true ↔ mhas (g.relations.children p) c = true := by
      rw [hc]
      constructor
      · rintro (⟨m, hm⟩ | ⟨m, hm⟩)
        · rcases hfine _ hm with ⟨_, _, _, rfl | ⟨_, hc⟩⟩ | ⟨rfl, _⟩
          · exact absurd rfl (hroot _ hp)
          · exact hc
          · exact absurd rfl (hroot _ hp)
        · obtain ⟨_, _, rfl | ⟨_, hc⟩⟩ := hfine _ hm
          · exact absurd rfl (hroot _ hp)
          · exact hc
      · exact hcomp.child p c hp
    cases h1 : mhas (g'.relations.children p) c <;> cases h2 : mhas (g.relations.children p) c <;> simp_all
  · rw [hesq]
    exact ((hs.perm _).map _).symm

/-- C37. Writing a graph and reading the text succeeds and gives the same graph: `Read(g.String())` has the same name, flags,
attributes, nodes, written subgraphs with their attributes and members, and edges; the ports get a leading colon (`portRead`), and a
cluster at the end of an edge is also a node afterwards. -/
theorem C37_round_trip {g : Graph} (h : Reachable g) (hv : ValidGraph g) (hna : NamesApart g)
    {sortE : List Edge → List Edge} (hs : SortContract sortE) {f : Nat} {t : Ast.Graph} (ht : writeAst sortE f g = .ok t)
    (rnd : Nat → Nat) (cnt : Nat) :
    ∃ text g', graphString sortE f g = .ok text ∧ Parse.read rnd cnt text = .ok g' ∧ Reachable g' ∧ ReadBack g g' := by
  obtain ⟨g', hg'⟩ := written_analysed h hs ht
  obtain ⟨h1, h2, _⟩ := analysed_back h (ValidGraph.plain hv) hna hs ht hg'
  refine ⟨Ast.graphStr t, g', by unfold graphString; rw [ht], ?_, h1, h2⟩
  rw [read_print (written_printable h hv hs ht), hg']

theorem NoClusterEnds.none {g : Graph} (h : NoClusterEnds g) (n : Str) : ¬ ClusterEnd g n := by
  rintro ⟨h1, h2, e, he, h3⟩
  rcases h3 with rfl | rfl
  · rcases (h e he).1 with h | h
    · rw [h1] at h; cases h
    · rw [h2] at h; cases h
  · rcases (h e he).2 with h | h
    · rw [h1] at h; cases h
    · rw [h2] at h; cases h

/-- Without clusters at the ends of edges the nodes are the same. -/
theorem ReadBack.sameNodes {g g' : Graph} (hb : ReadBack g g') (h : NoClusterEnds g) : SameNodes g g' := fun n => hb.nodes n (NoClusterEnds.none h n)

/-! ### the second text -/

theorem children_eq {g g' : Graph} (h : GInv g) (h' : GInv g') {p : Str}
    (hc : ∀ c, mhas (g'.relations.children p) c = mhas (g.relations.children p) c) : g'.relations.children p = g.relations.children p := by
  apply Map.ext (h'.rels.iwf1 p) (h.rels.iwf1 p)
  intro c
  have hc := hc c
  simp only [mhas] at hc
  cases hm : mget (g.relations.children p) c with
  | none =>
    rw [hm] at hc
    cases hm' : mget (g'.relations.children p) c with
    | none => rfl
    | some s => rw [hm'] at hc; cases hc
  | some b =>
    rw [hm] at hc
    cases hm' : mget (g'.relations.children p) c with
    | none => rw [hm'] at hc; cases hc
    | some b' => rw [h.rels.tt p c b hm, h'.rels.tt p c b' hm']

theorem find_eq_at {g g' : Graph} (h : GInv g) (h' : GInv g') {n : Str} (this : (g.nodes.find n).map Node.attrs = (g'.nodes.find n).map Node.attrs) :
    g'.nodes.find n = g.nodes.find n := by
  cases hf : g.nodes.find n with
  | none =>
    rw [hf] at this
    cases hf' : g'.nodes.find n with
    | none => rfl
    | some nd => rw [hf'] at this; cases this
  | some nd =>
    rw [hf] at this
    cases hf' : g'.nodes.find n with
    | none => rw [hf'] at this; cases this
    | some nd' =>
      rw [hf'] at this
      simp only [Option.map_some, Option.some.injEq] at this
      have e1 := (h.nodes.find_name hf).1
      have e2 := (h'.nodes.find_name hf').1
      cases nd; cases nd'
      simp only at this e1 e2
      rw [this, e1, e2]

theorem find_eq {g g' : Graph} (h : GInv g) (h' : GInv g') (hs : SameNodes g g') (n : Str) : g'.nodes.find n = g.nodes.find n := find_eq_at h h' (hs n)

theorem isWritten_sub {g : Graph} {n : Str} (h : IsWritten g n) : g.isSubGraph n = true := by
  obtain ⟨m, hm, hst⟩ := h
  have hsub : ∀ {a b}, Star (SubChild g) a b → g.isSubGraph a = true → g.isSubGraph b = true := by
    intro a b hst
    induction hst with
    | refl => exact id
    | head hab _ ih => exact fun _ => ih hab.2.2
  exact hsub hst hm.1

theorem rootSubs_back {g g' : Graph} {f : Nat} {seen0 : List Str} (hname : g'.name = g.name)
    (hbody : ∀ n, g'.isSubGraph n = true → subBody g' f n = subBody g f n) (ns : List Str) :
    ∀ (seen : List Str) (ss : List Stmt), rootSubsOf g f seen ns = .ok ss → (∀ x ∈ seen0, x ∈ seen) →
      (∀ n b, Stmt.sub n b ∈ ss → mhas (g'.relations.children g.name) n = true) →
      (∀ n ∈ ns, n ∉ seen0 → mhas (g'.relations.children g.name) n = true → mhas (g.relations.children g.name) n = true) →
      (∀ n ∈ ns, mhas (g.relations.children g.name) n = true → g'.isSubGraph n = true) →
      rootSubsOf g' f seen (ns.filter fun n => g'.isSubGraph n) = .ok ss := by
  induction ns with
  | nil => intro seen ss h _ _ _ _; exact h
  | cons n ns ih =>
    intro seen ss hr hsub hin hback hw
    simp only [rootSubsOf] at hr
    by_cases hcond : (!decide (n ∈ seen) && mhas (g.relations.children g.name) n) = true
    · rw [if_pos hcond] at hr
      obtain ⟨b, hb, hr⟩ := WRes.bind_eq_ok.1 hr
      obtain ⟨rs, hrs, hr⟩ := WRes.bind_eq_ok.1 hr
      cases hr
      simp only [Bool.and_eq_true] at hcond
      have hn := hw n (List.mem_cons_self ..) hcond.2
      rw [List.filter_cons_of_pos (by simpa using hn)]
      simp only [rootSubsOf, hname]
      rw [if_pos (by simp only [Bool.and_eq_true]; exact ⟨hcond.1, hin n b (List.mem_cons_self ..)⟩), hbody n hn, hb]
      simp only [WRes.bind_ok]
      rw [ih _ rs hrs (fun x hx => List.mem_append_left _ (hsub x hx)) (fun n b hm => hin n b (List.mem_cons_of_mem _ hm))
        (fun n hn => hback n (List.mem_cons_of_mem _ hn)) (fun n hn => hw n (List.mem_cons_of_mem _ hn))]
      rfl
    · rw [if_neg hcond] at hr
      have ih' := ih seen ss hr hsub hin (fun n hn => hback n (List.mem_cons_of_mem _ hn)) (fun n hn => hw n (List.mem_cons_of_mem _ hn))
      by_cases hn : g'.isSubGraph n = true
      · rw [List.filter_cons_of_pos (by simpa using hn)]
        simp only [rootSubsOf, hname]
        rw [if_neg, ih']
        intro hc
        simp only [Bool.and_eq_true, Bool.not_eq_true', decide_eq_false_iff_not] at hc hcond
        exact hcond ⟨hc.1, hback n (List.mem_cons_self ..) (fun h0 => hc.1 (hsub n h0)) hc.2⟩
      · rw [List.filter_cons_of_neg (by simpa using hn)]
        exact ih'

theorem mapW_congr {α β : Type} {F G : α → WRes β} {l : List α} (h : ∀ a ∈ l, F a = G a) : mapW F l = mapW G l := by
  induction l with
  | nil => rfl
  | cons a l ih => simp only [mapW, h a (List.mem_cons_self ..), ih fun a ha => h a (List.mem_cons_of_mem _ ha)]

/-- Subgraphs that are written are written the same way for the graph read back. -/
theorem subBody_back {g g' : Graph} (h : Reachable g) (h' : Reachable g') (hb : ReadBack g g')
    (hsn : ∀ p c, IsWritten g p → mhas (g.relations.children p) c = true → (g.nodes.find c).map Node.attrs = (g'.nodes.find c).map Node.attrs) (f : Nat) :
    ∀ n, IsWritten g n → subBody g' f n = subBody g f n := by
  induction f with
  | zero => intro n _; rfl
  | succ f ih =>
    intro n hn
    simp only [subBody]
    obtain ⟨s, hs⟩ := (isSub_get g n).1 (isWritten_sub hn)
    obtain ⟨s', hs'⟩ := (isSub_get g' n).1 ((hb.subs n).2 hn)
    rw [hs, hs']
    simp only
    have ha : s'.attrs = s.attrs := Map.ext (h'.inv.subs.attrs n s' hs').wf (h.inv.subs.attrs n s hs).wf (hb.subAttrs n s s' hs hs')
    have hc := children_eq h.inv h'.inv (hb.children n hn)
    have hsc : g'.relations.sortedChildren n = g.relations.sortedChildren n := by unfold Relations.sortedChildren; rw [hc]
    rw [ha, hsc]
    congr 1
    apply mapW_congr
    intro c hcm
    have hcm := mem_sortedChildren.1 hcm
    unfold childOf
    have hisn : g'.isNode c = g.isNode c := by
      have e := find_eq_at h.inv h'.inv (hsn n c hn hcm)
      have h1 := h.inv.nodes.has_iff_find c
      have h2 := h'.inv.nodes.has_iff_find c
      unfold Graph.isNode
      rw [e] at h2
      cases e1 : mhas g'.nodes.lookup c <;> cases e2 : mhas g.nodes.lookup c <;> simp_all
    rw [hisn]
    unfold nodeStmtOf
    rw [find_eq_at h.inv h'.inv (hsn n c hn hcm)]
    split
    · rfl
    · rename_i hnn
      have hnn : g.isNode c = false := by simpa using hnn
      by_cases hsub : g.isSubGraph c = true
      · have hw : IsWritten g c := by
          obtain ⟨m, hm, hst⟩ := hn
          exact ⟨m, hm, hst.trans (.head ⟨hcm, hnn, hsub⟩ (.refl _))⟩
        rw [if_pos ((hb.subs c).2 hw), if_pos hsub, ih c hw]
      · rw [if_neg hsub, if_neg]
        intro hx
        exact hsub (isWritten_sub ((hb.subs c).1 hx))

theorem isNode_back_at {g g' : Graph} (h : GInv g) (h' : GInv g') {c : Str} (hs : (g.nodes.find c).map Node.attrs = (g'.nodes.find c).map Node.attrs) :
    g'.isNode c = g.isNode c := by
  have e := find_eq_at h h' hs
  have h1 := h.nodes.has_iff_find c
  have h2 := h'.nodes.has_iff_find c
  unfold Graph.isNode
  rw [e] at h2
  cases e1 : mhas g'.nodes.lookup c <;> cases e2 : mhas g.nodes.lookup c <;> simp_all

theorem isNode_back {g g' : Graph} (h : GInv g) (h' : GInv g') (hs : SameNodes g g') (c : Str) : g'.isNode c = g.isNode c := isNode_back_at h h' (hs c)

theorem subKeys_back {g g' : Graph} (h : GInv g) (h' : GInv g') (hb : ReadBack g g') :
    mkeys g'.subGraphs = (mkeys g.subGraphs).filter fun n => g'.isSubGraph n := by
  have hsub : ∀ n, n ∈ mkeys g'.subGraphs ↔ n ∈ (mkeys g.subGraphs).filter fun n => g'.isSubGraph n := by
    intro n
    rw [List.mem_filter, ← mhas_iff, ← mhas_iff]
    constructor
    · intro hn
      exact ⟨isWritten_sub ((hb.subs n).1 hn), hn⟩
    · exact fun hn => hn.2
  apply sasc_perm_eq h'.subs.wf.sorted
  · exact List.Pairwise.filter _ h.subs.wf.sorted
  · exact (List.perm_ext_iff_of_nodup h'.subs.wf.nodup (h.subs.wf.nodup.filter _)).2 hsub

/-- Writing the graph that was read back, without ports. -/
theorem write_back_root {g : Graph} (h : Reachable g) (hv : NoEmptyEdgeValues g) (hna : NamesApart g) (hcl : RootClusters g) (hnp : NoPorts g)
    {sortE : List Edge → List Edge} (hs : SortContract sortE) {f : Nat} {t : Ast.Graph} (ht : writeAst sortE f g = .ok t) {g' : Graph}
    (hg' : newAnalysedGraph t = .ok g') {sortE' : List Edge → List Edge} (hs' : SortContract sortE') : writeAst sortE' f g' = .ok t := by
  obtain ⟨h', hb, hedges⟩ := analysed_back h (fun e he => ⟨.inl (hnp e he).1, .inl (hnp e he).2⟩) hna hs ht hg'
  have hbody := subBody_back h h' hb (fun p c hp hc => hb.nodes c fun hce => by
    have := (hcl c hce p).1 hc
    subst this
    have := isWritten_sub hp
    rw [hna.root] at this; cases this) f
  have hcompl := written_complete h hna hs ht
  obtain ⟨_, _, _, _, heff⟩ := analysed_effect hg'
  have horig := fun {x} (hx : x ∈ stmtsCalls ⟨t.id, [], []⟩ [] t.stmts) => treeCalls_origin hx
  have hoccw := fun {sc pre s} (ho : Occurs t sc pre s) => occ_written h hs ht ho
  have hfine := fun {x} (hx : x ∈ stmtsCalls ⟨t.id, [], []⟩ [] t.stmts) => written_fine h hs ht hx
  have hroot : ∀ n, IsWritten g n → n ≠ g.name := by
    rintro n hn rfl
    have := isWritten_sub hn
    rw [hna.root] at this; cases this
  -- the edges
  have hread : (sortE g.edges.edges).map edgeRead = sortE g.edges.edges := by
    conv => rhs; rw [← List.map_id (sortE g.edges.edges)]
    apply List.map_congr_left
    intro e he
    obtain ⟨h1, h2⟩ := hnp e ((hs.perm _).mem_iff.1 he)
    cases e
    simp only at h1 h2
    subst h1 h2
    rfl
  have hsort : sortE' g'.edges.edges = sortE g.edges.edges := by
    rw [hedges, hread]
    symm
    apply sorted_canonical hs hs' (hs.perm _).symm (fun e he => (h.inv.edges.attrs e he).wf)
    intro e he k hk
    exact hv e he k hk
  have hloc : ∀ {n : Str}, (∃ e ∈ g.edges.edges, e.src = n ∨ e.dst = n) → locOf g' f n [] = locOf g f n [] := by
    intro n hends
    unfold locOf
    rcases Classical.em (ClusterEnd g n) with hce | hce
    · have hfind := hb.clusters n hce
      have hn' : g'.isNode n = true := by
        cases hx : g'.isNode n with
        | true => rfl
        | false => rw [(isNode_find h'.inv n).2 hx] at hfind; cases hfind
      have hsome : (g'.nodes.find n).isSome = true := by
        cases hx : g'.nodes.find n with
        | none => rw [hx] at hfind; cases hfind
        | some nd => rfl
      rw [hn', hce.1, hce.2.1, hsome]
      rfl
    · rw [isNode_back_at h.inv h'.inv (hb.nodes n hce), find_eq_at h.inv h'.inv (hb.nodes n hce)]
      split
      · rfl
      · rename_i hnn
        have hnn : g.isNode n = false := by simpa using hnn
        have hc : g.isClusterSubGraph n = false := by
          cases hc : g.isClusterSubGraph n with
          | false => rfl
          | true => exact absurd ⟨hnn, hc, hends⟩ hce
        by_cases hsub : g.isSubGraph n = true
        · have hw : IsWritten g n := ⟨n, ⟨hsub, .inr ⟨hnn, hc, hends⟩⟩, .refl _⟩
          have hsub' := (hb.subs n).2 hw
          have hc' : g'.isClusterSubGraph n = false := by
            unfold Graph.isClusterSubGraph at hc ⊢
            rw [hsub] at hc
            rw [hsub']
            exact hc
          rw [hc', hc, hsub, hsub', hbody n hw]
        · have hsub' : ¬ g'.isSubGraph n = true := fun hx => hsub (isWritten_sub ((hb.subs n).1 hx))
          have hc' : g'.isClusterSubGraph n = false := by
            unfold Graph.isClusterSubGraph
            simp [hsub']
          rw [hc', hc, if_neg hsub, if_neg hsub']
  have hedgeOf : mapW (edgeOf g' f) (sortE' g'.edges.edges) = mapW (edgeOf g f) (sortE g.edges.edges) := by
    rw [hsort]
    apply mapW_congr
    intro e he
    have he := (hs.perm _).mem_iff.1 he
    unfold edgeOf
    rw [(hnp e he).1, (hnp e he).2, hloc ⟨e, he, .inl rfl⟩, hloc ⟨e, he, .inr rfl⟩]
  have hattrs : g'.attrs = g.attrs := Map.ext h'.inv.attrs.wf h.inv.attrs.wf hb.attrs
  rw [writeAst_eq h.inv] at ht
  obtain ⟨es, hes, ht⟩ := WRes.bind_eq_ok.1 ht
  obtain ⟨ss, hss, ht⟩ := WRes.bind_eq_ok.1 ht
  obtain ⟨ns, hns, ht⟩ := WRes.bind_eq_ok.1 ht
  cases ht
  simp only at heff horig hoccw hfine hcompl
  have hchild : ∀ n, mhas (g'.relations.children g.name) n = true ↔
      (∃ m, Call.addNode g.name n m ∈ stmtsCalls ⟨g.name, [], []⟩ [] (attrStmts g.attrs ++ es ++ ss ++ ns)) ∨
      ∃ m, Call.addSubGraph g.name n m ∈ stmtsCalls ⟨g.name, [], []⟩ [] (attrStmts g.attrs ++ es ++ ss ++ ns) := by
    intro n
    have := heff.contains g.name n
    simpa only [abs, AGraph.empty, Bool.false_eq_true, false_or] using this
  have hsubs : rootSubsOf g' f (marksL es) (mkeys g'.subGraphs) = .ok ss := by
    rw [subKeys_back h.inv h'.inv hb]
    refine rootSubs_back (seen0 := marksL es) hb.name (fun n hn => hbody n ((hb.subs n).1 hn)) _ _ _ hss (fun _ h => h) ?_ ?_ ?_
    · intro n b hin
      rw [hchild]
      obtain ⟨pre, hocc⟩ := occurs_exists (t := { type_ := g.directed, strict := g.strict, id := g.name, stmts := attrStmts g.attrs ++ es ++ ss ++ ns })
        (s := .sub n b) (by simp [hin])
      exact .inr ⟨_, occurs_calls hocc (by simp only [stmtCalls]; exact List.mem_cons_self ..) rfl⟩
    · intro n hn hseen hc
      have hnsub : g.isSubGraph n = true := (mhas_iff _ _).2 hn
      rw [hchild] at hc
      rcases hc with ⟨m, hm⟩ | ⟨m, hm⟩
      · rcases hfine hm with ⟨nd, hf, _⟩ | ⟨_, hce, _⟩
        case inr => exact (hcl n hce g.name).2 rfl
        have hnn : g.isNode n = true := by
          cases hnn : g.isNode n with
          | true => rfl
          | false => rw [(isNode_find h.inv n).2 hnn] at hf; cases hf
        exact absurd ⟨hnn, hnsub⟩ (hna.disjoint n)
      · obtain ⟨sc, pre, s, hocc, hown⟩ := horig hm
        have hocc' := hoccw hocc
        have hscn : sc.name = g.name := by
          cases s with
          | edge src rhs as =>
            rcases hown with hx | hx | ⟨id, body, hl, hx⟩
            · exfalso
              cases src with
              | sub => cases hx
              | node n => simp only [createCall] at hx; split at hx <;> simp at hx
            · exfalso
              have : ∀ (rhs : List EdgeRH) seen prev attrs, Call.addSubGraph g.name n m ∉ chainCalls sc pre attrs seen prev rhs := by
                intro rhs
                induction rhs with
                | nil => intro seen prev attrs hx; simp [chainCalls] at hx
                | cons r rest ih =>
                  cases r with
                  | mk op d =>
                    intro seen prev attrs hx
                    simp only [chainCalls, List.mem_append, List.mem_singleton, reduceCtorEq, or_false] at hx
                    rcases hx with hx | hx
                    · cases d with
                      | sub => cases hx
                      | node n => simp only [createCall] at hx; split at hx <;> simp at hx
                    · exact ih _ _ _ hx
              exact this _ _ _ _ hx
            · simp only [Call.addSubGraph.injEq] at hx; exact hx.1.symm
          | sub id body => simp only [OwnCall, Call.addSubGraph.injEq] at hown; exact hown.1.symm
          | node id as => simp [OwnCall, stmtCalls] at hown
          | nodeAttrs as => simp [OwnCall, stmtCalls] at hown
          | edgeAttrs as => simp [OwnCall, stmtCalls] at hown
          | graphAttrs as => simp [OwnCall, stmtCalls] at hown
          | attr as => simp [OwnCall, stmtCalls] at hown
        have hmem := (show _ ∧ _ from hocc'.resolve_right fun hw => hroot _ hw.1 hscn).2
        simp only [List.mem_append] at hmem
        rcases hmem with ((hmem | hmem) | hmem) | hmem
        · rw [attrStmts_eq h.inv.attrs.wf] at hmem
          obtain ⟨e, _, rfl⟩ := List.mem_map.1 hmem
          simp [OwnCall, stmtCalls] at hown
        · -- an endpoint of an edge: already seen
          exfalso
          apply hseen
          obtain ⟨e, _, he⟩ := (mapW_ok.1 hes).mem_right hmem
          obtain ⟨src, dst, rfl, _⟩ := edgeOf_inner h.inv he
          rw [mem_marksL]
          right
          have : ∃ body, Loc.sub n body ∈ [src, dst] := by
            rcases hown with hx | hx | ⟨id, body, hl, hx⟩
            · exfalso
              cases src with
              | sub => cases hx
              | node n => simp only [createCall] at hx; split at hx <;> simp at hx
            · exfalso
              simp only [chainCalls, List.append_nil, List.mem_append, List.mem_singleton, reduceCtorEq, or_false] at hx
              cases dst with
              | sub => cases hx
              | node n => simp only [createCall] at hx; split at hx <;> simp at hx
            · simp only [Call.addSubGraph.injEq] at hx
              rw [hx.2.1]; exact ⟨body, hl⟩
          obtain ⟨body, hl⟩ := this
          refine ⟨body, mem_allStmts.2 ⟨_, hmem, ?_⟩⟩
          simp only [List.mem_cons, List.not_mem_nil, or_false] at hl
          rcases hl with rfl | rfl <;> simp [allStmt, allLoc, allRHS]
        · obtain ⟨n', b, hn', rfl, hb', hc', _⟩ := (rootSubsOf_ok hss).1 _ hmem
          simp only [OwnCall, Call.addSubGraph.injEq] at hown
          rw [hown.2.1]
          exact hc'
        · obtain ⟨e, _, he⟩ := (mapW_ok.1 hns).mem_right hmem
          obtain ⟨nd, _, rfl⟩ := nodeStmtOf_ok h.inv he
          simp [OwnCall, stmtCalls] at hown
    · intro n hn hc
      exact (hb.subs n).2 ⟨n, ⟨(mhas_iff _ _).2 hn, .inl hc⟩, .refl _⟩
  rw [writeAst_eq h'.inv, hedgeOf, hes]
  simp only [WRes.bind_ok]
  rw [hsubs]
  simp only [WRes.bind_ok]
  have hmark : ∀ n, ClusterEnd g n → n ∈ marksL es ++ marksL ss := by
    intro n hce
    rw [List.mem_append]
    have hsub : g.isSubGraph n = true := by
      have := hce.2.1
      unfold Graph.isClusterSubGraph at this
      simp only [Bool.and_eq_true] at this
      exact this.1
    exact (rootSubsOf_ok hss).2 n ((mhas_iff _ _).1 hsub) ((hcl n hce g.name).2 rfl)
  have hkeys : (mkeys g'.nodes.lookup).filter (fun n => !decide (n ∈ marksL es ++ marksL ss)) =
      (mkeys g.nodes.lookup).filter fun n => !decide (n ∈ marksL es ++ marksL ss) := by
    apply sasc_perm_eq (List.Pairwise.filter _ h'.inv.nodes.wf.sorted) (List.Pairwise.filter _ h.inv.nodes.wf.sorted)
    refine (List.perm_ext_iff_of_nodup (h'.inv.nodes.wf.nodup.filter _) (h.inv.nodes.wf.nodup.filter _)).2 fun n => ?_
    simp only [List.mem_filter, Bool.not_eq_true', decide_eq_false_iff_not]
    refine and_congr_left fun hn => ?_
    have hce : ¬ ClusterEnd g n := fun hc => hn (hmark n hc)
    rw [← mhas_iff, ← mhas_iff]
    have e := isNode_back_at h.inv h'.inv (hb.nodes n hce)
    unfold Graph.isNode at e
    rw [e]
  have hnode : mapW (nodeStmtOf g') ((mkeys g.nodes.lookup).filter fun n => !decide (n ∈ marksL es ++ marksL ss)) =
      mapW (nodeStmtOf g) ((mkeys g.nodes.lookup).filter fun n => !decide (n ∈ marksL es ++ marksL ss)) := by
    apply mapW_congr
    intro c hc
    simp only [List.mem_filter, Bool.not_eq_true', decide_eq_false_iff_not] at hc
    unfold nodeStmtOf
    rw [find_eq_at h.inv h'.inv (hb.nodes c fun hce => hc.2 (hmark c hce))]
  rw [hkeys, hnode, hns]
  simp only [WRes.bind_ok]
  rw [hb.directed, hb.strict, hb.name, hattrs]

theorem NoClusterEnds.rootClusters {g : Graph} (h : NoClusterEnds g) : RootClusters g := fun n hn => absurd hn (NoClusterEnds.none h n)

theorem write_back {g : Graph} (h : Reachable g) (hv : NoEmptyEdgeValues g) (hna : NamesApart g) (hcl : NoClusterEnds g) (hnp : NoPorts g)
    {sortE : List Edge → List Edge} (hs : SortContract sortE) {f : Nat} {t : Ast.Graph} (ht : writeAst sortE f g = .ok t) {g' : Graph}
    (hg' : newAnalysedGraph t = .ok g') {sortE' : List Edge → List Edge} (hs' : SortContract sortE') : writeAst sortE' f g' = .ok t :=
  write_back_root h hv hna (NoClusterEnds.rootClusters hcl) hnp hs ht hg' hs'

/-- C37. Without ports, `String()` of the graph read back is the same text, byte for byte. Clusters at the ends of edges are allowed if they are directly in the graph and
nowhere else (the graph read back is not the same then, C22, but is written the same). -/
theorem C37_same_text_clusters {g : Graph} (h : Reachable g) (hv : ValidGraph g) (hna : NamesApart g) (hcl : RootClusters g) (hnp : NoPorts g)
    {sortE sortE' : List Edge → List Edge} (hs : SortContract sortE) (hs' : SortContract sortE') {f : Nat} {t : Ast.Graph}
    (ht : writeAst sortE f g = .ok t) (rnd : Nat → Nat) (cnt : Nat) :
    ∃ text g', graphString sortE f g = .ok text ∧ Parse.read rnd cnt text = .ok g' ∧ graphString sortE' f g' = .ok text := by
  obtain ⟨g', hg'⟩ := written_analysed h hs ht
  refine ⟨Ast.graphStr t, g', by unfold graphString; rw [ht], ?_, ?_⟩
  · rw [read_print (written_printable h hv hs ht), hg']
  · unfold graphString
    rw [write_back_root h (ValidGraph.noEmpty hv) hna hcl hnp hs ht hg' hs']

/-- C37. Without ports, `String()` of the graph read back is the same text, byte for byte. -/
theorem C37_same_text {g : Graph} (h : Reachable g) (hv : ValidGraph g) (hna : NamesApart g) (hcl : NoClusterEnds g) (hnp : NoPorts g)
    {sortE sortE' : List Edge → List Edge} (hs : SortContract sortE) (hs' : SortContract sortE') {f : Nat} {t : Ast.Graph}
    (ht : writeAst sortE f g = .ok t) (rnd : Nat → Nat) (cnt : Nat) :
    ∃ text g', graphString sortE f g = .ok text ∧ Parse.read rnd cnt text = .ok g' ∧ graphString sortE' f g' = .ok text := by
  obtain ⟨g', hg'⟩ := written_analysed h hs ht
  refine ⟨Ast.graphStr t, g', by unfold graphString; rw [ht], ?_, ?_⟩
  · rw [read_print (written_printable h hv hs ht), hg']
  · unfold graphString
    rw [write_back h (ValidGraph.noEmpty hv) hna hcl hnp hs ht hg' hs']

/-! ### the hypotheses can be met -/

/-- A word or a sequence of digits. -/
def idB (w : Str) : Bool := wordB w || (!w.isEmpty && w.all fun x => decide (digit x))

theorem idB_valid {w : Str} (h : idB w = true) : ValidId w := by
  unfold idB at h
  simp only [Bool.or_eq_true, Bool.and_eq_true, List.all_eq_true, decide_eq_true_eq, Bool.not_eq_true', List.isEmpty_eq_false_iff] at h
  rcases h with h | ⟨hne, hd⟩
  · exact wordB_valid h
  · unfold ValidId
    rw [runes_all_ascii w fun x hx => by have := (hd x hx).2; omega]
    exact .inr (.inl ⟨[], w, [], .inl rfl, hd, (fun _ h => nomatch h), .inr (.inl ⟨hne, rfl⟩)⟩)

def valuesB (a : Attrs) : Bool := a.all fun e => idB e.2

theorem valuesB_valid {a : Attrs} (h : valuesB a = true) : ValidValues a := by
  intro k v hk
  unfold valuesB at h
  rw [List.all_eq_true] at h
  exact idB_valid (h _ (mem_of_mget hk))

def nameB (n : Str) : Bool := idB n && decide (trimSpace n = n)

theorem nameB_valid {n : Str} (h : nameB n = true) : ValidName n := by
  unfold nameB at h
  simp only [Bool.and_eq_true, decide_eq_true_eq] at h
  exact ⟨idB_valid h.1, h.2⟩

def portB (p : Str) : Bool := p.isEmpty || (nameB p && !p.contains 58)

theorem portB_valid {p : Str} (h : portB p = true) : ValidPort p := by
  unfold portB at h
  simp only [Bool.or_eq_true, Bool.and_eq_true, List.isEmpty_iff, Bool.not_eq_true', List.contains_eq_mem, decide_eq_false_iff_not] at h
  rcases h with h | h
  · exact .inl h
  · exact .inr (.inl ⟨nameB_valid h.1, h.2⟩)

/-- A sufficient test for `ValidGraph`. -/
def graphB (g : Graph) : Bool :=
  idB g.name && valuesB g.attrs && ((mkeys g.nodes.lookup).all fun n => nameB n && ((g.nodes.find n).all fun nd => valuesB nd.attrs)) &&
  (g.subGraphs.all fun e => nameB e.1 && valuesB e.2.attrs) &&
  g.edges.edges.all fun e => valuesB e.attrs && portB e.srcPort && portB e.dstPort

theorem graphB_valid {g : Graph} (h : Reachable g) (hb : graphB g = true) : ValidGraph g := by
  unfold graphB at hb
  simp only [Bool.and_eq_true, List.all_eq_true] at hb
  obtain ⟨⟨⟨⟨h1, h2⟩, h3⟩, h4⟩, h5⟩ := hb
  refine ⟨.inr (idB_valid h1), valuesB_valid h2, ?_, ?_, ?_, ?_, ?_⟩
  · intro n nd hf
    have hn : g.isNode n = true := by
      cases hn : g.isNode n with
      | true => rfl
      | false => rw [(isNode_find h.inv n).2 hn] at hf; cases hf
    have := h3 n ((mhas_iff _ _).1 hn)
    rw [hf] at this
    exact ⟨.inl (nameB_valid this.1), valuesB_valid (by simpa using this.2)⟩
  · intro n s hs
    have := h4 _ (mem_of_mget hs)
    exact ⟨(nameB_valid this.1).1, valuesB_valid this.2⟩
  · rintro n ⟨_, hc, _⟩
    have hsub : g.isSubGraph n = true := by
      unfold Graph.isClusterSubGraph at hc
      simp only [Bool.and_eq_true] at hc
      exact hc.1
    obtain ⟨s, hs⟩ := (isSub_get g n).1 hsub
    exact nameB_valid (h4 _ (mem_of_mget hs)).1
  · intro n hn _
    exact nameB_valid (h3 n ((mhas_iff _ _).1 hn)).1
  · intro e he
    have := h5 e he
    exact ⟨valuesB_valid this.1.1, portB_valid this.1.2, portB_valid this.2⟩

/-- The example graph (ports, nested nodes, a cluster, attributes) meets the hypotheses of `C37_round_trip`. -/
theorem example_round_trip : ∃ g t, Reachable g ∧ ValidGraph g ∧ NamesApart g ∧ NoClusterEnds g ∧
    writeAst edgeInsertionSort 3 g = .ok t ∧ ¬ NoPorts g ∧ t.stmts.length = 7 := by
  refine ⟨Example.g, exampleTree, Example.g_reachable, graphB_valid Example.g_reachable (by decide +kernel),
    ⟨example_disjoint, by decide +kernel⟩, by unfold NoClusterEnds; decide +kernel, rfl, by unfold NoPorts; decide +kernel, rfl⟩

/-- A graph with nested subgraphs, one of them an endpoint of an edge, without ports. -/
def nestedOps : List Op := [
  .setName (b!"G"), .setDir true, .addSubGraph (b!"G") (b!"S") [(b!"color", b!"red")], .addSubGraph (b!"S") (b!"T") [],
  .addNode (b!"T") (b!"a") [(b!"label", b!"1")], .addNode (b!"S") (b!"b") [], .addNode (b!"G") (b!"c") [],
  .addEdge (b!"c") (b!"T") true [(b!"weight", b!"2")], .addEdge (b!"a") (b!"b") true [], .addSubGraph (b!"nowhere") (b!"U") []]

/-- ... meets the hypotheses of `C37_same_text`, although its subgraph `U` is not written. -/
theorem example_same_text : ∃ g t, Reachable g ∧ ValidGraph g ∧ NamesApart g ∧ NoClusterEnds g ∧ NoPorts g ∧
    writeAst edgeInsertionSort 4 g = .ok t ∧ g.isSubGraph (b!"U") = true ∧ ¬ IsWritten g (b!"U") := by
  have hr : Reachable (newGraph.run nestedOps) := Reachable.init.run (by decide +kernel)
  have hd : NamesDisjoint (newGraph.run nestedOps) := by
    rintro n ⟨h1, h2⟩
    have h1 := (mhas_iff _ _).1 h1
    have h2 := (mhas_iff _ _).1 h2
    have e : ∀ n ∈ mkeys (newGraph.run nestedOps).nodes.lookup, n ∉ mkeys (newGraph.run nestedOps).subGraphs := by decide +kernel
    exact e n h1 h2
  have ht : (match writeAst edgeInsertionSort 4 (newGraph.run nestedOps) with
      | .ok t => (allStmts t.stmts).all fun s => !isSubFor (b!"U") s
      | _ => false) = true := by decide +kernel
  cases hw : writeAst edgeInsertionSort 4 (newGraph.run nestedOps) with
  | ok t =>
    rw [hw] at ht
    simp only [List.all_eq_true] at ht
    refine ⟨newGraph.run nestedOps, t, hr, graphB_valid hr (by decide +kernel), ⟨hd, by decide +kernel⟩,
      by unfold NoClusterEnds; decide +kernel, by unfold NoPorts; decide +kernel, hw, by decide +kernel, ?_⟩
    intro hU
    obtain ⟨body, hb⟩ := (sub_iff_written hr hd C14_sort_exists hw (b!"U")).2 hU
    have := ht _ hb
    simp [isSubFor] at this
  | err e => rw [hw] at ht; cases ht
  | panic => rw [hw] at ht; cases ht
  | diverge => rw [hw] at ht; cases ht

/-! ### C22 -/

/-- C22, exactly what happens. After writing and reading, a written cluster at the end of an edge is still a subgraph, with the same
attributes and the same members, and the edge still ends at its name; but its name is now also the name of a node, without attributes. (The
claim says that it is not a node: false for every such graph.) -/
theorem C22_after_reading_partial {g : Graph} (h : Reachable g) (hv : ValidGraph g) (hna : NamesApart g) {sortE : List Edge → List Edge}
    (hs : SortContract sortE) {f : Nat} {t : Ast.Graph} (ht : writeAst sortE f g = .ok t) (rnd : Nat → Nat) (cnt : Nat) :
    ∃ text g', graphString sortE f g = .ok text ∧ Parse.read rnd cnt text = .ok g' ∧ ∀ n, ClusterEnd g n →
      (g'.isNode n = true ∧ (g'.nodes.find n).map (·.attrs) = some []) ∧
      (IsWritten g n → ∃ s s', mget g.subGraphs n = some s ∧ mget g'.subGraphs n = some s' ∧ (∀ k, mget s'.attrs k = mget s.attrs k) ∧
        ∀ c, mhas (g'.relations.children n) c = mhas (g.relations.children n) c) ∧
      ∃ e ∈ g'.edges.edges, e.src = n ∨ e.dst = n := by
  obtain ⟨text, g', h1, h2, h3, hb⟩ := C37_round_trip h hv hna hs ht rnd cnt
  refine ⟨text, g', h1, h2, fun n hn => ⟨⟨?_, hb.clusters n hn⟩, fun hw => ?_, ?_⟩⟩
  · cases hx : g'.isNode n with
    | true => rfl
    | false =>
      have := hb.clusters n hn
      rw [(isNode_find h3.inv n).2 hx] at this
      cases this
  · obtain ⟨s, hs⟩ := (isSub_get g n).1 (isWritten_sub hw)
    obtain ⟨s', hs'⟩ := (isSub_get g' n).1 ((hb.subs n).2 hw)
    exact ⟨s, s', hs, hs', hb.subAttrs n s s' hs hs', hb.children n hw⟩
  · obtain ⟨-, -, e, he, hen⟩ := hn
    exact ⟨edgeRead e, hb.edges.mem_iff.1 (List.mem_map.2 ⟨e, he, rfl⟩), hen⟩

/-- The graph `clusterOps` (an edge from a node to a cluster) meets the hypotheses, and its cluster is written. -/
theorem example_cluster_end : ∃ g t, Reachable g ∧ ValidGraph g ∧ NamesApart g ∧ writeAst edgeInsertionSort 2 g = .ok t ∧
    ClusterEnd g (b!"cluster_x") ∧ IsWritten g (b!"cluster_x") := by
  have hr : Reachable (newGraph.run clusterOps) := Reachable.init.run (by decide +kernel)
  refine ⟨newGraph.run clusterOps, clusterTree, hr, graphB_valid hr (by decide +kernel), ⟨?_, by decide +kernel⟩, rfl,
    ⟨by decide +kernel, by decide +kernel, by decide +kernel⟩, b!"cluster_x", ⟨by decide +kernel, .inl (by decide +kernel)⟩, .refl _⟩
  rintro n ⟨h1, h2⟩
  have h1 := (mhas_iff _ _).1 h1
  have h2 := (mhas_iff _ _).1 h2
  have e : ∀ n ∈ mkeys (newGraph.run clusterOps).nodes.lookup, n ∉ mkeys (newGraph.run clusterOps).subGraphs := by decide +kernel
  exact e n h1 h2

/-! ### C38 -/

theorem portStr_shape (p : Ast.Port) : Ast.portStr p = [] ∨ ∃ r, Ast.portStr p = 58 :: r := by
  unfold Ast.portStr
  split
  · exact .inl rfl
  · exact .inr ⟨_, rfl⟩

theorem makeNodeID_colon (n r : Str) : Ast.nodeIDStr (Ast.makeNodeID n (58 :: r)) = n ∧ Ast.nodeIDStr (Ast.makeNodeID n []) = n := by
  constructor
  · unfold Ast.makeNodeID
    rw [if_pos (by simp)]
    have : ∃ q qs, splitColon (58 :: r) = [] :: q :: qs := by
      simp only [splitColon, if_true]
      cases hs : splitColon r with
      | nil => exact absurd hs (by cases r <;> simp only [splitColon] <;> (try split) <;> (try split) <;> simp)
      | cons q qs => exact ⟨q, qs, rfl⟩
    obtain ⟨q, qs, e⟩ := this
    rw [e]
    simp [Ast.nodeIDStr, Ast.portStr]
  · simp [Ast.makeNodeID, Ast.nodeIDStr, Ast.portStr]

/-- C38, what does hold: a port read for an edge is stored, with a leading colon. (The full statement, that it is written back, is
false: `C38_ports_never_written`.) -/
theorem C38_port_stored_partial {t : Ast.Graph} {g : Graph} (h : newAnalysedGraph t = .ok g) :
    ∀ e ∈ g.edges.edges, (e.srcPort = [] ∨ ∃ r, e.srcPort = 58 :: r) ∧ (e.dstPort = [] ∨ ∃ r, e.dstPort = 58 :: r) := by
  intro e he
  obtain ⟨_, _, _, _, heff⟩ := analysed_effect h
  have hed := heff.edges
  simp only [AGraph.empty, List.nil_append] at hed
  have hm : absEdge e ∈ edgesMade (stmtsCalls ⟨t.id, [], []⟩ [] t.stmts) := by
    rw [← hed]; exact List.mem_map.2 ⟨e, he, rfl⟩
  have key : ∀ (X : List Call) (a : AEdge), a ∈ edgesMade X → ∃ dir m, Call.addPortEdge a.src a.srcPort a.dst a.dstPort dir m ∈ X := by
    intro X a
    induction X with
    | nil => intro h; cases h
    | cons x X ih =>
      intro h
      cases x with
      | addPortEdge s sp d dp dir m =>
        simp only [edgesMade, List.mem_cons] at h
        rcases h with rfl | h
        · exact ⟨dir, m, List.mem_cons_self ..⟩
        · obtain ⟨dir', m', h⟩ := ih h
          exact ⟨dir', m', List.mem_cons_of_mem _ h⟩
      | setStrict b => obtain ⟨dir', m', h⟩ := ih h; exact ⟨dir', m', List.mem_cons_of_mem _ h⟩
      | setDir b => obtain ⟨dir', m', h⟩ := ih h; exact ⟨dir', m', List.mem_cons_of_mem _ h⟩
      | setName b => obtain ⟨dir', m', h⟩ := ih h; exact ⟨dir', m', List.mem_cons_of_mem _ h⟩
      | addNode => obtain ⟨dir', m', h⟩ := ih h; exact ⟨dir', m', List.mem_cons_of_mem _ h⟩
      | addAttr => obtain ⟨dir', m', h⟩ := ih h; exact ⟨dir', m', List.mem_cons_of_mem _ h⟩
      | addSubGraph => obtain ⟨dir', m', h⟩ := ih h; exact ⟨dir', m', List.mem_cons_of_mem _ h⟩
  obtain ⟨dir, m, hc⟩ := key _ _ hm
  obtain ⟨sc, pre, s, hocc, hown⟩ := treeCalls_origin hc
  have : ∃ src rhs as, s = .edge src rhs as ∧
      Call.addPortEdge e.src e.srcPort e.dst e.dstPort dir m ∈ chainCalls sc pre (over (mapOf as) (sc.edgeDefaults pre)) (locNode src) src rhs := by
    cases s with
    | edge src rhs as =>
      rcases hown with hx | hx | ⟨_, _, _, hx⟩
      · exfalso
        cases src with
        | sub => cases hx
        | node n => simp only [createCall] at hx; split at hx <;> simp at hx
      · exact ⟨src, rhs, as, rfl, hx⟩
      · cases hx
    | sub id body => simp [OwnCall] at hown
    | node id as => simp [OwnCall, stmtCalls] at hown
    | nodeAttrs as => simp [OwnCall, stmtCalls] at hown
    | edgeAttrs as => simp [OwnCall, stmtCalls] at hown
    | graphAttrs as => simp [OwnCall, stmtCalls] at hown
    | attr as => simp [OwnCall, stmtCalls] at hown
  obtain ⟨src, rhs, as, rfl, hx⟩ := this
  obtain ⟨l₁, _, l₂, _, _, hsp, _, hdp⟩ := chain_ends sc pre _ rhs _ _ hx
  rw [hsp, hdp]
  exact ⟨portStr_shape _, portStr_shape _⟩

/-- C38 is false, for every graph that comes from text: whatever was read, no port is ever written. Every endpoint that is a node
prints as its bare name. -/
theorem C38_ports_never_written {t : Ast.Graph} {g : Graph} (h : newAnalysedGraph t = .ok g) {sortE : List Edge → List Edge}
    (hs : SortContract sortE) {f : Nat} {t' : Ast.Graph} (ht : writeAst sortE f g = .ok t') :
    ∀ src rhs as, Stmt.edge src rhs as ∈ allStmts t'.stmts → ∀ id, Loc.node id ∈ src :: dests rhs → Ast.nodeIDStr id = id.id := by
  obtain ⟨hr, _⟩ := analysed_effect h
  intro src rhs as hm id hl
  obtain ⟨h1, h2, _⟩ := C18_edges_faithful hr hs ht
  have hm' : Stmt.edge src rhs as ∈ t'.stmts.filter isEdgeStmt := by
    rw [← h2]; exact List.mem_filter.2 ⟨hm, rfl⟩
  obtain ⟨e, he, src', dst', heq, hw1, hw2⟩ := h1.mem_right hm'
  have he := (hs.perm _).mem_iff.1 he
  cases heq
  obtain ⟨hp1, hp2⟩ := C38_port_stored_partial h e he
  have key : ∀ {n p : Str} {l : Loc}, EndWritten g n p l → (p = [] ∨ ∃ r, p = 58 :: r) → l = .node id → Ast.nodeIDStr id = id.id := by
    rintro n p l (⟨rfl, _⟩ | ⟨b, rfl, _⟩) hp heq
    · cases heq
      rw [makeNodeID_id]
      rcases hp with rfl | ⟨r, rfl⟩
      · exact (makeNodeID_colon n []).2
      · exact (makeNodeID_colon n r).1
    · cases heq
  simp only [dests, List.mem_cons, List.not_mem_nil, or_false] at hl
  rcases hl with hl | hl
  · exact key hw1 hp1 hl.symm
  · exact key hw2 hp2 hl.symm

/-- C38. A witness: `digraph G { a:p -> b:q }` is read and written as `digraph G { a->b; a; b; }`. -/
theorem C38_ports_lost :
    ∃ g t', newAnalysedGraph ⟨true, false, b!"G",
        [.edge (.node ⟨b!"a", ⟨b!"p", []⟩⟩) [.mk true (.node ⟨b!"b", ⟨b!"q", []⟩⟩)] []]⟩ = .ok g ∧
      writeAst edgeInsertionSort 1 g = .ok t' ∧
      (g.edges.edges.map fun e => (e.srcPort, e.dstPort)) = [(b!":p", b!":q")] ∧
      Ast.graphStr t' = b!"digraph G {\n\ta->b;\n\ta;\n\tb;\n}\n" := by
  refine ⟨_, _, rfl, rfl, by decide +kernel, by decide +kernel⟩

end Gographviz.Props
