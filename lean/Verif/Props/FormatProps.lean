import Verif.Props.ProvenanceProps
import Verif.Props.PrintProps
/-!
C60: reading and writing again changes nothing (formatting is idempotent).
-/
namespace Gographviz.Props

open Gographviz Spec Lex Print Parse
open Gographviz.Ast (Stmt Loc EdgeRH AttrList)

/-- All the values of the map are identifiers. -/
def ValidMap (m : List (Str × Str)) : Prop := ∀ e ∈ m, ValidId e.2

theorem ValidMap.nil : ValidMap [] := fun _ h => nomatch h

theorem mem_msetAll {kvs : List (Str × Str)} {m : Map Str} {e : Str × Str} (h : e ∈ msetAll m kvs) : e ∈ m ∨ e ∈ kvs := by
  induction kvs generalizing m with
  | nil => exact .inl h
  | cons x kvs ih =>
    rw [msetAll_cons] at h
    rcases ih h with h | h
    · rcases mem_mset h with h | h
      · exact .inr (by rw [h]; exact List.mem_cons_self)
      · exact .inl h
    · exact .inr (List.mem_cons_of_mem _ h)

theorem ValidMap.msetAll {m kvs : List (Str × Str)} (h : ValidMap m) (h' : ValidMap kvs) : ValidMap (msetAll m kvs) := by
  intro e he
  rcases mem_msetAll he with he | he
  · exact h e he
  · exact h' e he

theorem entries_valid {as : AttrList} (h : ValidAttrs as) : ValidMap (entries as) := by
  intro e he
  unfold entries at he
  rw [List.mem_map] at he
  obtain ⟨a, ha, rfl⟩ := he
  rw [List.mem_flatten] at ha
  obtain ⟨al, hal, ha⟩ := ha
  exact (h al hal a ha).2

theorem mapOf_valid {as : AttrList} (h : ValidAttrs as) : ValidMap (mapOf as) := ValidMap.nil.msetAll (entries_valid h)

theorem ValidMap.append {a b : List (Str × Str)} (h : ValidMap a) (h' : ValidMap b) : ValidMap (a ++ b) := by
  intro e he
  rcases List.mem_append.1 he with he | he
  · exact h e he
  · exact h' e he

theorem defaults_valid : ∀ (pre : List Stmt), PrintableStmts pre →
    ValidMap (nodeDefaultEntries pre) ∧ ValidMap (edgeDefaultEntries pre) ∧ ValidMap (graphDefaultEntries pre)
  | [], _ => ⟨.nil, .nil, .nil⟩
  | s :: ss, h => by
    obtain ⟨h1, h2⟩ := h
    obtain ⟨i1, i2, i3⟩ := defaults_valid ss h2
    cases s with
    | nodeAttrs as => exact ⟨(entries_valid h1).append i1, i2, i3⟩
    | edgeAttrs as => exact ⟨i1, (entries_valid h1).append i2, i3⟩
    | graphAttrs as => exact ⟨i1, i2, (entries_valid h1).append i3⟩
    | node _ _ => exact ⟨i1, i2, i3⟩
    | edge _ _ _ => exact ⟨i1, i2, i3⟩
    | sub _ _ => exact ⟨i1, i2, i3⟩
    | attr _ => exact ⟨i1, i2, i3⟩

/-- What holds at every statement of a printable tree. -/
structure OccOk (sc : Scope) (pre : List Stmt) (s : Stmt) : Prop where
  stmt : PrintableStmt s
  pre : PrintableStmts pre
  node : ValidMap sc.inhNode
  edge : ValidMap sc.inhEdge

theorem OccOk.nodeDefaults {sc : Scope} {pre : List Stmt} {s : Stmt} (h : OccOk sc pre s) : ValidMap (sc.nodeDefaults pre) :=
  h.node.msetAll (defaults_valid pre h.pre).1

theorem OccOk.edgeDefaults {sc : Scope} {pre : List Stmt} {s : Stmt} (h : OccOk sc pre s) : ValidMap (sc.edgeDefaults pre) :=
  h.edge.msetAll (defaults_valid pre h.pre).2.1

theorem OccOk.graphDefaults {sc : Scope} {pre : List Stmt} {s : Stmt} (h : OccOk sc pre s) : ValidMap (graphDefaults pre) :=
  ValidMap.nil.msetAll (defaults_valid pre h.pre).2.2

theorem printableRHS_mem {rhs : List EdgeRH} (h : PrintableRHS rhs) : ∀ l ∈ dests rhs, PrintableLoc l := by
  induction rhs with
  | nil => intro l hl; cases hl
  | cons r rest ih =>
    cases r with
    | mk op d =>
      intro l hl
      rcases List.mem_cons.1 hl with rfl | hl
      · exact h.1
      · exact ih h.2 l hl

theorem printable_ends {src : Loc} {rhs : List EdgeRH} {as : AttrList} (h : PrintableStmt (.edge src rhs as)) :
    ∀ l ∈ src :: dests rhs, PrintableLoc l := by
  intro l hl
  simp only [PrintableStmt] at h
  rcases List.mem_cons.1 hl with rfl | hl
  · exact h.1
  · exact printableRHS_mem h.2.2.1 l hl

theorem occurs_ok {t : Ast.Graph} (hp : Printable t) {sc : Scope} {pre : List Stmt} {s : Stmt} (h : Occurs t sc pre s) :
    OccOk sc pre s := by
  have split : ∀ {ss pre : List Stmt} {s : Stmt} {post : List Stmt}, PrintableStmts ss → ss = pre ++ s :: post →
      PrintableStmt s ∧ PrintableStmts pre := by
    intro ss pre s post h e
    rw [e, printableStmts_append] at h
    exact ⟨h.2.1, h.1⟩
  induction h with
  | root e =>
    obtain ⟨h1, h2⟩ := split hp.2 e
    exact ⟨h1, h2, .nil, .nil⟩
  | inSub _ e ih =>
    have := ih.stmt
    simp only [PrintableStmt] at this
    obtain ⟨h1, h2⟩ := split this.2 e
    exact ⟨h1, h2, ih.nodeDefaults, ih.edgeDefaults⟩
  | inEnd _ hl e ih =>
    have := printable_ends ih.stmt _ hl
    simp only [PrintableLoc] at this
    obtain ⟨h1, h2⟩ := split this.2 e
    exact ⟨h1, h2, ih.nodeDefaults, ih.edgeDefaults⟩

/-- What holds of every call made for a printable tree. -/
def CallOk : Call → Prop
  | .addNode _ n m => NodeName n ∧ ValidMap m
  | .addSubGraph _ n m => ValidId n ∧ ValidMap m
  | .addAttr _ _ v => ValidId v
  | .addPortEdge s _ d _ _ m => ValidId s ∧ ValidId d ∧ ValidMap m
  | .setName n => n = [] ∨ ValidId n
  | _ => True

theorem createCall_ok {sc : Scope} {pre : List Stmt} {s : Stmt} (h : OccOk sc pre s) {seen : List Str} {l : Loc} (hl : PrintableLoc l)
    {x : Call} (hx : x ∈ createCall sc pre seen l) : CallOk x := by
  cases l with
  | sub id body => cases hx
  | node n =>
    simp only [createCall] at hx
    split at hx
    · cases hx
    · rw [List.mem_singleton.1 hx]
      exact ⟨.inl hl.1, h.nodeDefaults⟩

theorem getID_valid {l : Loc} (h : PrintableLoc l) : ValidId l.getID := by
  cases l with
  | node n => exact h.1.1
  | sub id body => simp only [PrintableLoc] at h; exact h.1

/-- The text of a printable node is a node name. -/
theorem nodeIDStr_name {n : Ast.NodeID} (h : ValidNode n) : NodeName (Ast.nodeIDStr n) := by
  obtain ⟨id, ⟨p, q⟩⟩ := n
  obtain ⟨h1, h2 | ⟨h2, h3 | h3⟩⟩ := h
  · simp only at h2
    left
    simpa [Ast.nodeIDStr, Ast.portStr, h2] using h1
  · simp only at h2 h3
    have := validId_ne h2.1
    exact .inr (.inl ⟨id, p, by simp [Ast.nodeIDStr, Ast.portStr, h3, this], h1, h2⟩)
  · simp only at h2 h3
    have e1 := validId_ne h2.1
    have e2 := validId_ne h3.1
    exact .inr (.inr ⟨id, p, q, by simp [Ast.nodeIDStr, Ast.portStr, e1, e2], h1, h2, h3⟩)

/-- A node name that is an identifier has no outer white space. -/
theorem nodeName_valid {n : Str} (h : NodeName n) (hid : ValidId n) : ValidName n := by
  refine ⟨hid, ?_⟩
  rcases h with h | ⟨a, p, rfl, ha, hp⟩ | ⟨a, p, q, rfl, ha, hp, hq⟩
  · exact h.2
  · rw [List.append_assoc]
    exact trimSpace_ok ((validName_ok ha).1.append _) (((validName_ok hp).2.append _).append _)
  · simp only [List.append_assoc]
    exact trimSpace_ok ((validName_ok ha).1.append _) (((((validName_ok hq).2.append _).append _).append _).append _)

theorem chainCalls_ok {sc : Scope} {pre : List Stmt} {s : Stmt} (h : OccOk sc pre s) {attrs : Map Str} (ha : ValidMap attrs) :
    ∀ (rhs : List EdgeRH) (seen : List Str) (prev : Loc), (∀ l ∈ prev :: dests rhs, PrintableLoc l) →
    ∀ x ∈ chainCalls sc pre attrs seen prev rhs, CallOk x
  | [], _, _, _ => fun x hx => by cases hx
  | .mk op d :: rest, seen, prev, hl => fun x hx => by
    simp only [chainCalls, List.mem_append, List.mem_singleton] at hx
    rcases hx with (hx | hx) | hx
    · exact createCall_ok h (hl d (by simp [dests])) hx
    · rw [hx]
      exact ⟨getID_valid (hl prev (by simp)), getID_valid (hl d (by simp [dests])), ha⟩
    · exact chainCalls_ok h ha rest _ d (fun l hl' => hl l (List.mem_cons_of_mem _ (by simpa [dests] using hl'))) x hx

theorem occurs_mem {t : Ast.Graph} {sc : Scope} {pre : List Stmt} {s : Stmt} (h : Occurs t sc pre s) : s ∈ allStmts t.stmts := (occurs_where h).1

theorem calls_ok {t : Ast.Graph} (hp : Printable t) : ∀ x ∈ treeCalls t, CallOk x := by
  intro x hx
  simp only [treeCalls, List.mem_append, List.mem_cons, List.not_mem_nil, or_false] at hx
  rcases hx with (rfl | rfl | rfl) | hx
  · trivial
  · trivial
  · exact hp.1
  · obtain ⟨sc, pre, s, ho, hown⟩ := treeCalls_origin hx
    have hok := occurs_ok hp ho
    have hmem := occurs_mem ho
    have hst := hok.stmt
    cases s with
    | node id as =>
      simp only [OwnCall, stmtCalls, List.mem_singleton] at hown
      subst hown
      simp only [PrintableStmt] at hst
      refine ⟨nodeIDStr_name hst.1, ?_⟩
      unfold over
      refine ValidMap.msetAll ?_ (mapOf_valid hst.2)
      split
      · exact .nil
      · exact hok.nodeDefaults
    | edge src rhs as =>
      have hends := printable_ends hst
      simp only [PrintableStmt] at hst
      rcases hown with h | h | ⟨id, body, hl, rfl⟩
      · exact createCall_ok hok (hends src (by simp)) h
      · exact chainCalls_ok hok (ValidMap.msetAll hok.edgeDefaults (mapOf_valid hst.2.2.2)) rhs _ src hends x h
      · have := hends _ hl
        simp only [PrintableLoc] at this
        exact ⟨this.1, hok.graphDefaults⟩
    | nodeAttrs as => simp [OwnCall, stmtCalls] at hown
    | edgeAttrs as => simp [OwnCall, stmtCalls] at hown
    | graphAttrs as =>
      simp only [OwnCall, stmtCalls, List.mem_map] at hown
      obtain ⟨e, he, rfl⟩ := hown
      simp only [PrintableStmt] at hst
      exact mapOf_valid hst e he
    | sub id body =>
      simp only [OwnCall] at hown
      subst hown
      simp only [PrintableStmt] at hst
      exact ⟨hst.1, hok.graphDefaults⟩
    | attr a =>
      simp only [OwnCall, stmtCalls, List.mem_singleton] at hown
      subst hown
      simp only [PrintableStmt] at hst
      exact hst.2

theorem run_replay {xs : List Call} : ∀ {g : Graph}, (∀ x ∈ xs, MapWF x.attrs) →
    (replay graphIface g xs).1 = g.run (xs.map callOp) ∧ OkHistory g (xs.map callOp) := by
  induction xs with
  | nil => intro g _; exact ⟨rfl, trivial⟩
  | cons x xs ih =>
    intro g h
    obtain ⟨h1, h2⟩ := ih (g := (g.step (callOp x)).1) fun y hy => h y (List.mem_cons_of_mem _ hy)
    refine ⟨?_, callOp_ok g (h x List.mem_cons_self), h2⟩
    simp only [replay, List.map_cons, Graph.run]
    rw [graphIface_call]
    exact h1

theorem analysed_run {t : Ast.Graph} {g : Graph} (h : newAnalysedGraph t = .ok g) :
    g = newGraph.run ((treeCalls t).map callOp) ∧ OkHistory newGraph ((treeCalls t).map callOp) := by
  have hp := stmtsCalls_plain t.stmts ⟨t.id, [], []⟩ MapWF.nil MapWF.nil []
  have hw : ∀ x ∈ treeCalls t, MapWF x.attrs := by
    intro x hx
    simp only [treeCalls, List.mem_append, List.mem_cons, List.not_mem_nil, or_false] at hx
    rcases hx with (rfl | rfl | rfl) | h
    · exact MapWF.nil
    · exact MapWF.nil
    · exact MapWF.nil
    · exact (hp x h).2
  obtain ⟨h1, h2⟩ := run_replay (g := newGraph) hw
  refine ⟨?_, h2⟩
  unfold newAnalysedGraph analyse at h
  rw [analyseC_eq] at h
  simp only [Catcher.getError] at h
  cases hes : (replay graphIface newGraph (treeCalls t)).2 with
  | cons e es => rw [hes] at h; cases h
  | nil =>
    rw [hes] at h
    simp only [Except.ok.injEq] at h
    rw [← h, h1]

theorem callOp_mem {t : Ast.Graph} (hc : ∀ x ∈ treeCalls t, CallOk x) {op : Op} (h : op ∈ (treeCalls t).map callOp) :
    ∃ x, CallOk x ∧ callOp x = op := by
  obtain ⟨x, hx, e⟩ := List.mem_map.1 h
  exact ⟨x, hc x hx, e⟩

/-- The graph read from a printable tree can be written and read again. -/
theorem analysed_valid {t : Ast.Graph} {g : Graph} (hp : Printable t) (h : newAnalysedGraph t = .ok g)
    (hcl : ∀ n, ClusterEnd g n → trimSpace n = n) : Reachable g ∧ ValidGraph g := by
  obtain ⟨he, hok⟩ := analysed_run h
  have hc := calls_ok hp
  have hg : Reachable g := by rw [he]; exact Reachable.init.run hok
  obtain ⟨h1, h2, h3, h4, h5, h6, -, h8⟩ := C56_provenance _ hok
  rw [← he] at h1 h2 h3 h4 h5 h6 h8
  have hnode : ∀ {p n m}, Op.addNode p n m ∈ (treeCalls t).map callOp → NodeName n ∧ ValidMap m := by
    intro p n m hm
    obtain ⟨x, hx, e⟩ := callOp_mem hc hm
    cases x <;> cases e
    exact hx
  have hsub : ∀ {p n m}, Op.addSubGraph p n m ∈ (treeCalls t).map callOp → ValidId n ∧ ValidMap m := by
    intro p n m hm
    obtain ⟨x, hx, e⟩ := callOp_mem hc hm
    cases x <;> cases e
    exact hx
  have hoff : ∀ t' k v, Offered (· ∈ (treeCalls t).map callOp) t' k v → ValidId v := by
    rintro t' k v (hm | ⟨p, as, hm, hkv⟩)
    · obtain ⟨x, hx, e⟩ := callOp_mem hc hm
      cases x <;> cases e
      exact hx
    · exact (hsub hm).2 _ hkv
  have hedge : ∀ e ∈ g.edges.edges, ValidId e.src ∧ ValidId e.dst ∧ ValidValues e.attrs := by
    intro e he'
    obtain ⟨kvs, hm, ha⟩ := h8 e he'
    rcases hm with hm | ⟨-, -, hm⟩
    · obtain ⟨x, hx, e'⟩ := callOp_mem hc hm
      cases x <;> cases e'
      refine ⟨hx.1, hx.2.1, fun k v hk => ?_⟩
      rw [ha k] at hk
      exact hx.2.2 _ (entry_mem hk)
    · obtain ⟨x, hx, e'⟩ := callOp_mem hc hm
      cases x <;> cases e'
  have hname : ∀ n, g.isNode n = true → NodeName n := by
    intro n hn
    obtain ⟨p, kvs, hm⟩ := h3 n hn
    exact (hnode hm).1
  refine ⟨hg, ⟨?_, ?_, ?_, ?_, ?_, ?_, ?_⟩⟩
  · rcases h1 with h | h
    · exact .inl h
    · obtain ⟨x, hx, e⟩ := callOp_mem hc h
      cases x <;> cases e
      exact hx
  · intro k v hk
    obtain ⟨t', _, ho⟩ := h2 k v hk
    exact hoff t' k v ho
  · intro n nd hn
    refine ⟨?_, fun k v hk => ?_⟩
    · obtain ⟨p, kvs, hm⟩ := h3 n (by
        cases hi : g.isNode n with
        | true => rfl
        | false => rw [(isNode_find hg.inv n).2 hi] at hn; cases hn)
      exact (hnode hm).1
    · obtain ⟨p, kvs, hm, hkv⟩ := h4 n k v (by unfold nodeValue; rw [hn]; exact hk)
      exact (hnode hm).2 _ hkv
  · intro n s hn
    refine ⟨?_, fun k v hk => hoff n k v (h6 n s k v hn hk)⟩
    obtain ⟨p, kvs, hm⟩ := h5 n (by unfold Graph.isSubGraph mhas; rw [hn]; rfl)
    exact (hsub hm).1
  · intro n hn
    have hc' := hn.2.1
    unfold Graph.isClusterSubGraph at hc'
    obtain ⟨p, kvs, hm⟩ := h5 n (Bool.and_eq_true_iff.1 hc').1
    exact ⟨(hsub hm).1, hcl n hn⟩
  · rintro n hn ⟨e, he', rfl | rfl⟩
    · exact nodeName_valid (hname _ hn) (hedge e he').1
    · exact nodeName_valid (hname _ hn) (hedge e he').2.1
  · intro e he'
    have hport : ∀ {p : Str}, (p = [] ∨ ∃ r, p = 58 :: r) → ValidPort p := by
      rintro p (h | h)
      · exact .inl h
      · exact .inr (.inr (.inr h))
    obtain ⟨h1, h2⟩ := C38_port_stored_partial h e he'
    exact ⟨(hedge e he').2.2, hport h1, hport h2⟩

/-- What is read back can be written and read again. -/
theorem ReadBack.valid {g g' : Graph} (hr : Reachable g) (hr' : Reachable g') (hb : ReadBack g g') (hv : ValidGraph g) (hna : NamesApart g)
    (hcl : NoClusterEnds g) : ValidGraph g' ∧ NamesApart g' ∧ NoClusterEnds g' := by
  have hsn := ReadBack.sameNodes hb hcl
  have hnode := isNode_back hr.inv hr'.inv hsn
  have hsub : ∀ n, g'.isSubGraph n = true → g.isSubGraph n = true := fun n h => isWritten_sub ((hb.subs n).1 h)
  have hedge : ∀ e' ∈ g'.edges.edges, ∃ e ∈ g.edges.edges, edgeRead e = e' := fun e' he' => List.mem_map.1 (hb.edges.mem_iff.2 he')
  have hcl' : NoClusterEnds g' := by
    intro e' he'
    obtain ⟨e, he, rfl⟩ := hedge e' he'
    have key : ∀ n, (g.isNode n = true ∨ g.isClusterSubGraph n = false) → (g'.isNode n = true ∨ g'.isClusterSubGraph n = false) := by
      rintro n (h | h)
      · exact .inl (by rw [hnode, h])
      · refine .inr ?_
        cases hc : g'.isClusterSubGraph n with
        | false => rfl
        | true =>
          unfold Graph.isClusterSubGraph at hc h
          obtain ⟨h1, h2⟩ := Bool.and_eq_true_iff.1 hc
          rw [hsub n h1, h2] at h
          cases h
    exact ⟨key _ (hcl e he).1, key _ (hcl e he).2⟩
  refine ⟨⟨?_, ?_, ?_, ?_, ?_, ?_, ?_⟩, ⟨?_, ?_⟩, hcl'⟩
  · rw [hb.name]; exact hv.name
  · intro k v hk
    rw [hb.attrs] at hk
    exact hv.attrs k v hk
  · intro n nd hn
    rw [find_eq hr.inv hr'.inv hsn] at hn
    exact hv.nodes n nd hn
  · intro n s' hs'
    have hi : g'.isSubGraph n = true := by unfold Graph.isSubGraph mhas; rw [hs']; rfl
    have hi := hsub n hi
    unfold Graph.isSubGraph mhas at hi
    obtain ⟨s, hs⟩ := Option.isSome_iff_exists.1 hi
    obtain ⟨h1, h2⟩ := hv.subs n s hs
    refine ⟨h1, fun k v hk => h2 k v ?_⟩
    rw [← hb.subAttrs n s s' hs hs' k]; exact hk
  · intro n hn
    exact absurd hn (NoClusterEnds.none hcl' n)
  · rintro n hn ⟨e', he', hends⟩
    obtain ⟨e, he, rfl⟩ := hedge e' he'
    rw [hnode] at hn
    exact hv.nodeEnds n hn ⟨e, he, hends⟩
  · intro e' he'
    obtain ⟨e, he, rfl⟩ := hedge e' he'
    obtain ⟨h1, -, -⟩ := hv.edges e he
    have key : ∀ p, ValidPort (portRead p) := by
      intro p
      unfold portRead
      split
      · exact .inl rfl
      · exact .inl rfl
      · exact .inr (.inr (.inr ⟨_, rfl⟩))
    exact ⟨h1, key _, key _⟩
  · rintro n ⟨h1, h2⟩
    rw [hnode] at h1
    exact hna.disjoint n ⟨h1, hsub n h2⟩
  · cases hc : g'.isSubGraph g'.name with
    | false => rfl
    | true =>
      have := hsub _ hc
      rw [hb.name, hna.root] at this
      cases this

theorem plus_mono {R R' : Str → Str → Prop} {P : Str → Prop} (hP : ∀ a b, P a → R' a b → R a b ∧ P b) :
    ∀ {a b : Str}, Star R' a b → P a → Star R a b ∧ P b := by
  intro a b h
  induction h with
  | refl a => exact fun hp => ⟨.refl _, hp⟩
  | head h1 _ ih =>
    intro hp
    obtain ⟨h2, h3⟩ := hP _ _ hp h1
    obtain ⟨h4, h5⟩ := ih h3
    exact ⟨.head h2 h4, h5⟩

/-- No cycle appears by writing and reading. -/
theorem ReadBack.acyclic {g g' : Graph} (hr : Reachable g) (hr' : Reachable g') (hb : ReadBack g g') (hcl : NoClusterEnds g)
    (hac : ∀ m, MustWrite g m → ¬ ReachesCycle g m) : ∀ m, MustWrite g' m → ¬ ReachesCycle g' m := by
  rintro m ⟨hm, -⟩ ⟨k, hk, c, hc1, hc2⟩
  obtain ⟨r, hr1, hr2⟩ := (hb.subs m).1 hm
  have hnode := isNode_back hr.inv hr'.inv (ReadBack.sameNodes hb hcl)
  have hP : ∀ a b, IsWritten g a → SubChild g' a b → SubChild g a b ∧ IsWritten g b := by
    rintro a b ⟨r, hr1, hr2⟩ ⟨h1, h2, h3⟩
    have hw : IsWritten g a := ⟨r, hr1, hr2⟩
    have : SubChild g a b := ⟨by rw [← hb.children a hw b]; exact h1, by rw [← hnode]; exact h2, isWritten_sub ((hb.subs b).1 h3)⟩
    exact ⟨this, r, hr1, hr2.trans (.head this (.refl _))⟩
  have hwm : IsWritten g m := ⟨r, hr1, hr2⟩
  obtain ⟨h1, h2⟩ := plus_mono hP hk hwm
  obtain ⟨h3, h4⟩ := hP _ _ h2 hc1
  obtain ⟨h5, -⟩ := plus_mono hP hc2 h4
  exact hac r hr1 ⟨k, hr2.trans h1, c, h3, h5⟩

/-- A graph that can be read can be written at any sufficient depth, always the same text. -/
theorem analysed_string {t : Ast.Graph} {g : Graph} (h : newAnalysedGraph t = .ok g) (hac : ∀ n, MustWrite g n → ¬ ReachesCycle g n)
    {sortE : List Edge → List Edge} (hs : SortContract sortE) :
    ∃ t', ∀ f, g.subGraphs.length < f → writeAst sortE f g = .ok t' ∧ graphString sortE f g = .ok (Ast.graphStr t') := by
  obtain ⟨t', ht'⟩ := C27_read_then_write h hac hs
  refine ⟨t', fun f hf => ⟨ht' f hf, ?_⟩⟩
  unfold graphString
  rw [ht' f hf]

theorem read_analysed {rnd : Nat → Nat} {cnt : Nat} {src : Str} {g : Graph} (h : Parse.read rnd cnt src = .ok g) :
    ∃ t n, parseBytes rnd cnt src = .ok t n ∧ newAnalysedGraph t = .ok g := by
  unfold Parse.read at h
  cases hp : parseBytes rnd cnt src with
  | ok t n =>
    rw [hp] at h
    cases hn : newAnalysedGraph t with
    | ok g' => simp only [hn, ReadRes.ok.injEq] at h; exact ⟨t, n, rfl, by rw [hn, h]⟩
    | error m => simp [hn] at h
  | _ => simp [hp] at h

/-- C60 (partial). Formatting is idempotent: read a text, write the graph; read what was written and write it again: the same bytes. Proved
for texts without ports at the ends of edges whose identifiers have no white space around them that the printer would trim, when no name is used both for a node
and a subgraph or for the root and a subgraph, no edge ends at a cluster and no written subgraph contains itself. The order in which
`sort.Sort` leaves equal edges (`sortE`, `sortE'`) and the random names are arbitrary and need not be the same in the two runs. -/
theorem C60_format_idempotent_partial (rnd : Nat → Nat) (cnt : Nat) {src : Str} {t : Ast.Graph} {n : Nat} (hparse : parseBytes rnd cnt src = .ok t n)
    (htrim : ∀ s ∈ idents t, trimSpace s = s) {g : Graph} (hread : Parse.read rnd cnt src = .ok g)
    (hnp : NoPorts g) (hna : NamesApart g) (hcl : NoClusterEnds g) (hac : ∀ m, MustWrite g m → ¬ ReachesCycle g m)
    {sortE sortE' : List Edge → List Edge} (hs : SortContract sortE) (hs' : SortContract sortE') (rnd' : Nat → Nat) (cnt' : Nat) :
    ∃ text g', ∀ f, g.subGraphs.length < f →
      graphString sortE f g = .ok text ∧ Parse.read rnd' cnt' text = .ok g' ∧ graphString sortE' f g' = .ok text := by
  have hp := C36_parsed_printable rnd cnt src hparse htrim
  obtain ⟨t1, n1, hp1, hg⟩ := read_analysed hread
  rw [hparse] at hp1
  cases hp1
  obtain ⟨hr, hv⟩ := analysed_valid hp hg fun n hn => absurd hn (NoClusterEnds.none hcl n)
  obtain ⟨t', ht'⟩ := analysed_string hg hac hs
  refine ⟨Ast.graphStr t', ?_⟩
  have hall : ∀ f, g.subGraphs.length < f → ∃ g', graphString sortE f g = .ok (Ast.graphStr t') ∧
      Parse.read rnd' cnt' (Ast.graphStr t') = .ok g' ∧ graphString sortE' f g' = .ok (Ast.graphStr t') := by
    intro f hf
    obtain ⟨text, g', e1, e2, e3⟩ := C37_same_text hr hv hna hcl hnp hs hs' (ht' f hf).1 rnd' cnt'
    obtain rfl : Ast.graphStr t' = text := by
      have := (ht' f hf).2
      rw [e1] at this
      injection this with h; exact h.symm
    exact ⟨g', e1, e2, e3⟩
  obtain ⟨g', -, e2, -⟩ := hall _ (Nat.lt_succ_self _)
  refine ⟨g', fun f hf => ?_⟩
  obtain ⟨g'', e1, e2', e3⟩ := hall f hf
  rw [e2] at e2'
  cases e2'
  exact ⟨e1, e2, e3⟩

/-- C60 (partial). With ports at the ends of edges formatting is idempotent from the second time on (the first time the ports are dropped
and may decide the order, `C60_ports_not_idempotent`): read and write, read and write, read and write: the last two texts are the same. -/
theorem C60_stable_from_second_partial (rnd : Nat → Nat) (cnt : Nat) {src : Str} {t : Ast.Graph} {n : Nat}
    (hparse : parseBytes rnd cnt src = .ok t n) (htrim : ∀ s ∈ idents t, trimSpace s = s) {g : Graph}
    (hread : Parse.read rnd cnt src = .ok g) (hna : NamesApart g) (hcl : NoClusterEnds g) (hac : ∀ m, MustWrite g m → ¬ ReachesCycle g m)
    {sortE sortE' sortE'' : List Edge → List Edge} (hs : SortContract sortE) (hs' : SortContract sortE') (hs'' : SortContract sortE'')
    (rnd' rnd'' : Nat → Nat) (cnt' cnt'' : Nat) :
    ∃ text g' text' g'', ∀ f, g.subGraphs.length < f → g'.subGraphs.length < f →
      graphString sortE f g = .ok text ∧ Parse.read rnd' cnt' text = .ok g' ∧
      graphString sortE' f g' = .ok text' ∧ Parse.read rnd'' cnt'' text' = .ok g'' ∧ graphString sortE'' f g'' = .ok text' := by
  have hp := C36_parsed_printable rnd cnt src hparse htrim
  obtain ⟨t1, n1, hp1, hg⟩ := read_analysed hread
  rw [hparse] at hp1
  cases hp1
  obtain ⟨hr, hv⟩ := analysed_valid hp hg fun n hn => absurd hn (NoClusterEnds.none hcl n)
  obtain ⟨t1, ht1⟩ := analysed_string hg hac hs
  obtain ⟨text, g', e1, e2, hr', hb⟩ := C37_round_trip hr hv hna hs (ht1 _ (Nat.lt_succ_self _)).1 rnd' cnt'
  obtain rfl : Ast.graphStr t1 = text := by
    have := (ht1 _ (Nat.lt_succ_self _)).2
    rw [e1] at this
    injection this with h; exact h.symm
  obtain ⟨hv', hna', hcl'⟩ := ReadBack.valid hr hr' hb hv hna hcl
  have hac' := ReadBack.acyclic hr hr' hb hcl hac
  have hnp' : NoPorts g' := by
    intro e' he'
    obtain ⟨e, he, rfl⟩ := List.mem_map.1 (hb.edges.mem_iff.2 he')
    have key : ∀ {p : Str}, (p = [] ∨ ∃ r, p = 58 :: r) → portRead p = [] := by rintro p (rfl | ⟨r, rfl⟩) <;> rfl
    obtain ⟨h1, h2⟩ := C38_port_stored_partial hg e he
    exact ⟨key h1, key h2⟩
  obtain ⟨_, _, -, hg'⟩ := read_analysed e2
  obtain ⟨t2, ht2⟩ := analysed_string hg' hac' hs'
  have hall : ∀ f, g'.subGraphs.length < f → ∃ g'', Parse.read rnd'' cnt'' (Ast.graphStr t2) = .ok g'' ∧
      graphString sortE'' f g'' = .ok (Ast.graphStr t2) := by
    intro f hf
    obtain ⟨text, g'', e1, e2, e3⟩ := C37_same_text hr' hv' hna' hcl' hnp' hs' hs'' (ht2 f hf).1 rnd'' cnt''
    obtain rfl : Ast.graphStr t2 = text := by
      have := (ht2 f hf).2
      rw [e1] at this
      injection this with h; exact h.symm
    exact ⟨g'', e2, e3⟩
  obtain ⟨g'', e3, -⟩ := hall _ (Nat.lt_succ_self _)
  refine ⟨Ast.graphStr t1, g', Ast.graphStr t2, g'', fun f hf hf' => ?_⟩
  obtain ⟨g3, e3', e4⟩ := hall f hf'
  rw [e3] at e3'
  cases e3'
  exact ⟨(ht1 f hf).2, e2, (ht2 f hf').2, e3, e4⟩

/-! ### limits and a concrete case -/

/-- Read a text and write the graph (the order of equal edges is that of insertion). -/
def format (s : Str) : Option Str :=
  match Parse.read (fun k => k) 0 s with
  | .ok g => match graphString edgeInsertionSort 5 g with
    | .ok s => some s
    | _ => none
  | _ => none

/-- C60. With ports formatting is not idempotent: the edges are sorted by their ports, which are not written; the second time they are sorted
by their labels. -/
theorem C60_ports_not_idempotent :
    format (b!"digraph { a:z->b[label=1]; a:y->b[label=2] }") = some (b!"digraph  {\n\ta->b [ label=2 ];\n\ta->b [ label=1 ];\n\ta;\n\tb;\n}\n") ∧
    format (b!"digraph  {\n\ta->b [ label=2 ];\n\ta->b [ label=1 ];\n\ta;\n\tb;\n}\n") =
      some (b!"digraph  {\n\ta->b [ label=1 ];\n\ta->b [ label=2 ];\n\ta;\n\tb;\n}\n") := by decide +kernel

/-- C60. The condition on the name of the graph is needed: a text in which a subgraph has the name of the graph is read, but the graph cannot
be written (the writer recurses for ever), whatever else is in the text, because the subgraph has become one of its own children. -/
theorem C60_root_name_clash {t : Ast.Graph} {g : Graph} (h : newAnalysedGraph t = .ok g) {body : List Stmt} (hsub : .sub t.id body ∈ t.stmts)
    (hd : NamesDisjoint g) {sortE : List Edge → List Edge} (hs : SortContract sortE) (f : Nat) : graphString sortE f g = .diverge := by
  obtain ⟨hr, hn, -, -, heff⟩ := analysed_effect h
  obtain ⟨pre, post, e⟩ := List.append_of_mem hsub
  have hmem : Call.addSubGraph t.id t.id (graphDefaults pre) ∈ stmtsCalls ⟨t.id, [], []⟩ [] t.stmts := by
    rw [e, stmtsCalls_append]
    refine List.mem_append_right _ ?_
    simp only [stmtsCalls, stmtCalls, List.nil_append]
    exact List.mem_append_left _ List.mem_cons_self
  have hiss : g.isSubGraph t.id = true := by
    rw [← abs_isSub, heff.sub]
    exact .inr ⟨_, _, hmem⟩
  have hisn : g.isNode t.id = false := by
    cases hx : g.isNode t.id with
    | false => rfl
    | true => exact absurd ⟨hx, hiss⟩ (hd t.id)
  have hch : mhas (g.relations.children t.id) t.id = true := by
    have : (abs g).contains t.id t.id = true := by
      rw [heff.contains]
      exact .inr (.inr ⟨_, hmem⟩)
    exact this
  have hm : MustWrite g t.id := ⟨hiss, .inl (by rw [hn]; exact hch)⟩
  have hc : ReachesCycle g t.id := ⟨t.id, .refl _, ⟨t.id, ⟨hch, hisn, hiss⟩, .refl _⟩⟩
  unfold graphString
  rcases C27_exactly h hd hs with ⟨h1, -⟩ | ⟨-, h1⟩
  · exact absurd hc (h1 _ hm)
  · rw [h1 f]

/-- The hypotheses are met by `digraph G { subgraph G { b; }; }`. -/
example : ∃ g, newAnalysedGraph ⟨true, false, b!"G", [.sub (b!"G") [.node ⟨b!"b", ⟨[], []⟩⟩ []]]⟩ = .ok g ∧ NamesDisjoint g := by
  refine ⟨_, rfl, ?_⟩
  rintro n ⟨h1, h2⟩
  have h1 := (mhas_iff _ _).1 h1
  have h2 := (mhas_iff _ _).1 h2
  revert h1 h2
  generalize hg : mkeys _ = l1
  generalize hg' : mkeys _ = l2
  have e1 : l1 = [b!"b"] := by rw [← hg]; decide +kernel
  have e2 : l2 = [b!"G"] := by rw [← hg']; decide +kernel
  subst e1; subst e2
  intro h1 h2
  rw [List.mem_singleton.1 h1] at h2
  revert h2; decide

/-- C60. Without the condition on clusters formatting loses data: here the second time it drops the subgraph `cluster_x` and takes its node
`b` out of `S`. (The first time the end of the edge is written as the node `cluster_x`; the second time that node is the child of `S`.) -/
theorem C60_cluster_lost :
    format (b!"digraph G { subgraph S { subgraph cluster_x { b } } a -> subgraph cluster_x {} }") =
      some (b!"digraph G {\n\ta->cluster_x;\n\tsubgraph S {\n\t\tsubgraph cluster_x {\n\t\t\tb;\n\t\t};\n\t};\n\ta;\n}\n") ∧
    format (b!"digraph G {\n\ta->cluster_x;\n\tsubgraph S {\n\t\tsubgraph cluster_x {\n\t\t\tb;\n\t\t};\n\t};\n\ta;\n}\n") =
      some (b!"digraph G {\n\ta->cluster_x;\n\tsubgraph S {\n\t\tcluster_x;\n\t};\n\ta;\n\tb;\n}\n") := by decide +kernel

instance (g : Graph) : Decidable (NoPorts g) := by unfold NoPorts; infer_instance
instance (g : Graph) : Decidable (NoClusterEnds g) := by unfold NoClusterEnds; infer_instance

/-- A text with defaults, chains, node statements with ports, nested subgraphs, and subgraphs as ends of edges. -/
def formatSample : Str := b!"digraph G { node [shape=box]; a -> b -> {c d} [label=x]; subgraph S { e; e:p [color=blue]; subgraph T { f; f:q:ne } } g -> subgraph U { node [color=red]; h } }"

/-- A text with ports at the ends of edges, a cluster, and a subgraph as end of an edge. -/
def portSample : Str := b!"digraph G { a:z -> b:y:n [label=1]; a:y -> b [label=2]; subgraph cluster_x { e; f } g:n -> { h } }"

/-- A test for the hypotheses of the theorems above. -/
def formatB (s : Str) : Bool :=
  match parseBytes (fun k => k) 0 s with
  | .ok t _ => (idents t).all (fun s => decide (trimSpace s = s)) &&
    match newAnalysedGraph t with
    | .ok g => (mkeys g.nodes.lookup).all (fun n => decide (n ∉ mkeys g.subGraphs)) && decide (g.isSubGraph g.name = false) &&
      decide (NoClusterEnds g) && match writeAst edgeInsertionSort 8 g with
        | .ok _ => true
        | _ => false
    | _ => false
  | _ => false

theorem formatB_ok {src : Str} (h : formatB src = true) : ∃ t n g, parseBytes (fun k => k) 0 src = .ok t n ∧
    (∀ s ∈ idents t, trimSpace s = s) ∧ Parse.read (fun k => k) 0 src = .ok g ∧ NamesApart g ∧ NoClusterEnds g ∧
    (∀ m, MustWrite g m → ¬ ReachesCycle g m) := by
  unfold formatB at h
  split at h
  · rename_i t n hp
    split at h
    · rename_i g hg
      simp only [Bool.and_eq_true] at h
      obtain ⟨h1, ⟨⟨h3, h4⟩, h5⟩, h6⟩ := h
      split at h6
      · rename_i t' ht'
        have hd : NamesDisjoint g := by
          rintro n ⟨e1, e2⟩
          have e1 := (mhas_iff _ _).1 e1
          have e2 := (mhas_iff _ _).1 e2
          exact of_decide_eq_true (List.all_eq_true.1 h3 n e1) e2
        refine ⟨t, n, g, hp, fun s hs => of_decide_eq_true (List.all_eq_true.1 h1 s hs), ?_, ⟨hd, of_decide_eq_true h4⟩,
          of_decide_eq_true h5, ?_⟩
        · unfold Parse.read
          rw [hp]
          simp only [hg]
        · intro m hm hc
          exact C16_cycle_never_succeeds (analysed_effect hg).1 C14_sort_exists hd hm hc 8 t' ht'
      · cases h6
    · simp at h
  · cases h

theorem read_check {src : Str} {g : Graph} (hg : Parse.read (fun k => k) 0 src = .ok g) {P : Graph → Bool}
    (h : (match Parse.read (fun k => k) 0 src with | .ok g => P g | _ => false) = true) : P g = true := by
  rw [hg] at h; exact h

/-- The hypotheses of `C60_format_idempotent_partial` are met by the first sample. -/
theorem example_format : ∃ t n g, parseBytes (fun k => k) 0 formatSample = .ok t n ∧ (∀ s ∈ idents t, trimSpace s = s) ∧
    Parse.read (fun k => k) 0 formatSample = .ok g ∧ NoPorts g ∧ NamesApart g ∧ NoClusterEnds g ∧
    (∀ m, MustWrite g m → ¬ ReachesCycle g m) := by
  obtain ⟨t, n, g, h1, h2, h4, h5, h6, h7⟩ := formatB_ok (src := formatSample) (by decide +kernel)
  exact ⟨t, n, g, h1, h2, h4, of_decide_eq_true (read_check h4 (P := fun g => decide (NoPorts g)) (by decide +kernel)), h5, h6, h7⟩

/-- The hypotheses of `C60_stable_from_second_partial` are met by the second sample, which has ports. -/
theorem example_format_ports : ∃ t n g, parseBytes (fun k => k) 0 portSample = .ok t n ∧ (∀ s ∈ idents t, trimSpace s = s) ∧
    Parse.read (fun k => k) 0 portSample = .ok g ∧ ¬ NoPorts g ∧ NamesApart g ∧ NoClusterEnds g ∧
    (∀ m, MustWrite g m → ¬ ReachesCycle g m) := by
  obtain ⟨t, n, g, h1, h2, h4, h5, h6, h7⟩ := formatB_ok (src := portSample) (by decide +kernel)
  exact ⟨t, n, g, h1, h2, h4, of_decide_eq_true (read_check h4 (P := fun g => decide (¬ NoPorts g)) (by decide +kernel)), h5, h6, h7⟩

end Gographviz.Props
