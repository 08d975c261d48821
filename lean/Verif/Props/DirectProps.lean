import Verif.Proofs.Direct
/-!
Property C65: the exported containers used directly.
-/
namespace Gographviz.Props

open Gographviz Spec Spec.Direct

/-! ### Agreement -/

/-- C65. After every history of calls, slice and map of every `Nodes` agree. -/
theorem C65_nodes (os : List DOp) (ns : DNodes) (h : ns ∈ (Direct.empty.run os).nodesCs) : NodesAgree (Direct.empty.run os) ns :=
  ((DInv.empty.run os).nodes ns h).1

/-- C65. After every history of calls, the two maps of every `Edges` have exactly the edges of its slice. -/
theorem C65_edges (os : List DOp) (es : DEdges) (h : es ∈ (Direct.empty.run os).edgesCs) : EdgesAgree (Direct.empty.run os) es :=
  (DInv.empty.run os).edges es h

/-- C65. After every history of calls, the two maps of every `Relations` are inverse to each other. -/
theorem C65_relations (os : List DOp) (r : Relations) (h : r ∈ (Direct.empty.run os).relations) (p c : Str) :
    mget (r.children p) c = mget (r.parents c) p := by
  have hr := (DInv.empty.run os).rels r h
  have h1 := hr.inv p c
  unfold mhas at h1
  cases hc : mget (r.children p) c with
  | none => rw [hc] at h1; cases hp : mget (r.parents c) p with
    | none => rfl
    | some b => rw [hp] at h1; cases h1
  | some b => rw [hc] at h1; cases hp : mget (r.parents c) p with
    | none => rw [hp] at h1; cases h1
    | some b' => rw [hr.tt _ _ _ hc, hr.tt2 _ _ _ hp]

/-- C65. After every history of calls, every `SubGraphs` has its subgraphs under their names. -/
theorem C65_subgraphs (os : List DOp) (m : Map Nat) (h : m ∈ (Direct.empty.run os).subGraphs) (n : Str) (p : Nat) (hp : mget m n = some p) :
    ((Direct.empty.run os).subs[p]?).map DSub.name = some n :=
  ((DInv.empty.run os).subs m h).2 n p hp

/-- C65. Maps made with `NewAttrs`, `Copy` and `NewSubGraph` never get an unregistered name. -/
theorem C65_registered (os : List DOp) (m : Attrs) (h : m ∈ (Direct.empty.run os).maps) : ∀ e ∈ m, Registered e.1 :=
  ((DInv.empty.run os).maps m h).reg

/-- C65. `Nodes.Sorted` shows each node of the slice once, in ascending order of the names. -/
theorem C65_nodes_sorted (os : List DOp) (ns : DNodes) (h : ns ∈ (Direct.empty.run os).nodesCs) :
    ∃ l : List Nat, ns.sorted = l.map some ∧ l.Perm ns.list ∧
      l.Pairwise fun p q => ∃ a b, nodeName (Direct.empty.run os) p = some a ∧ nodeName (Direct.empty.run os) q = some b ∧ slt a b = true := by
  obtain ⟨ha, hw⟩ := (DInv.empty.run os).nodes ns h
  generalize Direct.empty.run os = d at h ha
  have hnd : (ns.lookup.map Prod.snd).Nodup := by
    unfold List.Nodup
    rw [List.pairwise_map]
    refine List.Pairwise.imp_of_mem ?_ hw
    intro a b ha' hb hab hne
    have h1 := ((ha.lookup a.1 a.2).mp (mget_of_mem hw ha')).2
    have h2 := ((ha.lookup b.1 b.2).mp (mget_of_mem hw hb)).2
    rw [hne, h2] at h1
    rw [Option.some.inj h1, slt_irrefl] at hab
    cases hab
  refine ⟨ns.lookup.map Prod.snd, ?_, ?_, ?_⟩
  · unfold DNodes.sorted
    rw [mkeys_ssort hw]
    unfold mkeys
    rw [List.map_map, List.map_map]
    refine List.map_congr_left fun e he => ?_
    exact mget_of_mem hw he
  · refine (List.perm_ext_iff_of_nodup hnd ha.once).mpr fun p => ?_
    rw [List.mem_map]
    constructor
    · rintro ⟨e, he, rfl⟩
      exact ((ha.lookup e.1 e.2).mp (mget_of_mem hw he)).1
    · intro hp
      obtain ⟨n, hn⟩ : ∃ n, nodeName d p = some n := by
        have := ha.exist p hp
        exact ⟨_, by simp only [nodeName, List.getElem?_eq_getElem this]; rfl⟩
      exact ⟨(n, p), mem_of_mget ((ha.lookup n p).mpr ⟨hp, hn⟩), rfl⟩
  · rw [List.pairwise_map]
    refine List.Pairwise.imp_of_mem ?_ hw
    intro a b ha' hb hab
    exact ⟨a.1, b.1, ((ha.lookup a.1 a.2).mp (mget_of_mem hw ha')).2, ((ha.lookup b.1 b.2).mp (mget_of_mem hw hb)).2, hab⟩

/-! ### Histories -/

theorem attrsExtend_frame (d : Direct) (a b : Option Nat) : ∃ ms, (d.attrsExtend a b).1 = { d with maps := ms } := by
  unfold Direct.attrsExtend
  cases a with
  | none => simp only; split <;> exact ⟨d.maps, rfl⟩
  | some i => exact ⟨_, rfl⟩

theorem nodesAdd_frame (d : Direct) (c p : Nat) : ∃ ms cs, (d.nodesAdd c p).1 = { d with maps := ms, nodesCs := cs } := by
  unfold Direct.nodesAdd
  cases d.nodesCs[c]? with
  | none => exact ⟨d.maps, d.nodesCs, rfl⟩
  | some ns =>
    cases d.nodes[p]? with
    | none => exact ⟨d.maps, d.nodesCs, rfl⟩
    | some node =>
      simp only
      cases mget ns.lookup node.name with
      | none => exact ⟨d.maps, _, rfl⟩
      | some q =>
        simp only
        cases d.nodes[q]? with
        | none => exact ⟨d.maps, d.nodesCs, rfl⟩
        | some n =>
          obtain ⟨ms, e⟩ := attrsExtend_frame d n.attrs node.attrs
          exact ⟨ms, d.nodesCs, by simp only [e]⟩

/-- Objects are never changed, except maps; new ones are appended. -/
theorem step_nodes (d : Direct) (o : DOp) : ∃ more, (d.step o).1.nodes = d.nodes ++ more := by
  cases o with
  | newNode n a => exact ⟨[⟨n, a⟩], rfl⟩
  | nodesAdd c p =>
    obtain ⟨ms, cs, e⟩ := nodesAdd_frame d c p
    exact ⟨[], by simp only [Direct.step, e]; simp⟩
  | attrsExtend a b =>
    obtain ⟨ms, e⟩ := attrsExtend_frame d a b
    exact ⟨[], by simp only [Direct.step, e]; simp⟩
  | _ =>
    refine ⟨[], ?_⟩
    simp only [Direct.step, Direct.newAttrs, Direct.attrsAdd, Direct.attrsAmmend, Direct.attrsCopy, Direct.nodesRemove, Direct.edgesAdd,
      Direct.subGraphsAdd, Direct.subGraphsRemove, List.append_nil]
    try (repeat' split)
    all_goals rfl

theorem run_nodes (d : Direct) (os : List DOp) : ∃ more, (d.run os).nodes = d.nodes ++ more := by
  induction os generalizing d with
  | nil => exact ⟨[], by simp [Direct.run]⟩
  | cons o os ih =>
    obtain ⟨m1, h1⟩ := step_nodes d o
    obtain ⟨m2, h2⟩ := ih (d.step o).1
    exact ⟨m1 ++ m2, by rw [Direct.run, h2, h1, List.append_assoc]⟩

theorem run_name {d : Direct} (os : List DOp) {p : Nat} (h : p < d.nodes.length) : nodeName (d.run os) p = nodeName d p := by
  obtain ⟨more, e⟩ := run_nodes d os
  simp [nodeName, e, List.getElem?_append_left h]

/-- One call, seen from one container. -/
theorem step_slice {d : Direct} (h : DInv d) {o : DOp} (hk : Known d o) {c : Nat} {ns : DNodes} (hc : d.nodesCs[c]? = some ns) :
    ∃ ns', (d.step o).1.nodesCs[c]? = some ns' ∧ ns'.list = match nodesCall c o with
      | some k => sliceAfter (nodeName d) ns.list k
      | none => ns.list := by
  have hcl := (List.getElem?_eq_some_iff.mp hc).1
  cases o with
  | newNodes =>
    exact ⟨ns, by simp only [Direct.step]; rw [List.getElem?_append_left hcl]; exact hc, rfl⟩
  | nodesAdd c' p =>
    obtain ⟨h1, h2⟩ := hk
    obtain ⟨ns', hc'⟩ : ∃ ns', d.nodesCs[c']? = some ns' := ⟨_, List.getElem?_eq_getElem h1⟩
    obtain ⟨node, hp⟩ : ∃ n, d.nodes[p]? = some n := ⟨_, List.getElem?_eq_getElem h2⟩
    have hpn : nodeName d p = some node.name := by simp [nodeName, hp]
    rcases nodesAdd_cases h hc' hp with ⟨q, m, hq, hm, hn, _, he⟩ | ⟨hno, _, he⟩
    · obtain ⟨ms, e⟩ := attrsExtend_frame d m.attrs node.attrs
      refine ⟨ns, by simp only [Direct.step, he, e]; exact hc, ?_⟩
      simp only [nodesCall]
      by_cases hcc : c' = c
      · subst hcc
        rw [hc] at hc'
        cases hc'
        simp only [if_true, sliceAfter]
        rw [if_pos]
        rw [List.any_eq_true]
        exact ⟨q, hq, by simp [nodeName, hp, hm, hn]⟩
      · simp only [hcc, if_false]
    · simp only [Direct.step, he, nodesCall]
      by_cases hcc : c' = c
      · subst hcc
        rw [hc] at hc'
        cases hc'
        refine ⟨_, by rw [List.getElem?_set_self h1], ?_⟩
        simp only [if_true, sliceAfter]
        rw [if_neg]
        rw [List.any_eq_true]
        rintro ⟨q, hq, hqe⟩
        rw [hpn, beq_iff_eq] at hqe
        exact hno q hq hqe
      · exact ⟨ns, by rw [List.getElem?_set_ne hcc]; exact hc, by simp only [hcc, if_false]⟩
  | nodesRemove c' n =>
    obtain ⟨ns', hc'⟩ : ∃ ns', d.nodesCs[c']? = some ns' := ⟨_, List.getElem?_eq_getElem hk⟩
    rcases nodesRemove_cases h hc' n with ⟨_, he⟩ | ⟨hno, he⟩
    · simp only [Direct.step, he, nodesCall]
      by_cases hcc : c' = c
      · subst hcc
        rw [hc] at hc'
        cases hc'
        exact ⟨_, by rw [List.getElem?_set_self hk], by simp only [if_true, sliceAfter]⟩
      · exact ⟨ns, by rw [List.getElem?_set_ne hcc]; exact hc, by simp only [hcc, if_false]⟩
    · refine ⟨ns, by simp only [Direct.step, he]; exact hc, ?_⟩
      simp only [nodesCall]
      by_cases hcc : c' = c
      · subst hcc
        rw [hc] at hc'
        cases hc'
        simp only [if_true, sliceAfter]
        symm
        rw [List.filter_eq_self]
        intro q hq
        simpa using hno q hq
      · simp only [hcc, if_false]
  | attrsExtend a b =>
    obtain ⟨ms, e⟩ := attrsExtend_frame d a b
    exact ⟨ns, by simp only [Direct.step, e]; exact hc, rfl⟩
  | _ =>
    refine ⟨ns, ?_, rfl⟩
    simp only [Direct.step, Direct.newAttrs, Direct.attrsAdd, Direct.attrsAmmend, Direct.attrsCopy, Direct.edgesAdd, Direct.subGraphsAdd, Direct.subGraphsRemove]
    try (repeat' split)
    all_goals exact hc

theorem sliceAfter_congr {f g : Nat → Option Str} {l : List Nat} {k : NodesCall} (h : ∀ p ∈ l, f p = g p) (hk : ∀ p, k = .add p → f p = g p) :
    sliceAfter f l k = sliceAfter g l k := by
  cases k with
  | add p =>
    simp only [sliceAfter]
    rw [hk p rfl]
    have : (l.any fun q => f q == g p) = l.any fun q => g q == g p := by
      rw [Bool.eq_iff_iff, List.any_eq_true, List.any_eq_true]
      exact ⟨fun ⟨q, hq, e⟩ => ⟨q, hq, by rw [← h q hq]; exact e⟩, fun ⟨q, hq, e⟩ => ⟨q, hq, by rw [h q hq]; exact e⟩⟩
    rw [this]
  | remove n =>
    simp only [sliceAfter]
    exact List.filter_congr fun q hq => by rw [h q hq]

theorem history {d : Direct} (h : DInv d) (os : List DOp) (hs : Sensible d os) {c : Nat} {ns : DNodes} (hc : d.nodesCs[c]? = some ns) :
    ∃ ns', (d.run os).nodesCs[c]? = some ns' ∧
      ns'.list = (os.filterMap (nodesCall c)).foldl (sliceAfter (nodeName (d.run os))) ns.list := by
  induction os generalizing d ns with
  | nil => exact ⟨ns, hc, rfl⟩
  | cons o os ih =>
    obtain ⟨hk, hs⟩ := hs
    obtain ⟨ns1, h1, h2⟩ := step_slice h hk hc
    obtain ⟨ns2, h3, h4⟩ := ih (h.step o) hs h1
    refine ⟨ns2, h3, ?_⟩
    rw [h4, h2]
    simp only [Direct.run, List.filterMap_cons]
    cases hn : nodesCall c o with
    | none => rfl
    | some k =>
      simp only [List.foldl_cons]
      congr 1
      have hrun : d.run (o :: os) = (d.step o).1.run os := rfl
      refine sliceAfter_congr (fun p hp => ?_) fun p hp => ?_
      · rw [← hrun, run_name (o :: os) ((h.nodes ns (List.mem_of_getElem? hc)).1.exist p hp)]
      · subst hp
        rw [← hrun]
        refine (run_name (o :: os) ?_).symm
        cases o <;> simp only [nodesCall] at hn <;> try (cases hn)
        · rename_i c' p'
          split at hn
          · cases hn; exact hk.2
          · cases hn
        · split at hn <;> cases hn

/-- C65. The slice of a `Nodes` is what the calls on this container say, whatever else happens to the objects and to other containers: `Add`
appends a node unless there is one with its name, `Remove` takes out the node with the name; the order of the others stays. -/
theorem C65_nodes_history (before os : List DOp) (hs : Sensible (Direct.empty.run before) os) {c : Nat} {ns : DNodes}
    (hc : (Direct.empty.run before).nodesCs[c]? = some ns) :
    ∃ ns', ((Direct.empty.run before).run os).nodesCs[c]? = some ns' ∧
      ns'.list = (os.filterMap (nodesCall c)).foldl (sliceAfter (nodeName ((Direct.empty.run before).run os))) ns.list :=
  history (DInv.empty.run before) os hs hc

/-- C65. The slice of an `Edges` has the edges added, in order (an edge added twice is there twice). -/
theorem C65_edges_history (d : Direct) (os : List DOp) (hs : Sensible d os) {c : Nat} {es : DEdges} (hc : d.edgesCs[c]? = some es) :
    ∃ es', (d.run os).edgesCs[c]? = some es' ∧ es'.edges = es.edges ++ edgesAdded c os := by
  induction os generalizing d es with
  | nil => exact ⟨es, hc, by simp [edgesAdded]⟩
  | cons o os ih =>
    obtain ⟨hk, hs⟩ := hs
    have hcl := (List.getElem?_eq_some_iff.mp hc).1
    have keep : (d.step o).1.edgesCs[c]? = some es → edgesAdded c (o :: os) = edgesAdded c os →
        ∃ es', (d.run (o :: os)).edgesCs[c]? = some es' ∧ es'.edges = es.edges ++ edgesAdded c (o :: os) := by
      intro h1 h2
      obtain ⟨es', h3, h4⟩ := ih _ hs h1
      exact ⟨es', h3, by rw [h4, h2]⟩
    cases o with
    | newEdges => exact keep (by simp only [Direct.step]; rw [List.getElem?_append_left hcl]; exact hc) rfl
    | edgesAdd c' p =>
      obtain ⟨h1, h2⟩ := hk
      obtain ⟨es1, hc'⟩ : ∃ es', d.edgesCs[c']? = some es' := ⟨_, List.getElem?_eq_getElem h1⟩
      obtain ⟨e, hp⟩ : ∃ n, d.edges[p]? = some n := ⟨_, List.getElem?_eq_getElem h2⟩
      by_cases hcc : c' = c
      · subst hcc
        rw [hc] at hc'
        cases hc'
        have hst : (d.step (.edgesAdd c' p)).1.edgesCs[c']? = some ⟨edgeIndexAdd es.srcToDsts e.src e.dst p,
            edgeIndexAdd es.dstToSrcs e.dst e.src p, es.edges ++ [p]⟩ := by
          simp only [Direct.step, Direct.edgesAdd, hc, hp]
          rw [List.getElem?_set_self h1]
        obtain ⟨es', h3, h4⟩ := ih _ hs hst
        exact ⟨es', h3, by rw [h4]; simp [edgesAdded]⟩
      · refine keep ?_ (by simp [edgesAdded, hcc])
        simp only [Direct.step, Direct.edgesAdd, hc', hp]
        rw [List.getElem?_set_ne hcc]; exact hc
    | nodesAdd c' p =>
      obtain ⟨ms, cs, e⟩ := nodesAdd_frame d c' p
      exact keep (by simp only [Direct.step, e]; exact hc) rfl
    | attrsExtend a b =>
      obtain ⟨ms, e⟩ := attrsExtend_frame d a b
      exact keep (by simp only [Direct.step, e]; exact hc) rfl
    | _ =>
      refine keep ?_ rfl
      simp only [Direct.step, Direct.newAttrs, Direct.attrsAdd, Direct.attrsAmmend, Direct.attrsCopy, Direct.nodesRemove, Direct.subGraphsAdd, Direct.subGraphsRemove]
      try (repeat' split)
      all_goals exact hc

/-- C65. A `Relations` relates a pair exactly if the last call about it was `Add`. -/
theorem C65_relations_history (d : Direct) (os : List DOp) (hs : Sensible d os) {c : Nat} {r : Relations} (hc : d.relations[c]? = some r)
    (p ch : Str) : ∃ r', (d.run os).relations[c]? = some r' ∧
      mhas (r'.children p) ch = relatedAfter c p ch (mhas (r.children p) ch) os := by
  induction os generalizing d r with
  | nil => exact ⟨r, hc, rfl⟩
  | cons o os ih =>
    obtain ⟨hk, hs⟩ := hs
    have hcl := (List.getElem?_eq_some_iff.mp hc).1
    have keep : (d.step o).1.relations[c]? = some r → relatedAfter c p ch (mhas (r.children p) ch) (o :: os) = relatedAfter c p ch (mhas (r.children p) ch) os →
        ∃ r', (d.run (o :: os)).relations[c]? = some r' ∧ mhas (r'.children p) ch = relatedAfter c p ch (mhas (r.children p) ch) (o :: os) := by
      intro h1 h2
      obtain ⟨r', h3, h4⟩ := ih _ hs h1
      exact ⟨r', h3, by rw [h4, h2]⟩
    cases o with
    | newRelations => exact keep (by simp only [Direct.step]; rw [List.getElem?_append_left hcl]; exact hc) rfl
    | relationsAdd c' p' ch' =>
      obtain ⟨r1, hc'⟩ : ∃ r', d.relations[c']? = some r' := ⟨_, List.getElem?_eq_getElem hk⟩
      by_cases hcc : c' = c
      · subst hcc
        rw [hc] at hc'
        cases hc'
        have hst : (d.step (.relationsAdd c' p' ch')).1.relations[c']? = some (r.add p' ch') := by
          simp only [Direct.step, hc]
          rw [List.getElem?_set_self hk]
        obtain ⟨r', h3, h4⟩ := ih _ hs hst
        refine ⟨r', h3, ?_⟩
        rw [h4, relatedAfter, Relations.children_add]
        congr 1
        by_cases e : p' = p
        · subst e
          simp only [if_true, mhas_mset, beq_self_eq_true, Bool.true_and]
          by_cases e' : ch' = ch <;> simp [e']
        · simp [e]
      · refine keep ?_ (by simp only [relatedAfter, beq_eq_false_iff_ne.mpr hcc, Bool.false_and, Bool.or_false, Bool.not_false, Bool.and_true])
        simp only [Direct.step, hc']
        rw [List.getElem?_set_ne hcc]; exact hc
    | relationsRemove c' p' ch' =>
      obtain ⟨r1, hc'⟩ : ∃ r', d.relations[c']? = some r' := ⟨_, List.getElem?_eq_getElem hk⟩
      by_cases hcc : c' = c
      · subst hcc
        rw [hc] at hc'
        cases hc'
        have hst : (d.step (.relationsRemove c' p' ch')).1.relations[c']? = some (r.remove p' ch') := by
          simp only [Direct.step, hc]
          rw [List.getElem?_set_self hk]
        obtain ⟨r', h3, h4⟩ := ih _ hs hst
        refine ⟨r', h3, ?_⟩
        rw [h4, relatedAfter, Relations.children_remove]
        congr 1
        by_cases e : p' = p
        · subst e
          simp only [if_true, mhas_mdel, beq_self_eq_true, Bool.true_and]
          by_cases e' : ch' = ch <;> simp [e']
        · simp [e]
      · refine keep ?_ (by simp only [relatedAfter, beq_eq_false_iff_ne.mpr hcc, Bool.false_and, Bool.or_false, Bool.not_false, Bool.and_true])
        simp only [Direct.step, hc']
        rw [List.getElem?_set_ne hcc]; exact hc
    | nodesAdd c' p =>
      obtain ⟨ms, cs, e⟩ := nodesAdd_frame d c' p
      exact keep (by simp only [Direct.step, e]; exact hc) rfl
    | attrsExtend a b =>
      obtain ⟨ms, e⟩ := attrsExtend_frame d a b
      exact keep (by simp only [Direct.step, e]; exact hc) rfl
    | _ =>
      refine keep ?_ rfl
      simp only [Direct.step, Direct.newAttrs, Direct.attrsAdd, Direct.attrsAmmend, Direct.attrsCopy, Direct.nodesRemove, Direct.edgesAdd, Direct.subGraphsAdd, Direct.subGraphsRemove]
      try (repeat' split)
      all_goals exact hc

/-- C65. A `SubGraphs` has a subgraph with a name exactly if the last call about the name was `Add`. -/
theorem C65_subgraphs_history (d : Direct) (os : List DOp) (hs : Sensible d os) {c : Nat} {m : Map Nat} (hc : d.subGraphs[c]? = some m)
    (n : Str) : ∃ m', (d.run os).subGraphs[c]? = some m' ∧ mhas m' n = subGraphAfter c n (mhas m n) os := by
  induction os generalizing d m with
  | nil => exact ⟨m, hc, rfl⟩
  | cons o os ih =>
    obtain ⟨hk, hs⟩ := hs
    have hcl := (List.getElem?_eq_some_iff.mp hc).1
    have keep : (d.step o).1.subGraphs[c]? = some m → subGraphAfter c n (mhas m n) (o :: os) = subGraphAfter c n (mhas m n) os →
        ∃ m', (d.run (o :: os)).subGraphs[c]? = some m' ∧ mhas m' n = subGraphAfter c n (mhas m n) (o :: os) := by
      intro h1 h2
      obtain ⟨r', h3, h4⟩ := ih _ hs h1
      exact ⟨r', h3, by rw [h4, h2]⟩
    cases o with
    | newSubGraphs => exact keep (by simp only [Direct.step]; rw [List.getElem?_append_left hcl]; exact hc) rfl
    | subGraphsAdd c' n' =>
      obtain ⟨r1, hc'⟩ : ∃ r', d.subGraphs[c']? = some r' := ⟨_, List.getElem?_eq_getElem hk⟩
      by_cases hcc : c' = c
      · subst hcc
        rw [hc] at hc'
        cases hc'
        by_cases hm : mhas m n' = true
        · have hst : (d.step (.subGraphsAdd c' n')).1.subGraphs[c']? = some m := by
            simp only [Direct.step, Direct.subGraphsAdd, hc, hm, if_true]
          refine keep hst ?_
          simp only [subGraphAfter]
          congr 1
          by_cases e : n' = n
          · subst e; simp [hm]
          · simp [e]
        · have hst : (d.step (.subGraphsAdd c' n')).1.subGraphs[c']? = some (mset m n' d.subs.length) := by
            simp only [Direct.step, Direct.subGraphsAdd, hc, hm, Bool.false_eq_true, if_false]
            rw [List.getElem?_set_self hk]
          obtain ⟨r', h3, h4⟩ := ih _ hs hst
          refine ⟨r', h3, ?_⟩
          rw [h4, subGraphAfter, mhas_mset]
          congr 1
          by_cases e : n' = n <;> simp [e]
      · refine keep ?_ (by simp only [subGraphAfter, beq_eq_false_iff_ne.mpr hcc, Bool.false_and, Bool.or_false, Bool.not_false, Bool.and_true])
        simp only [Direct.step, Direct.subGraphsAdd, hc']
        split
        · exact hc
        · rw [List.getElem?_set_ne hcc]; exact hc
    | subGraphsRemove c' n' =>
      obtain ⟨r1, hc'⟩ : ∃ r', d.subGraphs[c']? = some r' := ⟨_, List.getElem?_eq_getElem hk⟩
      by_cases hcc : c' = c
      · subst hcc
        rw [hc] at hc'
        cases hc'
        have hst : (d.step (.subGraphsRemove c' n')).1.subGraphs[c']? = some (mdel m n') := by
          simp only [Direct.step, Direct.subGraphsRemove, hc]
          rw [List.getElem?_set_self hk]
        obtain ⟨r', h3, h4⟩ := ih _ hs hst
        refine ⟨r', h3, ?_⟩
        rw [h4, subGraphAfter, mhas_mdel]
        congr 1
        by_cases e : n' = n <;> simp [e]
      · refine keep ?_ (by simp only [subGraphAfter, beq_eq_false_iff_ne.mpr hcc, Bool.false_and, Bool.or_false, Bool.not_false, Bool.and_true])
        simp only [Direct.step, Direct.subGraphsRemove, hc']
        rw [List.getElem?_set_ne hcc]; exact hc
    | nodesAdd c' p =>
      obtain ⟨ms, cs, e⟩ := nodesAdd_frame d c' p
      exact keep (by simp only [Direct.step, e]; exact hc) rfl
    | attrsExtend a b =>
      obtain ⟨ms, e⟩ := attrsExtend_frame d a b
      exact keep (by simp only [Direct.step, e]; exact hc) rfl
    | _ =>
      refine keep ?_ rfl
      simp only [Direct.step, Direct.newAttrs, Direct.attrsAdd, Direct.attrsAmmend, Direct.attrsCopy, Direct.nodesRemove, Direct.edgesAdd]
      try (repeat' split)
      all_goals exact hc

/-! ### Outcomes -/

theorem newAttrsFrom_error (as : Attrs) (kvs : List (Str × Str)) (e : Err) : newAttrsFrom as kvs = .error e ↔
    ∃ pre k v post, kvs = pre ++ (k, v) :: post ∧ (∀ x ∈ pre, Registered x.1) ∧ ¬ Registered k ∧ e = .invalidAttr k := by
  induction kvs generalizing as with
  | nil => simp [newAttrsFrom]
  | cons x kvs ih =>
    obtain ⟨k, v⟩ := x
    by_cases hk : Registered k
    · simp only [newAttrsFrom, attrsAdd_ok as v hk]
      rw [ih]
      constructor
      · rintro ⟨pre, k', v', post, rfl, h2, h3, h4⟩
        refine ⟨(k, v) :: pre, k', v', post, rfl, fun x hx => ?_, h3, h4⟩
        rcases List.mem_cons.mp hx with rfl | hx
        · exact hk
        · exact h2 x hx
      · rintro ⟨pre, k', v', post, h1, h2, h3, h4⟩
        cases pre with
        | nil =>
          simp only [List.nil_append, List.cons.injEq, Prod.mk.injEq] at h1
          exact absurd (h1.1.1 ▸ hk) h3
        | cons y pre =>
          simp only [List.cons_append, List.cons.injEq] at h1
          exact ⟨pre, k', v', post, h1.2, fun x hx => h2 x (by simp [hx]), h3, h4⟩
    · simp only [newAttrsFrom, attrsAdd_bad as v hk]
      constructor
      · intro h
        cases h
        exact ⟨[], k, v, kvs, rfl, nofun, hk, rfl⟩
      · rintro ⟨pre, k', v', post, h1, h2, h3, h4⟩
        cases pre with
        | nil =>
          simp only [List.nil_append, List.cons.injEq, Prod.mk.injEq] at h1
          rw [h4, h1.1.1]
        | cons y pre =>
          simp only [List.cons_append, List.cons.injEq] at h1
          exact absurd (h2 y (by simp)) (h1.1 ▸ hk)

theorem attrsExtend_out (d : Direct) (a b : Option Nat) : ((d.attrsExtend a b).2 = .panic ↔ a = none ∧ d.attrs b ≠ []) ∧
    ∀ e, (d.attrsExtend a b).2 ≠ .err e := by
  unfold Direct.attrsExtend
  cases a with
  | some i => simp
  | none =>
    simp only [List.isEmpty_iff]
    split <;> simp_all

/-- C65. When a call fails: with a panic exactly if it would assign to a nil map (also `Nodes.Add` of a node whose name is taken by a node without
a map), and with an error exactly if an attribute name is not registered or the node to remove is not there. -/
theorem C65_outcomes (os : List DOp) (o : DOp) (hk : Known (Direct.empty.run os) o) :
    (((Direct.empty.run os).step o).2 = .panic ↔ NilWrite (Direct.empty.run os) o) ∧
    ∀ e, ((Direct.empty.run os).step o).2 = .err e ↔ Fails (Direct.empty.run os) o e := by
  have h := DInv.empty.run os
  generalize Direct.empty.run os = d at h hk
  cases o with
  | newAttrs kvs =>
    simp only [Direct.step, Direct.newAttrs, NilWrite, Fails, iff_false]
    cases hm : newAttrs kvs with
    | ok m =>
      refine ⟨by simp, fun e => ⟨by simp, fun hh => ?_⟩⟩
      have := (newAttrsFrom_error [] kvs e).mpr hh
      rw [show newAttrsFrom [] kvs = newAttrs kvs from rfl, hm] at this
      cases this
    | error e' =>
      refine ⟨by simp, fun e => ?_⟩
      simp only [DOut.err.injEq]
      rw [← newAttrsFrom_error [] kvs e, show newAttrsFrom [] kvs = newAttrs kvs from rfl, hm]
      simp
  | attrsAdd a f v =>
    simp only [Direct.step, Direct.attrsAdd, Fails]
    by_cases hr : Registered f
    · rw [newAttr_ok hr]
      cases a with
      | none => exact ⟨by simp [NilWrite, hr], fun e => by simp [hr]⟩
      | some i => exact ⟨by simp [NilWrite], fun e => by simp [hr]⟩
    · rw [newAttr_bad hr]
      refine ⟨?_, fun e => by simp [hr, eq_comm]⟩
      cases a with
      | none => simp [NilWrite, hr]
      | some i => simp [NilWrite]
  | attrsExtend a b =>
    have := attrsExtend_out d a b
    refine ⟨?_, fun e => ⟨fun hh => absurd hh (this.2 e), nofun⟩⟩
    rw [show (d.step (.attrsExtend a b)).2 = (d.attrsExtend a b).2 from rfl, this.1]
    cases a <;> simp [NilWrite]
  | attrsAmmend a b =>
    simp only [Direct.step, Direct.attrsAmmend, Fails]
    cases a with
    | some i => exact ⟨by simp [NilWrite], fun e => by simp⟩
    | none =>
      simp only [List.isEmpty_iff, NilWrite]
      split <;> simp_all
  | nodesAdd c p =>
    obtain ⟨h1, h2⟩ := hk
    obtain ⟨ns, hc⟩ : ∃ ns, d.nodesCs[c]? = some ns := ⟨_, List.getElem?_eq_getElem h1⟩
    obtain ⟨node, hp⟩ : ∃ n, d.nodes[p]? = some n := ⟨_, List.getElem?_eq_getElem h2⟩
    simp only [Direct.step, Fails, NilWrite, iff_false]
    rcases nodesAdd_cases h hc hp with ⟨q, m, hq, hm, hn, _, he⟩ | ⟨hno, _, he⟩
    · have := attrsExtend_out d m.attrs node.attrs
      rw [he]
      refine ⟨?_, this.2⟩
      rw [this.1]
      constructor
      · rintro ⟨ha, hb⟩
        exact ⟨ns, node, q, m, hc, hp, hq, hm, hn, ha, hb⟩
      · rintro ⟨ns', n', q', m', e1, e2, hq', hm', hn', ha, hb⟩
        rw [hc] at e1; cases e1
        rw [hp] at e2; cases e2
        have : q' = q := (h.nodes ns (List.mem_of_getElem? hc)).1.unique hq' hq (n := node.name) (by simp [nodeName, hm', hn']) (by simp [nodeName, hm, hn])
        subst this
        rw [hm] at hm'; cases hm'
        exact ⟨ha, hb⟩
    · rw [he]
      refine ⟨⟨nofun, ?_⟩, fun e => nofun⟩
      rintro ⟨ns', n', q', m', e1, e2, hq', hm', hn', _⟩
      rw [hc] at e1; cases e1
      rw [hp] at e2; cases e2
      exact absurd (by simp [nodeName, hm', hn']) (hno q' hq')
  | nodesRemove c n =>
    obtain ⟨ns, hc⟩ : ∃ ns', d.nodesCs[c]? = some ns' := ⟨_, List.getElem?_eq_getElem hk⟩
    simp only [Direct.step, NilWrite, Fails, iff_false]
    rcases nodesRemove_cases h hc n with ⟨⟨p, hp, hn⟩, he⟩ | ⟨hno, he⟩
    · rw [he]
      exact ⟨nofun, fun e => ⟨nofun, fun ⟨_, hh⟩ => absurd hn (hh ns hc p hp)⟩⟩
    · rw [he]
      refine ⟨nofun, fun e => ⟨fun hh => ?_, fun ⟨hh, _⟩ => by rw [hh]⟩⟩
      cases hh
      exact ⟨rfl, fun ns' hc' => by rw [hc] at hc'; cases hc'; exact hno⟩
  | edgesAdd c p =>
    obtain ⟨h1, h2⟩ := hk
    simp only [Direct.step, Direct.edgesAdd, List.getElem?_eq_getElem h1, List.getElem?_eq_getElem h2, NilWrite, Fails]
    simp
  | relationsAdd c p ch =>
    simp only [Direct.step, List.getElem?_eq_getElem (show c < d.relations.length from hk), NilWrite, Fails]
    simp
  | relationsRemove c p ch =>
    simp only [Direct.step, List.getElem?_eq_getElem (show c < d.relations.length from hk), NilWrite, Fails]
    simp
  | subGraphsAdd c n =>
    simp only [Direct.step, Direct.subGraphsAdd, List.getElem?_eq_getElem (show c < d.subGraphs.length from hk), NilWrite, Fails]
    split <;> simp
  | subGraphsRemove c n =>
    simp only [Direct.step, Direct.subGraphsRemove, List.getElem?_eq_getElem (show c < d.subGraphs.length from hk), NilWrite, Fails]
    simp
  | _ => simp [Direct.step, Direct.attrsCopy, NilWrite, Fails]

/-! ### Attributes -/

theorem attrs_modify (d : Direct) (i : Nat) (f : Attrs → Attrs) (hi : i < d.maps.length) (j : Option Nat) :
    Direct.attrs { d with maps := d.maps.modify i f } j = if j = some i then f (d.attrs j) else d.attrs j := by
  cases j with
  | none => simp [Direct.attrs]
  | some j =>
    simp only [Direct.attrs, List.getElem?_modify, Option.some.injEq]
    by_cases e : i = j
    · subst e
      simp [List.getElem?_eq_getElem hi]
    · simp [e, Ne.symm e]

theorem mget_ammend (as : Map Str) (kvs : Map Str) (hw : MapWF kvs) (k : Str) :
    mget (attrsAmmend as kvs) k = (mget as k).or (mget kvs k) := by
  unfold attrsAmmend
  induction kvs generalizing as with
  | nil => simp [mget]
  | cons e kvs ih =>
    simp only [List.foldl_cons]
    rw [ih _ hw.tail]
    simp only [mget]
    by_cases hh : mhas as e.1 = true
    · rw [if_pos hh]
      obtain ⟨v, hv⟩ := (mhas_iff_mget as e.1).mp hh
      by_cases he : e.1 = k
      · subst he; simp [hv]
      · simp [he]
    · rw [if_neg hh, mget_mset]
      have hn : mget as e.1 = none := by simpa [mhas] using hh
      by_cases he : e.1 = k
      · subst he; simp [hn]
      · simp [he]

/-- C65. What the methods of `Attrs` do to the map they are called on: `Add` sets one entry, `Extend` prefers the new values, `Ammend` the old ones
(also when both maps are the same object); and they change no other map. -/
theorem C65_attrs (os : List DOp) (i : Nat) (hi : i < (Direct.empty.run os).maps.length) (b j : Option Nat) (f v k : Str) :
    (Registered f → mget (((Direct.empty.run os).step (.attrsAdd (some i) f v)).1.attrs j) k =
      if j = some i ∧ k = f then some v else mget ((Direct.empty.run os).attrs j) k) ∧
    mget (((Direct.empty.run os).step (.attrsExtend (some i) b)).1.attrs j) k =
      (if j = some i then (mget ((Direct.empty.run os).attrs b) k).or (mget ((Direct.empty.run os).attrs j) k) else mget ((Direct.empty.run os).attrs j) k) ∧
    mget (((Direct.empty.run os).step (.attrsAmmend (some i) b)).1.attrs j) k =
      (if j = some i then (mget ((Direct.empty.run os).attrs j) k).or (mget ((Direct.empty.run os).attrs b) k) else mget ((Direct.empty.run os).attrs j) k) := by
  have h := DInv.empty.run os
  generalize Direct.empty.run os = d at h hi
  refine ⟨fun hr => ?_, ?_, ?_⟩
  · simp only [Direct.step, Direct.attrsAdd, newAttr_ok hr]
    rw [attrs_modify d i _ hi]
    by_cases e : j = some i
    · simp only [e, if_true, true_and, mget_mset, eq_comm]
    · simp [e]
  · simp only [Direct.step, Direct.attrsExtend]
    rw [attrs_modify d i _ hi]
    by_cases e : j = some i
    · simp only [e, if_true, attrsExtend]
      rw [mget_msetAll_wf _ (h.attrs b).wf]
      cases mget (d.attrs b) k <;> rfl
    · simp [e]
  · simp only [Direct.step, Direct.attrsAmmend]
    rw [attrs_modify d i _ hi]
    by_cases e : j = some i
    · simp only [e, if_true]
      rw [mget_ammend _ _ (h.attrs b).wf]
    · simp [e]

/-- C65. `Copy` makes a new map with the same entries; the others stay. -/
theorem C65_copy (os : List DOp) (a : Option Nat) :
    ((Direct.empty.run os).step (.attrsCopy a)).1.attrs (some (Direct.empty.run os).maps.length) = (Direct.empty.run os).attrs a ∧
    ∀ j, j < (Direct.empty.run os).maps.length →
      ((Direct.empty.run os).step (.attrsCopy a)).1.attrs (some j) = (Direct.empty.run os).attrs (some j) := by
  have h := DInv.empty.run os
  generalize Direct.empty.run os = d at h
  refine ⟨?_, fun j hj => ?_⟩
  · simp only [Direct.step, Direct.attrsCopy]
    show (Direct.attrs { d with maps := d.maps ++ [attrsCopy (d.attrs a)] } (some d.maps.length)) = d.attrs a
    simp only [Direct.attrs, List.getElem?_append_right (Nat.le_refl _), Nat.sub_self]
    exact msetAll_empty (h.attrs a).wf
  · simp [Direct.step, Direct.attrsCopy, Direct.attrs, List.getElem?_append_left hj]

/-- C65. `Nodes.Add` of a node whose name is taken: the node in the container gets its attributes, which win; nothing else changes. -/
theorem C65_nodes_add_again (os : List DOp) {c p q i : Nat} {ns : DNodes} {n m : DNode} (hc : (Direct.empty.run os).nodesCs[c]? = some ns)
    (hp : (Direct.empty.run os).nodes[p]? = some n) (hq : q ∈ ns.list) (hm : (Direct.empty.run os).nodes[q]? = some m) (hn : m.name = n.name)
    (ha : m.attrs = some i) :
    (Direct.empty.run os).step (.nodesAdd c p) = (Direct.empty.run os).step (.attrsExtend (some i) n.attrs) := by
  have h := DInv.empty.run os
  generalize Direct.empty.run os = d at *
  rcases nodesAdd_cases h hc hp with ⟨q', m', hq', hm', hn', _, he⟩ | ⟨hno, _, _⟩
  · have : q' = q := (h.nodes ns (List.mem_of_getElem? hc)).1.unique hq' hq (n := n.name) (by simp [nodeName, hm', hn']) (by simp [nodeName, hm, hn])
    subst this
    rw [hm] at hm'; cases hm'
    simp only [Direct.step, he, ha]
  · exact absurd (by simp [nodeName, hm, hn]) (hno q hq)

/-! ### Cases -/

/-- A history with a node in two containers, a node without a map, a second node of the same name and a removal. -/
def exampleDirect : List DOp := [.newAttrs [(b!"color", b!"red")], .newNode (b!"a") none, .newNode (b!"a") (some 0), .newNode (b!"b") (some 0),
  .newNodes, .newNodes, .nodesAdd 0 0, .nodesAdd 0 2, .nodesAdd 1 2, .nodesAdd 1 1, .nodesRemove 1 (b!"b"), .newEdge ⟨b!"a", [], b!"b", [], true, none⟩,
  .newEdges, .edgesAdd 0 0, .edgesAdd 0 0, .newRelations, .relationsAdd 0 (b!"g") (b!"a"), .newSubGraphs, .subGraphsAdd 0 (b!"s")]

theorem example_direct : (Direct.empty.run exampleDirect).nodesCs = [⟨[(b!"a", 0), (b!"b", 2)], [0, 2]⟩, ⟨[(b!"a", 1)], [1]⟩] ∧
    (Direct.empty.run exampleDirect).edgesCs.map DEdges.edges = [[0, 0]] := by decide +kernel

theorem example_direct_sensible : Sensible Direct.empty exampleDirect := by
  simp [exampleDirect, Sensible, Known, Direct.empty, Direct.step, Direct.newAttrs, Direct.nodesAdd, newAttrs]
  decide +kernel

/-- C65, observation: a node without a map in the container and another of its name with attributes: `Nodes.Add` panics. -/
theorem C65_nil_attrs_panics : ((Direct.empty.run exampleDirect).step (.nodesAdd 0 1)).2 = .panic := by decide +kernel

/-- C65, observation: the caller must not rename a node that is in a container. After `n.Name = "x"` the node is in the map under its old name, `Remove`
of the old name fails, and `Remove` of the new name leaves it in the map. -/
theorem C65_rename_breaks :
    let d := Direct.empty.run exampleDirect
    let d' := { d with nodes := d.nodes.set 0 ⟨b!"x", none⟩ }
    (d'.step (.nodesRemove 0 (b!"a"))).2 = .err (.nodeNotFound (b!"a")) ∧
    ((d'.step (.nodesRemove 0 (b!"x"))).1.nodesCs[0]?).map (fun ns => (ns.list, mget ns.lookup (b!"a"))) = some ([2], some 0) := by decide +kernel

end Gographviz.Props
