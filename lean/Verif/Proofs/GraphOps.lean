import Verif.Proofs.Graph
/-! Closed forms of the mutators. -/
namespace Gographviz

open Spec

theorem AllReg.perm {a b : List (Str × Str)} (hp : a.Perm b) (h : AllReg a) : AllReg b :=
  fun e he => h e (hp.mem_iff.2 he)

/-- `AddSubGraph`'s loop in closed form (all names registered, the subgraph exists). -/
theorem addAttrs_ok {g : Graph} (h : GInv g) {n : Str} {s : SubGraph} (hs : mget g.subGraphs n = some s)
    {as : List (Str × Str)} (hr : AllReg as) :
    g.addAttrs n as =
      (if g.name = n then { g with attrs := msetAll g.attrs as }
       else { g with subGraphs := mset g.subGraphs n { s with attrs := msetAll s.attrs as } }, none) := by
  induction as generalizing g s with
  | nil =>
    simp only [Graph.addAttrs, msetAll_nil, Prod.mk.injEq, and_true]
    split
    · rfl
    · rw [show ({ s with attrs := s.attrs } : SubGraph) = s from rfl, mset_self h.subs.wf hs]
  | cons e as ih =>
    obtain ⟨k, v⟩ := e
    have hk : Registered k := hr (k, v) (List.mem_cons_self ..)
    have hr' : AllReg as := fun e he => hr e (List.mem_cons_of_mem _ he)
    have hi := h.addAttr n k v
    simp only [Graph.addAttrs]
    by_cases hn : g.name = n
    · subst hn
      rw [addAttr_root g v hk] at hi ⊢
      simp only
      rw [ih hi hs hr']
      simp [msetAll_cons]
    · rw [addAttr_sub g v hk hn hs] at hi ⊢
      simp only
      rw [ih hi (s := { s with attrs := mset s.attrs k v }) (mget_mset_self _ _ _) hr']
      simp [msetAll_cons, hn, mset_mset h.subs.wf]

/-- `AddSubGraph` fails exactly when a name is not registered. -/
theorem addAttrs_bad {g : Graph} {n : Str} (hs : mhas g.subGraphs n = true) {as : List (Str × Str)} (hr : ¬ AllReg as) :
    ∃ e ∈ as, ¬ Registered e.1 ∧ (g.addAttrs n as).2 = some (.invalidAttr e.1) := by
  induction as generalizing g with
  | nil => exact absurd (fun _ h => nomatch h) hr
  | cons e as ih =>
    obtain ⟨k, v⟩ := e
    simp only [Graph.addAttrs]
    by_cases hk : Registered k
    · have hr' : ¬ AllReg as := fun h' => hr fun e he => by
        rcases List.mem_cons.1 he with e' | he
        · subst e'; exact hk
        · exact h' e he
      obtain ⟨s, hs'⟩ := (mhas_iff_mget _ _).1 hs
      by_cases hn : g.name = n
      · subst hn
        rw [addAttr_root g v hk]
        obtain ⟨e, he, h1, h2⟩ := ih (g := { g with attrs := mset g.attrs k v }) hs hr'
        exact ⟨e, List.mem_cons_of_mem _ he, h1, h2⟩
      · rw [addAttr_sub g v hk hn hs']
        obtain ⟨e, he, h1, h2⟩ := ih
          (g := { g with subGraphs := mset g.subGraphs n { s with attrs := mset s.attrs k v } }) (by simp [mhas_mset]) hr'
        exact ⟨e, List.mem_cons_of_mem _ he, h1, h2⟩
    · rw [addAttr_bad g n v hk]
      exact ⟨(k, v), List.mem_cons_self .., hk, by simp [hs]⟩

theorem addSubGraph_ok {g : Graph} (h : GInv g) (p n : Str) {as : List (Str × Str)} (hr : AllReg as) :
    g.addSubGraph p n as =
      (if g.name = n then
        { g with relations := g.relations.add p n, subGraphs := subGraphsAdd g.subGraphs n, attrs := msetAll g.attrs as }
       else
        { g with
          relations := g.relations.add p n
          subGraphs := mset (subGraphsAdd g.subGraphs n) n
            ⟨msetAll (((mget g.subGraphs n).map SubGraph.attrs).getD []) as, n⟩ }, none) := by
  unfold Graph.addSubGraph
  have hi : GInv { g with relations := g.relations.add p n, subGraphs := subGraphsAdd g.subGraphs n } :=
    ⟨h.nodes, h.edges, h.rels.add _ _, h.subs.add _, h.attrs⟩
  have hs : mget (subGraphsAdd g.subGraphs n) n = some ((mget g.subGraphs n).getD ⟨[], n⟩) := by
    rw [mget_subGraphsAdd]; simp
  rw [addAttrs_ok hi hs hr]
  simp only [Prod.mk.injEq, and_true]
  split
  · rfl
  · congr 2
    cases hm : mget g.subGraphs n with
    | none => rfl
    | some s => simp [h.subs.name n s hm]

theorem addSubGraph_bad (g : Graph) (p n : Str) {as : List (Str × Str)} (hr : ¬ AllReg as) :
    ∃ e ∈ as, ¬ Registered e.1 ∧ (g.addSubGraph p n as).2 = some (.invalidAttr e.1) := by
  unfold Graph.addSubGraph
  exact addAttrs_bad (by simp [mhas, mget_subGraphsAdd]) hr

/-! ### removing -/

/-- The graph after a successful `RemoveNode`. -/
def Graph.without (g : Graph) (p n : Str) (q : Nat) : Graph :=
  { g with
      nodes := { g.nodes with lookup := mdel g.nodes.lookup n, list := g.nodes.list.erase q }
      relations := g.relations.remove p n
      edges := edgesRebuild (fun e => !(decide (e.dst = n) || decide (e.src = n))) g.edges.edges }

theorem mdel_comm {α : Type} (m : Map α) (a b : Str) : mdel (mdel m a) b = mdel (mdel m b) a := by
  simp only [mdel, List.filter_filter]
  apply List.filter_congr
  intro e _
  rw [Bool.and_comm]

theorem relIndexDel_comm {m : Map (Map Bool)} (h : MapWF m) (a b c d : Str) :
    relIndexDel (relIndexDel m a b) c d = relIndexDel (relIndexDel m c d) a b := by
  have key : ∀ (a b c d x : Str), mget (relIndexDel (relIndexDel m a b) c d) x =
      (mget m x).map fun i => if a = x then (if c = x then mdel (mdel i b) d else mdel i b) else if c = x then mdel i d else i := by
    have one : ∀ (m : Map (Map Bool)) (a b x : Str), mget (relIndexDel m a b) x =
        (mget m x).map fun i => if a = x then mdel i b else i := by
      intro m a b x
      unfold relIndexDel
      cases hm : mget m a with
      | none =>
        simp only
        by_cases hx : a = x
        · subst hx; simp [hm]
        · simp [hx]
      | some i =>
        simp only [mget_mset]
        by_cases hx : a = x
        · subst hx; simp [hm]
        · simp [hx]
    intro a b c d x
    rw [one, one]
    cases mget m x with
    | none => rfl
    | some i =>
      simp only [Option.map_some, Option.some.injEq]
      by_cases h1 : a = x <;> by_cases h2 : c = x <;> simp [h1, h2]
  apply Map.ext ((h.relIndexDel _ _).relIndexDel _ _) ((h.relIndexDel _ _).relIndexDel _ _)
  intro x
  rw [key, key]
  congr 1
  funext i
  by_cases h1 : a = x <;> by_cases h2 : c = x <;> simp [h1, h2, mdel_comm i b d]

theorem Relations.remove_comm {r : Relations} (h : RelInv r) (a b c d : Str) :
    (r.remove a b).remove c d = (r.remove c d).remove a b := by
  simp only [Relations.remove, Relations.mk.injEq]
  exact ⟨relIndexDel_comm h.wf1 _ _ _ _, relIndexDel_comm h.wf2 _ _ _ _⟩

theorem removeNode_swap {g : Graph} (h : GInv g) (p : Str) {a b : Str} (hab : a ≠ b) {qa qb : Nat}
    (ha : mget g.nodes.lookup a = some qa) (hb : mget g.nodes.lookup b = some qb) :
    (g.without p a qa).without p b qb = (g.without p b qb).without p a qa := by
  have h1 := h.edges.attrs
  have key : ∀ n n', (edgesRebuild (fun e => !(decide (e.dst = n) || decide (e.src = n)))
      (edgesRebuild (fun e => !(decide (e.dst = n') || decide (e.src = n'))) g.edges.edges).edges) =
      (edgesRebuild (fun e => !(decide (e.dst = n') || decide (e.src = n')))
      (edgesRebuild (fun e => !(decide (e.dst = n) || decide (e.src = n))) g.edges.edges).edges) := by
    intro n n'
    apply EdgesInv.ext
    · exact (edgesRebuild_spec _ _ (edgesRebuild_spec _ _ h1).1.attrs).1
    · exact (edgesRebuild_spec _ _ (edgesRebuild_spec _ _ h1).1.attrs).1
    · simp only [edgesRebuild_edges, List.filter_filter]
      apply List.filter_congr
      intro e _
      rw [Bool.and_comm]
  simp only [Graph.without, Graph.mk.injEq, Nodes.mk.injEq, true_and, and_true]
  refine ⟨⟨mdel_comm _ _ _, List.erase_comm _ _⟩, key _ _, Relations.remove_comm h.rels _ _ _ _⟩

/-- `RemoveNode` of a name that has already gone or of a later one. -/
theorem removeNode_without {g : Graph} (h : GInv g) {p n : Str} {q : Nat} (hn : mget g.nodes.lookup n = some q) :
    g.removeNode p n = (g.without p n q, none) := removeNode_present h p hn

theorem GInv.without {g : Graph} (h : GInv g) {p n : Str} {q : Nat} (hn : mget g.nodes.lookup n = some q) :
    GInv (g.without p n q) := by
  have := h.removeNode p n
  rwa [removeNode_without h hn] at this

theorem without_lookup (g : Graph) (p n : Str) (q : Nat) (x : Str) :
    mget (g.without p n q).nodes.lookup x = if n = x then none else mget g.nodes.lookup x := mget_mdel _ _ _

/-- All the names are nodes: removing them succeeds, in any order, with the same result. -/
theorem removeNodes_perm {g : Graph} (h : GInv g) (p : Str) {a b : List Str} (hp : a.Perm b) (hn : a.Nodup)
    (hall : ∀ c ∈ a, mhas g.nodes.lookup c = true) :
    g.removeNodes p a = g.removeNodes p b ∧ (g.removeNodes p a).2 = none := by
  induction hp generalizing g with
  | nil => exact ⟨rfl, rfl⟩
  | cons x hp ih =>
    simp only [Graph.removeNodes]
    obtain ⟨q, hq⟩ := (mhas_iff_mget _ _).1 (hall x (List.mem_cons_self ..))
    rw [removeNode_without h hq]
    simp only
    rw [List.nodup_cons] at hn
    apply ih (h.without hq) hn.2
    intro c hc
    have hne : x ≠ c := fun e => hn.1 (e ▸ hc)
    simp only [mhas, without_lookup, if_neg hne]
    exact hall c (List.mem_cons_of_mem _ hc)
  | swap x y l =>
    obtain ⟨qx, hqx⟩ := (mhas_iff_mget _ _).1 (hall x (by simp))
    obtain ⟨qy, hqy⟩ := (mhas_iff_mget _ _).1 (hall y (by simp))
    have hne : y ≠ x := by
      intro e; subst e
      rw [List.nodup_cons] at hn
      exact hn.1 (List.mem_cons_self ..)
    have hqx' : mget (g.without p y qy).nodes.lookup x = some qx := by rw [without_lookup, if_neg hne]; exact hqx
    have hqy' : mget (g.without p x qx).nodes.lookup y = some qy := by rw [without_lookup, if_neg (Ne.symm hne)]; exact hqy
    have e1 : g.removeNodes p (y :: x :: l) = ((g.without p y qy).without p x qx).removeNodes p l := by
      simp only [Graph.removeNodes, removeNode_without h hqy, removeNode_without (h.without hqy) hqx']
    have e2 : g.removeNodes p (x :: y :: l) = ((g.without p x qx).without p y qy).removeNodes p l := by
      simp only [Graph.removeNodes, removeNode_without h hqx, removeNode_without (h.without hqx) hqy']
    have hi := (h.without hqy).without (p := p) hqx'
    refine ⟨by rw [e1, e2, removeNode_swap h p hne hqy hqx], ?_⟩
    rw [e1]
    clear e1 e2
    generalize hg : (g.without p y qy).without p x qx = g2 at hi ⊢
    have hl : ∀ c ∈ l, mhas g2.nodes.lookup c = true := by
      intro c hc
      rw [List.nodup_cons, List.nodup_cons] at hn
      have h1 : y ≠ c := fun e => hn.1 (e ▸ List.mem_cons_of_mem _ hc)
      have h2 : x ≠ c := fun e => hn.2.1 (e ▸ hc)
      rw [← hg]
      simp only [mhas, without_lookup, if_neg h1, if_neg h2]
      exact hall c (by simp [hc])
    have hnl : l.Nodup := by
      rw [List.nodup_cons, List.nodup_cons] at hn; exact hn.2.2
    clear hall hn hqx hqy hqx' hqy' hg
    induction l generalizing g2 with
    | nil => rfl
    | cons c l ihl =>
      obtain ⟨q, hq⟩ := (mhas_iff_mget _ _).1 (hl c (List.mem_cons_self ..))
      simp only [Graph.removeNodes, removeNode_without hi hq]
      rw [List.nodup_cons] at hnl
      apply ihl _ (hi.without hq) _ hnl.2
      intro d hd
      have hne : c ≠ d := fun e => hnl.1 (e ▸ hd)
      simp only [mhas, without_lookup, if_neg hne]
      exact hl d (List.mem_cons_of_mem _ hd)
  | trans hab hbc ih1 ih2 =>
    have h1 := ih1 h hn hall
    have h2 := ih2 h (hab.nodup_iff.1 hn) fun c hc => hall c (hab.mem_iff.2 hc)
    exact ⟨h1.1.trans h2.1, h1.2⟩

/-- Removing a list of nodes in closed form (on the abstraction). -/
theorem aremoveNodes_closed (a : AGraph) (p : Str) (ns : List Str) (hn : ns.Nodup)
    (hall : ∀ c ∈ ns, (a.node c).isSome = true) :
    a.removeNodes p ns = ({ a with
      node := fun x => if x ∈ ns then none else a.node x
      edges := a.edges.filter fun e => !(decide (e.src ∈ ns) || decide (e.dst ∈ ns))
      contains := fun p' c => if p' = p ∧ c ∈ ns then false else a.contains p' c }, none) := by
  induction ns generalizing a with
  | nil =>
    have h : a.edges.filter (fun _ => true) = a.edges := List.filter_eq_self.2 fun _ _ => rfl
    simp [AGraph.removeNodes, h]
  | cons n ns ih =>
    have hsome := hall n (List.mem_cons_self ..)
    rw [List.nodup_cons] at hn
    obtain ⟨as, has⟩ := Option.isSome_iff_exists.1 hsome
    simp only [AGraph.removeNodes, has]
    rw [ih _ hn.2]
    · simp only [AGraph.removeNode, Prod.mk.injEq, and_true, AGraph.mk.injEq, true_and]
      refine ⟨?_, ?_, ?_⟩
      · funext x
        simp only [upd, List.mem_cons]
        by_cases h1 : x = n <;> by_cases h2 : x ∈ ns <;> simp [h1, h2]
      · rw [List.filter_filter]
        apply List.filter_congr
        intro e _
        have key : ∀ s : Str, decide (s ∈ n :: ns) = (decide (s = n) || decide (s ∈ ns)) := by
          intro s; by_cases h1 : s = n <;> by_cases h2 : s ∈ ns <;> simp [h1, h2]
        rw [key, key, sbeq, sbeq]
        cases decide (e.src = n) <;> cases decide (e.src ∈ ns) <;> cases decide (e.dst = n) <;>
          cases decide (e.dst ∈ ns) <;> rfl
      · funext p' c
        simp only [List.mem_cons]
        by_cases h1 : p' = p <;> by_cases h2 : c = n <;> by_cases h3 : c ∈ ns <;> simp [h1, h2, h3]
    · intro c hc
      have hne : c ≠ n := fun e => hn.1 (e ▸ hc)
      simp only [AGraph.removeNode, upd, if_neg hne]
      exact hall c (List.mem_cons_of_mem _ hc)

theorem aremoveNodes_bad (a : AGraph) (p : Str) (ns : List Str) (hn : ns.Nodup) (c : Str) (hc : c ∈ ns)
    (hbad : a.node c = none) : ∃ d ∈ ns, a.node d = none ∧ (a.removeNodes p ns).2 = some (.nodeNotFound d) := by
  induction ns generalizing a with
  | nil => cases hc
  | cons n ns ih =>
    rw [List.nodup_cons] at hn
    simp only [AGraph.removeNodes]
    cases hx : a.node n with
    | none => exact ⟨n, List.mem_cons_self .., hx, rfl⟩
    | some as =>
      have hcn : c ≠ n := by intro e; subst e; rw [hx] at hbad; cases hbad
      have hc' : c ∈ ns := by
        rcases List.mem_cons.1 hc with e | h
        · exact absurd e hcn
        · exact h
      obtain ⟨d, hd, h1, h2⟩ := ih (a.removeNode p n) hn.2 hc' (by simp [AGraph.removeNode, upd, hcn, hbad])
      have hdn : d ≠ n := fun e => hn.1 (e ▸ hd)
      simp only [AGraph.removeNode, upd, if_neg hdn] at h1
      exact ⟨d, List.mem_cons_of_mem _ hd, h1, h2⟩

/-- Removing a list of nodes in closed form (on the graph). -/
theorem removeNodes_closed {g : Graph} (h : GInv g) (p : Str) (ns : List Str) (hn : ns.Nodup)
    (hall : ∀ c ∈ ns, mhas g.nodes.lookup c = true) :
    ∃ g', g.removeNodes p ns = (g', none) ∧ GInv g' ∧
      (∀ x, g'.nodes.find x = if x ∈ ns then none else g.nodes.find x) ∧
      (∀ x, mhas g'.nodes.lookup x = (mhas g.nodes.lookup x && !decide (x ∈ ns))) ∧
      g'.edges.edges = g.edges.edges.filter (fun e => !(decide (e.src ∈ ns) || decide (e.dst ∈ ns))) ∧
      g'.attrs = g.attrs ∧ g'.name = g.name ∧ g'.directed = g.directed ∧ g'.strict = g.strict ∧
      g'.subGraphs = g.subGraphs ∧
      (∀ a b, mhas (g'.relations.children a) b =
        (mhas (g.relations.children a) b && !(decide (a = p) && decide (b ∈ ns)))) := by
  induction ns generalizing g with
  | nil =>
    have h' : g.edges.edges.filter (fun _ => true) = g.edges.edges := List.filter_eq_self.2 fun _ _ => rfl
    exact ⟨g, rfl, h, by simp, by simp, by simp [h'], rfl, rfl, rfl, rfl, rfl, by simp⟩
  | cons n ns ih =>
    rw [List.nodup_cons] at hn
    obtain ⟨q, hq⟩ := (mhas_iff_mget _ _).1 (hall n (List.mem_cons_self ..))
    have hall' : ∀ c ∈ ns, mhas (g.without p n q).nodes.lookup c = true := by
      intro c hc
      have hne : n ≠ c := fun e => hn.1 (e ▸ hc)
      simp only [mhas, without_lookup, if_neg hne]
      exact hall c (List.mem_cons_of_mem _ hc)
    obtain ⟨g', e, hi, h1, h2, h3, h4, h5, h6, h7, h8, h9⟩ := ih (h.without (p := p) hq) hn.2 hall'
    refine ⟨g', ?_, hi, ?_, ?_, ?_, h4, h5, h6, h7, h8, ?_⟩
    · simp only [Graph.removeNodes, removeNode_without h hq]; exact e
    · intro x
      rw [h1 x]
      have : (g.without p n q).nodes.find x = if n = x then none else g.nodes.find x := NodesInv.find_removed ..
      rw [this]
      by_cases hx : n = x
      · subst hx; simp
      · simp [hx, Ne.symm hx]
    · intro x
      rw [h2 x]
      have : mhas (g.without p n q).nodes.lookup x = (if n = x then false else mhas g.nodes.lookup x) := by
        simp only [mhas, without_lookup]; split <;> rfl
      rw [this]
      by_cases hx : n = x
      · subst hx; simp
      · simp [hx, Ne.symm hx]
    · rw [h3]
      simp only [Graph.without, edgesRebuild_edges, List.filter_filter]
      apply List.filter_congr
      intro e _
      by_cases a : e.src = n <;> by_cases b : e.dst = n <;> by_cases c : e.src ∈ ns <;> by_cases d : e.dst ∈ ns <;>
        simp [a, b, c, d]
    · intro a b
      rw [h9 a b]
      simp only [Graph.without, Relations.children_remove]
      by_cases h1 : p = a
      · subst h1
        simp only [if_true, mhas_mdel, decide_true, Bool.true_and]
        by_cases hx : n = b
        · subst hx; simp
        · simp [hx, Ne.symm hx]
      · simp [h1, Ne.symm h1]

/-! ### repeating `AddSubGraph` -/

theorem addAttrs_takeWhile {g : Graph} {n : Str} (hs : mhas g.subGraphs n = true) (as : List (Str × Str)) :
    g.addAttrs n as = ((g.addAttrs n (as.takeWhile fun e => decide (Registered e.1))).1, firstBad as) := by
  induction as generalizing g with
  | nil => rfl
  | cons e as ih =>
    obtain ⟨k, v⟩ := e
    by_cases hk : Registered k
    · simp only [List.takeWhile_cons, hk, decide_true, if_true, Graph.addAttrs, firstBad, List.find?_cons, Bool.not_true]
      obtain ⟨s, hs'⟩ := (mhas_iff_mget _ _).1 hs
      by_cases hn : g.name = n
      · subst hn; rw [addAttr_root g v hk]; exact ih hs
      · rw [addAttr_sub g v hk hn hs']
        apply ih
        simp [mhas, mget_mset_self]
    · simp [List.takeWhile_cons, hk, Graph.addAttrs, firstBad, List.find?_cons, addAttr_bad g n v hk, hs]

theorem addSubGraph_takeWhile (g : Graph) (p n : Str) (as : List (Str × Str)) :
    g.addSubGraph p n as = ((g.addSubGraph p n (as.takeWhile fun e => decide (Registered e.1))).1, firstBad as) := by
  unfold Graph.addSubGraph
  exact addAttrs_takeWhile (by simp [mhas, mget_subGraphsAdd]) as

theorem allReg_takeWhile (as : List (Str × Str)) : AllReg (as.takeWhile fun e => decide (Registered e.1)) := by
  induction as with
  | nil => exact fun _ h => nomatch h
  | cons a as ih =>
    by_cases ha : Registered a.1
    · intro e he
      simp only [List.takeWhile_cons, ha, decide_true, if_true, List.mem_cons] at he
      rcases he with rfl | he
      · exact ha
      · exact ih e he
    · intro e he
      simp [ha] at he

theorem relIndexAdd_self {m : Map (Map Bool)} (hw : MapWF m) {a b : Str} {i : Map Bool} (hi' : mget m a = some i)
    (hwi : MapWF i) (hb : mget i b = some true) : relIndexAdd m a b = m := by
  have hm : mhas m a = true := by simp [mhas, hi']
  unfold relIndexAdd
  simp only [hm, hi', if_true, Option.getD_some]
  rw [mset_self hwi hb, mset_self hw hi']

theorem subGraphsAdd_has {m : Map SubGraph} {n : Str} (h : mhas m n = true) : subGraphsAdd m n = m := by
  unfold subGraphsAdd; rw [if_pos h]

theorem relIndexAdd_idem {m : Map (Map Bool)} (h : MapWF m) (hi : ∀ s, MapWF ((mget m s).getD [])) (a b : Str) :
    relIndexAdd (relIndexAdd m a b) a b = relIndexAdd m a b := by
  have hw : MapWF (relIndexAdd m a b) := by
    unfold relIndexAdd; simp only; split
    · exact h.mset _ _
    · exact (h.mset _ _).mset _ _
  have hg := mget_relIndexAdd m a b a
  simp only [if_true] at hg
  have hsome : ∃ i, mget (relIndexAdd m a b) a = some i := by
    unfold relIndexAdd; simp only; exact ⟨_, mget_mset_self _ _ _⟩
  obtain ⟨i, hi'⟩ := hsome
  rw [hi'] at hg
  simp only [Option.getD_some] at hg
  apply relIndexAdd_self hw hi'
  · rw [hg]; exact (hi a).mset _ _
  · rw [hg]; exact mget_mset_self _ _ _

theorem Relations.add_idem {r : Relations} (h : RelInv r) (a b : Str) : (r.add a b).add a b = r.add a b := by
  simp only [Relations.add, Relations.mk.injEq]
  exact ⟨relIndexAdd_idem h.wf1 h.iwf1 _ _, relIndexAdd_idem h.wf2 h.iwf2 _ _⟩

theorem subGraphsAdd_idem (m : Map SubGraph) (n : Str) : subGraphsAdd (subGraphsAdd m n) n = subGraphsAdd m n := by
  exact subGraphsAdd_has (by simp [mhas, mget_subGraphsAdd])

theorem addSubGraph_idem_ok {g : Graph} (h : GInv g) (p n : Str) {as : List (Str × Str)} (hr : AllReg as) :
    (g.addSubGraph p n as).1.addSubGraph p n as = ((g.addSubGraph p n as).1, none) := by
  have hi := h.addSubGraph p n as
  rw [addSubGraph_ok hi p n hr, addSubGraph_ok h p n hr]
  by_cases hn : g.name = n
  · simp [hn, Relations.add_idem h.rels, subGraphsAdd_idem, msetAll_idem h.attrs.wf]
  · simp only [hn, if_false, Relations.add_idem h.rels, mget_mset_self, Option.map_some, Option.getD_some]
    have hw : MapWF (((mget g.subGraphs n).map SubGraph.attrs).getD []) := by
      cases hm : mget g.subGraphs n with
      | none => exact MapWF.nil
      | some s => exact (h.subs.attrs n s hm).wf
    have h2 : ∀ v, subGraphsAdd (mset (subGraphsAdd g.subGraphs n) n v) n = mset (subGraphsAdd g.subGraphs n) n v := by
      intro v
      exact subGraphsAdd_has (by simp [mhas, mget_mset_self])
    rw [msetAll_idem hw, h2, mset_mset (h.subs.add n).wf]

end Gographviz
