import Verif.Proofs.Containers
import Verif.Spec.AbstractGraph
/-! The invariant of the graph and the refinement to the abstract machine. -/
namespace Gographviz

open Spec

/-- The invariant of `Graph`. -/
structure GInv (g : Graph) : Prop where
  nodes : NodesInv g.nodes
  edges : EdgesInv g.edges
  rels : RelInv g.relations
  subs : SubsInv g.subGraphs
  attrs : AttrsOk g.attrs

theorem GInv.new : GInv newGraph := ⟨NodesInv.new, EdgesInv.new, RelInv.new, SubsInv.nil, AttrsOk.nil⟩

/-! ### the calls one by one -/

theorem addPortEdge_ok (g : Graph) (s sp d dp : Str) (dir : Bool) {as : List (Str × Str)} (h : AllReg as) :
    g.addPortEdge s sp d dp dir as = ({ g with edges := g.edges.add ⟨s, sp, d, dp, dir, msetAll [] as⟩ }, none) := by
  simp [Graph.addPortEdge, newAttrs_ok h]

theorem addPortEdge_bad (g : Graph) (s sp d dp : Str) (dir : Bool) {as : List (Str × Str)} (h : ¬ AllReg as) :
    ∃ e ∈ as, ¬ Registered e.1 ∧ g.addPortEdge s sp d dp dir as = (g, some (.invalidAttr e.1)) := by
  obtain ⟨e, he, hr, h'⟩ := newAttrsFrom_bad [] h
  exact ⟨e, he, hr, by simp [Graph.addPortEdge, newAttrs, h']⟩

theorem addNode_ok (g : Graph) (p n : Str) {as : List (Str × Str)} (h : AllReg as) :
    g.addNode p n as = ({ g with nodes := g.nodes.add ⟨n, msetAll [] as⟩, relations := g.relations.add p n }, none) := by
  simp [Graph.addNode, newAttrs_ok h]

theorem addNode_bad (g : Graph) (p n : Str) {as : List (Str × Str)} (h : ¬ AllReg as) :
    ∃ e ∈ as, ¬ Registered e.1 ∧ g.addNode p n as = (g, some (.invalidAttr e.1)) := by
  obtain ⟨e, he, hr, h'⟩ := newAttrsFrom_bad [] h
  exact ⟨e, he, hr, by simp [Graph.addNode, newAttrs, h']⟩

theorem GInv.addPortEdge {g : Graph} (h : GInv g) (s sp d dp : Str) (dir : Bool) (as : List (Str × Str)) :
    GInv (g.addPortEdge s sp d dp dir as).1 := by
  by_cases hr : AllReg as
  · rw [addPortEdge_ok g s sp d dp dir hr]
    exact ⟨h.nodes, h.edges.add _ (AttrsOk.nil.msetAll hr), h.rels, h.subs, h.attrs⟩
  · obtain ⟨e, _, _, h'⟩ := addPortEdge_bad g s sp d dp dir hr
    rw [h']; exact h

theorem GInv.addNode {g : Graph} (h : GInv g) (p n : Str) (as : List (Str × Str)) : GInv (g.addNode p n as).1 := by
  by_cases hr : AllReg as
  · rw [addNode_ok g p n hr]
    exact ⟨h.nodes.add _ (AttrsOk.nil.msetAll hr), h.edges, h.rels.add _ _, h.subs, h.attrs⟩
  · obtain ⟨e, _, _, h'⟩ := addNode_bad g p n hr
    rw [h']; exact h

theorem addAttr_bad (g : Graph) (t : Str) {k : Str} (v : Str) (h : ¬ Registered k) :
    g.addAttr t k v = (g, some (if g.name = t ∨ mhas g.subGraphs t = true then .invalidAttr k else .noSuchGraph t)) := by
  unfold Graph.addAttr
  by_cases hn : g.name = t
  · simp [hn, attrsAdd_bad _ v h]
  · simp only [hn, if_false, false_or]
    cases hs : mget g.subGraphs t with
    | none => simp [mhas, hs]
    | some s => simp [attrsAdd_bad _ v h, mhas, hs]

theorem addAttr_none (g : Graph) {t : Str} (k v : Str) (h1 : g.name ≠ t) (h2 : mget g.subGraphs t = none) :
    g.addAttr t k v = (g, some (.noSuchGraph t)) := by
  simp [Graph.addAttr, h1, h2]

theorem addAttr_root (g : Graph) {k : Str} (v : Str) (h : Registered k) :
    g.addAttr g.name k v = ({ g with attrs := mset g.attrs k v }, none) := by
  simp [Graph.addAttr, attrsAdd_ok _ v h]

theorem addAttr_sub (g : Graph) {t k : Str} (v : Str) (h : Registered k) {s : SubGraph} (h1 : g.name ≠ t)
    (h2 : mget g.subGraphs t = some s) :
    g.addAttr t k v = ({ g with subGraphs := mset g.subGraphs t { s with attrs := mset s.attrs k v } }, none) := by
  simp [Graph.addAttr, h1, h2, attrsAdd_ok _ v h]

theorem GInv.addAttr {g : Graph} (h : GInv g) (t k v : Str) : GInv (g.addAttr t k v).1 := by
  by_cases hk : Registered k
  · by_cases hn : g.name = t
    · subst hn
      rw [addAttr_root g v hk]
      exact ⟨h.nodes, h.edges, h.rels, h.subs, h.attrs.mset v hk⟩
    · cases hs : mget g.subGraphs t with
      | none => rw [addAttr_none g k v hn hs]; exact h
      | some s =>
        rw [addAttr_sub g v hk hn hs]
        refine ⟨h.nodes, h.edges, h.rels, ?_, h.attrs⟩
        have hsn := h.subs.name t s hs
        have := h.subs.mset (s := { s with attrs := mset s.attrs k v }) ((h.subs.attrs t s hs).mset v hk)
        simpa [hsn] using this
  · rw [addAttr_bad g t v hk]; exact h

theorem GInv.addAttrs {g : Graph} (h : GInv g) (n : Str) (as : List (Str × Str)) : GInv (g.addAttrs n as).1 := by
  induction as generalizing g with
  | nil => exact h
  | cons e as ih =>
    obtain ⟨k, v⟩ := e
    simp only [Graph.addAttrs]
    have := h.addAttr n k v
    split
    · rename_i g' e he; rw [he] at this; exact this
    · rename_i g' he; rw [he] at this; exact ih this

theorem GInv.addSubGraph {g : Graph} (h : GInv g) (p n : Str) (as : List (Str × Str)) : GInv (g.addSubGraph p n as).1 := by
  unfold Graph.addSubGraph
  apply GInv.addAttrs
  exact ⟨h.nodes, h.edges, h.rels.add _ _, h.subs.add _, h.attrs⟩

theorem removeNode_absent {g : Graph} (h : GInv g) (p : Str) {n : Str} (hn : mget g.nodes.lookup n = none) :
    g.removeNode p n = (g, some (.nodeNotFound n)) := by
  simp [Graph.removeNode, h.nodes.remove_absent hn]

theorem removeNode_present {g : Graph} (h : GInv g) (p : Str) {n : Str} {q : Nat} (hn : mget g.nodes.lookup n = some q) :
    g.removeNode p n =
      ({ g with
          nodes := { g.nodes with lookup := mdel g.nodes.lookup n, list := g.nodes.list.erase q }
          relations := g.relations.remove p n
          edges := edgesRebuild (fun e => !(decide (e.dst = n) || decide (e.src = n))) g.edges.edges }, none) := by
  simp [Graph.removeNode, h.nodes.remove_present hn]

theorem GInv.removeNode {g : Graph} (h : GInv g) (p n : Str) : GInv (g.removeNode p n).1 := by
  cases hn : mget g.nodes.lookup n with
  | none => rw [removeNode_absent h p hn]; exact h
  | some q =>
    rw [removeNode_present h p hn]
    exact ⟨h.nodes.removed hn, (edgesRebuild_spec _ _ h.edges.attrs).1, h.rels.remove _ _, h.subs, h.attrs⟩

theorem GInv.removeNodes {g : Graph} (h : GInv g) (p : Str) (ns : List Str) : GInv (g.removeNodes p ns).1 := by
  induction ns generalizing g with
  | nil => exact h
  | cons n ns ih =>
    simp only [Graph.removeNodes]
    have := h.removeNode p n
    split
    · rename_i g' e he; rw [he] at this; exact this
    · rename_i g' he; rw [he] at this; exact ih this

theorem GInv.removeSubGraph {g : Graph} (h : GInv g) (p n : Str) (order : List Str) :
    GInv (g.removeSubGraph p n order).1 := by
  unfold Graph.removeSubGraph
  have := h.removeNodes p order
  split
  · rename_i g' e he; rw [he] at this; exact this
  · rename_i g' he
    rw [he] at this
    exact ⟨this.nodes, (edgesRebuild_spec _ _ this.edges.attrs).1, this.rels.remove _ _, this.subs.mdel _, this.attrs⟩

theorem GInv.step {g : Graph} (h : GInv g) (op : Op) : GInv (g.step op).1 := by
  cases op with
  | setStrict b => exact ⟨h.nodes, h.edges, h.rels, h.subs, h.attrs⟩
  | setDir b => exact ⟨h.nodes, h.edges, h.rels, h.subs, h.attrs⟩
  | setName b => exact ⟨h.nodes, h.edges, h.rels, h.subs, h.attrs⟩
  | addPortEdge s sp d dp dir as => exact h.addPortEdge s sp d dp dir as
  | addEdge s d dir as => exact h.addPortEdge s [] d [] dir as
  | addNode p n as => exact h.addNode p n as
  | addAttr p f v => exact h.addAttr p f v
  | addSubGraph p n as => exact h.addSubGraph p n as
  | removeNode p n => exact h.removeNode p n
  | removeSubGraph p n o => exact h.removeSubGraph p n o

theorem Reachable.inv {g : Graph} (h : Reachable g) : GInv g := by
  induction h with
  | init => exact GInv.new
  | step op _ _ ih => exact ih.step op

/-! ### refinement -/

theorem sbeq (a b : Str) : (a == b) = decide (a = b) := by
  by_cases h : a = b <;> simp [h]

/-- The abstract edge of an edge. -/
def absEdge (e : Edge) : AEdge := ⟨e.src, e.srcPort, e.dst, e.dstPort, e.dir, mget e.attrs⟩

/-- The abstraction map. -/
def abs (g : Graph) : AGraph where
  name := g.name
  directed := g.directed
  strict := g.strict
  attrs := mget g.attrs
  node := fun n => (g.nodes.find n).map fun nd => mget nd.attrs
  edges := g.edges.edges.map absEdge
  sub := fun n => (mget g.subGraphs n).map fun s => mget s.attrs
  contains := fun p c => mhas (g.relations.children p) c

theorem abs_new : abs newGraph = AGraph.empty := by
  simp only [abs, AGraph.empty, newGraph, newNodes, newEdges, newRelations, Nodes.find, mget, Relations.children, mhas]
  rfl

theorem entry_eq {kvs : List (Str × Str)} (hn : (kvs.map Prod.fst).Nodup) (k : Str) : lastAssign kvs k = entry kvs k := by
  induction kvs with
  | nil => rfl
  | cons e kvs ih =>
    obtain ⟨k', v⟩ := e
    simp only [List.map_cons, List.nodup_cons] at hn
    simp only [lastAssign, entry, List.find?_cons]
    by_cases hk : k' = k
    · subst hk
      have : lastAssign kvs k' = none := lastAssign_eq_none.2 hn.1
      simp [this]
    · simp only [hk, if_false]
      have hb : (k' == k) = false := by simpa using hk
      simp only [hb]
      rw [ih hn.2]
      simp only [entry]
      cases List.find? (fun e => e.fst == k) kvs <;> rfl

theorem mget_msetAll_entry (m : Map Str) {kvs : List (Str × Str)} (hn : (kvs.map Prod.fst).Nodup) :
    mget (msetAll m kvs) = merge (mget m) kvs := by
  funext k
  rw [mget_msetAll, entry_eq hn]
  unfold merge
  cases entry kvs k <;> rfl

theorem mget_msetAll_nil {kvs : List (Str × Str)} (hn : (kvs.map Prod.fst).Nodup) :
    mget (msetAll [] kvs) = entry kvs := by
  rw [mget_msetAll_entry [] hn]
  funext k
  unfold merge
  cases entry kvs k <;> rfl

theorem firstBad_none {kvs : List (Str × Str)} : firstBad kvs = none ↔ AllReg kvs := by
  simp [firstBad, AllReg]

theorem newAttrs_firstBad (as : Attrs) {kvs : List (Str × Str)} {e : Err} (h : firstBad kvs = some e) :
    newAttrsFrom as kvs = .error e := by
  induction kvs generalizing as with
  | nil => simp [firstBad] at h
  | cons kv kvs ih =>
    obtain ⟨k, v⟩ := kv
    by_cases hk : Registered k
    · simp only [newAttrsFrom, attrsAdd_ok as v hk]
      apply ih
      simpa [firstBad, hk] using h
    · simp only [newAttrsFrom, attrsAdd_bad as v hk]
      simp [firstBad, hk] at h
      rw [h]

theorem abs_addPortEdge {g : Graph} (s sp d dp : Str) (dir : Bool) {as : List (Str × Str)}
    (hn : (as.map Prod.fst).Nodup) :
    (abs (g.addPortEdge s sp d dp dir as).1, (g.addPortEdge s sp d dp dir as).2) =
      (abs g).step (.addPortEdge s sp d dp dir as) := by
  simp only [AGraph.step]
  cases hb : firstBad as with
  | some e => simp [Graph.addPortEdge, newAttrs, newAttrs_firstBad [] hb]
  | none =>
    rw [addPortEdge_ok g s sp d dp dir (firstBad_none.1 hb)]
    simp [abs, Edges.add, absEdge, mget_msetAll_nil hn]

theorem abs_addNode {g : Graph} (h : GInv g) (p n : Str) {as : List (Str × Str)}
    (hn : (as.map Prod.fst).Nodup) :
    (abs (g.addNode p n as).1, (g.addNode p n as).2) = (abs g).step (.addNode p n as) := by
  simp only [AGraph.step]
  cases hb : firstBad as with
  | some e => simp [Graph.addNode, newAttrs, newAttrs_firstBad [] hb]
  | none =>
    rw [addNode_ok g p n (firstBad_none.1 hb)]
    simp only [abs, Prod.mk.injEq, and_true, AGraph.mk.injEq, true_and]
    constructor
    · funext x
      rw [h.nodes.find_add _ (MapWF.nil.msetAll _)]
      simp only [upd]
      by_cases hx : n = x
      · subst hx
        simp only [if_true, Option.map_some, attrsExtend, Option.some.injEq]
        cases hf : g.nodes.find n with
        | none =>
          simp only [Option.map_none, Option.getD_none]
          rw [msetAll_empty (MapWF.nil.msetAll _), mget_msetAll_entry [] hn]
          rfl
        | some nd =>
          simp only [Option.map_some, Option.getD_some]
          funext k
          rw [mget_msetAll_wf _ (MapWF.nil.msetAll _), mget_msetAll_nil hn]
          unfold merge
          cases entry as k <;> rfl
      · simp [hx, Ne.symm hx]
    · funext p' c'
      rw [Relations.children_add]
      by_cases h1 : p = p'
      · subst h1
        simp only [if_true, mhas_mset, decide_true, Bool.true_and]
        congr 1
        exact decide_eq_decide.2 eq_comm
      · have : ¬ p' = p := Ne.symm h1
        simp [h1, this]

theorem abs_addAttr {g : Graph} (t k v : Str) :
    (abs (g.addAttr t k v).1, (g.addAttr t k v).2) = (abs g).step (.addAttr t k v) := by
  simp only [AGraph.step]
  have hnm : (abs g).name = g.name := rfl
  have hsub : (abs g).sub t = (mget g.subGraphs t).map fun s => mget s.attrs := rfl
  by_cases hk : Registered k
  · by_cases hn : g.name = t
    · subst hn
      rw [addAttr_root g v hk]
      simp only [hnm, true_or, if_true, hk, AGraph.setAttr, Prod.mk.injEq, and_true]
      simp only [abs, AGraph.mk.injEq, true_and, and_true]
      funext x
      simp only [mget_mset, upd, @eq_comm _ k x]
    · cases hs : mget g.subGraphs t with
      | none =>
        rw [addAttr_none g k v hn hs]
        simp [hnm, hn, hsub, hs]
      | some s =>
        rw [addAttr_sub g v hk hn hs]
        simp only [hnm, hsub, hs, hn, hk, AGraph.setAttr, Option.map_some, Option.isSome_some, or_true, if_true, if_false,
          Prod.mk.injEq, and_true]
        simp only [abs, AGraph.mk.injEq, true_and, and_true]
        funext x
        simp only [mget_mset, upd, @eq_comm _ x t]
        split
        · simp only [Option.map_some, Option.some.injEq]
          funext y
          simp only [mget_mset, @eq_comm _ k y]
          rfl
        · rfl
  · rw [addAttr_bad g t v hk]
    have hb : (g.name = t ∨ mhas g.subGraphs t = true) ↔ ((abs g).name = t ∨ ((abs g).sub t).isSome = true) := by
      rw [hnm, hsub]; simp [mhas]
    by_cases hc : g.name = t ∨ mhas g.subGraphs t = true
    · rw [if_pos hc, if_pos (hb.1 hc), if_neg hk]
    · rw [if_neg hc, if_neg (fun h => hc (hb.2 h))]

theorem abs_addAttrs {g : Graph} (n : Str) (as : List (Str × Str)) (hs : mhas g.subGraphs n = true) :
    (abs (g.addAttrs n as).1, (g.addAttrs n as).2) = (abs g).setAttrs n as := by
  induction as generalizing g with
  | nil => rfl
  | cons e as ih =>
    obtain ⟨k, v⟩ := e
    simp only [Graph.addAttrs, AGraph.setAttrs]
    have hstep := abs_addAttr (g := g) n k v
    have hex : (abs g).name = n ∨ ((abs g).sub n).isSome = true := by
      right; simpa [abs, mhas] using hs
    simp only [AGraph.step, if_pos hex] at hstep
    by_cases hk : Registered k
    · rw [if_pos hk] at hstep ⊢
      cases hr : g.addAttr n k v with
      | mk g' e =>
        rw [hr] at hstep
        simp only [Prod.mk.injEq] at hstep
        obtain ⟨h1, h2⟩ := hstep
        subst h2
        simp only
        rw [← h1]
        apply ih
        have : g' = (g.addAttr n k v).1 := by rw [hr]
        rw [this]
        by_cases hn : g.name = n
        · subst hn; rw [addAttr_root g v hk]; exact hs
        · obtain ⟨s, hs'⟩ := (mhas_iff_mget _ _).1 hs
          rw [addAttr_sub g v hk hn hs']
          simp [mhas_mset]
    · rw [if_neg hk] at hstep ⊢
      cases hr : g.addAttr n k v with
      | mk g' e =>
        rw [hr] at hstep
        simp only [Prod.mk.injEq] at hstep
        obtain ⟨h1, h2⟩ := hstep
        subst h2
        simp only [h1]

theorem abs_addSubGraph {g : Graph} (p n : Str) (as : List (Str × Str)) :
    (abs (g.addSubGraph p n as).1, (g.addSubGraph p n as).2) = (abs g).step (.addSubGraph p n as) := by
  simp only [Graph.addSubGraph, AGraph.step]
  rw [abs_addAttrs]
  · congr 1
    simp only [abs, AGraph.mk.injEq, true_and]
    constructor
    · funext x
      rw [mget_subGraphsAdd]
      simp only [upd]
      by_cases hx : n = x
      · subst hx
        simp only [if_true, Option.map_some, Option.some.injEq]
        cases mget g.subGraphs n <;> rfl
      · simp [hx, Ne.symm hx]
    · funext p' c'
      rw [Relations.children_add]
      by_cases h1 : p = p'
      · subst h1
        simp only [if_true, mhas_mset, decide_true, Bool.true_and]
        congr 1
        exact decide_eq_decide.2 eq_comm
      · have : ¬ p' = p := Ne.symm h1
        simp [h1, this]
  · simp [mhas, mget_subGraphsAdd]

theorem abs_node_none {g : Graph} (h : GInv g) (n : Str) : (abs g).node n = none ↔ mget g.nodes.lookup n = none := by
  have := h.nodes.has_iff_find n
  simp only [abs, Option.map_eq_none_iff]
  cases hm : mget g.nodes.lookup n with
  | none => simp [Nodes.find, hm]
  | some p =>
    obtain ⟨nd, _, _, hf, _⟩ := h.nodes.find_eq hm
    simp [hf]

theorem abs_removeNode {g : Graph} (h : GInv g) (p n : Str) :
    (abs (g.removeNode p n).1, (g.removeNode p n).2) = (abs g).step (.removeNode p n) := by
  simp only [AGraph.step]
  cases hn : mget g.nodes.lookup n with
  | none =>
    rw [removeNode_absent h p hn, (abs_node_none h n).2 hn]
  | some q =>
    cases ha : (abs g).node n with
    | none => rw [abs_node_none h] at ha; rw [hn] at ha; cases ha
    | some as =>
      rw [removeNode_present h p hn]
      simp only [AGraph.removeNode, Prod.mk.injEq, and_true]
      simp only [abs, AGraph.mk.injEq, true_and]
      refine ⟨?_, ?_, ?_⟩
      · funext x
        rw [NodesInv.find_removed]
        simp only [upd, @eq_comm _ n x]
        split <;> rfl
      · rw [edgesRebuild_edges, List.filter_map]
        congr 1
        apply List.filter_congr
        intro e _
        simp only [Function.comp, absEdge, sbeq]
        rw [Bool.or_comm]
      · funext p' c'
        rw [Relations.children_remove]
        by_cases h1 : p = p'
        · subst h1
          simp only [if_true, mhas_mdel, true_and, @eq_comm _ n c']
          split <;> simp_all
        · have : ¬ p' = p := Ne.symm h1
          simp [h1, this]

theorem abs_removeNodes {g : Graph} (h : GInv g) (p : Str) (ns : List Str) :
    (abs (g.removeNodes p ns).1, (g.removeNodes p ns).2) = (abs g).removeNodes p ns := by
  induction ns generalizing g with
  | nil => rfl
  | cons n ns ih =>
    simp only [Graph.removeNodes, AGraph.removeNodes]
    have hstep := abs_removeNode h p n
    have hi := h.removeNode p n
    simp only [AGraph.step] at hstep
    cases hr : g.removeNode p n with
    | mk g' e =>
      rw [hr] at hstep hi
      cases ha : (abs g).node n with
      | none =>
        rw [ha] at hstep
        simp only [Prod.mk.injEq] at hstep
        obtain ⟨h1, h2⟩ := hstep
        subst h2
        simp only [h1]
      | some as =>
        rw [ha] at hstep
        simp only [Prod.mk.injEq] at hstep
        obtain ⟨h1, h2⟩ := hstep
        subst h2
        simp only
        rw [← h1]
        exact ih hi

theorem abs_removeSubGraph {g : Graph} (h : GInv g) (p n : Str) (order : List Str) :
    (abs (g.removeSubGraph p n order).1, (g.removeSubGraph p n order).2) =
      (abs g).step (.removeSubGraph p n order) := by
  simp only [Graph.removeSubGraph, AGraph.step]
  rw [← abs_removeNodes h]
  cases hr : g.removeNodes p order with
  | mk g' e =>
    cases e with
    | some e => rfl
    | none =>
      simp only [Prod.mk.injEq, and_true]
      simp only [abs, AGraph.mk.injEq, true_and]
      refine ⟨?_, ?_, ?_⟩
      · rw [edgesRebuild_edges, List.filter_map]
        congr 1
        apply List.filter_congr
        intro e _
        simp only [Function.comp, absEdge, sbeq]
        cases decide (e.src = n) <;> cases decide (e.dst = n) <;> cases decide (e.srcPort = n) <;>
          cases decide (e.dstPort = n) <;> rfl
      · funext x
        rw [mget_mdel]
        simp only [upd, @eq_comm _ n x]
        split <;> rfl
      · funext p' c'
        rw [Relations.children_remove]
        by_cases h1 : p = p'
        · subst h1
          simp only [if_true, mhas_mdel, true_and, @eq_comm _ n c']
          split <;> simp_all
        · have : ¬ p' = p := Ne.symm h1
          simp [h1, this]

/-- Every call does on the abstraction what the abstract machine does. -/
theorem abs_step {g : Graph} (h : GInv g) (op : Op) (hok : op.Ok g) :
    (abs (g.step op).1, (g.step op).2) = (abs g).step op := by
  cases op with
  | setStrict b => rfl
  | setDir b => rfl
  | setName b => rfl
  | addPortEdge s sp d dp dir as => exact abs_addPortEdge s sp d dp dir hok
  | addEdge s d dir as =>
    have := abs_addPortEdge (g := g) s [] d [] dir hok
    exact this
  | addNode p n as => exact abs_addNode h p n hok
  | addAttr p f v => exact abs_addAttr p f v
  | addSubGraph p n as => exact abs_addSubGraph p n as
  | removeNode p n => exact abs_removeNode h p n
  | removeSubGraph p n o => exact abs_removeSubGraph h p n o

end Gographviz
