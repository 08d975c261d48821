import Verif.Spec.Renaming
import Verif.Props.GraphProps
/-!
C86: names are not interpreted.
-/
namespace Gographviz.Props

open Gographviz Spec

namespace Ren

variable {ρ : Str → Str}

/-- An edge with other names. -/
def renEdge (ρ : Str → Str) (e : AEdge) : AEdge := ⟨ρ e.src, ρ e.srcPort, ρ e.dst, ρ e.dstPort, e.dir, e.attrs⟩

/-- The abstract graphs correspond. -/
structure Rn (ρ : Str → Str) (a b : AGraph) : Prop where
  name : b.name = ρ a.name
  directed : b.directed = a.directed
  strict : b.strict = a.strict
  attrs : b.attrs = a.attrs
  node : ∀ n, b.node (ρ n) = a.node n
  node' : ∀ m, (∀ n, m ≠ ρ n) → b.node m = none
  sub : ∀ n, b.sub (ρ n) = a.sub n
  sub' : ∀ m, (∀ n, m ≠ ρ n) → b.sub m = none
  con : ∀ p c, b.contains (ρ p) (ρ c) = a.contains p c
  con' : ∀ p c, b.contains p c = true → ∃ q d, p = ρ q ∧ c = ρ d
  edges : b.edges = a.edges.map (renEdge ρ)

theorem eq_iff (h : Renaming ρ) {x y : Str} : ρ x = ρ y ↔ x = y := ⟨h.inj x y, fun e => by rw [e]⟩

theorem beq_ren (h : Renaming ρ) (x y : Str) : (ρ x == ρ y) = (x == y) := by
  rw [Bool.eq_iff_iff]; simp only [beq_iff_eq]; exact eq_iff h

theorem upd_ren {α : Type} (h : Renaming ρ) {f g : Str → α} (hf : ∀ n, g (ρ n) = f n) (k : Str) (v : α) (n : Str) : upd g (ρ k) v (ρ n) = upd f k v n := by
  unfold upd
  by_cases e : n = k
  · rw [if_pos e, if_pos (by rw [e])]
  · rw [if_neg e, if_neg (fun he => e (h.inj _ _ he)), hf]

theorem upd_other {α : Type} {g : Str → α} {k m : Str} (v : α) (hm : ∀ n, m ≠ ρ n) : upd g (ρ k) v m = g m := by
  unfold upd
  rw [if_neg (hm k)]

theorem edges_filter (ρ : Str → Str) (es : List AEdge) (P Q : AEdge → Bool) (h : ∀ e, Q (renEdge ρ e) = P e) :
    (es.map (renEdge ρ)).filter Q = (es.filter P).map (renEdge ρ) := by
  induction es with
  | nil => rfl
  | cons e es ih =>
    simp only [List.map_cons, List.filter_cons, h, ih]
    split <;> rfl

theorem removeNode_ren (h : Renaming ρ) {a b : AGraph} (hr : Rn ρ a b) (p n : Str) : Rn ρ (a.removeNode p n) (b.removeNode (ρ p) (ρ n)) := by
  refine ⟨hr.name, hr.directed, hr.strict, hr.attrs, upd_ren h hr.node n none, fun m hm => ?_, hr.sub, hr.sub', ?_, ?_, ?_⟩
  · simp only [AGraph.removeNode]
    rw [upd_other none hm]
    exact hr.node' m hm
  · intro q c
    simp only [AGraph.removeNode, eq_iff h, hr.con]
  · intro q c hc
    simp only [AGraph.removeNode] at hc
    split at hc
    · cases hc
    · exact hr.con' q c hc
  · simp only [AGraph.removeNode, hr.edges]
    exact edges_filter ρ a.edges _ _ fun e => by simp only [renEdge, beq_ren h]

theorem removeNodes_ren (h : Renaming ρ) (p : Str) : ∀ (ns : List Str) {a b : AGraph}, Rn ρ a b →
    Rn ρ (a.removeNodes p ns).1 (b.removeNodes (ρ p) (ns.map ρ)).1 ∧ (b.removeNodes (ρ p) (ns.map ρ)).2 = (a.removeNodes p ns).2.map (renameErr ρ) := by
  intro ns
  induction ns with
  | nil => intro a b hr; exact ⟨hr, rfl⟩
  | cons n ns ih =>
    intro a b hr
    simp only [AGraph.removeNodes, List.map_cons, hr.node]
    cases a.node n with
    | none => exact ⟨hr, rfl⟩
    | some _ => exact ih (removeNode_ren h hr p n)

theorem setAttr_ren (h : Renaming ρ) {a b : AGraph} (hr : Rn ρ a b) (t k v : Str) : Rn ρ (a.setAttr t k v) (b.setAttr (ρ t) k v) := by
  unfold AGraph.setAttr
  rw [hr.sub]
  by_cases e : a.name = t
  · rw [if_pos e, if_pos (by rw [hr.name, e])]
    exact ⟨hr.name, hr.directed, hr.strict, by simp only [hr.attrs], hr.node, hr.node', hr.sub, hr.sub', hr.con, hr.con', hr.edges⟩
  · rw [if_neg e, if_neg fun he => e (h.inj _ _ (hr.name ▸ he))]
    cases a.sub t with
    | none => exact hr
    | some as =>
      exact ⟨hr.name, hr.directed, hr.strict, hr.attrs, hr.node, hr.node', upd_ren h hr.sub t _, fun m hm => by simp only; rw [upd_other _ hm]; exact hr.sub' m hm, hr.con, hr.con', hr.edges⟩

theorem setAttrs_ren (h : Renaming ρ) (t : Str) : ∀ (as : List (Str × Str)) {a b : AGraph}, Rn ρ a b →
    Rn ρ (a.setAttrs t as).1 (b.setAttrs (ρ t) as).1 ∧ (b.setAttrs (ρ t) as).2 = (a.setAttrs t as).2.map (renameErr ρ) := by
  intro as
  induction as with
  | nil => intro a b hr; exact ⟨hr, rfl⟩
  | cons e as ih =>
    intro a b hr
    obtain ⟨k, v⟩ := e
    simp only [AGraph.setAttrs]
    split
    · exact ih (setAttr_ren h hr t k v)
    · exact ⟨hr, rfl⟩

theorem firstBad_ren (ρ : Str → Str) (as : List (Str × Str)) : (firstBad as).map (renameErr ρ) = firstBad as := by
  unfold firstBad
  cases as.find? fun e => !decide (Registered e.1) <;> rfl

theorem addChild (h : Renaming ρ) {a b : AGraph} (hr : Rn ρ a b) (p n : Str) :
    (∀ q c, ((decide (ρ q = ρ p) && decide (ρ c = ρ n)) || b.contains (ρ q) (ρ c)) = ((decide (q = p) && decide (c = n)) || a.contains q c)) ∧
    (∀ q c, ((decide (q = ρ p) && decide (c = ρ n)) || b.contains q c) = true → ∃ q' d, q = ρ q' ∧ c = ρ d) := by
  refine ⟨fun q c => by simp only [eq_iff h, hr.con], fun q c hc => ?_⟩
  simp only [Bool.or_eq_true, Bool.and_eq_true, decide_eq_true_eq] at hc
  rcases hc with hc | hc
  · exact ⟨p, n, hc.1, hc.2⟩
  · exact hr.con' q c hc

theorem step_ren (h : Renaming ρ) {a b : AGraph} (hr : Rn ρ a b) (op : Op) :
    Rn ρ (a.step op).1 (b.step (renameOp ρ op)).1 ∧ (b.step (renameOp ρ op)).2 = (a.step op).2.map (renameErr ρ) := by
  cases op with
  | setStrict c => exact ⟨⟨hr.name, hr.directed, rfl, hr.attrs, hr.node, hr.node', hr.sub, hr.sub', hr.con, hr.con', hr.edges⟩, rfl⟩
  | setDir c => exact ⟨⟨hr.name, rfl, hr.strict, hr.attrs, hr.node, hr.node', hr.sub, hr.sub', hr.con, hr.con', hr.edges⟩, rfl⟩
  | setName c => exact ⟨⟨rfl, hr.directed, hr.strict, hr.attrs, hr.node, hr.node', hr.sub, hr.sub', hr.con, hr.con', hr.edges⟩, rfl⟩
  | addPortEdge s sp d dp dir as =>
    simp only [renameOp, AGraph.step]
    cases hb : firstBad as with
    | some e => exact ⟨hr, by simp only; rw [← hb, firstBad_ren]⟩
    | none =>
      refine ⟨⟨hr.name, hr.directed, hr.strict, hr.attrs, hr.node, hr.node', hr.sub, hr.sub', hr.con, hr.con', ?_⟩, rfl⟩
      simp only [hr.edges, List.map_append, List.map_cons, List.map_nil, renEdge]
  | addEdge s d dir as =>
    simp only [renameOp, AGraph.step]
    cases hb : firstBad as with
    | some e => exact ⟨hr, by simp only; rw [← hb, firstBad_ren]⟩
    | none =>
      refine ⟨⟨hr.name, hr.directed, hr.strict, hr.attrs, hr.node, hr.node', hr.sub, hr.sub', hr.con, hr.con', ?_⟩, rfl⟩
      simp only [hr.edges, List.map_append, List.map_cons, List.map_nil, renEdge, h.empty]
  | addNode p n as =>
    simp only [renameOp, AGraph.step]
    cases hb : firstBad as with
    | some e => exact ⟨hr, by simp only; rw [← hb, firstBad_ren]⟩
    | none =>
      refine ⟨⟨hr.name, hr.directed, hr.strict, hr.attrs, ?_, fun m hm => by simp only; rw [upd_other _ hm]; exact hr.node' m hm, hr.sub, hr.sub', (addChild h hr p n).1, (addChild h hr p n).2, hr.edges⟩, rfl⟩
      simp only [hr.node]
      exact upd_ren h hr.node n _
  | addAttr t k v =>
    simp only [renameOp, AGraph.step, hr.name, hr.sub, eq_iff h]
    split
    · split
      · exact ⟨setAttr_ren h hr t k v, rfl⟩
      · exact ⟨hr, rfl⟩
    · exact ⟨hr, rfl⟩
  | addSubGraph p n as =>
    refine setAttrs_ren h n as ⟨hr.name, hr.directed, hr.strict, hr.attrs, hr.node, hr.node', ?_, fun m hm => by simp only; rw [upd_other _ hm]; exact hr.sub' m hm, (addChild h hr p n).1, (addChild h hr p n).2, hr.edges⟩
    simp only [hr.sub]
    exact upd_ren h hr.sub n _
  | removeNode p n =>
    simp only [renameOp, AGraph.step, hr.node]
    cases a.node n with
    | none => exact ⟨hr, rfl⟩
    | some _ => exact ⟨removeNode_ren h hr p n, rfl⟩
  | removeSubGraph p n o =>
    have hn := removeNodes_ren h p o hr
    simp only [renameOp, AGraph.step]
    cases ha : a.removeNodes p o with
    | mk a' e =>
      cases hb : b.removeNodes (ρ p) (o.map ρ) with
      | mk b' e' =>
        rw [ha, hb] at hn
        obtain ⟨hr, he⟩ := hn
        simp only at hr he
        subst he
        cases e with
        | some e => exact ⟨hr, rfl⟩
        | none =>
          refine ⟨⟨hr.name, hr.directed, hr.strict, hr.attrs, hr.node, hr.node', upd_ren h hr.sub n none, fun m hm => by simp only [Option.map_none]; rw [upd_other none hm]; exact hr.sub' m hm, ?_, ?_, ?_⟩, rfl⟩
          · intro q c
            simp only [Option.map_none, eq_iff h, hr.con]
          · intro q c hc
            simp only [Option.map_none] at hc
            split at hc
            · cases hc
            · exact hr.con' q c hc
          · simp only [Option.map_none, hr.edges]
            exact edges_filter ρ a'.edges _ _ fun e => by simp only [renEdge, beq_ren h]

/-- The keys of the children correspond. -/
theorem children_perm (h : Renaming ρ) {g g' : Graph} (hg : GInv g) (hg' : GInv g') (hr : Rn ρ (abs g) (abs g')) (n : Str) {o : List Str}
    (ho : o.Perm (mkeys (g.relations.children n))) : (o.map ρ).Perm (mkeys (g'.relations.children (ρ n))) := by
  have h1 : ∀ p c, (abs g).contains p c = mhas (g.relations.children p) c := fun _ _ => rfl
  have h2 : ∀ p c, (abs g').contains p c = mhas (g'.relations.children p) c := fun _ _ => rfl
  refine (ho.map ρ).trans ?_
  have nd : (mkeys (g.relations.children n)).Nodup := (hg.rels.iwf1 n).nodup
  have nd' : (mkeys (g'.relations.children (ρ n))).Nodup := (hg'.rels.iwf1 (ρ n)).nodup
  refine (List.perm_ext_iff_of_nodup ?_ nd').2 fun c => ?_
  · exact List.pairwise_map.2 (nd.imp fun hne e => hne (h.inj _ _ e))
  · rw [List.mem_map]
    constructor
    · rintro ⟨d, hd, rfl⟩
      rw [← mhas_iff, ← h2, hr.con, h1, mhas_iff]
      exact hd
    · intro hc
      rw [← mhas_iff, ← h2] at hc
      obtain ⟨q, d, -, rfl⟩ := hr.con' _ _ hc
      rw [hr.con, h1, mhas_iff] at hc
      exact ⟨d, hc, rfl⟩

theorem ok_ren (h : Renaming ρ) {g g' : Graph} (hg : GInv g) (hg' : GInv g') (hr : Rn ρ (abs g) (abs g')) {op : Op} (hok : op.Ok g) : (renameOp ρ op).Ok g' := by
  cases op with
  | removeSubGraph p n o => exact children_perm h hg hg' hr n hok
  | _ => exact hok

theorem run_ren (h : Renaming ρ) (ops : List Op) : ∀ {g g' : Graph}, Reachable g → Reachable g' → Rn ρ (abs g) (abs g') → OkHistory g ops →
    OkHistory g' (ops.map (renameOp ρ)) ∧ g'.runErrs (ops.map (renameOp ρ)) = (g.runErrs ops).map (Option.map (renameErr ρ)) ∧
    Rn ρ (abs (g.run ops)) (abs (g'.run (ops.map (renameOp ρ)))) := by
  induction ops with
  | nil => intro g g' _ _ hr _; exact ⟨trivial, rfl, hr⟩
  | cons op ops ih =>
    intro g g' hg hg' hr hok
    have hok' := ok_ren h hg.inv hg'.inv hr hok.1
    have hs := abs_step hg.inv op hok.1
    have hs' := abs_step hg'.inv (renameOp ρ op) hok'
    have h1 : abs (g.step op).1 = ((abs g).step op).1 := by rw [← hs]
    have h2 : (g.step op).2 = ((abs g).step op).2 := by rw [← hs]
    have h1' : abs (g'.step (renameOp ρ op)).1 = ((abs g').step (renameOp ρ op)).1 := by rw [← hs']
    have h2' : (g'.step (renameOp ρ op)).2 = ((abs g').step (renameOp ρ op)).2 := by rw [← hs']
    obtain ⟨r1, r2⟩ := step_ren h hr op
    obtain ⟨i1, i2, i3⟩ := ih (.step op hg hok.1) (.step (renameOp ρ op) hg' hok') (by rw [h1, h1']; exact r1) hok.2
    exact ⟨⟨hok', i1⟩, by simp only [List.map_cons, Graph.runErrs, i2, h2, h2', r2], i3⟩

theorem Rn.graph (h : Renaming ρ) {g g' : Graph} (hg : GInv g) (hg' : GInv g') (hr : Rn ρ (abs g) (abs g')) : RenamedGraph ρ g g' := by
  have key : ∀ g : Graph, GInv g → ∀ n, g.isNode n = ((abs g).node n).isSome := by
    intro g hi n
    have := abs_node_none hi n
    unfold Graph.isNode mhas
    cases h1 : mget g.nodes.lookup n <;> cases h2 : (abs g).node n <;> simp_all
  have keys : ∀ g : Graph, ∀ n, g.isSubGraph n = ((abs g).sub n).isSome := by
    intro g n
    unfold Graph.isSubGraph mhas abs
    simp
  refine ⟨hr.name, hr.directed, hr.strict, fun k => congrFun hr.attrs k, fun m => ?_, fun n k => ?_, fun m => ?_, fun n k => ?_, fun p c => ?_, ?_, ?_⟩
  · rw [key g' hg']
    constructor
    · intro hm
      have : ∃ n, m = ρ n := Classical.byContradiction fun hn => by
        rw [hr.node' m fun n e => hn ⟨n, e⟩] at hm
        cases hm
      obtain ⟨n, rfl⟩ := this
      exact ⟨n, rfl, by rw [key g hg, ← hr.node]; exact hm⟩
    · rintro ⟨n, rfl, hn⟩
      rw [hr.node, ← key g hg]
      exact hn
  · have e1 := nodeValue_abs (g := g) n k
    have e2 := nodeValue_abs (g := g') (ρ n) k
    rw [hr.node, ← e1] at e2
    exact e2
  · rw [keys g']
    constructor
    · intro hm
      have : ∃ n, m = ρ n := Classical.byContradiction fun hn => by
        rw [hr.sub' m fun n e => hn ⟨n, e⟩] at hm
        cases hm
      obtain ⟨n, rfl⟩ := this
      exact ⟨n, rfl, by rw [keys g, ← hr.sub]; exact hm⟩
    · rintro ⟨n, rfl, hn⟩
      rw [hr.sub, ← keys g]
      exact hn
  · have e : ∀ g : Graph, ∀ n, ((mget g.subGraphs n).bind fun s => mget s.attrs k) = ((abs g).sub n).bind fun as => as k := by
      intro g n
      show _ = ((mget g.subGraphs n).map fun s => mget s.attrs).bind fun as => as k
      cases mget g.subGraphs n <;> rfl
    rw [e g', e g, hr.sub]
  · constructor
    · intro hc
      obtain ⟨q, d, rfl, rfl⟩ := hr.con' p c hc
      exact ⟨q, d, rfl, rfl, (hr.con q d).symm.trans hc⟩
    · rintro ⟨q, d, rfl, rfl, hc⟩
      exact (hr.con q d).trans hc
  · have := congrArg (List.map fun e : AEdge => (e.src, e.srcPort, e.dst, e.dstPort, e.dir)) hr.edges
    simp only [abs, List.map_map] at this
    exact this
  · have := congrArg (List.map fun e : AEdge => e.attrs) hr.edges
    simp only [abs, List.map_map] at this
    exact this

end Ren

open Ren

/-- C86. Names are not interpreted. The history with other names for graphs, subgraphs, nodes and ports is possible too, its calls fail exactly where they failed and with the same errors up to the
names in them, and it makes the same graph under the other names. -/
theorem C86_renaming {ρ : Str → Str} (h : Renaming ρ) (ops : List Op) (hok : OkHistory newGraph ops) :
    OkHistory newGraph (ops.map (renameOp ρ)) ∧
    newGraph.runErrs (ops.map (renameOp ρ)) = (newGraph.runErrs ops).map (Option.map (renameErr ρ)) ∧
    RenamedGraph ρ (newGraph.run ops) (newGraph.run (ops.map (renameOp ρ))) := by
  have h0 : Rn ρ (abs newGraph) (abs newGraph) := by
    rw [abs_new]
    refine ⟨h.empty.symm, rfl, rfl, rfl, fun _ => rfl, fun _ _ => rfl, fun _ => rfl, fun _ _ => rfl, fun _ _ => rfl, fun _ _ hc => (by simp [AGraph.empty] at hc), rfl⟩
  obtain ⟨h1, h2, h3⟩ := run_ren h ops Reachable.init Reachable.init h0 hok
  exact ⟨h1, h2, h3.graph h (Reachable.init.run hok).inv (Reachable.init.run h1).inv⟩

/-- C86. The empty name is special: it is the name of a graph that has been given none. -/
theorem C86_empty_special : newGraph.runErrs [.addAttr [] (b!"label") (b!"x")] = [none] ∧ newGraph.runErrs [.addAttr (b!"A") (b!"label") (b!"x")] = [some (.noSuchGraph (b!"A"))] := by decide +kernel

/-- Two names exchanged. -/
def swapAB (s : Str) : Str := if s = b!"a" then b!"cluster" else if s = b!"cluster" then b!"a" else s

theorem swapAB_renaming : Renaming swapAB := by
  refine ⟨fun a b e => ?_, rfl⟩
  unfold swapAB at e
  by_cases h1 : a = b!"a" <;> by_cases h2 : b = b!"a" <;> by_cases h3 : a = b!"cluster" <;> by_cases h4 : b = b!"cluster" <;> simp_all

/-- A history with failing calls, attributes, ports and removals; a node gets the name of a cluster and the cluster the name of the node. -/
theorem example_renaming : ∃ ops, OkHistory newGraph ops ∧ newGraph.runErrs ops = [none, none, none, none, some (.invalidAttr (b!"foo")), none, none, some (.nodeNotFound (b!"b")), none] ∧
    ((newGraph.run (ops.map (renameOp swapAB))).isNode (b!"cluster") = true ∧ (newGraph.run (ops.map (renameOp swapAB))).isSubGraph (b!"a") = false) :=
  ⟨[.setName (b!"G"), .addNode (b!"G") (b!"a") [(b!"label", b!"x")], .addSubGraph (b!"G") (b!"cluster") [(b!"color", b!"red")], .addNode (b!"cluster") (b!"b") [],
    .addNode (b!"G") (b!"c") [(b!"foo", b!"1")], .addPortEdge (b!"a") (b!"p") (b!"b") [] true [], .removeNode (b!"cluster") (b!"b"), .removeNode (b!"G") (b!"b"),
    .removeSubGraph (b!"G") (b!"cluster") []], by decide +kernel, by decide +kernel, by decide +kernel⟩

end Gographviz.Props
