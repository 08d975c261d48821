import Verif.Proofs.GraphOps
import Verif.Props.Example
/-!
Properties C01–C12 and C44: the graph state machine.
-/
namespace Gographviz.Props

open Gographviz Spec

/-! ### C01 -/

/-- C01. Every listed pointer is the one its node's name is looked up to; every looked-up pointer is listed and its node has
the name; no name is listed twice. -/
theorem C01_nodes_agree {g : Graph} (h : Reachable g) :
    (∀ p ∈ g.nodes.list, ∃ n, g.nodes.heap[p]? = some n ∧ mget g.nodes.lookup n.name = some p) ∧
    (∀ name p, mget g.nodes.lookup name = some p →
      p ∈ g.nodes.list ∧ ∃ n, g.nodes.heap[p]? = some n ∧ n.name = name) ∧
    (∀ (i j p q : Nat) (n m : Node), g.nodes.list[i]? = some p → g.nodes.list[j]? = some q →
      g.nodes.heap[p]? = some n → g.nodes.heap[q]? = some m → n.name = m.name → i = j) := by
  have hi := h.inv.nodes
  refine ⟨fun p hp => ?_, fun name p hp => (hi.look name p).1 hp, ?_⟩
  · obtain ⟨n, hn⟩ := hi.valid p hp
    exact ⟨n, hn, (hi.look n.name p).2 ⟨hp, n, hn, rfl⟩⟩
  · intro i j p q n m hi' hj hp hq hnm
    have e1 := (hi.look n.name p).2 ⟨List.mem_of_getElem? hi', n, hp, rfl⟩
    have e2 := (hi.look n.name q).2 ⟨List.mem_of_getElem? hj, m, hq, hnm.symm⟩
    rw [e1] at e2; cases e2
    obtain ⟨hil, hie⟩ := List.getElem?_eq_some_iff.1 hi'
    obtain ⟨hjl, hje⟩ := List.getElem?_eq_some_iff.1 hj
    have hnd := List.pairwise_iff_getElem.1 hi.nodup
    rcases Nat.lt_trichotomy i j with hlt | heq | hlt
    · exact absurd (hie.trans hje.symm) (hnd i j hil hjl hlt)
    · exact heq
    · exact absurd (hje.trans hie.symm) (hnd j i hjl hil hlt)

example : Reachable Example.g ∧ Example.g.nodes.list.length = 3 := ⟨Example.g_reachable, by decide +kernel⟩

/-! ### C02 -/

/-- C02. Both indexes hold, for each pair of endpoints, exactly the edges with these endpoints in list order (no entry if there
is none); an outer entry exists only if there is an edge. -/
theorem C02_edge_indexes_agree {g : Graph} (h : Reachable g) (s d : Str) :
    let between := g.edges.edges.filter fun e => decide (e.src = s) && decide (e.dst = d)
    ((mget g.edges.srcToDsts s).bind fun m => mget m d) = (if between = [] then none else some between) ∧
    ((mget g.edges.dstToSrcs d).bind fun m => mget m s) = (if between = [] then none else some between) ∧
    (mhas g.edges.srcToDsts s = true ↔ ∃ e ∈ g.edges.edges, e.src = s) ∧
    (mhas g.edges.dstToSrcs d = true ↔ ∃ e ∈ g.edges.edges, e.dst = d) := by
  have hi := h.inv.edges
  intro between
  have hne : ∀ l : List Edge, nonEmpty l = if l = [] then none else some l := by
    intro l; cases l <;> rfl
  have hs := hi.src
  have hd := hi.dst
  simp only [mget2, hne, edgesBetween] at hs hd
  refine ⟨hs s d, hd s d, ?_, ?_⟩
  · rw [mhas_iff_mget]
    constructor
    · intro ⟨i, hm⟩
      cases i with
      | nil => exact absurd rfl (hi.ne1 s [] hm)
      | cons kv i =>
        have := hs s kv.1
        simp only [hm, Option.bind_some, mget, if_true] at this
        split at this
        · cases this
        · rename_i hl
          obtain ⟨e, he⟩ := List.exists_mem_of_ne_nil _ hl
          simp only [List.mem_filter, Bool.and_eq_true, decide_eq_true_eq] at he
          exact ⟨e, he.1, he.2.1⟩
    · intro ⟨e, he, hse⟩
      have := hs s e.dst
      have hmem : e ∈ g.edges.edges.filter fun e' => decide (e'.src = s) && decide (e'.dst = e.dst) := by
        simp [he, hse]
      rw [if_neg (List.ne_nil_of_mem hmem)] at this
      cases hm : mget g.edges.srcToDsts s with
      | none => simp [hm] at this
      | some i => exact ⟨i, rfl⟩
  · rw [mhas_iff_mget]
    constructor
    · intro ⟨i, hm⟩
      cases i with
      | nil => exact absurd rfl (hi.ne2 d [] hm)
      | cons kv i =>
        have := hd kv.1 d
        simp only [hm, Option.bind_some, mget, if_true] at this
        split at this
        · cases this
        · rename_i hl
          obtain ⟨e, he⟩ := List.exists_mem_of_ne_nil _ hl
          simp only [List.mem_filter, Bool.and_eq_true, decide_eq_true_eq] at he
          exact ⟨e, he.1, he.2.2⟩
    · intro ⟨e, he, hse⟩
      have := hd e.src d
      have hmem : e ∈ g.edges.edges.filter fun e' => decide (e'.src = e.src) && decide (e'.dst = d) := by
        simp [he, hse]
      rw [if_neg (List.ne_nil_of_mem hmem)] at this
      cases hm : mget g.edges.dstToSrcs d with
      | none => simp [hm] at this
      | some i => exact ⟨i, rfl⟩

example : Reachable Example.g ∧
    (Example.g.edges.edges.filter fun e => decide (e.src = b!"a") && decide (e.dst = b!"b")).length = 2 :=
  ⟨Example.g_reachable, by decide +kernel⟩

/-! ### C03 -/

/-- C03. `c` is a recorded child of `p` exactly when `p` is a recorded parent of `c` (and recorded entries are `true`). -/
theorem C03_relations_inverse {g : Graph} (h : Reachable g) (p c : Str) :
    (mget (g.relations.children p) c = some true ↔ mget (g.relations.parents c) p = some true) ∧
    mget (g.relations.children p) c ≠ some false ∧ mget (g.relations.parents c) p ≠ some false := by
  have hi := h.inv.rels
  have key : ∀ (m : Map Bool) (k : Str), (∀ b, mget m k = some b → b = true) →
      (mget m k = some true ↔ mhas m k = true) := by
    intro m k hm
    rw [mhas_iff_mget]
    constructor
    · intro h; exact ⟨true, h⟩
    · intro ⟨b, hb⟩; rw [hb, hm b hb]
  refine ⟨?_, fun h' => ?_, fun h' => ?_⟩
  · rw [key _ _ (hi.tt p c), key _ _ (hi.tt2 p c), hi.inv]
  · cases hi.tt _ _ _ h'
  · cases hi.tt2 _ _ _ h'

example : Reachable Example.g ∧ mget (Example.g.relations.children (b!"S")) (b!"b") = some true :=
  ⟨Example.g_reachable, by decide +kernel⟩

/-! ### C04 -/

/-- C04. The four calls fail exactly when an attribute name is unregistered (or the target of `AddAttr` does not exist), and then
leave the graph exactly as it was. -/
theorem C04_rejected_unchanged (g : Graph) :
    (∀ p n as, ((g.addNode p n as).2 ≠ none ↔ ∃ e ∈ as, ¬ Registered e.1) ∧
      ((g.addNode p n as).2 ≠ none → (g.addNode p n as).1 = g)) ∧
    (∀ s sp d dp dir as, ((g.addPortEdge s sp d dp dir as).2 ≠ none ↔ ∃ e ∈ as, ¬ Registered e.1) ∧
      ((g.addPortEdge s sp d dp dir as).2 ≠ none → (g.addPortEdge s sp d dp dir as).1 = g)) ∧
    (∀ s d dir as, ((g.addEdge s d dir as).2 ≠ none ↔ ∃ e ∈ as, ¬ Registered e.1) ∧
      ((g.addEdge s d dir as).2 ≠ none → (g.addEdge s d dir as).1 = g)) ∧
    (∀ t k v, ((g.addAttr t k v).2 ≠ none ↔ ¬ Registered k ∨ (t ≠ g.name ∧ g.isSubGraph t = false)) ∧
      ((g.addAttr t k v).2 ≠ none → (g.addAttr t k v).1 = g)) := by
  have hbad : ∀ as : List (Str × Str), (∃ e ∈ as, ¬ Registered e.1) ↔ ¬ AllReg as := by
    intro as; simp [AllReg]
  have hedge : ∀ s sp d dp dir as, ((g.addPortEdge s sp d dp dir as).2 ≠ none ↔ ∃ e ∈ as, ¬ Registered e.1) ∧
      ((g.addPortEdge s sp d dp dir as).2 ≠ none → (g.addPortEdge s sp d dp dir as).1 = g) := by
    intro s sp d dp dir as
    rw [hbad]
    by_cases hr : AllReg as
    · rw [addPortEdge_ok g s sp d dp dir hr]; simp [hr]
    · obtain ⟨e, _, _, h'⟩ := addPortEdge_bad g s sp d dp dir hr
      rw [h']; simp [hr]
  refine ⟨?_, hedge, fun s d dir as => hedge s [] d [] dir as, ?_⟩
  · intro p n as
    rw [hbad]
    by_cases hr : AllReg as
    · rw [addNode_ok g p n hr]; simp [hr]
    · obtain ⟨e, _, _, h'⟩ := addNode_bad g p n hr
      rw [h']; simp [hr]
  · intro t k v
    by_cases hk : Registered k
    · by_cases hn : g.name = t
      · subst hn; rw [addAttr_root g v hk]; simp [hk]
      · cases hs : mget g.subGraphs t with
        | none => rw [addAttr_none g k v hn hs]; simp [Graph.isSubGraph, mhas, hs, Ne.symm hn]
        | some s => rw [addAttr_sub g v hk hn hs]; simp [Graph.isSubGraph, mhas, hs, hk]
    · rw [addAttr_bad g t v hk]; simp [hk]

example : (∃ e ∈ [(b!"nonsense", b!"1")], ¬ Registered e.1) ∧
    (Example.g.addNode (b!"G") (b!"z") [(b!"nonsense", b!"1")]).2 ≠ none ∧
    (Example.g.addAttr (b!"nowhere") (b!"color") (b!"x")).2 ≠ none := by decide +kernel

/-! ### C05 -/

/-- The value of attribute `k` of node `n` (none if the node or the attribute does not exist). -/
def nodeValue (g : Graph) (n k : Str) : Option Str := (g.nodes.find n).bind fun nd => mget nd.attrs k

/-- No call of the history, started in `g`, removes node `n`: if it is there before the call, it is there after it. -/
def NeverRemoved (n : Str) (g : Graph) : List Op → Prop
  | [] => True
  | op :: ops => (g.isNode n = true → (g.step op).1.isNode n = true) ∧ NeverRemoved n (g.step op).1 ops

instance decNeverRemoved (n : Str) (g : Graph) : (ops : List Op) → Decidable (NeverRemoved n g ops)
  | [] => .isTrue trivial
  | op :: ops => @instDecidableAnd _ _ _ (decNeverRemoved n (g.step op).1 ops)

/-- The value that the successful `AddNode` calls of a history give last to attribute `k` of node `n`: the entries of the last
successful `AddNode` for `n` that mentions `k`. -/
def lastAdded (n k : Str) : List Op → Option Str
  | [] => none
  | .addNode _ m as :: ops =>
    match lastAdded n k ops with
    | some v => some v
    | none => if m = n ∧ (∀ e ∈ as, Registered e.1) then entry as k else none
  | _ :: ops => lastAdded n k ops

theorem nodeValue_abs {g : Graph} (n k : Str) : nodeValue g n k = ((abs g).node n).bind fun as => as k := by
  simp only [nodeValue, abs]
  cases g.nodes.find n <;> rfl

theorem aremoveNodes_node (a : AGraph) (p : Str) (ns : List Str) (x : Str)
    (hx : a.node x ≠ none → (a.removeNodes p ns).1.node x ≠ none) : (a.removeNodes p ns).1.node x = a.node x := by
  have key : ∀ (ns : List Str) (a : AGraph), (a.removeNodes p ns).1.node x = a.node x ∨ (a.removeNodes p ns).1.node x = none := by
    intro ns
    induction ns with
    | nil => exact fun _ => .inl rfl
    | cons n ns ih =>
      intro a
      simp only [AGraph.removeNodes]
      cases hn : a.node n with
      | none => exact .inl rfl
      | some as =>
        simp only
        rcases ih (a.removeNode p n) with h | h
        · rw [h]
          by_cases hxn : x = n
          · right; simp [AGraph.removeNode, upd, hxn]
          · left; simp [AGraph.removeNode, upd, hxn]
        · exact .inr h
  rcases key ns a with h | h
  · exact h
  · cases ha : a.node x with
    | none => exact h
    | some as => exact absurd h (hx (by rw [ha]; exact nofun))

theorem isNode_iff_abs {g : Graph} (h : Reachable g) (n : Str) : g.isNode n = true ↔ (abs g).node n ≠ none := by
  have hi := h.inv
  constructor
  · intro hn
    obtain ⟨q, hq⟩ := (mhas_iff_mget _ _).1 hn
    have := ((C01_nodes_agree h).2.1 n q hq).2
    obtain ⟨nd, hnd, _⟩ := this
    simp [abs, Nodes.find, hq, Nodes.deref, hnd]
  · intro hn
    cases hq : mget g.nodes.lookup n with
    | none => simp [abs, Nodes.find, hq] at hn
    | some q => exact (mhas_iff_mget _ _).2 ⟨q, hq⟩

theorem asetAttrs_node (a : AGraph) (t : Str) (as : List (Str × Str)) : (a.setAttrs t as).1.node = a.node := by
  induction as generalizing a with
  | nil => rfl
  | cons e as ih =>
    obtain ⟨k, v⟩ := e
    simp only [AGraph.setAttrs]
    split
    · rw [ih]; unfold AGraph.setAttr; split
      · rfl
      · split <;> rfl
    · rfl

/-- C05. Along any history that does not remove the node, its attribute value is the one given by the last successful `AddNode`
that mentions the key, and otherwise what it was before (in particular absent if the node did not exist, e.g. directly
after it was removed: `C06_removeNode`). -/
theorem C05_last_value_wins {g : Graph} (hg : Reachable g) (ops : List Op) (hok : OkHistory g ops) (n k : Str)
    (hkeep : NeverRemoved n g ops) :
    nodeValue (g.run ops) n k = (lastAdded n k ops).or (nodeValue g n k) := by
  induction ops generalizing g with
  | nil => rfl
  | cons op ops ih =>
    have hstep := abs_step hg.inv op hok.1
    have ih' := ih (.step op hg hok.1) hok.2 hkeep.2
    have hk := hkeep.1
    have h1 : abs (g.step op).1 = ((abs g).step op).1 := by rw [← hstep]
    rw [Graph.run, ih']
    rw [isNode_iff_abs hg, isNode_iff_abs (.step op hg hok.1), h1] at hk
    have same : ((abs g).step op).1.node n = (abs g).node n → nodeValue (g.step op).1 n k = nodeValue g n k := by
      intro he; rw [nodeValue_abs, nodeValue_abs, h1, he]
    cases op with
    | addNode p m as =>
      simp only [lastAdded]
      cases hl : lastAdded n k ops with
      | some v => rfl
      | none =>
        simp only [Option.none_or]
        by_cases hr : ∀ e ∈ as, Registered e.1
        · have hfb : firstBad as = none := firstBad_none.2 hr
          by_cases hm : m = n
          · subst hm
            rw [nodeValue_abs, nodeValue_abs, h1]
            simp only [AGraph.step, hfb, upd, if_true, Option.bind_some, merge, true_and, hr]
            cases hx : (abs g).node m with
            | none => simp [if_pos hr]
            | some f => simp [if_pos hr]
          · simp only [hm, false_and, if_false, Option.none_or]
            apply same
            simp [AGraph.step, hfb, upd, Ne.symm hm]
        · simp only [hr, and_false, if_false, Option.none_or]
          apply same
          cases hfb : firstBad as with
          | none => exact absurd (firstBad_none.1 hfb) hr
          | some e => simp [AGraph.step, hfb]
    | removeNode p m =>
      simp only [lastAdded]
      rw [same]
      simp only [AGraph.step] at hk ⊢
      cases hm : (abs g).node m with
      | none => rfl
      | some f =>
        simp only [hm] at hk ⊢
        by_cases hnm : n = m
        · subst hnm; rw [hm] at hk; simp [AGraph.removeNode, upd] at hk
        · simp [AGraph.removeNode, upd, hnm]
    | removeSubGraph p m order =>
      simp only [lastAdded]
      rw [same]
      simp only [AGraph.step] at hk ⊢
      cases hr : (abs g).removeNodes p order with
      | mk a e =>
        have := aremoveNodes_node (abs g) p order n
        rw [hr] at this hk
        cases e with
        | some e => exact this hk
        | none => exact this hk
    | setStrict b => exact congrArg _ (same rfl)
    | setDir b => exact congrArg _ (same rfl)
    | setName b => exact congrArg _ (same rfl)
    | addPortEdge s sp d dp dir as =>
      refine congrArg _ (same ?_)
      simp only [AGraph.step]; split <;> rfl
    | addEdge s d dir as =>
      refine congrArg _ (same ?_)
      simp only [AGraph.step]; split <;> rfl
    | addAttr t f v =>
      refine congrArg _ (same ?_)
      simp only [AGraph.step]
      split
      · split
        · unfold AGraph.setAttr; split
          · rfl
          · split <;> rfl
        · rfl
      · rfl
    | addSubGraph p m as =>
      refine congrArg _ (same ?_)
      simp only [AGraph.step, asetAttrs_node]

/-- C05. Since the node was last removed (or ever): if the node is not there at the start of a history and is not removed
during it, its values are exactly those of the last successful `AddNode` that mention the key; other keys are absent. -/
theorem C05_since_removed {g : Graph} (hg : Reachable g) (ops : List Op) (hok : OkHistory g ops) (n k : Str)
    (h0 : g.isNode n = false) (hkeep : NeverRemoved n g ops) : nodeValue (g.run ops) n k = lastAdded n k ops := by
  rw [C05_last_value_wins hg ops hok n k hkeep]
  have : nodeValue g n k = none := by
    have hm : mget g.nodes.lookup n = none := by simpa [Graph.isNode, mhas] using h0
    simp [nodeValue, Nodes.find, hm]
  rw [this]
  cases lastAdded n k ops <;> rfl

example : OkHistory newGraph Example.ops ∧ NeverRemoved (b!"a") newGraph Example.ops ∧
    lastAdded (b!"a") (b!"label") Example.ops = some (b!"two") ∧
    lastAdded (b!"a") (b!"shape") Example.ops = some (b!"box") :=
  ⟨Example.g_ok, by decide +kernel, by decide +kernel, by decide +kernel⟩

/-- A `RemoveSubGraph` that fails before it comes to `n` does not remove `n`. -/
example : let ops := [.addNode (b!"S") (b!"n") [(b!"label", b!"x")], .addSubGraph (b!"S") (b!"m") [],
      Op.removeSubGraph [] (b!"S") [b!"m", b!"n"]]
    OkHistory newGraph ops ∧ NeverRemoved (b!"n") newGraph ops ∧ newGraph.isNode (b!"n") = false ∧
    lastAdded (b!"n") (b!"label") ops = some (b!"x") := by decide +kernel

/-! ### C06 -/

/-- C06. `RemoveNode` in closed form. -/
theorem C06_removeNode {g : Graph} (h : Reachable g) (p n : Str) :
    (g.isNode n = false → g.removeNode p n = (g, some (.nodeNotFound n))) ∧
    (g.isNode n = true → ∃ g', g.removeNode p n = (g', none) ∧
      g'.isNode n = false ∧
      (∀ m, m ≠ n → g'.nodes.find m = g.nodes.find m ∧ g'.isNode m = g.isNode m) ∧
      g'.edges.edges = g.edges.edges.filter (fun e => !(decide (e.src = n) || decide (e.dst = n))) ∧
      g'.attrs = g.attrs ∧ g'.name = g.name ∧ g'.directed = g.directed ∧ g'.strict = g.strict ∧
      g'.subGraphs = g.subGraphs ∧
      (∀ a b, mhas (g'.relations.children a) b = (mhas (g.relations.children a) b && !(decide (a = p) && decide (b = n))))) := by
  have hi := h.inv
  constructor
  · intro hn
    have : mget g.nodes.lookup n = none := by simpa [Graph.isNode, mhas] using hn
    exact removeNode_absent hi p this
  · intro hn
    obtain ⟨q, hq⟩ := (mhas_iff_mget _ _).1 hn
    refine ⟨_, removeNode_present hi p hq, ?_, fun m hm => ⟨?_, ?_⟩, ?_, rfl, rfl, rfl, rfl, rfl, fun a b => ?_⟩
    · simp [Graph.isNode, mhas_mdel]
    · rw [NodesInv.find_removed, if_neg (Ne.symm hm)]
    · simp [Graph.isNode, mhas_mdel, Ne.symm hm]
    · rw [edgesRebuild_edges]
      apply List.filter_congr
      intro e _
      rw [Bool.or_comm]
    · rw [Relations.children_remove]
      by_cases h1 : p = a
      · subst h1
        simp only [if_true, mhas_mdel, decide_true, Bool.true_and]
        rw [Bool.and_comm]
        congr 2
        exact decide_eq_decide.2 eq_comm
      · simp [h1, Ne.symm h1]

example : Reachable Example.g ∧ Example.g.isNode (b!"b") = true ∧ Example.g.isNode (b!"S") = false ∧
    ((Example.g.removeNode (b!"S") (b!"b")).1.edges.edges).length = 0 :=
  ⟨Example.g_reachable, by decide +kernel, by decide +kernel, by decide +kernel⟩

/-! ### C07 -/

/-- The edge mentions the name as an endpoint or as a port. -/
def touches (n : Str) (e : Edge) : Bool :=
  decide (e.src = n) || decide (e.srcPort = n) || decide (e.dst = n) || decide (e.dstPort = n)

/-- C07, first part: `RemoveSubGraph` succeeds exactly when every recorded child of the subgraph is a node; then its effect is
the stated one, whatever the iteration order. (The last sentence of C07 is false of the code:
`C07_recreate_not_empty`.) -/
theorem C07_removeSubGraph_partial {g : Graph} (h : Reachable g) (p n : Str) (order : List Str)
    (ho : order.Perm (mkeys (g.relations.children n))) :
    ((g.removeSubGraph p n order).2 = none ↔ ∀ c, mhas (g.relations.children n) c = true → g.isNode c = true) ∧
    (∀ order', order'.Perm (mkeys (g.relations.children n)) → (g.removeSubGraph p n order).2 = none →
      g.removeSubGraph p n order' = g.removeSubGraph p n order) ∧
    ((g.removeSubGraph p n order).2 = none → ∃ g', g' = (g.removeSubGraph p n order).1 ∧
      g'.isSubGraph n = false ∧
      (∀ m, m ≠ n → mget g'.subGraphs m = mget g.subGraphs m) ∧
      (∀ c, mhas (g.relations.children n) c = true → g'.isNode c = false) ∧
      (∀ c, mhas (g.relations.children n) c = false →
        g'.isNode c = g.isNode c ∧ ∀ k, nodeValue g' c k = nodeValue g c k) ∧
      g'.edges.edges = g.edges.edges.filter (fun e => !(touches n e ||
        mhas (g.relations.children n) e.src || mhas (g.relations.children n) e.dst)) ∧
      g'.attrs = g.attrs ∧ g'.name = g.name ∧ g'.directed = g.directed ∧ g'.strict = g.strict ∧
      (∀ a b, mhas (g'.relations.children a) b = (mhas (g.relations.children a) b &&
        !(decide (a = p) && (decide (b = n) || mhas (g.relations.children n) b))))) := by
  have hi := h.inv
  have hnd : (mkeys (g.relations.children n)).Nodup := (hi.rels.iwf1 n).nodup
  have hmem : ∀ {o : List Str}, o.Perm (mkeys (g.relations.children n)) → ∀ c, c ∈ o ↔ mhas (g.relations.children n) c = true := by
    intro o hp c
    rw [hp.mem_iff, mhas_iff]
  have hiff : (g.removeSubGraph p n order).2 = none ↔
      ∀ c, mhas (g.relations.children n) c = true → g.isNode c = true := by
    constructor
    · intro hs c hc
      refine Decidable.byContradiction fun hcn => ?_
      have hno : (abs g).node c = none := by
        rw [abs_node_none hi]
        simpa [Graph.isNode, mhas] using hcn
      obtain ⟨d, _, _, hd⟩ := aremoveNodes_bad (abs g) p order (ho.nodup_iff.2 hnd) c ((hmem ho c).2 hc) hno
      have hst := abs_step hi (.removeSubGraph p n order) ho
      have h2 : (g.removeSubGraph p n order).2 = ((abs g).step (.removeSubGraph p n order)).2 := by rw [← hst]; rfl
      rw [hs] at h2
      simp only [AGraph.step] at h2
      cases hr : (abs g).removeNodes p order with
      | mk a e =>
        rw [hr] at h2 hd
        simp only at hd
        subst hd
        cases h2
    · intro hall
      obtain ⟨g', e, _⟩ := removeNodes_closed hi p order (ho.nodup_iff.2 hnd) fun c hc => hall c ((hmem ho c).1 hc)
      simp [Graph.removeSubGraph, e]
  refine ⟨hiff, ?_, ?_⟩
  · intro order' ho' hs
    have hall := hiff.1 hs
    have := removeNodes_perm hi p (ho.trans ho'.symm) (ho.nodup_iff.2 hnd) fun c hc => hall c ((hmem ho c).1 hc)
    simp only [Graph.removeSubGraph, this.1]
  · intro hs
    have hall := hiff.1 hs
    obtain ⟨g', e, hi', h1, h2, h3, h4, h5, h6, h7, h8, h9⟩ :=
      removeNodes_closed hi p order (ho.nodup_iff.2 hnd) fun c hc => hall c ((hmem ho c).1 hc)
    have hdec : ∀ x, decide (x ∈ order) = mhas (g.relations.children n) x := by
      intro x
      rw [Bool.eq_iff_iff, decide_eq_true_eq, hmem ho]
    simp only [hdec] at h2 h3 h9
    refine ⟨_, rfl, ?_⟩
    simp only [Graph.removeSubGraph, e]
    refine ⟨?_, ?_, ?_, ?_, ?_, h4, h5, h6, h7, ?_⟩
    · simp [Graph.isSubGraph, mhas_mdel]
    · intro m hm
      rw [mget_mdel, if_neg (Ne.symm hm), h8]
    · intro c hc
      simp [Graph.isNode, h2, hc]
    · intro c hc
      refine ⟨by simp [Graph.isNode, h2, hc], fun k => ?_⟩
      have : c ∉ order := by rw [hmem ho, hc]; simp
      simp [nodeValue, h1, this]
    · rw [edgesRebuild_edges, h3, List.filter_filter]
      apply List.filter_congr
      intro e _
      simp only [touches]
      cases decide (e.src = n) <;> cases decide (e.srcPort = n) <;> cases decide (e.dst = n) <;>
        cases decide (e.dstPort = n) <;> cases mhas (g.relations.children n) e.src <;>
        cases mhas (g.relations.children n) e.dst <;> rfl
    · intro a b
      rw [Relations.children_remove]
      by_cases hp : p = a
      · subst hp
        simp only [if_true, mhas_mdel, h9, decide_true, Bool.true_and]
        by_cases hx : n = b
        · subst hx; simp
        · simp [hx, Ne.symm hx]
      · simp [hp, Ne.symm hp, h9]

example : Reachable Example.g ∧ [b!"b"].Perm (mkeys (Example.g.relations.children (b!"S"))) ∧
    (Example.g.removeSubGraph (b!"G") (b!"S") [b!"b"]).2 = none ∧
    (Example.g.removeSubGraph (b!"G") (b!"S") [b!"b"]).1.edges.edges = [] :=
  ⟨Example.g_reachable, by decide +kernel, by decide +kernel, by decide +kernel⟩

/-- The last sentence of C07 is false: after `RemoveSubGraph` and re-creation the subgraph has a child that is not a node
any more (the relation from the subgraph to its children is not deleted). -/
theorem C07_recreate_not_empty : ∃ g : Graph, Reachable g ∧ ∃ order,
    order.Perm (mkeys (g.relations.children (b!"S"))) ∧ (g.removeSubGraph (b!"G") (b!"S") order).2 = none ∧
    let g' := ((g.removeSubGraph (b!"G") (b!"S") order).1.addSubGraph (b!"G") (b!"S") []).1
    mhas (g'.relations.children (b!"S")) (b!"b") = true ∧ g'.isNode (b!"b") = false :=
  ⟨Example.g, Example.g_reachable, [b!"b"], by decide +kernel, by decide +kernel, by decide +kernel⟩

/-! ### C08 -/

/-- C08. `AddAttr` in closed form: it succeeds exactly for a registered name and an existing target; the root graph takes
precedence; one key of one attribute map changes. -/
theorem C08_addAttr {g : Graph} (h : Reachable g) (t k v : Str) :
    ((g.addAttr t k v).2 = none ↔ Registered k ∧ (t = g.name ∨ g.isSubGraph t = true)) ∧
    ((g.addAttr t k v).2 ≠ none → (g.addAttr t k v).1 = g) ∧
    ((g.addAttr t k v).2 = none → ∃ g', g' = (g.addAttr t k v).1 ∧
      (∀ x, mget g'.attrs x = if t = g.name ∧ x = k then some v else mget g.attrs x) ∧
      (∀ m x, ((mget g'.subGraphs m).bind fun s => mget s.attrs x) =
        if t ≠ g.name ∧ m = t ∧ x = k then some v else (mget g.subGraphs m).bind fun s => mget s.attrs x) ∧
      (∀ m, g'.isSubGraph m = g.isSubGraph m) ∧
      g'.name = g.name ∧ g'.directed = g.directed ∧ g'.strict = g.strict ∧ g'.nodes = g.nodes ∧ g'.edges = g.edges ∧
      g'.relations = g.relations) := by
  by_cases hk : Registered k
  · by_cases hn : g.name = t
    · subst hn
      rw [addAttr_root g v hk]
      refine ⟨by simp [hk], by simp, fun _ => ⟨_, rfl, ?_, by simp, fun m => rfl, rfl, rfl, rfl, rfl, rfl, rfl⟩⟩
      intro x
      simp only [mget_mset, true_and]
      by_cases hx : k = x
      · simp [hx]
      · simp [hx, Ne.symm hx]
    · cases hs : mget g.subGraphs t with
      | none => rw [addAttr_none g k v hn hs]; simp [Graph.isSubGraph, mhas, hs, Ne.symm hn]
      | some s =>
        rw [addAttr_sub g v hk hn hs]
        refine ⟨by simp [hk, Graph.isSubGraph, mhas, hs], by simp,
          fun _ => ⟨_, rfl, by simp [Ne.symm hn], ?_, ?_, rfl, rfl, rfl, rfl, rfl, rfl⟩⟩
        · intro m x
          simp only [mget_mset]
          by_cases hm : t = m
          · subst hm
            simp only [if_true, Option.bind_some, mget_mset, ne_eq, Ne.symm hn, not_false_eq_true, true_and, hs]
            by_cases hx : k = x
            · simp [hx]
            · simp [hx, Ne.symm hx]
          · simp [hm, Ne.symm hm]
        · intro m
          simp only [Graph.isSubGraph, mhas_mset]
          by_cases hm : t = m
          · subst hm; simp [mhas, hs]
          · simp [hm]
  · rw [addAttr_bad g t v hk]; simp [hk]

example : Reachable Example.g ∧ (Example.g.addAttr (b!"S") (b!"color") (b!"green")).2 = none ∧
    ((mget (Example.g.addAttr (b!"S") (b!"color") (b!"green")).1.subGraphs (b!"S")).bind fun s => mget s.attrs (b!"color"))
      = some (b!"green") := ⟨Example.g_reachable, by decide +kernel, by decide +kernel⟩

/-! ### C09 -/

/-- C09. `AddSubGraph` succeeds exactly when all names are registered; it then records the relation, makes the subgraph exist,
overwrites exactly the given keys (of the root graph, if the subgraph is named like it) and changes nothing else. Repeating the
call — successful or not — changes nothing and returns the same. -/
theorem C09_addSubGraph {g : Graph} (h : Reachable g) (p n : Str) (as : List (Str × Str)) (hn : (as.map Prod.fst).Nodup) :
    ((g.addSubGraph p n as).2 = none ↔ ∀ e ∈ as, Registered e.1) ∧
    (g.addSubGraph p n as).1.addSubGraph p n as = g.addSubGraph p n as ∧
    ((g.addSubGraph p n as).2 = none → ∃ g', g' = (g.addSubGraph p n as).1 ∧
      (∀ m, g'.isSubGraph m = (g.isSubGraph m || decide (m = n))) ∧
      (∀ a b, mhas (g'.relations.children a) b = (mhas (g.relations.children a) b || decide (a = p ∧ b = n))) ∧
      (∀ m x, ((mget g'.subGraphs m).bind fun s => mget s.attrs x) =
        (if m = n ∧ n ≠ g.name then entry as x else none).or ((mget g.subGraphs m).bind fun s => mget s.attrs x)) ∧
      (∀ x, mget g'.attrs x = (if n = g.name then entry as x else none).or (mget g.attrs x)) ∧
      g'.name = g.name ∧ g'.directed = g.directed ∧ g'.strict = g.strict ∧ g'.nodes = g.nodes ∧ g'.edges = g.edges) := by
  have hi := h.inv
  refine ⟨?_, ?_, ?_⟩
  · rw [addSubGraph_takeWhile]
    exact firstBad_none
  · have h1 := addSubGraph_takeWhile g p n as
    rw [h1]
    simp only
    rw [addSubGraph_takeWhile _ p n as, addSubGraph_idem_ok hi p n (allReg_takeWhile as)]
  · intro hs
    have hr : AllReg as := by
      rw [addSubGraph_takeWhile] at hs
      exact firstBad_none.1 hs
    have hrel : ∀ a b, mhas ((g.relations.add p n).children a) b =
        (mhas (g.relations.children a) b || decide (a = p ∧ b = n)) := by
      intro a b
      rw [Relations.children_add]
      by_cases h1 : p = a
      · subst h1
        simp only [if_true, mhas_mset, true_and]
        by_cases h2 : n = b
        · subst h2; simp
        · simp [h2, Ne.symm h2]
      · simp [h1, Ne.symm h1]
    have hsub : ∀ m, mhas (subGraphsAdd g.subGraphs n) m = (g.isSubGraph m || decide (m = n)) := by
      intro m
      simp only [Graph.isSubGraph, mhas, mget_subGraphsAdd]
      by_cases h2 : n = m
      · subst h2; simp
      · simp [h2, Ne.symm h2]
    refine ⟨_, rfl, ?_⟩
    rw [addSubGraph_ok hi p n hr]
    by_cases hnm : g.name = n
    · simp only [hnm, if_true]
      refine ⟨hsub, hrel, ?_, ?_, trivial, trivial, trivial, trivial, trivial⟩
      · intro m x
        simp only [ne_eq, not_true_eq_false, and_false, if_false, Option.none_or, mget_subGraphsAdd]
        by_cases h2 : n = m
        · subst h2
          simp only [if_true]
          cases mget g.subGraphs n <;> simp [mget]
        · simp [h2]
      · intro x
        rw [mget_msetAll_entry g.attrs hn]; rfl
    · simp only [hnm, if_false]
      refine ⟨?_, hrel, ?_, ?_, trivial, trivial, trivial, trivial, trivial⟩
      · intro m
        simp only [Graph.isSubGraph, mhas_mset]
        have := hsub m
        simp only [Graph.isSubGraph] at this
        rw [this]
        by_cases h2 : n = m
        · subst h2; simp
        · simp [h2, Ne.symm h2]
      · intro m x
        simp only [mget_mset]
        by_cases h2 : n = m
        · subst h2
          simp only [if_true, Option.bind_some, true_and, ne_eq, Ne.symm hnm, not_false_eq_true]
          rw [mget_msetAll_entry _ hn]
          unfold merge
          cases hm : mget g.subGraphs n <;> simp [mget]
        · simp [h2, Ne.symm h2, mget_subGraphsAdd]
      · intro x
        simp [Ne.symm hnm]

example : Reachable Example.g ∧ ([b!"color", b!"label"]).Nodup ∧
    (Example.g.addSubGraph (b!"G") (b!"S") [(b!"color", b!"x"), (b!"label", b!"y")]).2 = none :=
  ⟨Example.g_reachable, by decide +kernel, by decide +kernel⟩

/-! ### C10 -/

/-- C10. The iteration order of an attribute map is unobservable in the success of a call and in the result of a successful one. -/
theorem C10_order_independent {g : Graph} (h : Reachable g) {as as' : List (Str × Str)} (hn : (as.map Prod.fst).Nodup)
    (hp : as.Perm as') :
    (∀ p n, ((g.addNode p n as).2 = none ↔ (g.addNode p n as').2 = none) ∧
      ((g.addNode p n as).2 = none → g.addNode p n as = g.addNode p n as')) ∧
    (∀ s sp d dp dir, ((g.addPortEdge s sp d dp dir as).2 = none ↔ (g.addPortEdge s sp d dp dir as').2 = none) ∧
      ((g.addPortEdge s sp d dp dir as).2 = none → g.addPortEdge s sp d dp dir as = g.addPortEdge s sp d dp dir as')) ∧
    (∀ p n, ((g.addSubGraph p n as).2 = none ↔ (g.addSubGraph p n as').2 = none) ∧
      ((g.addSubGraph p n as).2 = none → g.addSubGraph p n as = g.addSubGraph p n as')) := by
  have hi := h.inv
  have heq : ∀ {m : Attrs}, MapWF m → msetAll m as = msetAll m as' := fun hm => msetAll_perm hm hp hn
  by_cases hr : AllReg as
  · have hr' := hr.perm hp
    refine ⟨fun p n => ?_, fun s sp d dp dir => ?_, fun p n => ?_⟩
    · rw [addNode_ok g p n hr, addNode_ok g p n hr', heq MapWF.nil]; simp
    · rw [addPortEdge_ok g s sp d dp dir hr, addPortEdge_ok g s sp d dp dir hr', heq MapWF.nil]; simp
    · have hw : MapWF (((mget g.subGraphs n).map SubGraph.attrs).getD []) := by
        cases hm : mget g.subGraphs n with
        | none => exact MapWF.nil
        | some s => exact (hi.subs.attrs n s hm).wf
      rw [addSubGraph_ok hi p n hr, addSubGraph_ok hi p n hr', heq hi.attrs.wf, heq hw]; simp
  · have hr' : ¬ AllReg as' := fun h' => hr (h'.perm hp.symm)
    refine ⟨fun p n => ?_, fun s sp d dp dir => ?_, fun p n => ?_⟩
    · obtain ⟨e, _, _, h1⟩ := addNode_bad g p n hr
      obtain ⟨e', _, _, h2⟩ := addNode_bad g p n hr'
      rw [h1, h2]; simp
    · obtain ⟨e, _, _, h1⟩ := addPortEdge_bad g s sp d dp dir hr
      obtain ⟨e', _, _, h2⟩ := addPortEdge_bad g s sp d dp dir hr'
      rw [h1, h2]; simp
    · obtain ⟨e, _, _, h1⟩ := addSubGraph_bad g p n hr
      obtain ⟨e', _, _, h2⟩ := addSubGraph_bad g p n hr'
      rw [h1, h2]; simp

/-- A failing `AddSubGraph` does leave an order-dependent partial update behind. -/
theorem C10_failing_addSubGraph_order_dependent : ∃ as as' : List (Str × Str), as.Perm as' ∧ (as.map Prod.fst).Nodup ∧
    (newGraph.addSubGraph [] (b!"S") as).1 ≠ (newGraph.addSubGraph [] (b!"S") as').1 :=
  ⟨[(b!"color", b!"red"), (b!"nonsense", [])], [(b!"nonsense", []), (b!"color", b!"red")],
    List.Perm.swap .., by decide +kernel, by decide +kernel⟩

example : Reachable Example.g ∧ (([(b!"color", b!"x"), (b!"label", b!"y")] : List (Str × Str)).map Prod.fst).Nodup ∧
    [(b!"color", b!"x"), (b!"label", b!"y")].Perm [(b!"label", b!"y"), (b!"color", b!"x")] :=
  ⟨Example.g_reachable, by decide +kernel, List.Perm.swap ..⟩

/-! ### C11 -/

/-- A history on the abstract graph. -/
def arun (a : AGraph) : List Op → AGraph
  | [] => a
  | op :: ops => arun (a.step op).1 ops

/-- The errors of a history on the abstract graph. -/
def arunErrs (a : AGraph) : List Op → List (Option Err)
  | [] => []
  | op :: ops => (a.step op).2 :: arunErrs (a.step op).1 ops

theorem abs_run {g : Graph} (hg : Reachable g) (ops : List Op) (hok : OkHistory g ops) :
    abs (g.run ops) = arun (abs g) ops ∧ g.runErrs ops = arunErrs (abs g) ops := by
  induction ops generalizing g with
  | nil => exact ⟨rfl, rfl⟩
  | cons op ops ih =>
    have hstep := abs_step hg.inv op hok.1
    have h1 : abs (g.step op).1 = ((abs g).step op).1 := by rw [← hstep]
    have h2 : (g.step op).2 = ((abs g).step op).2 := by rw [← hstep]
    have := ih (.step op hg hok.1) hok.2
    simp only [Graph.run, Graph.runErrs, arun, arunErrs, ← h1, ← h2]
    exact ⟨this.1, by rw [this.2]⟩

/-- C11. Every history, from the empty graph, returns the errors of the abstract machine, and all observers agree with it. -/
theorem C11_refines_abstract (ops : List Op) (hok : OkHistory newGraph ops) :
    let g := newGraph.run ops
    let a := arun AGraph.empty ops
    newGraph.runErrs ops = arunErrs AGraph.empty ops ∧
    g.name = a.name ∧ g.directed = a.directed ∧ g.strict = a.strict ∧
    (∀ k, mget g.attrs k = a.attrs k) ∧
    (∀ n, g.isNode n = (a.node n).isSome) ∧
    (∀ n k, nodeValue g n k = (a.node n).bind fun as => as k) ∧
    (∀ n, g.isSubGraph n = (a.sub n).isSome) ∧
    (∀ n k, ((mget g.subGraphs n).bind fun s => mget s.attrs k) = (a.sub n).bind fun as => as k) ∧
    (∀ p c, mhas (g.relations.children p) c = a.contains p c) ∧
    (g.edges.edges.map fun e => (⟨e.src, e.srcPort, e.dst, e.dstPort, e.dir, mget e.attrs⟩ : AEdge)) = a.edges := by
  intro g a
  have h := abs_run Reachable.init ops hok
  rw [abs_new] at h
  have ha : a = abs g := h.1.symm
  have hi : GInv g := (Reachable.init.run hok).inv
  refine ⟨h.2, ?_⟩
  rw [ha]
  refine ⟨rfl, rfl, rfl, fun _ => rfl, ?_, ?_, ?_, ?_, fun _ _ => rfl, rfl⟩
  · intro n
    have := abs_node_none hi n
    unfold Graph.isNode mhas
    cases h1 : mget g.nodes.lookup n <;> cases h2 : (abs g).node n <;> simp_all
  · intro n k; exact nodeValue_abs n k
  · intro n
    simp only [Graph.isSubGraph, mhas, abs]
    cases mget g.subGraphs n <;> rfl
  · intro n k
    simp only [abs]
    cases mget g.subGraphs n <;> rfl

example : OkHistory newGraph Example.ops ∧ (arun AGraph.empty Example.ops).edges.length = 3 ∧
    (arunErrs AGraph.empty Example.ops)[12]? = some (some (.invalidAttr (b!"nonsense"))) :=
  ⟨Example.g_ok, by decide +kernel, by decide +kernel⟩

/-! ### C12 -/

/-- C12. Only registered attribute names are ever stored. -/
theorem C12_only_registered {g : Graph} (h : Reachable g) (k : Str) :
    (mhas g.attrs k = true → Registered k) ∧
    (∀ n nd, g.nodes.find n = some nd → mhas nd.attrs k = true → Registered k) ∧
    (∀ e ∈ g.edges.edges, mhas e.attrs k = true → Registered k) ∧
    (∀ n s, mget g.subGraphs n = some s → mhas s.attrs k = true → Registered k) := by
  have hi := h.inv
  have key : ∀ {as : Attrs}, AttrsOk as → mhas as k = true → Registered k := by
    intro as ha hk
    obtain ⟨v, hv⟩ := (mhas_iff_mget _ _).1 hk
    exact ha.reg _ (mem_of_mget hv)
  refine ⟨key hi.attrs, fun n nd hf => ?_, fun e he => key (hi.edges.attrs e he), fun n s hs => key (hi.subs.attrs n s hs)⟩
  unfold Nodes.find at hf
  cases hp : mget g.nodes.lookup n with
  | none => simp [hp] at hf
  | some p =>
    simp only [hp, Option.bind_some] at hf
    exact key (hi.nodes.attrs p nd hf)

example : Reachable Example.g ∧ mhas Example.g.attrs (b!"rankdir") = true ∧
    (Example.g.nodes.find (b!"a")).isSome = true ∧ Example.g.edges.edges.length = 3 :=
  ⟨Example.g_reachable, by decide +kernel, by decide +kernel, by decide +kernel⟩

/-! ### C44 -/

/-- C44. `NewAttr` accepts exactly the registered names and returns them unchanged. -/
theorem C44_whitelist (k : Str) :
    ((∃ a, newAttr k = .ok a) ↔ Registered k) ∧ (∀ a, newAttr k = .ok a → a = k) ∧
    (∀ e, newAttr k = .error e → e = .invalidAttr k) := by
  by_cases h : Registered k
  · rw [newAttr_ok h]; simp [h, eq_comm]
  · rw [newAttr_bad h]; simp [h, eq_comm]

example : Registered (b!"labelURL") ∧ ¬ Registered (b!"labelurl") ∧ ¬ Registered (b!"LABEL") := by decide +kernel

end Gographviz.Props
