import Verif.Spec.Undo
import Verif.Props.OrderProps
import Verif.Props.GraphProps
/-!
C87: removing what was added gives the old graph back.
-/
namespace Gographviz.Props

open Gographviz Spec

namespace Undo

/-- The edge has one of the nodes as an end. -/
def touches (ns : List Str) (e : AEdge) : Bool := decide (e.src ∈ ns) || decide (e.dst ∈ ns)

/-- `b` is `a` apart from the nodes `R`. -/
structure But (a : AGraph) (par : Str → Str) (R : List Str) (b : AGraph) : Prop where
  name : b.name = a.name
  directed : b.directed = a.directed
  strict : b.strict = a.strict
  attrs : b.attrs = a.attrs
  node : ∀ n, n ∉ R → b.node n = a.node n
  sub : b.sub = a.sub
  con : ∀ p c, ¬ (c ∈ R ∧ p = par c) → b.contains p c = a.contains p c
  edges : (b.edges.filter fun e => !touches R e) = a.edges

theorem But.add {a b : AGraph} {par : Str → Str} {R : List Str} (h : But a par R b) {op : Op} (ht : Temporary R par op) : But a par R (b.step op).1 := by
  have hedge : ∀ e : AEdge, touches R e = true → ((b.edges ++ [e]).filter fun e => !touches R e) = a.edges := by
    intro e he
    rw [List.filter_append, h.edges]
    simp [he]
  cases op with
  | addNode p n as =>
    obtain ⟨hn, rfl⟩ := ht
    simp only [AGraph.step]
    cases firstBad as with
    | some e => exact h
    | none =>
      refine ⟨h.name, h.directed, h.strict, h.attrs, fun m hm => ?_, h.sub, fun p c hc => ?_, h.edges⟩
      · simp only [upd]
        rw [if_neg (by rintro rfl; exact hm hn)]
        exact h.node m hm
      · simp only
        rw [h.con p c hc]
        have : ¬ (p = par n ∧ c = n) := by rintro ⟨rfl, rfl⟩; exact hc ⟨hn, rfl⟩
        by_cases h1 : p = par n <;> by_cases h2 : c = n <;> simp_all
  | addEdge s d dir as =>
    simp only [AGraph.step]
    cases firstBad as with
    | some e => exact h
    | none => exact ⟨h.name, h.directed, h.strict, h.attrs, h.node, h.sub, h.con, hedge _ (by unfold touches; simpa [Temporary] using ht)⟩
  | addPortEdge s sp d dp dir as =>
    simp only [AGraph.step]
    cases firstBad as with
    | some e => exact h
    | none => exact ⟨h.name, h.directed, h.strict, h.attrs, h.node, h.sub, h.con, hedge _ (by unfold touches; simpa [Temporary] using ht)⟩
  | _ => exact absurd ht (by simp [Temporary])

theorem But.adds {a : AGraph} {par : Str → Str} {R : List Str} : ∀ (ops : List Op) {b : AGraph}, But a par R b → (∀ op ∈ ops, Temporary R par op) → But a par R (arun b ops)
  | [], _, h, _ => h
  | op :: ops, _, h, ht => But.adds ops (h.add (ht op (List.mem_cons_self ..))) fun o ho => ht o (List.mem_cons_of_mem _ ho)

theorem But.remove {a b : AGraph} {par : Str → Str} {R : List Str} {n : Str} (h : But a par (n :: R) b) (h0 : a.node n = none) (hc : a.contains (par n) n = false) :
    But a par R (b.removeNode (par n) n) := by
  refine ⟨h.name, h.directed, h.strict, h.attrs, fun m hm => ?_, h.sub, fun p c hpc => ?_, ?_⟩
  · simp only [AGraph.removeNode, upd]
    by_cases e : m = n
    · rw [if_pos e, e, h0]
    · rw [if_neg e]; exact h.node m (by simp [e, hm])
  · simp only [AGraph.removeNode]
    by_cases e : p = par n ∧ c = n
    · rw [if_pos e, e.1, e.2, hc]
    · rw [if_neg e]
      refine h.con p c ?_
      rintro ⟨h1, h2⟩
      rcases List.mem_cons.1 h1 with rfl | h1
      · exact e ⟨h2, rfl⟩
      · exact hpc ⟨h1, h2⟩
  · simp only [AGraph.removeNode]
    rw [List.filter_filter, ← h.edges]
    apply List.filter_congr
    intro e _
    simp only [touches, List.mem_cons]
    by_cases h1 : e.src = n <;> by_cases h2 : e.dst = n <;> simp [h1, h2]

theorem But.removes {a : AGraph} {par : Str → Str} : ∀ (R : List Str) {b : AGraph}, But a par R b → R.Nodup → (∀ n ∈ R, a.node n = none ∧ a.contains (par n) n = false ∧ (b.node n).isSome = true) →
    But a par [] (arun b (removals par R)) ∧ ∀ e ∈ arunErrs b (removals par R), e = none
  | [], _, h, _, _ => ⟨h, fun e he => by cases he⟩
  | n :: R, b, h, hd, hn => by
    obtain ⟨h1, h2, h3⟩ := hn n (List.mem_cons_self ..)
    have hne := (List.nodup_cons.1 hd).1
    have hstep : b.step (.removeNode (par n) n) = (b.removeNode (par n) n, none) := by
      simp only [AGraph.step]
      cases hb : b.node n with
      | none => rw [hb] at h3; cases h3
      | some _ => rfl
    obtain ⟨i1, i2⟩ := But.removes R (h.remove h1 h2) (List.nodup_cons.1 hd).2 fun m hm => by
      obtain ⟨j1, j2, j3⟩ := hn m (List.mem_cons_of_mem _ hm)
      refine ⟨j1, j2, ?_⟩
      simp only [AGraph.removeNode, upd]
      rw [if_neg (by rintro rfl; exact hne hm)]
      exact j3
    simp only [removals, List.map_cons, arun, arunErrs, hstep]
    exact ⟨i1, fun e he => (List.mem_cons.1 he).elim id (i2 e)⟩

theorem touches_nil (es : List AEdge) : (es.filter fun e => !touches [] e) = es := by
  rw [List.filter_eq_self]
  intro e _
  simp [touches]

theorem removals_ok (par : Str → Str) : ∀ (ns : List Str) (g : Graph), OkHistory g (removals par ns)
  | [], _ => trivial
  | n :: ns, g => ⟨trivial, removals_ok par ns _⟩

theorem okHistory_append : ∀ {ops ops' : List Op} {g : Graph}, OkHistory g ops → OkHistory (g.run ops) ops' → OkHistory g (ops ++ ops')
  | [], _, _, _, h => h
  | _ :: _, _, _, h, h' => ⟨h.1, okHistory_append h.2 h'⟩

end Undo

open Undo

theorem Undo.run_append (g : Graph) : ∀ (a b : List Op), g.run (a ++ b) = (g.run a).run b := by
  intro a
  induction a generalizing g with
  | nil => intro b; rfl
  | cons op a ih => intro b; exact ih _ b

theorem Undo.map_inj {α β : Type} {f : α → β} : ∀ {l l' : List α}, (∀ a ∈ l, ∀ b ∈ l', f a = f b → a = b) → l.map f = l'.map f → l = l'
  | [], [], _, _ => rfl
  | [], _ :: _, _, h => by cases h
  | _ :: _, [], _, h => by cases h
  | a :: l, b :: l', hi, h => by
    simp only [List.map_cons, List.cons.injEq] at h
    rw [hi a (List.mem_cons_self ..) b (List.mem_cons_self ..) h.1, Undo.map_inj (fun x hx y hy => hi x (List.mem_cons_of_mem _ hx) y (List.mem_cons_of_mem _ hy)) h.2]

theorem Undo.same {g g' : Graph} (hg : Reachable g) (hg' : Reachable g') (h : abs g' = abs g) : SameContent g g' ∧ g'.edges.edges = g.edges.edges := by
  refine ⟨Order.sameContent hg.inv hg'.inv (by rw [h]; exact .refl _), ?_⟩
  have := congrArg AGraph.edges h
  exact Undo.map_inj (fun a ha b hb => Order.absEdge_inj (hg'.inv.edges.attrs a ha).wf (hg.inv.edges.attrs b hb).wf) this

/-- C87. Additions can be taken back. Nodes that the graph knows nothing of are added (each under one parent, any number of times) and edges at them; then the nodes are removed, in any order: no removal
fails and the graph has its old content, whatever the history before. The edges even have their old order. -/
theorem C87_undo {g : Graph} (hg : Reachable g) {fresh : List Str} {par : Str → Str} (hu : Unknown g fresh par) {ops : List Op} (hok : OkHistory g ops)
    (ht : ∀ op ∈ ops, Temporary fresh par op) {order : List Str} (hp : order.Perm fresh) (hd : fresh.Nodup) (hall : ∀ n ∈ fresh, (g.run ops).isNode n = true) :
    SameContent g (g.run (ops ++ removals par order)) ∧ (g.run (ops ++ removals par order)).edges.edges = g.edges.edges ∧
    ∀ e ∈ (g.run ops).runErrs (removals par order), e = none := by
  have hnode : ∀ (g : Graph), GInv g → ∀ n, g.isNode n = ((abs g).node n).isSome := by
    intro g hi n
    have := abs_node_none hi n
    unfold Graph.isNode mhas
    cases h1 : mget g.nodes.lookup n <;> cases h2 : (abs g).node n <;> simp_all
  have hr1 : Reachable (g.run ops) := hg.run hok
  have hrem := removals_ok par order (g.run ops)
  have hr2 : Reachable ((g.run ops).run (removals par order)) := hr1.run hrem
  obtain ⟨a1, -⟩ := abs_run hg ops hok
  obtain ⟨b1, b2⟩ := abs_run hr1 _ hrem
  have ht' : ∀ op ∈ ops, Temporary order par op := by
    intro op ho
    have := ht op ho
    cases op <;> simp only [Temporary, hp.mem_iff] at this ⊢ <;> exact this
  have h0 : But (abs g) par order (abs g) := by
    refine ⟨rfl, rfl, rfl, rfl, fun _ _ => rfl, rfl, fun _ _ _ => rfl, ?_⟩
    rw [List.filter_eq_self]
    intro e he
    obtain ⟨e', he', rfl⟩ := List.mem_map.1 he
    obtain ⟨e1, e2⟩ := hu.edge e' he'
    rw [← hp.mem_iff] at e1 e2
    have t : Undo.touches order (absEdge e') = false := by
      unfold Undo.touches absEdge
      simp only [Bool.or_eq_false_iff, decide_eq_false_iff_not]
      exact ⟨e1, e2⟩
    rw [t]; rfl
  have h1 := h0.adds ops ht'
  rw [← a1] at h1
  obtain ⟨h2, h3⟩ := h1.removes order (hp.nodup_iff.2 hd) fun n hn => by
    have hn := hp.mem_iff.1 hn
    refine ⟨?_, hu.child n hn, by rw [← hnode _ hr1.inv]; exact hall n hn⟩
    have := hu.node n hn
    rw [hnode g hg.inv] at this
    cases hx : (abs g).node n with
    | none => rfl
    | some _ => rw [hx] at this; cases this
  rw [← b1] at h2
  rw [← b2] at h3
  have he : abs ((g.run ops).run (removals par order)) = abs g := by
    have e1 := h2.edges
    rw [touches_nil] at e1
    have e2 : (abs ((g.run ops).run (removals par order))).node = (abs g).node := funext fun n => h2.node n (by simp)
    have e3 : (abs ((g.run ops).run (removals par order))).contains = (abs g).contains := funext fun p => funext fun c => h2.con p c (by simp)
    have := h2.name; have := h2.directed; have := h2.strict; have := h2.attrs; have := h2.sub
    generalize abs ((g.run ops).run (removals par order)) = x at *
    generalize abs g = y at *
    cases x; cases y
    simp only at *
    subst_vars
    rfl
  rw [run_append]
  exact ⟨(Undo.same hg hr2 he).1, (Undo.same hg hr2 he).2, h3⟩

/-- C87. The text written is the old one too (if no edge has an empty value, C15). -/
theorem C87_text {g : Graph} (hg : Reachable g) {fresh : List Str} {par : Str → Str} (hu : Unknown g fresh par) {ops : List Op} (hok : OkHistory g ops)
    (ht : ∀ op ∈ ops, Temporary fresh par op) {order : List Str} (hp : order.Perm fresh) (hd : fresh.Nodup) (hall : ∀ n ∈ fresh, (g.run ops).isNode n = true)
    (hne : ∀ e ∈ g.edges.edges, ∀ k, mget e.attrs k ≠ some []) {sortE sortE' : List Edge → List Edge} (hc : SortContract sortE) (hc' : SortContract sortE') (f : Nat) :
    graphString sortE f g = graphString sortE' f (g.run (ops ++ removals par order)) :=
  (C15_string_canonical hg (hg.run (okHistory_append hok (removals_ok par order _))) (C87_undo hg hu hok ht hp hd hall).1 hne hc hc' f).1

/-- C87. A subgraph that the graph knows nothing of can be added and removed; whatever attributes it was given (even if that failed), the graph has its old content. -/
theorem C87_undo_subgraph {g : Graph} (hg : Reachable g) {p n : Str} {as : List (Str × Str)} (has : (as.map Prod.fst).Nodup) (hname : g.name ≠ n) (hsub : g.isSubGraph n = false)
    (hchild : mhas (g.relations.children p) n = false) (hempty : g.relations.children n = []) (hpn : p ≠ n)
    (hedge : ∀ e ∈ g.edges.edges, e.src ≠ n ∧ e.srcPort ≠ n ∧ e.dst ≠ n ∧ e.dstPort ≠ n) :
    OkHistory g [.addSubGraph p n as, .removeSubGraph p n []] ∧
    SameContent g (g.run [.addSubGraph p n as, .removeSubGraph p n []]) ∧ (g.run [.addSubGraph p n as, .removeSubGraph p n []]).edges.edges = g.edges.edges ∧
    ((g.step (.addSubGraph p n as)).1.step (.removeSubGraph p n [])).2 = none := by
  have hs : abs (g.step (.addSubGraph p n as)).1 = ((abs g).step (.addSubGraph p n as)).1 := by rw [← abs_step hg.inv (.addSubGraph p n as) has]
  have hset : ∀ (as : List (Str × Str)) (a : AGraph), a.name ≠ n → ∃ f, (a.setAttrs n as).1 = { a with sub := f } ∧ ∀ m, m ≠ n → f m = a.sub m := by
    intro as
    induction as with
    | nil => intro a _; exact ⟨a.sub, rfl, fun _ _ => rfl⟩
    | cons e as ih =>
      intro a ha
      obtain ⟨k, v⟩ := e
      simp only [AGraph.setAttrs]
      split
      · have hst : ∃ f, a.setAttr n k v = { a with sub := f } ∧ ∀ m, m ≠ n → f m = a.sub m := by
          unfold AGraph.setAttr
          rw [if_neg ha]
          cases a.sub n with
          | none => exact ⟨a.sub, rfl, fun _ _ => rfl⟩
          | some x => exact ⟨_, rfl, fun m hm => by unfold upd; rw [if_neg hm]⟩
        obtain ⟨f, h1, h2⟩ := hst
        rw [h1]
        obtain ⟨f', h3, h4⟩ := ih { a with sub := f } ha
        exact ⟨f', h3, fun m hm => (h4 m hm).trans (h2 m hm)⟩
      · exact ⟨a.sub, rfl, fun _ _ => rfl⟩
  obtain ⟨f, h1, h2⟩ := hset as { abs g with sub := upd (abs g).sub n (some (((abs g).sub n).getD fun _ => none)), contains := fun p' c' => (p' = p && c' = n) || (abs g).contains p' c' } hname
  have hs' : abs (g.step (.addSubGraph p n as)).1 = { abs g with sub := f, contains := fun p' c' => (p' = p && c' = n) || (abs g).contains p' c' } := by
    rw [hs]; exact h1
  have hr1 : Reachable (g.step (.addSubGraph p n as)).1 := .step _ hg has
  have hc : ∀ c, mhas ((g.step (.addSubGraph p n as)).1.relations.children n) c = false := by
    intro c
    have := congrFun (congrFun (congrArg AGraph.contains hs') n) c
    simp only [abs, hempty] at this
    rw [this]
    simp [Ne.symm hpn, mhas, mget]
  have hnil : (g.step (.addSubGraph p n as)).1.relations.children n = [] := by
    cases hx : (g.step (.addSubGraph p n as)).1.relations.children n with
    | nil => rfl
    | cons e es =>
      have := hc e.1
      rw [hx] at this
      simp [mhas, mget] at this
  have hok2 : (Op.removeSubGraph p n []).Ok (g.step (.addSubGraph p n as)).1 := by
    show List.Perm [] _
    rw [hnil]; exact .refl _
  have hs2 := abs_step hr1.inv _ hok2
  rw [hs'] at hs2
  simp only [AGraph.step, AGraph.removeNodes] at hs2
  have hr2 : Reachable ((g.step (.addSubGraph p n as)).1.step (.removeSubGraph p n [])).1 := .step _ hr1 hok2
  have he : abs ((g.step (.addSubGraph p n as)).1.step (.removeSubGraph p n [])).1 = abs g := by
    have hh := congrArg Prod.fst hs2
    simp only at hh
    rw [hh]
    have e1 : upd f n none = (abs g).sub := by
      funext m
      unfold upd
      by_cases hm : m = n
      · rw [if_pos hm, hm]
        have : mget g.subGraphs n = none := by
          unfold Graph.isSubGraph mhas at hsub
          cases hx : mget g.subGraphs n with
          | none => rfl
          | some _ => rw [hx] at hsub; cases hsub
        simp [abs, this]
      · rw [if_neg hm, h2 m hm]
        simp only [upd]
        rw [if_neg hm]
    have e2 : ((abs g).edges.filter fun e => !(e.src == n || e.srcPort == n || e.dst == n || e.dstPort == n)) = (abs g).edges := by
      rw [List.filter_eq_self]
      intro e he
      obtain ⟨e', he', rfl⟩ := List.mem_map.1 he
      obtain ⟨i1, i2, i3, i4⟩ := hedge e' he'
      simp [absEdge, i1, i2, i3, i4]
    have e3 : (fun p' c' => if p' = p ∧ c' = n then false else (decide (p' = p) && decide (c' = n)) || (abs g).contains p' c') = (abs g).contains := by
      funext p' c'
      by_cases hx : p' = p ∧ c' = n
      · rw [if_pos hx, hx.1, hx.2]
        exact hchild.symm
      · rw [if_neg hx]
        by_cases i1 : p' = p <;> by_cases i2 : c' = n <;> simp_all
    rw [e1, e2, e3]
  refine ⟨⟨has, hok2, trivial⟩, (Undo.same hg hr2 he).1, (Undo.same hg hr2 he).2, ?_⟩
  exact congrArg Prod.snd hs2

/-! ### examples -/

/-- A graph with a subgraph, two nodes and an edge. -/
def undoBase : List Op := [.setName (b!"G"), .addSubGraph (b!"G") (b!"S") [], .addNode (b!"S") (b!"a") [(b!"label", b!"x")], .addNode (b!"G") (b!"b") [], .addEdge (b!"a") (b!"b") true []]

/-- The parents of the new nodes. -/
def undoPar (n : Str) : Str := if n = b!"c" then b!"S" else b!"G"

/-- The hypotheses of `C87_undo` are met: two new nodes, one of them added twice, a call that fails, edges between new and old nodes. -/
theorem example_undo : ∃ g ops, Reachable g ∧ Unknown g [b!"c", b!"d"] undoPar ∧ OkHistory g ops ∧ (∀ op ∈ ops, Temporary [b!"c", b!"d"] undoPar op) ∧
    (∀ n ∈ [b!"c", b!"d"], (g.run ops).isNode n = true) ∧ g.runErrs ops = [none, none, some (.invalidAttr (b!"foo")), none, none, none] ∧ (g.run ops).edges.edges.length = 3 := by
  refine ⟨newGraph.run undoBase, [.addNode (b!"S") (b!"c") [(b!"label", b!"y")], .addNode (b!"G") (b!"d") [], .addNode (b!"G") (b!"d") [(b!"foo", b!"y")], .addEdge (b!"c") (b!"a") true [],
    .addPortEdge (b!"d") (b!"p") (b!"c") [] false [], .addNode (b!"S") (b!"c") [(b!"color", b!"red")]], Reachable.init.run (by decide +kernel), ⟨by decide +kernel, by decide +kernel, by decide +kernel⟩, by decide +kernel, ?_,
    by decide +kernel, by decide +kernel, by decide +kernel⟩
  intro op ho
  simp only [List.mem_cons, List.not_mem_nil, or_false] at ho
  rcases ho with rfl | rfl | rfl | rfl | rfl | rfl <;> simp only [Temporary] <;> decide

/-- The hypotheses of `C87_undo_subgraph` are met. -/
theorem example_undo_subgraph : ∃ g : Graph, Reachable g ∧ g.name ≠ b!"T" ∧ g.isSubGraph (b!"T") = false ∧ mhas (g.relations.children (b!"S")) (b!"T") = false ∧ g.relations.children (b!"T") = [] ∧
    (b!"S") ≠ b!"T" ∧ (∀ e ∈ g.edges.edges, e.src ≠ b!"T" ∧ e.srcPort ≠ b!"T" ∧ e.dst ≠ b!"T" ∧ e.dstPort ≠ b!"T") ∧ g.edges.edges.length = 1 :=
  ⟨newGraph.run undoBase, Reachable.init.run (by decide +kernel), by decide +kernel, by decide +kernel, by decide +kernel, by decide +kernel, by decide, by decide +kernel, by decide +kernel⟩

/-- C87. One parent for each node is needed: a node added to two subgraphs cannot be taken out of both. After the first `RemoveNode` the second fails, and the graph can no longer be written. -/
theorem C87_two_parents :
    (newGraph.run undoBase).runErrs [.addNode (b!"S") (b!"c") [], .addNode (b!"G") (b!"c") [], .removeNode (b!"G") (b!"c"), .removeNode (b!"S") (b!"c")] = [none, none, none, some (.nodeNotFound (b!"c"))] ∧
    mhas (((newGraph.run undoBase).run [.addNode (b!"S") (b!"c") [], .addNode (b!"G") (b!"c") [], .removeNode (b!"G") (b!"c"), .removeNode (b!"S") (b!"c")]).relations.children (b!"S")) (b!"c") = true ∧
    (match graphString edgeInsertionSort 8 ((newGraph.run undoBase).run [.addNode (b!"S") (b!"c") [], .addNode (b!"G") (b!"c") [], .removeNode (b!"G") (b!"c")]) with
      | .ok s => s == b!"error: c is not a node or a subgraph"
      | _ => false) = true := by decide +kernel

/-- C87. The condition on ports is needed: removing a subgraph also removes the edges that have a port called like it. -/
theorem C87_port_like_subgraph :
    (newGraph.run [.addNode [] (b!"a") [], .addPortEdge (b!"a") (b!"T") (b!"a") [] true []]).edges.edges.length = 1 ∧
    (newGraph.run [.addNode [] (b!"a") [], .addPortEdge (b!"a") (b!"T") (b!"a") [] true [], .addSubGraph [] (b!"T") [], .removeSubGraph [] (b!"T") []]).edges.edges = [] := by decide +kernel

end Gographviz.Props
