import Verif.Props.DocumentProps
import Verif.Spec.Merging
/-!
C83: `Analyse` on a graph that has contents already.
-/
namespace Gographviz.Props

open Gographviz.Spec Gographviz.Spec.Document
open Gographviz.Ast (Stmt Loc EdgeRH AttrList)

namespace Merge

theorem calls_wf (t : Ast.Graph) : ∀ x ∈ treeCalls t, MapWF x.attrs := by
  have hp := stmtsCalls_plain t.stmts ⟨t.id, [], []⟩ MapWF.nil MapWF.nil []
  intro x hx
  simp only [treeCalls, List.mem_append, List.mem_cons, List.not_mem_nil, or_false] at hx
  rcases hx with (rfl | rfl | rfl) | h
  · exact MapWF.nil
  · exact MapWF.nil
  · exact MapWF.nil
  · exact (hp x h).2

theorem analyse_none (t : Ast.Graph) (g : Graph) : (analyse graphIface t g).2 = none ↔ (replay graphIface g (treeCalls t)).2 = [] := by
  unfold analyse
  rw [analyseC_eq]
  simp only [Catcher.getError]
  cases (replay graphIface g (treeCalls t)).2 <;> simp

theorem analyse_fst (t : Ast.Graph) (g : Graph) : (analyse graphIface t g).1 = (replay graphIface g (treeCalls t)).1 := by
  unfold analyse
  rw [analyseC_eq]

theorem effect {t : Ast.Graph} {g0 g : Graph} (h0 : Reachable g0) (h : analyse graphIface t g0 = (g, none)) :
    Reachable g ∧ g.nodes.names = (namedNodes (stmtsCalls ⟨t.id, [], []⟩ [] t.stmts)).foldl addFirst g0.nodes.names ∧
    Effect { abs g0 with name := t.id, directed := t.type_, strict := t.strict } (stmtsCalls ⟨t.id, [], []⟩ [] t.stmts) (abs g) := by
  have hp := stmtsCalls_plain t.stmts ⟨t.id, [], []⟩ MapWF.nil MapWF.nil []
  have hw := calls_wf t
  have hr := replay_reachable h0 hw
  have hab := abs_replay h0 hw
  have hes := (analyse_none t g0).1 (by rw [h])
  have hg := analyse_fst t g0
  rw [h] at hg
  simp only at hg
  have hn := replay_names h0 hw hes
  rw [← hg] at hn hab hr
  rw [hes] at hab
  have he : (areplay { abs g0 with name := t.id, directed := t.type_, strict := t.strict } (stmtsCalls ⟨t.id, [], []⟩ [] t.stmts)) = (abs g, []) := hab
  have heff := Effect.replay (fun x hx => (hp x hx).1) (fun x hx => (hp x hx).2) (by rw [he])
  rw [he] at heff
  exact ⟨hr, hn, heff⟩

end Merge

/-- C83. `Analyse` adds to a graph exactly what the document says: the old contents stay, except where the document gives other values. -/
theorem C83_adds {t : Ast.Graph} {g0 g : Graph} (h0 : Reachable g0) (h : analyse graphIface t g0 = (g, none)) : Adds t g0 g := by
  obtain ⟨hr, hnames, heff⟩ := Merge.effect h0 h
  have hcalls := scStmts_calls ⟨t.id, [], []⟩ [] t.stmts
  have hrel := rel_items t
  have hsome : ∀ {g : Graph}, Reachable g → ∀ n, ((abs g).node n).isSome = true ↔ g.isNode n = true := by
    intro g hg n
    have := abs_node_none hg.inv n
    unfold Graph.isNode mhas
    cases h1 : mget g.nodes.lookup n <;> cases h2 : (abs g).node n <;> simp_all
  have hsub : ∀ (g : Graph) n, ((abs g).sub n).isSome = true ↔ g.isSubGraph n = true := by
    intro g n
    simp only [Graph.isSubGraph, mhas, abs]
    cases mget g.subGraphs n <;> simp
  refine ⟨heff.name, heff.directed, heff.strict, ?_, ?_, ?_, ?_, ?_, ?_, ?_, ?_⟩
  · intro n
    rw [← hsome hr, heff.node]
    refine or_congr (hsome h0 n) ?_
    constructor
    · rintro ⟨p, m, h⟩
      obtain ⟨i, hi, _, hn⟩ := (addNode_iff t p n).1 ⟨m, h⟩
      exact ⟨i, hi, hn⟩
    · rintro ⟨i, hi, hn⟩
      obtain ⟨m, hm⟩ := (addNode_iff t i.ctx.name n).2 ⟨i, hi, rfl, hn⟩
      exact ⟨_, m, hm⟩
  · refine ⟨g0.nodes.names, h0.inv.nodes.names_map, ?_⟩
    unfold nodeNames
    rw [hr.inv.nodes.names_map, hnames, order_stmts t.stmts _ [] g0.nodes.names (by simp [mentioned]),
      forall2_flatMap (g := fun i : Item => mentions i.stmt) (fun a b hab => by rw [hab.stmt]) hrel]
  · intro n nd hn k
    have := heff.nodeVal n k
    rw [hcalls, nodeGiven_flatMap hrel] at this
    have h1 : AGraph.nodeVal (abs g) n k = mget nd.attrs k := by simp [AGraph.nodeVal, abs, hn]
    rw [h1] at this
    rw [this]
    congr 1
    simp only [AGraph.nodeVal, abs]
    cases g0.nodes.find n <;> rfl
  · intro n
    rw [← hsub, heff.sub]
    refine or_congr (hsub g0 n) ?_
    constructor
    · rintro ⟨p, m, h⟩
      obtain ⟨i, hi, _, hn⟩ := (addSub_iff t p n).1 ⟨m, h⟩
      exact ⟨i, hi, hn⟩
    · rintro ⟨i, hi, hn⟩
      obtain ⟨m, hm⟩ := (addSub_iff t i.ctx.name n).2 ⟨i, hi, rfl, hn⟩
      exact ⟨_, m, hm⟩
  · intro n s hs k
    have h1 : AGraph.subVal (abs g) n k = mget s.attrs k := by simp [AGraph.subVal, abs, hs]
    have h2 : ∀ a b c, AGraph.subVal { abs g0 with name := a, directed := b, strict := c } n k = (mget g0.subGraphs n).bind fun o => mget o.attrs k := by
      intro a b c
      simp only [AGraph.subVal, abs]
      cases mget g0.subGraphs n <;> rfl
    by_cases e : n = t.id
    · subst e
      rw [if_pos rfl, ← h1, Option.none_or, ← h2]
      exact heff.subRoot k
    · rw [if_neg e, ← h1, heff.subVal n k e, hcalls, graphGiven_flatMap hrel, h2]
  · intro k
    have := heff.attrs k
    rw [hcalls, graphGiven_flatMap hrel] at this
    exact this
  · intro p c
    have := heff.contains p c
    show (abs g).contains p c = true ↔ _
    rw [this, addNode_iff, addSub_iff]
    refine or_congr Iff.rfl ?_
    constructor
    · rintro (⟨i, hi, h1, h2⟩ | ⟨i, hi, h1, h2⟩)
      · exact ⟨i, hi, h1, .inl h2⟩
      · exact ⟨i, hi, h1, .inr h2⟩
    · rintro ⟨i, hi, h1, h2 | h2⟩
      · exact .inl ⟨i, hi, h1, h2⟩
      · exact .inr ⟨i, hi, h1, h2⟩
  · have := heff.edges
    rw [hcalls, edgesMade_flatMap hrel] at this
    exact this

/-- C83. Whether `Analyse` succeeds does not depend on what is in the graph: it does exactly if every entry of the document that ends up
somewhere has a name that Graphviz knows. -/
theorem C83_accepted (t : Ast.Graph) {g0 : Graph} (h0 : Reachable g0) :
    (analyse graphIface t g0).2 = none ↔ ∀ i ∈ items t, ∀ e ∈ i.used, Registered e.1 := by
  rw [← C66_accepted, newAnalysedGraph_ok_iff, Merge.analyse_none]
  have hab := abs_replay h0 (Merge.calls_wf t)
  have hp : ∀ x ∈ stmtsCalls ⟨t.id, [], []⟩ [] t.stmts, PlainCall x := stmtsCalls_plain t.stmts ⟨t.id, [], []⟩ MapWF.nil MapWF.nil []
  have he : areplay (abs g0) (treeCalls t) = areplay { abs g0 with name := t.id, directed := t.type_, strict := t.strict }
      (stmtsCalls ⟨t.id, [], []⟩ [] t.stmts) := rfl
  have hiff := areplay_ok_iff (a := { abs g0 with name := t.id, directed := t.type_, strict := t.strict }) (K := fun n => n = t.id)
    (fun n hn => .inl hn.symm) (stmtsCalls_targets t.stmts _ _ [] rfl) hp
  have h2 : (replay graphIface g0 (treeCalls t)).2 = (areplay (abs g0) (treeCalls t)).2 := by rw [hab]
  rw [h2, he, hiff]
  simp only [treeCalls, List.mem_append, List.mem_cons, List.not_mem_nil, or_false]
  constructor
  · rintro h x ((rfl | rfl | rfl) | hx) k hk
    · cases hk
    · cases hk
    · cases hk
    · exact h x hx k hk
  · intro h x hx k hk
    exact h x (.inr hx) k hk

theorem or_self_or (a b : Option Str) : a.or (a.or b) = a.or b := by cases a <;> rfl

theorem foldl_addFirst_self (xs : List Str) : ∀ acc : List Str, (∀ x ∈ xs, x ∈ acc) → xs.foldl addFirst acc = acc := by
  induction xs with
  | nil => intro _ _; rfl
  | cons x xs ih =>
    intro acc h
    rw [List.foldl_cons, show addFirst acc x = acc by unfold addFirst; rw [if_pos (h x (List.mem_cons_self ..))]]
    exact ih acc fun y hy => h y (List.mem_cons_of_mem _ hy)

/-- C83. Analysing the same document again adds its edges a second time, and changes nothing else. -/
theorem C83_again {t : Ast.Graph} {g0 g : Graph} (h0 : Reachable g0) (h : analyse graphIface t g0 = (g, none)) :
    ∃ g', analyse graphIface t g = (g', none) ∧
      g'.name = g.name ∧ g'.directed = g.directed ∧ g'.strict = g.strict ∧ (∀ k, mget g'.attrs k = mget g.attrs k) ∧
      nodeNames g' = nodeNames g ∧ (∀ n k, nodeValue g' n k = nodeValue g n k) ∧
      (∀ n, g'.isSubGraph n = g.isSubGraph n) ∧ (∀ n s s', mget g.subGraphs n = some s → mget g'.subGraphs n = some s' → ∀ k, mget s'.attrs k = mget s.attrs k) ∧
      (∀ p c, mhas (g'.relations.children p) c = mhas (g.relations.children p) c) ∧
      g'.edges.edges.map (fun e => AEdge.mk e.src e.srcPort e.dst e.dstPort e.dir (mget e.attrs)) =
        g.edges.edges.map (fun e => AEdge.mk e.src e.srcPort e.dst e.dstPort e.dir (mget e.attrs)) ++ (items t).flatMap Item.edges := by
  have hr : Reachable g := (Merge.effect h0 h).1
  have hok : (analyse graphIface t g).2 = none := by
    rw [C83_accepted t hr, ← C83_accepted t h0, h]
  obtain ⟨g', e⟩ : ∃ g', analyse graphIface t g = (g', none) := ⟨(analyse graphIface t g).1, by rw [← hok]⟩
  have hr' : Reachable g' := (Merge.effect hr e).1
  have a := C83_adds h0 h
  have b := C83_adds hr e
  refine ⟨g', e, b.name.trans a.name.symm, b.directed.trans a.directed.symm, b.strict.trans a.strict.symm, fun k => ?_, ?_, fun n k => ?_, fun n => ?_, fun n s s' hs hs' k => ?_,
    fun p c => ?_, b.edges⟩
  · rw [b.attrs, a.attrs, or_self_or]
  · obtain ⟨old, h1, h2⟩ := a.nodeOrder
    obtain ⟨old', h1', h2'⟩ := b.nodeOrder
    have : old' = ((items t).flatMap fun i => mentions i.stmt).foldl addFirst old := by
      have := h1'.symm.trans h2
      exact (List.map_inj_right (fun _ _ h => Option.some.inj h)).1 this
    rw [h2', h2, this, foldl_addFirst_self _ _ fun x hx => (mem_foldl_addFirst _ _ _).2 (.inr hx)]
  · have hnode : ∀ {g : Graph}, Reachable g → (g.isNode n = true ↔ ∃ nd, g.nodes.find n = some nd) := by
      intro g hg
      have := hg.inv.nodes.has_iff_find n
      unfold Graph.isNode
      cases hf : g.nodes.find n <;> simp_all
    have hsame : g'.isNode n = true ↔ g.isNode n = true := by
      rw [b.nodes]
      constructor
      · rintro (h | h)
        · exact h
        · exact (a.nodes n).2 (.inr h)
      · exact .inl
    unfold nodeValue
    cases hf' : g'.nodes.find n with
    | none =>
      cases hf : g.nodes.find n with
      | none => rfl
      | some nd =>
        obtain ⟨nd', h'⟩ := (hnode hr').1 (hsame.2 ((hnode hr).2 ⟨nd, hf⟩))
        rw [hf'] at h'; cases h'
    | some nd' =>
      obtain ⟨nd, hf⟩ := (hnode hr).1 (hsame.1 ((hnode hr').2 ⟨nd', hf'⟩))
      have h1 := b.nodeAttrs n nd' hf' k
      have h2 := a.nodeAttrs n nd hf k
      rw [hf] at h1 ⊢
      simp only [Option.bind_some] at h1 ⊢
      rw [h1, h2, or_self_or]
  · apply Bool.eq_iff_iff.2
    rw [b.subs]
    constructor
    · rintro (h | h)
      · exact h
      · exact (a.subs n).2 (.inr h)
    · exact .inl
  · have h1 := b.subAttrs n s' hs' k
    have h2 := a.subAttrs n s hs k
    rw [hs, Option.bind_some] at h1
    rw [h1, h2, or_self_or]
  · apply Bool.eq_iff_iff.2
    rw [b.children]
    constructor
    · rintro (h | h)
      · exact h
      · exact (a.children p c).2 (.inr h)
    · exact .inl

/-! `digraph A { a; subgraph S { b [color=red] } a -> b }` and `digraph A { a [color=blue]; b -> c }`, one after the other; and the second
one under the name `B`. -/

namespace Merge
def nd (s : Str) : Ast.NodeID := ⟨s, ⟨[], []⟩⟩
def one : Ast.Graph := ⟨true, false, b!"A",
  [.node (nd (b!"a")) [], .sub (b!"S") [.node (nd (b!"b")) [[⟨b!"color", b!"red"⟩]]], .edge (.node (nd (b!"a"))) [.mk true (.node (nd (b!"b")))] []]⟩
def two (name : Str) : Ast.Graph := ⟨true, false, name,
  [.node (nd (b!"a")) [[⟨b!"color", b!"blue"⟩]], .edge (.node (nd (b!"b"))) [.mk true (.node (nd (b!"c")))] []]⟩
/-- Both, one after the other. -/
def both (name : Str) : Graph := (analyse graphIface (two name) (analyse graphIface one newGraph).1).1

/-- The subgraphs in the statements. -/
def subNames (ss : List Stmt) : List Str := ss.filterMap fun s => match s with
  | .sub n _ => some n
  | _ => none
end Merge

theorem example_merge_two : (analyse graphIface Merge.one newGraph).2 = none ∧
    analyse graphIface (Merge.two (b!"A")) (analyse graphIface Merge.one newGraph).1 = (Merge.both (b!"A"), none) ∧
    nodeNames (Merge.both (b!"A")) = [some (b!"a"), some (b!"b"), some (b!"c")] ∧
    nodeValue (Merge.both (b!"A")) (b!"a") (b!"color") = some (b!"blue") ∧ nodeValue (Merge.both (b!"A")) (b!"b") (b!"color") = some (b!"red") ∧
    (Merge.both (b!"A")).edges.edges.map (fun e => (e.src, e.dst)) = [(b!"a", b!"b"), (b!"b", b!"c")] ∧
    (match writeAst edgeInsertionSort 3 (Merge.both (b!"A")) with | .ok t => Merge.subNames t.stmts | _ => []) = [b!"S"] := by decide +kernel

/-- C83. What was in the graph is kept, but not always written: `Analyse` renames the graph, and what was in the graph of the old name
is then in no graph. The nodes are written all the same (C17), the subgraphs are not. -/
theorem C83_renamed_not_written : (analyse graphIface (Merge.two (b!"B")) (analyse graphIface Merge.one newGraph).1).2 = none ∧
    (Merge.both (b!"B")).isSubGraph (b!"S") = true ∧ mhas ((Merge.both (b!"B")).relations.children (b!"A")) (b!"S") = true ∧
    ∃ t, writeAst edgeInsertionSort 3 (Merge.both (b!"B")) = .ok t ∧ Merge.subNames t.stmts = [] ∧ t.id = b!"B" := by
  refine ⟨by decide +kernel, by decide +kernel, by decide +kernel, ?_⟩
  have h : (match writeAst edgeInsertionSort 3 (Merge.both (b!"B")) with
    | .ok t => decide (Merge.subNames t.stmts = [] ∧ t.id = b!"B") | _ => false) = true := by decide +kernel
  split at h
  · rename_i t ht
    exact ⟨t, ht, of_decide_eq_true h⟩
  · cases h

end Gographviz.Props
