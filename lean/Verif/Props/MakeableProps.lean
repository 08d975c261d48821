import Verif.Proofs.Makeable
import Verif.Props.UndoProps
import Verif.Spec.Makeable
/-!
C102: which contents a graph can have, and what direct calls on the exported fields of a graph add to them.
-/
namespace Gographviz.Props

open Gographviz Spec

namespace Make

theorem shows_iff (g : Graph) (a : AGraph) : HasContents g a ↔ abs g = a := by
  constructor
  · intro h
    obtain ⟨h1, h2, h3, h4, h5, h6, h7, h8⟩ := h
    obtain ⟨n, d, s, at', nd, es, sb, ct⟩ := a
    simp only [abs, AGraph.mk.injEq]
    exact ⟨h1, h2, h3, funext h4, funext h5, h6, funext h7, funext fun p => funext (h8 p)⟩
  · rintro rfl
    exact ⟨rfl, rfl, rfl, fun _ => rfl, fun _ => rfl, rfl, fun _ => rfl, fun _ _ => rfl⟩

theorem finAttrs {as : Attrs} (h : AttrsOk as) : FinAttrs (mget as) := by
  have hk : ∀ k, mget as k ≠ none → k ∈ mkeys as := fun k hk => (mhas_iff as k).1 (by
    unfold mhas
    cases hm : mget as k with
    | none => exact absurd hm hk
    | some v => rfl)
  refine ⟨⟨mkeys as, hk⟩, fun k hn => ?_⟩
  obtain ⟨e, he, rfl⟩ := List.mem_map.1 (hk k hn)
  exact h.reg e he

theorem storable {g : Graph} (h : GInv g) : Storable (abs g) where
  attrs := finAttrs h.attrs
  nodes := ⟨mkeys g.nodes.lookup, fun n hn => (mhas_iff _ _).1 ((h.nodes.has_iff_find n).2 (by
    cases hf : g.nodes.find n with
    | none => simp [abs, hf] at hn
    | some nd => exact ⟨nd, rfl⟩))⟩
  nodeAttrs := fun n m hm => by
    simp only [abs, Option.map_eq_some_iff] at hm
    obtain ⟨nd, hf, rfl⟩ := hm
    exact finAttrs (h.nodes.find_name hf).2
  subs := ⟨mkeys g.subGraphs, fun n hn => (mhas_iff _ _).1 (by
    unfold mhas
    cases hf : mget g.subGraphs n with
    | none => simp [abs, hf] at hn
    | some s => rfl)⟩
  subAttrs := fun n m hm => by
    simp only [abs, Option.map_eq_some_iff] at hm
    obtain ⟨s, hf, rfl⟩ := hm
    exact finAttrs (h.subs.attrs n s hf)
  edges := fun e he => by
    simp only [abs, List.mem_map] at he
    obtain ⟨e', he', rfl⟩ := he
    exact finAttrs (h.edges.attrs e' he')
  contains := ⟨(mkeys g.relations.parentToChildren).flatMap fun p => (mkeys (g.relations.children p)).map fun c => (p, c), fun p c hc => by
    have hc : mhas (g.relations.children p) c = true := hc
    refine List.mem_flatMap.2 ⟨p, ?_, List.mem_map.2 ⟨c, (mhas_iff _ _).1 hc, rfl⟩⟩
    rw [← mhas_iff]
    unfold Relations.children at hc
    unfold mhas
    cases hp : mget g.relations.parentToChildren p with
    | none => rw [hp] at hc; cases hc
    | some i => rfl⟩

/-- A name that is both a node and a subgraph has a parent. -/
def Both (a : AGraph) : Prop := ∀ n, a.node n ≠ none → a.sub n ≠ none → ∃ p, a.contains p n = true

theorem Both.removeNode {a : AGraph} (h : Both a) (q x : Str) : Both (a.removeNode q x) := by
  intro n hn hs
  simp only [AGraph.removeNode, upd] at hn hs
  by_cases hx : n = x
  · rw [if_pos hx] at hn; exact absurd rfl hn
  · rw [if_neg hx] at hn
    obtain ⟨p, hp⟩ := h n hn hs
    exact ⟨p, by simp only [AGraph.removeNode]; rw [if_neg (fun e => hx e.2)]; exact hp⟩

theorem Both.removeNodes (q : Str) : ∀ (o : List Str) {a : AGraph}, Both a → Both (a.removeNodes q o).1
  | [], _, h => h
  | x :: o, a, h => by
    simp only [AGraph.removeNodes]
    cases a.node x with
    | none => exact h
    | some m => exact Both.removeNodes q o (h.removeNode q x)

theorem Both.setAttr {a : AGraph} (h : Both a) (t k v : Str) : Both (a.setAttr t k v) := by
  unfold AGraph.setAttr
  split
  · exact h
  · split
    · rename_i as hs
      intro n hn hn'
      refine h n hn ?_
      simp only [upd] at hn'
      by_cases hx : n = t
      · subst hx; rw [hs]; simp
      · rwa [if_neg hx] at hn'
    · exact h

theorem Both.setAttrs (t : Str) : ∀ (as : List (Str × Str)) {a : AGraph}, Both a → Both (a.setAttrs t as).1
  | [], _, h => h
  | (k, v) :: as, a, h => by
    simp only [AGraph.setAttrs]
    split
    · exact Both.setAttrs t as (h.setAttr t k v)
    · exact h

theorem Both.step {a : AGraph} (h : Both a) (op : Op) : Both (a.step op).1 := by
  cases op with
  | setStrict b => exact h
  | setDir b => exact h
  | setName b => exact h
  | addPortEdge s sp d dp dir as => simp only [AGraph.step]; split <;> exact h
  | addEdge s d dir as => simp only [AGraph.step]; split <;> exact h
  | addNode p n as =>
    simp only [AGraph.step]
    split
    · exact h
    · intro x hx hx'
      by_cases e : x = n
      · exact ⟨p, by simp [e]⟩
      · simp only [upd, if_neg e] at hx
        obtain ⟨q, hq⟩ := h x hx hx'
        exact ⟨q, by simp [hq]⟩
  | addAttr t k v =>
    simp only [AGraph.step]
    split
    · split
      · exact h.setAttr t k v
      · exact h
    · exact h
  | addSubGraph p n as =>
    simp only [AGraph.step]
    refine Both.setAttrs n as fun x hx hx' => ?_
    by_cases e : x = n
    · exact ⟨p, by simp [e]⟩
    · simp only [upd, if_neg e] at hx'
      obtain ⟨q, hq⟩ := h x hx hx'
      exact ⟨q, by simp [hq]⟩
  | removeNode p n =>
    simp only [AGraph.step]
    split
    · exact h
    · exact h.removeNode p n
  | removeSubGraph p n o =>
    simp only [AGraph.step]
    have := Both.removeNodes p o h
    split
    · rename_i e; rw [e] at this; exact this
    · rename_i a' e
      rw [e] at this
      intro x hx hx'
      simp only [upd] at hx'
      by_cases ex : x = n
      · rw [if_pos ex] at hx'; exact absurd rfl hx'
      · rw [if_neg ex] at hx'
        obtain ⟨q, hq⟩ := this x hx hx'
        refine ⟨q, ?_⟩
        simp only
        rw [if_neg (fun e => ex e.2)]
        exact hq

theorem reachable_both {g : Graph} (h : Reachable g) : Both (abs g) := by
  induction h with
  | init => rw [abs_new]; intro n hn; exact absurd rfl hn
  | step op hr hok ih =>
    have := abs_step hr.inv op hok
    have e : abs _ = _ := congrArg Prod.fst this
    rw [e]
    exact ih.step op

theorem direct_inv {g : Graph} (h : GInv g) (x : DCall) (hx : UseOk g x) : GInv (g.direct x).1 := by
  cases x with
  | api op => exact h.step op
  | nodesAdd node => exact ⟨h.nodes.add node ⟨hx.1, hx.2⟩, h.edges, h.rels, h.subs, h.attrs⟩
  | nodesRemove n =>
    refine ⟨?_, h.edges, h.rels, h.subs, h.attrs⟩
    show NodesInv (g.nodes.remove n).1
    cases hn : mget g.nodes.lookup n with
    | none => rw [h.nodes.remove_absent hn]; exact h.nodes
    | some q => rw [h.nodes.remove_present hn]; exact h.nodes.removed hn
  | edgesAdd e => exact ⟨h.nodes, h.edges.add e ⟨hx.1, hx.2⟩, h.rels, h.subs, h.attrs⟩
  | relationsAdd p c => exact ⟨h.nodes, h.edges, h.rels.add p c, h.subs, h.attrs⟩
  | relationsRemove p c => exact ⟨h.nodes, h.edges, h.rels.remove p c, h.subs, h.attrs⟩
  | subGraphsAdd n => exact ⟨h.nodes, h.edges, h.rels, h.subs.add n, h.attrs⟩
  | subGraphsRemove n => exact ⟨h.nodes, h.edges, h.rels, h.subs.mdel n, h.attrs⟩
  | attrsAdd f v =>
    simp only [Graph.direct]
    by_cases hr : Registered f
    · rw [attrsAdd_ok _ v hr]; exact ⟨h.nodes, h.edges, h.rels, h.subs, h.attrs.mset v hr⟩
    · rw [attrsAdd_bad _ v hr]; exact h
  | attrsDelete f =>
    exact ⟨h.nodes, h.edges, h.rels, h.subs, ⟨h.attrs.wf.mdel f, fun e he => h.attrs.reg e (List.mem_filter.1 he).1⟩⟩

theorem used_inv {g : Graph} (h : Used g) : GInv g := by
  induction h with
  | init => exact GInv.new
  | step x _ hx ih => exact direct_inv ih x hx

theorem used_of_reachable {g : Graph} (h : Reachable g) : Used g := by
  induction h with
  | init => exact .init
  | step op _ hok ih => exact .step (.api op) ih hok

theorem abs_relationsRemove (g : Graph) (p c : Str) :
    abs (g.direct (.relationsRemove p c)).1 = { abs g with contains := fun p' c' => if p' = p ∧ c' = c then false else (abs g).contains p' c' } := by
  simp only [Graph.direct, abs, AGraph.mk.injEq, true_and]
  funext p' c'
  rw [Relations.children_remove]
  by_cases h1 : p = p'
  · subst h1
    simp only [if_true, true_and]
    unfold mhas
    rw [mget_mdel]
    by_cases h2 : c = c'
    · subst h2; simp
    · rw [if_neg h2, if_neg (Ne.symm h2)]
  · rw [if_neg h1, if_neg (fun e => h1 e.1.symm)]

/-- Removing relations one after the other. -/
theorem used_cut (F : Str) : ∀ (l : List Str) {g : Graph}, Used g →
    ∃ g', Used g' ∧ abs g' = { abs g with contains := fun p c => if p = F ∧ c ∈ l then false else (abs g).contains p c }
  | [], g, h => ⟨g, h, by simp⟩
  | c :: l, g, h => by
    obtain ⟨g', hu, ha⟩ := used_cut F l (.step (.relationsRemove F c) h trivial)
    refine ⟨g', hu, ?_⟩
    rw [ha, abs_relationsRemove]
    simp only [AGraph.mk.injEq, true_and]
    funext p' c'
    by_cases h1 : p' = F <;> by_cases h2 : c' = c <;> by_cases h3 : c' ∈ l <;> simp [h1, h2, h3]

theorem storable_used {a : AGraph} (h : Storable a) : ∃ g, Used g ∧ abs g = a := by
  obtain ⟨ns, hns⟩ := h.nodes
  obtain ⟨ps, hps⟩ := h.contains
  obtain ⟨F, hF⟩ := exists_fresh (ps.map Prod.fst)
  have hFC : ∀ c, a.contains F c = false := fun c => by
    cases hc : a.contains F c with
    | false => rfl
    | true => exact absurd (List.mem_map.2 ⟨(F, c), hps F c hc, rfl⟩) hF
  have hm : Makeable { a with contains := fun p c => (decide (p = F) && decide (c ∈ ns)) || a.contains p c } := by
    refine ⟨⟨h.attrs, h.nodes, h.nodeAttrs, h.subs, h.subAttrs, h.edges, ⟨ns.map (fun c => (F, c)) ++ ps, fun p c hc => ?_⟩⟩, fun n hn _ => ⟨F, ?_⟩⟩
    · simp only [Bool.or_eq_true, Bool.and_eq_true, decide_eq_true_eq] at hc
      rcases hc with ⟨rfl, hc⟩ | hc
      · exact List.mem_append_left _ (List.mem_map.2 ⟨c, hc, rfl⟩)
      · exact List.mem_append_right _ (hps p c hc)
    · simp [hns n hn]
  obtain ⟨g, hr, ha⟩ := makeable_made hm
  obtain ⟨g', hu, ha'⟩ := used_cut F ns (used_of_reachable hr)
  refine ⟨g', hu, ?_⟩
  rw [ha', ha]
  obtain ⟨x1, x2, x3, x4, x5, x6, x7, x8⟩ := a
  simp only [AGraph.mk.injEq, true_and]
  funext p c
  have hFC : ∀ c, x8 F c = false := hFC
  by_cases h1 : p = F
  · subst h1
    by_cases h2 : c ∈ ns <;> simp [h2, hFC]
  · simp [h1]

theorem run_congr' (ops : List Op) : ∀ {g g' : Graph}, GInv g → GInv g' → abs g = abs g' → OkHistory g ops →
    OkHistory g' ops ∧ abs (g.run ops) = abs (g'.run ops) ∧ g.runErrs ops = g'.runErrs ops ∧ GInv (g.run ops) ∧ GInv (g'.run ops) := by
  induction ops with
  | nil => intro g g' hg hg' he _; exact ⟨trivial, he, rfl, hg, hg'⟩
  | cons op ops ih =>
    intro g g' hg hg' he hok
    have hok' : op.Ok g' := Order.ok_congr hg hg' (by rw [he]) hok.1
    have h1 := abs_step hg op hok.1
    have h2 := abs_step hg' op hok'
    rw [he, ← h2] at h1
    simp only [Prod.mk.injEq] at h1
    obtain ⟨i1, i2, i3, i4⟩ := ih (hg.step op) (hg'.step op) h1.1 hok.2
    exact ⟨⟨hok', i1⟩, i2, by simp only [Graph.runErrs]; rw [i3, h1.2], i4⟩

theorem edges_eq {g g' : Graph} (hg : GInv g) (hg' : GInv g') (h : abs g = abs g') : g.edges.edges = g'.edges.edges :=
  Undo.map_inj (fun a ha b hb => Order.absEdge_inj (hg.edges.attrs a ha).wf (hg'.edges.attrs b hb).wf) (congrArg AGraph.edges h)

theorem same {g g' : Graph} (hg : GInv g) (hg' : GInv g') (h : abs g = abs g') : SameContent g g' :=
  Order.sameContent hg hg' (by rw [h]; exact .refl _)

theorem writes {g g' : Graph} (hg : GInv g) (hg' : GInv g') (h : abs g = abs g') (sortE : List Edge → List Edge) (f : Nat) :
    writeAst sortE f g = writeAst sortE f g' :=
  WSame.writeAst hg hg' (SameContent.wsame hg hg' (same hg hg' h)) f (by rw [edges_eq hg hg' h])

end Make

open Make

/-- C102. Exactly the finite contents with registered attribute names, in which a name that is both a node and a subgraph is a child of something, are the contents of a graph made by calls. -/
theorem C102_exact (a : AGraph) : (∃ g, Reachable g ∧ HasContents g a) ↔ Makeable a := by
  constructor
  · rintro ⟨g, hr, hs⟩
    rw [shows_iff] at hs
    subst hs
    exact ⟨storable hr.inv, reachable_both hr⟩
  · intro h
    obtain ⟨g, hr, ha⟩ := makeable_made h
    exact ⟨g, hr, (shows_iff g a).2 ha⟩

/-- C102. With direct calls on the exported fields, exactly the finite contents with registered attribute names. -/
theorem C102_used_exact (a : AGraph) : (∃ g, Used g ∧ HasContents g a) ↔ Storable a := by
  constructor
  · rintro ⟨g, hu, hs⟩
    rw [shows_iff] at hs
    subst hs
    exact storable (used_inv hu)
  · intro h
    obtain ⟨g, hr, ha⟩ := storable_used h
    exact ⟨g, hr, (shows_iff g a).2 ha⟩

/-- C102. What direct calls do could have been done by the calls of the graph: if every name that is both a node and a subgraph is a child of something, then some history of
calls alone makes a graph with the same content and the same edges in the same order, that is written the same, and on which any later history of calls returns the same errors and leaves
the same content and text. -/
theorem C102_twin {g : Graph} (h : Used g)
    (hb : ∀ n, g.isNode n = true → g.isSubGraph n = true → ∃ p, mhas (g.relations.children p) n = true) :
    ∃ g', Reachable g' ∧ ∀ ops, OkHistory g ops →
      OkHistory g' ops ∧ g.runErrs ops = g'.runErrs ops ∧ SameContent (g.run ops) (g'.run ops) ∧ (g.run ops).edges.edges = (g'.run ops).edges.edges ∧
      ∀ (sortE : List Edge → List Edge) (f : Nat), graphString sortE f (g.run ops) = graphString sortE f (g'.run ops) := by
  have hi := used_inv h
  have hm : Makeable (abs g) := ⟨storable hi, fun n hn hs => by
    refine hb n ((hi.nodes.has_iff_find n).2 ?_) ?_
    · cases hf : g.nodes.find n with
      | none => simp [abs, hf] at hn
      | some nd => exact ⟨nd, rfl⟩
    · unfold Graph.isSubGraph mhas
      cases hf : mget g.subGraphs n with
      | none => simp [abs, hf] at hs
      | some s => rfl⟩
  obtain ⟨g', hr, ha⟩ := makeable_made hm
  refine ⟨g', hr, fun ops hok => ?_⟩
  obtain ⟨h1, h2, h3, h4, h5⟩ := run_congr' ops hi hr.inv ha.symm hok
  refine ⟨h1, h3, same h4 h5 h2, edges_eq h4 h5 h2, fun sortE f => ?_⟩
  unfold graphString
  rw [writes h4 h5 h2]

/-- C102. Otherwise there is no such history: no graph made by calls has the content of a graph with a node that is also a subgraph and a child of nothing. -/
theorem C102_no_twin {g : Graph} (h : Used g) {n : Str} (hn : g.isNode n = true) (hs : g.isSubGraph n = true)
    (hp : ∀ p, mhas (g.relations.children p) n = false) {g' : Graph} (hr : Reachable g') : ¬ SameContent g g' := by
  intro hc
  have hi := used_inv h
  obtain ⟨nd, hnd⟩ := (hi.nodes.has_iff_find n).1 hn
  obtain ⟨p, hpp⟩ := reachable_both hr n (by
    have := hc.nodes n
    rw [hnd] at this
    cases hf : g'.nodes.find n with
    | none => rw [hf] at this; cases this
    | some x => simp [abs, hf]) (by
    have := hc.subs n
    rw [show mhas g.subGraphs n = true from hs] at this
    unfold mhas at this
    cases hf : mget g'.subGraphs n with
    | none => rw [hf] at this; cases this
    | some x => simp [abs, hf])
  have hpp : mhas (g'.relations.children p) n = true := hpp
  rw [← hc.children, hp] at hpp
  cases hpp

/-- Direct calls: a node that is nowhere, put into a subgraph later; an edge; a relation taken back. -/
def Make.calls : List DCall :=
  [.api (.setName (b!"G")), .api (.addNode (b!"G") (b!"a") [(b!"color", b!"red")]), .nodesAdd ⟨b!"b", [(b!"label", b!"x")]⟩,
   .edgesAdd ⟨b!"a", [], b!"b", b!"n", false, []⟩, .subGraphsAdd (b!"S"), .relationsAdd (b!"S") (b!"b"), .relationsAdd (b!"G") (b!"S"), .relationsRemove (b!"G") (b!"a"), .attrsAdd (b!"rank") (b!"same")]

/-- Running such a history. -/
def Make.runD (g : Graph) : List DCall → Graph
  | [] => g
  | x :: xs => Make.runD (g.direct x).1 xs

/-- The arguments can occur. -/
def Make.okD (g : Graph) : List DCall → Prop
  | [] => True
  | x :: xs => UseOk g x ∧ Make.okD (g.direct x).1 xs

instance (g : Graph) (x : DCall) : Decidable (UseOk g x) := by
  cases x <;> unfold UseOk <;> first | exact inferInstance | (unfold MapWF; exact inferInstance)

instance Make.okDec : (g : Graph) → (xs : List DCall) → Decidable (Make.okD g xs)
  | _, [] => .isTrue trivial
  | g, x :: xs => match (inferInstance : Decidable (UseOk g x)), Make.okDec (g.direct x).1 xs with
    | .isTrue a, .isTrue b => .isTrue ⟨a, b⟩
    | .isFalse a, _ => .isFalse fun h => a h.1
    | _, .isFalse b => .isFalse fun h => b h.2

theorem Make.used_run {xs : List DCall} : ∀ {g : Graph}, Used g → Make.okD g xs → Used (Make.runD g xs) := by
  induction xs with
  | nil => intro g h _; exact h
  | cons x xs ih => intro g h hok; exact ih (.step x h hok.1) hok.2

/-- What is written, for the example. -/
def Make.text (g : Graph) : Str := match graphString edgeInsertionSort 5 g with
  | .ok s => s
  | _ => []

/-- C102. A graph with direct calls that has a twin, what both are written as, and the graph of a node that is also a subgraph and a child of nothing, which has none. -/
theorem example_makeable :
    (∃ g', Reachable g' ∧ SameContent (runD newGraph calls) g' ∧
      Make.text g' = b!"graph G {\n\trank=same;\n\ta--b:n;\n\tsubgraph S {\n\t\tb [ label=x ];\n\t};\n\ta [ color=red ];\n}\n") ∧
    Used (runD newGraph [.nodesAdd ⟨b!"a", []⟩, .subGraphsAdd (b!"a")]) ∧
    ∀ g', Reachable g' → ¬ SameContent (runD newGraph [.nodesAdd ⟨b!"a", []⟩, .subGraphsAdd (b!"a")]) g' := by
  have hu : Used (runD newGraph calls) := used_run .init (by decide +kernel)
  have hv : Used (runD newGraph [.nodesAdd ⟨b!"a", []⟩, .subGraphsAdd (b!"a")]) := used_run .init (by decide +kernel)
  refine ⟨?_, hv, fun g' hr => C102_no_twin hv (n := b!"a") (by decide +kernel) (by decide +kernel) (fun p => rfl) hr⟩
  obtain ⟨g', hr, h⟩ := C102_twin hu (fun n hn hs => by
    have h1 : n ∈ mkeys (runD newGraph calls).nodes.lookup := (mhas_iff _ _).1 hn
    have h2 : n ∈ mkeys (runD newGraph calls).subGraphs := (mhas_iff _ _).1 hs
    exfalso
    clear hn hs
    revert h2; revert h1; revert n
    decide +kernel)
  obtain ⟨_, _, h3, _, h5⟩ := h [] trivial
  refine ⟨g', hr, h3, ?_⟩
  unfold Make.text
  have h5 := h5 edgeInsertionSort 5
  simp only [Graph.run] at h5
  rw [← h5]
  decide +kernel

end Gographviz.Props
