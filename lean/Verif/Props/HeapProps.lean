import Verif.Proofs.HeapState
import Verif.Props.GraphProps
/-!
C61, C62: attribute maps, nodes, edges and subgraphs as objects behind pointers, several graphs in one program, and a caller that writes
through the pointers.
-/
namespace Gographviz.Props
open Gographviz Spec Heap

/-! ### C61: nothing is shared -/

/-- **C61** In every reachable state, no two elements (graphs, nodes, edges, subgraphs, in whatever graph, removed or not) have the same
attribute map. -/
theorem C61_unshared {s : State} (h : Reached s) {o o' : Owner} {a : Nat} (ho : s.owned o = some a) (ho' : s.owned o' = some a) : o = o' := by
  rw [State.owned_eq] at ho ho'
  exact (SInv.of h).minv.inj o o' a ho ho'

/-- **C61** A call changes the contents of its graph as specified by `Contents.step`, from the values of the map argument at the time of the
call; it returns the error of the specification; and no other graph and none of the caller's maps change. -/
theorem C61_call {s : State} (h : Reached s) {i : Nat} {op : Op} {arg : Option Nat} (hok : (Act.call i op arg).Ok s) :
    ∃ g g', s.graphs[i]? = some g ∧ (s.act (.call i op arg)).1.graphs[i]? = some g' ∧
      (contents (s.act (.call i op arg)).1.mem g', (s.act (.call i op arg)).2) = (contents s.mem g).step op ∧
      (argOf op).Perm ((arg.bind (s.args[·]?)).getD []) ∧
      (∀ j x, j ≠ i → s.graphs[j]? = some x →
        (s.act (.call i op arg)).1.graphs[j]? = some x ∧ contents (s.act (.call i op arg)).1.mem x = contents s.mem x) ∧
      (s.act (.call i op arg)).1.args = s.args := by
  have hs := SInv.of h
  obtain ⟨g, hi, hp, -⟩ := hok
  have hg := (hs.call hi op arg).2
  refine ⟨g, (step s.mem g op).1.2, hi, ?_, ?_, hp, fun j x hj hx => ?_, ?_⟩
  · simp only [State.act, hi, get_set hi, if_true]
  · rw [← hg.obs]
    simp only [State.act, hi]
  · simp only [State.act, hi, get_set hi]
    refine ⟨by rw [if_neg (Ne.symm hj)]; exact hx, ?_⟩
    refine hg.frame.other hj (hs.linv j x hx) (hs.pre hx).root (fun p hp hq => ?_) fun k p k' hk hk' => ?_
    · exact hs.disj j i x g hj hx hi (.node p) hp hq
    · exact hs.disj j i x g hj hx hi (.sub p) ⟨k, hk⟩ ⟨k', hk'⟩
  · simp only [State.act, hi]

/-- **C61** The caller's write `x.Attrs[k] = v` changes the attributes of `x`, and of nothing else in any graph; and no graph changes
otherwise. -/
theorem C61_write {s : State} (h : Reached s) (o : Owner) (k v : Str) :
    (∀ o', attrsOf (s.act (.write o k v)).1 o' = if o' = o then (attrsOf s o').map fun as => mset as k v else attrsOf s o') ∧
    (s.act (.write o k v)).1.graphs = s.graphs ∧ (s.act (.write o k v)).1.args = s.args ∧
    (s.act (.write o k v)).1.mem.nodes = s.mem.nodes ∧ (s.act (.write o k v)).1.mem.edges = s.mem.edges ∧
    (s.act (.write o k v)).1.mem.subs = s.mem.subs := by
  have hs := SInv.of h
  simp only [State.act]
  cases ho : s.owned o with
  | none =>
    refine ⟨fun o' => ?_, rfl, rfl, rfl, rfl, rfl⟩
    by_cases e : o' = o
    · subst e; simp [attrsOf, ho]
    · rw [if_neg e]
  | some a =>
    refine ⟨fun o' => ?_, rfl, rfl, rfl, rfl, rfl⟩
    have e : State.owned { s with mem := s.mem.set a k v } o' = s.owned o' := by cases o' <;> rfl
    unfold attrsOf
    rw [e]
    cases ho' : s.owned o' with
    | none => by_cases e : o' = o <;> simp [e]
    | some b =>
      simp only [Option.map_some]
      rw [map_set s.mem k v b (hs.minv.lt o a (by rw [← State.owned_eq]; exact ho))]
      by_cases e : o' = o
      · subst e
        rw [ho] at ho'; cases ho'
        simp
      · rw [if_neg e, if_neg]
        intro e'
        subst e'
        exact e (C61_unshared h ho' ho)

/-- **C61** Changing a map after it was passed to the graph changes no graph: not its contents, nor the attributes of any element. -/
theorem C61_argument (s : State) (a : Nat) (k v : Str) :
    (∀ o, attrsOf (s.act (.setArg a k v)).1 o = attrsOf s o) ∧ (s.act (.setArg a k v)).1.graphs = s.graphs ∧
    ∀ g, contents (s.act (.setArg a k v)).1.mem g = contents s.mem g :=
  ⟨fun o => by cases o <;> rfl, rfl, fun _ => rfl⟩

/-- **C61** In every reachable state (also after direct writes): `g.Nodes.Lookup` holds exactly the nodes in `g.Nodes.Nodes`, by pointer,
under their names; each is there once; the two indexes of the edges hold exactly the edges of `g.Edges.Edges`, by pointer and in its order;
and each subgraph is entered under its name. -/
theorem C61_pointers {s : State} (h : Reached s) {g : HGraph} (hg : g ∈ s.graphs) :
    g.list.Nodup ∧ g.edges.Nodup ∧
    (∀ n p, mget g.lookup n = some p ↔ p ∈ g.list ∧ (nodeAt s.mem p).name = n) ∧
    (∀ a b, (mget2 g.srcToDsts a b).getD [] = g.edges.filter fun p => decide ((edgeAt s.mem p).src = a) && decide ((edgeAt s.mem p).dst = b)) ∧
    (∀ a b, (mget2 g.dstToSrcs b a).getD [] = g.edges.filter fun p => decide ((edgeAt s.mem p).src = a) && decide ((edgeAt s.mem p).dst = b)) ∧
    (∀ n p, mget g.subGraphs n = some p → (subAt s.mem p).name = n) := by
  obtain ⟨i, hi⟩ := List.getElem?_of_mem hg
  have hl := (SInv.of h).linv i g hi
  have hb : ∀ a b, g.edges.filter (between s.mem.edges a b) =
      g.edges.filter fun p => decide ((edgeAt s.mem p).src = a) && decide ((edgeAt s.mem p).dst = b) := by
    intro a b
    refine List.filter_congr fun p hp => ?_
    obtain ⟨e, he⟩ := hl.edges.valid p hp
    rw [edgeAt_ext (Ext.refl s.mem) he]
    unfold between
    rw [he]
  refine ⟨hl.nodes.nodup, hl.edges.nodup, fun n p => ?_, fun a b => ?_, fun a b => ?_, fun n p hp => ?_⟩
  · rw [hl.nodes.look]
    constructor
    · rintro ⟨h1, o, h2, h3⟩
      exact ⟨h1, by rw [nodeAt_ext (Ext.refl s.mem) h2]; exact h3⟩
    · rintro ⟨h1, h2⟩
      obtain ⟨o, ho⟩ := hl.nodes.valid p h1
      rw [nodeAt_ext (Ext.refl s.mem) ho] at h2
      exact ⟨h1, o, ho, h2⟩
  · rw [hl.edges.src, nonEmpty_getD, hb]
  · rw [hl.edges.dst, nonEmpty_getD, hb]
  · obtain ⟨o, h1, h2⟩ := hl.subs.look n p hp
    rw [subAt_ext (Ext.refl s.mem) h1]; exact h2

/-- Where there is a graph, its contents are those of `Model/Graph.lean` after the same calls. -/
def Refines (acts : List Act) : Prop :=
  ∀ i, (∀ g, (start.run acts).graphs[i]? = some g →
      OkHistory newGraph (opsOn i acts) ∧ contents (start.run acts).mem g = contentsOf (newGraph.run (opsOn i acts))) ∧
    ((start.run acts).graphs[i]? = none → opsOn i acts = [])

theorem opsOn_append (i : Nat) (a b : List Act) : opsOn i (a ++ b) = opsOn i a ++ opsOn i b := by
  induction a with
  | nil => rfl
  | cons x a ih =>
    cases x with
    | call j op arg =>
      simp only [List.cons_append, opsOn]
      split
      · rw [ih]; rfl
      · exact ih
    | _ => exact ih

theorem grun_append (g : Graph) (a b : List Op) : g.run (a ++ b) = (g.run a).run b := by
  induction a generalizing g with
  | nil => rfl
  | cons x a ih => exact ih _

theorem okHistory_append {g : Graph} {a b : List Op} : OkHistory g (a ++ b) ↔ OkHistory g a ∧ OkHistory (g.run a) b := by
  induction a generalizing g with
  | nil => simp [OkHistory, Graph.run]
  | cons x a ih => simp only [List.cons_append, OkHistory, Graph.run, ih, and_assoc]

/-- All argument maps are maps. -/
theorem args_wf {acts : List Act} (hok : OkActs start acts) : ∀ m ∈ (start.run acts).args, MapWF m := by
  suffices ∀ s : State, (∀ m ∈ s.args, MapWF m) → OkActs s acts → ∀ m ∈ (s.run acts).args, MapWF m from
    this start (fun m hm => absurd hm (List.not_mem_nil)) hok
  clear hok
  induction acts with
  | nil => intro s h _; exact h
  | cons a acts ih =>
    intro s h hok
    refine ih _ ?_ hok.2
    have h1 := hok.1
    cases a with
    | newGraph => exact h
    | call i op arg =>
      simp only [State.act]
      cases s.graphs[i]? <;> exact h
    | write o k v =>
      simp only [State.act]
      cases s.owned o <;> exact h
    | newArg x =>
      intro m hm
      rcases List.mem_append.1 hm with hm | hm
      · exact h m hm
      · rw [List.mem_singleton.1 hm]; exact h1
    | setArg a k v =>
      intro m hm
      simp only [State.act] at hm
      obtain ⟨j, hj⟩ := List.getElem?_of_mem hm
      rw [List.getElem?_modify] at hj
      simp only [Option.map_eq_map, Option.map_eq_some_iff] at hj
      obtain ⟨x, hx, rfl⟩ := hj
      have := h x (List.mem_of_getElem? hx)
      split
      · exact this.mset _ _
      · exact this

theorem arg_nodup {acts : List Act} (hok : OkActs start acts) (arg : Option Nat) :
    (((arg.bind ((start.run acts).args[·]?)).getD []).map Prod.fst).Nodup := by
  cases h : arg.bind ((start.run acts).args[·]?) with
  | none => exact List.nodup_nil
  | some m =>
    cases arg with
    | none => cases h
    | some j => exact (args_wf hok m (List.mem_of_getElem? h)).nodup

/-- **C61** The graph of `Model/Graph.lean`, in which edges, subgraphs and attributes are plain values, is right: in every history of calls
on any number of graphs (without direct writes), each graph has the contents that its own calls give it there. -/
theorem C61_refines {acts : List Act} (hok : OkActs start acts) (hw : NoWrites acts) : Refines acts := by
  suffices ∀ n, ∀ acts : List Act, acts.length = n → OkActs start acts → NoWrites acts → Refines acts from this _ acts rfl hok hw
  clear hok hw acts
  intro n
  induction n with
  | zero =>
    intro acts hl _ _ i
    rw [List.length_eq_zero_iff.1 hl]
    exact ⟨fun g hg => by simp [State.run, start] at hg, fun _ => rfl⟩
  | succ n ih =>
    intro acts hl hok hw
    obtain ⟨pre, a, rfl⟩ : ∃ pre a, acts = pre ++ [a] := by
      rcases List.eq_nil_or_concat acts with h | ⟨pre, a, h⟩
      · rw [h] at hl; cases hl
      · exact ⟨pre, a, by simpa using h⟩
    obtain ⟨hok1, hok2⟩ := okActs_append.1 hok
    have hr : Reached (start.run pre) := ⟨pre, hok1, rfl⟩
    have ih := ih pre (by simpa using hl) hok1 fun o k v hm => hw o k v (List.mem_append_left _ hm)
    have hrun : start.run (pre ++ [a]) = ((start.run pre).act a).1 := by rw [run_append]; rfl
    intro i
    rw [hrun, opsOn_append]
    obtain ⟨ih1, ih2⟩ := ih i
    have hok2 := hok2.1
    cases a with
    | newGraph =>
      simp only [opsOn, List.append_nil]
      constructor
      · intro g hg
        rcases getElem?_snoc hg with ⟨rfl, rfl⟩ | hg
        · rw [ih2 (by simp)]
          refine ⟨trivial, ?_⟩
          unfold contents contentsOf
          simp only [State.act, newHGraph, Mem.map]
          simp [Graph.run, newGraph, newNodes, newEdges]
        · obtain ⟨h1, h2⟩ := ih1 g hg
          refine ⟨h1, ?_⟩
          rw [← h2]
          exact ((SInv.of hr).pre hg).sameContents (Ext.push _ _) fun o b ho => pushOwned (SInv.of hr).minv [] o b ho
      · intro hg
        refine ih2 ?_
        simp only [State.act, newHGraph] at hg
        rw [List.getElem?_eq_none_iff] at hg ⊢
        simp at hg
        omega
    | call j op arg =>
      obtain ⟨g, g', hj, hj', hc, hp, hother, -⟩ := C61_call hr hok2
      obtain ⟨gg, hgg, -, hrs⟩ := hok2
      rw [hj] at hgg; cases hgg
      simp only [opsOn]
      by_cases hij : j = i
      · subst hij
        simp only [if_true]
        obtain ⟨h1, h2⟩ := ih1 g hj
        have hinv : GInv (newGraph.run (opsOn j pre)) := (Reachable.run .init h1).inv
        rw [h2, ← contentsOf_step hinv] at hc
        simp only [Prod.mk.injEq] at hc
        constructor
        · intro x hx
          rw [hj'] at hx; cases hx
          refine ⟨okHistory_append.2 ⟨h1, ?_, trivial⟩, ?_⟩
          · have hnd : ((argOf op).map Prod.fst).Nodup := (hp.map _).nodup_iff.2 (arg_nodup hok1 arg)
            have hrel : g.relations = (newGraph.run (opsOn j pre)).relations := by
              have := congrArg Contents.relations h2
              exact this
            cases op with
            | removeSubGraph p n o =>
              show o.Perm _
              rw [← hrel]
              exact hrs p n o rfl
            | setStrict _ => trivial
            | setDir _ => trivial
            | setName _ => trivial
            | addAttr _ _ _ => trivial
            | removeNode _ _ => trivial
            | addPortEdge _ _ _ _ _ _ => exact hnd
            | addEdge _ _ _ _ => exact hnd
            | addNode _ _ _ => exact hnd
            | addSubGraph _ _ _ => exact hnd
          · rw [grun_append]
            exact hc.1
        · intro hx
          rw [hj'] at hx; cases hx
      · rw [if_neg hij, List.append_nil]
        have hsame : ((start.run pre).act (.call j op arg)).1.graphs[i]? = (start.run pre).graphs[i]? := by
          simp only [State.act, hj, get_set hj, if_neg hij]
        rw [hsame]
        refine ⟨fun x hx => ?_, ih2⟩
        obtain ⟨h1, h2⟩ := ih1 x hx
        exact ⟨h1, by rw [(hother i x (Ne.symm hij) hx).2, h2]⟩
    | write o k v => exact absurd (List.mem_append_right _ (List.mem_singleton_self _)) (hw o k v)
    | newArg m => simp only [opsOn, List.append_nil]; exact ⟨ih1, ih2⟩
    | setArg a k v => simp only [opsOn, List.append_nil]; exact ⟨ih1, ih2⟩

/-- **C61** ... and every call returns the error that it returns there. -/
theorem C61_errors {acts : List Act} {i : Nat} {op : Op} {arg : Option Nat} (hok : OkActs start (acts ++ [.call i op arg])) (hw : NoWrites acts) :
    ((start.run acts).act (.call i op arg)).2 = ((newGraph.run (opsOn i acts)).step op).2 := by
  obtain ⟨hok1, hok2⟩ := okActs_append.1 hok
  obtain ⟨g, g', hj, -, hc, -⟩ := C61_call ⟨acts, hok1, rfl⟩ hok2.1
  obtain ⟨h1, h2⟩ := (C61_refines hok1 hw i).1 g hj
  have hinv : GInv (newGraph.run (opsOn i acts)) := (Reachable.run .init h1).inv
  rw [h2, ← contentsOf_step hinv] at hc
  exact (Prod.mk.inj hc).2

/-! ### C62: pointers stay current -/

/-- **C62** An object never changes otherwise than in its attributes, whatever is done: a node keeps its name, an edge its ends, ports and
direction, a subgraph its name, and each keeps its map. -/
theorem C62_objects {s : State} (h : Reached s) {acts : List Act} (hok : OkActs s acts) :
    (∀ (p : Nat) (o : NodeObj), s.mem.nodes[p]? = some o → (s.run acts).mem.nodes[p]? = some o) ∧
    (∀ (p : Nat) (o : EdgeObj), s.mem.edges[p]? = some o → (s.run acts).mem.edges[p]? = some o) ∧
    (∀ (p : Nat) (o : SubObj), s.mem.subs[p]? = some o → (s.run acts).mem.subs[p]? = some o) ∧
    (∀ o a, s.owned o = some a → (s.run acts).owned o = some a) := by
  induction acts generalizing s with
  | nil => exact ⟨fun _ _ h => h, fun _ _ h => h, fun _ _ h => h, fun _ _ h => h⟩
  | cons a acts ih =>
    obtain ⟨h1, h2, h3, h4⟩ := ih (h.next hok.1) hok.2
    have hs := SInv.of h
    obtain ⟨⟨l1, e1⟩, ⟨l2, e2⟩, ⟨l3, e3⟩, -⟩ := hs.ext hok.1
    refine ⟨fun p o ho => h1 p o ?_, fun p o ho => h2 p o ?_, fun p o ho => h3 p o ?_, fun o a ho => h4 o a (hs.owned hok.1 ho)⟩
    · rw [e1]; exact getElem?_ext ho
    · rw [e2]; exact getElem?_ext ho
    · rw [e3]; exact getElem?_ext ho

/-- The pointers after one action. -/
theorem ptr_act {s : State} (h : Reached s) {a : Act} (hok : a.Ok s) (i : Nat) (n : Str) :
    (∀ p q, nodePtr s i n = some p → nodePtr (s.act a).1 i n = some q → p = q) ∧
    (∀ p q, subPtr s i n = some p → subPtr (s.act a).1 i n = some q → p = q) := by
  have hs := SInv.of h
  have same : (s.act a).1.graphs[i]? = s.graphs[i]? → (∀ p q, nodePtr s i n = some p → nodePtr (s.act a).1 i n = some q → p = q) ∧
    (∀ p q, subPtr s i n = some p → subPtr (s.act a).1 i n = some q → p = q) := by
    intro e
    unfold nodePtr subPtr
    rw [e]
    exact ⟨fun p q h1 h2 => by rw [h1] at h2; exact Option.some.inj h2, fun p q h1 h2 => by rw [h1] at h2; exact Option.some.inj h2⟩
  cases a with
  | newGraph =>
    cases hg : s.graphs[i]? with
    | none =>
      unfold nodePtr subPtr
      rw [hg]
      exact ⟨fun p q h => (nomatch h), fun p q h => (nomatch h)⟩
    | some g =>
      refine same ?_
      simp only [State.act, newHGraph]
      rw [List.getElem?_append_left (List.getElem?_eq_some_iff.1 hg).1]
  | call j op arg =>
    obtain ⟨g, hj, -⟩ := hok
    have hf := (hs.call hj op arg).2.frame
    by_cases hij : j = i
    · subst hij
      unfold nodePtr subPtr
      simp only [State.act, hj, get_set hj, if_true, Option.bind_some]
      refine ⟨hf.node n, fun p q hp hq => ?_⟩
      rcases hf.subs n q hq with h | ⟨h, -⟩
      · rw [h] at hp; exact (Option.some.inj hp).symm
      · rw [h] at hp; cases hp
    · refine same ?_
      simp only [State.act, hj, get_set hj, if_neg hij]
  | write o k v =>
    refine same ?_
    simp only [State.act]
    cases s.owned o <;> rfl
  | newArg m => exact same rfl
  | setArg a k v => exact same rfl

theorem throughout_head {P : State → Prop} {s : State} {acts : List Act} (h : Throughout P s acts) : P s := by
  cases acts with
  | nil => exact h
  | cons a acts => exact h.1

/-- **C62** As long as a node stays in its graph, the graph knows it under the same pointer, however many calls and writes are made in
between: what is reached through a pointer taken early is what the graph has now. -/
theorem C62_node {s : State} (h : Reached s) {acts : List Act} (hok : OkActs s acts) {i : Nat} {n : Str} {p : Nat} (hp : nodePtr s i n = some p)
    (hthere : Throughout (fun s => (nodePtr s i n).isSome) s acts) : nodePtr (s.run acts) i n = some p := by
  induction acts generalizing s with
  | nil => exact hp
  | cons a acts ih =>
    obtain ⟨q, hq⟩ := Option.isSome_iff_exists.1 (throughout_head hthere.2)
    have := (ptr_act h hok.1 i n).1 p q hp hq
    subst this
    exact ih (h.next hok.1) hok.2 hq hthere.2

/-- **C62** The same for subgraphs. -/
theorem C62_subgraph {s : State} (h : Reached s) {acts : List Act} (hok : OkActs s acts) {i : Nat} {n : Str} {p : Nat} (hp : subPtr s i n = some p)
    (hthere : Throughout (fun s => (subPtr s i n).isSome) s acts) : subPtr (s.run acts) i n = some p := by
  induction acts generalizing s with
  | nil => exact hp
  | cons a acts ih =>
    obtain ⟨q, hq⟩ := Option.isSome_iff_exists.1 (throughout_head hthere.2)
    have := (ptr_act h hok.1 i n).2 p q hp hq
    subst this
    exact ih (h.next hok.1) hok.2 hq hthere.2

/-- **C62** Whatever is done, the nodes and the edges that stay in a graph are the same objects in the same order, before the new ones. -/
theorem C62_order {s : State} (h : Reached s) {acts : List Act} (hok : OkActs s acts) {i : Nat} {g : HGraph} (hg : s.graphs[i]? = some g) :
    ∃ g', (s.run acts).graphs[i]? = some g' ∧ Grown s.mem.nodes.length g.list g'.list ∧ Grown s.mem.edges.length g.edges g'.edges := by
  induction acts generalizing s g with
  | nil => exact ⟨g, hg, Grown.refl _ _, Grown.refl _ _⟩
  | cons a acts ih =>
    have hs := SInv.of h
    obtain ⟨g1, h1, h2, h3⟩ : ∃ g', (s.act a).1.graphs[i]? = some g' ∧ Grown s.mem.nodes.length g.list g'.list ∧
        Grown s.mem.edges.length g.edges g'.edges := by
      have hok := hok.1
      cases a with
      | newGraph =>
        refine ⟨g, ?_, Grown.refl _ _, Grown.refl _ _⟩
        simp only [State.act, newHGraph]
        rw [List.getElem?_append_left (List.getElem?_eq_some_iff.1 hg).1]; exact hg
      | call j op arg =>
        obtain ⟨x, hj, -⟩ := hok
        have hf := (hs.call hj op arg).2.frame
        simp only [State.act, hj, get_set hj]
        by_cases hij : j = i
        · subst hij
          rw [hj] at hg; cases hg
          exact ⟨_, by rw [if_pos rfl], hf.list, hf.edges⟩
        · rw [if_neg hij]
          exact ⟨g, hg, Grown.refl _ _, Grown.refl _ _⟩
      | write o k v =>
        refine ⟨g, ?_, Grown.refl _ _, Grown.refl _ _⟩
        simp only [State.act]
        cases s.owned o <;> exact hg
      | newArg m => exact ⟨g, hg, Grown.refl _ _, Grown.refl _ _⟩
      | setArg a k v => exact ⟨g, hg, Grown.refl _ _, Grown.refl _ _⟩
    obtain ⟨g2, k1, k2, k3⟩ := ih (h.next hok.1) hok.2 h1
    obtain ⟨⟨l1, e1⟩, ⟨l2, e2⟩, -, -⟩ := hs.ext hok.1
    refine ⟨g2, k1, h2.trans k2 ?_, h3.trans k3 ?_⟩
    · rw [e1]; simp
    · rw [e2]; simp

/-- The attributes of something after one action that is not a write to it. -/
theorem attrs_act {s : State} (h : Reached s) {a : Act} (hok : a.Ok s) {o : Owner} {b : Nat} (ho : s.owned o = some b)
    (hcall : ∀ i op arg, a = .call i op arg → ∀ g, s.graphs[i]? = some g → ¬ Live i g o) (hw : ∀ k v, a ≠ .write o k v) :
    attrsOf (s.act a).1 o = attrsOf s o := by
  have hs := SInv.of h
  have h' := hs.owned hok ho
  have key : (s.act a).1.mem.map b = s.mem.map b → attrsOf (s.act a).1 o = attrsOf s o := by
    intro e
    unfold attrsOf
    rw [h', ho]
    simp only [Option.map_some]
    rw [e]
  have ho' : ownedM s.mem s.roots o = some b := by rw [← State.owned_eq]; exact ho
  cases a with
  | newGraph => exact key (pushOwned hs.minv [] o b ho')
  | call i op arg =>
    obtain ⟨g, hi, -⟩ := hok
    have hf := (hs.call hi op arg).2.frame
    refine key ?_
    simp only [State.act, hi]
    exact hf.same o b ho' (hcall i op arg rfl g hi)
  | write o' k v =>
    have hne : o ≠ o' := fun e => hw k v (by rw [e])
    rw [(C61_write h o' k v).1 o, if_neg hne]
  | newArg m => exact key rfl
  | setArg a k v => exact key rfl

/-- **C62** No call of any graph ever changes the attributes of an edge that exists. -/
theorem C62_edge_attributes {s : State} (h : Reached s) {acts : List Act} (hok : OkActs s acts) {p : Nat} (hp : p < s.mem.edges.length)
    (hw : ∀ k v, Act.write (.edge p) k v ∉ acts) : attrsOf (s.run acts) (.edge p) = attrsOf s (.edge p) := by
  induction acts generalizing s with
  | nil => rfl
  | cons a acts ih =>
    have hs := SInv.of h
    have ho : s.owned (.edge p) = some (s.mem.edges[p]).attrs := by simp [State.owned, List.getElem?_eq_getElem hp]
    have h1 := attrs_act h hok.1 ho (fun _ _ _ _ _ _ hl => hl) fun k v e => hw k v (by rw [e]; exact List.mem_cons_self ..)
    rw [← h1]
    refine ih (h.next hok.1) hok.2 ?_ fun k v hm => hw k v (List.mem_cons_of_mem _ hm)
    obtain ⟨-, ⟨l, e⟩, -⟩ := hs.ext hok.1
    rw [e]; simp; omega

/-- **C62** An object that was removed from its graph is never changed by any call any more, and never comes back into a graph: a node
that is added again under the same name is another object. -/
theorem C62_detached {s : State} (h : Reached s) {acts : List Act} (hok : OkActs s acts) {o : Owner} (hd : Detached s o)
    (hw : ∀ k v, Act.write o k v ∉ acts) : Detached (s.run acts) o ∧ attrsOf (s.run acts) o = attrsOf s o := by
  induction acts generalizing s with
  | nil => exact ⟨hd, rfl⟩
  | cons a acts ih =>
    have hs := SInv.of h
    obtain ⟨⟨b, hb⟩, hng, hin⟩ := hd
    have hlive : ∀ i op arg, a = .call i op arg → ∀ g, s.graphs[i]? = some g → ¬ Live i g o := by
      intro i op arg _ g hg hl
      have := hin g (List.mem_of_getElem? hg)
      cases o with
      | graph j => exact hng j rfl
      | node p => exact this hl
      | edge p => exact hl
      | sub p => exact this hl
    have h1 := attrs_act h hok.1 hb hlive fun k v e => hw k v (by rw [e]; exact List.mem_cons_self ..)
    rw [← h1]
    refine ih (h.next hok.1) hok.2 ⟨⟨b, hs.owned hok.1 hb⟩, hng, fun g hg => ?_⟩ fun k v hm => hw k v (List.mem_cons_of_mem _ hm)
    have hok1 := hok.1
    cases a with
    | newGraph =>
      rcases List.mem_append.1 hg with hg | hg
      · exact hin g hg
      · rw [List.mem_singleton.1 hg]
        intro hc
        cases o with
        | graph _ => exact hc
        | node p => exact absurd hc (List.not_mem_nil)
        | edge p => exact absurd hc (List.not_mem_nil)
        | sub p => obtain ⟨k, hk⟩ := hc; cases hk
    | call i op arg =>
      obtain ⟨x, hi, -⟩ := hok1
      have hf := (hs.call hi op arg).2.frame
      obtain ⟨j, hj⟩ := List.getElem?_of_mem hg
      simp only [State.act, hi, get_set hi] at hj
      split at hj
      · cases hj
        intro hc
        rcases hf.inGraph hc with hc | hc
        · exact hin x (List.mem_of_getElem? hi) hc
        · rw [State.owned_eq, hc] at hb; cases hb
      · exact hin g (List.mem_of_getElem? hj)
    | write o' k v =>
      simp only [State.act] at hg
      cases ho : s.owned o' with
      | none => rw [ho] at hg; exact hin g hg
      | some a => rw [ho] at hg; exact hin g hg
    | newArg m => exact hin g hg
    | setArg a k v => exact hin g hg

/-! ### a concrete case -/

/-- Deciding what can happen. -/
def okB (s : State) : Act → Bool
  | .call i op arg => match s.graphs[i]? with
    | none => false
    | some g => (argOf op).isPerm ((arg.bind (s.args[·]?)).getD []) && (match op with
      | .removeSubGraph _ n o => o.isPerm (mkeys (g.relations.children n))
      | _ => true)
  | .newArg m => (mkeys m).Pairwise fun a b => slt a b = true
  | _ => true

def okAllB (s : State) : List Act → Bool
  | [] => true
  | a :: as => okB s a && okAllB (s.act a).1 as

theorem okB_ok {s : State} {a : Act} (h : okB s a = true) : a.Ok s := by
  cases a with
  | call i op arg =>
    simp only [okB] at h
    cases hg : s.graphs[i]? with
    | none => rw [hg] at h; cases h
    | some g =>
      rw [hg] at h
      simp only [Bool.and_eq_true, List.isPerm_iff] at h
      refine ⟨g, hg, h.1, fun p n o e => ?_⟩
      subst e
      exact List.isPerm_iff.1 h.2
  | newArg m =>
    simp only [okB, mkeys, decide_eq_true_eq, List.pairwise_map] at h
    exact h
  | newGraph => trivial
  | write o k v => trivial
  | setArg a k v => trivial

theorem okAllB_ok {s : State} {as : List Act} (h : okAllB s as = true) : OkActs s as := by
  induction as generalizing s with
  | nil => trivial
  | cons a as ih =>
    simp only [okAllB, Bool.and_eq_true] at h
    exact ⟨okB_ok h.1, ih h.2⟩

/-- Two graphs that get nodes from the same map, which is then changed; an edge, a subgraph, a second `AddNode` for the same node, and a
direct write. -/
def heapActs : List Act :=
  [.newGraph, .newGraph, .newArg [(b!"color", b!"red")],
    .call 0 (.setName (b!"G")) none,
    .call 0 (.addNode (b!"G") (b!"a") [(b!"color", b!"red")]) (some 0),
    .call 1 (.addNode (b!"H") (b!"a") [(b!"color", b!"red")]) (some 0),
    .setArg 0 (b!"color") (b!"blue"),
    .call 0 (.addNode (b!"G") (b!"b") [(b!"color", b!"blue")]) (some 0),
    .call 0 (.addEdge (b!"a") (b!"b") true [(b!"color", b!"blue")]) (some 0),
    .call 0 (.addSubGraph (b!"G") (b!"cluster1") []) none,
    .call 0 (.addNode (b!"cluster1") (b!"a") [(b!"color", b!"blue")]) (some 0),
    .write (.node 0) (b!"label") (b!"x")]

/-- ... and then the node is removed and added again. -/
def heapActs2 : List Act :=
  [.call 0 (.removeNode (b!"G") (b!"a")) none, .call 0 (.addNode (b!"G") (b!"a") []) none]

theorem heapActs_ok : OkActs start (heapActs ++ heapActs2) := okAllB_ok (by decide +kernel)

theorem heapActs_reached : Reached (start.run heapActs) := ⟨heapActs, (okActs_append.1 heapActs_ok).1, rfl⟩

/-- The hypotheses of the theorems of this file are met: by pointer, the first graph has the nodes at 0 and 2 (the object at 3 that the
second `AddNode` for `a` made is in no graph); its node `a` has all three values, the one of the second graph only its own. After the
removal the object at 0 is in no graph and keeps its attributes, and the new `a` is another object. -/
theorem heapActs_example :
    (∀ i ∈ [0, 1], ∃ g, (start.run heapActs).graphs[i]? = some g) ∧
    ((start.run heapActs).graphs.map (·.list)) = [[0, 2], [1]] ∧
    attrsOf (start.run heapActs) (.node 0) = some [(b!"color", b!"blue"), (b!"label", b!"x")] ∧
    attrsOf (start.run heapActs) (.node 1) = some [(b!"color", b!"red")] ∧
    nodePtr (start.run heapActs) 0 (b!"a") = some 0 ∧ subPtr (start.run heapActs) 0 (b!"cluster1") = some 0 ∧
    ((start.run (heapActs ++ heapActs2)).graphs.map (·.list)) = [[2, 4], [1]] ∧
    attrsOf (start.run (heapActs ++ heapActs2)) (.node 0) = some [(b!"color", b!"blue"), (b!"label", b!"x")] := by
  refine ⟨?_, by decide +kernel, by decide +kernel, by decide +kernel, by decide +kernel, by decide +kernel, by decide +kernel, by decide +kernel⟩
  intro i hi
  have : (start.run heapActs).graphs.length = 2 := by decide +kernel
  have h2 : i < 2 := by
    rcases List.mem_cons.1 hi with rfl | hi
    · omega
    · rw [List.mem_singleton.1 hi]; omega
  exact ⟨_, List.getElem?_eq_getElem (by rw [this]; exact h2)⟩

/-- The object at 3 is detached, so `C62_detached` applies to it. -/
theorem heapActs_detached : Detached (start.run heapActs) (.node 3) := by
  refine ⟨Option.isSome_iff_exists.1 (by decide +kernel), (fun i e => by cases e), fun g hg => ?_⟩
  have hm : g.list ∈ (start.run heapActs).graphs.map (·.list) := List.mem_map.2 ⟨g, hg, rfl⟩
  rw [heapActs_example.2.1] at hm
  intro hc
  have hc : 3 ∈ g.list := hc
  rcases List.mem_cons.1 hm with e | hm
  · rw [e] at hc; revert hc; decide
  · rw [List.mem_singleton.1 hm] at hc; revert hc; decide

end Gographviz.Props
