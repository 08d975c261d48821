import Verif.Proofs.Slices
import Verif.Props.GraphProps
/-!
C58, C59: the slices of the graph with their backing arrays.
-/
namespace Gographviz.Props
open Gographviz Spec Slices

theorem run_append (grow : Growth) (g : SGraph) (a b : List Op) : g.run grow (a ++ b) = (g.run grow a).run grow b := by
  induction a generalizing g with
  | nil => rfl
  | cons op a ih => exact ih _

theorem grep_run (grow : Growth) (ops : List Op) : GRep (newSGraph.run grow ops) (newGraph.run ops) :=
  (grep_new.run grow ops).1

/-- **C58** For every growth policy of `append` and every history of calls: the slices of nodes and edges, and the slices of
the two edge indexes, show exactly the lists of `Model/Graph.lean`, and the calls return the same errors. -/
theorem C58_lists (grow : Growth) (ops : List Op) :
    SameContents (newSGraph.run grow ops) (newGraph.run ops) ∧
    newSGraph.runErrs grow ops = newGraph.runErrs ops :=
  ⟨(grep_run grow ops).same, (grep_new.run grow ops).2.1⟩

/-- **C58** A slice of edges that the caller took from the graph at any time shows the same edges after any further calls
(removals included). -/
theorem C58_edge_slices_stay (grow : Growth) (ops later : List Op) (t : Slice)
    (ht : EdgeSlice (newSGraph.run grow ops) t) :
    view (newSGraph.run grow (ops ++ later)).emem t = view (newSGraph.run grow ops).emem t := by
  rw [run_append]
  have h := grep_run grow ops
  have hs : ∃ x, own (newSGraph.run grow ops).edges x = some t := by
    rcases ht with ht | ⟨a, b, ht⟩ | ⟨a, b, ht⟩
    · exact ⟨.main, by rw [ht]; rfl⟩
    · exact ⟨.src a b, ht⟩
    · exact ⟨.dst a b, ht⟩
  obtain ⟨x, hx⟩ := hs
  exact (h.run grow later).2.2 t (h.edges.saved hx)

/-- **C58** `Edges.Sorted` returns the edges in the order that the sort gives them, in a slice of its own: no slice of the graph
changes (in particular not the insertion order in `g.Edges.Edges`). -/
theorem C58_sorted (grow : Growth) (ops : List Op) (sortP : List (Option Edge) → List (Option Edge))
    (hp : ∀ l, (sortP l).Perm l) :
    let sg := newSGraph.run grow ops
    let r := sg.edges.sorted sortP sg.emem
    view r.1 r.2 = sortP ((newGraph.run ops).edges.edges.map some) ∧
    ∀ t, EdgeSlice sg t → view r.1 t = view sg.emem t := by
  intro sg r
  have h := grep_run grow ops
  have hr : Rep sg.emem sg.edges.edges (newGraph.run ops).edges.edges := h.edges.rep .main
  have hlt : ∀ t, EdgeSlice sg t → t.arr < sg.emem.length := by
    intro t ht
    rcases ht with ht | ⟨a, b, ht⟩ | ⟨a, b, ht⟩
    · rw [ht]; exact hr.lt
    · exact h.edges.lt (x := .src a b) ht
    · exact h.edges.lt (x := .dst a b) ht
  have hview : ∀ x, view (sg.emem ++ [x]) sg.edges.edges = (newGraph.run ops).edges.edges.map some := fun x => by
    rw [view_append _ _ hr.lt, hr.view]
  have hlen : sg.edges.edges.len = (newGraph.run ops).edges.edges.length := hr.len
  constructor
  · show view (sg.edges.sorted sortP sg.emem).1 (sg.edges.sorted sortP sg.emem).2 = _
    have hpl := (hp ((newGraph.run ops).edges.edges.map some)).length_eq
    simp only [SEdges.sorted, hview, hlen]
    generalize (newGraph.run ops).edges.edges = l at hpl ⊢
    unfold view
    simp only [List.getElem?_modify, List.getElem?_concat_length, if_true, Option.map_some, Option.map_eq_map,
      Option.getD_some, overwrite, List.take_zero, List.nil_append, List.length_map, Nat.zero_add]
    rw [List.length_map] at hpl
    have h0 : List.take l.length (l.map some) = l.map some := List.take_of_length_le (by simp)
    have h1 : List.drop l.length (List.replicate l.length (none : Option Edge)) = [] := List.drop_of_length_le (by simp)
    have h2 : List.drop l.length (l.map some) = [] := List.drop_of_length_le (by simp)
    rw [h1, List.append_nil, h0, h2, List.append_nil]
    exact List.take_of_length_le (by omega)
  · intro t ht
    have := hlt t ht
    have hne : sg.emem.length ≠ t.arr := by omega
    show view (sg.edges.sorted sortP sg.emem).1 t = _
    simp [SEdges.sorted, view, List.getElem?_modify, hne, List.getElem?_append_left this]

/-- The calls that remove nothing leave the saved cells alone. -/
theorem nsaved_run (grow : Growth) (later : List Op) (hl : ∀ op ∈ later, ¬ IsRemoval op) {sg : SGraph} {g : Graph}
    (h : GRep sg g) (t : Slice) (ht : NSaved sg.nodes t) :
    view (sg.run grow later).nodes.mem t = view sg.nodes.mem t := by
  induction later generalizing sg g with
  | nil => rfl
  | cons op ops ih =>
    have hst : NSaved (sg.step grow op).1.nodes t ∧ view (sg.step grow op).1.nodes.mem t = view sg.nodes.mem t := by
      have hnr := hl op List.mem_cons_self
      cases op with
      | removeNode p n => exact (hnr trivial).elim
      | removeSubGraph p n o => exact (hnr trivial).elim
      | addNode p n as =>
        show NSaved (sg.addNode grow p n as).1.nodes t ∧ view (sg.addNode grow p n as).1.nodes.mem t = _
        unfold SGraph.addNode
        cases newAttrs as with
        | error e => exact ⟨ht, rfl⟩
        | ok m => exact (h.nodes.add grow ⟨n, m⟩).2 t ht
      | addPortEdge s sp d dp dir as =>
        show NSaved (sg.addPortEdge grow s sp d dp dir as).1.nodes t ∧
          view (sg.addPortEdge grow s sp d dp dir as).1.nodes.mem t = _
        unfold SGraph.addPortEdge
        cases newAttrs as <;> exact ⟨ht, rfl⟩
      | addEdge s d dir as =>
        show NSaved (sg.addPortEdge grow s [] d [] dir as).1.nodes t ∧
          view (sg.addPortEdge grow s [] d [] dir as).1.nodes.mem t = _
        unfold SGraph.addPortEdge
        cases newAttrs as <;> exact ⟨ht, rfl⟩
      | setStrict b => exact ⟨ht, rfl⟩
      | setDir b => exact ⟨ht, rfl⟩
      | setName b => exact ⟨ht, rfl⟩
      | addAttr p k v => exact ⟨ht, rfl⟩
      | addSubGraph p n as => exact ⟨ht, rfl⟩
    exact (ih (fun o ho => hl o (List.mem_cons_of_mem _ ho)) (h.step grow op).rep hst.1).trans hst.2

/-- **C59** (the part that holds) A slice `g.Nodes.Nodes` that the caller took at any time shows the same nodes after any
further calls, as long as none of them removes something. -/
theorem C59_node_slice_stays_partial (grow : Growth) (ops later : List Op) (hl : ∀ op ∈ later, ¬ IsRemoval op) :
    view (newSGraph.run grow (ops ++ later)).nodes.mem (newSGraph.run grow ops).nodes.slice =
      view (newSGraph.run grow ops).nodes.mem (newSGraph.run grow ops).nodes.slice := by
  rw [run_append]
  exact nsaved_run grow later hl (grep_run grow ops) _ ⟨(grep_run grow ops).nodes.rep.lt, fun _ => Nat.le_refl _⟩

theorem removeNode_nodes (grow : Growth) (sg : SGraph) (p n : Str) :
    (sg.removeNode grow p n).1.nodes = (sg.nodes.remove grow n).1 := by
  unfold SGraph.removeNode SNodes.remove
  dsimp only
  cases List.findIdx? _ _ <;> rfl

/-- The slice of nodes shows `cur`, whose nodes have different names. -/
structure NState (ns : SNodes) (H : List Node) (cur : List Nat) : Prop where
  heap : ns.heap = H
  rep : Rep ns.mem ns.slice cur
  nodup : cur.Nodup
  valid : ∀ p ∈ cur, ∃ n, H[p]? = some n
  inj : ∀ p ∈ cur, ∀ q ∈ cur, ∀ n m, H[p]? = some n → H[q]? = some m → n.name = m.name → p = q

theorem nstate_run (grow : Growth) (ops : List Op) :
    NState (newSGraph.run grow ops).nodes (newGraph.run ops).nodes.heap (newGraph.run ops).nodes.list := by
  have h := grep_run grow ops
  have hinv : NodesInv (newGraph.run ops).nodes := by
    have : ∀ (g : Graph), GInv g → GInv (g.run ops) := by
      induction ops with
      | nil => exact fun g h => h
      | cons op ops ih => exact fun g h => ih (grep_run grow ops) _ (h.step op)
    exact (this _ GInv.new).nodes
  refine ⟨h.nodes.heap, h.nodes.rep, hinv.nodup, hinv.valid, fun p hp q hq n m hn hm hnm => ?_⟩
  have e1 := (hinv.look n.name p).2 ⟨hp, n, hn, rfl⟩
  have e2 := (hinv.look n.name q).2 ⟨hq, m, hm, hnm.symm⟩
  rw [e1] at e2
  exact Option.some.inj e2

theorem NState.sub {ns ns' : SNodes} {H : List Node} {cur cur' : List Nat} (h : NState ns H cur) (hs : cur'.Sublist cur)
    (hh : ns'.heap = H) (hr : Rep ns'.mem ns'.slice cur') : NState ns' H cur' :=
  ⟨hh, hr, h.nodup.sublist hs, fun p hp => h.valid p (hs.subset hp),
    fun p hp q hq => h.inj p (hs.subset hp) q (hs.subset hq)⟩

theorem NState.findIdx {ns : SNodes} {H : List Node} {A B : List Nat} {p : Nat} {nd : Node}
    (h : NState ns H (A ++ p :: B)) (hp : H[p]? = some nd) :
    (view ns.mem ns.slice).findIdx? (fun p => (p.bind (ns.heap[·]?)).map Node.name = some nd.name) = some A.length := by
  rw [h.rep.view, List.findIdx?_map, List.findIdx?_eq_some_iff_getElem]
  refine ⟨by simp, by simp [h.heap, hp], fun j hj hc => ?_⟩
  rw [List.getElem_append_left hj] at hc
  have hm : A[j] ∈ A ++ p :: B := List.mem_append_left _ (List.getElem_mem hj)
  obtain ⟨m, hm'⟩ := h.valid _ hm
  simp only [Function.comp_apply, Option.bind_some, h.heap, hm', Option.map_some, Option.some.injEq, decide_eq_true_eq] at hc
  have := h.inj _ hm p (by simp) m nd hm' hp hc
  have hn := h.nodup
  rw [List.nodup_append] at hn
  exact hn.2.2 _ (List.getElem_mem hj) p (by simp) this

/-- Removing a node: the effect on a slice saved from the same array. -/
theorem NState.remove (grow : Growth) {ns : SNodes} {H : List Node} {A B J : List Nat} {p z : Nat} {nd : Node}
    (h : NState ns H (A ++ p :: B)) (hp : H[p]? = some nd) (hz : (A ++ p :: B).getLast? = some z) {t : Slice}
    (hta : t.arr = ns.slice.arr) (htl : ns.slice.len ≤ t.len) (hv : view ns.mem t = (A ++ p :: B ++ J).map some) :
    NState (ns.remove grow nd.name).1 H (A ++ B) ∧ t.arr = (ns.remove grow nd.name).1.slice.arr ∧
    (ns.remove grow nd.name).1.slice.len ≤ t.len ∧
    view (ns.remove grow nd.name).1.mem t = (A ++ B ++ z :: J).map some := by
  have hf := h.findIdx hp
  unfold SNodes.remove
  dsimp only
  rw [hf]
  dsimp only
  have hlt : A.length < (A ++ p :: B).length := by simp
  have herase : (A ++ p :: B).eraseIdx A.length = A ++ B := by
    rw [List.eraseIdx_append_of_length_le (Nat.le_refl _)]; simp
  obtain ⟨h1, h2, h3, h4, h5⟩ := shift grow h.rep hlt
  rw [herase] at h1 h5
  have h5' := h5 t hta htl
  refine ⟨h.sub ?_ h.heap h1, ?_, ?_, ?_⟩
  · exact List.Sublist.append_left (List.sublist_cons_self _ _) _
  · rw [h2]; exact hta
  · rw [h2]; have := h.rep.len; simp only; omega
  · rw [h5', hv, List.map_append, ← List.map_drop]
    congr 1
    rw [List.drop_append_of_le_length (by simp), List.getLast?_eq_some_iff.1 hz |>.choose_spec]
    generalize (List.getLast?_eq_some_iff.1 hz).choose = ys
    simp

theorem NState.remove_absent (grow : Growth) {ns : SNodes} {H : List Node} {cur : List Nat} (h : NState ns H cur) {name : Str}
    (hn : ∀ q ∈ cur, ∀ m, H[q]? = some m → m.name ≠ name) : (ns.remove grow name).1 = ns := by
  unfold SNodes.remove
  dsimp only
  have : (view ns.mem ns.slice).findIdx? (fun p => (p.bind (ns.heap[·]?)).map Node.name = some name) = none := by
    rw [List.findIdx?_eq_none_iff]
    intro x hx
    rw [h.rep.view, List.mem_map] at hx
    obtain ⟨q, hq, rfl⟩ := hx
    obtain ⟨m, hm⟩ := h.valid q hq
    simp [h.heap, hm, hn q hq m hm]
  rw [this]

theorem nodeNames_eq {sg : SGraph} {H : List Node} {cur : List Nat} (h : NState sg.nodes H cur) :
    nodeNames sg = cur.filterMap (fun p => (H[p]?).map Node.name) := by
  unfold nodeNames
  rw [h.rep.view, h.heap, List.filterMap_map]
  rfl

theorem names_getElem? {H : List Node} : ∀ {cur : List Nat}, (∀ p ∈ cur, ∃ n, H[p]? = some n) → ∀ i : Nat,
    (cur.filterMap (fun p => (H[p]?).map Node.name))[i]? = (cur[i]?).bind (fun p => (H[p]?).map Node.name)
  | [], _, i => by simp
  | p :: cur, h, i => by
    obtain ⟨n, hn⟩ := h p (by simp)
    rw [List.filterMap_cons]
    simp only [hn, Option.map_some]
    cases i with
    | zero => simp [hn]
    | succ i => simpa using names_getElem? (fun q hq => h q (by simp [hq])) i

/-- **C59** (what a removal does) `RemoveNode` of the node at position `i` of `g.Nodes.Nodes` shifts the later elements of a slice
saved just before, in place; its length stays, and its last element appears twice. -/
theorem C59_removal_shifts (grow : Growth) (ops : List Op) (parent name : Str) (i : Nat)
    (hi : (nodeNames (newSGraph.run grow ops))[i]? = some name) :
    let sg := newSGraph.run grow ops
    view (sg.removeNode grow parent name).1.nodes.mem sg.nodes.slice =
      (view sg.nodes.mem sg.nodes.slice).eraseIdx i ++
        [(view sg.nodes.mem sg.nodes.slice).getLast?.getD none] := by
  intro sg
  have h := nstate_run grow ops
  rw [nodeNames_eq h, names_getElem? h.valid] at hi
  generalize (newGraph.run ops).nodes.list = cur at h hi
  generalize (newGraph.run ops).nodes.heap = H at h hi
  match hc : cur[i]? with
  | none => rw [hc] at hi; simp at hi
  | some p =>
    rw [hc] at hi
    simp only [Option.bind_some, Option.map_eq_some_iff] at hi
    obtain ⟨nd, hp, rfl⟩ := hi
    obtain ⟨hlt, hge⟩ := List.getElem?_eq_some_iff.1 hc
    have hcur : cur = cur.take i ++ p :: cur.drop (i + 1) := by
      rw [← hge, ← List.drop_eq_getElem_cons hlt, List.take_append_drop]
    have hne : cur ≠ [] := by intro e; rw [e] at hlt; simp at hlt
    have hlast : cur.getLast? = some (cur.getLast hne) := List.getLast?_eq_some_getLast hne
    have h' := h
    rw [hcur] at h'
    obtain ⟨_, _, _, hv⟩ := h'.remove grow (J := []) hp (by rw [← hcur]; exact hlast) rfl (Nat.le_refl _)
      (by rw [← hcur, List.append_nil]; exact h.rep.view)
    rw [removeNode_nodes, hv]
    show _ = (view (newSGraph.run grow ops).nodes.mem (newSGraph.run grow ops).nodes.slice).eraseIdx i ++
      [(view (newSGraph.run grow ops).nodes.mem (newSGraph.run grow ops).nodes.slice).getLast?.getD none]
    rw [h.rep.view, List.getLast?_map, hlast, List.eraseIdx_eq_take_drop_succ, ← List.map_take, ← List.map_drop]
    simp

/-- When every remaining read sees an element that is gone, nothing changes. -/
theorem loop_stable (grow : Growth) (parent : Str) {t : Slice} {H : List Node} {cur : List Nat} {z r : Nat} {nz : Node}
    (hz : H[z]? = some nz) (hzn : ∀ q ∈ cur, ∀ m, H[q]? = some m → m.name ≠ nz.name) :
    ∀ (is : List Nat) (sg : SGraph), NState sg.nodes H cur → view sg.nodes.mem t = (cur ++ List.replicate r z).map some →
    (∀ i ∈ is, cur.length ≤ i ∧ i < cur.length + r) →
    (removeWhileRanging grow parent t is sg).nodes = sg.nodes := by
  intro is
  induction is with
  | nil => intro sg _ _ _; rfl
  | cons i is ih =>
    intro sg h hv hi
    obtain ⟨hi1, hi2⟩ := hi i List.mem_cons_self
    have hc : cell sg.nodes.mem t i = some z := by
      rw [cell_of_view hv, List.getElem?_append_right hi1, List.getElem?_replicate]
      simp; omega
    have hrm : (sg.removeNode grow parent nz.name).1.nodes = sg.nodes := by
      rw [removeNode_nodes]; exact h.remove_absent grow hzn
    unfold removeWhileRanging
    rw [hc]
    simp only [Option.bind_some, h.heap, hz]
    rw [ih _ (by rw [hrm]; exact h) (by rw [hrm]; exact hv) (fun j hj => hi j (List.mem_cons_of_mem _ hj)), hrm]

theorem everySecond_dropLast_cons2 {α : Type} (x y : α) {l : List α} (h : l ≠ []) :
    everySecond (x :: y :: l).dropLast = y :: everySecond l.dropLast := by
  rw [List.dropLast_cons_of_ne_nil (by simp), List.dropLast_cons_of_ne_nil h]
  rfl

/-- The loop from iteration `O.length` on: `O` are the survivors so far, `Y` is not yet looked at. -/
theorem loop_main (grow : Growth) (parent : Str) {t : Slice} {H : List Node} {z : Nat} :
    ∀ (Y O : List Nat) (sg : SGraph), NState sg.nodes H (O ++ Y) → t.arr = sg.nodes.slice.arr → sg.nodes.slice.len ≤ t.len →
    view sg.nodes.mem t = (O ++ Y ++ List.replicate O.length z).map some → (O ++ Y).getLast? = some z →
    NState (removeWhileRanging grow parent t (List.range' O.length (O.length + Y.length)) sg).nodes H
      (match Y with | [] => O.dropLast | _ => O ++ everySecond Y.dropLast)
  | [], O, sg, h, hta, htl, hv, hz => by
    rw [List.append_nil] at h hv hz
    obtain ⟨O', rfl⟩ := List.getLast?_eq_some_iff.1 hz
    obtain ⟨nz, hnz⟩ := h.valid z (by simp)
    simp only [List.length_append, List.length_singleton, List.length_nil, Nat.add_zero, List.dropLast_concat]
    rw [List.range'_succ]
    have hc : cell sg.nodes.mem t (O'.length + 1) = some z := by
      rw [cell_of_view hv, List.getElem?_append_right (by simp)]
      simp
    unfold removeWhileRanging
    rw [hc]
    simp only [Option.bind_some, h.heap, hnz]
    obtain ⟨h1, h2, h3, h4⟩ := h.remove grow (A := O') (B := []) hnz hz hta htl hv
    rw [← removeNode_nodes grow sg parent] at h1 h2 h3 h4
    rw [List.append_nil] at h1 h4
    have hst := loop_stable grow parent (t := t) (r := O'.length + 2) hnz (cur := O') (by
        intro q hq m hm he
        have := h.inj q (by simp [hq]) z (by simp) m nz hm hnz he
        subst this
        have hn := h.nodup
        rw [List.nodup_append] at hn
        exact hn.2.2 q hq q (by simp) rfl)
      (List.range' (O'.length + 1 + 1) O'.length) _ h1
      (by rw [h4]; simp [List.replicate_succ]) (by
        intro i hi
        rw [List.mem_range'_1] at hi
        omega)
    rw [hst]
    exact h1
  | [y], O, sg, h, hta, htl, hv, hz => by
    have hyz : z = y := by simpa using hz.symm
    subst hyz
    obtain ⟨nz, hnz⟩ := h.valid z (by simp)
    simp only [List.length_singleton, List.dropLast_singleton, everySecond, List.append_nil]
    rw [List.range'_succ]
    have hc : cell sg.nodes.mem t O.length = some z := by
      rw [cell_of_view hv, List.append_assoc, List.getElem?_append_right (Nat.le_refl _)]
      simp
    unfold removeWhileRanging
    rw [hc]
    simp only [Option.bind_some, h.heap, hnz]
    obtain ⟨h1, h2, h3, h4⟩ := h.remove grow (A := O) (B := []) hnz hz hta htl hv
    rw [← removeNode_nodes grow sg parent] at h1 h2 h3 h4
    rw [List.append_nil] at h1 h4
    have hst := loop_stable grow parent (t := t) (r := O.length + 1) hnz (cur := O) (by
        intro q hq m hm he
        have := h.inj q (by simp [hq]) z (by simp) m nz hm hnz he
        subst this
        have hn := h.nodup
        rw [List.nodup_append] at hn
        exact hn.2.2 q hq q (by simp) rfl)
      (List.range' (O.length + 1) O.length) _ h1
      (by rw [h4]; simp [List.replicate_succ]) (by
        intro i hi
        rw [List.mem_range'_1] at hi
        omega)
    rw [hst]
    exact h1
  | y :: y' :: Y, O, sg, h, hta, htl, hv, hz => by
    obtain ⟨ny, hny⟩ := h.valid y (by simp)
    have hlen : O.length + (y :: y' :: Y).length = (O.length + (Y.length + 1)) + 1 := by simp; omega
    rw [hlen, List.range'_succ]
    have hc : cell sg.nodes.mem t O.length = some y := by
      rw [cell_of_view hv, List.append_assoc, List.getElem?_append_right (Nat.le_refl _)]
      simp
    unfold removeWhileRanging
    rw [hc]
    simp only [Option.bind_some, h.heap, hny]
    obtain ⟨h1, h2, h3, h4⟩ := h.remove grow (A := O) (B := y' :: Y) hny hz hta htl hv
    rw [← removeNode_nodes grow sg parent] at h1 h2 h3 h4
    have hO : O ++ y' :: Y = (O ++ [y']) ++ Y := by simp
    have ih := loop_main grow parent (t := t) (z := z) Y (O ++ [y']) (sg.removeNode grow parent ny.name).1
      (by rw [← hO]; exact h1) h2 h3 (by rw [h4, hO]; simp [List.replicate_succ])
      (by
        rw [← hO]
        have : (O ++ y :: y' :: Y).getLast? = (O ++ y' :: Y).getLast? := by
          rw [List.getLast?_append, List.getLast?_append, List.getLast?_cons_cons]
        rw [← this]; exact hz)
    have hl2 : (O ++ [y']).length + Y.length = O.length + (Y.length + 1) := by simp; omega
    rw [hl2, List.length_append, List.length_singleton] at ih
    cases hY : Y with
    | nil =>
      subst hY
      simpa [everySecond] using ih
    | cons w W =>
      rw [← hY]
      have he : everySecond (y :: y' :: Y).dropLast = y' :: everySecond Y.dropLast :=
        everySecond_dropLast_cons2 y y' (by rw [hY]; simp)
      rw [he]
      rw [hY] at ih ⊢
      simpa using ih

theorem names_everySecond {H : List Node} : ∀ {cur : List Nat}, (∀ p ∈ cur, ∃ n, H[p]? = some n) →
    (everySecond cur.dropLast).filterMap (fun p => (H[p]?).map Node.name) =
      everySecond (cur.filterMap (fun p => (H[p]?).map Node.name)).dropLast
  | [], _ => rfl
  | [p], h => by
    obtain ⟨n, hn⟩ := h p (by simp)
    simp [everySecond, hn]
  | [p, q], h => by
    obtain ⟨n, hn⟩ := h p (by simp)
    obtain ⟨m, hm⟩ := h q (by simp)
    simp [everySecond, hn, hm]
  | p :: q :: r :: l, h => by
    obtain ⟨n, hn⟩ := h p (by simp)
    obtain ⟨m, hm⟩ := h q (by simp)
    obtain ⟨k, hk⟩ := h r (by simp)
    have ih := names_everySecond (cur := r :: l) (fun x hx => h x (List.mem_cons_of_mem _ (List.mem_cons_of_mem _ hx)))
    rw [everySecond_dropLast_cons2 _ _ (by simp)]
    rw [List.filterMap_cons, List.filterMap_cons, List.filterMap_cons]
    simp only [hn, hm, Option.map_some]
    rw [everySecond_dropLast_cons2 _ _ (by simp [hk]), ih]

/-- **C59** (what ranging over the nodes while removing does) After any history, the loop
`for _, n := range g.Nodes.Nodes { g.RemoveNode(parent, n.Name) }` does not empty the graph: the nodes at the odd positions but the
last survive, in their order. -/
theorem C59_remove_while_ranging (grow : Growth) (ops : List Op) (parent : Str) :
    let sg := newSGraph.run grow ops
    nodeNames (removeWhileRanging grow parent sg.nodes.slice (List.range sg.nodes.slice.len) sg) =
      everySecond (nodeNames sg).dropLast := by
  intro sg
  have h := nstate_run grow ops
  have hlen := h.rep.len
  generalize (newGraph.run ops).nodes.list = cur at h hlen
  generalize (newGraph.run ops).nodes.heap = H at h
  change sg.nodes.slice.len = cur.length at hlen
  rw [hlen, List.range_eq_range']
  cases hc : cur with
  | nil =>
    subst hc
    rw [nodeNames_eq h]
    simp only [List.length_nil, List.range'_zero, removeWhileRanging]
    rw [nodeNames_eq h]
    rfl
  | cons x xs =>
    have hne : cur ≠ [] := by rw [hc]; simp
    have := loop_main grow parent (t := sg.nodes.slice) (z := cur.getLast hne) cur [] sg h rfl (Nat.le_refl _)
      (by simpa using h.rep.view) (by rw [List.nil_append]; exact List.getLast?_eq_some_getLast hne)
    rw [← hc]
    simp only [List.length_nil, Nat.zero_add, List.nil_append] at this
    rw [nodeNames_eq h, ← names_everySecond h.valid]
    refine nodeNames_eq ?_
    rw [hc] at this ⊢
    exact this

/-- With three nodes, one survives; whatever `append` does. -/
theorem C59_loop_leaves_nodes (grow : Growth) (ops : List Op) (parent : Str)
    (h : 3 ≤ (nodeNames (newSGraph.run grow ops)).length) :
    nodeNames (removeWhileRanging grow parent (newSGraph.run grow ops).nodes.slice
      (List.range (newSGraph.run grow ops).nodes.slice.len) (newSGraph.run grow ops)) ≠ [] := by
  have := C59_remove_while_ranging grow ops parent
  dsimp only at this
  rw [this]
  match hn : nodeNames (newSGraph.run grow ops), h with
  | a :: b :: c :: l, _ =>
    rw [everySecond_dropLast_cons2 _ _ (by simp)]
    simp
  | [], h | [_], h | [_, _], h => simp at h

/-- A history with four nodes, three edges and a removal. -/
def sliceOps : List Op :=
  [.addNode (b!"G") (b!"a") [], .addNode (b!"G") (b!"b") [(b!"color", b!"red")], .addNode (b!"G") (b!"c") [],
   .addNode (b!"G") (b!"d") [], .addNode (b!"G") (b!"e") [], .addEdge (b!"a") (b!"b") true [],
   .addEdge (b!"a") (b!"b") true [], .addEdge (b!"b") (b!"c") true [], .removeNode (b!"G") (b!"c")]

/-- Doubling, as Go does for small slices. -/
def doubling : Growth := fun _ n => n

/-- The hypotheses are met, the removal changes a saved slice, and the loop leaves a node. -/
theorem example_slices :
    nodeNames (newSGraph.run doubling sliceOps) = [b!"a", b!"b", b!"d", b!"e"] ∧
    nodeNames (removeWhileRanging doubling (b!"G") (newSGraph.run doubling sliceOps).nodes.slice
      (List.range (newSGraph.run doubling sliceOps).nodes.slice.len) (newSGraph.run doubling sliceOps)) = [b!"b"] ∧
    view (newSGraph.run doubling sliceOps).nodes.mem (newSGraph.run doubling (sliceOps.take 5)).nodes.slice =
      [some 0, some 1, some 3, some 4, some 4] ∧
    view (newSGraph.run doubling (sliceOps.take 5)).nodes.mem (newSGraph.run doubling (sliceOps.take 5)).nodes.slice =
      [some 0, some 1, some 2, some 3, some 4] ∧
    EdgeSlice (newSGraph.run doubling (sliceOps.take 8)) (newSGraph.run doubling (sliceOps.take 8)).edges.edges ∧
    (view (newSGraph.run doubling sliceOps).emem (newSGraph.run doubling (sliceOps.take 8)).edges.edges).length = 3 ∧
    (view (newSGraph.run doubling sliceOps).emem (newSGraph.run doubling sliceOps).edges.edges).length = 2 := by
  refine ⟨by decide +kernel, by decide +kernel, by decide +kernel, by decide +kernel, Or.inl rfl, by decide +kernel,
    by decide +kernel⟩

end Gographviz.Props
