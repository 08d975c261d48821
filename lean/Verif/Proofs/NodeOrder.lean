import Verif.Proofs.Replay
import Verif.Spec.Document
/-!
The order in which calls put nodes into the list of nodes.
-/
namespace Gographviz

open Spec Spec.Document

theorem filterMap_congr' {α β : Type} {f g : α → Option β} {l : List α} (h : ∀ a ∈ l, f a = g a) : l.filterMap f = l.filterMap g := by
  induction l with
  | nil => rfl
  | cons a l ih =>
    rw [List.filterMap_cons, List.filterMap_cons, h a (List.mem_cons_self ..), ih fun b hb => h b (List.mem_cons_of_mem _ hb)]

theorem NodesInv.names_map {ns : Nodes} (h : NodesInv ns) : ns.list.map (fun p => (ns.deref p).map Node.name) = ns.names.map some := by
  have hv := h.valid
  unfold Nodes.names
  generalize ns.list = l at hv
  induction l with
  | nil => rfl
  | cons p l ih =>
    obtain ⟨n, hn⟩ := hv p (List.mem_cons_self ..)
    have hs : (ns.deref p).map Node.name = some n.name := by rw [hn]; rfl
    simp only [List.map_cons, List.filterMap_cons, hs, ih fun q hq => hv q (List.mem_cons_of_mem _ hq)]

theorem NodesInv.mem_names {ns : Nodes} (h : NodesInv ns) (n : Str) : n ∈ ns.names ↔ ∃ p, mget ns.lookup n = some p := by
  unfold Nodes.names
  rw [List.mem_filterMap]
  constructor
  · rintro ⟨p, hp, hn⟩
    cases hd : ns.deref p with
    | none => rw [hd] at hn; cases hn
    | some nd =>
      rw [hd] at hn
      simp only [Option.map_some, Option.some.injEq] at hn
      exact ⟨p, (h.look n p).2 ⟨hp, nd, hd, hn⟩⟩
  · rintro ⟨p, hp⟩
    obtain ⟨hl, nd, hd, hn⟩ := (h.look n p).1 hp
    exact ⟨p, hl, by rw [hd, ← hn]; rfl⟩

theorem NodesInv.names_add {ns : Nodes} (h : NodesInv ns) (node : Node) : (ns.add node).names = addFirst ns.names node.name := by
  unfold addFirst Nodes.add
  cases hp : mget ns.lookup node.name with
  | some p =>
    rw [if_pos ((h.mem_names _).2 ⟨p, hp⟩)]
    dsimp only
    unfold Nodes.names
    rw [show (ns.updateAttrs p fun as => attrsExtend as node.attrs).list = ns.list from rfl]
    congr 1
    funext q
    simp only [Nodes.deref, Nodes.updateAttrs, List.getElem?_modify]
    cases ns.heap[q]? with
    | none => rfl
    | some nd => by_cases e : p = q <;> simp [e]
  | none =>
    rw [if_neg (by
      rw [h.mem_names]
      rintro ⟨p, h'⟩
      rw [hp] at h'; cases h')]
    dsimp only
    unfold Nodes.names
    rw [List.filterMap_append]
    congr 1
    · apply filterMap_congr'
      intro q hq
      simp only [Nodes.deref]
      rw [List.getElem?_append_left (h.list_lt hq)]
    · simp [Nodes.deref]

/-- The nodes that the calls name, in order. -/
def namedNodes : List Call → List Str
  | [] => []
  | .addNode _ n _ :: xs => n :: namedNodes xs
  | _ :: xs => namedNodes xs

theorem namedNodes_append (xs ys : List Call) : namedNodes (xs ++ ys) = namedNodes xs ++ namedNodes ys := by
  induction xs with
  | nil => rfl
  | cons x xs ih => cases x <;> simp [namedNodes, ih]

theorem addAttr_nodes (g : Graph) (p k v : Str) : (g.addAttr p k v).1.nodes = g.nodes := by
  unfold Graph.addAttr
  split
  · split <;> rfl
  · split
    · rfl
    · split <;> rfl

theorem addAttrs_nodes (kvs : List (Str × Str)) : ∀ (g : Graph) (p : Str), (g.addAttrs p kvs).1.nodes = g.nodes := by
  induction kvs with
  | nil => intro g p; rfl
  | cons e rest ih =>
    intro g p
    obtain ⟨k, v⟩ := e
    have h1 := addAttr_nodes g p k v
    simp only [Graph.addAttrs]
    cases h : g.addAttr p k v with
    | mk g' err =>
      rw [h] at h1
      cases err with
      | some e => exact h1
      | none => exact (ih g' p).trans h1

theorem replay_names {xs : List Call} : ∀ {g : Graph}, Reachable g → (∀ x ∈ xs, MapWF x.attrs) → (replay graphIface g xs).2 = [] →
    (replay graphIface g xs).1.nodes.names = (namedNodes xs).foldl addFirst g.nodes.names := by
  induction xs with
  | nil => intro g _ _ _; rfl
  | cons x xs ih =>
    intro g hg hw he
    simp only [replay, List.append_eq_nil_iff] at he ⊢
    obtain ⟨he1, he2⟩ := he
    have hg' : Reachable (graphIface.call g x).1 := by
      rw [graphIface_call]
      exact .step _ hg (callOp_ok g (hw x (List.mem_cons_self ..)))
    rw [ih hg' (fun y hy => hw y (List.mem_cons_of_mem _ hy)) he2]
    cases x with
    | addNode p n m =>
      simp only [namedNodes, List.foldl_cons]
      congr 1
      simp only [Iface.call, graphIface, Graph.addNode] at he1 ⊢
      cases hn : newAttrs m with
      | error e => rw [hn] at he1; cases he1
      | ok as => exact hg.inv.nodes.names_add ⟨n, as⟩
    | addAttr p k v =>
      simp only [namedNodes]
      rw [show (graphIface.call g (.addAttr p k v)).1.nodes = g.nodes from addAttr_nodes g p k v]
    | addSubGraph p n m =>
      simp only [namedNodes]
      rw [show (graphIface.call g (.addSubGraph p n m)).1.nodes = g.nodes from addAttrs_nodes m _ n]
    | addPortEdge s sp d dp dir m =>
      simp only [namedNodes]
      congr 1
      simp only [Iface.call, graphIface, Graph.addPortEdge]
      split <;> rfl
    | setStrict b => rfl
    | setDir b => rfl
    | setName b => rfl

theorem mem_foldl_addFirst (xs : List Str) : ∀ (acc : List Str) (n : Str), n ∈ xs.foldl addFirst acc ↔ n ∈ acc ∨ n ∈ xs := by
  induction xs with
  | nil => intro acc n; simp
  | cons x xs ih =>
    intro acc n
    rw [List.foldl_cons, ih]
    unfold addFirst
    split
    · rename_i hx
      constructor
      · rintro (h | h) <;> simp [h]
      · intro h
        rcases h with h | h
        · exact .inl h
        · rcases List.mem_cons.1 h with rfl | h
          · exact .inl hx
          · exact .inr h
    · simp [or_assoc]

/-- A tree that is analysed without errors: the list of nodes. -/
theorem analysed_names {t : Ast.Graph} {g : Graph} (h : newAnalysedGraph t = .ok g) :
    g.nodes.names = (namedNodes (stmtsCalls ⟨t.id, [], []⟩ [] t.stmts)).foldl addFirst [] := by
  have hp := stmtsCalls_plain t.stmts ⟨t.id, [], []⟩ MapWF.nil MapWF.nil []
  have hw : ∀ x ∈ treeCalls t, MapWF x.attrs := by
    intro x hx
    simp only [treeCalls, List.mem_append, List.mem_cons, List.not_mem_nil, or_false] at hx
    rcases hx with (rfl | rfl | rfl) | h
    · exact MapWF.nil
    · exact MapWF.nil
    · exact MapWF.nil
    · exact (hp x h).2
  unfold newAnalysedGraph analyse at h
  rw [analyseC_eq] at h
  simp only [Catcher.getError] at h
  cases hes : (replay graphIface newGraph (treeCalls t)).2 with
  | cons e es => rw [hes] at h; cases h
  | nil =>
    rw [hes] at h
    simp only [Except.ok.injEq] at h
    subst h
    exact replay_names Reachable.init hw hes

end Gographviz
