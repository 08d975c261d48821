import Verif.Proofs.GraphOps
import Verif.Spec.Space
/-!
How much one call adds to a graph.
-/
namespace Gographviz

open Spec Spec.Space

theorem mset_length {α : Type} (m : Map α) (k : Str) (v : α) : (mset m k v).length ≤ m.length + 1 := by
  induction m with
  | nil => simp [mset]
  | cons e m ih =>
    obtain ⟨k', v'⟩ := e
    simp only [mset]
    split
    · simp
    · split
      · simp
      · simp only [List.length_cons]; omega

theorem mset_length_has {α : Type} {m : Map α} (h : MapWF m) {k : Str} (v : α) (hk : mhas m k = true) : (mset m k v).length = m.length := by
  have h1 : (mkeys (mset m k v)).Perm (mkeys m) := by
    apply (List.perm_ext_iff_of_nodup (h.mset k v).nodup h.nodup).2
    intro x
    rw [← mhas_iff, ← mhas_iff]
    by_cases hx : k = x
    · subst hx; simp only [hk, iff_true]; simp [mhas, mget_mset_self]
    · simp [mhas, mget_mset, hx]
  simpa [mkeys] using h1.length_eq

theorem mdel_length {α : Type} (m : Map α) (k : Str) : (mdel m k).length ≤ m.length := List.length_filter_le ..

theorem entryCount_mset {m : Map (Map Bool)} (h : MapWF m) (k : Str) (v : Map Bool) :
    entryCount (mset m k v) + ((mget m k).getD []).length = entryCount m + v.length := by
  induction m with
  | nil => simp [mset, entryCount, mget]
  | cons e m ih =>
    obtain ⟨k', v'⟩ := e
    have ht := ih h.tail
    by_cases hlt : slt k k' = true
    · have hn : mget ((k', v') :: m) k = none := by
        cases hm : mget ((k', v') :: m) k with
        | none => rfl
        | some x =>
          exfalso
          have hin := (mem_iff_mget h k x).2 hm
          rcases List.mem_cons.1 hin with heq | hin
          · cases heq
            rw [slt_irrefl] at hlt; cases hlt
          · have := (List.pairwise_cons.1 h).1 _ hin
            simp only at this
            have h2 := slt_trans hlt this
            rw [slt_irrefl] at h2; cases h2
      rw [hn]
      simp only [mset, hlt, if_true, entryCount, List.map_cons, List.sum_cons, Option.getD_none, List.length_nil]
      omega
    · by_cases he : k' = k
      · subst he
        simp only [mset, slt_irrefl, if_true, entryCount, List.map_cons, List.sum_cons, mget, Option.getD_some, Bool.false_eq_true, if_false]
        omega
      · have hm : mget ((k', v') :: m) k = mget m k := by simp [mget, he]
        rw [hm]
        simp only [mset, hlt, he, if_false, entryCount, List.map_cons, List.sum_cons, Bool.false_eq_true] at ht ⊢
        omega

theorem relIndexAdd_count {m : Map (Map Bool)} (h : MapWF m) (a b : Str) : entryCount (relIndexAdd m a b) ≤ entryCount m + 1 := by
  have key : ∀ {m : Map (Map Bool)}, MapWF m → entryCount (mset m a (mset ((mget m a).getD []) b true)) ≤ entryCount m + 1 := by
    intro m h
    have h1 := entryCount_mset h a (mset ((mget m a).getD []) b true)
    have h2 := mset_length ((mget m a).getD []) b true
    omega
  unfold relIndexAdd
  simp only
  split
  · exact key h
  · rename_i hn
    have h0 := entryCount_mset h a []
    have hm : mget m a = none := by
      cases hm : mget m a with
      | none => rfl
      | some x => simp [mhas, hm] at hn
    rw [hm] at h0
    have := key (h.mset a [])
    simp at h0
    omega

theorem relIndexDel_count {m : Map (Map Bool)} (h : MapWF m) (a b : Str) : entryCount (relIndexDel m a b) ≤ entryCount m := by
  unfold relIndexDel
  cases hm : mget m a with
  | none => exact Nat.le_refl _
  | some i =>
    have h1 := entryCount_mset h a (mdel i b)
    have h2 := mdel_length i b
    rw [hm] at h1
    simp only [Option.getD_some] at h1
    simp only
    omega

theorem Nodes.add_length (ns : Nodes) (n : Node) : (ns.add n).list.length ≤ ns.list.length + 1 := by
  unfold Nodes.add
  split
  · simp [Nodes.updateAttrs]
  · simp

theorem removeLoop_length (ns : Nodes) (n : Str) : ∀ l l', ns.removeLoop n l = some l' → l'.length ≤ l.length := by
  intro l
  induction l with
  | nil => intro l' h; cases h
  | cons p ps ih =>
    intro l' h
    simp only [Nodes.removeLoop] at h
    split at h
    · cases h; simp
    · cases hr : ns.removeLoop n ps with
      | none => rw [hr] at h; cases h
      | some l'' =>
        rw [hr] at h
        simp only [Option.map_some, Option.some.injEq] at h
        subst h
        have := ih l'' hr
        simpa using this

theorem addAttr_space {g : Graph} (h : GInv g) (p k v : Str) : elements (g.addAttr p k v).1 = elements g ∧
    (g.addAttr p k v).1.relations = g.relations := by
  unfold Graph.addAttr
  split
  · cases attrsAdd g.attrs k v <;> exact ⟨rfl, rfl⟩
  · rcases Option.eq_none_or_eq_some (mget g.subGraphs p) with hm | ⟨s, hm⟩
    · rw [hm]; exact ⟨rfl, rfl⟩
    · rw [hm]
      simp only
      cases attrsAdd s.attrs k v with
      | error e => exact ⟨rfl, rfl⟩
      | ok as =>
        refine ⟨?_, rfl⟩
        simp only [elements]
        rw [mset_length_has h.subs.wf _ (by simp [mhas, hm])]

theorem addAttrs_space {g : Graph} (h : GInv g) (n : Str) (as : List (Str × Str)) : elements (g.addAttrs n as).1 = elements g ∧
    (g.addAttrs n as).1.relations = g.relations := by
  induction as generalizing g with
  | nil => exact ⟨rfl, rfl⟩
  | cons e as ih =>
    obtain ⟨k, v⟩ := e
    have h1 := addAttr_space h n k v
    have h2 := h.addAttr n k v
    simp only [Graph.addAttrs]
    rcases hr : g.addAttr n k v with ⟨g', _ | e⟩
    · rw [hr] at h1 h2
      have := ih h2
      exact ⟨this.1.trans h1.1, this.2.trans h1.2⟩
    · rw [hr] at h1; exact h1

theorem removeNode_space {g : Graph} (h : GInv g) (p n : Str) : elements (g.removeNode p n).1 ≤ elements g ∧
    containments (g.removeNode p n).1 ≤ containments g := by
  unfold Graph.removeNode
  rcases hr : g.nodes.remove n with ⟨ns, _ | e⟩
  · simp only
    constructor
    · have h1 : ns.list.length ≤ g.nodes.list.length := by
        unfold Nodes.remove at hr
        cases hl : g.nodes.removeLoop n g.nodes.list with
        | none => rw [hl] at hr; cases hr
        | some l =>
          rw [hl] at hr
          cases hr
          exact removeLoop_length _ _ _ _ hl
      have h2 : ((g.edges.edges.filter fun e => !(decide (e.dst = n) || decide (e.src = n)))).length ≤ g.edges.edges.length := List.length_filter_le ..
      simp only [elements, edgesRebuild_edges]
      omega
    · exact relIndexDel_count h.rels.wf1 p n
  · exact ⟨Nat.le_refl _, Nat.le_refl _⟩

theorem removeNodes_space {g : Graph} (h : GInv g) (p : Str) (cs : List Str) : elements (g.removeNodes p cs).1 ≤ elements g ∧
    containments (g.removeNodes p cs).1 ≤ containments g := by
  induction cs generalizing g with
  | nil => exact ⟨Nat.le_refl _, Nat.le_refl _⟩
  | cons c cs ih =>
    have h1 := removeNode_space h p c
    have h2 := h.removeNode p c
    simp only [Graph.removeNodes]
    rcases hr : g.removeNode p c with ⟨g', _ | e⟩
    · rw [hr] at h1 h2
      have := ih h2
      exact ⟨Nat.le_trans this.1 h1.1, Nat.le_trans this.2 h1.2⟩
    · rw [hr] at h1; exact h1

/-- The call is one of `AddEdge`, `AddPortEdge`, `AddNode` and `AddSubGraph`. -/
def Op.adds : Op → Bool
  | .addPortEdge .. => true
  | .addEdge .. => true
  | .addNode .. => true
  | .addSubGraph .. => true
  | _ => false

theorem step_space {g : Graph} (h : GInv g) (op : Op) : elements (g.step op).1 ≤ elements g + (if op.adds then 1 else 0) ∧
    containments (g.step op).1 ≤ containments g + (if op.adds then 1 else 0) := by
  have edge : ∀ a ap b bp dir as, elements (g.addPortEdge a ap b bp dir as).1 ≤ elements g + 1 ∧
      containments (g.addPortEdge a ap b bp dir as).1 ≤ containments g + 1 := by
    intro a ap b bp dir as
    unfold Graph.addPortEdge
    cases newAttrs as with
    | error e => exact ⟨Nat.le_succ _, Nat.le_succ _⟩
    | ok m =>
      refine ⟨?_, Nat.le_succ _⟩
      simp only [elements, Edges.add, List.length_append, List.length_singleton]
      omega
  cases op with
  | setStrict b => exact ⟨Nat.le_refl _, Nat.le_refl _⟩
  | setDir b => exact ⟨Nat.le_refl _, Nat.le_refl _⟩
  | setName b => exact ⟨Nat.le_refl _, Nat.le_refl _⟩
  | addPortEdge a ap b bp dir as => exact edge a ap b bp dir as
  | addEdge a b dir as => exact edge a [] b [] dir as
  | addNode p n as =>
    simp only [Graph.step, Graph.addNode, Op.adds, if_true]
    cases newAttrs as with
    | error e => exact ⟨Nat.le_succ _, Nat.le_succ _⟩
    | ok m =>
      refine ⟨?_, relIndexAdd_count h.rels.wf1 p n⟩
      have := Nodes.add_length g.nodes ⟨n, m⟩
      simp only [elements]
      omega
  | addAttr p k v =>
    have := addAttr_space h p k v
    exact ⟨Nat.le_of_eq this.1, Nat.le_of_eq (by simp [Graph.step, containments, this.2, Op.adds])⟩
  | addSubGraph p n as =>
    have hi : GInv { g with relations := g.relations.add p n, subGraphs := subGraphsAdd g.subGraphs n } :=
      ⟨h.nodes, h.edges, h.rels.add p n, h.subs.add n, h.attrs⟩
    have := addAttrs_space hi n as
    simp only [Graph.step, Graph.addSubGraph, Op.adds, if_true]
    constructor
    · rw [this.1]
      have hl : (subGraphsAdd g.subGraphs n).length ≤ g.subGraphs.length + 1 := by
        unfold subGraphsAdd
        split
        · exact Nat.le_succ _
        · exact mset_length _ _ _
      simp only [elements]
      omega
    · simp only [containments, this.2]
      exact relIndexAdd_count h.rels.wf1 p n
  | removeNode p n => exact removeNode_space h p n
  | removeSubGraph p n o =>
    have h1 := removeNodes_space h p o
    have h2 := h.removeNodes p o
    simp only [Graph.step, Graph.removeSubGraph, Op.adds]
    rcases hr : g.removeNodes p o with ⟨g', _ | e⟩
    · rw [hr] at h1 h2
      refine ⟨Nat.le_trans ?_ h1.1, Nat.le_trans ?_ h1.2⟩
      · have h3 := mdel_length g'.subGraphs n
        have h4 : ((g'.edges.edges.filter fun e => !(decide (e.dst = n) || decide (e.dstPort = n) || decide (e.src = n) || decide (e.srcPort = n)))).length ≤
          g'.edges.edges.length := List.length_filter_le ..
        simp only [elements, edgesRebuild_edges]
        omega
      · exact relIndexDel_count h2.rels.wf1 p n
    · rw [hr] at h1; exact h1

theorem attrs_length {as : Attrs} (h : AttrsOk as) : as.length ≤ registered.length := by
  have h1 : (mkeys as).Nodup := h.wf.nodup
  have h2 : (mkeys as).length ≤ registered.length := by
    apply List.Nodup.length_le_of_subset h1
    intro k hk
    obtain ⟨e, he, rfl⟩ := List.mem_map.1 hk
    exact h.reg e he
  simpa [mkeys] using h2

theorem sum_le {α : Type} {l : List α} {f : α → Nat} {c : Nat} (h : ∀ x ∈ l, f x ≤ c) : (l.map f).sum ≤ c * l.length := by
  induction l with
  | nil => simp
  | cons x l ih =>
    have h1 := h x (List.mem_cons_self ..)
    have h2 := ih fun y hy => h y (List.mem_cons_of_mem _ hy)
    simp only [List.map_cons, List.sum_cons, List.length_cons, Nat.mul_succ]
    omega

theorem attributes_le {g : Graph} (h : GInv g) : attributes g ≤ registered.length * (elements g + 1) := by
  have h1 := attrs_length h.attrs
  have h2 : (g.nodes.list.map fun p => ((g.nodes.deref p).map fun n => n.attrs.length).getD 0).sum ≤ registered.length * g.nodes.list.length := by
    apply sum_le
    intro p _
    cases hd : g.nodes.deref p with
    | none => simp
    | some n => exact attrs_length (h.nodes.attrs p n hd)
  have h3 : (g.edges.edges.map fun e => e.attrs.length).sum ≤ registered.length * g.edges.edges.length :=
    sum_le fun e he => attrs_length (h.edges.attrs e he)
  have h4 : (g.subGraphs.map fun s => s.2.attrs.length).sum ≤ registered.length * g.subGraphs.length := by
    apply sum_le
    rintro ⟨k, s⟩ he
    exact attrs_length (h.subs.attrs k s ((mem_iff_mget h.subs.wf k s).1 he))
  unfold attributes elements
  simp only [Nat.mul_add, Nat.mul_one]
  omega

end Gographviz
