import Verif.Spec.Heap
import Verif.Proofs.Graph
/-!
What the calls do to the contents of a graph of `Model/Graph.lean`.
-/
namespace Gographviz

open Spec

theorem contents_any {g : Graph} (h : GInv g) (name : Str) :
    (contentsOf g).nodes.any (fun n => decide (n.name = name)) = (mget g.nodes.lookup name).isSome := by
  rw [Bool.eq_iff_iff]
  simp only [contentsOf, List.any_map, List.any_eq_true, Function.comp, decide_eq_true_eq, Option.isSome_iff_exists]
  constructor
  · rintro ⟨p, hp, hn⟩
    obtain ⟨n, hn'⟩ := h.nodes.valid p hp
    rw [hn'] at hn
    exact ⟨p, (h.nodes.look name p).2 ⟨hp, n, hn', hn⟩⟩
  · rintro ⟨p, hp⟩
    obtain ⟨h1, n, h2, h3⟩ := (h.nodes.look name p).1 hp
    exact ⟨p, h1, by rw [h2]; exact h3⟩

theorem contents_addNode {g : Graph} (h : GInv g) (p n : Str) (as : List (Str × Str)) :
    (contentsOf (g.addNode p n as).1, (g.addNode p n as).2) = (contentsOf g).addNode p n as := by
  unfold Graph.addNode Contents.addNode
  cases newAttrs as with
  | error e => rfl
  | ok a =>
    simp only
    rw [contents_any h n]
    cases hl : mget g.nodes.lookup n with
    | none =>
      simp only [Option.isSome_none, Bool.false_eq_true, if_false]
      congr 1
      unfold contentsOf
      simp only [Nodes.add, hl, Contents.mk.injEq, true_and, and_true]
      rw [List.map_append]
      congr 1
      · refine List.map_congr_left fun q hq => ?_
        obtain ⟨nd, hnd⟩ := h.nodes.valid q hq
        unfold Nodes.deref at hnd ⊢
        rw [List.getElem?_append_left (by exact (List.getElem?_eq_some_iff.1 hnd).1)]
      · simp [Nodes.deref]
    | some q =>
      simp only [Option.isSome_some, if_true]
      congr 1
      unfold contentsOf
      simp only [Nodes.add, hl, Contents.mk.injEq, true_and, and_true]
      rw [List.map_map]
      refine List.map_congr_left fun r hr => ?_
      obtain ⟨nd, hnd⟩ := h.nodes.valid r hr
      simp only [Function.comp, Nodes.updateAttrs_deref, hnd, Option.getD_some]
      by_cases hrq : q = r
      · subst hrq
        obtain ⟨_, n', h2, h3⟩ := (h.nodes.look n q).1 hl
        rw [hnd] at h2; cases h2
        simp [h3]
      · have : nd.name ≠ n := by
          intro e
          have := (h.nodes.look n r).2 ⟨hr, nd, hnd, e⟩
          rw [hl] at this
          exact hrq (Option.some.inj this)
        rw [if_neg this, if_neg hrq]
        rfl

theorem contents_removeNode {g : Graph} (h : GInv g) (p n : Str) :
    (contentsOf (g.removeNode p n).1, (g.removeNode p n).2) = (contentsOf g).removeNode p n := by
  unfold Contents.removeNode
  rw [contents_any h n]
  cases hl : mget g.nodes.lookup n with
  | none =>
    rw [removeNode_absent h p hl]
    simp
  | some q =>
    rw [removeNode_present h p hl]
    simp only [Option.isSome_some, if_true]
    congr 1
    unfold contentsOf
    simp only [edgesRebuild_edges, Contents.mk.injEq, true_and, and_true]
    rw [List.filter_map]
    obtain ⟨h1, n', h2, h3⟩ := (h.nodes.look n q).1 hl
    have hd : ∀ x, Nodes.deref { g.nodes with lookup := mdel g.nodes.lookup n, list := g.nodes.list.erase q } x = g.nodes.deref x := fun _ => rfl
    simp only [hd]
    congr 1
    rw [h.nodes.nodup.erase_eq_filter]
    refine List.filter_congr fun r hr => ?_
    obtain ⟨nd, hnd⟩ := h.nodes.valid r hr
    simp only [Function.comp, hnd, Option.getD_some]
    by_cases hrq : r = q
    · subst hrq
      rw [hnd] at h2; cases h2
      simp [h3]
    · have : nd.name ≠ n := by
        intro e
        have := (h.nodes.look n r).2 ⟨hr, nd, hnd, e⟩
        rw [hl] at this
        exact hrq (Option.some.inj this).symm
      simp [this, hrq]

theorem contents_removeNodes {g : Graph} (h : GInv g) (p : Str) (ns : List Str) :
    (contentsOf (g.removeNodes p ns).1, (g.removeNodes p ns).2) = (contentsOf g).removeNodes p ns := by
  induction ns generalizing g with
  | nil => rfl
  | cons n ns ih =>
    simp only [Graph.removeNodes, Contents.removeNodes]
    rw [← contents_removeNode h p n]
    have h' := h.removeNode p n
    generalize g.removeNode p n = r at h'
    obtain ⟨g', e⟩ := r
    cases e with
    | some e => rfl
    | none => exact ih h'

theorem contents_addAttr (g : Graph) (p k v : Str) :
    (contentsOf (g.addAttr p k v).1, (g.addAttr p k v).2) = (contentsOf g).addAttr p k v := by
  unfold Graph.addAttr Contents.addAttr
  have e1 : (contentsOf g).name = g.name := rfl
  have e2 : (contentsOf g).attrs = g.attrs := rfl
  have e3 : (contentsOf g).subs = g.subGraphs := rfl
  rw [e1, e2, e3]
  split
  · cases attrsAdd g.attrs k v <;> rfl
  · cases mget g.subGraphs p with
    | none => rfl
    | some s => simp only; cases attrsAdd s.attrs k v <;> rfl

theorem contents_addAttrs (g : Graph) (n : Str) (as : List (Str × Str)) :
    (contentsOf (g.addAttrs n as).1, (g.addAttrs n as).2) = (contentsOf g).addAttrs n as := by
  induction as generalizing g with
  | nil => rfl
  | cons e as ih =>
    obtain ⟨k, v⟩ := e
    simp only [Graph.addAttrs, Contents.addAttrs]
    rw [← contents_addAttr g n k v]
    generalize g.addAttr n k v = r
    obtain ⟨g', e⟩ := r
    cases e with
    | some e => rfl
    | none => exact ih g'

/-- Every call of `Model/Graph.lean` does to the contents what `Contents.step` says. -/
theorem contentsOf_step {g : Graph} (h : GInv g) (op : Op) : (contentsOf (g.step op).1, (g.step op).2) = (contentsOf g).step op := by
  cases op with
  | setStrict b => rfl
  | setDir b => rfl
  | setName n => rfl
  | addPortEdge s sp d dp dir as =>
    simp only [Graph.step, Graph.addPortEdge, Contents.step, Contents.addEdge]
    cases newAttrs as <;> rfl
  | addEdge s d dir as =>
    simp only [Graph.step, Graph.addEdge, Graph.addPortEdge, Contents.step, Contents.addEdge]
    cases newAttrs as <;> rfl
  | addNode p n as => exact contents_addNode h p n as
  | addAttr p k v => exact contents_addAttr g p k v
  | addSubGraph p n as => exact contents_addAttrs _ n as
  | removeNode p n => exact contents_removeNode h p n
  | removeSubGraph p n o =>
    simp only [Graph.step, Graph.removeSubGraph, Contents.step]
    rw [← contents_removeNodes h p o]
    generalize g.removeNodes p o = r
    obtain ⟨g', e⟩ := r
    cases e with
    | some e => rfl
    | none =>
      simp only [contentsOf, edgesRebuild_edges]

end Gographviz
