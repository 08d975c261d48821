import Verif.Proofs.HeapStep
/-!
The invariant of the whole state: the memory, all graphs, and the caller's maps.
-/
namespace Gographviz.Heap

open Gographviz Spec

/-- The maps of the graphs. -/
def State.roots (s : State) : List Nat := s.graphs.map (·.attrs)

theorem State.owned_eq (s : State) (o : Owner) : s.owned o = ownedM s.mem s.roots o := by
  cases o <;> simp [State.owned, ownedM, State.roots]

structure SInv (s : State) : Prop where
  minv : MInv s.mem s.roots
  linv : ∀ (i : Nat) (g : HGraph), s.graphs[i]? = some g → LInv s.mem g
  disj : ∀ (i j : Nat) (g h : HGraph), i ≠ j → s.graphs[i]? = some g → s.graphs[j]? = some h → ∀ o, InGraph g o → ¬ InGraph h o

theorem SInv.start : SInv start := by
  refine ⟨⟨fun o o' a h => ?_, fun o a h => ?_⟩, fun i g h => by simp [Heap.start] at h, fun i j g h _ hi => by simp [Heap.start] at hi⟩
  · cases o <;> simp [ownedM, Heap.start, State.roots] at h
  · cases o <;> simp [ownedM, Heap.start, State.roots] at h

theorem SInv.pre {s : State} (h : SInv s) {i : Nat} {g : HGraph} (hi : s.graphs[i]? = some g) : Pre i s.roots s.mem g :=
  ⟨h.minv, by simp [State.roots, hi], h.linv i g hi⟩

theorem _root_.Gographviz.Spec.InGraph.owned {m : Mem} {g : HGraph} (h : LInv m g) (roots : List Nat) {o : Owner} (ho : InGraph g o) : ∃ a, ownedM m roots o = some a := by
  cases o with
  | graph i => exact absurd ho id
  | node p => obtain ⟨x, hx⟩ := h.nodes.valid p ho; exact ⟨x.attrs, by simp [ownedM, hx]⟩
  | edge p => obtain ⟨x, hx⟩ := h.edges.valid p ho; exact ⟨x.attrs, by simp [ownedM, hx]⟩
  | sub p =>
    obtain ⟨k, hk⟩ := ho
    obtain ⟨x, hx, -⟩ := h.subs.look k p hk
    exact ⟨x.attrs, by simp [ownedM, hx]⟩

/-- What is in the graph after a call was there before or is new. -/
theorem Frame.inGraph {i : Nat} {roots : List Nat} {m m' : Mem} {g g' : HGraph} (h : Frame i roots m g m' g') {o : Owner} (ho : InGraph g' o) :
    InGraph g o ∨ ∀ r, ownedM m r o = none := by
  cases o with
  | graph i => exact absurd ho id
  | node p =>
    rcases h.list.mem ho with hp | hp
    · exact .inl hp
    · exact .inr fun r => by simp [ownedM, List.getElem?_eq_none hp]
  | edge p =>
    rcases h.edges.mem ho with hp | hp
    · exact .inl hp
    · exact .inr fun r => by simp [ownedM, List.getElem?_eq_none hp]
  | sub p =>
    obtain ⟨k, hk⟩ := ho
    rcases h.subs k p hk with hp | ⟨-, hp⟩
    · exact .inl ⟨k, hp⟩
    · exact .inr fun r => by simp [ownedM, List.getElem?_eq_none hp]

/-- The graphs after a call. -/
theorem get_set {s : State} {i j : Nat} {g g' : HGraph} (hi : s.graphs[i]? = some g) :
    (s.graphs.set i g')[j]? = if i = j then some g' else s.graphs[j]? := by
  rw [List.getElem?_set]
  split
  · rename_i e
    subst e
    rw [if_pos (List.getElem?_eq_some_iff.1 hi).1]
  · rfl

theorem SInv.call {s : State} (h : SInv s) {i : Nat} {g : HGraph} (hi : s.graphs[i]? = some g) (op : Op) (arg : Option Nat) :
    SInv (s.act (.call i op arg)).1 ∧ Good i s.roots s.mem g (step s.mem g op) ((contents s.mem g).step op) := by
  have hg := (h.pre hi).step op
  refine ⟨?_, hg⟩
  simp only [State.act, hi]
  generalize step s.mem g op = r at hg
  obtain ⟨⟨m', g'⟩, err⟩ := r
  have hroots : (s.graphs.set i g').map (·.attrs) = s.roots := by
    unfold State.roots
    refine List.ext_getElem? fun j => ?_
    rw [List.getElem?_map, List.getElem?_map, get_set hi]
    split
    · rename_i e
      subst e
      rw [hi]
      simp only [Option.map_some]
      rw [hg.frame.attrs]
    · rfl
  refine ⟨?_, fun j x hj => ?_, fun j k x y hjk hj hk o hx hy => ?_⟩
  · unfold State.roots
    simp only [hroots]
    exact hg.minv
  · simp only [get_set hi] at hj
    split at hj
    · cases hj; exact hg.linv
    · exact (h.linv j x hj).ext hg.frame.ext
  · simp only [get_set hi] at hj hk
    split at hj
    · rename_i e
      subst e
      rw [if_neg hjk] at hk
      cases hj
      rcases hg.frame.inGraph hx with hx | hx
      · exact h.disj i k g y hjk hi hk o hx hy
      · obtain ⟨a, ha⟩ := hy.owned (h.linv k y hk) []
        rw [hx []] at ha; cases ha
    · rename_i e
      split at hk
      · rename_i e'
        subst e'
        cases hk
        rcases hg.frame.inGraph hy with hy | hy
        · exact h.disj j i x g hjk hj hi o hx hy
        · obtain ⟨a, ha⟩ := hx.owned (h.linv j x hj) []
          rw [hy []] at ha; cases ha
      · exact h.disj j k x y hjk hj hk o hx hy

theorem SInv.act {s : State} (h : SInv s) {a : Act} (hok : a.Ok s) : SInv (s.act a).1 := by
  cases a with
  | newGraph =>
    simp only [State.act, newHGraph]
    have hg : ∀ j x, (s.graphs ++ [(⟨s.mem.maps.length, [], false, false, [], [], [], [], [], [], newRelations⟩ : HGraph)])[j]? = some x →
        s.graphs[j]? = some x ∨ (j = s.graphs.length ∧ ⟨s.mem.maps.length, [], false, false, [], [], [], [], [], [], newRelations⟩ = x) :=
      fun j x hx => (getElem?_snoc hx).symm
    have hno : ∀ o, ¬ InGraph (⟨s.mem.maps.length, [], false, false, [], [], [], [], [], [], newRelations⟩ : HGraph) o := by
      intro o ho
      cases o with
      | graph _ => exact ho
      | node p => exact absurd ho (List.not_mem_nil)
      | edge p => exact absurd ho (List.not_mem_nil)
      | sub p => obtain ⟨k, hk⟩ := ho; cases hk
    refine ⟨?_, fun j x hj => ?_, fun j k x y hjk hj hk o hx hy => ?_⟩
    · have := (h.minv.push []).allocGraph (h.minv.fresh []) (by simp)
      simpa [State.roots] using this
    · rcases hg j x hj with hj | ⟨-, rfl⟩
      · exact (h.linv j x hj).ext (Ext.push _ _)
      · refine ⟨⟨MapWF.nil, List.nodup_nil, fun n p => ?_, fun _ h => nomatch h⟩, EI.empty _, MapWF.nil, fun k p h => nomatch h⟩
        constructor
        · intro h; cases h
        · rintro ⟨h, -⟩; exact absurd h (List.not_mem_nil)
    · rcases hg j x hj with hj | ⟨-, rfl⟩
      · rcases hg k y hk with hk | ⟨-, rfl⟩
        · exact h.disj j k x y hjk hj hk o hx hy
        · exact hno o hy
      · exact hno o hx
  | call i op arg =>
    obtain ⟨g, hi, -⟩ := hok
    exact (h.call hi op arg).1
  | write o k v =>
    simp only [State.act]
    cases s.owned o with
    | none => exact h
    | some a => exact ⟨h.minv.set a k v, fun i g hi => (h.linv i g hi).ext (Ext.set _ _ _ _), h.disj⟩
  | newArg m => exact ⟨h.minv, h.linv, h.disj⟩
  | setArg a k v => exact ⟨h.minv, h.linv, h.disj⟩

theorem SInv.run {s : State} (h : SInv s) {acts : List Act} (hok : OkActs s acts) : SInv (s.run acts) := by
  induction acts generalizing s with
  | nil => exact h
  | cons a acts ih => exact ih (h.act hok.1) hok.2

theorem run_append (s : State) (a b : List Act) : s.run (a ++ b) = (s.run a).run b := by
  induction a generalizing s with
  | nil => rfl
  | cons x a ih => exact ih _

theorem okActs_append {s : State} {a b : List Act} : OkActs s (a ++ b) ↔ OkActs s a ∧ OkActs (s.run a) b := by
  induction a generalizing s with
  | nil => simp [OkActs, State.run]
  | cons x a ih => simp only [List.cons_append, OkActs, State.run, ih, and_assoc]

theorem SInv.of {s : State} (h : Reached s) : SInv s := by
  obtain ⟨acts, hok, rfl⟩ := h
  exact SInv.start.run hok

theorem _root_.Gographviz.Spec.Reached.next {s : State} (h : Reached s) {a : Act} (hok : a.Ok s) : Reached (s.act a).1 := by
  obtain ⟨acts, h1, rfl⟩ := h
  exact ⟨acts ++ [a], okActs_append.2 ⟨h1, hok, trivial⟩, by rw [run_append]; rfl⟩

/-- Everything that existed before an action still exists, at the same place and with the same map. -/
theorem SInv.ext {s : State} (h : SInv s) {a : Act} (hok : a.Ok s) : Ext s.mem (s.act a).1.mem := by
  cases a with
  | newGraph => exact Ext.push _ _
  | call i op arg =>
    obtain ⟨g, hi, -⟩ := hok
    have := (h.call hi op arg).2.frame.ext
    simpa only [State.act, hi] using this
  | write o k v =>
    simp only [State.act]
    cases s.owned o with
    | none => exact Ext.refl _
    | some a => exact Ext.set _ _ _ _
  | newArg m => exact Ext.refl _
  | setArg a k v => exact Ext.refl _

theorem SInv.owned {s : State} (h : SInv s) {a : Act} (hok : a.Ok s) {o : Owner} {b : Nat} (ho : s.owned o = some b) :
    (s.act a).1.owned o = some b := by
  have he := h.ext hok
  cases o with
  | graph i =>
    simp only [State.owned, Option.map_eq_some_iff] at ho
    obtain ⟨g, hg, rfl⟩ := ho
    cases a with
    | newGraph =>
      have hl : i < s.graphs.length := (List.getElem?_eq_some_iff.1 hg).1
      simp only [State.act, newHGraph, State.owned, List.getElem?_append_left hl, hg, Option.map_some]
    | call j op arg =>
      obtain ⟨g', hj, -⟩ := hok
      have hf := (h.call hj op arg).2.frame.attrs
      simp only [State.act, hj, State.owned, get_set hj]
      split
      · rename_i e
        subst e
        rw [hj] at hg; cases hg
        simp only [Option.map_some]
        rw [hf]
      · rw [hg]; rfl
    | write o k v =>
      simp only [State.act]
      cases s.owned o <;> simp [State.owned, hg]
    | newArg m => simp [State.act, State.owned, hg]
    | setArg a k v => simp [State.act, State.owned, hg]
  | node p => exact he.owned (roots := []) (o := .node p) ho
  | edge p => exact he.owned (roots := []) (o := .edge p) ho
  | sub p => exact he.owned (roots := []) (o := .sub p) ho

end Gographviz.Heap
