import Verif.Model.Graph
import Verif.Spec.Attributes
import Verif.Proofs.GoMap
/-! Invariants of the containers. -/
namespace Gographviz

open Spec (Registered registered)

/-! ### attributes -/

theorem validAttrs_sub : ∀ k ∈ validAttrs, k ∈ registered := by decide +kernel
theorem registered_sub : ∀ k ∈ registered, k ∈ validAttrs := by decide +kernel

theorem valid_iff (k : Str) : validAttrs.contains k = true ↔ Registered k := by
  rw [List.contains_iff_mem]
  exact ⟨validAttrs_sub k, registered_sub k⟩

theorem newAttr_ok {k : Str} (h : Registered k) : newAttr k = .ok k := by
  unfold newAttr; rw [if_pos ((valid_iff k).2 h)]

theorem newAttr_bad {k : Str} (h : ¬ Registered k) : newAttr k = .error (.invalidAttr k) := by
  unfold newAttr; rw [if_neg (fun h' => h ((valid_iff k).1 h'))]

theorem attrsAdd_ok (as : Attrs) {k : Str} (v : Str) (h : Registered k) : attrsAdd as k v = .ok (mset as k v) := by
  simp [attrsAdd, newAttr_ok h]

theorem attrsAdd_bad (as : Attrs) {k : Str} (v : Str) (h : ¬ Registered k) :
    attrsAdd as k v = .error (.invalidAttr k) := by
  simp [attrsAdd, newAttr_bad h]

/-- All keys registered. -/
def AllReg (kvs : List (Str × Str)) : Prop := ∀ e ∈ kvs, Registered e.1

theorem newAttrsFrom_ok (as : Attrs) {kvs : List (Str × Str)} (h : AllReg kvs) :
    newAttrsFrom as kvs = .ok (msetAll as kvs) := by
  induction kvs generalizing as with
  | nil => rfl
  | cons e kvs ih =>
    obtain ⟨k, v⟩ := e
    have hk : Registered k := h (k, v) (List.mem_cons_self ..)
    simp only [newAttrsFrom, attrsAdd_ok as v hk]
    exact ih _ fun e he => h e (List.mem_cons_of_mem _ he)

theorem newAttrsFrom_bad (as : Attrs) {kvs : List (Str × Str)} (h : ¬ AllReg kvs) :
    ∃ e ∈ kvs, ¬ Registered e.1 ∧ newAttrsFrom as kvs = .error (.invalidAttr e.1) := by
  induction kvs generalizing as with
  | nil => exact absurd (fun _ h => nomatch h) h
  | cons e kvs ih =>
    obtain ⟨k, v⟩ := e
    by_cases hk : Registered k
    · have : ¬ AllReg kvs := fun h' => h fun e he => by
        rcases List.mem_cons.1 he with e' | he
        · subst e'; exact hk
        · exact h' e he
      obtain ⟨e, he, hr, hn⟩ := ih (mset as k v) this
      exact ⟨e, List.mem_cons_of_mem _ he, hr, by simp only [newAttrsFrom, attrsAdd_ok as v hk, hn]⟩
    · exact ⟨(k, v), List.mem_cons_self .., hk, by simp only [newAttrsFrom, attrsAdd_bad as v hk]⟩

theorem newAttrs_ok_iff {kvs : List (Str × Str)} : (∃ as, newAttrs kvs = .ok as) ↔ AllReg kvs := by
  constructor
  · intro ⟨as, h⟩
    by_cases hr : AllReg kvs
    · exact hr
    · obtain ⟨e, _, _, h'⟩ := newAttrsFrom_bad [] hr
      rw [newAttrs, h'] at h; cases h
  · intro h; exact ⟨_, newAttrsFrom_ok [] h⟩

theorem newAttrs_ok {kvs : List (Str × Str)} (h : AllReg kvs) : newAttrs kvs = .ok (msetAll [] kvs) :=
  newAttrsFrom_ok [] h

/-- Well-formed attribute map with registered names only. -/
structure AttrsOk (as : Attrs) : Prop where
  wf : MapWF as
  reg : ∀ e ∈ as, Registered e.1

theorem AttrsOk.nil : AttrsOk [] := ⟨MapWF.nil, fun _ h => nomatch h⟩

theorem AttrsOk.mset {as : Attrs} (h : AttrsOk as) {k : Str} (v : Str) (hk : Registered k) : AttrsOk (mset as k v) :=
  ⟨h.wf.mset k v, fun e he => by
    rcases mem_mset he with e' | he
    · subst e'; exact hk
    · exact h.reg e he⟩

theorem AttrsOk.msetAll {as : Attrs} (h : AttrsOk as) {kvs : List (Str × Str)} (hk : AllReg kvs) :
    AttrsOk (msetAll as kvs) := by
  induction kvs generalizing as with
  | nil => exact h
  | cons e kvs ih =>
    rw [msetAll_cons]
    exact ih (h.mset _ (hk e (List.mem_cons_self ..))) fun e he => hk e (List.mem_cons_of_mem _ he)

theorem newAttrs_attrsOk {kvs : List (Str × Str)} {as : Attrs} (h : newAttrs kvs = .ok as) : AttrsOk as := by
  have hr := newAttrs_ok_iff.1 ⟨as, h⟩
  rw [newAttrs_ok hr] at h
  cases h
  exact AttrsOk.nil.msetAll hr

/-! ### nodes -/

/-- The invariant of `Nodes`. -/
structure NodesInv (ns : Nodes) : Prop where
  wf : MapWF ns.lookup
  nodup : ns.list.Nodup
  look : ∀ name p, mget ns.lookup name = some p ↔ p ∈ ns.list ∧ ∃ n, ns.deref p = some n ∧ n.name = name
  attrs : ∀ (p : Nat) n, ns.deref p = some n → AttrsOk n.attrs
  valid : ∀ p ∈ ns.list, ∃ n, ns.deref p = some n

theorem NodesInv.new : NodesInv newNodes where
  wf := MapWF.nil
  nodup := List.nodup_nil
  look := fun name p => by simp [newNodes, mget]
  attrs := fun p n h => by simp [newNodes, Nodes.deref] at h
  valid := fun p h => by simp [newNodes] at h

theorem Nodes.deref_lt {ns : Nodes} {p : Nat} {n : Node} (h : ns.deref p = some n) : p < ns.heap.length := by
  unfold Nodes.deref at h
  exact (List.getElem?_eq_some_iff.1 h).1

theorem NodesInv.list_lt {ns : Nodes} (h : NodesInv ns) {p : Nat} (hp : p ∈ ns.list) : p < ns.heap.length := by
  obtain ⟨n, hn⟩ := h.valid p hp
  exact Nodes.deref_lt hn

theorem NodesInv.find_eq {ns : Nodes} (h : NodesInv ns) {name : Str} {p : Nat} (hp : mget ns.lookup name = some p) :
    ∃ n, ns.deref p = some n ∧ n.name = name ∧ ns.find name = some n ∧ p ∈ ns.list := by
  obtain ⟨hl, n, hn, hname⟩ := (h.look name p).1 hp
  exact ⟨n, hn, hname, by simp [Nodes.find, hp, hn], hl⟩

theorem NodesInv.find_name {ns : Nodes} (h : NodesInv ns) {name : Str} {n : Node} (hn : ns.find name = some n) :
    n.name = name ∧ AttrsOk n.attrs := by
  unfold Nodes.find at hn
  cases hp : mget ns.lookup name with
  | none => simp [hp] at hn
  | some p =>
    simp [hp] at hn
    obtain ⟨n', hn', hname, _, _⟩ := h.find_eq hp
    rw [hn] at hn'; cases hn'
    exact ⟨hname, h.attrs p n hn⟩

theorem NodesInv.has_iff_find {ns : Nodes} (h : NodesInv ns) (name : Str) :
    mhas ns.lookup name = true ↔ ∃ n, ns.find name = some n := by
  rw [mhas_iff_mget]
  constructor
  · intro ⟨p, hp⟩
    obtain ⟨n, _, _, hf, _⟩ := h.find_eq hp
    exact ⟨n, hf⟩
  · intro ⟨n, hn⟩
    unfold Nodes.find at hn
    cases hp : mget ns.lookup name with
    | none => simp [hp] at hn
    | some p => exact ⟨p, rfl⟩

theorem Nodes.updateAttrs_deref (ns : Nodes) (p q : Nat) (f : Attrs → Attrs) :
    (ns.updateAttrs p f).deref q =
      if p = q then (ns.deref q).map (fun n => { n with attrs := f n.attrs }) else ns.deref q := by
  simp only [Nodes.updateAttrs, Nodes.deref, List.getElem?_modify]
  split
  · subst_vars; simp
  · simp

theorem NodesInv.add {ns : Nodes} (h : NodesInv ns) (node : Node) (ha : AttrsOk node.attrs) : NodesInv (ns.add node) := by
  unfold Nodes.add
  cases hp : mget ns.lookup node.name with
  | some p =>
    refine ⟨h.wf, h.nodup, fun name q => ?_, fun q n hq => ?_, fun q hq => ?_⟩
    · rw [show (ns.updateAttrs p fun as => attrsExtend as node.attrs).lookup = ns.lookup from rfl, h.look]
      rw [show (ns.updateAttrs p fun as => attrsExtend as node.attrs).list = ns.list from rfl]
      refine and_congr_right fun _ => ?_
      rw [Nodes.updateAttrs_deref]
      split
      · cases ns.deref q with
        | none => simp
        | some n => simp
      · rfl
    · rw [Nodes.updateAttrs_deref] at hq
      split at hq
      · cases hd : ns.deref q with
        | none => simp [hd] at hq
        | some n' =>
          simp [hd] at hq
          subst hq
          exact (h.attrs q n' hd).msetAll ha.reg
      · exact h.attrs q n hq
    · obtain ⟨n, hn⟩ := h.valid q hq
      rw [Nodes.updateAttrs_deref]
      split
      · exact ⟨_, by simp [hn]; rfl⟩
      · exact ⟨n, hn⟩
  | none =>
    have hd : ∀ q, q < ns.heap.length → (ns.heap ++ [node])[q]? = ns.heap[q]? := fun q hq =>
      List.getElem?_append_left hq
    have hnew : (ns.heap ++ [node])[ns.heap.length]? = some node := by simp
    have hlt : ∀ q ∈ ns.list, q < ns.heap.length := fun q hq => h.list_lt hq
    refine ⟨h.wf.mset _ _, ?_, fun name q => ?_, fun q n hq => ?_, fun q hq => ?_⟩
    · simp only [List.nodup_append, h.nodup, true_and]
      refine ⟨by simp, fun a ha b hb => ?_⟩
      simp only [List.mem_singleton] at hb
      have := hlt a ha; omega
    · simp only [mget_mset, List.mem_append, List.mem_singleton, Nodes.deref]
      constructor
      · intro hq
        split at hq
        · rename_i hn; cases hq
          exact ⟨Or.inr rfl, node, hnew, hn⟩
        · obtain ⟨hl, n, hn, hname⟩ := (h.look name q).1 hq
          exact ⟨Or.inl hl, n, by rw [hd q (hlt q hl)]; exact hn, hname⟩
      · rintro ⟨hl | hl, n, hn, hname⟩
        · rw [hd q (hlt q hl)] at hn
          have := (h.look name q).2 ⟨hl, n, hn, hname⟩
          rw [if_neg]
          · exact this
          · intro e; rw [← e, hp] at this; cases this
        · subst hl
          rw [hnew] at hn; cases hn
          simp [hname]
    · simp only [Nodes.deref] at hq
      by_cases hl : q < ns.heap.length
      · rw [hd q hl] at hq; exact h.attrs q n hq
      · have hlt' := (List.getElem?_eq_some_iff.1 hq).1
        simp only [List.length_append, List.length_singleton] at hlt'
        have : q = ns.heap.length := by omega
        subst this
        rw [hnew] at hq; cases hq; exact ha
    · simp only [List.mem_append, List.mem_singleton, Nodes.deref] at *
      rcases hq with hq | hq
      · rw [hd q (hlt q hq)]; exact h.valid q hq
      · subst hq; exact ⟨node, hnew⟩

/-- What `Add` does to lookups. -/
theorem NodesInv.find_add {ns : Nodes} (h : NodesInv ns) (node : Node) (ha : MapWF node.attrs) (name : Str) :
    (ns.add node).find name =
      if node.name = name then
        some ⟨name, attrsExtend (((ns.find name).map Node.attrs).getD []) node.attrs⟩
      else ns.find name := by
  unfold Nodes.add
  cases hp : mget ns.lookup node.name with
  | some p =>
    obtain ⟨n, hn, hname, hf, hl⟩ := h.find_eq hp
    simp only [Nodes.find, show (ns.updateAttrs p fun as => attrsExtend as node.attrs).lookup = ns.lookup from rfl]
    split
    · rename_i e; subst e
      simp [hp, Nodes.updateAttrs_deref, hn, hname]
    · rename_i hne
      cases hq : mget ns.lookup name with
      | none => simp
      | some q =>
        have : p ≠ q := by
          intro e; subst e
          obtain ⟨n', hn', hname', _, _⟩ := h.find_eq hq
          rw [hn] at hn'; cases hn'
          exact hne (hname.symm.trans hname')
        simp [Nodes.updateAttrs_deref, this]
  | none =>
    simp only [Nodes.find, mget_mset]
    split
    · rename_i e; subst e
      simp [hp, attrsExtend, msetAll_empty ha, Nodes.deref]
    · cases hq : mget ns.lookup name with
      | none => simp
      | some q =>
        obtain ⟨n', hn', _, _, hl⟩ := h.find_eq hq
        simp [Nodes.deref, List.getElem?_append_left (h.list_lt hl)]

theorem Nodes.removeLoop_none {ns : Nodes} {name : Str} {l : List Nat} :
    ns.removeLoop name l = none ↔ ∀ p ∈ l, (ns.deref p).map Node.name ≠ some name := by
  induction l with
  | nil => simp [Nodes.removeLoop]
  | cons p ps ih =>
    simp only [Nodes.removeLoop, List.mem_cons]
    split
    · rename_i h
      constructor
      · intro h'; cases h'
      · intro h'; exact absurd h (h' p (Or.inl rfl))
    · rename_i h
      simp only [Option.map_eq_none_iff, ih]
      constructor
      · intro h' q hq; rcases hq with e | hq
        · subst e; exact h
        · exact h' q hq
      · intro h' q hq; exact h' q (Or.inr hq)

theorem Nodes.removeLoop_some {ns : Nodes} {name : Str} {l l' : List Nat} (h : ns.removeLoop name l = some l') :
    ∃ a p b, l = a ++ p :: b ∧ l' = a ++ b ∧ (ns.deref p).map Node.name = some name ∧
      ∀ q ∈ a, (ns.deref q).map Node.name ≠ some name := by
  induction l generalizing l' with
  | nil => simp [Nodes.removeLoop] at h
  | cons p ps ih =>
    simp only [Nodes.removeLoop] at h
    split at h
    · rename_i hp; cases h
      exact ⟨[], p, ps, rfl, rfl, hp, fun _ h => nomatch h⟩
    · rename_i hp
      cases hr : ns.removeLoop name ps with
      | none => simp [hr] at h
      | some l'' =>
        simp [hr] at h
        obtain ⟨a, q, b, h1, h2, h3, h4⟩ := ih hr
        refine ⟨p :: a, q, b, by simp [h1], by simp [← h, h2], h3, fun x hx => ?_⟩
        rcases List.mem_cons.1 hx with e | hx
        · subst e; exact hp
        · exact h4 x hx

/-- `Remove` of an absent name. -/
theorem NodesInv.remove_absent {ns : Nodes} (h : NodesInv ns) {name : Str} (hn : mget ns.lookup name = none) :
    ns.remove name = (ns, some (.nodeNotFound name)) := by
  have : ns.removeLoop name ns.list = none := by
    rw [Nodes.removeLoop_none]
    intro p hp hc
    cases hd : ns.deref p with
    | none => simp [hd] at hc
    | some n =>
      simp [hd] at hc
      have := (h.look name p).2 ⟨hp, n, hd, hc⟩
      rw [hn] at this; cases this
  simp [Nodes.remove, this]

/-- `Remove` of a present name. -/
theorem NodesInv.remove_present {ns : Nodes} (h : NodesInv ns) {name : Str} {p : Nat} (hn : mget ns.lookup name = some p) :
    ns.remove name = ({ ns with lookup := mdel ns.lookup name, list := ns.list.erase p }, none) := by
  obtain ⟨n, hd, hname, _, hl⟩ := h.find_eq hn
  unfold Nodes.remove
  cases hr : ns.removeLoop name ns.list with
  | none =>
    rw [Nodes.removeLoop_none] at hr
    exact absurd (by simp [hd, hname]) (hr p hl)
  | some l' =>
    obtain ⟨a, q, b, h1, h2, h3, h4⟩ := Nodes.removeLoop_some hr
    have hq : q = p := by
      cases hdq : ns.deref q with
      | none => simp [hdq] at h3
      | some nq =>
        simp [hdq] at h3
        have := (h.look name q).2 ⟨by simp [h1], nq, hdq, h3⟩
        rw [hn] at this; cases this; rfl
    subst hq
    have hnot : q ∉ a := fun hqa => h4 q hqa h3
    have : l' = ns.list.erase q := by rw [h1, h2, List.erase_append_right _ hnot]; simp
    simp [this]

theorem NodesInv.removed {ns : Nodes} (h : NodesInv ns) {name : Str} {p : Nat} (hn : mget ns.lookup name = some p) :
    NodesInv { ns with lookup := mdel ns.lookup name, list := ns.list.erase p } := by
  refine ⟨h.wf.mdel _, h.nodup.erase _, fun x q => ?_, h.attrs, fun q hq => h.valid q (List.mem_of_mem_erase hq)⟩
  obtain ⟨n, hd, hname, _, hl⟩ := h.find_eq hn
  simp only [mget_mdel, h.nodup.mem_erase_iff, Nodes.deref]
  constructor
  · intro hq
    split at hq
    · cases hq
    · rename_i hx
      obtain ⟨hql, n', hn', hx'⟩ := (h.look x q).1 hq
      refine ⟨⟨?_, hql⟩, n', hn', hx'⟩
      intro e; subst e
      rw [hd] at hn'; cases hn'
      exact hx (hname.symm.trans hx')
  · rintro ⟨⟨hne, hql⟩, n', hn', hx'⟩
    have := (h.look x q).2 ⟨hql, n', hn', hx'⟩
    rw [if_neg]
    · exact this
    · intro e; subst e; rw [hn] at this; cases this; exact hne rfl

theorem NodesInv.find_removed {ns : Nodes} {name : Str} {p : Nat} (x : Str) :
    Nodes.find { ns with lookup := mdel ns.lookup name, list := ns.list.erase p } x =
      if name = x then none else ns.find x := by
  simp only [Nodes.find, mget_mdel]
  split <;> rfl

/-- Names in list order. -/
def Nodes.names (ns : Nodes) : List Str := ns.list.filterMap fun p => (ns.deref p).map Node.name

theorem mget_orInit {α : Type} (i : Map α) (k : Str) (d : α) :
    mget (if mhas i k then i else mset i k d) k = some ((mget i k).getD d) := by
  by_cases h : mhas i k = true
  · obtain ⟨v, hv⟩ := (mhas_iff_mget i k).1 h
    simp [h, hv]
  · have : mget i k = none := by simpa [mhas] using h
    simp [h, mget_mset, this]

/-! ### edges -/

/-- Lookup in a two-level map. -/
def mget2 {α : Type} (m : Map (Map α)) (k1 k2 : Str) : Option α := (mget m k1).bind fun inner => mget inner k2

theorem mget_edgeIndexAdd {α : Type} (m : Map (Map (List α))) (k1 k2 : Str) (e : α) (x : Str) :
    mget (edgeIndexAdd m k1 k2 e) x =
      if k1 = x then some (mset ((mget m k1).getD []) k2 (((mget ((mget m k1).getD []) k2).getD []) ++ [e])) else mget m x := by
  unfold edgeIndexAdd
  simp only
  have inner : ∀ (i : Map (List α)), mget (if mhas i k2 then i else mset i k2 []) k2 = some ((mget i k2).getD []) := by
    intro i
    exact mget_orInit i k2 []
  have innerS : ∀ (i : Map (List α)) (v : List α),
      mset (if mhas i k2 then i else mset i k2 []) k2 v = mset i k2 v := by
    intro i v
    split
    · rfl
    · rename_i hh
      clear inner
      have hn : mget i k2 = none := by simpa [mhas] using hh
      induction i with
      | nil => simp [mset, slt_irrefl]
      | cons e0 i ih =>
        obtain ⟨k0, v0⟩ := e0
        simp only [mget] at hn
        split at hn
        · cases hn
        · rename_i hne
          simp only [mset]
          by_cases h1 : slt k2 k0 = true
          · simp [h1, mset, slt_irrefl]
          · simp only [Bool.not_eq_true] at h1
            simp [h1, hne, mset]
            have hh' : mhas i k2 = false := by simp [mhas, hn]
            exact ih (by simp [hh']) hn
  have outer : (mget (if mhas m k1 then m else mset m k1 []) k1).getD [] = (mget m k1).getD [] := by
    rw [mget_orInit]; rfl
  rw [mget_mset, innerS, inner, outer]
  split
  · simp
  · rename_i hne
    split
    · rfl
    · simp [mget_mset, hne]

theorem MapWF.edgeIndexAdd {α : Type} {m : Map (Map (List α))} (h : MapWF m) (k1 k2 : Str) (e : α) :
    MapWF (edgeIndexAdd m k1 k2 e) := by
  unfold Gographviz.edgeIndexAdd
  simp only
  split
  · exact h.mset _ _
  · exact (h.mset _ _).mset _ _

/-- The edges with the given endpoints. -/
def edgesBetween (es : List Edge) (s d : Str) : List Edge := es.filter fun e => decide (e.src = s) && decide (e.dst = d)

/-- `[]` counts as absent. -/
def nonEmpty {α : Type} (l : List α) : Option (List α) := if l.isEmpty then none else some l

/-- The invariant of `Edges`. -/
structure EdgesInv (es : Edges) : Prop where
  wf1 : MapWF es.srcToDsts
  wf2 : MapWF es.dstToSrcs
  iwf1 : ∀ s i, mget es.srcToDsts s = some i → MapWF i
  iwf2 : ∀ s i, mget es.dstToSrcs s = some i → MapWF i
  src : ∀ s d, mget2 es.srcToDsts s d = nonEmpty (edgesBetween es.edges s d)
  dst : ∀ s d, mget2 es.dstToSrcs d s = nonEmpty (edgesBetween es.edges s d)
  ne1 : ∀ s i, mget es.srcToDsts s = some i → i ≠ []
  ne2 : ∀ s i, mget es.dstToSrcs s = some i → i ≠ []
  attrs : ∀ e ∈ es.edges, AttrsOk e.attrs

theorem EdgesInv.new : EdgesInv newEdges where
  wf1 := MapWF.nil
  wf2 := MapWF.nil
  iwf1 := fun s i h => by simp [newEdges, mget] at h
  iwf2 := fun s i h => by simp [newEdges, mget] at h
  src := fun s d => rfl
  dst := fun s d => rfl
  ne1 := fun s i h => by simp [newEdges, mget] at h
  ne2 := fun s i h => by simp [newEdges, mget] at h
  attrs := fun e h => by simp [newEdges] at h

theorem mset_ne_nil {α : Type} (m : Map α) (k : Str) (v : α) : mset m k v ≠ [] := by
  cases m with
  | nil => simp [mset]
  | cons e m => simp only [mset]; split <;> (try split) <;> simp

theorem nonEmpty_getD {α : Type} (l : List α) : (nonEmpty l).getD [] = l := by
  unfold nonEmpty; cases l <;> rfl

theorem nonEmpty_append {α : Type} (l : List α) (a : α) : nonEmpty (l ++ [a]) = some (l ++ [a]) := by
  unfold nonEmpty; cases l <;> rfl

theorem mget2_edgeIndexAdd {α : Type} (m : Map (Map (List α))) (k1 k2 : Str) (e : α) (x y : Str) :
    mget2 (edgeIndexAdd m k1 k2 e) x y =
      if k1 = x ∧ k2 = y then some ((mget2 m x y).getD [] ++ [e]) else mget2 m x y := by
  unfold mget2
  rw [mget_edgeIndexAdd]
  by_cases h1 : k1 = x
  · subst h1
    simp only [if_true, Option.bind_some, mget_mset, true_and]
    by_cases h2 : k2 = y
    · subst h2
      simp only [if_true]
      cases mget m k1 with
      | none => simp [mget]
      | some i => simp
    · simp only [h2, if_false]
      cases mget m k1 with
      | none => simp [mget]
      | some i => simp
  · simp [h1]

theorem EdgesInv.add {es : Edges} (h : EdgesInv es) (e : Edge) (ha : AttrsOk e.attrs) : EdgesInv (es.add e) := by
  have between : ∀ s d, edgesBetween (es.edges ++ [e]) s d =
      if e.src = s ∧ e.dst = d then edgesBetween es.edges s d ++ [e] else edgesBetween es.edges s d := by
    intro s d
    simp only [edgesBetween, List.filter_append]
    split
    · rename_i hh; simp [hh.1, hh.2]
    · rename_i hh
      have : (decide (e.src = s) && decide (e.dst = d)) = false := by
        simp only [Bool.and_eq_false_iff, decide_eq_false_iff_not]
        exact Decidable.not_and_iff_not_or_not.1 hh
      simp [this]
  refine ⟨h.wf1.edgeIndexAdd _ _ _, h.wf2.edgeIndexAdd _ _ _, fun s i hi => ?_, fun s i hi => ?_, fun s d => ?_, fun s d => ?_,
    fun s i hi => ?_, fun s i hi => ?_, fun e' he => ?_⟩
  · simp only [Edges.add, mget_edgeIndexAdd] at hi
    split at hi
    · cases hi
      apply MapWF.mset
      cases hm : mget es.srcToDsts e.src with
      | none => exact MapWF.nil
      | some i => exact h.iwf1 _ i hm
    · exact h.iwf1 s i hi
  · simp only [Edges.add, mget_edgeIndexAdd] at hi
    split at hi
    · cases hi
      apply MapWF.mset
      cases hm : mget es.dstToSrcs e.dst with
      | none => exact MapWF.nil
      | some i => exact h.iwf2 _ i hm
    · exact h.iwf2 s i hi
  · simp only [Edges.add, mget2_edgeIndexAdd, between]
    split
    · rw [h.src, nonEmpty_getD, nonEmpty_append]
    · exact h.src s d
  · simp only [Edges.add, mget2_edgeIndexAdd, between]
    by_cases hh : e.dst = d ∧ e.src = s
    · rw [if_pos hh, if_pos ⟨hh.2, hh.1⟩, h.dst, nonEmpty_getD, nonEmpty_append]
    · rw [if_neg hh, if_neg (fun h' => hh ⟨h'.2, h'.1⟩)]; exact h.dst s d
  · simp only [Edges.add, mget_edgeIndexAdd] at hi
    split at hi
    · cases hi; exact mset_ne_nil _ _ _
    · exact h.ne1 s i hi
  · simp only [Edges.add, mget_edgeIndexAdd] at hi
    split at hi
    · cases hi; exact mset_ne_nil _ _ _
    · exact h.ne2 s i hi
  · simp only [Edges.add, List.mem_append, List.mem_singleton] at he
    rcases he with he | he
    · exact h.attrs e' he
    · subst he; exact ha

theorem edgesRebuild_spec (keep : Edge → Bool) (es : List Edge) (hes : ∀ e ∈ es, AttrsOk e.attrs) :
    EdgesInv (edgesRebuild keep es) ∧ (edgesRebuild keep es).edges = es.filter keep := by
  unfold edgesRebuild
  suffices ∀ acc : Edges, EdgesInv acc →
      EdgesInv (es.foldl (fun acc e => if keep e then acc.add e else acc) acc) ∧
      (es.foldl (fun acc e => if keep e then acc.add e else acc) acc).edges = acc.edges ++ es.filter keep by
    simpa [newEdges] using this newEdges EdgesInv.new
  induction es with
  | nil => intro acc h; simpa using h
  | cons e es ih =>
    intro acc h
    simp only [List.foldl_cons]
    cases hk : keep e with
    | true =>
      have := ih (fun e he => hes e (List.mem_cons_of_mem _ he)) (acc.add e) (h.add e (hes e (List.mem_cons_self ..)))
      simp only [if_true, hk, List.filter_cons] at *
      exact ⟨this.1, by rw [this.2]; simp [Edges.add]⟩
    | false =>
      simp only [hk, List.filter_cons]
      exact ih (fun e he => hes e (List.mem_cons_of_mem _ he)) acc h

theorem edgesRebuild_edges (keep : Edge → Bool) (es : List Edge) : (edgesRebuild keep es).edges = es.filter keep := by
  unfold edgesRebuild
  suffices ∀ acc : Edges,
      (es.foldl (fun acc e => if keep e then acc.add e else acc) acc).edges = acc.edges ++ es.filter keep by
    simpa [newEdges] using this newEdges
  induction es with
  | nil => intro acc; simp
  | cons e es ih =>
    intro acc
    simp only [List.foldl_cons, List.filter_cons]
    cases hk : keep e with
    | true => simp only [if_true, ih]; simp [Edges.add]
    | false => simp [ih]

/-- The index maps are a function of the edge list. -/
theorem EdgesInv.ext {a b : Edges} (ha : EdgesInv a) (hb : EdgesInv b) (he : a.edges = b.edges) : a = b := by
  have aux : ∀ (m m' : Map (Map (List Edge))), MapWF m → MapWF m' → (∀ s i, mget m s = some i → MapWF i) →
      (∀ s i, mget m' s = some i → MapWF i) → (∀ s i, mget m s = some i → i ≠ []) → (∀ s i, mget m' s = some i → i ≠ []) →
      (∀ s d, mget2 m s d = mget2 m' s d) → m = m' := by
    intro m m' h1 h2 h3 h4 h5 h6 h7
    apply Map.ext h1 h2
    intro k
    cases hm : mget m k with
    | none =>
      cases hm' : mget m' k with
      | none => rfl
      | some i =>
        cases i with
        | nil => exact absurd rfl (h6 k [] hm')
        | cons e i => have := h7 k e.1; simp [mget2, hm, hm', mget] at this
    | some i =>
      cases hm' : mget m' k with
      | none =>
        cases i with
        | nil => exact absurd rfl (h5 k [] hm)
        | cons e i => have := h7 k e.1; simp [mget2, hm, hm', mget] at this
      | some i' =>
        congr 1
        apply Map.ext (h3 k i hm) (h4 k i' hm')
        intro d
        have := h7 k d
        simpa [mget2, hm, hm'] using this
  obtain ⟨a1, a2, a3⟩ := a
  obtain ⟨b1, b2, b3⟩ := b
  simp only at he
  subst he
  have e1 := aux a1 b1 ha.wf1 hb.wf1 ha.iwf1 hb.iwf1 ha.ne1 hb.ne1 (fun s d => (ha.src s d).trans (hb.src s d).symm)
  have e2 := aux a2 b2 ha.wf2 hb.wf2 ha.iwf2 hb.iwf2 ha.ne2 hb.ne2 (fun d s => (ha.dst s d).trans (hb.dst s d).symm)
  rw [e1, e2]

/-! ### relations -/

/-- The invariant of `Relations`. -/
structure RelInv (r : Relations) : Prop where
  wf1 : MapWF r.parentToChildren
  wf2 : MapWF r.childToParents
  iwf1 : ∀ s, MapWF (r.children s)
  iwf2 : ∀ s, MapWF (r.parents s)
  inv : ∀ p c, mhas (r.children p) c = mhas (r.parents c) p
  tt : ∀ p c b, mget (r.children p) c = some b → b = true
  tt2 : ∀ p c b, mget (r.parents c) p = some b → b = true

theorem mget_relIndexAdd (m : Map (Map Bool)) (k1 k2 x : Str) :
    (mget (relIndexAdd m k1 k2) x).getD [] = if k1 = x then mset ((mget m x).getD []) k2 true else (mget m x).getD [] := by
  unfold relIndexAdd
  simp only
  rw [mget_mset]
  split
  · rename_i e; subst e
    rw [mget_orInit]; rfl
  · rename_i hne
    split
    · rfl
    · rw [mget_mset_ne _ _ hne]

theorem MapWF.relIndexAdd {m : Map (Map Bool)} (h : MapWF m) (k1 k2 : Str) : MapWF (relIndexAdd m k1 k2) := by
  unfold Gographviz.relIndexAdd
  simp only
  split
  · exact h.mset _ _
  · exact (h.mset _ _).mset _ _

theorem mget_relIndexDel (m : Map (Map Bool)) (k1 k2 x : Str) :
    (mget (relIndexDel m k1 k2) x).getD [] = if k1 = x then mdel ((mget m x).getD []) k2 else (mget m x).getD [] := by
  unfold relIndexDel
  cases h : mget m k1 with
  | none =>
    simp only
    split
    · rename_i e; subst e; simp [h, mdel]
    · rfl
  | some i =>
    simp only [mget_mset]
    split
    · rename_i e; subst e; simp [h]
    · rfl

theorem MapWF.relIndexDel {m : Map (Map Bool)} (h : MapWF m) (k1 k2 : Str) : MapWF (relIndexDel m k1 k2) := by
  unfold Gographviz.relIndexDel
  split
  · exact h.mset _ _
  · exact h

theorem Relations.children_add (r : Relations) (p c x : Str) :
    (r.add p c).children x = if p = x then mset (r.children x) c true else r.children x := mget_relIndexAdd _ _ _ _

theorem Relations.parents_add (r : Relations) (p c x : Str) :
    (r.add p c).parents x = if c = x then mset (r.parents x) p true else r.parents x := mget_relIndexAdd _ _ _ _

theorem Relations.children_remove (r : Relations) (p c x : Str) :
    (r.remove p c).children x = if p = x then mdel (r.children x) c else r.children x := mget_relIndexDel _ _ _ _

theorem Relations.parents_remove (r : Relations) (p c x : Str) :
    (r.remove p c).parents x = if c = x then mdel (r.parents x) p else r.parents x := mget_relIndexDel _ _ _ _

theorem RelInv.new : RelInv newRelations where
  wf1 := MapWF.nil
  wf2 := MapWF.nil
  iwf1 := fun s => MapWF.nil
  iwf2 := fun s => MapWF.nil
  inv := fun p c => rfl
  tt := fun p c b h => by cases h
  tt2 := fun p c b h => by cases h

theorem RelInv.add {r : Relations} (h : RelInv r) (p c : Str) : RelInv (r.add p c) := by
  refine ⟨h.wf1.relIndexAdd _ _, h.wf2.relIndexAdd _ _, fun s => ?_, fun s => ?_, fun p' c' => ?_, fun p' c' b hb => ?_,
    fun p' c' b hb => ?_⟩
  · rw [Relations.children_add]; split
    · exact (h.iwf1 s).mset _ _
    · exact h.iwf1 s
  · rw [Relations.parents_add]; split
    · exact (h.iwf2 s).mset _ _
    · exact h.iwf2 s
  · rw [Relations.children_add, Relations.parents_add]
    by_cases h1 : p = p'
    · by_cases h2 : c = c'
      · simp [h1, h2, mhas_mset]
      · simp [h1, h2, mhas_mset, h.inv]
    · by_cases h2 : c = c'
      · simp [h1, h2, mhas_mset, h.inv]
      · simp [h1, h2, h.inv]
  · rw [Relations.children_add] at hb
    split at hb
    · rw [mget_mset] at hb; split at hb
      · cases hb; rfl
      · exact h.tt _ _ _ hb
    · exact h.tt _ _ _ hb
  · rw [Relations.parents_add] at hb
    split at hb
    · rw [mget_mset] at hb; split at hb
      · cases hb; rfl
      · exact h.tt2 _ _ _ hb
    · exact h.tt2 _ _ _ hb

theorem RelInv.remove {r : Relations} (h : RelInv r) (p c : Str) : RelInv (r.remove p c) := by
  refine ⟨h.wf1.relIndexDel _ _, h.wf2.relIndexDel _ _, fun s => ?_, fun s => ?_, fun p' c' => ?_, fun p' c' b hb => ?_,
    fun p' c' b hb => ?_⟩
  · rw [Relations.children_remove]; split
    · exact (h.iwf1 s).mdel _
    · exact h.iwf1 s
  · rw [Relations.parents_remove]; split
    · exact (h.iwf2 s).mdel _
    · exact h.iwf2 s
  · rw [Relations.children_remove, Relations.parents_remove]
    by_cases h1 : p = p'
    · by_cases h2 : c = c'
      · simp [h1, h2, mhas_mdel]
      · simp [h1, h2, mhas_mdel, h.inv]
    · by_cases h2 : c = c'
      · simp [h1, h2, mhas_mdel, h.inv]
      · simp [h1, h2, h.inv]
  · rw [Relations.children_remove] at hb
    split at hb
    · rw [mget_mdel] at hb; split at hb
      · cases hb
      · exact h.tt _ _ _ hb
    · exact h.tt _ _ _ hb
  · rw [Relations.parents_remove] at hb
    split at hb
    · rw [mget_mdel] at hb; split at hb
      · cases hb
      · exact h.tt2 _ _ _ hb
    · exact h.tt2 _ _ _ hb

/-! ### subgraphs -/

/-- The invariant of `SubGraphs`. -/
structure SubsInv (m : Map SubGraph) : Prop where
  wf : MapWF m
  name : ∀ k s, mget m k = some s → s.name = k
  attrs : ∀ k s, mget m k = some s → AttrsOk s.attrs

theorem SubsInv.nil : SubsInv [] := ⟨MapWF.nil, (fun _ _ h => nomatch h), (fun _ _ h => nomatch h)⟩

theorem SubsInv.mset {m : Map SubGraph} (h : SubsInv m) {s : SubGraph} (ha : AttrsOk s.attrs) : SubsInv (mset m s.name s) := by
  refine ⟨h.wf.mset _ _, fun k s' hs => ?_, fun k s' hs => ?_⟩
  · rw [mget_mset] at hs; split at hs
    · rename_i e; cases hs; exact e
    · exact h.name k s' hs
  · rw [mget_mset] at hs; split at hs
    · cases hs; exact ha
    · exact h.attrs k s' hs

theorem SubsInv.mdel {m : Map SubGraph} (h : SubsInv m) (k : Str) : SubsInv (mdel m k) := by
  refine ⟨h.wf.mdel _, fun k s' hs => ?_, fun k s' hs => ?_⟩
  · rw [mget_mdel] at hs; split at hs
    · cases hs
    · exact h.name k s' hs
  · rw [mget_mdel] at hs; split at hs
    · cases hs
    · exact h.attrs k s' hs

theorem SubsInv.add {m : Map SubGraph} (h : SubsInv m) (name : Str) : SubsInv (subGraphsAdd m name) := by
  unfold subGraphsAdd
  split
  · exact h
  · exact h.mset (s := ⟨[], name⟩) AttrsOk.nil

theorem mget_subGraphsAdd (m : Map SubGraph) (name x : Str) :
    mget (subGraphsAdd m name) x = if name = x then some ((mget m x).getD ⟨[], name⟩) else mget m x := by
  unfold subGraphsAdd
  by_cases h : mhas m name = true
  · obtain ⟨v, hv⟩ := (mhas_iff_mget m name).1 h
    simp only [h, if_true]
    split
    · rename_i e; subst e; simp [hv]
    · rfl
  · have hn : mget m name = none := by simpa [mhas] using h
    rw [if_neg h, mget_mset]
    split
    · rename_i e; subst e; simp [hn]
    · rfl

end Gographviz
