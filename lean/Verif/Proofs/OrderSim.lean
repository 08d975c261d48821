import Verif.Proofs.AnyOrder
/-!
Two runs of the analyser on `Graph`s with different iteration orders.
-/
namespace Gographviz

open Spec
open Ast (Stmt Loc EdgeRH AttrList NodeID)

/-- A choice of iteration orders. -/
abbrev Ords := Nat → Map Str → List (Str × Str)

/-- Every order visits every entry exactly once. -/
def Ords.Ok (o : Ords) : Prop := ∀ i m, (o i m).Perm m

/-- What the success of a call depends on. -/
structure SameShape (g g' : Graph) : Prop where
  name : g.name = g'.name
  subs : ∀ k, mhas g.subGraphs k = mhas g'.subGraphs k

theorem SameShape.refl (g : Graph) : SameShape g g := ⟨rfl, fun _ => rfl⟩
theorem SameShape.symm {g g' : Graph} (h : SameShape g g') : SameShape g' g := ⟨h.name.symm, fun k => (h.subs k).symm⟩
theorem SameShape.trans {g g' g'' : Graph} (h : SameShape g g') (h' : SameShape g' g'') : SameShape g g'' :=
  ⟨h.name.trans h'.name, fun k => (h.subs k).trans (h'.subs k)⟩

/-- The relation between two runs. -/
structure Sim (c c' : Catcher (Graph × Nat)) : Prop where
  errs : c.errs.length = c'.errs.length
  shape : SameShape c.g.1 c'.g.1
  same : c.errs = [] → c.g.1 = c'.g.1
  inv : c.errs = [] → GInv c.g.1

theorem Sim.record {c c' : Catcher (Graph × Nat)} (h : Sim c c') {r r' : (Graph × Nat) × Option Err}
    (he : r.2.isSome = r'.2.isSome) (hs : SameShape r.1.1 r'.1.1)
    (hok : c.g.1 = c'.g.1 → GInv c.g.1 → r.2 = none → r.1.1 = r'.1.1 ∧ GInv r.1.1) : Sim (c.record r) (c'.record r') := by
  obtain ⟨g, e⟩ := r
  obtain ⟨g', e'⟩ := r'
  cases e with
  | none =>
    cases e' with
    | some _ => simp at he
    | none =>
      simp only [Catcher.record]
      exact ⟨h.errs, hs, fun h0 => (hok (h.same h0) (h.inv h0) rfl).1, fun h0 => (hok (h.same h0) (h.inv h0) rfl).2⟩
  | some e =>
    cases e' with
    | none => simp at he
    | some e' =>
      simp only [Catcher.record]
      refine ⟨by simp [h.errs], hs, fun h0 => ?_, fun h0 => ?_⟩ <;> simp at h0

/-! ### single calls -/

theorem allReg_perm_iff {a b : List (Str × Str)} (hp : a.Perm b) : AllReg a ↔ AllReg b := ⟨fun h => h.perm hp, fun h => h.perm hp.symm⟩

theorem shape_addNode (g : Graph) (p n : Str) (as : List (Str × Str)) : SameShape (g.addNode p n as).1 g := by
  unfold Graph.addNode
  split <;> exact ⟨rfl, fun _ => rfl⟩

theorem shape_addPortEdge (g : Graph) (s sp d dp : Str) (dir : Bool) (as : List (Str × Str)) : SameShape (g.addPortEdge s sp d dp dir as).1 g := by
  unfold Graph.addPortEdge
  split <;> exact ⟨rfl, fun _ => rfl⟩

theorem shape_addAttr (g : Graph) (n k v : Str) : SameShape (g.addAttr n k v).1 g := by
  unfold Graph.addAttr
  split
  · split <;> exact ⟨rfl, fun _ => rfl⟩
  · split
    · exact SameShape.refl g
    · rename_i s hs
      split
      · exact SameShape.refl g
      · refine ⟨rfl, fun x => ?_⟩
        simp only [mhas_mset]
        by_cases hx : n = x
        · subst hx; simp [mhas, hs]
        · simp [hx]

theorem shape_addAttrs (n : Str) (as : List (Str × Str)) : ∀ g : Graph, SameShape (g.addAttrs n as).1 g := by
  induction as with
  | nil => intro g; exact SameShape.refl g
  | cons e as ih =>
    obtain ⟨k, v⟩ := e
    intro g
    simp only [Graph.addAttrs]
    have h := shape_addAttr g n k v
    split
    · rename_i g' e he
      rw [he] at h; exact h
    · rename_i g' he
      rw [he] at h; exact (ih g').trans h

theorem mhas_subGraphsAdd (m : Map SubGraph) (n k : Str) : mhas (subGraphsAdd m n) k = (decide (n = k) || mhas m k) := by
  unfold subGraphsAdd
  by_cases h : mhas m n = true
  · rw [if_pos h]
    by_cases hk : n = k
    · subst hk; simp [h]
    · simp [hk]
  · rw [if_neg h, mhas_mset]

theorem shape_addSubGraph {g g' : Graph} (h : SameShape g g') (p n : Str) (as as' : List (Str × Str)) :
    SameShape (g.addSubGraph p n as).1 (g'.addSubGraph p n as').1 := by
  unfold Graph.addSubGraph
  refine (shape_addAttrs _ _ _).trans (SameShape.trans ?_ (shape_addAttrs _ _ _).symm)
  refine ⟨h.name, fun k => ?_⟩
  simp only [mhas_subGraphsAdd, h.subs]

theorem addNode_isSome (g : Graph) (p n : Str) (as : List (Str × Str)) : (g.addNode p n as).2 = none ↔ AllReg as := by
  by_cases h : AllReg as
  · rw [addNode_ok g p n h]; simp [h]
  · obtain ⟨e, _, _, h'⟩ := addNode_bad g p n h
    rw [h']; simp [h]

theorem addPortEdge_isSome (g : Graph) (s sp d dp : Str) (dir : Bool) (as : List (Str × Str)) :
    (g.addPortEdge s sp d dp dir as).2 = none ↔ AllReg as := by
  by_cases h : AllReg as
  · rw [addPortEdge_ok g s sp d dp dir h]; simp [h]
  · obtain ⟨e, _, _, h'⟩ := addPortEdge_bad g s sp d dp dir h
    rw [h']; simp [h]

theorem addAttrs_isSome {n : Str} {as : List (Str × Str)} : ∀ {g : Graph}, mhas g.subGraphs n = true → ((g.addAttrs n as).2 = none ↔ AllReg as) := by
  induction as with
  | nil => intro g _; simp [Graph.addAttrs, AllReg]
  | cons e as ih =>
    obtain ⟨k, v⟩ := e
    intro g hs
    simp only [Graph.addAttrs]
    by_cases hk : Registered k
    · have hsh := shape_addAttr g n k v
      obtain ⟨s, hs'⟩ := (mhas_iff_mget _ _).1 hs
      have hnone : (g.addAttr n k v).2 = none := by
        by_cases hn : g.name = n
        · subst hn; rw [addAttr_root g v hk]
        · rw [addAttr_sub g v hk hn hs']
      split
      · rename_i g' e he; rw [he] at hnone; simp at hnone
      · rename_i g' he
        rw [he] at hsh
        rw [ih (by rw [hsh.subs]; exact hs)]
        constructor
        · intro h e he'
          rcases List.mem_cons.1 he' with rfl | he'
          · exact hk
          · exact h e he'
        · exact fun h e he' => h e (List.mem_cons_of_mem _ he')
    · rw [addAttr_bad g n v hk]
      simp only [reduceCtorEq, false_iff]
      exact fun h => hk (h (k, v) (List.mem_cons_self ..))

theorem addSubGraph_isSome (g : Graph) (p n : Str) (as : List (Str × Str)) : (g.addSubGraph p n as).2 = none ↔ AllReg as := by
  unfold Graph.addSubGraph
  exact addAttrs_isSome (by simp [mhas_subGraphsAdd])

theorem isSome_of_iff {α β : Type} {a : Option α} {b : Option β} (h : a = none ↔ b = none) : a.isSome = b.isSome := by
  cases a <;> cases b <;> simp_all

section calls
variable {o o' : Ords} {c c' : Catcher (Graph × Nat)}

theorem Sim.addNode (ho : o.Ok) (ho' : o'.Ok) (h : Sim c c') (p n : Str) {m : Map Str} (hm : MapWF m) :
    Sim (c.record ((graphIfaceAny o).addNode c.g p n m)) (c'.record ((graphIfaceAny o').addNode c'.g p n m)) := by
  have hp : (o c.g.2 m).Perm (o' c'.g.2 m) := (ho _ _).trans (ho' _ _).symm
  apply h.record
  · exact isSome_of_iff ((addNode_isSome ..).trans ((allReg_perm_iff hp).trans (addNode_isSome ..).symm))
  · exact (shape_addNode ..).trans (h.shape.trans (shape_addNode ..).symm)
  · intro hg hi hn
    have hr := (addNode_isSome _ _ _ _).1 hn
    show (c.g.1.addNode p n (o c.g.2 m)).1 = (c'.g.1.addNode p n (o' c'.g.2 m)).1 ∧ _
    have hnd : ((o c.g.2 m).map Prod.fst).Nodup := ((ho c.g.2 m).map Prod.fst).nodup_iff.2 hm.nodup
    rw [← hg, addNode_ok _ _ _ hr, addNode_ok _ _ _ (hr.perm hp), msetAll_perm MapWF.nil hp hnd]
    refine ⟨rfl, ?_⟩
    have := hi.addNode p n (o c.g.2 m)
    exact this

theorem Sim.addPortEdge (ho : o.Ok) (ho' : o'.Ok) (h : Sim c c') (s sp d dp : Str) (dir : Bool) {m : Map Str} (hm : MapWF m) :
    Sim (c.record ((graphIfaceAny o).addPortEdge c.g s sp d dp dir m)) (c'.record ((graphIfaceAny o').addPortEdge c'.g s sp d dp dir m)) := by
  have hp : (o c.g.2 m).Perm (o' c'.g.2 m) := (ho _ _).trans (ho' _ _).symm
  apply h.record
  · exact isSome_of_iff ((addPortEdge_isSome ..).trans ((allReg_perm_iff hp).trans (addPortEdge_isSome ..).symm))
  · exact (shape_addPortEdge ..).trans (h.shape.trans (shape_addPortEdge ..).symm)
  · intro hg hi hn
    have hr := (addPortEdge_isSome _ _ _ _ _ _ _).1 hn
    show (c.g.1.addPortEdge s sp d dp dir (o c.g.2 m)).1 = (c'.g.1.addPortEdge s sp d dp dir (o' c'.g.2 m)).1 ∧ _
    have hnd : ((o c.g.2 m).map Prod.fst).Nodup := ((ho c.g.2 m).map Prod.fst).nodup_iff.2 hm.nodup
    rw [← hg, addPortEdge_ok _ _ _ _ _ _ hr, addPortEdge_ok _ _ _ _ _ _ (hr.perm hp), msetAll_perm MapWF.nil hp hnd]
    refine ⟨rfl, ?_⟩
    have := hi.addPortEdge s sp d dp dir (o c.g.2 m)
    exact this

theorem Sim.addSubGraph (ho : o.Ok) (ho' : o'.Ok) (h : Sim c c') (p n : Str) {m : Map Str} (hm : MapWF m) :
    Sim (c.record ((graphIfaceAny o).addSubGraph c.g p n m)) (c'.record ((graphIfaceAny o').addSubGraph c'.g p n m)) := by
  have hp : (o c.g.2 m).Perm (o' c'.g.2 m) := (ho _ _).trans (ho' _ _).symm
  apply h.record
  · exact isSome_of_iff ((addSubGraph_isSome ..).trans ((allReg_perm_iff hp).trans (addSubGraph_isSome ..).symm))
  · exact shape_addSubGraph h.shape ..
  · intro hg hi hn
    have hr := (addSubGraph_isSome _ _ _ _).1 hn
    show (c.g.1.addSubGraph p n (o c.g.2 m)).1 = (c'.g.1.addSubGraph p n (o' c'.g.2 m)).1 ∧ _
    have hnd : ((o c.g.2 m).map Prod.fst).Nodup := ((ho c.g.2 m).map Prod.fst).nodup_iff.2 hm.nodup
    refine ⟨?_, hi.addSubGraph p n (o c.g.2 m)⟩
    have hw : MapWF (((mget c.g.1.subGraphs n).map SubGraph.attrs).getD []) := by
      cases hm : mget c.g.1.subGraphs n with
      | none => exact MapWF.nil
      | some s => exact (hi.subs.attrs n s hm).wf
    rw [← hg, addSubGraph_ok hi _ _ hr, addSubGraph_ok hi _ _ (hr.perm hp), msetAll_perm hi.attrs.wf hp hnd, msetAll_perm hw hp hnd]

/-- Can `AddAttr` find the graph? -/
def Target (g : Graph) (n : Str) : Prop := g.name = n ∨ mhas g.subGraphs n = true

theorem SameShape.target {g g' : Graph} (h : SameShape g g') (n : Str) : Target g n ↔ Target g' n := by
  unfold Target; rw [h.name, h.subs]

theorem addAttr_isSome (g : Graph) (n k v : Str) : (g.addAttr n k v).2 = none ↔ Target g n ∧ Registered k := by
  by_cases hk : Registered k
  · by_cases hn : g.name = n
    · subst hn; rw [addAttr_root g v hk]; simp [Target, hk]
    · cases hs : mget g.subGraphs n with
      | none => rw [addAttr_none g k v hn hs]; simp [Target, hn, mhas, hs]
      | some s => rw [addAttr_sub g v hk hn hs]; simp [Target, hk, mhas, hs]
  · rw [addAttr_bad g n v hk]; simp [hk]

theorem Sim.addAttr (h : Sim c c') (n k v : Str) :
    Sim (c.record ((graphIfaceAny o).addAttr c.g n k v)) (c'.record ((graphIfaceAny o').addAttr c'.g n k v)) := by
  apply h.record
  · refine isSome_of_iff ?_
    show (c.g.1.addAttr n k v).2 = none ↔ (c'.g.1.addAttr n k v).2 = none
    rw [addAttr_isSome, addAttr_isSome, h.shape.target]
  · exact (shape_addAttr ..).trans (h.shape.trans (shape_addAttr ..).symm)
  · intro hg hi hn
    show (c.g.1.addAttr n k v).1 = (c'.g.1.addAttr n k v).1 ∧ _
    rw [← hg]
    exact ⟨rfl, hi.addAttr n k v⟩

/-- The loop of `graph [..]` preserves the relation even if the two runs visit the entries in different orders. -/
theorem loop_errs (n : Str) (l : List (Str × Str)) : ∀ c : Catcher (Graph × Nat),
    (¬ Target c.g.1 n → (graphAttrsLoop (graphIfaceAny o) n c l).errs.length = c.errs.length + l.length) ∧
    (Target c.g.1 n → (graphAttrsLoop (graphIfaceAny o) n c l).errs.length = c.errs.length + l.countP (fun e => decide (¬ Registered e.1))) ∧
    SameShape (graphAttrsLoop (graphIfaceAny o) n c l).g.1 c.g.1 := by
  induction l with
  | nil => intro c; exact ⟨fun _ => rfl, fun _ => rfl, SameShape.refl _⟩
  | cons e l ih =>
    obtain ⟨k, v⟩ := e
    intro c
    simp only [graphAttrsLoop]
    have hsh : SameShape (c.record ((graphIfaceAny o).addAttr c.g n k v)).g.1 c.g.1 := by
      simp only [Catcher.record]
      split <;> exact shape_addAttr c.g.1 n k v
    obtain ⟨i1, i2, i3⟩ := ih (c.record ((graphIfaceAny o).addAttr c.g n k v))
    have hrec : (c.record ((graphIfaceAny o).addAttr c.g n k v)).errs.length = c.errs.length + (if (c.g.1.addAttr n k v).2 = none then 0 else 1) := by
      have hd : ((graphIfaceAny o).addAttr c.g n k v).2 = (c.g.1.addAttr n k v).2 := rfl
      simp only [Catcher.record, hd]
      cases (c.g.1.addAttr n k v).2 <;> simp
    refine ⟨fun ht => ?_, fun ht => ?_, i3.trans hsh⟩
    · rw [i1 (fun h' => ht ((hsh.target n).1 h')), hrec, if_neg (by rw [addAttr_isSome]; exact fun h' => ht h'.1)]
      simp only [List.length_cons]; omega
    · rw [i2 ((hsh.target n).2 ht), hrec, List.countP_cons]
      by_cases hk : Registered k
      · rw [if_pos ((addAttr_isSome _ _ _ _).2 ⟨ht, hk⟩)]
        simp [hk]
      · rw [if_neg (fun h' => hk ((addAttr_isSome _ _ _ _).1 h').2)]
        simp [hk]; omega

/-- The successful loop in closed form. -/
theorem loop_ok (n : Str) (l : List (Str × Str)) : ∀ c : Catcher (Graph × Nat), GInv c.g.1 → Target c.g.1 n → AllReg l →
    (graphAttrsLoop (graphIfaceAny o) n c l).g.1 =
      (if c.g.1.name = n then { c.g.1 with attrs := msetAll c.g.1.attrs l }
       else match mget c.g.1.subGraphs n with
        | none => c.g.1
        | some s => { c.g.1 with subGraphs := mset c.g.1.subGraphs n { s with attrs := msetAll s.attrs l } }) ∧
    GInv (graphAttrsLoop (graphIfaceAny o) n c l).g.1 := by
  induction l with
  | nil =>
    intro c hi ht _
    refine ⟨?_, hi⟩
    simp only [graphAttrsLoop, msetAll_nil]
    split
    · rfl
    · split
      · rfl
      · rename_i s hs
        rw [show ({ s with attrs := s.attrs } : SubGraph) = s from rfl, mset_self hi.subs.wf hs]
  | cons e l ih =>
    obtain ⟨k, v⟩ := e
    intro c hi ht hr
    have hk : Registered k := hr (k, v) (List.mem_cons_self ..)
    have hr' : AllReg l := fun e he => hr e (List.mem_cons_of_mem _ he)
    simp only [graphAttrsLoop]
    have hgr : (c.record ((graphIfaceAny o).addAttr c.g n k v)).g.1 = (c.g.1.addAttr n k v).1 := by
      simp only [Catcher.record]; split <;> rfl
    have hsh := shape_addAttr c.g.1 n k v
    have hi' := hi.addAttr n k v
    obtain ⟨i1, i2⟩ := ih (c.record ((graphIfaceAny o).addAttr c.g n k v)) (by rw [hgr]; exact hi')
      (by rw [hgr]; exact (hsh.target n).2 ht) hr'
    refine ⟨?_, i2⟩
    rw [i1, hgr]
    by_cases hn : c.g.1.name = n
    · subst hn
      rw [addAttr_root _ v hk]
      simp [msetAll_cons]
    · obtain ⟨s, hs⟩ := (mhas_iff_mget _ _).1 (ht.resolve_left hn)
      rw [addAttr_sub _ v hk hn hs]
      simp [hn, hs, mget_mset_self, msetAll_cons, mset_mset hi.subs.wf]

theorem Sim.loop (h : Sim c c') (n : Str) {l l' : List (Str × Str)} (hp : l.Perm l') (hn : (l.map Prod.fst).Nodup) :
    Sim (graphAttrsLoop (graphIfaceAny o) n c l) (graphAttrsLoop (graphIfaceAny o') n c' l') := by
  obtain ⟨a1, a2, a3⟩ := loop_errs (o := o) n l c
  obtain ⟨b1, b2, b3⟩ := loop_errs (o := o') n l' c'
  have ok : (graphAttrsLoop (graphIfaceAny o) n c l).errs = [] → l ≠ [] → c.errs = [] ∧ Target c.g.1 n ∧ AllReg l := by
    intro h0 hl
    have ht : Target c.g.1 n := Classical.byContradiction fun ht => by
      have := a1 ht; rw [h0] at this
      simp only [List.length_nil] at this
      have : l.length = 0 := by omega
      exact hl (List.eq_nil_of_length_eq_zero this)
    have := a2 ht; rw [h0] at this
    simp only [List.length_nil] at this
    have h1 : c.errs.length = 0 := by omega
    have h2 : l.countP (fun e => decide (¬ Registered e.1)) = 0 := by omega
    refine ⟨List.eq_nil_of_length_eq_zero h1, ht, fun e he => ?_⟩
    have := List.countP_eq_zero.1 h2 e he
    simpa using this
  have fin : (graphAttrsLoop (graphIfaceAny o) n c l).errs = [] →
      (graphAttrsLoop (graphIfaceAny o) n c l).g.1 = (graphAttrsLoop (graphIfaceAny o') n c' l').g.1 ∧
      GInv (graphAttrsLoop (graphIfaceAny o) n c l).g.1 := by
    intro h0
    by_cases hl : l = []
    · subst hl
      have := hp.nil_eq
      subst this
      exact ⟨h.same h0, h.inv h0⟩
    · obtain ⟨e0, ht, hr⟩ := ok h0 hl
      have hi := h.inv e0
      obtain ⟨x1, x2⟩ := loop_ok (o := o) n l c hi ht hr
      have hg := h.same e0
      obtain ⟨y1, _⟩ := loop_ok (o := o') n l' c' (hg ▸ hi) ((h.shape.target n).1 ht) (hr.perm hp)
      refine ⟨?_, x2⟩
      rw [x1, y1, ← hg]
      split
      · rw [msetAll_perm hi.attrs.wf hp hn]
      · split
        · rfl
        · rename_i s hs
          rw [msetAll_perm (hi.subs.attrs n s hs).wf hp hn]
  refine ⟨?_, a3.trans (h.shape.trans b3.symm), fun h0 => (fin h0).1, fun h0 => (fin h0).2⟩
  by_cases ht : Target c.g.1 n
  · rw [a2 ht, b2 ((h.shape.target n).1 ht), h.errs, hp.countP_eq]
  · rw [a1 ht, b1 (fun h' => ht ((h.shape.target n).2 h')), h.errs, hp.length_eq]

end calls

/-! ### the walk -/

/-- The maps of the visitor are maps. -/
structure VWF (w : Visitor) : Prop where
  node : MapWF w.nodeAttrs
  edge : MapWF w.edgeAttrs
  graph : MapWF w.graphAttrs

theorem getMap_wf (as : AttrList) : MapWF (Ast.getMap as) := by rw [getMap_eq]; exact mapOf_wf as

theorem newVisitor_wf (id : Str) (a b : Map Str) : VWF (newVisitor id a b) :=
  ⟨attrsAmmend_wf MapWF.nil _, attrsAmmend_wf MapWF.nil _, MapWF.nil⟩

section walk
variable {o o' l l' : Ords} (ho : o.Ok) (ho' : o'.Ok) (hl : l.Ok) (hl' : l'.Ok)
include ho ho'

theorem addNodeFromEdge_sim {w : Visitor} (hw : VWF w) {c c' : Catcher (Graph × Nat)} (h : Sim c c') (n : Str) :
    (addNodeFromEdge (graphIfaceAny o) w c n).1 = (addNodeFromEdge (graphIfaceAny o') w c' n).1 ∧
    VWF (addNodeFromEdge (graphIfaceAny o) w c n).1 ∧
    Sim (addNodeFromEdge (graphIfaceAny o) w c n).2 (addNodeFromEdge (graphIfaceAny o') w c' n).2 := by
  unfold addNodeFromEdge
  split
  · exact ⟨rfl, hw, h⟩
  · exact ⟨rfl, ⟨hw.node, hw.edge, hw.graph⟩, h.addNode ho ho' _ _ hw.node⟩

/-- The endpoint of an edge. -/
theorem endpoint_sim {w : Visitor} (hw : VWF w) {c c' : Catcher (Graph × Nat)} (h : Sim c c') (d : Loc) :
    (if d.isNode then addNodeFromEdge (graphIfaceAny o) w c d.getID else (w, c)).1 =
      (if d.isNode then addNodeFromEdge (graphIfaceAny o') w c' d.getID else (w, c')).1 ∧
    VWF (if d.isNode then addNodeFromEdge (graphIfaceAny o) w c d.getID else (w, c)).1 ∧
    Sim (if d.isNode then addNodeFromEdge (graphIfaceAny o) w c d.getID else (w, c)).2
      (if d.isNode then addNodeFromEdge (graphIfaceAny o') w c' d.getID else (w, c')).2 := by
  split
  · exact addNodeFromEdge_sim ho ho' hw h _
  · exact ⟨rfl, hw, h⟩

theorem edgeLoop_sim {attrs : Map Str} (ha : MapWF attrs) (rhs : List EdgeRH) :
    ∀ {w : Visitor} (_ : VWF w) {c c' : Catcher (Graph × Nat)} (_ : Sim c c') (src : Str) (sp : Ast.Port),
    (edgeLoop (graphIfaceAny o) attrs w c src sp rhs).1 = (edgeLoop (graphIfaceAny o') attrs w c' src sp rhs).1 ∧
    VWF (edgeLoop (graphIfaceAny o) attrs w c src sp rhs).1 ∧
    Sim (edgeLoop (graphIfaceAny o) attrs w c src sp rhs).2 (edgeLoop (graphIfaceAny o') attrs w c' src sp rhs).2 := by
  induction rhs with
  | nil => intro w hw c c' h src sp; exact ⟨rfl, hw, h⟩
  | cons r rest ih =>
    cases r with
    | mk op dst =>
      intro w hw c c' h src sp
      obtain ⟨h1, h2, h3⟩ := endpoint_sim ho ho' hw h dst
      simp only [edgeLoop]
      rw [← h1]
      exact ih h2 (h3.addPortEdge ho ho' _ _ _ _ _ ha) _ _

theorem edgeStmt_sim {w : Visitor} (hw : VWF w) {c c' : Catcher (Graph × Nat)} (h : Sim c c') (src : Loc) (rhs : List EdgeRH) (as : AttrList) :
    (edgeStmt (graphIfaceAny o) w c src rhs as).1 = (edgeStmt (graphIfaceAny o') w c' src rhs as).1 ∧
    VWF (edgeStmt (graphIfaceAny o) w c src rhs as).1 ∧
    Sim (edgeStmt (graphIfaceAny o) w c src rhs as).2 (edgeStmt (graphIfaceAny o') w c' src rhs as).2 := by
  obtain ⟨h1, h2, h3⟩ := endpoint_sim ho ho' hw h src
  simp only [edgeStmt]
  rw [← h1]
  exact edgeLoop_sim ho ho' (attrsAmmend_wf (getMap_wf as) _) rhs h2 h3 _ _

theorem nodeStmt_sim {w : Visitor} (hw : VWF w) {c c' : Catcher (Graph × Nat)} (h : Sim c c') (id : NodeID) (as : AttrList) :
    (nodeStmt (graphIfaceAny o) w c id as).1 = (nodeStmt (graphIfaceAny o') w c' id as).1 ∧
    VWF (nodeStmt (graphIfaceAny o) w c id as).1 ∧
    Sim (nodeStmt (graphIfaceAny o) w c id as).2 (nodeStmt (graphIfaceAny o') w c' id as).2 := by
  refine ⟨rfl, ?_, h.addNode ho ho' _ _ (attrsAmmend_wf (getMap_wf as) _)⟩
  simp only [nodeStmt]
  split
  · exact ⟨hw.node, hw.edge, hw.graph⟩
  · exact hw

include hl hl'

mutual
theorem walkStmtA_sim : ∀ (st : Stmt) {w : Visitor} (_ : VWF w) {c c' : Catcher (Graph × Nat)} (_ : Sim c c'),
    (walkStmtA (graphIfaceAny o) (fun g m => l g.2 m) w c st).1 = (walkStmtA (graphIfaceAny o') (fun g m => l' g.2 m) w c' st).1 ∧
    VWF (walkStmtA (graphIfaceAny o) (fun g m => l g.2 m) w c st).1 ∧
    Sim (walkStmtA (graphIfaceAny o) (fun g m => l g.2 m) w c st).2 (walkStmtA (graphIfaceAny o') (fun g m => l' g.2 m) w c' st).2
  | .node id as, w, hw, c, c', h => nodeStmt_sim ho ho' hw h id as
  | .edge src rhs as, w, hw, c, c', h => by
    obtain ⟨h1, h2, h3⟩ := edgeStmt_sim ho ho' hw h src rhs as
    simp only [walkStmtA]
    rw [← h1]
    exact ⟨rfl, h2, walkRHSA_sim rhs h2 (walkLocA_sim src h2 h3)⟩
  | .nodeAttrs as, w, hw, c, c', h => ⟨rfl, ⟨hw.node.msetAll _, hw.edge, hw.graph⟩, h⟩
  | .edgeAttrs as, w, hw, c, c', h => ⟨rfl, ⟨hw.node, hw.edge.msetAll _, hw.graph⟩, h⟩
  | .graphAttrs as, w, hw, c, c', h =>
    ⟨rfl, ⟨hw.node, hw.edge, hw.graph.msetAll _⟩,
      h.loop _ ((hl _ _).trans (hl' _ _).symm) (((hl _ _).map Prod.fst).nodup_iff.2 (getMap_wf as).nodup)⟩
  | .sub id body, w, hw, c, c', h =>
    ⟨rfl, hw, (walkStmtsA_sim body (newVisitor_wf ..) (h.addSubGraph ho ho' _ _ hw.graph)).2.2⟩
  | .attr a, w, hw, c, c', h => ⟨rfl, hw, h.addAttr _ _ _⟩
theorem walkLocA_sim : ∀ (d : Loc) {w : Visitor} (_ : VWF w) {c c' : Catcher (Graph × Nat)} (_ : Sim c c'),
    Sim (walkLocA (graphIfaceAny o) (fun g m => l g.2 m) w c d) (walkLocA (graphIfaceAny o') (fun g m => l' g.2 m) w c' d)
  | .node _, w, hw, c, c', h => h
  | .sub id body, w, hw, c, c', h =>
    (walkStmtsA_sim body (newVisitor_wf ..) (h.addSubGraph ho ho' _ _ hw.graph)).2.2
theorem walkRHSA_sim : ∀ (rhs : List EdgeRH) {w : Visitor} (_ : VWF w) {c c' : Catcher (Graph × Nat)} (_ : Sim c c'),
    Sim (walkRHSA (graphIfaceAny o) (fun g m => l g.2 m) w c rhs) (walkRHSA (graphIfaceAny o') (fun g m => l' g.2 m) w c' rhs)
  | [], w, hw, c, c', h => h
  | .mk op dst :: rest, w, hw, c, c', h => walkRHSA_sim rest hw (walkLocA_sim dst hw h)
theorem walkStmtsA_sim : ∀ (ss : List Stmt) {w : Visitor} (_ : VWF w) {c c' : Catcher (Graph × Nat)} (_ : Sim c c'),
    (walkStmtsA (graphIfaceAny o) (fun g m => l g.2 m) w c ss).1 = (walkStmtsA (graphIfaceAny o') (fun g m => l' g.2 m) w c' ss).1 ∧
    VWF (walkStmtsA (graphIfaceAny o) (fun g m => l g.2 m) w c ss).1 ∧
    Sim (walkStmtsA (graphIfaceAny o) (fun g m => l g.2 m) w c ss).2 (walkStmtsA (graphIfaceAny o') (fun g m => l' g.2 m) w c' ss).2
  | [], w, hw, c, c', h => ⟨rfl, hw, h⟩
  | st :: rest, w, hw, c, c', h => by
    obtain ⟨h1, h2, h3⟩ := walkStmtA_sim st hw h
    simp only [walkStmtsA]
    rw [← h1]
    exact walkStmtsA_sim rest h2 h3
end

theorem analyseCA_sim (t : Ast.Graph) :
    Sim (analyseCA (graphIfaceAny o) (fun g m => l g.2 m) t (newGraph, 0)) (analyseCA (graphIfaceAny o') (fun g m => l' g.2 m) t (newGraph, 0)) := by
  unfold analyseCA
  refine (walkStmtsA_sim ho ho' hl hl' t.stmts (newVisitor_wf ..) ?_).2.2
  have h0 : Sim (⟨(newGraph, 0), []⟩ : Catcher (Graph × Nat)) ⟨(newGraph, 0), []⟩ :=
    ⟨rfl, SameShape.refl _, fun _ => rfl, fun _ => GInv.new⟩
  have h1 : Sim _ _ := h0.record (r := (graphIfaceAny o).setStrict (newGraph, 0) t.strict) (r' := (graphIfaceAny o').setStrict (newGraph, 0) t.strict)
    rfl ⟨rfl, fun _ => rfl⟩ (fun _ hi _ => ⟨rfl, ⟨hi.nodes, hi.edges, hi.rels, hi.subs, hi.attrs⟩⟩)
  have h2 : Sim _ _ := h1.record (r := (graphIfaceAny o).setDir (_, 1) t.type_) (r' := (graphIfaceAny o').setDir (_, 1) t.type_)
    rfl ⟨rfl, fun _ => rfl⟩ (fun _ hi _ => ⟨rfl, ⟨hi.nodes, hi.edges, hi.rels, hi.subs, hi.attrs⟩⟩)
  exact h2.record (r := (graphIfaceAny o).setName (_, 2) t.id) (r' := (graphIfaceAny o').setName (_, 2) t.id)
    rfl ⟨rfl, fun _ => rfl⟩ (fun _ hi _ => ⟨rfl, ⟨hi.nodes, hi.edges, hi.rels, hi.subs, hi.attrs⟩⟩)

end walk

end Gographviz
