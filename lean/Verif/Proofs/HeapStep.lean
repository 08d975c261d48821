import Verif.Proofs.Heap
/-!
Every call keeps the invariant of the memory with pointers, and does to the contents of its graph what `Contents.step` says.
-/
namespace Gographviz.Heap

open Gographviz Spec

/-! ### mapping the values of a map -/

theorem mget_mapv {α β : Type} (f : α → β) (m : Map α) (k : Str) : mget (m.map fun e => (e.1, f e.2)) k = (mget m k).map f := by
  induction m with
  | nil => rfl
  | cons e m ih =>
    obtain ⟨k', v⟩ := e
    simp only [List.map_cons, mget]
    split
    · rfl
    · exact ih

theorem mhas_mapv {α β : Type} (f : α → β) (m : Map α) (k : Str) : mhas (m.map fun e => (e.1, f e.2)) k = mhas m k := by
  unfold mhas; rw [mget_mapv]; simp

theorem mset_mapv {α β : Type} (f : α → β) (m : Map α) (k : Str) (v : α) :
    mset (m.map fun e => (e.1, f e.2)) k (f v) = (mset m k v).map fun e => (e.1, f e.2) := by
  induction m with
  | nil => rfl
  | cons e m ih =>
    obtain ⟨k', v'⟩ := e
    simp only [List.map_cons, mset]
    split
    · rfl
    · split
      · rfl
      · rw [List.map_cons, ih]

theorem mdel_mapv {α β : Type} (f : α → β) (m : Map α) (k : Str) :
    mdel (m.map fun e => (e.1, f e.2)) k = (mdel m k).map fun e => (e.1, f e.2) := by
  unfold mdel
  rw [List.filter_map]
  rfl

theorem MapWF.mapv {α β : Type} (f : α → β) {m : Map α} (h : MapWF m) : MapWF (m.map fun e => (e.1, f e.2)) := by
  unfold MapWF at *
  rw [List.pairwise_map]
  exact h

/-! ### what stays -/

theorem nodeAt_ext {m m' : Mem} (he : Ext m m') {p : Nat} {o : NodeObj} (h : m.nodes[p]? = some o) : nodeAt m' p = ⟨o.name, m'.map o.attrs⟩ := by
  obtain ⟨⟨l, e⟩, -⟩ := he
  unfold nodeAt
  rw [e, getElem?_ext h]

theorem edgeAt_ext {m m' : Mem} (he : Ext m m') {p : Nat} {o : EdgeObj} (h : m.edges[p]? = some o) :
    edgeAt m' p = ⟨o.src, o.srcPort, o.dst, o.dstPort, o.dir, m'.map o.attrs⟩ := by
  obtain ⟨-, ⟨l, e⟩, -⟩ := he
  unfold edgeAt
  rw [e, getElem?_ext h]

theorem subAt_ext {m m' : Mem} (he : Ext m m') {p : Nat} {o : SubObj} (h : m.subs[p]? = some o) : subAt m' p = ⟨m'.map o.attrs, o.name⟩ := by
  obtain ⟨-, -, ⟨l, e⟩, -⟩ := he
  unfold subAt
  rw [e, getElem?_ext h]

/-- Nothing of the graph changes if its maps stay. -/
theorem Same {m m' : Mem} {g : HGraph} (hl : LInv m g) (he : Ext m m') :
    ((∀ p ∈ g.list, ∀ o, m.nodes[p]? = some o → m'.map o.attrs = m.map o.attrs) → g.list.map (nodeAt m') = g.list.map (nodeAt m)) ∧
    ((∀ p ∈ g.edges, ∀ o, m.edges[p]? = some o → m'.map o.attrs = m.map o.attrs) → g.edges.map (edgeAt m') = g.edges.map (edgeAt m)) ∧
    ((∀ k p, mget g.subGraphs k = some p → ∀ o, m.subs[p]? = some o → m'.map o.attrs = m.map o.attrs) →
      (g.subGraphs.map fun e => (e.1, subAt m' e.2)) = g.subGraphs.map fun e => (e.1, subAt m e.2)) := by
  refine ⟨fun h => List.map_congr_left fun p hp => ?_, fun h => List.map_congr_left fun p hp => ?_, fun h => List.map_congr_left fun x hx => ?_⟩
  · obtain ⟨o, ho⟩ := hl.nodes.valid p hp
    rw [nodeAt_ext he ho, nodeAt_ext (Ext.refl m) ho, h p hp o ho]
  · obtain ⟨o, ho⟩ := hl.edges.valid p hp
    rw [edgeAt_ext he ho, edgeAt_ext (Ext.refl m) ho, h p hp o ho]
  · obtain ⟨k, p⟩ := x
    have hk := mget_of_mem hl.subs.wf hx
    obtain ⟨o, ho, -⟩ := hl.subs.look k p hk
    simp only
    rw [subAt_ext he ho, subAt_ext (Ext.refl m) ho, h k p hk o ho]

/-- What a call must do. -/
structure Good (i : Nat) (roots : List Nat) (m : Mem) (g : HGraph) (r : (Mem × HGraph) × Option Err) (c : Contents × Option Err) : Prop where
  minv : MInv r.1.1 roots
  linv : LInv r.1.1 r.1.2
  frame : Frame i roots m g r.1.1 r.1.2
  obs : (contents r.1.1 r.1.2, r.2) = c

/-- The situation before a call. -/
structure Pre (i : Nat) (roots : List Nat) (m : Mem) (g : HGraph) : Prop where
  minv : MInv m roots
  root : roots[i]? = some g.attrs
  linv : LInv m g

theorem Pre.owned_graph {i : Nat} {roots : List Nat} {m : Mem} {g : HGraph} (h : Pre i roots m g) : ownedM m roots (.graph i) = some g.attrs := h.root

/-- Growing the memory without touching any owned map. -/
theorem Pre.sameContents {i : Nat} {roots : List Nat} {m m' : Mem} {g : HGraph} (h : Pre i roots m g) (he : Ext m m')
    (hm : ∀ o a, ownedM m roots o = some a → m'.map a = m.map a) : contents m' g = contents m g := by
  obtain ⟨h1, h2, h3⟩ := Same h.linv he
  unfold contents
  rw [hm _ _ h.owned_graph, h1 fun p _ o ho => hm (.node p) _ (by simp [ownedM, ho]), h2 fun p _ o ho => hm (.edge p) _ (by simp [ownedM, ho]),
    h3 fun _ p _ o ho => hm (.sub p) _ (by simp [ownedM, ho])]

/-! ### edges -/

theorem EI.add {es : List EdgeObj} {sd ds : Map (Map (List Nat))} {list : List Nat} (h : EI es sd ds list) {p : Nat} {e : EdgeObj}
    (hp : es[p]? = some e) (hn : p ∉ list) : EI es (edgeIndexAdd sd e.src e.dst p) (edgeIndexAdd ds e.dst e.src p) (list ++ [p]) := by
  have hb : ∀ s d, (list ++ [p]).filter (between es s d) =
      if e.src = s ∧ e.dst = d then list.filter (between es s d) ++ [p] else list.filter (between es s d) := by
    intro s d
    rw [List.filter_append]
    have : between es s d p = (decide (e.src = s) && decide (e.dst = d)) := by unfold between; rw [hp]
    simp only [List.filter_cons, List.filter_nil, this]
    by_cases h1 : e.src = s <;> by_cases h2 : e.dst = d <;> simp [h1, h2]
  refine ⟨fun q hq => ?_, ?_, fun s d => ?_, fun s d => ?_⟩
  · rcases List.mem_append.1 hq with hq | hq
    · exact h.valid q hq
    · rw [List.mem_singleton.1 hq]; exact ⟨e, hp⟩
  · rw [List.nodup_append]
    refine ⟨h.nodup, by simp, fun a ha b hb => ?_⟩
    rw [List.mem_singleton.1 hb]
    intro e; subst e; exact hn ha
  · rw [mget2_edgeIndexAdd, hb]
    split
    · rw [h.src, nonEmpty_getD, nonEmpty_append]
    · exact h.src s d
  · rw [mget2_edgeIndexAdd, hb]
    by_cases hh : e.dst = d ∧ e.src = s
    · rw [if_pos hh, if_pos ⟨hh.2, hh.1⟩, h.dst, nonEmpty_getD, nonEmpty_append]
    · rw [if_neg hh, if_neg (fun h' => hh ⟨h'.2, h'.1⟩)]; exact h.dst s d

/-- Is the object at `p` kept? -/
def keepAt (m : Mem) (keep : EdgeObj → Bool) (p : Nat) : Bool := match m.edges[p]? with
  | some e => keep e
  | none => false

theorem rebuild_fold (m : Mem) (keep : EdgeObj → Bool) (l : List Nat) : ∀ acc : HGraph,
    EI m.edges acc.srcToDsts acc.dstToSrcs acc.edges → (∀ p ∈ l, ∃ e, m.edges[p]? = some e) → (acc.edges ++ l).Nodup →
    ∃ sd ds, l.foldl (fun acc p => match m.edges[p]? with
        | some e => if keep e then edgesAdd m acc p else acc
        | none => acc) acc = { acc with srcToDsts := sd, dstToSrcs := ds, edges := acc.edges ++ l.filter (keepAt m keep) } ∧
      EI m.edges sd ds (acc.edges ++ l.filter (keepAt m keep)) := by
  induction l with
  | nil => intro acc h _ _; exact ⟨acc.srcToDsts, acc.dstToSrcs, by simp, by simpa using h⟩
  | cons p l ih =>
    intro acc h hv hn
    obtain ⟨e, he⟩ := hv p (List.mem_cons_self ..)
    have hv' : ∀ p ∈ l, ∃ e, m.edges[p]? = some e := fun q hq => hv q (List.mem_cons_of_mem _ hq)
    simp only [List.foldl_cons, he]
    have hk : keepAt m keep p = keep e := by unfold keepAt; rw [he]
    rw [List.filter_cons, hk]
    cases keep e with
    | true =>
      simp only [if_true]
      have hnot : p ∉ acc.edges := by
        intro hc
        rw [List.nodup_append] at hn
        exact hn.2.2 p hc p (List.mem_cons_self ..) rfl
      have ha := h.add he hnot
      obtain ⟨sd, ds, h1, h2⟩ := ih (edgesAdd m acc p) (by unfold edgesAdd; rw [he]; exact ha) hv' (by unfold edgesAdd; rw [he]; simpa using hn)
      refine ⟨sd, ds, ?_, ?_⟩
      · rw [h1]; unfold edgesAdd; rw [he]; simp
      · have : (edgesAdd m acc p).edges = acc.edges ++ [p] := by unfold edgesAdd; rw [he]
        rw [this, List.append_assoc] at h2
        exact h2
    | false =>
      simp only [Bool.false_eq_true, if_false]
      refine ih acc h hv' ?_
      rw [List.nodup_append] at hn ⊢
      exact ⟨hn.1, (List.nodup_cons.1 hn.2.1).2, fun a ha b hb => hn.2.2 a ha b (List.mem_cons_of_mem _ hb)⟩

theorem EI.empty (es : List EdgeObj) : EI es [] [] [] := ⟨(fun _ h => nomatch h), List.nodup_nil, fun _ _ => rfl, fun _ _ => rfl⟩

theorem edgesRebuild_spec {m : Mem} {g : HGraph} (keep : EdgeObj → Bool) (hv : ∀ p ∈ g.edges, ∃ e, m.edges[p]? = some e) (hn : g.edges.Nodup) :
    ∃ sd ds, edgesRebuild m g keep = { g with srcToDsts := sd, dstToSrcs := ds, edges := g.edges.filter (keepAt m keep) } ∧
      EI m.edges sd ds (g.edges.filter (keepAt m keep)) := by
  have := rebuild_fold m keep g.edges { g with srcToDsts := [], dstToSrcs := [], edges := [] } (EI.empty _) hv (by simpa using hn)
  simp only [List.nil_append] at this
  unfold edgesRebuild
  exact this

/-! ### adding -/

theorem pushOwned {m : Mem} {roots : List Nat} (h : MInv m roots) (x : Attrs) (o : Owner) (a : Nat) (ho : ownedM m roots o = some a) :
    Mem.map { m with maps := m.maps ++ [x] } a = m.map a := map_push m x a (h.lt o a ho)

/-- A call that only leaves an unused map behind. -/
theorem Pre.garbage {i : Nat} {roots : List Nat} {m : Mem} {g : HGraph} (h : Pre i roots m g) (x : Attrs) (e : Option Err) :
    Good i roots m g (({ m with maps := m.maps ++ [x] }, g), e) (contents m g, e) := by
  refine ⟨h.minv.push x, h.linv.ext (Ext.push m x), ⟨Ext.push m x, fun o a ho _ => pushOwned h.minv x o a ho, rfl, Grown.refl _ _, Grown.refl _ _,
    fun _ _ h => .inl h, fun _ _ _ h h' => by rw [h] at h'; exact Option.some.inj h'⟩, ?_⟩
  simp only
  rw [h.sameContents (Ext.push m x) fun o a ho => pushOwned h.minv x o a ho]

theorem Pre.addPortEdge {i : Nat} {roots : List Nat} {m : Mem} {g : HGraph} (h : Pre i roots m g) (s sp d dp : Str) (dir : Bool)
    (kvs : List (Str × Str)) :
    Good i roots m g (addPortEdge m g s sp d dp dir kvs) ((contents m g).addEdge s sp d dp dir kvs) := by
  obtain ⟨as, h1, h2⟩ := newAttrs_spec m kvs
  unfold Heap.addPortEdge Contents.addEdge
  generalize Heap.newAttrs m kvs = r at h1 h2
  obtain ⟨m1, res⟩ := r
  simp only at h1 h2
  subst h1
  rcases h2 with ⟨h3, rfl⟩ | ⟨e, h3, rfl⟩
  · rw [h3]
    simp only
    have hmi := (h.minv.push as).allocEdge ⟨s, sp, d, dp, dir, m.maps.length⟩ (h.minv.fresh as) (by simp)
    simp only at hmi
    have hext : Ext m { m with maps := m.maps ++ [as], edges := m.edges ++ [⟨s, sp, d, dp, dir, m.maps.length⟩] } :=
      ⟨⟨[], by simp⟩, ⟨[_], rfl⟩, ⟨[], by simp⟩, by simp⟩
    have hmap : ∀ o a, ownedM m roots o = some a →
        Mem.map { m with maps := m.maps ++ [as], edges := m.edges ++ [⟨s, sp, d, dp, dir, m.maps.length⟩] } a = m.map a :=
      fun o a ho => pushOwned h.minv as o a ho
    have hget : (m.edges ++ [(⟨s, sp, d, dp, dir, m.maps.length⟩ : EdgeObj)])[m.edges.length]? = some ⟨s, sp, d, dp, dir, m.maps.length⟩ := by simp
    have hnot : m.edges.length ∉ g.edges := fun hc => by
      obtain ⟨o, ho⟩ := h.linv.edges.valid _ hc
      exact absurd (List.getElem?_eq_some_iff.1 ho).1 (Nat.lt_irrefl _)
    have hlext := h.linv.ext hext
    have hei := hlext.edges.add hget hnot
    have hcont := h.sameContents hext hmap
    unfold edgesAdd
    rw [hget]
    refine ⟨hmi, ⟨hlext.nodes, hei, hlext.subs⟩, ⟨hext, fun o a ho _ => hmap o a ho, rfl, Grown.refl _ _, ?_,
      fun _ _ h => .inl h, fun _ _ _ h h' => by rw [h] at h'; exact Option.some.inj h'⟩, ?_⟩
    · exact ⟨g.edges, [m.edges.length], rfl, List.Sublist.refl _, fun p hp => by rw [List.mem_singleton.1 hp]; exact Nat.le_refl _⟩
    · simp only [Prod.mk.injEq, and_true]
      rw [← hcont]
      unfold contents
      simp only [Contents.mk.injEq, true_and, and_true]
      rw [List.map_append]
      congr 1
      simp only [List.map_cons, List.map_nil]
      unfold edgeAt
      rw [hget]
      simp only [Mem.map]
      simp
  · rw [h3]
    exact h.garbage as (some e)

theorem NI.add {ns : List NodeObj} {lookup : Map Nat} {list : List Nat} (h : NI ns lookup list) {p : Nat} {o : NodeObj} (hp : ns[p]? = some o)
    (hl : mget lookup o.name = none) : NI ns (mset lookup o.name p) (list ++ [p]) := by
  have hnot : p ∉ list := fun hc => by
    have := (h.look o.name p).2 ⟨hc, o, hp, rfl⟩
    rw [hl] at this; cases this
  refine ⟨h.wf.mset _ _, ?_, fun n q => ?_, fun q hq => ?_⟩
  · rw [List.nodup_append]
    refine ⟨h.nodup, by simp, fun a ha b hb => ?_⟩
    rw [List.mem_singleton.1 hb]
    intro e; subst e; exact hnot ha
  · rw [mget_mset]
    split
    · rename_i e
      subst e
      constructor
      · intro e; cases e; exact ⟨by simp, o, hp, rfl⟩
      · rintro ⟨h1, o', h2, h3⟩
        rcases List.mem_append.1 h1 with h1 | h1
        · have := (h.look o.name q).2 ⟨h1, o', h2, h3⟩
          rw [hl] at this; cases this
        · rw [List.mem_singleton.1 h1]
    · rename_i e
      rw [h.look]
      constructor
      · rintro ⟨h1, h2⟩; exact ⟨List.mem_append_left _ h1, h2⟩
      · rintro ⟨h1, o', h2, h3⟩
        rcases List.mem_append.1 h1 with h1 | h1
        · exact ⟨h1, o', h2, h3⟩
        · rw [List.mem_singleton.1 h1, hp] at h2
          cases h2
          exact absurd h3 e
  · rcases List.mem_append.1 hq with hq | hq
    · exact h.valid q hq
    · rw [List.mem_singleton.1 hq]; exact ⟨o, hp⟩

theorem LInv.any {m : Mem} {g : HGraph} (h : LInv m g) (name : Str) :
    (contents m g).nodes.any (fun n => decide (n.name = name)) = (mget g.lookup name).isSome := by
  rw [Bool.eq_iff_iff]
  have e : (contents m g).nodes = g.list.map (nodeAt m) := rfl
  simp only [e, List.any_map, List.any_eq_true, Function.comp, decide_eq_true_eq, Option.isSome_iff_exists]
  constructor
  · rintro ⟨p, hp, hn⟩
    obtain ⟨o, ho⟩ := h.nodes.valid p hp
    rw [nodeAt_ext (Ext.refl m) ho] at hn
    exact ⟨p, (h.nodes.look name p).2 ⟨hp, o, ho, hn⟩⟩
  · rintro ⟨p, hp⟩
    obtain ⟨h1, o, h2, h3⟩ := (h.nodes.look name p).1 hp
    exact ⟨p, h1, by rw [nodeAt_ext (Ext.refl m) h2]; exact h3⟩

theorem map_modify (m : Mem) {a : Nat} (f : Attrs → Attrs) (b : Nat) (h : a < m.maps.length) :
    Mem.map { m with maps := m.maps.modify a f } b = if a = b then f (m.map b) else m.map b := by
  unfold Mem.map
  simp only [List.getElem?_modify]
  split
  · rename_i e
    subst e
    rw [List.getElem?_eq_getElem h]; simp
  · simp

/-- Replacing the value of one map keeps the ownership. -/
theorem MInv.modify {m : Mem} {roots : List Nat} (h : MInv m roots) (a : Nat) (f : Attrs → Attrs) :
    MInv { m with maps := m.maps.modify a f } roots := by
  have e : ownedM { m with maps := m.maps.modify a f } roots = ownedM m roots := by funext o; cases o <;> rfl
  refine ⟨by rw [e]; exact h.inj, fun o b ho => ?_⟩
  rw [e] at ho
  simpa using h.lt o b ho

theorem Ext.modify (m : Mem) (a : Nat) (f : Attrs → Attrs) : Ext m { m with maps := m.maps.modify a f } :=
  ⟨⟨[], by simp⟩, ⟨[], by simp⟩, ⟨[], by simp⟩, by simp⟩

theorem Pre.addNode {i : Nat} {roots : List Nat} {m : Mem} {g : HGraph} (h : Pre i roots m g) (parent name : Str) (kvs : List (Str × Str)) :
    Good i roots m g (addNode m g parent name kvs) ((contents m g).addNode parent name kvs) := by
  obtain ⟨as, h1, h2⟩ := newAttrs_spec m kvs
  unfold Heap.addNode Contents.addNode
  rw [h.linv.any name]
  generalize Heap.newAttrs m kvs = r at h1 h2
  obtain ⟨m1, res⟩ := r
  simp only at h1 h2
  subst h1
  rcases h2 with ⟨h3, rfl⟩ | ⟨e, h3, rfl⟩
  · rw [h3]
    simp only
    have hmi := (h.minv.push as).allocNode name (h.minv.fresh as) (by simp)
    simp only at hmi
    have hext : Ext m { m with maps := m.maps ++ [as], nodes := m.nodes ++ [⟨name, m.maps.length⟩] } :=
      ⟨⟨[_], rfl⟩, ⟨[], by simp⟩, ⟨[], by simp⟩, by simp⟩
    have hmap : ∀ o a, ownedM m roots o = some a →
        Mem.map { m with maps := m.maps ++ [as], nodes := m.nodes ++ [⟨name, m.maps.length⟩] } a = m.map a :=
      fun o a ho => pushOwned h.minv as o a ho
    have hget : (m.nodes ++ [(⟨name, m.maps.length⟩ : NodeObj)])[m.nodes.length]? = some ⟨name, m.maps.length⟩ := by simp
    have hlext := h.linv.ext hext
    have hcont := h.sameContents hext hmap
    unfold nodesAdd
    rw [hget]
    simp only
    cases hl : mget g.lookup name with
    | none =>
      simp only [Option.isSome_none, Bool.false_eq_true, if_false]
      have hni := hlext.nodes.add hget hl
      simp only at hni
      refine ⟨hmi, ⟨hni, hlext.edges, hlext.subs⟩, ⟨hext, fun o a ho _ => hmap o a ho, rfl, ?_, Grown.refl _ _,
        fun _ _ h => .inl h, fun n p q h1 h2 => ?_⟩, ?_⟩
      · exact ⟨g.list, [m.nodes.length], rfl, List.Sublist.refl _, fun p hp => by rw [List.mem_singleton.1 hp]; exact Nat.le_refl _⟩
      · simp only [mget_mset] at h2
        split at h2
        · rename_i e; subst e; rw [hl] at h1; cases h1
        · rw [h1] at h2; exact Option.some.inj h2
      · simp only [Prod.mk.injEq, and_true]
        have hcn : (contents m g).nodes = g.list.map (nodeAt { m with maps := m.maps ++ [as], nodes := m.nodes ++ [⟨name, m.maps.length⟩] }) := by
          rw [← hcont]; rfl
        rw [hcn, ← hcont]
        unfold contents
        simp only [Contents.mk.injEq, true_and, and_true]
        rw [List.map_append]
        congr 1
        simp only [List.map_cons, List.map_nil]
        unfold nodeAt
        rw [hget]
        simp only [Mem.map]
        simp
    | some q =>
      simp only [Option.isSome_some, if_true]
      obtain ⟨hq, o, ho, hname⟩ := (h.linv.nodes.look name q).1 hl
      have ho' : (m.nodes ++ [(⟨name, m.maps.length⟩ : NodeObj)])[q]? = some o := getElem?_ext ho
      have hoq : ownedM m roots (.node q) = some o.attrs := by simp [ownedM, ho]
      have holt := h.minv.lt _ _ hoq
      rw [ho']
      simp only
      have hex : Heap.extend { m with maps := m.maps ++ [as], nodes := m.nodes ++ [⟨name, m.maps.length⟩] } o.attrs m.maps.length =
          { m with maps := (m.maps ++ [as]).modify o.attrs fun x => msetAll x as, nodes := m.nodes ++ [⟨name, m.maps.length⟩] } := by
        unfold Heap.extend
        rw [foldl_set _ _ _ (by simp; omega)]
        simp [Mem.map]
      rw [hex]
      have hmi2 := hmi.modify o.attrs fun x => msetAll x as
      have hext2 := hext.trans (Ext.modify _ o.attrs fun x => msetAll x as)
      have hmap2 : ∀ b, b < m.maps.length →
          Mem.map { m with maps := (m.maps ++ [as]).modify o.attrs fun x => msetAll x as, nodes := m.nodes ++ [⟨name, m.maps.length⟩] } b =
            if o.attrs = b then msetAll (m.map b) as else m.map b := by
        intro b hb
        have := map_modify { m with maps := m.maps ++ [as], nodes := m.nodes ++ [⟨name, m.maps.length⟩] } (fun x => msetAll x as) b
          (show o.attrs < (m.maps ++ [as]).length by simp; omega)
        rw [this]
        have e : Mem.map { m with maps := m.maps ++ [as], nodes := m.nodes ++ [⟨name, m.maps.length⟩] } b = m.map b := map_push m as b hb
        rw [e]
      have hother : ∀ x a, ownedM m roots x = some a → x ≠ .node q →
          Mem.map { m with maps := (m.maps ++ [as]).modify o.attrs fun x => msetAll x as, nodes := m.nodes ++ [⟨name, m.maps.length⟩] } a =
            m.map a := by
        intro x a hx hne
        rw [hmap2 a (h.minv.lt x a hx), if_neg]
        intro e
        rw [← e] at hx
        exact hne (h.minv.inj _ _ _ hx hoq)
      have hlext2 := h.linv.ext hext2
      refine ⟨hmi2, ⟨hlext2.nodes, hlext2.edges, hlext2.subs⟩, ⟨hext2, fun x a hx hnl => ?_, rfl, Grown.refl _ _, Grown.refl _ _,
        fun _ _ h => .inl h, fun _ _ _ h h' => by rw [h] at h'; exact Option.some.inj h'⟩, ?_⟩
      · refine hother x a hx fun e => ?_
        subst e
        exact hnl hq
      · obtain ⟨-, h2, h3⟩ := Same h.linv hext2
        have hgr := hother _ _ h.owned_graph (by intro e; cases e)
        have h2 := h2 fun p _ x hx => hother (.edge p) _ (by simp [ownedM, hx]) (by intro e; cases e)
        have h3 := h3 fun _ p _ x hx => hother (.sub p) _ (by simp [ownedM, hx]) (by intro e; cases e)
        simp only [Prod.mk.injEq, and_true]
        unfold contents
        simp only [Contents.mk.injEq, true_and, and_true]
        refine ⟨hgr, ?_, h2, h3⟩
        rw [List.map_map]
        refine List.map_congr_left fun r hr => ?_
        obtain ⟨x, hx⟩ := h.linv.nodes.valid r hr
        rw [nodeAt_ext hext2 hx]
        simp only [Function.comp, nodeAt_ext (Ext.refl m) hx]
        by_cases hrq : r = q
        · subst hrq
          rw [ho] at hx; cases hx
          rw [if_pos hname, hmap2 _ holt, if_pos rfl]
          rfl
        · have : x.name ≠ name := by
            intro e
            have := (h.linv.nodes.look name r).2 ⟨hr, x, hx, e⟩
            rw [hl] at this
            exact hrq (Option.some.inj this).symm
          rw [if_neg this, hother (.node r) _ (by simp [ownedM, hx]) (by intro e; cases e; exact hrq rfl)]
  · rw [h3]
    exact h.garbage as (some e)

/-! ### attributes -/

/-- A frame followed by one that leaves the graph as it is. -/
theorem Frame.thenMem {i : Nat} {roots : List Nat} {m m' m'' : Mem} {g g' : HGraph} (h : Frame i roots m g m' g') (h' : Frame i roots m' g' m'' g') :
    Frame i roots m g m'' g' := by
  refine ⟨h.ext.trans h'.ext, fun o a ho hl => ?_, h.attrs, h.list, h.edges, h.subs, h.node⟩
  have ho' := h.ext.owned ho
  rw [h'.same o a ho' ?_, h.same o a ho hl]
  intro hl'
  cases o with
  | graph j => exact hl hl'
  | node p =>
    rcases h.list.mem hl' with hp | hp
    · exact hl hp
    · simp only [ownedM, Option.map_eq_some_iff] at ho
      obtain ⟨x, hx, -⟩ := ho
      exact absurd (List.getElem?_eq_some_iff.1 hx).1 (Nat.not_lt.2 hp)
  | edge p => exact hl'
  | sub p =>
    obtain ⟨k, hk⟩ := hl'
    rcases h.subs k p hk with hp | ⟨-, hp⟩
    · exact hl ⟨k, hp⟩
    · simp only [ownedM, Option.map_eq_some_iff] at ho
      obtain ⟨x, hx, -⟩ := ho
      exact absurd (List.getElem?_eq_some_iff.1 hx).1 (Nat.not_lt.2 hp)

theorem Good.pre {i : Nat} {roots : List Nat} {m : Mem} {g : HGraph} {r : (Mem × HGraph) × Option Err} {c : Contents × Option Err}
    (h : Pre i roots m g) (hg : Good i roots m g r c) : Pre i roots r.1.1 r.1.2 :=
  ⟨hg.minv, by rw [hg.frame.attrs]; exact h.root, hg.linv⟩

theorem Pre.same {i : Nat} {roots : List Nat} {m : Mem} {g : HGraph} (h : Pre i roots m g) (e : Option Err) :
    Good i roots m g ((m, g), e) (contents m g, e) :=
  ⟨h.minv, h.linv, Frame.refl _ _ _ _, rfl⟩

/-- Writing into one map that may be changed. -/
theorem Pre.setLive {i : Nat} {roots : List Nat} {m : Mem} {g : HGraph} (h : Pre i roots m g) {o : Owner} {a : Nat}
    (ho : ownedM m roots o = some a) (hlive : Live i g o) (k v : Str) :
    MInv (m.set a k v) roots ∧ LInv (m.set a k v) g ∧ Frame i roots m g (m.set a k v) g ∧
      (∀ x b, ownedM m roots x = some b → (m.set a k v).map b = if x = o then mset (m.map b) k v else m.map b) := by
  have hmap : ∀ x b, ownedM m roots x = some b → (m.set a k v).map b = if x = o then mset (m.map b) k v else m.map b := by
    intro x b hx
    rw [map_set m k v b (h.minv.lt o a ho)]
    by_cases e : x = o
    · subst e
      rw [ho] at hx; cases hx
      simp
    · rw [if_neg e, if_neg]
      intro e'
      subst e'
      exact e (h.minv.inj _ _ _ hx ho)
  refine ⟨h.minv.set a k v, h.linv.ext (Ext.set m a k v), ⟨Ext.set m a k v, fun x b hx hnl => ?_, rfl, Grown.refl _ _, Grown.refl _ _,
    fun _ _ h => .inl h, fun _ _ _ h h' => by rw [h] at h'; exact Option.some.inj h'⟩, hmap⟩
  rw [hmap x b hx, if_neg]
  intro e
  subst e
  exact hnl hlive

theorem Pre.addAttr {i : Nat} {roots : List Nat} {m : Mem} {g : HGraph} (h : Pre i roots m g) (parent field value : Str) :
    Good i roots m g (((addAttr m g parent field value).1, g), (addAttr m g parent field value).2) ((contents m g).addAttr parent field value) := by
  unfold Heap.addAttr Contents.addAttr
  have e1 : (contents m g).name = g.name := rfl
  have e2 : (contents m g).attrs = m.map g.attrs := rfl
  have e3 : (contents m g).subs = g.subGraphs.map fun e => (e.1, subAt m e.2) := rfl
  rw [e1, e2, e3]
  split
  · unfold Heap.add attrsAdd
    cases newAttr field with
    | error e => exact h.same _
    | ok k =>
      simp only
      obtain ⟨h1, h2, h3, h4⟩ := h.setLive h.owned_graph rfl k value
      refine ⟨h1, h2, h3, ?_⟩
      obtain ⟨s1, s2, s3⟩ := Same h.linv h3.ext
      simp only [Prod.mk.injEq, and_true]
      unfold contents
      simp only [Contents.mk.injEq, true_and, and_true]
      refine ⟨by rw [h4 _ _ h.owned_graph, if_pos rfl], s1 fun p _ x hx => ?_, s2 fun p _ x hx => ?_, s3 fun _ p _ x hx => ?_⟩
      · rw [h4 (.node p) _ (by simp [ownedM, hx]), if_neg (by intro e; cases e)]
      · rw [h4 (.edge p) _ (by simp [ownedM, hx]), if_neg (by intro e; cases e)]
      · rw [h4 (.sub p) _ (by simp [ownedM, hx]), if_neg (by intro e; cases e)]
  · rw [mget_mapv]
    cases hg : mget g.subGraphs parent with
    | none => exact h.same _
    | some p =>
      obtain ⟨s, hs, hname⟩ := h.linv.subs.look parent p hg
      simp only [Option.bind_some, Option.map_some]
      rw [hs]
      simp only [subAt_ext (Ext.refl m) hs]
      unfold Heap.add attrsAdd
      cases newAttr field with
      | error e => exact h.same _
      | ok k =>
        simp only
        have hos : ownedM m roots (.sub p) = some s.attrs := by simp [ownedM, hs]
        obtain ⟨h1, h2, h3, h4⟩ := h.setLive hos ⟨parent, hg⟩ k value
        refine ⟨h1, h2, h3, ?_⟩
        obtain ⟨s1, s2, -⟩ := Same h.linv h3.ext
        simp only [Prod.mk.injEq, and_true]
        unfold contents
        simp only [Contents.mk.injEq, true_and, and_true]
        refine ⟨by rw [h4 _ _ h.owned_graph, if_neg (by intro e; cases e)], s1 fun q _ x hx => ?_, s2 fun q _ x hx => ?_, ?_⟩
        · rw [h4 (.node q) _ (by simp [ownedM, hx]), if_neg (by intro e; cases e)]
        · rw [h4 (.edge q) _ (by simp [ownedM, hx]), if_neg (by intro e; cases e)]
        · refine Map.ext (MapWF.mapv _ h.linv.subs.wf) ((MapWF.mapv _ h.linv.subs.wf).mset _ _) fun x => ?_
          rw [mget_mapv, mget_mset]
          by_cases hx : parent = x
          · subst hx
            rw [if_pos rfl, hg]
            simp only [Option.map_some]
            rw [subAt_ext h3.ext hs, h4 _ _ hos, if_pos rfl]
          · rw [if_neg hx, mget_mapv]
            cases hgx : mget g.subGraphs x with
            | none => rfl
            | some q =>
              obtain ⟨y, hy, hyn⟩ := h.linv.subs.look x q hgx
              simp only [Option.map_some]
              rw [subAt_ext h3.ext hy, subAt_ext (Ext.refl m) hy, h4 (.sub q) _ (by simp [ownedM, hy]), if_neg]
              intro e
              cases e
              rw [hs] at hy; cases hy
              exact hx (hname.symm.trans hyn)

theorem Pre.addAttrs {i : Nat} {roots : List Nat} {g : HGraph} (name : Str) (kvs : List (Str × Str)) : ∀ {m : Mem}, Pre i roots m g →
    Good i roots m g (((addAttrs m g name kvs).1, g), (addAttrs m g name kvs).2) ((contents m g).addAttrs name kvs) := by
  induction kvs with
  | nil => intro m h; exact h.same _
  | cons x kvs ih =>
    intro m h
    obtain ⟨k, v⟩ := x
    have hg := h.addAttr name k v
    simp only [Heap.addAttrs, Contents.addAttrs]
    rw [← hg.obs]
    generalize Heap.addAttr m g name k v = r at hg
    obtain ⟨m', err⟩ := r
    cases err with
    | some e => exact ⟨hg.minv, hg.linv, hg.frame, rfl⟩
    | none =>
      have := ih (Good.pre h hg)
      exact ⟨this.minv, this.linv, hg.frame.thenMem this.frame, this.obs⟩

theorem Pre.subsAdd {i : Nat} {roots : List Nat} {m : Mem} {g : HGraph} (h : Pre i roots m g) (name : Str) :
    Good i roots m g (subsAdd m g name, none) ({ contents m g with subs := subGraphsAdd (contents m g).subs name }, none) := by
  unfold Heap.subsAdd subGraphsAdd
  have e3 : (contents m g).subs = g.subGraphs.map fun e => (e.1, subAt m e.2) := rfl
  rw [e3, mhas_mapv]
  split
  · exact h.same none
  · rename_i hno
    have hnone : mget g.subGraphs name = none := by
      unfold mhas at hno
      simpa using hno
    have hmi := (h.minv.push []).allocSub ⟨m.maps.length, name⟩ (h.minv.fresh []) (by simp)
    simp only at hmi
    have hext : Ext m { m with maps := m.maps ++ [[]], subs := m.subs ++ [⟨m.maps.length, name⟩] } :=
      ⟨⟨[], by simp⟩, ⟨[], by simp⟩, ⟨[_], rfl⟩, by simp⟩
    have hmap : ∀ o a, ownedM m roots o = some a →
        Mem.map { m with maps := m.maps ++ [[]], subs := m.subs ++ [⟨m.maps.length, name⟩] } a = m.map a :=
      fun o a ho => pushOwned h.minv [] o a ho
    have hget : (m.subs ++ [(⟨m.maps.length, name⟩ : SubObj)])[m.subs.length]? = some ⟨m.maps.length, name⟩ := by simp
    have hlext := h.linv.ext hext
    have hcont := h.sameContents hext hmap
    refine ⟨hmi, ⟨hlext.nodes, hlext.edges, hlext.subs.wf.mset _ _, fun k p hk => ?_⟩, ⟨hext, fun o a ho _ => hmap o a ho, rfl, Grown.refl _ _,
      Grown.refl _ _, fun k p hk => ?_, fun _ _ _ h h' => by rw [h] at h'; exact Option.some.inj h'⟩, ?_⟩
    · simp only [mget_mset] at hk
      split at hk
      · rename_i e; cases hk; subst e; exact ⟨_, hget, rfl⟩
      · exact hlext.subs.look k p hk
    · simp only [mget_mset] at hk
      split at hk
      · rename_i e; cases hk; subst e; exact .inr ⟨hnone, Nat.le_refl _⟩
      · exact .inl hk
    · simp only [Prod.mk.injEq, and_true]
      have hs : (contents m g).subs = g.subGraphs.map fun e => (e.1, subAt { m with maps := m.maps ++ [[]], subs := m.subs ++ [⟨m.maps.length, name⟩] } e.2) := by
        rw [← hcont]; rfl
      rw [← e3, hs, ← hcont]
      unfold contents
      simp only [Contents.mk.injEq, true_and, and_true]
      rw [← mset_mapv]
      congr 1
      unfold subAt
      rw [hget]
      simp [Mem.map]

theorem Pre.addSubGraph {i : Nat} {roots : List Nat} {m : Mem} {g : HGraph} (h : Pre i roots m g) (parent name : Str) (kvs : List (Str × Str)) :
    Good i roots m g (addSubGraph m g parent name kvs)
      ({ contents m g with relations := (contents m g).relations.add parent name, subs := subGraphsAdd (contents m g).subs name }.addAttrs name kvs) := by
  have h0 : Pre i roots m { g with relations := g.relations.add parent name } := ⟨h.minv, h.root, ⟨h.linv.nodes, h.linv.edges, h.linv.subs⟩⟩
  have h1 := h0.subsAdd name
  unfold Heap.addSubGraph
  generalize Heap.subsAdd m { g with relations := g.relations.add parent name } name = r at h1
  obtain ⟨m', g'⟩ := r
  have h2 := Pre.addAttrs name kvs (Good.pre h0 h1)
  have ho := h1.obs
  simp only [Prod.mk.injEq, and_true] at ho
  refine ⟨h2.minv, h2.linv, ?_, ?_⟩
  · have := h1.frame.thenMem h2.frame
    exact ⟨this.ext, this.same, this.attrs, this.list, this.edges, this.subs, this.node⟩
  · rw [h2.obs, ho]
    rfl

/-! ### removing -/

/-- What a removal leaves: only less than before. -/
structure Shrunk (g g' : HGraph) : Prop where
  attrs : g'.attrs = g.attrs
  list : List.Sublist g'.list g.list
  edges : List.Sublist g'.edges g.edges
  subs : ∀ k p, mget g'.subGraphs k = some p → mget g.subGraphs k = some p
  lookup : ∀ n p, mget g'.lookup n = some p → mget g.lookup n = some p

theorem Shrunk.refl (g : HGraph) : Shrunk g g := ⟨rfl, List.Sublist.refl _, List.Sublist.refl _, fun _ _ h => h, fun _ _ h => h⟩

theorem Shrunk.trans {g g' g'' : HGraph} (h : Shrunk g g') (h' : Shrunk g' g'') : Shrunk g g'' :=
  ⟨h'.attrs.trans h.attrs, h'.list.trans h.list, h'.edges.trans h.edges, fun k p hk => h.subs k p (h'.subs k p hk),
    fun k p hk => h.lookup k p (h'.lookup k p hk)⟩

theorem Shrunk.frame {g g' : HGraph} (h : Shrunk g g') (i : Nat) (roots : List Nat) (m : Mem) : Frame i roots m g m g' :=
  ⟨Ext.refl m, fun _ _ _ _ => rfl, h.attrs, ⟨g'.list, [], by simp, h.list, fun _ h => nomatch h⟩, ⟨g'.edges, [], by simp, h.edges, fun _ h => nomatch h⟩,
    fun k p hk => .inl (h.subs k p hk), fun n p q hp hq => by rw [h.lookup n q hq] at hp; exact (Option.some.inj hp).symm⟩

theorem removeLoop_none {m : Mem} {name : Str} {l : List Nat} :
    removeLoop m name l = none ↔ ∀ p ∈ l, (m.nodes[p]?).map NodeObj.name ≠ some name := by
  induction l with
  | nil => simp [removeLoop]
  | cons p ps ih =>
    simp only [removeLoop, List.mem_cons]
    split
    · rename_i h
      constructor
      · intro h'; cases h'
      · intro h'; exact absurd h (h' p (Or.inl rfl))
    · rename_i h
      simp only [Option.map_eq_none_iff, ih]
      constructor
      · intro h' q hq; rcases hq with e | hq
        · subst e; exact h
        · exact h' q hq
      · intro h' q hq; exact h' q (Or.inr hq)

theorem removeLoop_some {m : Mem} {name : Str} {l l' : List Nat} (h : removeLoop m name l = some l') :
    ∃ a p b, l = a ++ p :: b ∧ l' = a ++ b ∧ (m.nodes[p]?).map NodeObj.name = some name ∧
      ∀ q ∈ a, (m.nodes[q]?).map NodeObj.name ≠ some name := by
  induction l generalizing l' with
  | nil => simp [removeLoop] at h
  | cons p ps ih =>
    simp only [removeLoop] at h
    split at h
    · rename_i hp; cases h
      exact ⟨[], p, ps, rfl, rfl, hp, fun _ h => nomatch h⟩
    · rename_i hp
      cases hr : removeLoop m name ps with
      | none => simp [hr] at h
      | some l'' =>
        simp [hr] at h
        obtain ⟨a, q, b, h1, h2, h3, h4⟩ := ih hr
        refine ⟨p :: a, q, b, by simp [h1], by simp [← h, h2], h3, fun x hx => ?_⟩
        rcases List.mem_cons.1 hx with e | hx
        · subst e; exact hp
        · exact h4 x hx

theorem LInv.removeLoop_absent {m : Mem} {g : HGraph} (h : LInv m g) {name : Str} (hn : mget g.lookup name = none) :
    removeLoop m name g.list = none := by
  rw [removeLoop_none]
  intro p hp hc
  obtain ⟨o, ho⟩ := h.nodes.valid p hp
  simp [ho] at hc
  have := (h.nodes.look name p).2 ⟨hp, o, ho, hc⟩
  rw [hn] at this; cases this

theorem LInv.removeLoop_present {m : Mem} {g : HGraph} (h : LInv m g) {name : Str} {p : Nat} (hn : mget g.lookup name = some p) :
    removeLoop m name g.list = some (g.list.erase p) := by
  obtain ⟨hl, o, ho, hname⟩ := (h.nodes.look name p).1 hn
  cases hr : removeLoop m name g.list with
  | none =>
    rw [removeLoop_none] at hr
    exact absurd (by simp [ho, hname]) (hr p hl)
  | some l' =>
    obtain ⟨a, q, b, h1, h2, h3, h4⟩ := removeLoop_some hr
    have hq : q = p := by
      cases hdq : m.nodes[q]? with
      | none => simp [hdq] at h3
      | some nq =>
        simp [hdq] at h3
        have := (h.nodes.look name q).2 ⟨by simp [h1], nq, hdq, h3⟩
        rw [hn] at this; cases this; rfl
    subst hq
    have hnot : q ∉ a := fun hqa => h4 q hqa h3
    rw [h1, h2, List.erase_append_right _ hnot]; simp

theorem NI.removed {ns : List NodeObj} {lookup : Map Nat} {list : List Nat} (h : NI ns lookup list) {name : Str} {p : Nat}
    (hn : mget lookup name = some p) : NI ns (mdel lookup name) (list.erase p) := by
  refine ⟨h.wf.mdel _, h.nodup.erase _, fun x q => ?_, fun q hq => h.valid q (List.mem_of_mem_erase hq)⟩
  obtain ⟨hl, o, ho, hname⟩ := (h.look name p).1 hn
  simp only [mget_mdel, h.nodup.mem_erase_iff]
  constructor
  · intro hq
    split at hq
    · cases hq
    · rename_i hx
      obtain ⟨hql, n', hn', hx'⟩ := (h.look x q).1 hq
      refine ⟨⟨?_, hql⟩, n', hn', hx'⟩
      intro e; subst e
      rw [ho] at hn'; cases hn'
      exact hx (hname.symm.trans hx')
  · rintro ⟨⟨hne, hql⟩, n', hn', hx'⟩
    have := (h.look x q).2 ⟨hql, n', hn', hx'⟩
    rw [if_neg]
    · exact this
    · intro e; subst e; rw [hn] at this; cases this; exact hne rfl

/-- The edges that are kept, as values. -/
theorem keepAt_map {m : Mem} {g : HGraph} (h : LInv m g) (keep : EdgeObj → Bool) (keep' : Edge → Bool)
    (hk : ∀ o, keep o = keep' ⟨o.src, o.srcPort, o.dst, o.dstPort, o.dir, m.map o.attrs⟩) :
    (g.edges.filter (keepAt m keep)).map (edgeAt m) = (g.edges.map (edgeAt m)).filter keep' := by
  rw [List.filter_map]
  congr 1
  refine List.filter_congr fun p hp => ?_
  obtain ⟨o, ho⟩ := h.edges.valid p hp
  unfold keepAt
  rw [ho]
  simp only [Function.comp, edgeAt_ext (Ext.refl m) ho]
  exact hk o

/-- What a removal does. -/
structure GoodR (m : Mem) (g : HGraph) (r : HGraph × Option Err) (c : Contents × Option Err) : Prop where
  linv : LInv m r.1
  shrunk : Shrunk g r.1
  obs : (contents m r.1, r.2) = c

theorem LInv.removeNode {m : Mem} {g : HGraph} (h : LInv m g) (parent name : Str) :
    GoodR m g (removeNode m g parent name) ((contents m g).removeNode parent name) := by
  unfold Heap.removeNode Contents.removeNode
  rw [h.any name]
  cases hn : mget g.lookup name with
  | none =>
    rw [h.removeLoop_absent hn]
    simp only [Option.isSome_none, Bool.false_eq_true, if_false]
    exact ⟨h, Shrunk.refl g, rfl⟩
  | some q =>
    rw [h.removeLoop_present hn]
    simp only [Option.isSome_some, if_true]
    obtain ⟨sd, ds, h1, h2⟩ := edgesRebuild_spec (m := m)
      (g := { g with list := g.list.erase q, lookup := mdel g.lookup name, relations := g.relations.remove parent name })
      (fun e => !(decide (e.dst = name) || decide (e.src = name))) h.edges.valid h.edges.nodup
    rw [h1]
    simp only at h2
    refine ⟨⟨h.nodes.removed hn, h2, h.subs⟩, ⟨rfl, List.erase_sublist, List.filter_sublist, fun _ _ h => h, fun x p hx => ?_⟩, ?_⟩
    · simp only [mget_mdel] at hx
      split at hx
      · cases hx
      · exact hx
    · simp only [Prod.mk.injEq, and_true]
      unfold contents
      simp only [Contents.mk.injEq, true_and, and_true]
      refine ⟨?_, keepAt_map h _ _ fun o => rfl⟩
      rw [List.filter_map]
      congr 1
      obtain ⟨hl, o, ho, hname⟩ := (h.nodes.look name q).1 hn
      rw [h.nodes.nodup.erase_eq_filter]
      refine List.filter_congr fun r hr => ?_
      obtain ⟨nd, hnd⟩ := h.nodes.valid r hr
      simp only [Function.comp, nodeAt_ext (Ext.refl m) hnd]
      by_cases hrq : r = q
      · subst hrq
        rw [hnd] at ho; cases ho
        simp [hname]
      · have : nd.name ≠ name := by
          intro e
          have := (h.nodes.look name r).2 ⟨hr, nd, hnd, e⟩
          rw [hn] at this
          exact hrq (Option.some.inj this).symm
        simp [this, hrq]

theorem LInv.removeNodes {m : Mem} (parent : Str) (ns : List Str) : ∀ {g : HGraph}, LInv m g →
    GoodR m g (removeNodes m g parent ns) ((contents m g).removeNodes parent ns) := by
  induction ns with
  | nil => intro g h; exact ⟨h, Shrunk.refl g, rfl⟩
  | cons n ns ih =>
    intro g h
    have hg := h.removeNode parent n
    simp only [Heap.removeNodes, Contents.removeNodes]
    rw [← hg.obs]
    generalize Heap.removeNode m g parent n = r at hg
    obtain ⟨g', err⟩ := r
    cases err with
    | some e => exact ⟨hg.linv, hg.shrunk, rfl⟩
    | none =>
      have := ih hg.linv
      exact ⟨this.linv, hg.shrunk.trans this.shrunk, this.obs⟩

theorem LInv.removeSubGraph {m : Mem} {g : HGraph} (h : LInv m g) (parent name : Str) (order : List Str) :
    GoodR m g (removeSubGraph m g parent name order) ((contents m g).step (.removeSubGraph parent name order)) := by
  have hg := LInv.removeNodes parent order h
  simp only [Heap.removeSubGraph, Contents.step]
  rw [← hg.obs]
  generalize Heap.removeNodes m g parent order = r at hg
  obtain ⟨g', err⟩ := r
  cases err with
  | some e => exact ⟨hg.linv, hg.shrunk, rfl⟩
  | none =>
    have hl : LInv m g' := hg.linv
    simp only
    obtain ⟨sd, ds, h1, h2⟩ := edgesRebuild_spec (m := m)
      (g := { g' with relations := g'.relations.remove parent name, subGraphs := mdel g'.subGraphs name })
      (fun e => !(decide (e.dst = name) || decide (e.dstPort = name) || decide (e.src = name) || decide (e.srcPort = name)))
      hl.edges.valid hl.edges.nodup
    rw [h1]
    simp only at h2
    refine ⟨⟨hl.nodes, h2, hl.subs.wf.mdel _, fun k p hk => ?_⟩, hg.shrunk.trans ⟨rfl, List.Sublist.refl _, List.filter_sublist, fun k p hk => ?_,
      fun _ _ h => h⟩, ?_⟩
    · simp only [mget_mdel] at hk
      split at hk
      · cases hk
      · exact hl.subs.look k p hk
    · simp only [mget_mdel] at hk
      split at hk
      · cases hk
      · exact hk
    · simp only [Prod.mk.injEq, and_true]
      unfold contents
      simp only [Contents.mk.injEq, true_and, and_true]
      exact ⟨keepAt_map hl _ _ fun o => rfl, (mdel_mapv _ _ _).symm⟩

theorem GoodR.good {i : Nat} {roots : List Nat} {m : Mem} {g : HGraph} (h : Pre i roots m g) {r : HGraph × Option Err} {c : Contents × Option Err}
    (hg : GoodR m g r c) : Good i roots m g ((m, r.1), r.2) c :=
  ⟨h.minv, hg.linv, hg.shrunk.frame i roots m, hg.obs⟩

/-- Every call. -/
theorem Pre.step {i : Nat} {roots : List Nat} {m : Mem} {g : HGraph} (h : Pre i roots m g) (op : Op) :
    Good i roots m g (step m g op) ((contents m g).step op) := by
  have triv : ∀ g' : HGraph, g'.attrs = g.attrs → g'.list = g.list → g'.lookup = g.lookup → g'.edges = g.edges → g'.srcToDsts = g.srcToDsts →
      g'.dstToSrcs = g.dstToSrcs → g'.subGraphs = g.subGraphs → LInv m g' ∧ Frame i roots m g m g' := by
    intro g' h1 h2 h3 h4 h5 h6 h7
    refine ⟨⟨by rw [h3, h2]; exact h.linv.nodes, by rw [h4, h5, h6]; exact h.linv.edges, by rw [h7]; exact h.linv.subs⟩, Shrunk.frame ?_ i roots m⟩
    exact ⟨h1, by rw [h2]; exact List.Sublist.refl _, by rw [h4]; exact List.Sublist.refl _, by rw [h7]; exact fun _ _ h => h,
      by rw [h3]; exact fun _ _ h => h⟩
  cases op with
  | setStrict b =>
    obtain ⟨h1, h2⟩ := triv { g with strict := b } rfl rfl rfl rfl rfl rfl rfl
    exact ⟨h.minv, h1, h2, rfl⟩
  | setDir b =>
    obtain ⟨h1, h2⟩ := triv { g with directed := b } rfl rfl rfl rfl rfl rfl rfl
    exact ⟨h.minv, h1, h2, rfl⟩
  | setName b =>
    obtain ⟨h1, h2⟩ := triv { g with name := b } rfl rfl rfl rfl rfl rfl rfl
    exact ⟨h.minv, h1, h2, rfl⟩
  | addPortEdge s sp d dp dir as => exact h.addPortEdge s sp d dp dir as
  | addEdge s d dir as => exact h.addPortEdge s [] d [] dir as
  | addNode p n as => exact h.addNode p n as
  | addAttr p f v => exact h.addAttr p f v
  | addSubGraph p n as => exact h.addSubGraph p n as
  | removeNode p n => exact (h.linv.removeNode p n).good h
  | removeSubGraph p n o => exact (h.linv.removeSubGraph p n o).good h

end Gographviz.Heap
