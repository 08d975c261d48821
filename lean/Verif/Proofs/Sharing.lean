import Verif.Proofs.WriteMemGraph
import Verif.Proofs.SortTree
import Verif.Proofs.HeapState
import Verif.Proofs.GraphMem
import Verif.Spec.Sharing
/-!
Graphs in memory have the contents that the models without pointers say; the queries on them.
-/
namespace Gographviz.Threads

open Gographviz Gographviz.Heap Gographviz.Spec Gographviz.Spec.Sharing

/-! ### all attribute maps are maps -/

/-- Every map has each key once. -/
def MapsWF (m : Mem) : Prop := ∀ as ∈ m.maps, MapWF as

theorem MapsWF.modify {m : Mem} (h : MapsWF m) (a : Nat) {f : Attrs → Attrs} (hf : ∀ as, MapWF as → MapWF (f as)) : MapsWF { m with maps := m.maps.modify a f } := by
  intro as has
  obtain ⟨b, hb⟩ := List.mem_iff_getElem?.1 has
  rw [List.getElem?_modify] at hb
  cases hc : m.maps[b]? with
  | none => rw [hc] at hb; cases hb
  | some as0 =>
    rw [hc] at hb
    have hw := h as0 (List.mem_of_getElem? hc)
    cases hb
    dsimp only
    split
    · exact hf _ hw
    · exact hw

theorem MapsWF.set {m : Mem} (h : MapsWF m) (a : Nat) (k v : Str) : MapsWF (m.set a k v) := h.modify a fun _ h => h.mset k v

theorem MapsWF.push {m : Mem} (h : MapsWF m) {x : Attrs} (hx : MapWF x) : MapsWF { m with maps := m.maps ++ [x] } := by
  intro as has
  rcases List.mem_append.1 has with has | has
  · exact h as has
  · rw [List.mem_singleton.1 has]; exact hx

theorem MapsWF.maps {m m' : Mem} (h : MapsWF m) (e : m'.maps = m.maps) : MapsWF m' := by
  unfold MapsWF; rw [e]; exact h

theorem MapsWF.add {m : Mem} (h : MapsWF m) (a : Nat) (k v : Str) : MapsWF (Heap.add m a k v).1 := by
  unfold Heap.add
  split
  · exact h
  · exact h.set _ _ _

theorem MapsWF.newAttrsLoop {a : Nat} (kvs : List (Str × Str)) : ∀ {m : Mem}, MapsWF m → MapsWF (Heap.newAttrsLoop m a kvs).1 := by
  induction kvs with
  | nil => exact fun h => h
  | cons e kvs ih =>
    intro m h
    obtain ⟨k, v⟩ := e
    unfold Heap.newAttrsLoop
    have := h.add a k v
    split <;> rename_i he <;> rw [he] at this
    · exact this
    · exact ih this

theorem MapsWF.newAttrs {m : Mem} (h : MapsWF m) (kvs : List (Str × Str)) : MapsWF (Heap.newAttrs m kvs).1 := by
  unfold Heap.newAttrs
  have := MapsWF.newAttrsLoop (a := m.maps.length) kvs (h.push MapWF.nil)
  split <;> rename_i he <;> rw [he] at this <;> exact this

theorem MapsWF.foldl_set (a : Nat) (kvs : List (Str × Str)) : ∀ {m : Mem}, MapsWF m → MapsWF (kvs.foldl (fun m e => m.set a e.1 e.2) m) := by
  induction kvs with
  | nil => exact fun h => h
  | cons e kvs ih => exact fun h => ih (h.set _ _ _)

theorem MapsWF.addAttr {m : Mem} (h : MapsWF m) (g : HGraph) (p k v : Str) : MapsWF (Heap.addAttr m g p k v).1 := by
  unfold Heap.addAttr
  split
  · exact h.add _ _ _
  · split
    · exact h
    · exact h.add _ _ _

theorem MapsWF.addAttrs (g : HGraph) (n : Str) (kvs : List (Str × Str)) : ∀ {m : Mem}, MapsWF m → MapsWF (Heap.addAttrs m g n kvs).1 := by
  induction kvs with
  | nil => exact fun h => h
  | cons e kvs ih =>
    intro m h
    obtain ⟨k, v⟩ := e
    unfold Heap.addAttrs
    have := h.addAttr g n k v
    split <;> rename_i he <;> rw [he] at this
    · exact this
    · exact ih this

theorem MapsWF.addPortEdge {m : Mem} (h : MapsWF m) (g : HGraph) (s sp d dp : Str) (dir : Bool) (kvs : List (Str × Str)) :
    MapsWF (Heap.addPortEdge m g s sp d dp dir kvs).1.1 := by
  unfold Heap.addPortEdge
  have := h.newAttrs kvs
  split <;> rename_i he <;> rw [he] at this <;> exact this

theorem MapsWF.step {m : Mem} (h : MapsWF m) (g : HGraph) (op : Op) : MapsWF (Heap.step m g op).1.1 := by
  cases op with
  | setStrict b => exact h
  | setDir b => exact h
  | setName n => exact h
  | addPortEdge s sp d dp dir as => exact MapsWF.addPortEdge h _ _ _ _ _ _ _
  | addEdge s d dir as => exact MapsWF.addPortEdge h _ _ _ _ _ _ _
  | addNode p n as =>
    simp only [Heap.step, Heap.addNode]
    have h1 := h.newAttrs as
    split <;> rename_i he <;> rw [he] at h1
    · exact h1
    · simp only [nodesAdd]
      split
      · exact h1
      · split
        · split
          · exact h1
          · exact MapsWF.foldl_set _ _ h1
        · exact h1
  | addAttr p f v => exact MapsWF.addAttr h _ _ _ _
  | addSubGraph p n as =>
    simp only [Heap.step, Heap.addSubGraph]
    refine MapsWF.addAttrs _ _ _ ?_
    unfold subsAdd
    split
    · exact h
    · exact h.push MapWF.nil
  | removeNode p n => exact h
  | removeSubGraph p n o => exact h

theorem MapsWF.act {s : State} (h : MapsWF s.mem) (a : Act) : MapsWF (s.act a).1.mem := by
  cases a with
  | newGraph => exact h.push MapWF.nil
  | call i op arg =>
    simp only [State.act]
    split
    · exact h
    · exact h.step _ _
  | write o k v =>
    simp only [State.act]
    split
    · exact h
    · exact h.set _ _ _
  | newArg m => exact h
  | setArg a k v => exact h

theorem MapsWF.run (acts : List Act) : ∀ {s : State}, MapsWF s.mem → MapsWF (s.run acts).mem := by
  induction acts with
  | nil => exact fun h => h
  | cons a acts ih => exact fun h => ih (h.act a)

theorem _root_.Gographviz.Spec.Reached.mapsWF {s : State} (h : Reached s) : MapsWF s.mem := by
  obtain ⟨acts, _, rfl⟩ := h
  exact MapsWF.run acts fun _ h => nomatch h

/-! ### graphs in memory -/

theorem map_owned {s : State} (h : SInv s) {o : Owner} {a : Nat} (ho : s.owned o = some a) : worldOf s (.map a) = some (.map (s.mem.map a)) := by
  have := h.minv.lt o a (by rw [← State.owned_eq]; exact ho)
  simp only [worldOf, map_lt this, Option.map_some]

theorem map_wf {s : State} (h : SInv s) (hm : MapsWF s.mem) {o : Owner} {a : Nat} (ho : s.owned o = some a) : MapWF (s.mem.map a) := by
  have := h.minv.lt o a (by rw [← State.owned_eq]; exact ho)
  exact hm _ (List.mem_of_getElem? (map_lt this))

theorem edgeAt_there {s : State} (h : SInv s) (hm : MapsWF s.mem) {n : Nat} {g : HGraph} (hg : s.graphs[n]? = some g) :
    ∀ p ∈ g.edges, EdgeAt (worldOf s) p (edgeAt s.mem p) := by
  intro p hp
  obtain ⟨o, ho⟩ := (h.linv n g hg).edges.valid p hp
  have hw : s.owned (.edge p) = some o.attrs := by simp [State.owned, ho]
  refine ⟨o, s.mem.map o.attrs, by simp [worldOf, ho], map_owned h hw, map_wf h hm hw, ?_⟩
  simp [edgeAt, ho]

/-- The graph of the values in memory. -/
theorem graphAt_value {s : State} (h : SInv s) (hm : MapsWF s.mem) {n : Nat} {g : HGraph} (hg : s.graphs[n]? = some g) :
    GraphAt (worldOf s) n g (edgeAt s.mem) (valueOf s.mem g) where
  graph := by simp [worldOf, hg]
  name := rfl
  directed := rfl
  strict := rfl
  relations := rfl
  attrs := map_owned h (o := .graph n) (by simp [State.owned, hg])
  lookupKeys := rfl
  nodes := by
    intro k p hk
    obtain ⟨_, o, ho, _⟩ := ((h.linv n g hg).nodes.look k p).1 hk
    have hw : s.owned (.node p) = some o.attrs := by simp [State.owned, ho]
    refine ⟨o, s.mem.map o.attrs, by simp [worldOf, ho], map_owned h hw, map_wf h hm hw, ?_⟩
    simp [Nodes.find, valueOf, hk, Nodes.deref, ho]
  edges := edgeAt_there h hm hg
  edgeList := rfl
  subKeys := by simp [valueOf, mkeys]
  subs := by
    intro k p hk
    obtain ⟨o, ho, _⟩ := (h.linv n g hg).subs.look k p hk
    have hw : s.owned (.sub p) = some o.attrs := by simp [State.owned, ho]
    refine ⟨o, s.mem.map o.attrs, by simp [worldOf, ho], map_owned h hw, ?_⟩
    show mget (g.subGraphs.map fun e => (e.1, subAt s.mem e.2)) k = _
    rw [mget_mapv (subAt s.mem), hk]
    simp [subAt, ho]

/-- Sorted lists with the same elements. -/
theorem mkeys_eq {α β : Type} {m : Map α} {m' : Map β} (h : MapWF m) (h' : MapWF m') (he : ∀ k, (mget m k).isSome = (mget m' k).isSome) : mkeys m = mkeys m' := by
  have e : (m.map fun e => (e.1, ())) = m'.map fun e => (e.1, ()) := by
    apply Map.ext (Heap.MapWF.mapv (fun _ => ()) h) (Heap.MapWF.mapv (fun _ => ()) h')
    intro k
    have := he k
    rw [mget_mapv (fun _ => ()), mget_mapv (fun _ => ())]
    cases h1 : mget m k <;> cases h2 : mget m' k <;> simp_all
  have := congrArg mkeys e
  simpa [mkeys, List.map_map, Function.comp_def] using this

/-- A graph of values with the same contents. -/
theorem graphAt_contents {s : State} (h : SInv s) (hm : MapsWF s.mem) {n : Nat} {hg : HGraph} (hn : s.graphs[n]? = some hg) {g : Graph} (hi : GInv g)
    (hc : contents s.mem hg = contentsOf g) : GraphAt (worldOf s) n hg (edgeAt s.mem) g := by
  have hv := graphAt_value h hm hn
  have hl := h.linv n hg hn
  have e1 : hg.list.map (nodeAt s.mem) = g.nodes.list.map fun p => (g.nodes.deref p).getD ⟨[], []⟩ := congrArg Contents.nodes hc
  have hfind : ∀ k p, mget hg.lookup k = some p → g.nodes.find k = some (nodeAt s.mem p) := by
    intro k p hk
    obtain ⟨hp, o, ho, hok⟩ := (hl.nodes.look k p).1 hk
    have : nodeAt s.mem p ∈ g.nodes.list.map fun p => (g.nodes.deref p).getD ⟨[], []⟩ := by
      rw [← e1]; exact List.mem_map.2 ⟨p, hp, rfl⟩
    obtain ⟨q, hq, hqe⟩ := List.mem_map.1 this
    obtain ⟨x, hx⟩ := hi.nodes.valid q hq
    rw [hx] at hqe
    have hxn : x.name = k := by
      have : x = nodeAt s.mem p := hqe
      rw [this, nodeAt_ext (Ext.refl _) ho]; exact hok
    have := (hi.nodes.look k q).2 ⟨hq, x, hx, hxn⟩
    rw [Nodes.find, this]
    show g.nodes.deref q = _
    rw [hx]
    exact congrArg some hqe
  have hfind' : ∀ k q, mget g.nodes.lookup k = some q → ∃ p, mget hg.lookup k = some p := by
    intro k q hk
    obtain ⟨hq, x, hx, hxn⟩ := (hi.nodes.look k q).1 hk
    have : x ∈ hg.list.map (nodeAt s.mem) := by
      rw [e1]; exact List.mem_map.2 ⟨q, hq, by rw [hx]; rfl⟩
    obtain ⟨p, hp, hpe⟩ := List.mem_map.1 this
    obtain ⟨o, ho⟩ := hl.nodes.valid p hp
    rw [nodeAt_ext (Ext.refl _) ho] at hpe
    exact ⟨p, (hl.nodes.look k p).2 ⟨hp, o, ho, by rw [← hxn, ← hpe]⟩⟩
  have hsub : hg.subGraphs.map (fun e => (e.1, subAt s.mem e.2)) = g.subGraphs := congrArg Contents.subs hc
  refine ⟨hv.graph, (congrArg Contents.name hc).symm, (congrArg Contents.directed hc).symm, (congrArg Contents.strict hc).symm,
    (congrArg Contents.relations hc).symm, ?_, ?_, ?_, hv.edges, (congrArg Contents.edges hc).symm, ?_, ?_⟩
  · rw [hv.attrs]; exact congrArg (fun x => some (Cell.map x)) (congrArg Contents.attrs hc)
  · apply mkeys_eq hi.nodes.wf hl.nodes.wf
    intro k
    cases h1 : mget hg.lookup k with
    | some p =>
      have := hfind k p h1
      unfold Nodes.find at this
      cases h2 : mget g.nodes.lookup k with
      | none => rw [h2] at this; cases this
      | some q => rfl
    | none =>
      cases h2 : mget g.nodes.lookup k with
      | none => rfl
      | some q =>
        obtain ⟨p, hp⟩ := hfind' k q h2
        rw [h1] at hp; cases hp
  · intro k p hk
    obtain ⟨o, as, h2, h3, h4, h5⟩ := hv.nodes k p hk
    refine ⟨o, as, h2, h3, h4, ?_⟩
    rw [hfind k p hk, ← h5]
    obtain ⟨_, o', ho', _⟩ := (hl.nodes.look k p).1 hk
    simp [Nodes.find, valueOf, hk, Nodes.deref, ho', nodeAt]
  · rw [← hsub]; exact hv.subKeys
  · rw [← hsub]; exact hv.subs

/-! ### queries -/

variable {ι : Type} [DecidableEq ι]

theorem Safe.toText {i : ι} {p : Prog Ast.Graph} {Q : WRes Ast.Graph → GS ι → Prop} {Q' : WRes Out → GS ι → Prop}
    (hok : ∀ t s, Q (.ok t) s → Q' (.ok (.text (Ast.graphStr t))) s) (herr : ∀ e s, Q (.err e) s → Q' (.ok (.text (b!"error: " ++ e.msg))) s)
    (hp : ∀ s, Q .panic s → Q' .panic s) (hd : ∀ s, Q .diverge s → Q' .diverge s) : ∀ {s : GS ι}, Safe i p Q s → Safe i p.toText Q' s := by
  induction p with
  | ret r =>
    intro s h
    cases r with
    | ok a => exact fun s1 hk => hok _ _ (h s1 hk)
    | err e => exact fun s1 hk => herr _ _ (h s1 hk)
    | panic => exact fun s1 hk => hp _ (h s1 hk)
    | diverge => exact fun s1 hk => hd _ (h s1 hk)
  | read l k ih => exact fun h => ⟨h.1, fun s1 hk => ih _ (h.2 s1 hk)⟩
  | write l c k ih => exact fun h => ⟨h.1, fun s1 hk => ih (h.2 s1 hk)⟩
  | alloc c k ih => exact fun h s1 hk n hn => ih n (h s1 hk n hn)
  | order ks k ih => exact fun h s1 hk l hl => ih l (h s1 hk l hl)

section
variable {i : ι} {W0 : World} {X : Threads.Loc → Prop} {gs : GS ι}

/-- A value made into an `Out`. -/
theorem Gives.out {α : Type} (f : α → Out) {p : Prog α} {r0 : WRes α} (h : Gives i W0 X gs p r0) :
    Gives i W0 X gs (p.bind fun a => .pure (f a)) (okOf f r0) := by
  refine Runs.bind h ?_ ?_
  · rintro a s' hs' _ rfl
    exact Gives.ret hs' _
  · rintro r r' s' hF rfl
    cases hF <;> rfl

end

theorem values_sorted {α : Type} {m : Map α} (h : MapWF m) : (ssort (mkeys m)).map (mget m) = (m.map (·.2)).map some := by
  rw [mkeys_ssort h]
  simp only [mkeys, List.map_map]
  exact List.map_congr_left fun a ha => mget_of_mem h ha

/-- A rearranged list of images is a list of images. -/
theorem perm_of_map {α β : Type} (f : α → β) {l x : List β} (h : l.Perm x) : ∀ {l' : List α}, x = l'.map f → ∃ l'' : List α, l''.Perm l' ∧ l = l''.map f := by
  induction h with
  | nil => exact fun h => ⟨_, .refl _, h⟩
  | cons a _ ih =>
    intro l' he
    cases l' with
    | nil => cases he
    | cons b l' =>
      obtain ⟨e1, e2⟩ := List.cons.inj he
      subst e1
      obtain ⟨l'', h1, h2⟩ := ih e2
      exact ⟨b :: l'', h1.cons b, by rw [h2]; rfl⟩
  | swap a b l =>
    intro l' he
    cases l' with
    | nil => cases he
    | cons c l' =>
      obtain ⟨e1, e2⟩ := List.cons.inj he
      subst e1
      cases l' with
      | nil => cases e2
      | cons d l' =>
        obtain ⟨e3, e4⟩ := List.cons.inj e2
        subst e3 e4
        exact ⟨d :: c :: l', .swap _ _ _, rfl⟩
  | trans _ _ ih1 ih2 =>
    intro l' he
    obtain ⟨l2, h1, h2⟩ := ih2 he
    obtain ⟨l3, h3, h4⟩ := ih1 h2
    exact ⟨l3, h3.trans h1, h4⟩

/-- All of them. -/
theorem Query.runsAt {W : World} {ν : Places} {m : Mem} {h : HGraph} (hl : LInv m h) {n : Nat} {E : Nat → Edge} {g : Graph} (ha : GraphAt W n (ν.hgraph h) E g)
    (hE : ∀ p ∈ h.edges, E (ν.edge p) = edgeAt m p) (hN : ∀ k p, mget h.lookup k = some p → g.nodes.find k = some (nodeAt m p))
    (hS : ∀ k p, mget h.subGraphs k = some p → mget g.subGraphs k = some (subAt m p)) {sorter : Nat → SortTree} (hsort : Sorts sorter) (fuel : Nat) (q : Query)
    {i : ι} {gs : GS ι} (hs : Sh W gs) :
    Runs i W No gs (q.prog sorter fuel n) fun r _ => Right ν (sortOf sorter) fuel m h g q r := by
  obtain ⟨ps, h1, h2, h3⟩ := hsort.run_ptrs E (ν.hgraph h).edges
  have hw := writeAstM_gives ha (i := i) hs fuel h1 (fun p hp => h2.mem_iff.1 hp) (sortE := sortOf sorter) (by rw [ha.edgeList, h3])
  cases q with
  | writeAst => exact hw.out Out.tree
  | string =>
    refine Safe.toText ?_ ?_ ?_ ?_ hw
    · rintro t s' ⟨h4, h5, h6⟩
      exact ⟨h4, h5, by simp only [Right, graphString, ← h6, okOf]⟩
    · rintro e s' ⟨h4, h5, h6⟩
      exact ⟨h4, h5, by simp only [Right, graphString, ← h6, okOf]⟩
    · rintro s' ⟨h4, h5, h6⟩
      exact ⟨h4, h5, by simp only [Right, graphString, ← h6, okOf]⟩
    · rintro s' ⟨h4, h5, h6⟩
      exact ⟨h4, h5, by simp only [Right, graphString, ← h6, okOf]⟩
  | isNode k => exact (isNodeM_gives ha hs k).out Out.bool
  | isSubGraph k => exact (isSubGraphM_gives ha hs k).out Out.bool
  | sortedChildren k => exact (sortedChildrenM_gives ha hs k).out Out.names
  | edgesSorted =>
    refine Runs.mono ((edgesSortedM_gives hs ha.graph E ha.edges h1).out fun l => Out.ptrs (l.map some)) (fun _ h => h) ?_
    rintro r _ rfl
    obtain ⟨ps', h4, rfl⟩ := perm_of_map ν.edge h2 (l' := h.edges) rfl
    refine ⟨ps', ?_, h4, ?_⟩
    · simp only [okOf, List.map_map]; rfl
    · rw [ha.edgeList, h3, List.map_map]
      exact List.map_congr_left fun p hp => (hE p (h4.mem_iff.1 hp)).symm
  | nodesSorted =>
    refine Runs.mono ((nodesSortedM_gives ha hs).out Out.ptrs) (fun _ h => h) ?_
    rintro r _ rfl
    have e := values_sorted (m := (ν.hgraph h).lookup) (Heap.MapWF.mapv ν.node hl.nodes.wf)
    refine ⟨h.lookup.map (·.2), ?_, ?_, ?_⟩
    · rw [ha.lookupKeys, e]
      simp only [Places.hgraph, List.map_map]
      rfl
    · refine (List.perm_ext_iff_of_nodup ?_ hl.nodes.nodup).2 fun p => ?_
      · refine List.pairwise_map.2 (List.Pairwise.imp_of_mem ?_ (List.pairwise_map.1 hl.nodes.wf.nodup))
        intro a b hma hmb hne hab
        obtain ⟨_, o, ho, hoa⟩ := (hl.nodes.look a.1 a.2).1 (mget_of_mem hl.nodes.wf hma)
        obtain ⟨_, o', ho', hob⟩ := (hl.nodes.look b.1 b.2).1 (mget_of_mem hl.nodes.wf hmb)
        rw [hab, ho'] at ho
        cases ho
        exact hne (hoa.symm.trans hob)
      · constructor
        · intro hp
          obtain ⟨a, hma, rfl⟩ := List.mem_map.1 hp
          exact ((hl.nodes.look a.1 a.2).1 (mget_of_mem hl.nodes.wf hma)).1
        · intro hp
          obtain ⟨o, ho⟩ := hl.nodes.valid p hp
          have := (hl.nodes.look o.name p).2 ⟨hp, o, ho, rfl⟩
          exact List.mem_map.2 ⟨(o.name, p), mem_of_mget this, rfl⟩
    · unfold Nodes.sorted
      have hk : mkeys (ν.hgraph h).lookup = mkeys h.lookup := by simp [Places.hgraph, mkeys]
      rw [ha.lookupKeys, hk, mkeys_ssort hl.nodes.wf]
      simp only [mkeys, List.map_map]
      refine List.map_congr_left fun a hma => ?_
      simp only [Function.comp, hN a.1 a.2 (mget_of_mem hl.nodes.wf hma)]
  | subGraphsSorted =>
    refine Runs.mono ((subGraphsSortedM_gives ha hs).out Out.ptrs) (fun _ h => h) ?_
    rintro r _ rfl
    have e := values_sorted (m := (ν.hgraph h).subGraphs) (Heap.MapWF.mapv ν.sub hl.subs.wf)
    refine ⟨h.subGraphs.map (·.2), ?_, fun p => ?_, ?_⟩
    · rw [ha.subKeys, e]
      simp only [Places.hgraph, List.map_map]
      rfl
    · constructor
      · intro hp
        obtain ⟨a, hma, rfl⟩ := List.mem_map.1 hp
        exact ⟨a.1, mget_of_mem hl.subs.wf hma⟩
      · rintro ⟨k, hk⟩
        exact List.mem_map.2 ⟨(k, p), mem_of_mget hk, rfl⟩
    · unfold Gographviz.subGraphsSorted
      have hk : mkeys (ν.hgraph h).subGraphs = mkeys h.subGraphs := by simp [Places.hgraph, mkeys]
      rw [ha.subKeys, hk, mkeys_ssort hl.subs.wf]
      simp only [mkeys, List.map_map]
      refine List.map_congr_left fun a hma => ?_
      simp only [Function.comp, hS a.1 a.2 (mget_of_mem hl.subs.wf hma)]

theorem same_hgraph (h : HGraph) : Places.same.hgraph h = h := by
  have e : ∀ m : Map (Map (List Nat)), Places.same.index m = m := by
    intro m
    unfold Places.index
    conv => rhs; rw [← List.map_id m]
    refine List.map_congr_left fun e _ => Prod.ext rfl ?_
    show e.2.map _ = e.2
    conv => rhs; rw [← List.map_id e.2]
    exact List.map_congr_left fun f _ => Prod.ext rfl (List.map_id _)
  have e2 : ∀ m : Map Nat, m.map (fun e => (e.1, id e.2)) = m := fun m => List.map_id m
  refine hgraph_ext rfl rfl rfl rfl (e2 _) (List.map_id _) (e _) (e _) (List.map_id _) (e2 _) rfl

/-- ... of a graph in the memory itself. -/
theorem Query.runs {s : State} (h : SInv s) {n : Nat} {hg : HGraph} (hn : s.graphs[n]? = some hg) {g : Graph}
    (ha : GraphAt (worldOf s) n hg (edgeAt s.mem) g) {sorter : Nat → SortTree} (hsort : Sorts sorter) (fuel : Nat) (q : Query) {i : ι} {gs : GS ι}
    (hs : Sh (worldOf s) gs) :
    Runs i (worldOf s) No gs (q.prog sorter fuel n) fun r _ => Right .same (sortOf sorter) fuel s.mem hg g q r := by
  have hm : ∀ a as, worldOf s (.map a) = some (.map as) → s.mem.map a = as := by
    intro a as h
    simp only [worldOf, Option.map_eq_some_iff] at h
    obtain ⟨x, h5, he⟩ := h
    cases he
    simp [Mem.map, h5]
  refine Query.runsAt (ν := .same) (m := s.mem) (h := hg) (E := edgeAt s.mem) (h.linv n hg hn) (by rw [same_hgraph]; exact ha) (fun _ _ => rfl) ?_ ?_ hsort fuel q hs
  · intro k p hk
    obtain ⟨o, as, h4, h5, _, h6⟩ := ha.nodes k p hk
    rw [h6]
    simp only [worldOf, Option.map_eq_some_iff] at h4
    obtain ⟨o', h4, he⟩ := h4
    cases he
    simp [nodeAt, h4, hm _ _ h5]
  · intro k p hk
    obtain ⟨o, as, h4, h5, h6⟩ := ha.subs k p hk
    rw [h6]
    simp only [worldOf, Option.map_eq_some_iff] at h4
    obtain ⟨o', h4, he⟩ := h4
    cases he
    simp [subAt, h4, hm _ _ h5]

end Gographviz.Threads
