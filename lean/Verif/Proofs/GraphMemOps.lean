import Verif.Proofs.GraphMem
import Verif.Proofs.Sharing
/-!
The methods that change graphs.
-/
namespace Gographviz.Threads

open Gographviz Gographviz.Heap Gographviz.Spec Gographviz.Spec.Sharing Gographviz.Spec.OwnGraphs

variable {ι : Type} [DecidableEq ι] {α β : Type}

theorem Prog.bind_pure (p : Prog α) : p.bind .pure = p := by
  induction p with
  | ret r => cases r <;> rfl
  | read l k ih => simp only [Prog.bind]; congr 1; funext c; exact ih c
  | write l c k ih => simp only [Prog.bind]; congr 1
  | alloc c k ih => simp only [Prog.bind]; congr 1; funext n; exact ih n
  | order ks k ih => simp only [Prog.bind]; congr 1; funext l; exact ih l

theorem set_get {γ : Type} {l : List γ} {j : Nat} {x y : γ} (h : l[j]? = some x) : (l.set j y)[j]? = some y := by
  rw [List.getElem?_set_self (List.getElem?_eq_some_iff.1 h).1]

theorem set_same {γ : Type} {l : List γ} {j : Nat} {x : γ} (h : l[j]? = some x) : l.set j x = l := by
  refine List.ext_getElem? fun k => ?_
  rw [List.getElem?_set]
  split
  · rename_i e
    subst e
    rw [if_pos (List.getElem?_eq_some_iff.1 h).1, h]
  · rfl

/-- The map argument: nil, or a map that nobody changes. -/
def ArgAt (W0 : World) (arg : Option Nat) (x : Map Str) : Prop := match arg with
  | none => x = []
  | some r => W0 (.arg r) = some (.arg x)

/-- The entries in the order of the keys. -/
def entries (x : Map Str) (ks : List Str) : List (Str × Str) := ks.map fun k => (k, mgetS x k)

theorem entries_perm {x : Map Str} (h : MapWF x) {ks : List Str} (hks : ks.Perm (mkeys x)) : (entries x ks).Perm x := by
  refine (hks.map fun k => (k, mgetS x k)).trans ?_
  have e2 : (mkeys x).map (fun k => (k, mgetS x k)) = x := by
    unfold mkeys
    rw [List.map_map]
    conv => rhs; rw [← List.map_id x]
    refine List.map_congr_left fun y hy => ?_
    obtain ⟨k, v⟩ := y
    simp [mgetS, mget_of_mem h hy]
  rw [e2]

section
variable {i : ι} {W0 : World} {ν : Places} {m : Mem} {gs : List HGraph} {s : GS ι} {Q : α → GS ι → Prop}

/-- `Attrs.Add`. -/
theorem addM_does (hst : St i W0 ν m gs s) {a : Nat} (ha : a < m.maps.length) (k v : Str) :
    Does i s (addM (ν.map a) k v) fun e s' => St i W0 ν (Heap.add m a k v).1 gs s' ∧ e = (Heap.add m a k v).2 := by
  unfold addM Heap.add
  cases newAttr k
  · exact Does.ret fun s1 hk => ⟨hst.keep hk, rfl⟩
  · exact Does.mapSet hst ha _ _ fun s1 h1 => Does.ret fun s2 hk => ⟨h1.keep hk, rfl⟩

theorem add_maps_length (m : Mem) (a : Nat) (k v : Str) : (Heap.add m a k v).1.maps.length = m.maps.length := by
  unfold Heap.add
  split
  · rfl
  · exact set_maps_length _ _ _ _

theorem newAttrsLoopM_does {r : Nat} {x : Map Str} (hr : W0 (.arg r) = some (.arg x)) (ks : List Str) {a : Nat} : ∀ {m : Mem} {s : GS ι}, St i W0 ν m gs s →
    a < m.maps.length → Does i s (newAttrsLoopM (ν.map a) r ks) fun e s' =>
      St i W0 ν (newAttrsLoop m a (entries x ks)).1 gs s' ∧ e = (newAttrsLoop m a (entries x ks)).2 := by
  induction ks with
  | nil => exact fun hst _ => Does.ret fun s1 hk => ⟨hst.keep hk, rfl⟩
  | cons k ks ih =>
    intro m s hst ha
    refine Does.getArg hst hr fun s1 h1 => ?_
    refine Does.bind (addM_does h1 ha k _) ?_
    rintro e s2 ⟨h2, he⟩
    have hlen := add_maps_length m a k (mgetS x k)
    unfold entries at ih ⊢
    simp only [List.map_cons, newAttrsLoop]
    generalize Heap.add m a k (mgetS x k) = y at *
    obtain ⟨m', e'⟩ := y
    dsimp only at h2 he hlen
    subst he
    cases e with
    | none => exact ih h2 (by omega)
    | some e => exact Does.ret fun s3 hk => ⟨h2.keep hk, rfl⟩

/-- The result of `NewAttrs`. -/
def NewAttrsPost (i : ι) (W0 : World) (ν : Places) (m : Mem) (gs : List HGraph) (x : Map Str) (r : Except Err Nat) (s : GS ι) : Prop :=
  ∃ (kvs : List (Str × Str)) (ν' : Places), kvs.Perm x ∧ Agree ν ν' m gs.length ∧ ν'.graph = ν.graph ∧ St i W0 ν' (Heap.newAttrs m kvs).1 gs s ∧ match (Heap.newAttrs m kvs).2 with
    | .error e => r = .error e
    | .ok a => r = .ok (ν'.map a)

theorem newAttrsM_does (hst : St i W0 ν m gs s) {arg : Option Nat} {x : Map Str} (hx : MapWF x) (ha : ArgAt W0 arg x) :
    Does i s (newAttrsM arg) (NewAttrsPost i W0 ν m gs x) := by
  refine Does.newMap hst fun ν' s1 hag hg h1 => ?_
  have hlt : m.maps.length < (m.maps ++ [([] : Attrs)]).length := by simp
  cases arg with
  | none =>
    cases (show x = [] from ha)
    exact Does.ret fun s2 hk => ⟨[], ν', .nil, hag, hg, h1.keep hk, rfl⟩
  | some r =>
    refine Does.getArg h1 ha fun s2 h2 => Does.range h2 fun ks s3 hks h3 => ?_
    refine Does.bind (newAttrsLoopM_does ha ks h3 hlt) ?_
    rintro e s4 ⟨h4, he⟩
    have key : ∀ res, (match e with
        | some e => res = .error e
        | none => res = .ok (ν'.map m.maps.length)) → ∀ s5, Keep i s4 s5 → NewAttrsPost i W0 ν m gs x res s5 := by
      intro res hres s5 hk
      refine ⟨entries x ks, ν', entries_perm hx hks, hag, hg, ?_⟩
      unfold Heap.newAttrs
      generalize newAttrsLoop { m with maps := m.maps ++ [[]] } m.maps.length (entries x ks) = y at h4 he
      obtain ⟨m', e'⟩ := y
      dsimp only at h4 he
      subst he
      cases e with
      | none => exact ⟨h4.keep hk, hres⟩
      | some e => exact ⟨h4.keep hk, hres⟩
    cases e with
    | none => exact Does.ret (key _ rfl)
    | some e => exact Does.ret (key _ rfl)

/-- What happens to the memory in `NewAttrs`. -/
theorem newAttrs_mem (m : Mem) (kvs : List (Str × Str)) : ∃ as, (Heap.newAttrs m kvs).1 = { m with maps := m.maps ++ [as] } ∧
    ((Heap.newAttrs m kvs).2 = .ok m.maps.length ∨ ∃ e, (Heap.newAttrs m kvs).2 = .error e) := by
  obtain ⟨as, h1, h2⟩ := newAttrs_spec m kvs
  refine ⟨as, h1, ?_⟩
  rcases h2 with ⟨_, h2⟩ | ⟨e, _, h2⟩
  · exact .inl h2
  · exact .inr ⟨_, h2⟩

/-! ### edges -/

theorem edgesAddM_does (hst : St i W0 ν m gs s) {j : Nat} {g : HGraph} (hj : gs[j]? = some g) {p : Nat} {o : EdgeObj} (hp : m.edges[p]? = some o) :
    Does i s (edgesAddM (ν.graph j) (ν.edge p)) fun _ s' => St i W0 ν m (gs.set j (edgesAdd m g p)) s' := by
  have hv := (hst.rep.graphs j g hj).2
  have hplt := (List.getElem?_eq_some_iff.1 hp).1
  refine Does.getEdge hst hp fun s1 h1 => ?_
  refine Does.modGraph h1 (g' := { g with srcToDsts := edgeIndexAdd g.srcToDsts o.src o.dst p }) hj ?_ ⟨hv.1, hv.2, hv.3, hv.4.add _ _ hplt, hv.5, hv.6, hv.7⟩ fun s2 h2 => ?_
  · exact hgraph_ext rfl rfl rfl rfl rfl rfl (index_add ν _ _ _ _).symm rfl rfl rfl rfl
  refine Does.modGraph h2 (g' := { g with srcToDsts := edgeIndexAdd g.srcToDsts o.src o.dst p, dstToSrcs := edgeIndexAdd g.dstToSrcs o.dst o.src p }) (set_get hj) ?_
    ⟨hv.1, hv.2, hv.3, hv.4.add _ _ hplt, hv.5.add _ _ hplt, hv.6, hv.7⟩ fun s3 h3 => ?_
  · exact hgraph_ext rfl rfl rfl rfl rfl rfl rfl (index_add ν _ _ _ _).symm rfl rfl rfl
  rw [List.set_set] at h3
  have hE : ∀ q ∈ g.edges ++ [p], q < m.edges.length := by
    intro q hq
    rcases List.mem_append.1 hq with hq | hq
    · exact hv.6 q hq
    · rw [List.mem_singleton.1 hq]; exact hplt
  have e : modGraph (ν.graph j) (fun g => { g with edges := g.edges ++ [ν.edge p] }) = (modGraph (ν.graph j) (fun g => { g with edges := g.edges ++ [ν.edge p] })).bind .pure := (Prog.bind_pure _).symm
  show Does i s3 (modGraph (ν.graph j) (fun g => { g with edges := g.edges ++ [ν.edge p] })) _
  rw [e]
  refine Does.modGraph h3 (g' := edgesAdd m g p) (set_get hj) ?_ ?_ fun s4 h4 => Does.ret fun s5 hk => ?_
  · simp only [edgesAdd, hp]
    exact hgraph_ext rfl rfl rfl rfl rfl rfl rfl rfl (by simp [Places.hgraph]) rfl rfl
  · simp only [edgesAdd, hp]
    exact ⟨hv.1, hv.2, hv.3, hv.4.add _ _ hplt, hv.5.add _ _ hplt, hE, hv.7⟩
  · rw [List.set_set] at h4
    exact h4.keep hk

/-- The outcome of a call on graph `j`: what `Model/Heap.lean` says. -/
def Outcome (i : ι) (W0 : World) (ν : Places) (m : Mem) (gs : List HGraph) (j : Nat) (x : Map Str) (f : List (Str × Str) → (Mem × HGraph) × Option Err)
    (r : Option Err) (s : GS ι) : Prop :=
  ∃ (kvs : List (Str × Str)) (ν' : Places), kvs.Perm x ∧ Agree ν ν' m gs.length ∧ ν'.graph = ν.graph ∧ St i W0 ν' (f kvs).1.1 (gs.set j (f kvs).1.2) s ∧ r = (f kvs).2

theorem addPortEdgeM_does (hst : St i W0 ν m gs s) {j : Nat} {g : HGraph} (hj : gs[j]? = some g) (src sp dst dp : Str) (dir : Bool) {arg : Option Nat} {x : Map Str}
    (hx : MapWF x) (ha : ArgAt W0 arg x) :
    Does i s (addPortEdgeM (ν.graph j) src sp dst dp dir arg) (Outcome i W0 ν m gs j x (addPortEdge m g src sp dst dp dir)) := by
  refine Does.bind (newAttrsM_does hst hx ha) ?_
  rintro r s1 ⟨kvs, ν', hp, hag, hg, h1, hr⟩
  obtain ⟨as, hm, h2⟩ := newAttrs_mem m kvs
  generalize hna : Heap.newAttrs m kvs = y at *
  obtain ⟨m', r'⟩ := y
  dsimp only at hm h2 h1 hr
  rcases h2 with rfl | ⟨e, rfl⟩
  · dsimp only at hr
    subst hr
    subst hm
    rw [← hg]
    refine Does.newEdge h1 ⟨src, sp, dst, dp, dir, m.maps.length⟩ (by simp) fun ν'' s2 hag2 hg2 h3 => ?_
    rw [← hg2]
    refine Does.bind (edgesAddM_does h3 (p := m.edges.length) (o := ⟨src, sp, dst, dp, dir, m.maps.length⟩) hj (by simp)) ?_
    intro _ s3 h4
    refine Does.ret fun s4 hk => ⟨kvs, ν'', hp, hag.trans hag2 ⟨by simp, Nat.le_refl _, Nat.le_refl _, Nat.le_refl _⟩ (Nat.le_refl _), hg2.trans hg, ?_, ?_⟩
    · simp only [addPortEdge, hna]
      exact h4.keep hk
    · simp only [addPortEdge, hna]
  · dsimp only at hr
    subst hr
    refine Does.ret fun s2 hk => ⟨kvs, ν', hp, hag, hg, ?_, ?_⟩
    · simp only [addPortEdge, hna]
      rw [set_same hj]
      exact h1.keep hk
    · simp only [addPortEdge, hna]

/-! ### nodes -/

theorem map_foldl_set_ne {a b : Nat} (hab : a ≠ b) (kvs : List (Str × Str)) : ∀ (m : Mem), (kvs.foldl (fun m e => m.set a e.1 e.2) m).map b = m.map b := by
  induction kvs with
  | nil => exact fun _ => rfl
  | cons e kvs ih =>
    intro m
    rw [List.foldl_cons, ih]
    unfold Mem.set Mem.map
    simp only [List.getElem?_modify, if_neg hab]
    cases m.maps[b]? <;> rfl

theorem copyLoop_does {a b : Nat} (hab : a ≠ b) {src : Map Str} (ks : List Str) : ∀ {m : Mem} {s : GS ι}, St i W0 ν m gs s → a < m.maps.length → b < m.maps.length →
    m.map b = src → Does i s (forKeys (fun k => (getMap (ν.map b)).bind fun m => mapSet (ν.map a) k (mgetS m k)) ks) fun _ s' =>
      St i W0 ν ((entries src ks).foldl (fun m e => m.set a e.1 e.2) m) gs s' := by
  induction ks with
  | nil => exact fun hst _ _ _ => Does.ret fun s1 hk => hst.keep hk
  | cons k ks ih =>
    intro m s hst ha hb hsrc
    have e : forKeys (fun k => (getMap (ν.map b)).bind fun m => mapSet (ν.map a) k (mgetS m k)) (k :: ks) = (getMap (ν.map b)).bind fun m =>
        (mapSet (ν.map a) k (mgetS m k)).bind fun _ => forKeys (fun k => (getMap (ν.map b)).bind fun m => mapSet (ν.map a) k (mgetS m k)) ks := Prog.bind_assoc _ _ _
    rw [e]
    refine Does.getMap hst hb fun s1 h1 => ?_
    rw [hsrc]
    refine Does.mapSet h1 ha k _ fun s2 h2 => ?_
    refine ih h2 (by rw [set_maps_length]; exact ha) (by rw [set_maps_length]; exact hb) ?_
    rw [← hsrc]
    exact map_foldl_set_ne hab [(k, mgetS (m.map b) k)] m

theorem copyInto_does (hst : St i W0 ν m gs s) (hm : MapsWF m) {a b : Nat} (ha : a < m.maps.length) (hb : b < m.maps.length) (hab : a ≠ b) :
    Does i s (copyInto (ν.map a) (ν.map b)) fun _ s' => St i W0 ν (extend m a b) gs s' := by
  refine Does.getMap hst hb fun s1 h1 => Does.range h1 fun ks s2 hks h2 => ?_
  refine Does.mono (copyLoop_does hab ks h2 ha hb rfl) ?_
  intro _ s3 h3
  have hwb : MapWF (m.map b) := hm _ (List.mem_of_getElem? (map_lt hb))
  have hwa : MapWF (m.map a) := hm _ (List.mem_of_getElem? (map_lt ha))
  have e : (entries (m.map b) ks).foldl (fun m e => m.set a e.1 e.2) m = extend m a b := by
    unfold extend
    rw [foldl_set _ a m ha, foldl_set _ a m ha]
    congr 1
    refine List.ext_getElem? fun c => ?_
    rw [List.getElem?_modify, List.getElem?_modify]
    split
    · rename_i hc
      subst hc
      rw [map_lt ha]
      simp only [Option.map_eq_map, Option.map_some, Option.some.injEq]
      refine msetAll_perm hwa (entries_perm hwb hks) ?_
      unfold entries
      rw [List.map_map]
      have : (Prod.fst ∘ fun k => (k, mgetS (m.map b) k)) = id := rfl
      rw [this, List.map_id]
      exact hks.nodup_iff.2 hwb.nodup
    · rfl
  rw [e] at h3
  exact h3

theorem nodesAddM_does (hst : St i W0 ν m gs s) (hm : MapsWF m) {j : Nat} {g : HGraph} (hj : gs[j]? = some g) {p : Nat} {o : NodeObj} (hp : m.nodes[p]? = some o)
    (hne : ∀ q n, mget g.lookup o.name = some q → m.nodes[q]? = some n → n.attrs ≠ o.attrs) :
    Does i s (nodesAddM (ν.graph j) (ν.node p)) fun _ s' => St i W0 ν (nodesAdd m g p).1 (gs.set j (nodesAdd m g p).2) s' := by
  have hv := (hst.rep.graphs j g hj).2
  have hplt := (List.getElem?_eq_some_iff.1 hp).1
  refine Does.getNode hst hp fun s1 h1 => Does.getGraph h1 hj fun s2 h2 => ?_
  have e : mget (ν.hgraph g).lookup (ν.nodeObj o).name = (mget g.lookup o.name).map ν.node := mget_mapv ν.node _ _
  simp only [nodesAdd, hp]
  show Does i s2 (match mget (ν.hgraph g).lookup (ν.nodeObj o).name with
    | some q => (getNode q).bind fun n => copyInto n.attrs (ν.nodeObj o).attrs
    | none => (modGraph (ν.graph j) fun g => { g with lookup := mset g.lookup (ν.nodeObj o).name (ν.node p) }).bind fun _ =>
      modGraph (ν.graph j) fun g => { g with list := g.list ++ [ν.node p] }) _
  rw [e]
  cases hq : mget g.lookup o.name with
  | some q =>
    have hqlt := hv.lookup _ (mem_of_mget hq)
    have hn := List.getElem?_eq_getElem hqlt
    dsimp only at hn
    simp only [Option.map_some, hn]
    refine Does.getNode h2 hn fun s3 h3 => ?_
    rw [set_same hj]
    exact copyInto_does h3 hm (h3.rep.nodes _ _ hn).2 (h3.rep.nodes _ _ hp).2 (hne q _ hq hn)
  | none =>
    simp only [Option.map_none]
    have hL : ∀ e ∈ mset g.lookup o.name p, e.2 < m.nodes.length := by
      intro e he
      rcases mem_mset he with rfl | he
      · exact hplt
      · exact hv.lookup e he
    have hE : ∀ q ∈ g.list ++ [p], q < m.nodes.length := by
      intro q hq
      rcases List.mem_append.1 hq with hq | hq
      · exact hv.list q hq
      · rw [List.mem_singleton.1 hq]; exact hplt
    refine Does.modGraph h2 (g' := { g with lookup := mset g.lookup o.name p }) hj ?_ ⟨hv.1, hL, hv.3, hv.4, hv.5, hv.6, hv.7⟩ fun s3 h3 => ?_
    · exact hgraph_ext rfl rfl rfl rfl (mset_mapv ν.node _ _ _) rfl rfl rfl rfl rfl rfl
    have e : modGraph (ν.graph j) (fun g => { g with list := g.list ++ [ν.node p] }) = (modGraph (ν.graph j) (fun g => { g with list := g.list ++ [ν.node p] })).bind .pure := (Prog.bind_pure _).symm
    rw [e]
    refine Does.modGraph h3 (g' := { g with lookup := mset g.lookup o.name p, list := g.list ++ [p] }) (set_get hj) ?_ ⟨hv.1, hL, hE, hv.4, hv.5, hv.6, hv.7⟩ fun s4 h4 => ?_
    · exact hgraph_ext rfl rfl rfl rfl rfl (by simp [Places.hgraph]) rfl rfl rfl rfl rfl
    rw [List.set_set] at h4
    exact Does.ret fun s5 hk => h4.keep hk

theorem nodesAdd_ok (m : Mem) (g : HGraph) (p : Nat) (hv : GValid m g) (hp : p < m.nodes.length) : GValid (nodesAdd m g p).1 (nodesAdd m g p).2 ∧
    (nodesAdd m g p).2.relations = g.relations := by
  have hn := List.getElem?_eq_getElem hp
  simp only [nodesAdd, hn]
  split
  · split
    · exact ⟨hv, rfl⟩
    · refine ⟨?_, rfl⟩
      rename_i q hq n hn'
      have hlt : ∀ (kvs : List (Str × Str)) (m : Mem), (kvs.foldl (fun m e => m.set n.attrs e.1 e.2) m).maps.length = m.maps.length ∧
          (kvs.foldl (fun m e => m.set n.attrs e.1 e.2) m).nodes = m.nodes ∧ (kvs.foldl (fun m e => m.set n.attrs e.1 e.2) m).edges = m.edges ∧
          (kvs.foldl (fun m e => m.set n.attrs e.1 e.2) m).subs = m.subs := by
        intro kvs
        induction kvs with
        | nil => exact fun m => ⟨rfl, rfl, rfl, rfl⟩
        | cons e kvs ih =>
          intro m
          obtain ⟨h1, h2, h3, h4⟩ := ih (m.set n.attrs e.1 e.2)
          exact ⟨h1.trans (set_maps_length _ _ _ _), h2, h3, h4⟩
      obtain ⟨h1, h2, h3, h4⟩ := hlt (m.map (m.nodes[p]).attrs) m
      exact hv.mono ⟨Nat.le_of_eq h1.symm, Nat.le_of_eq (congrArg List.length h2).symm, Nat.le_of_eq (congrArg List.length h3).symm, Nat.le_of_eq (congrArg List.length h4).symm⟩
  · refine ⟨⟨hv.1, ?_, ?_, hv.4, hv.5, hv.6, hv.7⟩, rfl⟩
    · intro e he
      rcases mem_mset he with rfl | he
      · exact hp
      · exact hv.lookup e he
    · intro q hq
      rcases List.mem_append.1 hq with hq | hq
      · exact hv.list q hq
      · rw [List.mem_singleton.1 hq]; exact hp

theorem addNodeM_does (hst : St i W0 ν m gs s) (hm : MapsWF m) {j : Nat} {g : HGraph} (hj : gs[j]? = some g) (parent name : Str) {arg : Option Nat} {x : Map Str}
    (hx : MapWF x) (ha : ArgAt W0 arg x) : Does i s (addNodeM (ν.graph j) parent name arg) (Outcome i W0 ν m gs j x (addNode m g parent name)) := by
  refine Does.bind (newAttrsM_does hst hx ha) ?_
  rintro r s1 ⟨kvs, ν', hp, hag, hg, h1, hr⟩
  obtain ⟨as, hm2, h2⟩ := newAttrs_mem m kvs
  have hmw := hm.newAttrs kvs
  generalize hna : Heap.newAttrs m kvs = y at *
  obtain ⟨m', r'⟩ := y
  dsimp only at hm2 h2 h1 hr hmw
  rcases h2 with rfl | ⟨e, rfl⟩
  · dsimp only at hr
    subst hr
    subst hm2
    rw [← hg]
    refine Does.newNode h1 ⟨name, m.maps.length⟩ (by simp) fun ν'' s2 hag2 hg2 h3 => ?_
    rw [← hg2]
    have hnode : (m.nodes ++ [(⟨name, m.maps.length⟩ : NodeObj)])[m.nodes.length]? = some ⟨name, m.maps.length⟩ := by simp
    have hv := (hst.rep.graphs j g hj).2
    refine Does.bind (nodesAddM_does h3 (hmw.maps rfl) hj (p := m.nodes.length) (o := ⟨name, m.maps.length⟩) hnode ?_) ?_
    · intro q n hq hn
      dsimp only at hq
      have hqlt := hv.lookup _ (mem_of_mget hq)
      dsimp only at hn hqlt
      rw [List.getElem?_append_left hqlt] at hn
      have := (hst.rep.nodes q n hn).2
      exact Nat.ne_of_lt this
    intro _ s3 h4
    have hok := nodesAdd_ok _ g m.nodes.length (h3.rep.graphs j g hj).2 (by simp)
    have hadd : addNode m g parent name kvs = (let y := nodesAdd { m with maps := m.maps ++ [as], nodes := m.nodes ++ [⟨name, m.maps.length⟩] } g m.nodes.length
        ((y.1, { y.2 with relations := y.2.relations.add parent name }), none)) := by
      simp only [addNode, hna]
    generalize nodesAdd { m with maps := m.maps ++ [as], nodes := m.nodes ++ [⟨name, m.maps.length⟩] } g m.nodes.length = y at h4 hadd hok
    obtain ⟨m2, g2⟩ := y
    dsimp only at h4 hadd hok
    have hv2 := hok.1
    refine Does.modGraph h4 (g' := { g2 with relations := g2.relations.add parent name }) (set_get hj) ?_ ⟨hv2.1, hv2.2, hv2.3, hv2.4, hv2.5, hv2.6, hv2.7⟩ fun s4 h5 => ?_
    · exact hgraph_ext rfl rfl rfl rfl rfl rfl rfl rfl rfl rfl rfl
    rw [List.set_set] at h5
    refine Does.ret fun s5 hk => ⟨kvs, ν'', hp, hag.trans hag2 ⟨by simp, Nat.le_refl _, Nat.le_refl _, Nat.le_refl _⟩ (Nat.le_refl _), hg2.trans hg, ?_, ?_⟩
    · rw [hadd]; exact h5.keep hk
    · rw [hadd]
  · dsimp only at hr
    subst hr
    refine Does.ret fun s2 hk => ⟨kvs, ν', hp, hag, hg, ?_, ?_⟩
    · simp only [addNode, hna]
      rw [set_same hj]
      exact h1.keep hk
    · simp only [addNode, hna]

/-! ### removing -/

/-- The edges of a graph there. -/
def eset (ν : Places) (g : HGraph) : EdgeSet := ⟨ν.index g.srcToDsts, ν.index g.dstToSrcs, g.edges.map ν.edge⟩

theorem rebuildLoopM_does {keep : EdgeObj → Bool} (hkeep : ∀ o, keep (ν.edgeObj o) = keep o) (ps : List Nat) : ∀ {acc : HGraph} {s : GS ι}, St i W0 ν m gs s →
    (∀ p ∈ ps, p < m.edges.length) → GValid m acc → Does i s (rebuildLoopM keep (eset ν acc) (ps.map ν.edge)) fun r s' => St i W0 ν m gs s' ∧
      ∃ acc', ps.foldl (fun acc p => match m.edges[p]? with
        | some e => if keep e then edgesAdd m acc p else acc
        | none => acc) acc = acc' ∧ r = eset ν acc' ∧ GValid m acc' ∧
        acc' = { acc with srcToDsts := acc'.srcToDsts, dstToSrcs := acc'.dstToSrcs, edges := acc'.edges } := by
  induction ps with
  | nil => exact fun hst _ hv => Does.ret fun s1 hk => ⟨hst.keep hk, _, rfl, rfl, hv, rfl⟩
  | cons p ps ih =>
    intro acc s hst hlt hv
    have hplt := hlt p (List.mem_cons_self ..)
    have he := List.getElem?_eq_getElem hplt
    refine Does.getEdge hst he fun s1 h1 => ?_
    simp only [List.foldl_cons, he]
    rw [hkeep]
    have hrest := fun q hq => hlt q (List.mem_cons_of_mem _ hq)
    cases hk : keep m.edges[p] with
    | false => exact ih h1 hrest hv
    | true =>
      simp only [if_true]
      have hv' : GValid m (edgesAdd m acc p) := by
        simp only [edgesAdd, he]
        refine ⟨hv.1, hv.2, hv.3, hv.4.add _ _ hplt, hv.5.add _ _ hplt, ?_, hv.7⟩
        intro q hq
        rcases List.mem_append.1 hq with hq | hq
        · exact hv.6 q hq
        · rw [List.mem_singleton.1 hq]; exact hplt
      have e : (eset ν acc).add (ν.edgeObj m.edges[p]) (ν.edge p) = eset ν (edgesAdd m acc p) := by
        simp only [edgesAdd, he, eset, EdgeSet.add, index_add]
        simp [Places.edgeObj]
      rw [e]
      refine Does.mono (ih h1 hrest hv') ?_
      rintro r s2 ⟨h2, acc', h3, h4, h5, h6⟩
      refine ⟨h2, acc', h3, h4, h5, ?_⟩
      conv => lhs; rw [h6]
      simp only [edgesAdd, he]

theorem edgesRebuildM_does (hst : St i W0 ν m gs s) {j : Nat} {g : HGraph} (hj : gs[j]? = some g) {keep : EdgeObj → Bool} (hkeep : ∀ o, keep (ν.edgeObj o) = keep o) :
    Does i s (edgesRebuildM (ν.graph j) keep) fun _ s' => St i W0 ν m (gs.set j (Heap.edgesRebuild m g keep)) s' ∧ GValid m (Heap.edgesRebuild m g keep) := by
  have hv := (hst.rep.graphs j g hj).2
  refine Does.getGraph hst hj fun s1 h1 => ?_
  have hnil : ∀ n, IdxLt n [] := fun n e he => nomatch he
  refine Does.bind (rebuildLoopM_does hkeep g.edges (acc := { g with srcToDsts := [], dstToSrcs := [], edges := [] }) h1 hv.edges
    ⟨hv.1, hv.2, hv.3, hnil _, hnil _, (fun _ h => nomatch h), hv.7⟩) ?_
  rintro es s2 ⟨h2, acc', h3, rfl, h5, h6⟩
  have e : Heap.edgesRebuild m g keep = acc' := h3
  rw [e]
  have e2 : ∀ F : HGraph → HGraph, modGraph (ν.graph j) F = (modGraph (ν.graph j) F).bind .pure := fun _ => (Prog.bind_pure _).symm
  rw [e2]
  refine Does.modGraph h2 (g' := acc') hj ?_ h5 fun s3 h7 => Does.ret fun s4 hk => ⟨h7.keep hk, h5⟩
  rw [h6]
  exact hgraph_ext rfl rfl rfl rfl rfl rfl rfl rfl rfl rfl rfl

theorem removeLoopM_does (name : Str) (ps : List Nat) : ∀ {s : GS ι}, St i W0 ν m gs s → (∀ p ∈ ps, p < m.nodes.length) →
    Does i s (removeLoopM name (ps.map ν.node)) fun r s' => St i W0 ν m gs s' ∧ r = (removeLoop m name ps).map (List.map ν.node) := by
  induction ps with
  | nil => exact fun hst _ => Does.ret fun s1 hk => ⟨hst.keep hk, rfl⟩
  | cons p ps ih =>
    intro s hst hlt
    have he := List.getElem?_eq_getElem (hlt p (List.mem_cons_self ..))
    refine Does.getNode hst he fun s1 h1 => ?_
    simp only [removeLoop, he, Option.map_some, Option.some.injEq]
    show Does i s1 (if (m.nodes[p]'(hlt p (List.mem_cons_self ..))).name = name then .pure (some (ps.map ν.node)) else
      (removeLoopM name (ps.map ν.node)).bind fun r => .pure (r.map (ν.node p :: ·))) _
    split
    · exact Does.ret fun s2 hk => ⟨h1.keep hk, rfl⟩
    · refine Does.bind (ih h1 fun q hq => hlt q (List.mem_cons_of_mem _ hq)) ?_
      rintro r s2 ⟨h2, rfl⟩
      refine Does.ret fun s3 hk => ⟨h2.keep hk, ?_⟩
      cases removeLoop m name ps <;> rfl

theorem removeLoop_mem {name : Str} {ps l : List Nat} (h : removeLoop m name ps = some l) : ∀ q ∈ l, q ∈ ps := by
  induction ps generalizing l with
  | nil => cases h
  | cons p ps ih =>
    simp only [removeLoop] at h
    split at h
    · cases h
      exact fun q hq => List.mem_cons_of_mem _ hq
    · cases hr : removeLoop m name ps with
      | none => rw [hr] at h; cases h
      | some l' =>
        rw [hr] at h
        cases h
        intro q hq
        rcases List.mem_cons.1 hq with rfl | hq
        · exact List.mem_cons_self ..
        · exact List.mem_cons_of_mem _ (ih hr q hq)

theorem removeNodeM_does (hst : St i W0 ν m gs s) {j : Nat} {g : HGraph} (hj : gs[j]? = some g) (parent name : Str) :
    Does i s (removeNodeM (ν.graph j) parent name) fun e s' => St i W0 ν m (gs.set j (removeNode m g parent name).1) s' ∧ e = (removeNode m g parent name).2 := by
  have hv := (hst.rep.graphs j g hj).2
  refine Does.getGraph hst hj fun s1 h1 => Does.bind (removeLoopM_does name g.list h1 hv.list) ?_
  rintro r s2 ⟨h2, rfl⟩
  unfold removeNode
  cases hl : removeLoop m name g.list with
  | none =>
    refine Does.ret fun s3 hk => ⟨?_, rfl⟩
    rw [set_same hj]
    exact h2.keep hk
  | some l =>
    have hlv : ∀ p ∈ l, p < m.nodes.length := fun p hp => hv.list p (removeLoop_mem hl p hp)
    have hdv : ∀ e ∈ mdel g.lookup name, e.2 < m.nodes.length := fun e he => hv.lookup e (List.mem_filter.1 he).1
    refine Does.modGraph h2 (g' := { g with list := l }) hj ?_ ⟨hv.1, hv.2, hlv, hv.4, hv.5, hv.6, hv.7⟩ fun s3 h3 => ?_
    · exact hgraph_ext rfl rfl rfl rfl rfl rfl rfl rfl rfl rfl rfl
    refine Does.modGraph h3 (g' := { g with list := l, lookup := mdel g.lookup name }) (set_get hj) ?_ ⟨hv.1, hdv, hlv, hv.4, hv.5, hv.6, hv.7⟩ fun s4 h4 => ?_
    · exact hgraph_ext rfl rfl rfl rfl (mdel_mapv ν.node _ _) rfl rfl rfl rfl rfl rfl
    rw [List.set_set] at h4
    refine Does.modGraph h4 (g' := { g with list := l, lookup := mdel g.lookup name, relations := g.relations.remove parent name }) (set_get hj) ?_
      ⟨hv.1, hdv, hlv, hv.4, hv.5, hv.6, hv.7⟩ fun s5 h5 => ?_
    · exact hgraph_ext rfl rfl rfl rfl rfl rfl rfl rfl rfl rfl rfl
    rw [List.set_set] at h5
    refine Does.bind (edgesRebuildM_does h5 (set_get hj) fun _ => rfl) ?_
    rintro _ s6 ⟨h6, _⟩
    rw [List.set_set] at h6
    exact Does.ret fun s7 hk => ⟨h6.keep hk, rfl⟩

theorem removeNodesM_does (parent : Str) (cs : List Str) : ∀ {gs : List HGraph} {s : GS ι} {j : Nat} {g : HGraph}, St i W0 ν m gs s → gs[j]? = some g →
    Does i s (removeNodesM (ν.graph j) parent cs) fun e s' => St i W0 ν m (gs.set j (removeNodes m g parent cs).1) s' ∧ e = (removeNodes m g parent cs).2 := by
  induction cs with
  | nil =>
    intro gs s j g hst hj
    refine Does.ret fun s1 hk => ⟨?_, rfl⟩
    simp only [removeNodes]
    rw [set_same hj]; exact hst.keep hk
  | cons c cs ih =>
    intro gs s j g hst hj
    refine Does.bind (removeNodeM_does hst hj parent c) ?_
    rintro e s1 ⟨h1, he⟩
    simp only [removeNodes]
    generalize removeNode m g parent c = y at *
    obtain ⟨g', e'⟩ := y
    dsimp only at h1 he
    subst he
    cases e with
    | some e => exact Does.ret fun s2 hk => ⟨h1.keep hk, rfl⟩
    | none =>
      refine Does.mono (ih h1 (set_get hj)) ?_
      rintro e s2 ⟨h2, h3⟩
      rw [List.set_set] at h2
      exact ⟨h2, h3⟩

theorem removeSubGraphM_does (hst : St i W0 ν m gs s) {j : Nat} {g : HGraph} (hj : gs[j]? = some g) (parent name : Str) :
    Does i s (removeSubGraphM (ν.graph j) parent name) fun e s' => ∃ order, order.Perm (mkeys (g.relations.children name)) ∧
      St i W0 ν m (gs.set j (removeSubGraph m g parent name order).1) s' ∧ e = (removeSubGraph m g parent name order).2 := by
  refine Does.getGraph hst hj fun s1 h1 => Does.range h1 fun ks s2 hks h2 => Does.bind (removeNodesM_does parent ks h2 hj) ?_
  rintro e s3 ⟨h3, he⟩
  have key : ∀ s' e', St i W0 ν m (gs.set j (removeSubGraph m g parent name ks).1) s' → e' = (removeSubGraph m g parent name ks).2 → ∃ order,
      order.Perm (mkeys (g.relations.children name)) ∧ St i W0 ν m (gs.set j (removeSubGraph m g parent name order).1) s' ∧ e' = (removeSubGraph m g parent name order).2 :=
    fun s' e' h1 h2 => ⟨ks, hks, h1, h2⟩
  simp only [removeSubGraph] at key
  generalize removeNodes m g parent ks = y at *
  obtain ⟨g', e'⟩ := y
  dsimp only at h3 he key
  subst he
  cases e with
  | some e => exact Does.ret fun s4 hk => key _ _ (h3.keep hk) rfl
  | none =>
    have hv := (h3.rep.graphs j g' (set_get hj)).2
    have hdv : ∀ e ∈ mdel g'.subGraphs name, e.2 < m.subs.length := fun e he => hv.subs e (List.mem_filter.1 he).1
    refine Does.modGraph h3 (g' := { g' with relations := g'.relations.remove parent name }) (set_get hj) ?_ ⟨hv.1, hv.2, hv.3, hv.4, hv.5, hv.6, hv.7⟩ fun s4 h4 => ?_
    · exact hgraph_ext rfl rfl rfl rfl rfl rfl rfl rfl rfl rfl rfl
    rw [List.set_set] at h4
    refine Does.modGraph h4 (g' := { g' with relations := g'.relations.remove parent name, subGraphs := mdel g'.subGraphs name }) (set_get hj) ?_
      ⟨hv.1, hv.2, hv.3, hv.4, hv.5, hv.6, hdv⟩ fun s5 h5 => ?_
    · exact hgraph_ext rfl rfl rfl rfl rfl rfl rfl rfl rfl (mdel_mapv ν.sub _ _) rfl
    rw [List.set_set] at h5
    refine Does.bind (edgesRebuildM_does h5 (set_get hj) fun _ => rfl) ?_
    rintro _ s6 ⟨h6, _⟩
    rw [List.set_set] at h6
    exact Does.ret fun s7 hk => key _ _ (h6.keep hk) rfl

/-! ### attributes and subgraphs -/

theorem addAttrM_does (hst : St i W0 ν m gs s) {j : Nat} {g : HGraph} (hj : gs[j]? = some g) (parent field value : Str) :
    Does i s (addAttrM (ν.graph j) parent field value) fun e s' => St i W0 ν (addAttr m g parent field value).1 gs s' ∧ e = (addAttr m g parent field value).2 := by
  have hv := (hst.rep.graphs j g hj).2
  refine Does.getGraph hst hj fun s1 h1 => ?_
  unfold addAttr
  show Does i s1 (if g.name = parent then addM (ν.map g.attrs) field value else match mget (ν.hgraph g).subGraphs parent with
    | none => .pure (some (.noSuchGraph parent))
    | some p => (getSub p).bind fun s => addM s.attrs field value) _
  have e : mget (ν.hgraph g).subGraphs parent = (mget g.subGraphs parent).map ν.sub := mget_mapv ν.sub _ _
  rw [e]
  split
  · exact addM_does h1 hv.attrs _ _
  · cases hq : mget g.subGraphs parent with
    | none => exact Does.ret fun s2 hk => ⟨h1.keep hk, rfl⟩
    | some p =>
      have hn := List.getElem?_eq_getElem (hv.subs _ (mem_of_mget hq))
      dsimp only at hn
      simp only [Option.map_some, Option.bind_some, hn]
      exact Does.getSub h1 hn fun s2 h2 => addM_does h2 (h2.rep.subs _ _ hn).2 _ _

theorem addAttrsM_does {j : Nat} {g : HGraph} (hj : gs[j]? = some g) (name : Str) {r : Nat} {x : Map Str} (hr : W0 (.arg r) = some (.arg x)) (ks : List Str) :
    ∀ {m : Mem} {s : GS ι}, St i W0 ν m gs s → Does i s (addAttrsM (ν.graph j) name r ks) fun e s' =>
      St i W0 ν (addAttrs m g name (entries x ks)).1 gs s' ∧ e = (addAttrs m g name (entries x ks)).2 := by
  induction ks with
  | nil => exact fun hst => Does.ret fun s1 hk => ⟨hst.keep hk, rfl⟩
  | cons k ks ih =>
    intro m s hst
    refine Does.getArg hst hr fun s1 h1 => Does.bind (addAttrM_does h1 hj name k _) ?_
    rintro e s2 ⟨h2, he⟩
    unfold entries at ih ⊢
    simp only [List.map_cons, addAttrs]
    generalize addAttr m g name k (mgetS x k) = y at *
    obtain ⟨m', e'⟩ := y
    dsimp only at h2 he
    subst he
    cases e with
    | none => exact ih h2
    | some e => exact Does.ret fun s3 hk => ⟨h2.keep hk, rfl⟩

theorem subsAddM_does (hst : St i W0 ν m gs s) {j : Nat} {g : HGraph} (hj : gs[j]? = some g) (name : Str) :
    Does i s (subsAddM (ν.graph j) name) fun _ s' => ∃ ν', Agree ν ν' m gs.length ∧ ν'.graph = ν.graph ∧
      St i W0 ν' (subsAdd m g name).1 (gs.set j (subsAdd m g name).2) s' := by
  have hv := (hst.rep.graphs j g hj).2
  refine Does.getGraph hst hj fun s1 h1 => ?_
  show Does i s1 (if mhas (ν.hgraph g).subGraphs name then .pure () else (new (.map [])).bind fun a => (new (.sub ⟨a, name⟩)).bind fun p =>
    modGraph (ν.graph j) fun g => { g with subGraphs := mset g.subGraphs name p }) _
  have e : mhas (ν.hgraph g).subGraphs name = mhas g.subGraphs name := mhas_mapv ν.sub _ _
  rw [e]
  unfold subsAdd
  split
  · refine Does.ret fun s2 hk => ⟨ν, Agree.refl _ _ _, rfl, ?_⟩
    rw [set_same hj]; exact h1.keep hk
  · refine Does.newMap h1 fun ν1 s2 ha1 hg1 h2 => ?_
    rw [← hg1]
    refine Does.newSub h2 ⟨m.maps.length, name⟩ (by simp) fun ν2 s3 ha2 hg2 h3 => ?_
    rw [← hg2]
    have e2 : ∀ F : HGraph → HGraph, modGraph (ν2.graph j) F = (modGraph (ν2.graph j) F).bind .pure := fun _ => (Prog.bind_pure _).symm
    rw [e2]
    have hv3 := (h3.rep.graphs j g hj).2
    refine Does.modGraph h3 (g' := { g with subGraphs := mset g.subGraphs name m.subs.length }) hj ?_ ⟨hv3.1, hv3.2, hv3.3, hv3.4, hv3.5, hv3.6, ?_⟩ fun s4 h4 =>
      Does.ret fun s5 hk => ⟨ν2, ha1.trans ha2 ⟨by simp, Nat.le_refl _, Nat.le_refl _, Nat.le_refl _⟩ (Nat.le_refl _), rfl, h4.keep hk⟩
    · exact hgraph_ext rfl rfl rfl rfl rfl rfl rfl rfl rfl (mset_mapv ν2.sub _ _ _) rfl
    · intro e he
      rcases mem_mset he with rfl | he
      · simp
      · exact hv3.subs e he

theorem addSubGraphM_does (hst : St i W0 ν m gs s) {j : Nat} {g : HGraph} (hj : gs[j]? = some g) (parent name : Str) {arg : Option Nat} {x : Map Str}
    (hx : MapWF x) (ha : ArgAt W0 arg x) : Does i s (addSubGraphM (ν.graph j) parent name arg) (Outcome i W0 ν m gs j x (addSubGraph m g parent name)) := by
  have hv := (hst.rep.graphs j g hj).2
  refine Does.modGraph hst (g' := { g with relations := g.relations.add parent name }) hj ?_ ⟨hv.1, hv.2, hv.3, hv.4, hv.5, hv.6, hv.7⟩ fun s1 h1 => ?_
  · exact hgraph_ext rfl rfl rfl rfl rfl rfl rfl rfl rfl rfl rfl
  refine Does.bind (subsAddM_does h1 (set_get hj) name) ?_
  rintro _ s2 ⟨ν', hag, hg, h2⟩
  rw [List.set_set] at h2
  rw [List.length_set] at hag
  have key : ∀ kvs s' e', kvs.Perm x → St i W0 ν' (addSubGraph m g parent name kvs).1.1 (gs.set j (addSubGraph m g parent name kvs).1.2) s' → e' = (addSubGraph m g parent name kvs).2 →
      Outcome i W0 ν m gs j x (addSubGraph m g parent name) e' s' := fun kvs s' e' h1 h2 h3 => ⟨kvs, ν', h1, hag, hg, h2, h3⟩
  simp only [addSubGraph] at key
  generalize subsAdd m { g with relations := g.relations.add parent name } name = y at *
  obtain ⟨m', g'⟩ := y
  dsimp only at h2 key
  cases arg with
  | none =>
    cases (show x = [] from ha)
    exact Does.ret fun s3 hk => key [] _ _ .nil (h2.keep hk) rfl
  | some r =>
    refine Does.getArg h2 ha fun s3 h3 => Does.range h3 fun ks s4 hks h4 => ?_
    rw [← hg]
    refine Does.mono (addAttrsM_does (set_get hj) name ha ks h4) ?_
    rintro e s5 ⟨h5, h6⟩
    exact key (entries x ks) s5 e (entries_perm hx hks) h5 h6

end

end Gographviz.Threads
