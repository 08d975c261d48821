import Verif.Proofs.HeapContents
/-!
The invariant of the memory with pointers, and what each call does to it.
-/
namespace Gographviz.Heap

open Gographviz Spec

/-! ### ownership of maps -/

/-- The address of the map of something; `roots` are the maps of the graphs. -/
def ownedM (m : Mem) (roots : List Nat) : Owner → Option Nat
  | .graph i => roots[i]?
  | .node p => (m.nodes[p]?).map (·.attrs)
  | .edge p => (m.edges[p]?).map (·.attrs)
  | .sub p => (m.subs[p]?).map (·.attrs)

/-- No map belongs to two things. -/
structure MInv (m : Mem) (roots : List Nat) : Prop where
  inj : ∀ o o' a, ownedM m roots o = some a → ownedM m roots o' = some a → o = o'
  lt : ∀ o a, ownedM m roots o = some a → a < m.maps.length

theorem map_lt {m : Mem} {a : Nat} (h : a < m.maps.length) : m.maps[a]? = some (m.map a) := by
  unfold Mem.map
  rw [List.getElem?_eq_getElem h]; rfl

theorem map_set (m : Mem) {a : Nat} (k v : Str) (b : Nat) (h : a < m.maps.length) :
    (m.set a k v).map b = if a = b then mset (m.map b) k v else m.map b := by
  unfold Mem.set Mem.map
  simp only [List.getElem?_modify]
  split
  · rename_i e
    subst e
    rw [List.getElem?_eq_getElem h]; simp
  · simp

theorem map_push (m : Mem) (x : Attrs) (b : Nat) (h : b < m.maps.length) : Mem.map { m with maps := m.maps ++ [x] } b = m.map b := by
  unfold Mem.map
  simp only
  rw [List.getElem?_append_left h]

theorem map_pushed (m : Mem) (x : Attrs) : Mem.map { m with maps := m.maps ++ [x] } m.maps.length = x := by
  unfold Mem.map; simp

theorem set_maps_length (m : Mem) (a : Nat) (k v : Str) : (m.set a k v).maps.length = m.maps.length := by
  unfold Mem.set; simp

theorem owned_set (m : Mem) (roots : List Nat) (a : Nat) (k v : Str) : ownedM (m.set a k v) roots = ownedM m roots := by
  funext o; cases o <;> rfl

theorem MInv.set {m : Mem} {roots : List Nat} (h : MInv m roots) (a : Nat) (k v : Str) : MInv (m.set a k v) roots := by
  refine ⟨?_, ?_⟩
  · rw [owned_set]; exact h.inj
  · rw [owned_set, set_maps_length]; exact h.lt

theorem MInv.push {m : Mem} {roots : List Nat} (h : MInv m roots) (x : Attrs) : MInv { m with maps := m.maps ++ [x] } roots := by
  have e : ownedM { m with maps := m.maps ++ [x] } roots = ownedM m roots := by funext o; cases o <;> rfl
  refine ⟨by rw [e]; exact h.inj, fun o a ho => ?_⟩
  rw [e] at ho
  have := h.lt o a ho
  simp only [List.length_append, List.length_cons, List.length_nil]
  omega

/-- One more owner, of a map that had none. -/
theorem MInv.more {m m' : Mem} {roots roots' : List Nat} (h : MInv m roots) (o₀ : Owner) (a₀ : Nat)
    (ho : ∀ o a, ownedM m' roots' o = some a → (o = o₀ ∧ a = a₀) ∨ ownedM m roots o = some a)
    (hfree : ∀ o, ownedM m roots o ≠ some a₀) (hm : m'.maps = m.maps) (hlt : a₀ < m.maps.length) : MInv m' roots' := by
  refine ⟨fun o o' a h1 h2 => ?_, fun o a h1 => ?_⟩
  · rcases ho o a h1 with ⟨rfl, rfl⟩ | h1 <;> rcases ho o' _ h2 with ⟨rfl, e⟩ | h2
    · rfl
    · exact absurd h2 (hfree o')
    · subst e; exact absurd h1 (hfree o)
    · exact h.inj o o' a h1 h2
  · rw [hm]
    rcases ho o a h1 with ⟨_, rfl⟩ | h1
    · exact hlt
    · exact h.lt o a h1

theorem getElem?_snoc {α : Type} {l : List α} {x y : α} {p : Nat} (h : (l ++ [x])[p]? = some y) : (p = l.length ∧ x = y) ∨ l[p]? = some y := by
  by_cases hp : p < l.length
  · rw [List.getElem?_append_left hp] at h; exact .inr h
  · by_cases hp' : p = l.length
    · subst hp'; simp at h; exact .inl ⟨rfl, h⟩
    · rw [List.getElem?_eq_none (by simp; omega)] at h; cases h

theorem MInv.allocNode {m : Mem} {roots : List Nat} (h : MInv m roots) (n : Str) {a : Nat} (hfree : ∀ o, ownedM m roots o ≠ some a)
    (hlt : a < m.maps.length) : MInv { m with nodes := m.nodes ++ [⟨n, a⟩] } roots := by
  refine h.more (.node m.nodes.length) a (fun o b ho => ?_) hfree rfl hlt
  cases o with
  | node p =>
    simp only [ownedM, Option.map_eq_some_iff] at ho
    obtain ⟨y, hy, rfl⟩ := ho
    rcases getElem?_snoc hy with ⟨rfl, rfl⟩ | hy
    · exact .inl ⟨rfl, rfl⟩
    · exact .inr (by simp [ownedM, hy])
  | _ => exact .inr ho

theorem MInv.allocEdge {m : Mem} {roots : List Nat} (h : MInv m roots) (e : EdgeObj) (hfree : ∀ o, ownedM m roots o ≠ some e.attrs)
    (hlt : e.attrs < m.maps.length) : MInv { m with edges := m.edges ++ [e] } roots := by
  refine h.more (.edge m.edges.length) e.attrs (fun o b ho => ?_) hfree rfl hlt
  cases o with
  | edge p =>
    simp only [ownedM, Option.map_eq_some_iff] at ho
    obtain ⟨y, hy, rfl⟩ := ho
    rcases getElem?_snoc hy with ⟨rfl, rfl⟩ | hy
    · exact .inl ⟨rfl, rfl⟩
    · exact .inr (by simp [ownedM, hy])
  | _ => exact .inr ho

theorem MInv.allocSub {m : Mem} {roots : List Nat} (h : MInv m roots) (e : SubObj) (hfree : ∀ o, ownedM m roots o ≠ some e.attrs)
    (hlt : e.attrs < m.maps.length) : MInv { m with subs := m.subs ++ [e] } roots := by
  refine h.more (.sub m.subs.length) e.attrs (fun o b ho => ?_) hfree rfl hlt
  cases o with
  | sub p =>
    simp only [ownedM, Option.map_eq_some_iff] at ho
    obtain ⟨y, hy, rfl⟩ := ho
    rcases getElem?_snoc hy with ⟨rfl, rfl⟩ | hy
    · exact .inl ⟨rfl, rfl⟩
    · exact .inr (by simp [ownedM, hy])
  | _ => exact .inr ho

theorem MInv.allocGraph {m : Mem} {roots : List Nat} (h : MInv m roots) {a : Nat} (hfree : ∀ o, ownedM m roots o ≠ some a)
    (hlt : a < m.maps.length) : MInv m (roots ++ [a]) := by
  refine h.more (.graph roots.length) a (fun o b ho => ?_) hfree rfl hlt
  cases o with
  | graph i =>
    rcases getElem?_snoc ho with ⟨rfl, rfl⟩ | hy
    · exact .inl ⟨rfl, rfl⟩
    · exact .inr hy
  | _ => exact .inr ho

/-- A map that was just allocated has no owner. -/
theorem MInv.fresh {m : Mem} {roots : List Nat} (h : MInv m roots) (x : Attrs) :
    ∀ o, ownedM { m with maps := m.maps ++ [x] } roots o ≠ some m.maps.length := by
  intro o ho
  have e : ownedM { m with maps := m.maps ++ [x] } roots = ownedM m roots := by funext o; cases o <;> rfl
  rw [e] at ho
  exact absurd (h.lt o _ ho) (Nat.lt_irrefl _)

/-! ### `NewAttrs` and `Extend` -/

theorem modify_last {α : Type} (l : List α) (x : α) (f : α → α) : (l ++ [x]).modify l.length f = l ++ [f x] := by
  induction l with
  | nil => rfl
  | cons a l ih => simp only [List.cons_append, List.length_cons, List.modify_succ_cons, ih]

theorem modify_same {α : Type} (l : List α) (i : Nat) : l.modify i (fun x => x) = l := by
  refine List.ext_getElem? fun j => ?_
  rw [List.getElem?_modify]
  split <;> simp

theorem newAttrsLoop_spec (m : Mem) (kvs : List (Str × Str)) (as0 : Attrs) :
    ∃ as err, newAttrsLoop { m with maps := m.maps ++ [as0] } m.maps.length kvs = ({ m with maps := m.maps ++ [as] }, err) ∧
      ((newAttrsFrom as0 kvs = .ok as ∧ err = none) ∨ ∃ e, newAttrsFrom as0 kvs = .error e ∧ err = some e) := by
  induction kvs generalizing as0 with
  | nil => exact ⟨as0, none, rfl, .inl ⟨rfl, rfl⟩⟩
  | cons x kvs ih =>
    obtain ⟨k, v⟩ := x
    simp only [newAttrsLoop, newAttrsFrom, add, attrsAdd]
    cases newAttr k with
    | error e => exact ⟨as0, some e, rfl, .inr ⟨e, rfl, rfl⟩⟩
    | ok k' =>
      simp only
      obtain ⟨as, err, h1, h2⟩ := ih (mset as0 k' v)
      refine ⟨as, err, ?_, h2⟩
      rw [← h1]
      congr 1
      unfold Mem.set
      simp only [modify_last]

theorem newAttrs_spec (m : Mem) (kvs : List (Str × Str)) :
    ∃ as, (newAttrs m kvs).1 = { m with maps := m.maps ++ [as] } ∧
      ((Gographviz.newAttrs kvs = .ok as ∧ (newAttrs m kvs).2 = .ok m.maps.length) ∨
        ∃ e, Gographviz.newAttrs kvs = .error e ∧ (newAttrs m kvs).2 = .error e) := by
  obtain ⟨as, err, h1, h2⟩ := newAttrsLoop_spec m kvs []
  refine ⟨as, ?_, ?_⟩
  · unfold newAttrs; rw [h1]; cases err <;> rfl
  · unfold newAttrs Gographviz.newAttrs
    rw [h1]
    rcases h2 with ⟨h2, rfl⟩ | ⟨e, h2, rfl⟩
    · exact .inl ⟨h2, rfl⟩
    · exact .inr ⟨e, h2, rfl⟩

theorem foldl_set (kvs : List (Str × Str)) (a : Nat) : ∀ (m : Mem), a < m.maps.length →
    (kvs.foldl (fun m e => m.set a e.1 e.2) m) = { m with maps := m.maps.modify a fun as => msetAll as kvs } := by
  induction kvs with
  | nil => intro m h; simp only [List.foldl_nil, msetAll_nil]; rw [modify_same]
  | cons e kvs ih =>
    intro m h
    rw [List.foldl_cons, ih _ (by rw [set_maps_length]; exact h)]
    unfold Mem.set
    simp only [List.modify_modify_eq]
    rfl


/-! ### the invariant of one graph -/

/-- The nodes: the map and the list agree. -/
structure NI (ns : List NodeObj) (lookup : Map Nat) (list : List Nat) : Prop where
  wf : MapWF lookup
  nodup : list.Nodup
  look : ∀ n p, mget lookup n = some p ↔ p ∈ list ∧ ∃ o, ns[p]? = some o ∧ o.name = n
  valid : ∀ p ∈ list, ∃ o, ns[p]? = some o

/-- The object at `p` is an edge from `s` to `d`. -/
def between (es : List EdgeObj) (s d : Str) (p : Nat) : Bool := match es[p]? with
  | some e => decide (e.src = s) && decide (e.dst = d)
  | none => false

/-- The edges: the indexes and the list agree. -/
structure EI (es : List EdgeObj) (sd ds : Map (Map (List Nat))) (list : List Nat) : Prop where
  valid : ∀ p ∈ list, ∃ e, es[p]? = some e
  nodup : list.Nodup
  src : ∀ s d, mget2 sd s d = nonEmpty (list.filter (between es s d))
  dst : ∀ s d, mget2 ds d s = nonEmpty (list.filter (between es s d))

/-- The subgraphs: each is entered under its name. -/
structure SI (ss : List SubObj) (subs : Map Nat) : Prop where
  wf : MapWF subs
  look : ∀ k p, mget subs k = some p → ∃ o, ss[p]? = some o ∧ o.name = k

/-- The invariant of one graph. -/
structure LInv (m : Mem) (g : HGraph) : Prop where
  nodes : NI m.nodes g.lookup g.list
  edges : EI m.edges g.srcToDsts g.dstToSrcs g.edges
  subs : SI m.subs g.subGraphs

theorem getElem?_ext {α : Type} {l l' : List α} {p : Nat} {x : α} (h : l[p]? = some x) : (l ++ l')[p]? = some x := by
  rw [List.getElem?_append_left (List.getElem?_eq_some_iff.1 h).1]; exact h

theorem NI.mono {ns l : List NodeObj} {lookup : Map Nat} {list : List Nat} (h : NI ns lookup list) : NI (ns ++ l) lookup list := by
  refine ⟨h.wf, h.nodup, fun n p => ?_, fun p hp => ?_⟩
  · rw [h.look]
    constructor
    · rintro ⟨h1, o, h2, h3⟩; exact ⟨h1, o, getElem?_ext h2, h3⟩
    · rintro ⟨h1, o, h2, h3⟩
      obtain ⟨o', ho'⟩ := h.valid p h1
      rw [getElem?_ext ho'] at h2
      cases h2
      exact ⟨h1, o, ho', h3⟩
  · obtain ⟨o, ho⟩ := h.valid p hp
    exact ⟨o, getElem?_ext ho⟩

theorem between_mono {es l : List EdgeObj} {list : List Nat} (hv : ∀ p ∈ list, ∃ e, es[p]? = some e) (s d : Str) :
    list.filter (between (es ++ l) s d) = list.filter (between es s d) := by
  refine List.filter_congr fun p hp => ?_
  obtain ⟨e, he⟩ := hv p hp
  unfold between
  rw [he, getElem?_ext he]

theorem EI.mono {es l : List EdgeObj} {sd ds : Map (Map (List Nat))} {list : List Nat} (h : EI es sd ds list) : EI (es ++ l) sd ds list := by
  refine ⟨fun p hp => ?_, h.nodup, fun s d => ?_, fun s d => ?_⟩
  · obtain ⟨o, ho⟩ := h.valid p hp
    exact ⟨o, getElem?_ext ho⟩
  · rw [between_mono h.valid]; exact h.src s d
  · rw [between_mono h.valid]; exact h.dst s d

theorem SI.mono {ss l : List SubObj} {subs : Map Nat} (h : SI ss subs) : SI (ss ++ l) subs := by
  refine ⟨h.wf, fun k p hk => ?_⟩
  obtain ⟨o, h1, h2⟩ := h.look k p hk
  exact ⟨o, getElem?_ext h1, h2⟩

/-- Nothing is taken out of the memory. -/
structure Ext (m m' : Mem) : Prop where
  nodes : ∃ l, m'.nodes = m.nodes ++ l
  edges : ∃ l, m'.edges = m.edges ++ l
  subs : ∃ l, m'.subs = m.subs ++ l
  maps : m.maps.length ≤ m'.maps.length

theorem Ext.refl (m : Mem) : Ext m m := ⟨⟨[], by simp⟩, ⟨[], by simp⟩, ⟨[], by simp⟩, Nat.le_refl _⟩

theorem Ext.trans {m m' m'' : Mem} (h : Ext m m') (h' : Ext m' m'') : Ext m m'' := by
  obtain ⟨⟨l1, e1⟩, ⟨l2, e2⟩, ⟨l3, e3⟩, h4⟩ := h
  obtain ⟨⟨k1, f1⟩, ⟨k2, f2⟩, ⟨k3, f3⟩, k4⟩ := h'
  exact ⟨⟨l1 ++ k1, by rw [f1, e1, List.append_assoc]⟩, ⟨l2 ++ k2, by rw [f2, e2, List.append_assoc]⟩,
    ⟨l3 ++ k3, by rw [f3, e3, List.append_assoc]⟩, Nat.le_trans h4 k4⟩

theorem Ext.owned {m m' : Mem} (h : Ext m m') {roots : List Nat} {o : Owner} {a : Nat} (ho : ownedM m roots o = some a) :
    ownedM m' roots o = some a := by
  obtain ⟨⟨l1, e1⟩, ⟨l2, e2⟩, ⟨l3, e3⟩, -⟩ := h
  cases o with
  | graph i => exact ho
  | node p =>
    simp only [ownedM, Option.map_eq_some_iff] at ho ⊢
    obtain ⟨x, hx, rfl⟩ := ho
    exact ⟨x, by rw [e1]; exact getElem?_ext hx, rfl⟩
  | edge p =>
    simp only [ownedM, Option.map_eq_some_iff] at ho ⊢
    obtain ⟨x, hx, rfl⟩ := ho
    exact ⟨x, by rw [e2]; exact getElem?_ext hx, rfl⟩
  | sub p =>
    simp only [ownedM, Option.map_eq_some_iff] at ho ⊢
    obtain ⟨x, hx, rfl⟩ := ho
    exact ⟨x, by rw [e3]; exact getElem?_ext hx, rfl⟩

theorem LInv.ext {m m' : Mem} {g : HGraph} (h : LInv m g) (he : Ext m m') : LInv m' g := by
  obtain ⟨⟨l1, e1⟩, ⟨l2, e2⟩, ⟨l3, e3⟩, -⟩ := he
  exact ⟨by rw [e1]; exact h.nodes.mono, by rw [e2]; exact h.edges.mono, by rw [e3]; exact h.subs.mono⟩

theorem Ext.set (m : Mem) (a : Nat) (k v : Str) : Ext m (m.set a k v) :=
  ⟨⟨[], by simp [Mem.set]⟩, ⟨[], by simp [Mem.set]⟩, ⟨[], by simp [Mem.set]⟩, by rw [set_maps_length]; exact Nat.le_refl _⟩

theorem Ext.push (m : Mem) (x : Attrs) : Ext m { m with maps := m.maps ++ [x] } :=
  ⟨⟨[], by simp⟩, ⟨[], by simp⟩, ⟨[], by simp⟩, by simp⟩

/-! ### frames -/

/-- The things whose map a call of graph `i` may change: the graph, its nodes and its subgraphs. -/
def Live (i : Nat) (g : HGraph) : Owner → Prop
  | .graph j => j = i
  | .node p => p ∈ g.list
  | .edge _ => False
  | .sub p => ∃ k, mget g.subGraphs k = some p

/-- What a call of graph `i` leaves alone. -/
structure Frame (i : Nat) (roots : List Nat) (m : Mem) (g : HGraph) (m' : Mem) (g' : HGraph) : Prop where
  ext : Ext m m'
  same : ∀ o a, ownedM m roots o = some a → ¬ Live i g o → m'.map a = m.map a
  attrs : g'.attrs = g.attrs
  list : Grown m.nodes.length g.list g'.list
  edges : Grown m.edges.length g.edges g'.edges
  subs : ∀ k p, mget g'.subGraphs k = some p → mget g.subGraphs k = some p ∨ (mget g.subGraphs k = none ∧ m.subs.length ≤ p)
  node : ∀ n p q, mget g.lookup n = some p → mget g'.lookup n = some q → p = q

theorem _root_.Gographviz.Spec.Grown.refl (n : Nat) (l : List Nat) : Grown n l l := ⟨l, [], by simp, List.Sublist.refl _, fun _ h => nomatch h⟩

theorem _root_.Gographviz.Spec.Grown.mem {n : Nat} {l l' : List Nat} (h : Grown n l l') {p : Nat} (hp : p ∈ l') : p ∈ l ∨ n ≤ p := by
  obtain ⟨old, new, rfl, hs, hn⟩ := h
  rcases List.mem_append.1 hp with hp | hp
  · exact .inl (hs.subset hp)
  · exact .inr (hn p hp)

theorem _root_.Gographviz.Spec.Grown.trans {n n' : Nat} {l l' l'' : List Nat} (h : Grown n l l') (h' : Grown n' l' l'') (hle : n ≤ n') : Grown n l l'' := by
  obtain ⟨old, new, rfl, hs, hn⟩ := h
  obtain ⟨old', new', rfl, hs', hn'⟩ := h'
  obtain ⟨o1, o2, rfl, h1, h2⟩ := List.sublist_append_iff.1 hs'
  refine ⟨o1, o2 ++ new', by rw [List.append_assoc], h1.trans hs, fun p hp => ?_⟩
  rcases List.mem_append.1 hp with hp | hp
  · exact hn p (h2.subset hp)
  · exact Nat.le_trans hle (hn' p hp)

theorem Frame.refl (i : Nat) (roots : List Nat) (m : Mem) (g : HGraph) : Frame i roots m g m g :=
  ⟨Ext.refl m, fun _ _ _ _ => rfl, rfl, Grown.refl _ _, Grown.refl _ _, fun _ _ h => .inl h, fun _ _ _ h h' => by rw [h] at h'; exact Option.some.inj h'⟩

/-- The contents of another graph stay. -/
theorem Frame.other {i j : Nat} {roots : List Nat} {m m' : Mem} {g g' h : HGraph} (hf : Frame i roots m g m' g') (hij : j ≠ i) (hl : LInv m h)
    (hr : roots[j]? = some h.attrs) (hd1 : ∀ p ∈ h.list, p ∉ g.list) (hd2 : ∀ k p k', mget h.subGraphs k = some p → mget g.subGraphs k' ≠ some p) :
    contents m' h = contents m h := by
  have hext := hf.ext
  obtain ⟨⟨l1, e1⟩, ⟨l2, e2⟩, ⟨l3, e3⟩, -⟩ := hext
  unfold contents
  simp only [Contents.mk.injEq, true_and, and_true]
  refine ⟨hf.same (.graph j) _ hr hij, List.map_congr_left fun p hp => ?_, List.map_congr_left fun p hp => ?_, List.map_congr_left fun x hx => ?_⟩
  · obtain ⟨o, ho⟩ := hl.nodes.valid p hp
    unfold nodeAt
    rw [e1, getElem?_ext ho, ho]
    simp only
    rw [hf.same (.node p) o.attrs (by simp [ownedM, ho]) (hd1 p hp)]
  · obtain ⟨o, ho⟩ := hl.edges.valid p hp
    unfold edgeAt
    rw [e2, getElem?_ext ho, ho]
    simp only
    rw [hf.same (.edge p) o.attrs (by simp [ownedM, ho]) id]
  · obtain ⟨k, p⟩ := x
    have hk := mget_of_mem hl.subs.wf hx
    obtain ⟨o, ho, -⟩ := hl.subs.look k p hk
    unfold subAt
    simp only
    rw [e3, getElem?_ext ho, ho]
    simp only
    rw [hf.same (.sub p) o.attrs (by simp [ownedM, ho]) fun ⟨k', hk'⟩ => hd2 k p k' hk hk']

end Gographviz.Heap
