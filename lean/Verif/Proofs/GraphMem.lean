import Verif.Model.GraphMem
import Verif.Proofs.WriteMem
import Verif.Proofs.HeapState
import Verif.Spec.OwnGraphs
/-!
The methods that change graphs, step by step in a memory used by others too, do what `Model/Heap.lean` says in a memory of one's own. The two memories have the
objects at different addresses.
-/
namespace Gographviz.Threads

open Gographviz Gographviz.Heap Gographviz.Spec Gographviz.Spec.Sharing Gographviz.Spec.OwnGraphs

/-! ### objects at other places -/

/-- A node object there. -/
def _root_.Gographviz.Spec.Sharing.Places.nodeObj (ν : Places) (o : NodeObj) : NodeObj := ⟨o.name, ν.map o.attrs⟩

/-- An edge object there. -/
def _root_.Gographviz.Spec.Sharing.Places.edgeObj (ν : Places) (o : EdgeObj) : EdgeObj := ⟨o.src, o.srcPort, o.dst, o.dstPort, o.dir, ν.map o.attrs⟩

/-- A subgraph object there. -/
def _root_.Gographviz.Spec.Sharing.Places.subObj (ν : Places) (o : SubObj) : SubObj := ⟨ν.map o.attrs, o.name⟩

/-- An index of edges there. -/
def _root_.Gographviz.Spec.Sharing.Places.index (ν : Places) (m : Map (Map (List Nat))) : Map (Map (List Nat)) :=
  m.map fun e => (e.1, e.2.map fun e => (e.1, e.2.map ν.edge))

/-- A graph there. -/
def _root_.Gographviz.Spec.Sharing.Places.hgraph (ν : Places) (g : HGraph) : HGraph where
  attrs := ν.map g.attrs
  name := g.name
  directed := g.directed
  strict := g.strict
  lookup := g.lookup.map fun e => (e.1, ν.node e.2)
  list := g.list.map ν.node
  srcToDsts := ν.index g.srcToDsts
  dstToSrcs := ν.index g.dstToSrcs
  edges := g.edges.map ν.edge
  subGraphs := g.subGraphs.map fun e => (e.1, ν.sub e.2)
  relations := g.relations

theorem hgraph_ext {g g' : HGraph} (h1 : g.attrs = g'.attrs) (h2 : g.name = g'.name) (h3 : g.directed = g'.directed) (h4 : g.strict = g'.strict)
    (h5 : g.lookup = g'.lookup) (h6 : g.list = g'.list) (h7 : g.srcToDsts = g'.srcToDsts) (h8 : g.dstToSrcs = g'.dstToSrcs) (h9 : g.edges = g'.edges)
    (h10 : g.subGraphs = g'.subGraphs) (h11 : g.relations = g'.relations) : g = g' := by
  cases g; cases g'; simp_all

/-- `edgeIndexAdd` in terms of lookups and assignments. -/
theorem index_add (ν : Places) (m : Map (Map (List Nat))) (k1 k2 : Str) (p : Nat) :
    ν.index (edgeIndexAdd m k1 k2 p) = edgeIndexAdd (ν.index m) k1 k2 (ν.edge p) := by
  have hin : ∀ i : Map (List Nat), (if mhas i k2 then i else mset i k2 []).map (fun e => (e.1, e.2.map ν.edge)) =
      if mhas (i.map fun e => (e.1, e.2.map ν.edge)) k2 then i.map fun e => (e.1, e.2.map ν.edge) else mset (i.map fun e => (e.1, e.2.map ν.edge)) k2 [] := by
    intro i
    rw [mhas_mapv (List.map ν.edge)]
    split
    · rfl
    · exact (mset_mapv (List.map ν.edge) i k2 []).symm
  have hout : ν.index (if mhas m k1 then m else mset m k1 []) = if mhas (ν.index m) k1 then ν.index m else mset (ν.index m) k1 [] := by
    unfold Places.index
    rw [mhas_mapv fun i : Map (List Nat) => i.map fun e => (e.1, e.2.map ν.edge)]
    split
    · rfl
    · exact (mset_mapv (fun i : Map (List Nat) => i.map fun e => (e.1, e.2.map ν.edge)) m k1 []).symm
  unfold edgeIndexAdd
  dsimp only
  rw [← hout]
  generalize (if mhas m k1 then m else mset m k1 []) = m1
  have e1 : (mget (ν.index m1) k1).getD [] = ((mget m1 k1).getD []).map fun e => (e.1, e.2.map ν.edge) := by
    unfold Places.index
    rw [mget_mapv fun i : Map (List Nat) => i.map fun e => (e.1, e.2.map ν.edge)]
    cases mget m1 k1 <;> rfl
  rw [e1, ← hin]
  generalize (if mhas ((mget m1 k1).getD []) k2 then (mget m1 k1).getD [] else mset ((mget m1 k1).getD []) k2 []) = i1
  have e2 : (mget (i1.map fun e => (e.1, e.2.map ν.edge)) k2).getD [] = ((mget i1 k2).getD []).map ν.edge := by
    rw [mget_mapv (List.map ν.edge)]
    cases mget i1 k2 <;> rfl
  rw [e2]
  have e3 : ((mget i1 k2).getD []).map ν.edge ++ [ν.edge p] = ((mget i1 k2).getD [] ++ [p]).map ν.edge := by simp
  rw [e3, mset_mapv (List.map ν.edge)]
  exact (mset_mapv (fun i : Map (List Nat) => i.map fun e => (e.1, e.2.map ν.edge)) m1 k1 _).symm

/-! ### addresses in use -/

/-- The addresses in an index are below `n`. -/
def IdxLt (n : Nat) (m : Map (Map (List Nat))) : Prop := ∀ e ∈ m, ∀ f ∈ e.2, ∀ p ∈ f.2, p < n

theorem IdxLt.add {n : Nat} {m : Map (Map (List Nat))} (h : IdxLt n m) (k1 k2 : Str) {p : Nat} (hp : p < n) : IdxLt n (edgeIndexAdd m k1 k2 p) := by
  unfold edgeIndexAdd
  dsimp only
  have h1 : IdxLt n (if mhas m k1 then m else mset m k1 []) := by
    split
    · exact h
    · intro e he
      rcases mem_mset he with rfl | he
      · exact fun f hf => nomatch hf
      · exact h e he
  generalize (if mhas m k1 then m else mset m k1 []) = m1 at h1
  have h2 : ∀ f ∈ (mget m1 k1).getD [], ∀ p ∈ f.2, p < n := by
    intro f hf
    cases hm : mget m1 k1 with
    | none => rw [hm] at hf; cases hf
    | some i => rw [hm] at hf; exact h1 _ (mem_of_mget hm) f hf
  generalize (mget m1 k1).getD [] = i at h2
  have h3 : ∀ f ∈ (if mhas i k2 then i else mset i k2 []), ∀ p ∈ f.2, p < n := by
    split
    · exact h2
    · intro f hf
      rcases mem_mset hf with rfl | hf
      · exact fun q hq => nomatch hq
      · exact h2 f hf
  generalize (if mhas i k2 then i else mset i k2 []) = i1 at h3
  intro e he
  rcases mem_mset he with rfl | he
  · intro f hf
    rcases mem_mset hf with rfl | hf
    · intro q hq
      rcases List.mem_append.1 hq with hq | hq
      · cases hm : mget i1 k2 with
        | none => rw [hm] at hq; cases hq
        | some l => rw [hm] at hq; exact h3 _ (mem_of_mget hm) q hq
      · rw [List.mem_singleton.1 hq]; exact hp
    · exact h3 f hf
  · exact h1 e he

theorem IdxLt.mono {n n' : Nat} {m : Map (Map (List Nat))} (h : IdxLt n m) (hn : n ≤ n') : IdxLt n' m :=
  fun e he f hf p hp => Nat.lt_of_lt_of_le (h e he f hf p hp) hn

/-- Every pointer in a graph points to something. -/
structure GValid (m : Mem) (g : HGraph) : Prop where
  attrs : g.attrs < m.maps.length
  lookup : ∀ e ∈ g.lookup, e.2 < m.nodes.length
  list : ∀ p ∈ g.list, p < m.nodes.length
  src : IdxLt m.edges.length g.srcToDsts
  dst : IdxLt m.edges.length g.dstToSrcs
  edges : ∀ p ∈ g.edges, p < m.edges.length
  subs : ∀ e ∈ g.subGraphs, e.2 < m.subs.length

/-- The memory has become larger. -/
structure Larger (m m' : Mem) : Prop where
  maps : m.maps.length ≤ m'.maps.length
  nodes : m.nodes.length ≤ m'.nodes.length
  edges : m.edges.length ≤ m'.edges.length
  subs : m.subs.length ≤ m'.subs.length

theorem Larger.refl (m : Mem) : Larger m m := ⟨Nat.le_refl _, Nat.le_refl _, Nat.le_refl _, Nat.le_refl _⟩

theorem Larger.trans {m m' m'' : Mem} (h : Larger m m') (h' : Larger m' m'') : Larger m m'' :=
  ⟨Nat.le_trans h.1 h'.1, Nat.le_trans h.2 h'.2, Nat.le_trans h.3 h'.3, Nat.le_trans h.4 h'.4⟩

theorem GValid.mono {m m' : Mem} {g : HGraph} (h : GValid m g) (hl : Larger m m') : GValid m' g :=
  ⟨Nat.lt_of_lt_of_le h.attrs hl.maps, fun e he => Nat.lt_of_lt_of_le (h.lookup e he) hl.nodes, fun e he => Nat.lt_of_lt_of_le (h.list e he) hl.nodes,
    h.src.mono hl.edges, h.dst.mono hl.edges, fun e he => Nat.lt_of_lt_of_le (h.edges e he) hl.edges, fun e he => Nat.lt_of_lt_of_le (h.subs e he) hl.subs⟩

/-- The same places for what is in the memory. -/
structure Agree (ν ν' : Places) (m : Mem) (n : Nat) : Prop where
  graph : ∀ a, a < n → ν'.graph a = ν.graph a
  node : ∀ a, a < m.nodes.length → ν'.node a = ν.node a
  edge : ∀ a, a < m.edges.length → ν'.edge a = ν.edge a
  sub : ∀ a, a < m.subs.length → ν'.sub a = ν.sub a
  map : ∀ a, a < m.maps.length → ν'.map a = ν.map a

theorem Agree.refl (ν : Places) (m : Mem) (n : Nat) : Agree ν ν m n := ⟨fun _ _ => rfl, fun _ _ => rfl, fun _ _ => rfl, fun _ _ => rfl, fun _ _ => rfl⟩

theorem Agree.trans {ν ν' ν'' : Places} {m m' : Mem} {n n' : Nat} (h : Agree ν ν' m n) (h' : Agree ν' ν'' m' n') (hm : Larger m m') (hn : n ≤ n') : Agree ν ν'' m n :=
  ⟨fun a ha => (h'.graph a (by omega)).trans (h.graph a ha), fun a ha => (h'.node a (Nat.lt_of_lt_of_le ha hm.nodes)).trans (h.node a ha),
    fun a ha => (h'.edge a (Nat.lt_of_lt_of_le ha hm.edges)).trans (h.edge a ha), fun a ha => (h'.sub a (Nat.lt_of_lt_of_le ha hm.subs)).trans (h.sub a ha),
    fun a ha => (h'.map a (Nat.lt_of_lt_of_le ha hm.maps)).trans (h.map a ha)⟩

theorem Agree.index {ν ν' : Places} {m : Mem} {n : Nat} (h : Agree ν ν' m n) {x : Map (Map (List Nat))} (hx : IdxLt m.edges.length x) : ν'.index x = ν.index x := by
  unfold Places.index
  refine List.map_congr_left fun e he => ?_
  refine Prod.ext rfl ?_
  refine List.map_congr_left fun f hf => ?_
  refine Prod.ext rfl ?_
  exact List.map_congr_left fun p hp => h.edge p (hx e he f hf p hp)

theorem Agree.hgraph {ν ν' : Places} {m : Mem} {n : Nat} (h : Agree ν ν' m n) {g : HGraph} (hg : GValid m g) : ν'.hgraph g = ν.hgraph g := by
  unfold Places.hgraph
  rw [h.map _ hg.attrs, h.index hg.src, h.index hg.dst, List.map_congr_left fun p hp => h.node p (hg.list p hp), List.map_congr_left fun p hp => h.edge p (hg.edges p hp)]
  congr 1
  · exact List.map_congr_left fun e he => by rw [h.node _ (hg.lookup e he)]
  · exact List.map_congr_left fun e he => by rw [h.sub _ (hg.subs e he)]

/-! ### one's own objects in the common memory -/

variable {ι : Type} [DecidableEq ι] {α β : Type}

/-- Goroutine `i` owns everything in the memory `m` and the graphs `gs`; `ν` tells where it is. -/
structure Rep (i : ι) (ν : Places) (m : Mem) (gs : List HGraph) (s : GS ι) : Prop where
  maps : ∀ (a : Nat) as, m.maps[a]? = some as → Own i s (.map (ν.map a)) (.map as)
  nodes : ∀ (p : Nat) o, m.nodes[p]? = some o → Own i s (.node (ν.node p)) (.node (ν.nodeObj o)) ∧ o.attrs < m.maps.length
  edges : ∀ (p : Nat) o, m.edges[p]? = some o → Own i s (.edge (ν.edge p)) (.edge (ν.edgeObj o)) ∧ o.attrs < m.maps.length
  subs : ∀ (p : Nat) o, m.subs[p]? = some o → Own i s (.sub (ν.sub p)) (.sub (ν.subObj o)) ∧ o.attrs < m.maps.length
  graphs : ∀ (j : Nat) g, gs[j]? = some g → Own i s (.graph (ν.graph j)) (.graph (ν.hgraph g)) ∧ GValid m g
  injM : ∀ a b, a < m.maps.length → b < m.maps.length → ν.map a = ν.map b → a = b
  injG : ∀ a b, a < gs.length → b < gs.length → ν.graph a = ν.graph b → a = b

omit [DecidableEq ι] in
theorem Rep.keep {i : ι} {ν : Places} {m : Mem} {gs : List HGraph} {s s' : GS ι} (h : Rep i ν m gs s) (hk : Keep i s s') : Rep i ν m gs s' :=
  ⟨fun a as ha => (h.maps a as ha).keep hk, fun p o hp => ⟨(h.nodes p o hp).1.keep hk, (h.nodes p o hp).2⟩, fun p o hp => ⟨(h.edges p o hp).1.keep hk, (h.edges p o hp).2⟩,
    fun p o hp => ⟨(h.subs p o hp).1.keep hk, (h.subs p o hp).2⟩, fun p o hp => ⟨(h.graphs p o hp).1.keep hk, (h.graphs p o hp).2⟩, h.injM, h.injG⟩

/-- The common part and one's own part of the memory. -/
structure St (i : ι) (W0 : World) (ν : Places) (m : Mem) (gs : List HGraph) (s : GS ι) : Prop where
  sh : Sh W0 s
  rep : Rep i ν m gs s

omit [DecidableEq ι] in
theorem St.keep {i : ι} {W0 : World} {ν : Places} {m : Mem} {gs : List HGraph} {s s' : GS ι} (h : St i W0 ν m gs s) (hk : Keep i s s') : St i W0 ν m gs s' :=
  ⟨h.sh.keep hk, h.rep.keep hk⟩

/-- It returns a value, with this outcome. -/
def Ends (Q : α → GS ι → Prop) : WRes α → GS ι → Prop
  | .ok a, s => Q a s
  | _, _ => False

/-- The program returns a value, with this outcome. -/
def Does (i : ι) (s : GS ι) (p : Prog α) (Q : α → GS ι → Prop) : Prop := Safe i p (Ends Q) s

section
variable {i : ι} {W0 : World} {ν : Places} {m : Mem} {gs : List HGraph} {s : GS ι} {Q : α → GS ι → Prop}

theorem Does.ret {a : α} (h : ∀ s1, Keep i s s1 → Q a s1) : Does i s (.ret (.ok a)) Q := h

theorem Does.bind {p : Prog β} {f : β → Prog α} {Q1 : β → GS ι → Prop} (h : Does i s p Q1) (hf : ∀ a s', Q1 a s' → Does i s' (f a) Q) : Does i s (p.bind f) Q := by
  refine Safe.bind (Q := Ends Q1) hf ?_ h
  intro r r' s' hF hE
  cases hF <;> exact hE.elim

theorem Does.mono {p : Prog α} {Q' : α → GS ι → Prop} (h : Does i s p Q) (hQ : ∀ a s', Q a s' → Q' a s') : Does i s p Q' := by
  refine Safe.mono ?_ h
  intro r s' hE
  cases r with
  | ok a => exact hQ a s' hE
  | err e => exact hE.elim
  | panic => exact hE.elim
  | diverge => exact hE.elim

theorem Does.readOwn {l : Threads.Loc} {v : Cell} (hst : St i W0 ν m gs s) (ho : Own i s l v) {k : Option Cell → Prog α} (h : ∀ s', St i W0 ν m gs s' → Does i s' (k (some v)) Q) :
    Does i s (.read l k) Q := by
  refine ⟨⟨⟨v, ho.1⟩, .inr ho.2⟩, fun s1 hk => ?_⟩
  rw [(ho.keep hk).1]
  exact h s1 (hst.keep hk)

theorem Does.getGraph (hst : St i W0 ν m gs s) {j : Nat} {g : HGraph} (hj : gs[j]? = some g) {f : HGraph → Prog α}
    (h : ∀ s', St i W0 ν m gs s' → Does i s' (f (ν.hgraph g)) Q) : Does i s ((getGraph (ν.graph j)).bind f) Q :=
  Does.readOwn hst (hst.rep.graphs j g hj).1 h

theorem Does.getNode (hst : St i W0 ν m gs s) {p : Nat} {o : NodeObj} (hp : m.nodes[p]? = some o) {f : NodeObj → Prog α}
    (h : ∀ s', St i W0 ν m gs s' → Does i s' (f (ν.nodeObj o)) Q) : Does i s ((getNode (ν.node p)).bind f) Q :=
  Does.readOwn hst (hst.rep.nodes p o hp).1 h

theorem Does.getEdge (hst : St i W0 ν m gs s) {p : Nat} {o : EdgeObj} (hp : m.edges[p]? = some o) {f : EdgeObj → Prog α}
    (h : ∀ s', St i W0 ν m gs s' → Does i s' (f (ν.edgeObj o)) Q) : Does i s ((getEdge (ν.edge p)).bind f) Q :=
  Does.readOwn hst (hst.rep.edges p o hp).1 h

theorem Does.getSub (hst : St i W0 ν m gs s) {p : Nat} {o : SubObj} (hp : m.subs[p]? = some o) {f : SubObj → Prog α}
    (h : ∀ s', St i W0 ν m gs s' → Does i s' (f (ν.subObj o)) Q) : Does i s ((getSub (ν.sub p)).bind f) Q :=
  Does.readOwn hst (hst.rep.subs p o hp).1 h

theorem Does.getMap (hst : St i W0 ν m gs s) {a : Nat} (ha : a < m.maps.length) {f : Map Str → Prog α}
    (h : ∀ s', St i W0 ν m gs s' → Does i s' (f (m.map a)) Q) : Does i s ((getMap (ν.map a)).bind f) Q :=
  Does.readOwn hst (hst.rep.maps a _ (map_lt ha)) h

theorem Does.getArg (hst : St i W0 ν m gs s) {r : Nat} {x : Map Str} (hr : W0 (.arg r) = some (.arg x)) {f : Map Str → Prog α}
    (h : ∀ s', St i W0 ν m gs s' → Does i s' (f x) Q) : Does i s ((getArg r).bind f) Q := by
  obtain ⟨h1, h2⟩ := hst.sh _ _ hr
  refine ⟨⟨⟨_, h1⟩, .inl h2⟩, fun s1 hk => ?_⟩
  rw [(hk _ _ h1 (.inl h2)).1]
  exact h s1 (hst.keep hk)

theorem Does.range (hst : St i W0 ν m gs s) {ks : List Str} {f : List Str → Prog α}
    (h : ∀ l s', l.Perm ks → St i W0 ν m gs s' → Does i s' (f l) Q) : Does i s ((rangeOf ks).bind f) Q :=
  fun s1 hk l hl => h l s1 hl (hst.keep hk)

/-- Storing into something of one's own. -/
theorem Does.store (hst : St i W0 ν m gs s) {l : Threads.Loc} {v c : Cell} (ho : Own i s l v) {f : Unit → Prog α}
    (h : ∀ s', Sh W0 s' → (∀ l' v', Own i s l' v' → l' ≠ l → Own i s' l' v') → Own i s' l c → Does i s' (f ()) Q) : Does i s ((store l c).bind f) Q := by
  refine ⟨⟨⟨v, ho.1⟩, ho.2⟩, fun s1 hk => ?_⟩
  have ho1 := ho.keep hk
  refine h (s1.put l c) ?_ ?_ ⟨by simp [GS.put, World.put], ho1.2⟩
  · intro x u hu
    obtain ⟨h1, h2⟩ := hst.sh.keep hk x u hu
    have hne : x ≠ l := by
      rintro rfl
      rw [ho1.2] at h2; cases h2
    exact ⟨by simpa [GS.put, World.put, hne] using h1, h2⟩
  · intro x u hu hx
    have := hu.keep hk
    exact ⟨by simpa [GS.put, World.put, hx] using this.1, this.2⟩

/-- `m[k] = v`. -/
theorem Does.mapSet (hst : St i W0 ν m gs s) {a : Nat} (ha : a < m.maps.length) (k v : Str) {f : Unit → Prog α}
    (h : ∀ s', St i W0 ν (m.set a k v) gs s' → Does i s' (f ()) Q) : Does i s ((mapSet (ν.map a) k v).bind f) Q := by
  have e : (Threads.mapSet (ν.map a) k v).bind f = (Threads.getMap (ν.map a)).bind fun m => (Threads.store (.map (ν.map a)) (.map (mset m k v))).bind f := Prog.bind_assoc _ _ _
  rw [e]
  refine Does.getMap hst ha fun s1 h1 => Does.store h1 (h1.rep.maps a _ (map_lt ha)) fun s2 hsh hother hthis => h s2 ⟨hsh, ?_⟩
  have hlen := set_maps_length m a k v
  refine ⟨fun b as hb => ?_, fun p o hp => ?_, fun p o hp => ?_, fun p o hp => ?_, fun j g hj => ?_, ?_, h1.rep.injG⟩
  · simp only [Mem.set, List.getElem?_modify] at hb
    have hblt : b < m.maps.length := by
      cases hc : m.maps[b]? with
      | none => rw [hc] at hb; cases hb
      | some x => exact (List.getElem?_eq_some_iff.1 hc).1
    rw [map_lt hblt] at hb
    by_cases e : a = b
    · subst e
      simp only [if_true, Option.map_eq_map, Option.map_some, Option.some.injEq] at hb
      rw [← hb]; exact hthis
    · simp only [if_neg e, Option.map_eq_map, Option.map_some, id, Option.some.injEq] at hb
      rw [← hb]
      refine hother _ _ (h1.rep.maps b _ (map_lt hblt)) ?_
      intro he
      exact e (h1.rep.injM a b ha hblt (Threads.Loc.map.inj he).symm)
  · exact ⟨hother _ _ (h1.rep.nodes p o hp).1 (by intro h; cases h), by rw [hlen]; exact (h1.rep.nodes p o hp).2⟩
  · exact ⟨hother _ _ (h1.rep.edges p o hp).1 (by intro h; cases h), by rw [hlen]; exact (h1.rep.edges p o hp).2⟩
  · exact ⟨hother _ _ (h1.rep.subs p o hp).1 (by intro h; cases h), by rw [hlen]; exact (h1.rep.subs p o hp).2⟩
  · exact ⟨hother _ _ (h1.rep.graphs j g hj).1 (by intro h; cases h),
      (h1.rep.graphs j g hj).2.mono ⟨by rw [hlen]; exact Nat.le_refl _, Nat.le_refl _, Nat.le_refl _, Nat.le_refl _⟩⟩
  · rw [hlen]; exact h1.rep.injM

/-- Changing a graph of one's own. -/
theorem Does.modGraph (hst : St i W0 ν m gs s) {j : Nat} {g g' : HGraph} (hj : gs[j]? = some g) {F : HGraph → HGraph} (hF : F (ν.hgraph g) = ν.hgraph g')
    (hg : GValid m g') {f : Unit → Prog α} (h : ∀ s', St i W0 ν m (gs.set j g') s' → Does i s' (f ()) Q) : Does i s ((modGraph (ν.graph j) F).bind f) Q := by
  have e : (Threads.modGraph (ν.graph j) F).bind f = (Threads.getGraph (ν.graph j)).bind fun g => (Threads.store (.graph (ν.graph j)) (.graph (F g))).bind f := Prog.bind_assoc _ _ _
  rw [e]
  refine Does.getGraph hst hj fun s1 h1 => Does.store h1 (h1.rep.graphs j g hj).1 fun s2 hsh hother hthis => h s2 ⟨hsh, ?_⟩
  have hjlt := (List.getElem?_eq_some_iff.1 hj).1
  refine ⟨fun a as ha => hother _ _ (h1.rep.maps a as ha) (by intro h; cases h), fun p o hp => ?_, fun p o hp => ?_, fun p o hp => ?_, fun b x hb => ?_, h1.rep.injM, ?_⟩
  · exact ⟨hother _ _ (h1.rep.nodes p o hp).1 (by intro h; cases h), (h1.rep.nodes p o hp).2⟩
  · exact ⟨hother _ _ (h1.rep.edges p o hp).1 (by intro h; cases h), (h1.rep.edges p o hp).2⟩
  · exact ⟨hother _ _ (h1.rep.subs p o hp).1 (by intro h; cases h), (h1.rep.subs p o hp).2⟩
  · rw [List.getElem?_set] at hb
    split at hb
    · rename_i hjb
      subst hjb
      cases hb
      rw [← hF]
      exact ⟨hthis, hg⟩
    · rename_i hjb
      have hblt := (List.getElem?_eq_some_iff.1 hb).1
      refine ⟨hother _ _ (h1.rep.graphs b x hb).1 ?_, (h1.rep.graphs b x hb).2⟩
      intro he
      exact hjb (h1.rep.injG j b hjlt hblt (Threads.Loc.graph.inj he).symm)
  · rw [List.length_set]; exact h1.rep.injG

/-- Allocating. -/
theorem Does.new (hst : St i W0 ν m gs s) {c : Cell} {f : Nat → Prog α}
    (h : ∀ n s', Sh W0 s' → (∀ v, ¬ Own i s (c.loc n) v) → (∀ l' v', Own i s l' v' → Own i s' l' v') → Own i s' (c.loc n) c → Does i s' (f n) Q) :
    Does i s ((new c).bind f) Q := by
  intro s1 hk n hn
  have hfr : ∀ v, ¬ Own i s (c.loc n) v := by
    intro v hv
    rw [(hv.keep hk).1] at hn; cases hn
  have hw : W0 (c.loc n) = none := by
    cases hw : W0 (c.loc n) with
    | none => rfl
    | some v => rw [(hst.sh.keep hk _ v hw).1] at hn; cases hn
  refine h n _ ?_ hfr ?_ ⟨by simp [GS.add, World.put], by simp [GS.add]⟩
  · intro x u hu
    have hne : x ≠ c.loc n := by
      rintro rfl
      rw [hw] at hu; cases hu
    obtain ⟨h1, h2⟩ := hst.sh.keep hk x u hu
    exact ⟨by simpa [GS.add, World.put, hne] using h1, by simpa [GS.add, hne] using h2⟩
  · intro x u hu
    have hne : x ≠ c.loc n := by
      rintro rfl
      exact hfr u hu
    have := hu.keep hk
    exact ⟨by simpa [GS.add, World.put, hne] using this.1, by simpa [GS.add, hne] using this.2⟩

/-- A function changed at one place. -/
def upd (f : Nat → Nat) (k n : Nat) : Nat → Nat := fun x => if x = k then n else f x

theorem upd_self (f : Nat → Nat) (k n : Nat) : upd f k n k = n := by simp [upd]

theorem upd_lt (f : Nat → Nat) (n : Nat) {k a : Nat} (h : a < k) : upd f k n a = f a := by
  simp only [upd]; rw [if_neg (by omega)]

omit [DecidableEq ι] in
theorem Rep.agree {ν' : Places} {s' : GS ι} (h : Rep i ν m gs s) (ha : Agree ν ν' m gs.length) (hp : ∀ l' v', Own i s l' v' → Own i s' l' v') : Rep i ν' m gs s' := by
  refine ⟨fun a as hx => ?_, fun p o hx => ?_, fun p o hx => ?_, fun p o hx => ?_, fun j g hx => ?_, fun a b h1 h2 => ?_, fun a b h1 h2 => ?_⟩
  · rw [ha.map a (List.getElem?_eq_some_iff.1 hx).1]; exact hp _ _ (h.maps a as hx)
  · obtain ⟨h1, h2⟩ := h.nodes p o hx
    unfold Places.nodeObj
    rw [ha.node p (List.getElem?_eq_some_iff.1 hx).1, ha.map _ h2]; exact ⟨hp _ _ h1, h2⟩
  · obtain ⟨h1, h2⟩ := h.edges p o hx
    unfold Places.edgeObj
    rw [ha.edge p (List.getElem?_eq_some_iff.1 hx).1, ha.map _ h2]; exact ⟨hp _ _ h1, h2⟩
  · obtain ⟨h1, h2⟩ := h.subs p o hx
    unfold Places.subObj
    rw [ha.sub p (List.getElem?_eq_some_iff.1 hx).1, ha.map _ h2]; exact ⟨hp _ _ h1, h2⟩
  · obtain ⟨h1, h2⟩ := h.graphs j g hx
    rw [ha.graph j (List.getElem?_eq_some_iff.1 hx).1, ha.hgraph h2]; exact ⟨hp _ _ h1, h2⟩
  · rw [ha.map a h1, ha.map b h2]; exact h.injM a b h1 h2
  · rw [ha.graph a h1, ha.graph b h2]; exact h.injG a b h1 h2

theorem getElem?_push {γ : Type} {l : List γ} {x y : γ} {p : Nat} (h : (l ++ [x])[p]? = some y) : (p = l.length ∧ y = x) ∨ l[p]? = some y := by
  by_cases hp : p < l.length
  · rw [List.getElem?_append_left hp] at h; exact .inr h
  · by_cases e : p = l.length
    · subst e
      simp at h
      exact .inl ⟨rfl, h.symm⟩
    · rw [List.getElem?_eq_none (by simp; omega)] at h; cases h

/-- A new map. -/
theorem Does.newMap (hst : St i W0 ν m gs s) {f : Nat → Prog α}
    (h : ∀ ν' s', Agree ν ν' m gs.length → ν'.graph = ν.graph → St i W0 ν' { m with maps := m.maps ++ [[]] } gs s' → Does i s' (f (ν'.map m.maps.length)) Q) :
    Does i s ((Threads.new (.map [])).bind f) Q := by
  refine Does.new hst fun n s' hsh hfr hold hnew => ?_
  have hag : Agree ν { ν with map := upd ν.map m.maps.length n } m gs.length :=
    ⟨fun _ _ => rfl, fun _ _ => rfl, fun _ _ => rfl, fun _ _ => rfl, fun a ha => upd_lt _ _ ha⟩
  have hr := hst.rep.agree hag hold
  have hL : Larger m { m with maps := m.maps ++ [[]] } := ⟨by simp, Nat.le_refl _, Nat.le_refl _, Nat.le_refl _⟩
  have e : n = Places.map { ν with map := upd ν.map m.maps.length n } m.maps.length := (upd_self _ _ _).symm
  have := h { ν with map := upd ν.map m.maps.length n } s' hag rfl ⟨hsh, ?_⟩
  · rw [← e] at this; exact this
  refine ⟨fun a as ha => ?_, fun p o hp => ⟨(hr.nodes p o hp).1, Nat.lt_of_lt_of_le (hr.nodes p o hp).2 hL.maps⟩,
    fun p o hp => ⟨(hr.edges p o hp).1, Nat.lt_of_lt_of_le (hr.edges p o hp).2 hL.maps⟩, fun p o hp => ⟨(hr.subs p o hp).1, Nat.lt_of_lt_of_le (hr.subs p o hp).2 hL.maps⟩,
    fun j g hj => ⟨(hr.graphs j g hj).1, (hr.graphs j g hj).2.mono hL⟩, ?_, hr.injG⟩
  · rcases getElem?_push ha with ⟨rfl, rfl⟩ | ha
    · rw [← e]; exact hnew
    · exact hr.maps a as ha
  · have hne : ∀ a, a < m.maps.length → ν.map a ≠ n := by
      intro a ha he
      have := hst.rep.maps a _ (map_lt ha)
      rw [he] at this
      exact hfr _ this
    intro a b ha hb hab
    simp only [List.length_append, List.length_singleton] at ha hb
    dsimp only [upd] at hab
    by_cases ea : a = m.maps.length <;> by_cases eb : b = m.maps.length
    · omega
    · rw [if_pos ea, if_neg eb] at hab
      exact absurd hab.symm (hne b (by omega))
    · rw [if_neg ea, if_pos eb] at hab
      exact absurd hab (hne a (by omega))
    · rw [if_neg ea, if_neg eb] at hab
      exact hst.rep.injM a b (by omega) (by omega) hab

/-- A new node object. -/
theorem Does.newNode (hst : St i W0 ν m gs s) (o : NodeObj) (ho : o.attrs < m.maps.length) {f : Nat → Prog α}
    (h : ∀ ν' s', Agree ν ν' m gs.length → ν'.graph = ν.graph → St i W0 ν' { m with nodes := m.nodes ++ [o] } gs s' → Does i s' (f (ν'.node m.nodes.length)) Q) :
    Does i s ((Threads.new (.node (ν.nodeObj o))).bind f) Q := by
  refine Does.new hst fun n s' hsh hfr hold hnew => ?_
  have hag : Agree ν { ν with node := upd ν.node m.nodes.length n } m gs.length :=
    ⟨fun _ _ => rfl, fun a ha => upd_lt _ _ ha, fun _ _ => rfl, fun _ _ => rfl, fun _ _ => rfl⟩
  have hr := hst.rep.agree hag hold
  have hL : Larger m { m with nodes := m.nodes ++ [o] } := ⟨Nat.le_refl _, by simp, Nat.le_refl _, Nat.le_refl _⟩
  have e : n = Places.node { ν with node := upd ν.node m.nodes.length n } m.nodes.length := (upd_self _ _ _).symm
  have := h { ν with node := upd ν.node m.nodes.length n } s' hag rfl ⟨hsh, ?_⟩
  · rw [← e] at this; exact this
  refine ⟨hr.maps, fun p o hp => ?_, hr.edges, hr.subs, fun j g hj => ⟨(hr.graphs j g hj).1, (hr.graphs j g hj).2.mono hL⟩, hr.injM, hr.injG⟩
  rcases getElem?_push hp with ⟨rfl, rfl⟩ | hp
  · rw [← e]; exact ⟨hnew, ho⟩
  · exact hr.nodes p o hp

/-- A new edge object. -/
theorem Does.newEdge (hst : St i W0 ν m gs s) (o : EdgeObj) (ho : o.attrs < m.maps.length) {f : Nat → Prog α}
    (h : ∀ ν' s', Agree ν ν' m gs.length → ν'.graph = ν.graph → St i W0 ν' { m with edges := m.edges ++ [o] } gs s' → Does i s' (f (ν'.edge m.edges.length)) Q) :
    Does i s ((Threads.new (.edge (ν.edgeObj o))).bind f) Q := by
  refine Does.new hst fun n s' hsh hfr hold hnew => ?_
  have hag : Agree ν { ν with edge := upd ν.edge m.edges.length n } m gs.length :=
    ⟨fun _ _ => rfl, fun _ _ => rfl, fun a ha => upd_lt _ _ ha, fun _ _ => rfl, fun _ _ => rfl⟩
  have hr := hst.rep.agree hag hold
  have hL : Larger m { m with edges := m.edges ++ [o] } := ⟨Nat.le_refl _, Nat.le_refl _, by simp, Nat.le_refl _⟩
  have e : n = Places.edge { ν with edge := upd ν.edge m.edges.length n } m.edges.length := (upd_self _ _ _).symm
  have := h { ν with edge := upd ν.edge m.edges.length n } s' hag rfl ⟨hsh, ?_⟩
  · rw [← e] at this; exact this
  refine ⟨hr.maps, hr.nodes, fun p o hp => ?_, hr.subs, fun j g hj => ⟨(hr.graphs j g hj).1, (hr.graphs j g hj).2.mono hL⟩, hr.injM, hr.injG⟩
  rcases getElem?_push hp with ⟨rfl, rfl⟩ | hp
  · rw [← e]; exact ⟨hnew, ho⟩
  · exact hr.edges p o hp

/-- A new subgraph object. -/
theorem Does.newSub (hst : St i W0 ν m gs s) (o : SubObj) (ho : o.attrs < m.maps.length) {f : Nat → Prog α}
    (h : ∀ ν' s', Agree ν ν' m gs.length → ν'.graph = ν.graph → St i W0 ν' { m with subs := m.subs ++ [o] } gs s' → Does i s' (f (ν'.sub m.subs.length)) Q) :
    Does i s ((Threads.new (.sub (ν.subObj o))).bind f) Q := by
  refine Does.new hst fun n s' hsh hfr hold hnew => ?_
  have hag : Agree ν { ν with sub := upd ν.sub m.subs.length n } m gs.length :=
    ⟨fun _ _ => rfl, fun _ _ => rfl, fun _ _ => rfl, fun a ha => upd_lt _ _ ha, fun _ _ => rfl⟩
  have hr := hst.rep.agree hag hold
  have hL : Larger m { m with subs := m.subs ++ [o] } := ⟨Nat.le_refl _, Nat.le_refl _, Nat.le_refl _, by simp⟩
  have e : n = Places.sub { ν with sub := upd ν.sub m.subs.length n } m.subs.length := (upd_self _ _ _).symm
  have := h { ν with sub := upd ν.sub m.subs.length n } s' hag rfl ⟨hsh, ?_⟩
  · rw [← e] at this; exact this
  refine ⟨hr.maps, hr.nodes, hr.edges, fun p o hp => ?_, fun j g hj => ⟨(hr.graphs j g hj).1, (hr.graphs j g hj).2.mono hL⟩, hr.injM, hr.injG⟩
  rcases getElem?_push hp with ⟨rfl, rfl⟩ | hp
  · rw [← e]; exact ⟨hnew, ho⟩
  · exact hr.subs p o hp

/-- A new graph. -/
theorem Does.newGraph (hst : St i W0 ν m gs s) (g : HGraph) (hg : GValid m g) {f : Nat → Prog α}
    (h : ∀ ν' s', Agree ν ν' m gs.length → St i W0 ν' m (gs ++ [g]) s' → Does i s' (f (ν'.graph gs.length)) Q) :
    Does i s ((Threads.new (.graph (ν.hgraph g))).bind f) Q := by
  refine Does.new hst fun n s' hsh hfr hold hnew => ?_
  have hag : Agree ν { ν with graph := upd ν.graph gs.length n } m gs.length :=
    ⟨fun a ha => upd_lt _ _ ha, fun _ _ => rfl, fun _ _ => rfl, fun _ _ => rfl, fun _ _ => rfl⟩
  have hr := hst.rep.agree hag hold
  have e : n = Places.graph { ν with graph := upd ν.graph gs.length n } gs.length := (upd_self _ _ _).symm
  have := h { ν with graph := upd ν.graph gs.length n } s' hag ⟨hsh, ?_⟩
  · rw [← e] at this; exact this
  refine ⟨hr.maps, hr.nodes, hr.edges, hr.subs, fun p o hp => ?_, hr.injM, ?_⟩
  · rcases getElem?_push hp with ⟨rfl, rfl⟩ | hp
    · rw [← e]; exact ⟨hnew, hg⟩
    · exact hr.graphs p o hp
  · have hne : ∀ a, a < gs.length → ν.graph a ≠ n := by
      intro a ha he
      have := (hst.rep.graphs a _ (List.getElem?_eq_getElem ha)).1
      rw [he] at this
      exact hfr _ this
    intro a b ha hb hab
    simp only [List.length_append, List.length_singleton] at ha hb
    dsimp only [upd] at hab
    by_cases ea : a = gs.length <;> by_cases eb : b = gs.length
    · omega
    · rw [if_pos ea, if_neg eb] at hab
      exact absurd hab.symm (hne b (by omega))
    · rw [if_neg ea, if_pos eb] at hab
      exact absurd hab (hne a (by omega))
    · rw [if_neg ea, if_neg eb] at hab
      exact hst.rep.injG a b (by omega) (by omega) hab

end

end Gographviz.Threads
