import Verif.Proofs.GraphMemOps
/-!
Goroutines with graphs of their own.
-/
namespace Gographviz.Threads

open Gographviz Gographviz.Heap Gographviz.Spec Gographviz.Spec.Sharing Gographviz.Spec.OwnGraphs

variable {ι : Type} [DecidableEq ι] {α β : Type}

/-! ### only reading what one owns -/

open Classical in
/-- `F` belongs to nobody for a while. -/
noncomputable def GS.freeze (F : Threads.Loc → Prop) (s : GS ι) : GS ι := ⟨s.mem, fun l => if F l then none else s.own l⟩

theorem freeze_own {F : Threads.Loc → Prop} {s : GS ι} {l : Threads.Loc} (h : F l) : (s.freeze F).own l = none := if_pos h

theorem freeze_other {F : Threads.Loc → Prop} {s : GS ι} {l : Threads.Loc} (h : ¬ F l) : (s.freeze F).own l = s.own l := if_neg h

theorem Keep.freeze {i : ι} {F : Threads.Loc → Prop} {s s1 : GS ι} (hF : ∀ l, F l → s.own l = some i) (h : Keep i s s1) : Keep i (s.freeze F) (s1.freeze F) := by
  intro l v hv hm
  by_cases hl : F l
  · obtain ⟨h1, h2⟩ := h l v hv (.inr (hF l hl))
    exact ⟨h1, by rw [freeze_own hl, freeze_own hl]⟩
  · unfold Mine at hm
    rw [freeze_other hl] at hm
    obtain ⟨h1, h2⟩ := h l v hv hm
    exact ⟨h1, by rw [freeze_other hl, freeze_other hl, h2]⟩

theorem Safe.unfreeze {i : ι} {F : Threads.Loc → Prop} {p : Prog α} {Q : WRes α → GS ι → Prop} : ∀ {s : GS ι}, (∀ l, F l → s.own l = some i ∧ ∃ v, s.mem l = some v) →
    Safe i p Q (s.freeze F) → Safe i p (fun r s' => (∀ l, F l → s'.own l = some i) ∧ Q r (s'.freeze F)) s := by
  have stay : ∀ {s s1 : GS ι}, (∀ l, F l → s.own l = some i ∧ ∃ v, s.mem l = some v) → Keep i s s1 → ∀ l, F l → s1.own l = some i ∧ ∃ v, s1.mem l = some v := by
    intro s s1 hF hk l hl
    obtain ⟨h1, v, h2⟩ := hF l hl
    obtain ⟨h3, h4⟩ := hk l v h2 (.inr h1)
    exact ⟨h4.trans h1, v, h3⟩
  induction p with
  | ret r =>
    intro s hF h s1 hk
    exact ⟨fun l hl => (stay hF hk l hl).1, h _ (hk.freeze fun l hl => (hF l hl).1)⟩
  | read l k ih =>
    intro s hF h
    refine ⟨⟨h.1.1, ?_⟩, fun s1 hk => ih _ (stay hF hk) (h.2 _ (hk.freeze fun l hl => (hF l hl).1))⟩
    by_cases hl : F l
    · exact .inr (hF l hl).1
    · have := h.1.2
      unfold Mine at this
      rwa [freeze_other hl] at this
  | write l c k ih =>
    intro s hF h
    have hl : ¬ F l := fun hl => by
      have := h.1.2
      rw [freeze_own hl] at this; cases this
    have ho := h.1.2
    rw [freeze_other hl] at ho
    refine ⟨⟨h.1.1, ho⟩, fun s1 hk => ih ?_ (h.2 _ (hk.freeze fun l hl => (hF l hl).1))⟩
    intro l' hl'
    obtain ⟨h1, v, h2⟩ := stay hF hk l' hl'
    refine ⟨h1, v, ?_⟩
    have hne : l' ≠ l := fun e => hl (e ▸ hl')
    simpa [GS.put, World.put, hne] using h2
  | alloc c k ih =>
    intro s hF h s1 hk n hn
    have hne : ∀ l', F l' → l' ≠ c.loc n := by
      rintro l' hl' rfl
      obtain ⟨_, v, h2⟩ := stay hF hk _ hl'
      rw [hn] at h2; cases h2
    have hs := h _ (hk.freeze fun l hl => (hF l hl).1) n hn
    have e : (s1.freeze F).add i (c.loc n) c = (s1.add i (c.loc n) c).freeze F := by
      unfold GS.add GS.freeze
      congr 1
      funext x
      by_cases hx : F x
      · simp [hx, hne x hx]
      · simp [hx]
    rw [e] at hs
    refine ih n ?_ hs
    intro l' hl'
    obtain ⟨h1, v, h2⟩ := stay hF hk l' hl'
    exact ⟨by simpa [GS.add, hne l' hl'] using h1, v, by simpa [GS.add, World.put, hne l' hl'] using h2⟩
  | order ks k ih =>
    intro s hF h s1 hk l hl
    exact ih l (stay hF hk) (h _ (hk.freeze fun l hl => (hF l hl).1) l hl)

/-- What `i` owns now. -/
def Mines (i : ι) (s : GS ι) (l : Threads.Loc) : Prop := s.own l = some i ∧ ∃ v, s.mem l = some v

open Classical in
/-- What belongs to nobody, and what `i` owns. -/
noncomputable def seen (W0 : World) (i : ι) (s : GS ι) : World := fun l => if Mines i s l then s.mem l else W0 l

theorem seen_own {W0 : World} {i : ι} {s : GS ι} {l : Threads.Loc} {v : Cell} (h : Own i s l v) : seen W0 i s l = some v := by
  unfold seen
  rw [if_pos ⟨h.2, v, h.1⟩]; exact h.1

theorem seen_other {W0 : World} {i : ι} {s : GS ι} {l : Threads.Loc} (h : ¬ Mines i s l) : seen W0 i s l = W0 l := if_neg h

theorem sh_seen {W0 : World} {i : ι} {s : GS ι} (h : Sh W0 s) : Sh (seen W0 i s) (s.freeze (Mines i s)) := by
  intro l v hv
  by_cases hl : Mines i s l
  · obtain ⟨h1, v', h2⟩ := id hl
    rw [seen_own ⟨h2, h1⟩] at hv
    cases hv
    exact ⟨h2, freeze_own hl⟩
  · rw [seen_other hl] at hv
    obtain ⟨h1, h2⟩ := h l v hv
    exact ⟨h1, by rw [freeze_other hl]; exact h2⟩

/-- A program that only reads what `i` owns leaves everything as it is. -/
theorem Runs.reading {W0 : World} {i : ι} {s : GS ι} {p : Prog α} {R : WRes α → Prop} (hsh : Sh W0 s)
    (h : Runs i (seen W0 i s) No (s.freeze (Mines i s)) p fun r _ => R r) :
    Safe i p (fun r s' => (Sh W0 s' ∧ ∀ l v, Own i s l v → Own i s' l v) ∧ R r) s := by
  refine Safe.mono ?_ (Safe.unfreeze (F := Mines i s) (fun l hl => hl) h)
  rintro r s' ⟨h1, h2, h3, h4⟩
  refine ⟨⟨fun l v hv => ?_, fun l v hv => ?_⟩, h4⟩
  · have hl : ¬ Mines i s l := by
      intro hl
      have := hl.1
      rw [(hsh l v hv).2] at this; cases this
    obtain ⟨h5, h6⟩ := h2 l v (by rw [seen_other hl]; exact hv)
    rw [freeze_other hl] at h6
    exact ⟨h5, h6⟩
  · have hl : Mines i s l := ⟨hv.2, v, hv.1⟩
    exact ⟨(h2 l v (seen_own hv)).1, h1 l hl⟩

/-! ### own graphs in the common memory -/

section
variable {i : ι} {ν : Places} {m : Mem} {gs : List HGraph} {s : GS ι}

omit [DecidableEq ι] in
theorem mapIn_rep (hr : Rep i ν m gs s) {W : World} (hW : ∀ l v, Own i s l v → W l = some v) {a : Nat} (ha : a < m.maps.length) : mapIn W (ν.map a) = m.map a := by
  unfold mapIn
  rw [hW _ _ (hr.maps a _ (map_lt ha))]

omit [DecidableEq ι] in
theorem edgeIn_rep (hr : Rep i ν m gs s) {W : World} (hW : ∀ l v, Own i s l v → W l = some v) {p : Nat} (hp : p < m.edges.length) : edgeIn W (ν.edge p) = edgeAt m p := by
  have hn := List.getElem?_eq_getElem hp
  obtain ⟨h1, h2⟩ := hr.edges p _ hn
  simp only [edgeIn, edgeAt, hW _ _ h1, hn, Places.edgeObj, mapIn_rep hr hW h2]

omit [DecidableEq ι] in
theorem nodeIn_rep (hr : Rep i ν m gs s) {W : World} (hW : ∀ l v, Own i s l v → W l = some v) {p : Nat} (hp : p < m.nodes.length) : nodeIn W (ν.node p) = nodeAt m p := by
  have hn := List.getElem?_eq_getElem hp
  obtain ⟨h1, h2⟩ := hr.nodes p _ hn
  simp only [nodeIn, nodeAt, hW _ _ h1, hn, Places.nodeObj, mapIn_rep hr hW h2]

omit [DecidableEq ι] in
theorem subIn_rep (hr : Rep i ν m gs s) {W : World} (hW : ∀ l v, Own i s l v → W l = some v) {p : Nat} (hp : p < m.subs.length) : subIn W (ν.sub p) = subAt m p := by
  have hn := List.getElem?_eq_getElem hp
  obtain ⟨h1, h2⟩ := hr.subs p _ hn
  simp only [subIn, subAt, hW _ _ h1, hn, Places.subObj, mapIn_rep hr hW h2]

omit [DecidableEq ι] in
theorem contentsIn_rep (hr : Rep i ν m gs s) {W : World} (hW : ∀ l v, Own i s l v → W l = some v) {j : Nat} {h : HGraph} (hj : gs[j]? = some h) :
    contentsIn W (ν.graph j) = some (contents m h) := by
  obtain ⟨h1, hv⟩ := hr.graphs j h hj
  unfold contentsIn
  rw [hW _ _ h1]
  simp only [Places.hgraph, contents, mapIn_rep hr hW hv.attrs, List.map_map, Function.comp_def, Option.some.injEq]
  congr 1
  · exact List.map_congr_left fun p hp => nodeIn_rep hr hW (hv.list p hp)
  · exact List.map_congr_left fun p hp => edgeIn_rep hr hW (hv.edges p hp)
  · exact List.map_congr_left fun p hp => by rw [subIn_rep hr hW (hv.subs p hp)]

omit [DecidableEq ι] in
theorem graphAt_rep (hr : Rep i ν m gs s) {W : World} (hW : ∀ l v, Own i s l v → W l = some v) {j : Nat} {h : HGraph} (hj : gs[j]? = some h) (hl : LInv m h) (hm : MapsWF m) :
    GraphAt W (ν.graph j) (ν.hgraph h) (edgeIn W) (valueOf m h) := by
  obtain ⟨h1, hv⟩ := hr.graphs j h hj
  have hmap : ∀ {a}, a < m.maps.length → W (.map (ν.map a)) = some (.map (m.map a)) := fun ha => hW _ _ (hr.maps _ _ (map_lt ha))
  have hwf : ∀ {a}, a < m.maps.length → MapWF (m.map a) := fun ha => hm _ (List.mem_of_getElem? (map_lt ha))
  refine ⟨hW _ _ h1, rfl, rfl, rfl, rfl, hmap hv.attrs, ?_, ?_, ?_, ?_, ?_, ?_⟩
  · simp [valueOf, Places.hgraph, mkeys]
  · intro k p hk
    rw [show (ν.hgraph h).lookup = h.lookup.map fun e => (e.1, ν.node e.2) from rfl, mget_mapv ν.node] at hk
    obtain ⟨q, hq, rfl⟩ := Option.map_eq_some_iff.1 hk
    obtain ⟨_, o, ho, _⟩ := (hl.nodes.look k q).1 hq
    obtain ⟨h2, h3⟩ := hr.nodes q o ho
    refine ⟨_, _, hW _ _ h2, hmap h3, hwf h3, ?_⟩
    simp [Nodes.find, valueOf, hq, Nodes.deref, ho, Places.nodeObj]
  · intro p hp
    obtain ⟨q, hq, rfl⟩ := List.mem_map.1 hp
    rw [edgeIn_rep hr hW (hv.edges q hq)]
    obtain ⟨o, ho⟩ := hl.edges.valid q hq
    obtain ⟨h2, h3⟩ := hr.edges q o ho
    refine ⟨_, _, hW _ _ h2, hmap h3, hwf h3, ?_⟩
    simp [edgeAt, ho, Places.edgeObj]
  · simp only [valueOf, Places.hgraph, List.map_map]
    exact List.map_congr_left fun p hp => (edgeIn_rep hr hW (hv.edges p hp)).symm
  · simp [valueOf, Places.hgraph, mkeys]
  · intro k p hk
    rw [show (ν.hgraph h).subGraphs = h.subGraphs.map fun e => (e.1, ν.sub e.2) from rfl, mget_mapv ν.sub] at hk
    obtain ⟨q, hq, rfl⟩ := Option.map_eq_some_iff.1 hk
    obtain ⟨o, ho, _⟩ := hl.subs.look k q hq
    obtain ⟨h2, h3⟩ := hr.subs q o ho
    refine ⟨_, _, hW _ _ h2, hmap h3, ?_⟩
    show mget (h.subGraphs.map fun e => (e.1, subAt m e.2)) k = _
    rw [mget_mapv (subAt m), hq]
    simp [subAt, ho, Places.subObj]

end

/-- A query on an own graph. -/
theorem Query.runsOwn {i : ι} {W0 : World} {ν : Places} {m : Mem} {gs : List HGraph} {s : GS ι} (hst : St i W0 ν m gs s) {j : Nat} {h : HGraph} (hj : gs[j]? = some h)
    (hl : LInv m h) (hm : MapsWF m) {sorter : Nat → SortTree} (hsort : Sorts sorter) (fuel : Nat) (q : Query) :
    Safe i (q.prog sorter fuel (ν.graph j)) (fun r s' => St i W0 ν m gs s' ∧ Right ν (sortOf sorter) fuel m h (valueOf m h) q r) s := by
  have hv := (hst.rep.graphs j h hj).2
  refine Safe.mono ?_ (Runs.reading hst.sh (Query.runsAt hl (graphAt_rep hst.rep (fun l v h => seen_own h) hj hl hm) ?_ ?_ ?_ hsort fuel q (sh_seen hst.sh)))
  · rintro r s' ⟨⟨h1, h2⟩, h3⟩
    exact ⟨⟨h1, hst.rep.agree (Agree.refl _ _ _) h2⟩, h3⟩
  · exact fun p hp => edgeIn_rep hst.rep (fun l v h => seen_own h) (hv.edges p hp)
  · intro k p hk
    obtain ⟨_, o, ho, _⟩ := (hl.nodes.look k p).1 hk
    simp [Nodes.find, valueOf, hk, Nodes.deref, ho, nodeAt]
  · intro k p hk
    show mget (h.subGraphs.map fun e => (e.1, subAt m e.2)) k = _
    rw [mget_mapv (subAt m), hk]; rfl

/-- A query on a graph that existed before. -/
theorem Query.runsShared {i : ι} {S0 : State} {ν : Places} {m : Mem} {gs : List HGraph} {s : GS ι} (hst : St i (worldOf S0) ν m gs s) (hS : SInv S0) (hm : MapsWF S0.mem)
    {n : Nat} {h : HGraph} (hn : S0.graphs[n]? = some h) {sorter : Nat → SortTree} (hsort : Sorts sorter) (fuel : Nat) (q : Query) :
    Safe i (q.prog sorter fuel n) (fun r s' => St i (worldOf S0) ν m gs s' ∧ Right .same (sortOf sorter) fuel S0.mem h (valueOf S0.mem h) q r) s := by
  refine Safe.mono ?_ (Query.runs hS hn (graphAt_value hS hm hn) hsort fuel q hst.sh)
  rintro r s' ⟨h1, h2, h3⟩
  exact ⟨⟨h1, hst.rep.agree (Agree.refl _ _ _) fun l v hv => h2 l v hv id⟩, h3⟩

/-- The same result, if the same objects are at the same places. -/
theorem Right.agree {ν ν' : Places} {m : Mem} {n : Nat} {h : HGraph} (hv : GValid m h) (ha : Agree ν ν' m n) {sortE : List Edge → List Edge} {fuel : Nat} {g : Graph} {q : Query} {r : WRes Out}
    (hr : Right ν sortE fuel m h g q r) : Right ν' sortE fuel m h g q r := by
  cases q with
  | edgesSorted =>
    obtain ⟨ps, h1, h2, h3⟩ := hr
    refine ⟨ps, ?_, h2, h3⟩
    rw [h1, List.map_congr_left fun p hp => congrArg some (ha.edge p (hv.edges p (h2.mem_iff.1 hp))).symm]
  | nodesSorted =>
    obtain ⟨ps, h1, h2, h3⟩ := hr
    refine ⟨ps, ?_, h2, h3⟩
    rw [h1, List.map_congr_left fun p hp => congrArg some (ha.node p (hv.list p (h2.mem_iff.1 hp))).symm]
  | subGraphsSorted =>
    obtain ⟨ps, h1, h2, h3⟩ := hr
    refine ⟨ps, ?_, h2, h3⟩
    have e : ps.map (fun p => some (ν.sub p)) = ps.map fun p => some (ν'.sub p) := by
      refine List.map_congr_left fun p hp => ?_
      obtain ⟨k, hk⟩ := (h2 p).1 hp
      rw [ha.sub p (hv.subs _ (mem_of_mget hk))]
    rw [h1, e]
  | _ => exact hr

/-! ### a command -/

section
variable {i : ι} {W0 : World} {ν : Places} {s : GS ι} {S0 σ : State}

/-- What a call on graph `j` leads to. -/
theorem act_call {j : Nat} {g : HGraph} (hj : σ.graphs[j]? = some g) (op : Op) (arg : Option Nat) :
    σ.act (.call j op arg) = ({ σ with mem := (step σ.mem g op).1.1, graphs := σ.graphs.set j (step σ.mem g op).1.2 }, (step σ.mem g op).2) := by
  simp only [State.act, hj]

/-- The effect of a call, for some order of the `range`s. -/
def Called (i : ι) (S0 σ : State) (ν : Places) (j : Nat) (c : Change) (e : Option Err) (s' : GS ι) : Prop :=
  ∃ (kvs : List (Str × Str)) (order : List Str) (ν' : Places), (Act.call j (opOf kvs order c) c.arg).Ok σ ∧ Agree ν ν' σ.mem σ.graphs.length ∧ ν'.graph = ν.graph ∧
    St i (worldOf S0) ν' (σ.act (.call j (opOf kvs order c) c.arg)).1.mem (σ.act (.call j (opOf kvs order c) c.arg)).1.graphs s' ∧
    e = (σ.act (.call j (opOf kvs order c) c.arg)).2

omit [DecidableEq ι] in
theorem Called.of_outcome {j : Nat} {g : HGraph} (hj : σ.graphs[j]? = some g) {c : Change} {x : Map Str} (hx : x = (c.arg.bind (σ.args[·]?)).getD [])
    (hc : ∀ kvs, argOf (opOf kvs [] c) = kvs) (hr : ∀ kvs p n o, opOf kvs [] c ≠ .removeSubGraph p n o) {e : Option Err} {s' : GS ι}
    (h : Outcome i (worldOf S0) ν σ.mem σ.graphs j x (fun kvs => step σ.mem g (opOf kvs [] c)) e s') : Called i S0 σ ν j c e s' := by
  obtain ⟨kvs, ν', h1, h2, h3, h4, h5⟩ := h
  refine ⟨kvs, [], ν', ⟨g, hj, by rw [hc, ← hx]; exact h1, fun p n o h => absurd h (hr kvs p n o)⟩, h2, h3, ?_, ?_⟩
  · rw [act_call hj]; exact h4
  · rw [act_call hj]; exact h5

omit [DecidableEq ι] in
theorem Called.plain {j : Nat} {g : HGraph} (hj : σ.graphs[j]? = some g) {c : Change} (hn : c.arg = none) (ha : argOf (opOf [] [] c) = [])
    (hr : ∀ p n o, opOf [] [] c ≠ .removeSubGraph p n o) {e : Option Err} {s' : GS ι}
    (h : St i (worldOf S0) ν (step σ.mem g (opOf [] [] c)).1.1 (σ.graphs.set j (step σ.mem g (opOf [] [] c)).1.2) s') (he : e = (step σ.mem g (opOf [] [] c)).2) :
    Called i S0 σ ν j c e s' := by
  refine ⟨[], [], ν, ⟨g, hj, by rw [ha, hn]; exact .nil, fun p n o h => absurd h (hr p n o)⟩, Agree.refl _ _ _, rfl, ?_, ?_⟩
  · rw [act_call hj]; exact h
  · rw [act_call hj]; exact he

theorem Change.does (hm : MapsWF σ.mem) (ha : σ.args = S0.args) (hwf : ∀ m ∈ S0.args, MapWF m)
    (hst : St i (worldOf S0) ν σ.mem σ.graphs s) {j : Nat} {g : HGraph} (hj : σ.graphs[j]? = some g) (c : Change) (hc : ∀ r, c.arg = some r → r < S0.args.length) :
    Does i s (c.prog (ν.graph j)) (Called i S0 σ ν j c) := by
  have harg : MapWF ((c.arg.bind (σ.args[·]?)).getD []) ∧ ArgAt (worldOf S0) c.arg ((c.arg.bind (σ.args[·]?)).getD []) := by
    cases hr : c.arg with
    | none => exact ⟨MapWF.nil, rfl⟩
    | some r =>
      have hlt := hc r hr
      have hn := List.getElem?_eq_getElem hlt
      simp only [ha, Option.bind_some, hn, Option.getD_some]
      exact ⟨hwf _ (List.mem_of_getElem? hn), by simp [ArgAt, worldOf, hn]⟩
  obtain ⟨hx1, hx2⟩ := harg
  have hv := (hst.rep.graphs j g hj).2
  have hset : ∀ (g' : HGraph) (F : HGraph → HGraph) (c : Change) (hn : c.arg = none) (hF : F (ν.hgraph g) = ν.hgraph g') (hg : GValid σ.mem g')
      (he : step σ.mem g (opOf [] [] c) = ((σ.mem, g'), none)) (ha : argOf (opOf [] [] c) = []) (hr : ∀ p n o, opOf [] [] c ≠ .removeSubGraph p n o),
      Does i s ((modGraph (ν.graph j) F).bind fun _ => .pure none) (Called i S0 σ ν j c) := by
    intro g' F c hn hF hg he ha hr
    refine Does.modGraph hst hj hF hg fun s1 h1 => Does.ret fun s2 hk => Called.plain hj hn ha hr ?_ ?_
    · rw [he]; exact h1.keep hk
    · rw [he]
  cases c with
  | setStrict b => exact hset { g with strict := b } _ (.setStrict b) rfl rfl ⟨hv.1, hv.2, hv.3, hv.4, hv.5, hv.6, hv.7⟩ rfl rfl (by intro _ _ _ h; cases h)
  | setDir b => exact hset { g with directed := b } _ (.setDir b) rfl rfl ⟨hv.1, hv.2, hv.3, hv.4, hv.5, hv.6, hv.7⟩ rfl rfl (by intro _ _ _ h; cases h)
  | setName n => exact hset { g with name := n } _ (.setName n) rfl rfl ⟨hv.1, hv.2, hv.3, hv.4, hv.5, hv.6, hv.7⟩ rfl rfl (by intro _ _ _ h; cases h)
  | addPortEdge s sp d dp dir arg =>
    exact Does.mono (addPortEdgeM_does hst hj s sp d dp dir hx1 hx2) fun e s' h => Called.of_outcome hj rfl (fun _ => rfl) (by intro _ _ _ _ h; cases h) h
  | addEdge s d dir arg =>
    exact Does.mono (addPortEdgeM_does hst hj s [] d [] dir hx1 hx2) fun e s' h => Called.of_outcome hj rfl (fun _ => rfl) (by intro _ _ _ _ h; cases h) h
  | addNode p n arg =>
    exact Does.mono (addNodeM_does hst hm hj p n hx1 hx2) fun e s' h => Called.of_outcome hj rfl (fun _ => rfl) (by intro _ _ _ _ h; cases h) h
  | addAttr p f v =>
    refine Does.mono (addAttrM_does hst hj p f v) ?_
    rintro e s' ⟨h1, h2⟩
    refine Called.plain hj rfl rfl (by intro _ _ _ h; cases h) ?_ h2
    simp only [opOf, step]
    rw [set_same hj]
    exact h1
  | addSubGraph p n arg =>
    exact Does.mono (addSubGraphM_does hst hj p n hx1 hx2) fun e s' h => Called.of_outcome hj rfl (fun _ => rfl) (by intro _ _ _ _ h; cases h) h
  | removeNode p n =>
    refine Does.mono (removeNodeM_does hst hj p n) ?_
    rintro e s' ⟨h1, h2⟩
    exact Called.plain hj rfl rfl (by intro _ _ _ h; cases h) h1 h2
  | removeSubGraph p n =>
    refine Does.mono (removeSubGraphM_does hst hj p n) ?_
    rintro e s' ⟨order, hp, h1, h2⟩
    refine ⟨[], order, ν, ⟨g, hj, .nil, ?_⟩, Agree.refl _ _ _, rfl, ?_, ?_⟩
    · intro p' n' o' h
      cases h
      exact hp
    · rw [act_call hj]; exact h1
    · rw [act_call hj]; exact h2

/-- `NewGraph`. -/
theorem newGraphM_does (hst : St i W0 ν σ.mem σ.graphs s) : Does i s newGraphM fun n s' => ∃ ν', Agree ν ν' σ.mem σ.graphs.length ∧ n = ν'.graph σ.graphs.length ∧
    St i W0 ν' (σ.act .newGraph).1.mem (σ.act .newGraph).1.graphs s' := by
  refine Does.newMap hst fun ν1 s1 ha1 hg1 h1 => ?_
  have hnil : ∀ n, IdxLt n [] := fun n e he => nomatch he
  have e : ∀ c : Cell, new c = (new c).bind .pure := fun _ => (Prog.bind_pure _).symm
  rw [e]
  refine Does.newGraph (f := .pure) h1 ⟨σ.mem.maps.length, [], false, false, [], [], [], [], [], [], newRelations⟩ ?_ ?_
  · exact ⟨by simp, (fun _ h => nomatch h), (fun _ h => nomatch h), hnil _, hnil _, (fun _ h => nomatch h), (fun _ h => nomatch h)⟩
  intro ν2 s2 ha2 h2
  refine Does.ret fun s3 hk => ⟨ν2, ha1.trans ha2 ⟨by simp, Nat.le_refl _, Nat.le_refl _, Nat.le_refl _⟩ (Nat.le_refl _), rfl, h2.keep hk⟩

end

theorem Safe.reply {i : ι} {p : Prog Out} {Q : WRes Out → GS ι → Prop} {Q' : WRes Reply → GS ι → Prop}
    (hy : ∀ x y s, Q x s → replyOf x = some y → Q' (.ok y) s) (hp : ∀ s, Q .panic s → Q' .panic s) (hd : ∀ s, Q .diverge s → Q' .diverge s) :
    ∀ {s : GS ι}, Safe i p Q s → Safe i p.reply Q' s := by
  induction p with
  | ret r =>
    intro s h
    cases r with
    | ok a => exact fun s1 hk => hy _ _ _ (h s1 hk) rfl
    | err e => exact fun s1 hk => hy _ _ _ (h s1 hk) rfl
    | panic => exact fun s1 hk => hp _ (h s1 hk)
    | diverge => exact fun s1 hk => hd _ (h s1 hk)
  | read l k ih => exact fun h => ⟨h.1, fun s1 hk => ih _ (h.2 s1 hk)⟩
  | write l c k ih => exact fun h => ⟨h.1, fun s1 hk => ih (h.2 s1 hk)⟩
  | alloc c k ih => exact fun h s1 hk n hn => ih n (h s1 hk n hn)
  | order ks k ih => exact fun h s1 hk l hl => ih l (h s1 hk l hl)

/-! ### all commands -/

theorem Larger.of_ext {m m' : Mem} (h : Ext m m') : Larger m m' := by
  obtain ⟨⟨l1, e1⟩, ⟨l2, e2⟩, ⟨l3, e3⟩, h4⟩ := h
  exact ⟨h4, by rw [e1]; simp, by rw [e2]; simp, by rw [e3]; simp⟩

theorem act_graphs_call {σ : State} (j : Nat) (op : Op) (arg : Option Nat) : (σ.act (.call j op arg)).1.graphs.length = σ.graphs.length ∧
    (σ.act (.call j op arg)).1.args = σ.args := by
  simp only [State.act]
  split
  · exact ⟨rfl, rfl⟩
  · exact ⟨by simp, rfl⟩

/-- How a goroutine ends. -/
def ScriptPost (i : ι) (sorter : Nat → SortTree) (fuel : Nat) (S0 : State) (ν : Places) (σ : State) (cmds : List Cmd) (r : WRes (List Reply × List Nat)) (s : GS ι) : Prop :=
  ∃ ν' σ', Agree ν ν' σ.mem σ.graphs.length ∧ Alone ν' (sortOf sorter) fuel S0 σ cmds (repliesOf r) σ' ∧
    ∀ x, r = .ok x → x.2 = (List.range σ'.graphs.length).map ν'.graph ∧ St i (worldOf S0) ν' σ'.mem σ'.graphs s

theorem script_tail {i : ι} {sorter : Nat → SortTree} {fuel : Nat} {S0 σ σ1 : State} {ν ν1 : Places} {c : Cmd} {cs : List Cmd} {y : Reply} {own : List Nat} {s : GS ι}
    (hcons : ∀ ν' r σ', Agree ν1 ν' σ1.mem σ1.graphs.length → Alone ν' (sortOf sorter) fuel S0 σ1 cs r σ' → Alone ν' (sortOf sorter) fuel S0 σ (c :: cs) (consReply y r) σ')
    (hag : Agree ν ν1 σ.mem σ.graphs.length) (hL : Larger σ.mem σ1.mem) (hn : σ.graphs.length ≤ σ1.graphs.length)
    (h : Safe i (scriptM sorter fuel own cs) (ScriptPost i sorter fuel S0 ν1 σ1 cs) s) :
    Safe i ((scriptM sorter fuel own cs).bind fun r => .pure (y :: r.1, r.2)) (ScriptPost i sorter fuel S0 ν σ (c :: cs)) s := by
  refine Safe.bind (Q := fun r s' => ∀ s'', Keep i s' s'' → ScriptPost i sorter fuel S0 ν1 σ1 cs r s'') ?_ ?_ ?_
  · intro x s' hp s'' hk
    obtain ⟨ν', σ', h1, h2, h3⟩ := hp s'' hk
    refine ⟨ν', σ', hag.trans h1 hL hn, hcons ν' _ σ' h1 h2, ?_⟩
    intro x' hx'
    cases hx'
    exact h3 x rfl
  · intro r r' s' hF hp
    obtain ⟨ν', σ', h1, h2, _⟩ := hp s' (Keep.refl i s')
    refine ⟨ν', σ', hag.trans h1 hL hn, ?_, ?_⟩
    · have := hcons ν' _ σ' h1 h2
      cases hF <;> exact this
    · intro x hx
      cases hF <;> cases hx
  · refine Safe.mono ?_ h
    rintro r s' ⟨ν', σ', h1, h2, h3⟩ s'' hk
    exact ⟨ν', σ', h1, h2, fun x hx => ⟨(h3 x hx).1, (h3 x hx).2.keep hk⟩⟩

theorem own_get {n j : Nat} (f : Nat → Nat) (h : j < n) : ((List.range n).map f)[j]? = some (f j) := by
  simp [h]

/-- A query in a script. -/
theorem script_ask {i : ι} {sorter : Nat → SortTree} {fuel : Nat} {S0 σ : State} {ν : Places} {c : Cmd} {cs : List Cmd} {p : Prog Out} {R : WRes Out → Prop} {own : List Nat} {s : GS ι}
    (hcons : ∀ ν' x y r σ', Agree ν ν' σ.mem σ.graphs.length → R x → replyOf x = some y → Alone ν' (sortOf sorter) fuel S0 σ cs r σ' →
      Alone ν' (sortOf sorter) fuel S0 σ (c :: cs) (consReply y r) σ')
    (hlost : ∀ x, R x → replyOf x = none → Alone ν (sortOf sorter) fuel S0 σ (c :: cs) (lost x) σ)
    (h : Safe i p (fun r s' => St i (worldOf S0) ν σ.mem σ.graphs s' ∧ R r) s)
    (ih : ∀ s', St i (worldOf S0) ν σ.mem σ.graphs s' → Safe i (scriptM sorter fuel own cs) (ScriptPost i sorter fuel S0 ν σ cs) s') :
    Safe i (p.reply.bind fun x => (scriptM sorter fuel own cs).bind fun r => .pure (x :: r.1, r.2)) (ScriptPost i sorter fuel S0 ν σ (c :: cs)) s := by
  refine Safe.bind (Q := fun r s' => match r with
    | .ok y => St i (worldOf S0) ν σ.mem σ.graphs s' ∧ ∃ x, R x ∧ replyOf x = some y
    | .err _ => False
    | .panic => R .panic
    | .diverge => R .diverge) ?_ ?_ (Safe.reply ?_ ?_ ?_ h)
  · rintro y s' ⟨h1, x, h2, h3⟩
    exact script_tail (fun ν' r σ' ha hA => hcons ν' x y r σ' ha h2 h3 hA) (Agree.refl _ _ _) (Larger.refl _) (Nat.le_refl _) (ih s' h1)
  · intro r r' s' hF hR
    cases hF with
    | err => exact hR.elim
    | panic => exact ⟨ν, σ, Agree.refl _ _ _, hlost .panic hR rfl, fun _ h => nomatch h⟩
    | diverge => exact ⟨ν, σ, Agree.refl _ _ _, hlost .diverge hR rfl, fun _ h => nomatch h⟩
  · rintro x y s' ⟨h1, h2⟩ h3
    exact ⟨h1, x, h2, h3⟩
  · exact fun s' h => h.2
  · exact fun s' h => h.2

theorem script_safe {i : ι} {S0 : State} (hS : SInv S0) (hSm : MapsWF S0.mem) (hwf : ∀ m ∈ S0.args, MapWF m) {sorter : Nat → SortTree} (hsort : Sorts sorter) (fuel : Nat)
    (cmds : List Cmd) : ∀ {σ : State} {ν : Places} {s : GS ι}, SInv σ → MapsWF σ.mem → σ.args = S0.args → Sensible S0 σ.graphs.length cmds →
    St i (worldOf S0) ν σ.mem σ.graphs s →
    Safe i (scriptM sorter fuel ((List.range σ.graphs.length).map ν.graph) cmds) (ScriptPost i sorter fuel S0 ν σ cmds) s := by
  induction cmds with
  | nil =>
    intro σ ν s _ _ _ _ hst s' hk
    refine ⟨ν, σ, Agree.refl _ _ _, .done, ?_⟩
    intro x hx
    cases hx
    exact ⟨rfl, hst.keep hk⟩
  | cons c cs ih =>
    intro σ ν s hσ hm ha hsens hst
    cases c with
    | new =>
      have hok : Act.newGraph.Ok σ := trivial
      have hlen : (σ.act .newGraph).1.graphs.length = σ.graphs.length + 1 := by simp [State.act, newHGraph]
      refine Safe.bind (Q := Ends fun n s' => ∃ ν', Agree ν ν' σ.mem σ.graphs.length ∧ n = ν'.graph σ.graphs.length ∧
        St i (worldOf S0) ν' (σ.act .newGraph).1.mem (σ.act .newGraph).1.graphs s') ?_ ?_ (newGraphM_does hst)
      · rintro n s' ⟨ν', h1, rfl, h3⟩
        refine script_tail (σ1 := (σ.act .newGraph).1) (ν1 := ν') (fun ν'' r σ' _ hA => .new hA) h1 (.of_ext (hσ.ext hok)) (by omega) ?_
        have := ih (hσ.act hok) (hm.act _) (by exact ha) (by rw [hlen]; exact hsens) h3
        rw [hlen, List.range_succ, List.map_append] at this
        have e : (List.range σ.graphs.length).map ν'.graph = (List.range σ.graphs.length).map ν.graph :=
          List.map_congr_left fun a ha => h1.graph a (List.mem_range.1 ha)
        rw [e] at this
        exact this
      · intro r r' s' hF hE
        cases hF <;> exact hE.elim
    | change j c =>
      obtain ⟨hj, hc, hrest⟩ := hsens
      have hg := List.getElem?_eq_getElem hj
      simp only [scriptM, own_get ν.graph hj]
      refine Safe.bind (Q := Ends (Called i S0 σ ν j c)) ?_ ?_ (Change.does hm ha hwf hst hg c hc)
      · rintro e s' ⟨kvs, order, ν', hok, h1, h2, h3, rfl⟩
        obtain ⟨hlen, hargs⟩ := act_graphs_call (σ := σ) j (opOf kvs order c) c.arg
        refine script_tail (σ1 := (σ.act (.call j (opOf kvs order c) c.arg)).1) (ν1 := ν') (fun ν'' r σ' _ hA => .change kvs order rfl hok hA) h1 (.of_ext (hσ.ext hok))
          (by omega) ?_
        have := ih (hσ.act hok) (hm.act _) (hargs.trans ha) (by rw [hlen]; exact hrest) h3
        rw [hlen, h2] at this
        exact this
      · intro r r' s' hF hE
        cases hF <;> exact hE.elim
    | ask j q =>
      obtain ⟨hj, hrest⟩ := hsens
      have hg := List.getElem?_eq_getElem hj
      have hv := (hst.rep.graphs j _ hg).2
      simp only [scriptM, own_get ν.graph hj]
      refine script_ask ?_ ?_ (Query.runsOwn hst hg (hσ.linv j _ hg) hm hsort fuel q) fun s' h' => ih hσ hm ha hrest h'
      · exact fun ν' x y r σ' hag hR hy hA => .ask hg (Right.agree hv hag hR) hy hA
      · exact fun x hR hn => .askLost hg hR hn
    | askShared n q =>
      obtain ⟨hn, hrest⟩ := hsens
      have hg := List.getElem?_eq_getElem hn
      refine script_ask ?_ ?_ (Query.runsShared hst hS hSm hg hsort fuel q) fun s' h' => ih hσ hm ha hrest h'
      · exact fun ν' x y r σ' hag hR hy hA => .askShared hg hR hy hA
      · exact fun x hR hn => .askSharedLost hg hR hn

end Gographviz.Threads
