import Verif.Proofs.OwnGraphs
import Verif.Spec.Locked
import Verif.Props.HeapProps
/-!
Graphs shared under a lock.
-/
namespace Gographviz.Threads

open Gographviz Gographviz.Heap Gographviz.Spec Gographviz.Spec.Sharing Gographviz.Spec.OwnGraphs Gographviz.Spec.Locked

/-! ### the index maps of all graphs point to edges -/

/-- The entries of the indexes are addresses of edges. -/
def XInv (m : Mem) (g : HGraph) : Prop := IdxLt m.edges.length g.srcToDsts ∧ IdxLt m.edges.length g.dstToSrcs

theorem XInv.edgesAdd {m : Mem} {g : HGraph} (h : XInv m g) (p : Nat) : XInv m (Heap.edgesAdd m g p) := by
  unfold Heap.edgesAdd
  split
  · exact h
  · rename_i e he
    have := (List.getElem?_eq_some_iff.1 he).1
    exact ⟨h.1.add _ _ this, h.2.add _ _ this⟩

theorem XInv.rebuild {m : Mem} {g : HGraph} (keep : EdgeObj → Bool) : XInv m (Heap.edgesRebuild m g keep) := by
  unfold Heap.edgesRebuild
  have hnil : ∀ n, IdxLt n [] := fun n e he => nomatch he
  suffices ∀ (ps : List Nat) (acc : HGraph), XInv m acc → XInv m (ps.foldl (fun acc p => match m.edges[p]? with
      | some e => if keep e then Heap.edgesAdd m acc p else acc
      | none => acc) acc) from this _ _ ⟨hnil _, hnil _⟩
  intro ps
  induction ps with
  | nil => exact fun _ h => h
  | cons p ps ih =>
    intro acc h
    refine ih _ ?_
    dsimp only
    split
    · split
      · exact h.edgesAdd p
      · exact h
    · exact h

theorem XInv.mono {m m' : Mem} {g : HGraph} (h : XInv m g) (hm : m.edges.length ≤ m'.edges.length) : XInv m' g := ⟨h.1.mono hm, h.2.mono hm⟩

theorem XInv.of_eq {m : Mem} {g g' : HGraph} (h : XInv m g) (h1 : g'.srcToDsts = g.srcToDsts) (h2 : g'.dstToSrcs = g.dstToSrcs) : XInv m g' := by
  unfold XInv
  rw [h1, h2]; exact h

theorem XInv.removeNode {m : Mem} {g : HGraph} (h : XInv m g) (p n : Str) : XInv m (Heap.removeNode m g p n).1 := by
  unfold Heap.removeNode
  split
  · exact h
  · exact XInv.rebuild _

theorem XInv.removeNodes {m : Mem} (p : Str) (cs : List Str) : ∀ {g : HGraph}, XInv m g → XInv m (Heap.removeNodes m g p cs).1 := by
  induction cs with
  | nil => exact fun h => h
  | cons c cs ih =>
    intro g h
    have h1 := h.removeNode p c
    unfold Heap.removeNodes
    split <;> rename_i he <;> rw [he] at h1
    · exact h1
    · exact ih h1

theorem nodesAdd_index (m : Mem) (g : HGraph) (p : Nat) : (nodesAdd m g p).2.srcToDsts = g.srcToDsts ∧ (nodesAdd m g p).2.dstToSrcs = g.dstToSrcs := by
  unfold nodesAdd
  split
  · exact ⟨rfl, rfl⟩
  · split
    · split <;> exact ⟨rfl, rfl⟩
    · exact ⟨rfl, rfl⟩

/-- One call. -/
theorem XInv.step {m : Mem} {g : HGraph} (h : XInv m g) (op : Op) (hm : m.edges.length ≤ (Heap.step m g op).1.1.edges.length) : XInv (Heap.step m g op).1.1 (Heap.step m g op).1.2 := by
  have hpe : ∀ s sp d dp dir as, m.edges.length ≤ (Heap.addPortEdge m g s sp d dp dir as).1.1.edges.length →
      XInv (Heap.addPortEdge m g s sp d dp dir as).1.1 (Heap.addPortEdge m g s sp d dp dir as).1.2 := by
    intro s sp d dp dir as hm
    unfold Heap.addPortEdge at hm ⊢
    split <;> rename_i he <;> rw [he] at hm
    · exact h.mono hm
    · exact XInv.edgesAdd (h.mono hm) _
  cases op with
  | setStrict b => exact h
  | setDir b => exact h
  | setName n => exact h
  | addPortEdge s sp d dp dir as => exact hpe _ _ _ _ _ _ hm
  | addEdge s d dir as => exact hpe _ _ _ _ _ _ hm
  | addNode p n as =>
    simp only [Heap.step, Heap.addNode] at hm ⊢
    split <;> rename_i he <;> rw [he] at hm
    · exact h.mono hm
    · refine (h.mono hm).of_eq ?_ ?_
      · exact (nodesAdd_index _ g _).1
      · exact (nodesAdd_index _ g _).2
  | addAttr p f v => exact h.mono hm
  | addSubGraph p n as =>
    simp only [Heap.step, Heap.addSubGraph] at hm ⊢
    refine (h.mono hm).of_eq ?_ ?_
    · unfold subsAdd; split <;> rfl
    · unfold subsAdd; split <;> rfl
  | removeNode p n => exact h.removeNode p n
  | removeSubGraph p n o =>
    simp only [Heap.step, Heap.removeSubGraph]
    have h1 := XInv.removeNodes p o h
    split <;> rename_i he <;> rw [he] at h1
    · exact h1
    · exact XInv.rebuild _

theorem xInv_run (acts : List Act) : ∀ {s : State}, SInv s → OkActs s acts → (∀ g ∈ s.graphs, XInv s.mem g) → ∀ g ∈ (s.run acts).graphs, XInv (s.run acts).mem g := by
  induction acts with
  | nil => exact fun _ _ h => h
  | cons a acts ih =>
    intro s hs hok h
    refine ih (hs.act hok.1) hok.2 ?_
    have hL := (Larger.of_ext (hs.ext hok.1)).edges
    have hnil : ∀ n, IdxLt n [] := fun n e he => nomatch he
    cases a with
    | newGraph =>
      intro g hg
      simp only [State.act, newHGraph, List.mem_append, List.mem_singleton] at hg
      rcases hg with hg | rfl
      · exact (h g hg).mono hL
      · exact ⟨hnil _, hnil _⟩
    | call i op arg =>
      obtain ⟨g0, hg0, _⟩ := hok.1
      rw [act_call hg0] at hL ⊢
      intro g hg
      rcases List.mem_or_eq_of_mem_set hg with hg | rfl
      · exact (h g hg).mono hL
      · exact (h g0 (List.mem_of_getElem? hg0)).step op hL
    | write o k v =>
      intro g hg
      have e : (s.act (.write o k v)).1.graphs = s.graphs := by simp only [State.act]; split <;> rfl
      rw [e] at hg
      exact (h g hg).mono hL
    | newArg m => exact h
    | setArg a k v => exact h

theorem _root_.Gographviz.Spec.Reached.xInv {s : State} (h : Reached s) : ∀ g ∈ s.graphs, XInv s.mem g := by
  obtain ⟨acts, hok, rfl⟩ := h
  exact xInv_run acts SInv.start hok fun g hg => by simp [Heap.start] at hg

/-! ### everything belongs to whoever has the lock -/

/-- `i` owns everything but the arguments. -/
def ownAll {κ : Type} (i : κ) : Threads.Loc → Option κ
  | .arg _ => none
  | _ => some i

/-- The graphs are in this memory. -/
def At (S0 : State) (ν : Places) (σ : State) (W : World) : Prop := St () (worldOf (noGraphs S0)) ν σ.mem σ.graphs ⟨W, ownAll ()⟩

theorem Rep.move {ι κ : Type} {i : ι} {j : κ} {ν : Places} {m : Mem} {gs : List HGraph} {s : GS ι} {s' : GS κ} (h : Rep i ν m gs s)
    (hm : ∀ l v, (∀ n, l ≠ .arg n) → Own i s l v → Own j s' l v) : Rep j ν m gs s' :=
  ⟨fun a as ha => hm _ _ (fun _ h => nomatch h) (h.maps a as ha), fun p o hp => ⟨hm _ _ (fun _ h => nomatch h) (h.nodes p o hp).1, (h.nodes p o hp).2⟩,
    fun p o hp => ⟨hm _ _ (fun _ h => nomatch h) (h.edges p o hp).1, (h.edges p o hp).2⟩, fun p o hp => ⟨hm _ _ (fun _ h => nomatch h) (h.subs p o hp).1, (h.subs p o hp).2⟩,
    fun p o hp => ⟨hm _ _ (fun _ h => nomatch h) (h.graphs p o hp).1, (h.graphs p o hp).2⟩, h.injM, h.injG⟩

theorem noGraphs_arg {S0 : State} {l : Threads.Loc} {v : Cell} (h : worldOf (noGraphs S0) l = some v) : ∃ n, l = .arg n := by
  cases l <;> simp [worldOf, noGraphs] at h
  exact ⟨_, rfl⟩

/-- Whoever gets the lock owns everything. -/
theorem At.take {ι : Type} {S0 : State} {ν : Places} {σ : State} {W : World} (h : At S0 ν σ W) (i : ι) :
    St i (worldOf (noGraphs S0)) ν σ.mem σ.graphs ⟨W, ownAll i⟩ := by
  refine ⟨fun l v hl => ?_, h.rep.move fun l v hl ho => ⟨ho.1, ?_⟩⟩
  · obtain ⟨n, rfl⟩ := noGraphs_arg hl
    exact ⟨(h.sh _ _ hl).1, rfl⟩
  · cases l <;> first | rfl | exact absurd rfl (hl _)

theorem St.give {ι : Type} {i : ι} {S0 : State} {ν : Places} {σ : State} {s : GS ι} (h : St i (worldOf (noGraphs S0)) ν σ.mem σ.graphs s) : At S0 ν σ s.mem := by
  refine ⟨fun l v hl => ?_, h.rep.move fun l v hl ho => ⟨ho.1, ?_⟩⟩
  · obtain ⟨n, rfl⟩ := noGraphs_arg hl
    exact ⟨(h.sh _ _ hl).1, rfl⟩
  · cases l <;> first | rfl | exact absurd rfl (hl _)

theorem At.mono {S0 : State} {ν : Places} {σ : State} {W W' : World} (h : At S0 ν σ W) (hW : ∀ l v, W l = some v → W' l = some v) : At S0 ν σ W' := by
  refine ⟨fun l v hl => ?_, h.rep.move fun l v hl ho => ⟨hW _ _ ho.1, ho.2⟩⟩
  exact ⟨hW _ _ (h.sh _ _ hl).1, (h.sh _ _ hl).2⟩

theorem _root_.Gographviz.Spec.Reached.owned_lt {S0 : State} (h : Reached S0) {o : Owner} {a : Nat} (ho : S0.owned o = some a) : a < S0.mem.maps.length :=
  (SInv.of h).minv.lt o a (by rw [← State.owned_eq]; exact ho)

/-- Every pointer of every graph points to something. -/
theorem _root_.Gographviz.Spec.Reached.gvalid {S0 : State} (h : Reached S0) {j : Nat} {g : HGraph} (hj : S0.graphs[j]? = some g) : GValid S0.mem g := by
  have hle : ∀ {γ : Type} {l : List γ} {p : Nat} {x : γ}, l[p]? = some x → p < l.length := fun h => (List.getElem?_eq_some_iff.1 h).1
  have hl := (SInv.of h).linv j g hj
  have hxg := h.xInv g (List.mem_of_getElem? hj)
  refine ⟨h.owned_lt (o := .graph j) (by simp [State.owned, hj]), ?_, ?_, hxg.1, hxg.2, ?_, ?_⟩
  · intro e he
    obtain ⟨_, o, ho, _⟩ := (hl.nodes.look e.1 e.2).1 (mget_of_mem hl.nodes.wf he)
    exact hle ho
  · exact fun p hp => let ⟨o, ho⟩ := hl.nodes.valid p hp; hle ho
  · exact fun p hp => let ⟨o, ho⟩ := hl.edges.valid p hp; hle ho
  · intro e he
    obtain ⟨o, ho, _⟩ := hl.subs.look e.1 e.2 (mget_of_mem hl.subs.wf he)
    exact hle ho

/-- At the beginning. -/
theorem at_start {S0 : State} (h : Reached S0) : At S0 .same S0 (worldOf S0) := by
  refine ⟨fun l v hl => ?_, ?_, ?_, ?_, ?_, ?_, fun _ _ _ _ h => h, fun _ _ _ _ h => h⟩
  · obtain ⟨n, rfl⟩ := noGraphs_arg hl
    exact ⟨hl, rfl⟩
  · exact fun a as ha => ⟨by simp [worldOf, Places.same, ha], rfl⟩
  · exact fun p o hp => ⟨⟨by simp [worldOf, Places.same, hp, Places.nodeObj], rfl⟩, h.owned_lt (o := .node p) (by simp [State.owned, hp])⟩
  · exact fun p o hp => ⟨⟨by simp [worldOf, Places.same, hp, Places.edgeObj], rfl⟩, h.owned_lt (o := .edge p) (by simp [State.owned, hp])⟩
  · exact fun p o hp => ⟨⟨by simp [worldOf, Places.same, hp, Places.subObj], rfl⟩, h.owned_lt (o := .sub p) (by simp [State.owned, hp])⟩
  · exact fun j g hj => ⟨⟨by rw [same_hgraph]; simp [worldOf, Places.same, hj], rfl⟩, h.gvalid hj⟩

/-! ### the calls one by one -/

/-- They are a history of the model without goroutines. -/
theorem _root_.Gographviz.Spec.Locked.OneByOne.history {ν : Places} {sortE : List Edge → List Edge} {fuel : Nat} {S0 σ : State} {log : List (LCall × Reply)} (h : OneByOne ν sortE fuel S0 log σ) :
    ∃ acts, OkActs S0 acts ∧ NoWrites acts ∧ σ = S0.run acts ∧ σ.args = S0.args ∧ σ.graphs.length = S0.graphs.length ∧ ∀ j, Calls S0 (changesOf j log) (opsOn j acts) := by
  induction h with
  | nothing => exact ⟨[], trivial, (fun _ _ _ h => nomatch h), rfl, rfl, rfl, fun _ => trivial⟩
  | @change log σ n c a kvs order _ e hok ih =>
    subst e
    obtain ⟨acts, h1, h2, h3, h4, h5, h6⟩ := ih
    obtain ⟨hlen, hargs⟩ := act_graphs_call (σ := σ) n (opOf kvs order c) c.arg
    refine ⟨acts ++ [.call n (opOf kvs order c) c.arg], okActs_append.2 ⟨h1, by rw [← h3]; exact ⟨hok, trivial⟩⟩, ?_, ?_, hargs.trans h4, hlen.trans h5, ?_⟩
    · intro o k v hm
      rcases List.mem_append.1 hm with hm | hm
      · exact h2 o k v hm
      · cases List.mem_singleton.1 hm
    · rw [run_append, ← h3]; rfl
    · intro j
      obtain ⟨g, _, hp, _⟩ := hok
      have e1 : ∀ l : List (LCall × Reply), changesOf j (l ++ [(.change n c, .error (σ.act (.call n (opOf kvs order c) c.arg)).2)]) = changesOf j l ++ (if n = j then [c] else []) := by
        intro l
        induction l with
        | nil => simp only [List.nil_append, changesOf]
        | cons x l ih =>
          obtain ⟨x, r⟩ := x
          cases x with
          | change k c' =>
            simp only [List.cons_append, changesOf, ih]
            split <;> rfl
          | ask e k q => exact ih
      have e2 : opsOn j (acts ++ [.call n (opOf kvs order c) c.arg]) = opsOn j acts ++ (if n = j then [opOf kvs order c] else []) := by
        rw [Props.opsOn_append]
        simp only [opsOn]
      have e3 : ∀ (cs cs' : List Change) (os os' : List Op), Calls S0 cs os → Calls S0 cs' os' → Calls S0 (cs ++ cs') (os ++ os') := by
        intro cs
        induction cs with
        | nil =>
          intro cs' os os' h h'
          cases os with
          | nil => exact h'
          | cons o os => exact h.elim
        | cons c cs ih =>
          intro cs' os os' h h'
          cases os with
          | nil => exact h.elim
          | cons o os => exact ⟨h.1, ih _ _ _ h.2 h'⟩
      rw [e1, e2]
      refine e3 _ _ _ _ (h6 j) ?_
      split
      · exact ⟨⟨kvs, order, rfl, by rw [← h4]; exact hp⟩, trivial⟩
      · trivial
  | @ask log σ e n q h x y _ _ _ _ ih =>
    obtain ⟨acts, h1, h2, h3, h4, h5, h6⟩ := ih
    refine ⟨acts, h1, h2, h3, h4, h5, fun j => ?_⟩
    have e1 : ∀ l : List (LCall × Reply), changesOf j (l ++ [(.ask e n q, y)]) = changesOf j l := by
      intro l
      induction l with
      | nil => rfl
      | cons x l ih =>
        obtain ⟨x, r⟩ := x
        cases x with
        | change k c' =>
          simp only [List.cons_append, changesOf, ih]
        | ask e k q => exact ih
    rw [e1]
    exact h6 j

theorem _root_.Gographviz.Spec.Locked.OneByOne.reached {ν : Places} {sortE : List Edge → List Edge} {fuel : Nat} {S0 σ : State} {log : List (LCall × Reply)} (hS : Reached S0)
    (h : OneByOne ν sortE fuel S0 log σ) : Reached σ := by
  obtain ⟨acts, h1, _, rfl, _⟩ := h.history
  obtain ⟨acts0, h0, rfl⟩ := hS
  exact ⟨acts0 ++ acts, okActs_append.2 ⟨h0, h1⟩, (run_append _ _ _).symm⟩

/-- The same, if the same objects are at the same places. -/
theorem _root_.Gographviz.Spec.Locked.OneByOne.agree {ν ν' : Places} {sortE : List Edge → List Edge} {fuel : Nat} {S0 σ : State} {log : List (LCall × Reply)} (hS : Reached S0)
    (h : OneByOne ν sortE fuel S0 log σ) : Agree ν ν' σ.mem σ.graphs.length → OneByOne ν' sortE fuel S0 log σ := by
  induction h with
  | nothing => exact fun _ => .nothing
  | @change log σ n c a kvs order h' e hok ih =>
    intro ha
    have hr := h'.reached hS
    have hL := Larger.of_ext ((SInv.of hr).ext hok)
    have hlen : σ.graphs.length ≤ (σ.act a).1.graphs.length := by
      subst e
      exact Nat.le_of_eq (act_graphs_call (σ := σ) n (opOf kvs order c) c.arg).1.symm
    exact .change kvs order (ih ⟨fun a h => ha.graph a (by omega), fun a h => ha.node a (Nat.lt_of_lt_of_le h hL.nodes), fun a h => ha.edge a (Nat.lt_of_lt_of_le h hL.edges),
      fun a h => ha.sub a (Nat.lt_of_lt_of_le h hL.subs), fun a h => ha.map a (Nat.lt_of_lt_of_le h hL.maps)⟩) e hok
  | ask h' hg hR hy ih =>
    intro ha
    exact .ask (ih ha) hg (Right.agree ((h'.reached hS).gvalid hg) ha hR) hy

/-! ### one call -/

/-- What a reading method returns. -/
def Answer (ν : Places) (sortE : List Edge → List Edge) (fuel : Nat) (σ : State) (n : Nat) (q : Query) : WRes Reply → Prop
  | .ok y => ∃ h x, σ.graphs[n]? = some h ∧ Right ν sortE fuel σ.mem h (valueOf σ.mem h) q x ∧ replyOf x = some y
  | .err _ => False
  | .panic => ∃ h, σ.graphs[n]? = some h ∧ Right ν sortE fuel σ.mem h (valueOf σ.mem h) q .panic
  | .diverge => ∃ h, σ.graphs[n]? = some h ∧ Right ν sortE fuel σ.mem h (valueOf σ.mem h) q .diverge

variable {ι : Type} [DecidableEq ι]

/-- How a call ends that has the lock for itself. -/
def ExclPost (i : ι) (S0 : State) (ν : Places) (sortE : List Edge → List Edge) (fuel : Nat) (σ : State) : LCall → WRes Reply → GS ι → Prop
  | .change n c, r, s => ∃ e, r = .ok (.error e) ∧ Called i (noGraphs S0) σ ν n c e s
  | .ask _ n q, r, s => St i (worldOf (noGraphs S0)) ν σ.mem σ.graphs s ∧ Answer ν sortE fuel σ n q r

/-- A call that has the lock for itself. -/
theorem excl_safe {i : ι} {S0 σ : State} {ν : Places} {s : GS ι} (hσ : Reached σ) (ha : σ.args = S0.args) (hlen : σ.graphs.length = S0.graphs.length)
    (hν : ∀ n, ν.graph n = n) (hwf : ∀ m ∈ S0.args, MapWF m) {sorter : Nat → SortTree} (hsort : Sorts sorter) (fuel : Nat) {call : LCall}
    (hc : SensibleCall S0 call) (hst : St i (worldOf (noGraphs S0)) ν σ.mem σ.graphs s) :
    Safe i (call.prog sorter fuel) (ExclPost i S0 ν (sortOf sorter) fuel σ call) s := by
  cases call with
  | change n c =>
    obtain ⟨hn, hc⟩ := hc
    rw [← hlen] at hn
    have hg := List.getElem?_eq_getElem hn
    have h1 := Change.does (S0 := noGraphs S0) hσ.mapsWF ha hwf hst hg c hc
    rw [hν] at h1
    refine Safe.bind (Q := fun r s' => ∀ s'', Keep i s' s'' → Ends (Called i (noGraphs S0) σ ν n c) r s'') ?_ ?_ (Safe.mono ?_ h1)
    · intro e s' h2 s'' hk
      exact ⟨e, rfl, h2 s'' hk⟩
    · intro r r' s' hF hE
      have := hE s' (Keep.refl i s')
      cases hF <;> exact this.elim
    · intro r s' hE s'' hk
      cases r with
      | ok e =>
        obtain ⟨kvs, order, ν', k1, k2, k3, k4, k5⟩ := hE
        exact ⟨kvs, order, ν', k1, k2, k3, k4.keep hk, k5⟩
      | err e => exact hE.elim
      | panic => exact hE.elim
      | diverge => exact hE.elim
  | ask e n q =>
    have hn : n < σ.graphs.length := by rw [hlen]; exact hc
    have hg := List.getElem?_eq_getElem hn
    have h1 := Query.runsOwn hst hg ((SInv.of hσ).linv n _ hg) hσ.mapsWF hsort fuel q
    rw [hν] at h1
    refine Safe.reply ?_ ?_ ?_ h1
    · exact fun x y s' h2 h3 => ⟨h2.1, _, x, hg, h2.2, h3⟩
    · exact fun s' h2 => ⟨h2.1, _, hg, h2.2⟩
    · exact fun s' h2 => ⟨h2.1, _, hg, h2.2⟩

/-- A call that shares the lock with other readers. -/
theorem shared_safe {i : ι} {S0 σ : State} {ν : Places} {s : GS ι} {W : World} (hσ : Reached σ) (hlen : σ.graphs.length = S0.graphs.length)
    (hν : ∀ n, ν.graph n = n) {sorter : Nat → SortTree} (hsort : Sorts sorter) (fuel : Nat) {e : Bool} {n : Nat} {q : Query}
    (hn : n < S0.graphs.length) (hW : At S0 ν σ W) (hsh : Sh W s) :
    Safe i (LCall.prog sorter fuel (.ask e n q)) (fun r s' => Sh W s' ∧ Answer ν (sortOf sorter) fuel σ n q r) s := by
  rw [← hlen] at hn
  have hg := List.getElem?_eq_getElem hn
  have hl := (SInv.of hσ).linv n _ hg
  have hv := hσ.gvalid hg
  have hin : ∀ l v, Own () (⟨W, ownAll ()⟩ : GS Unit) l v → W l = some v := fun l v h => h.1
  have h1 : Runs i W No s (q.prog sorter fuel (ν.graph n)) fun r _ => Right ν (sortOf sorter) fuel σ.mem σ.graphs[n] (valueOf σ.mem σ.graphs[n]) q r := by
    refine Query.runsAt hl (graphAt_rep hW.rep hin hg hl hσ.mapsWF) ?_ ?_ ?_ hsort fuel q hsh
    · exact fun p hp => edgeIn_rep hW.rep hin (hv.edges p hp)
    · intro k p hk
      obtain ⟨_, o, ho, _⟩ := (hl.nodes.look k p).1 hk
      simp [Nodes.find, valueOf, hk, Nodes.deref, ho, nodeAt]
    · intro k p hk
      show mget (σ.graphs[n].subGraphs.map fun e => (e.1, subAt σ.mem e.2)) k = _
      rw [mget_mapv (subAt σ.mem), hk]; rfl
  rw [hν] at h1
  refine Safe.reply ?_ ?_ ?_ h1
  · exact fun x y s' h2 h3 => ⟨h2.1, _, x, hg, h2.2.2, h3⟩
  · exact fun s' h2 => ⟨h2.1, _, hg, h2.2.2⟩
  · exact fun s' h2 => ⟨h2.1, _, hg, h2.2.2⟩

end Gographviz.Threads
