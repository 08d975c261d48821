import Verif.Proofs.OwnGraphs
import Verif.Props.SharingProps
/-!
C72: goroutines that build, change and read graphs of their own, and read graphs (and argument maps) that all of them know, do not disturb
each other. A goroutine executes any list of commands (`Cmd`); a schedule interleaves the single memory accesses in any way.
-/
namespace Gographviz.Props

open Gographviz Gographviz.Heap Gographviz.Threads Spec Spec.Sharing Spec.OwnGraphs

variable {ι : Type} [DecidableEq ι]

theorem sInv_noGraphs (S0 : State) : SInv (noGraphs S0) :=
  ⟨SInv.start.minv, fun i g h => by simp [noGraphs] at h, fun i j g h _ hi => by simp [noGraphs] at hi⟩

theorem st_noGraphs (i : ι) (S0 : State) (ν : Places) : St i (worldOf S0) ν (noGraphs S0).mem (noGraphs S0).graphs ⟨worldOf S0, fun _ => none⟩ :=
  ⟨sh_start S0, fun _ _ h => by simp [noGraphs] at h, fun _ _ h => by simp [noGraphs] at h, fun _ _ h => by simp [noGraphs] at h,
    fun _ _ h => by simp [noGraphs] at h, fun _ _ h => by simp [noGraphs] at h, fun _ _ h => absurd h (Nat.not_lt_zero _), fun _ _ h => absurd h (Nat.not_lt_zero _)⟩

theorem _root_.Gographviz.Spec.Reached.args_wf {s : State} (h : Reached s) : ∀ m ∈ s.args, MapWF m := by
  obtain ⟨acts, hok, rfl⟩ := h
  exact Props.args_wf hok

/-- All goroutines together. -/
theorem own_inv {S0 : State} (h : Reached S0) {sorter : Nat → SortTree} (hsort : Sorts sorter) (fuel : Nat) {cmds : ι → List Cmd} (hc : ∀ i, Sensible S0 0 (cmds i))
    {tr : List (ι × Acc)} {c : Conf ι (List Reply × List Nat)} (hr : (working sorter fuel cmds S0).Reach tr c) :
    ∃ own : Threads.Loc → Option ι, (∀ i, Safe i (c.procs i) (ScriptPost i sorter fuel S0 .same (noGraphs S0) (cmds i)) ⟨c.mem, own⟩) ∧
      (∀ x ∈ tr, Acc.ok ⟨c.mem, own⟩ x.1 x.2) ∧ Older ⟨worldOf S0, fun _ => none⟩ ⟨c.mem, own⟩ := by
  refine reach_safe (own := fun _ => none) (Q := fun i => ScriptPost i sorter fuel S0 .same (noGraphs S0) (cmds i)) (fun i => ?_) hr
  exact script_safe (SInv.of h) h.mapsWF h.args_wf hsort fuel (cmds i) (sInv_noGraphs S0) (fun _ h => nomatch h) rfl (hc i) (st_noGraphs i S0 .same)

/-- How a goroutine that has returned ended. -/
theorem own_returned {S0 : State} (h : Reached S0) {sorter : Nat → SortTree} (hsort : Sorts sorter) (fuel : Nat) {cmds : ι → List Cmd} (hc : ∀ i, Sensible S0 0 (cmds i))
    {tr : List (ι × Acc)} {c : Conf ι (List Reply × List Nat)} (hr : (working sorter fuel cmds S0).Reach tr c) {i : ι} {r : WRes (List Reply × List Nat)}
    (hd : c.procs i = .ret r) : ∃ own, ScriptPost i sorter fuel S0 .same (noGraphs S0) (cmds i) r ⟨c.mem, own⟩ := by
  obtain ⟨own, h1, _, _⟩ := own_inv h hsort fuel hc hr
  have := h1 i
  rw [hd] at this
  exact ⟨own, this _ (Keep.refl i _)⟩

/-- **C72** Whatever the others do and in whatever order: a goroutine gets the replies that its commands give when it is alone (`Alone`), and its graphs have the
contents which they have then. (`ν` tells where its objects are; alone, they would be numbered from 0.) -/
theorem C72_result {sorter : Nat → SortTree} (hsort : Sorts sorter) : ∃ sortE, SortContract sortE ∧
    ∀ {S0 : State}, Reached S0 → ∀ (fuel : Nat) {cmds : ι → List Cmd}, (∀ i, Sensible S0 0 (cmds i)) →
    ∀ {tr : List (ι × Acc)} {c : Conf ι (List Reply × List Nat)}, (working sorter fuel cmds S0).Reach tr c → ∀ i r, c.procs i = .ret r →
    ∃ (ν : Places) (σ' : State), Alone ν sortE fuel S0 (noGraphs S0) (cmds i) (repliesOf r) σ' ∧
      ∀ replies own, r = .ok (replies, own) → own = (List.range σ'.graphs.length).map ν.graph ∧
        ∀ (j : Nat) g, σ'.graphs[j]? = some g → contentsIn c.mem (ν.graph j) = some (contents σ'.mem g) := by
  refine ⟨sortOf sorter, hsort.contract, ?_⟩
  intro S0 h fuel cmds hc tr c hr i r hd
  obtain ⟨own, ν, σ', _, h2, h3⟩ := own_returned h hsort fuel hc hr hd
  refine ⟨ν, σ', h2, ?_⟩
  intro replies own' he
  obtain ⟨h4, h5⟩ := h3 _ he
  exact ⟨h4, fun j g hj => contentsIn_rep h5.rep (fun l v hv => hv.1) hj⟩

/-! ### histories -/

theorem cons_ok {y : Reply} {r : WRes (List Reply)} {rs : List Reply} (h : consReply y r = .ok rs) : ∃ rs', r = .ok rs' := by
  cases r with
  | ok x => exact ⟨x, rfl⟩
  | err e => cases h
  | panic => cases h
  | diverge => cases h

theorem lost_ok {x : WRes Out} {rs : List Reply} (h : lost x = .ok rs) : False := by
  cases x <;> cases h

/-- A goroutine alone makes a history. -/
theorem alone_history {ν : Places} {sortE : List Edge → List Edge} {fuel : Nat} {S0 σ σ' : State} {cmds : List Cmd} {r : WRes (List Reply)}
    (h : Alone ν sortE fuel S0 σ cmds r σ') : ∀ {rs : List Reply}, r = .ok rs → σ.args = S0.args → ∃ acts, OkActs σ acts ∧ NoWrites acts ∧ σ' = σ.run acts ∧
      σ'.graphs.length = σ.graphs.length + graphsMade cmds ∧ ∀ j, Calls S0 (changesTo j cmds) (opsOn j acts) := by
  induction h with
  | done => exact fun _ _ => ⟨[], trivial, (fun _ _ _ h => nomatch h), rfl, rfl, fun _ => trivial⟩
  | @new σ _ cs r _ ih =>
    intro rs he ha
    obtain ⟨rs', hr⟩ := cons_ok he
    obtain ⟨acts, h1, h2, h3, h4, h5⟩ := ih hr ha
    refine ⟨.newGraph :: acts, ⟨trivial, h1⟩, ?_, h3, ?_, h5⟩
    · intro o k v hm
      rcases List.mem_cons.1 hm with hm | hm
      · cases hm
      · exact h2 o k v hm
    · have hlen : (σ.act .newGraph).1.graphs.length = σ.graphs.length + 1 := by simp [State.act, newHGraph]
      rw [h4, hlen]
      simp only [graphsMade]
      omega
  | @change σ _ j c cs r a kvs order e hok _ ih =>
    intro rs he ha
    obtain ⟨rs', hr⟩ := cons_ok he
    subst e
    obtain ⟨hlen, hargs⟩ := act_graphs_call (σ := σ) j (opOf kvs order c) c.arg
    obtain ⟨acts, h1, h2, h3, h4, h5⟩ := ih hr (hargs.trans ha)
    refine ⟨_ :: acts, ⟨hok, h1⟩, ?_, h3, ?_, ?_⟩
    · intro o k v hm
      rcases List.mem_cons.1 hm with hm | hm
      · cases hm
      · exact h2 o k v hm
    · rw [h4, hlen]; rfl
    · intro j'
      simp only [changesTo, opsOn]
      split
      · obtain ⟨g, _, hp, _⟩ := hok
        exact ⟨⟨kvs, order, rfl, by rw [← ha]; exact hp⟩, h5 j'⟩
      · exact h5 j'
  | ask _ _ _ _ ih =>
    intro rs he ha
    obtain ⟨rs', hr⟩ := cons_ok he
    exact ih hr ha
  | askLost => exact fun he _ => (lost_ok he).elim
  | askShared _ _ _ _ ih =>
    intro rs he ha
    obtain ⟨rs', hr⟩ := cons_ok he
    exact ih hr ha
  | askSharedLost => exact fun he _ => (lost_ok he).elim

/-- The maps of the caller. -/
def makeArgs (S0 : State) : List Act := S0.args.map .newArg

theorem makeArgs_run (S0 : State) : start.run (makeArgs S0) = noGraphs S0 := by
  suffices ∀ (l : List (Map Str)) (s : State), s.run (l.map .newArg) = { s with args := s.args ++ l } from (this _ _).trans (by simp [noGraphs, start])
  intro l
  induction l with
  | nil => intro s; simp [State.run]
  | cons x l ih =>
    intro s
    simp only [List.map_cons, State.run]
    rw [ih]
    simp [State.act]

theorem makeArgs_ok {S0 : State} (h : ∀ m ∈ S0.args, MapWF m) : OkActs start (makeArgs S0) := by
  suffices ∀ (l : List (Map Str)) (s : State), (∀ m ∈ l, MapWF m) → OkActs s (l.map .newArg) from this _ _ h
  intro l
  induction l with
  | nil => exact fun _ _ => trivial
  | cons x l ih => exact fun s h => ⟨h x (List.mem_cons_self ..), ih _ fun m hm => h m (List.mem_cons_of_mem _ hm)⟩

theorem makeArgs_ops (S0 : State) (j : Nat) : opsOn j (makeArgs S0) = [] := by
  unfold makeArgs
  induction S0.args with
  | nil => rfl
  | cons x l ih => exact ih

/-- **C72** ... in terms of each graph's own calls: when a goroutine is done, its graph number `j` has the contents that the calls it made on it give to an empty graph
(`Model/Graph.lean`, which the theorems about single graphs are about), as if nothing else had happened anywhere. -/
theorem C72_contents {sorter : Nat → SortTree} (hsort : Sorts sorter) {S0 : State} (h : Reached S0) (fuel : Nat) {cmds : ι → List Cmd} (hc : ∀ i, Sensible S0 0 (cmds i))
    {tr : List (ι × Acc)} {c : Conf ι (List Reply × List Nat)} (hr : (working sorter fuel cmds S0).Reach tr c) {i : ι} {replies : List Reply} {own : List Nat}
    (hd : c.procs i = .ret (.ok (replies, own))) : own.length = graphsMade (cmds i) ∧ ∀ (j : Nat) n, own[j]? = some n →
      ∃ ops, Calls S0 (changesTo j (cmds i)) ops ∧ OkHistory newGraph ops ∧ contentsIn c.mem n = some (contentsOf (newGraph.run ops)) := by
  obtain ⟨own', ν, σ', _, h2, h3⟩ := own_returned h hsort fuel hc hr hd
  obtain ⟨h4, h5⟩ := h3 _ rfl
  obtain ⟨acts, k1, k2, k3, k4, k5⟩ := alone_history h2 rfl rfl
  dsimp only at h4
  refine ⟨by rw [h4, List.length_map, List.length_range, k4]; simp [noGraphs], ?_⟩
  intro j n hj
  have hjlt : j < σ'.graphs.length := by
    have := (List.getElem?_eq_some_iff.1 hj).1
    rw [h4] at this
    simpa using this
  rw [h4, own_get ν.graph hjlt] at hj
  cases hj
  have hg := List.getElem?_eq_getElem hjlt
  rw [contentsIn_rep h5.rep (fun l v hv => hv.1) hg]
  have hok : OkActs start (makeArgs S0 ++ acts) := okActs_append.2 ⟨makeArgs_ok h.args_wf, by rw [makeArgs_run]; exact k1⟩
  have hw : NoWrites (makeArgs S0 ++ acts) := by
    intro o k v hm
    rcases List.mem_append.1 hm with hm | hm
    · obtain ⟨x, _, hx⟩ := List.mem_map.1 hm
      cases hx
    · exact k2 o k v hm
  have e : start.run (makeArgs S0 ++ acts) = σ' := by rw [run_append, makeArgs_run, k3]
  obtain ⟨h6, h7⟩ := (C61_refines hok hw j).1 _ (by rw [e]; exact hg)
  rw [opsOn_append, makeArgs_ops] at h6 h7
  rw [e] at h7
  exact ⟨opsOn j acts, k5 j, h6, congrArg some h7⟩

/-! ### races and progress -/

/-- Accesses to what one owns, and reading what nobody owns, are no race. -/
theorem raceFree_of_ok {own : Threads.Loc → Option ι} {w : World} {tr : List (ι × Acc)} (h2 : ∀ x ∈ tr, Acc.ok ⟨w, own⟩ x.1 x.2) : RaceFree tr := by
  rintro ⟨i, a⟩ hx ⟨j, b⟩ hy hij ⟨l, ha, hb, hch⟩
  have key : ∀ (i : ι) (a : Acc), Acc.ok ⟨w, own⟩ i a → touched a = some l → (own l = none ∨ own l = some i) ∧ (changes a = true → own l = some i) := by
    intro i a hok ht
    cases a <;> simp only [touched, Option.some.injEq, reduceCtorEq] at ht
    · subst ht; exact ⟨hok.2, fun h => nomatch h⟩
    · subst ht; exact ⟨.inr hok.2, fun _ => hok.2⟩
    · subst ht; exact ⟨.inr hok.2, fun _ => hok.2⟩
  obtain ⟨k1, k2⟩ := key i a (h2 _ hx) ha
  obtain ⟨k3, k4⟩ := key j b (h2 _ hy) hb
  rcases hch with hch | hch
  · have e := k2 hch
    rcases k3 with k3 | k3 <;> rw [e] at k3 <;> cases k3
    exact hij rfl
  · have e := k4 hch
    rcases k1 with k1 | k1 <;> rw [e] at k1 <;> cases k1
    exact hij rfl

/-- **C72** There is no data race: no two goroutines touch the same address unless both only read it. -/
theorem C72_no_race {sorter : Nat → SortTree} (hsort : Sorts sorter) {S0 : State} (h : Reached S0) (fuel : Nat) {cmds : ι → List Cmd} (hc : ∀ i, Sensible S0 0 (cmds i))
    {tr : List (ι × Acc)} {c : Conf ι (List Reply × List Nat)} (hr : (working sorter fuel cmds S0).Reach tr c) : RaceFree tr := by
  obtain ⟨own, _, h2, _⟩ := own_inv h hsort fuel hc hr
  exact raceFree_of_ok h2

/-- **C72** Nothing that existed before (shared graphs, argument maps) is changed, at any time. -/
theorem C72_shared_unchanged {sorter : Nat → SortTree} (hsort : Sorts sorter) {S0 : State} (h : Reached S0) (fuel : Nat) {cmds : ι → List Cmd} (hc : ∀ i, Sensible S0 0 (cmds i))
    {tr : List (ι × Acc)} {c : Conf ι (List Reply × List Nat)} (hr : (working sorter fuel cmds S0).Reach tr c) {l : Threads.Loc} {v : Cell}
    (hl : worldOf S0 l = some v) : c.mem l = some v := by
  obtain ⟨own, _, _, h3⟩ := own_inv h hsort fuel hc hr
  exact (h3 l v hl).2.2 rfl

/-- **C72** A goroutine that has not returned is never stuck. -/
theorem C72_never_stuck (sorter : Nat → SortTree) (S0 : State) (fuel : Nat) (cmds : ι → List Cmd) {tr : List (ι × Acc)} {c : Conf ι (List Reply × List Nat)}
    (hr : (working sorter fuel cmds S0).Reach tr c) (i : ι) : (∃ r, c.procs i = .ret r) ∨ ∃ a c', Conf.Step i c a c' := by
  rcases can_step (p := c.procs i) (Finite.reach (finite_start S0) hr) with h | ⟨a, p', w', h⟩
  · exact .inl h
  · exact .inr ⟨a, _, .mk h⟩

/-- **C72** In an infinite schedule a goroutine makes only finitely many accesses; so in a fair one it returns. -/
theorem C72_finishes {run : Nat → Conf ι (List Reply × List Nat)} {who : Nat → ι} (h : ∀ k, ∃ a, Conf.Step (who k) (run k) a (run (k + 1))) (i : ι) :
    ∃ N, ∀ k, N ≤ k → who k ≠ i := finitely_often h i

/-! ### an example -/

/-- Two goroutines: both make a graph and use the same map (`color=blue`) as an argument; one of them prints a graph that existed before. -/
def ownCmds (b : Bool) : List Cmd :=
  if b then [.new, .change 0 (.addNode [] (b!"a") (some 0)), .change 0 (.addEdge (b!"a") (b!"b") true none), .ask 0 (.isNode (b!"b"))]
  else [.new, .change 0 (.addNode [] (b!"c") (some 0)), .askShared 0 .string]

/-- What the first has in the end. -/
def ownContents : Contents :=
  contentsOf (newGraph.run [.addNode [] (b!"a") [(b!"color", b!"blue")], .addEdge (b!"a") (b!"b") true []])

theorem own_sensible : ∀ b, Sensible (start.run heapActs) 0 (ownCmds b) := by
  intro b
  have hl : (start.run heapActs).graphs.length = 2 := by decide +kernel
  have ha : (start.run heapActs).args.length = 1 := by decide +kernel
  cases b <;> simp [ownCmds, Sensible, hl, ha, Change.arg]

theorem own_arg : (start.run heapActs).args[0]? = some [(b!"color", b!"blue")] := by decide +kernel

/-- The hypotheses are met: both can be run to the end, and the first then has a graph with these contents and knows that it has no node `b`. -/
theorem example_own : Sorts insertionSorter ∧ Reached (start.run heapActs) ∧ (∀ b, Sensible (start.run heapActs) 0 (ownCmds b)) ∧
    ∃ tr c, (working insertionSorter 9 ownCmds (start.run heapActs)).Reach tr c ∧ (∃ r, c.procs false = .ret r) ∧
      ∃ replies n, c.procs true = .ret (.ok (replies, [n])) ∧ replies.getLast? = some (.out (.bool false)) ∧ contentsIn c.mem n = some ownContents := by
  refine ⟨insertionSorter_sorts, heapActs_reached, own_sensible, ?_⟩
  obtain ⟨tr1, c1, r1, h1, h2, _⟩ := can_return true (c := working insertionSorter 9 ownCmds (start.run heapActs)) (finite_start _)
  obtain ⟨tr2, c2, r2, h4, h5, h6⟩ := can_return false (c := c1) (Finite.reach (finite_start _) h1)
  have hr := Reach.trans h1 h4
  have e1 : c2.procs true = .ret r1 := by rw [h6 true (by decide)]; exact h2
  refine ⟨_, c2, hr, ⟨r2, h5⟩, ?_⟩
  obtain ⟨own, ν, σ', _, hA, _⟩ := own_returned heapActs_reached insertionSorter_sorts 9 own_sensible hr e1
  have harg : ∀ {kvs : List (Str × Str)} {σ : State}, σ.args = (start.run heapActs).args → kvs.Perm (((some 0 : Option Nat).bind (σ.args[·]?)).getD []) → kvs = [(b!"color", b!"blue")] := by
    intro kvs σ ha hp
    rw [ha] at hp
    simp only [Option.bind_some, own_arg, Option.getD_some] at hp
    exact List.perm_singleton.1 hp
  have key : ∃ replies, repliesOf r1 = .ok replies ∧ replies.getLast? = some (.out (.bool false)) := by
    generalize hrep : repliesOf r1 = rep at hA
    clear hrep
    change Alone ν _ 9 _ _ [.new, .change 0 (.addNode [] (b!"a") (some 0)), .change 0 (.addEdge (b!"a") (b!"b") true none), .ask 0 (.isNode (b!"b"))] rep σ' at hA
    cases hA with
    | new hA =>
    cases hA with
    | change kvs order ha hok hA =>
    subst ha
    obtain ⟨_, _, hp, _⟩ := hok
    have hk := harg rfl hp
    subst hk
    cases hA with
    | change kvs order ha hok hA =>
    subst ha
    obtain ⟨_, _, hp, _⟩ := hok
    have hk : kvs = [] := List.Perm.eq_nil hp
    subst hk
    cases hA with
    | ask hg hR hy hA =>
      cases hA
      cases hR
      cases hy
      refine ⟨_, rfl, ?_⟩
      simp only [List.getLast?_cons_cons, List.getLast?_singleton]
      cases hg
      rfl
    | askLost hg hR hy =>
      cases hR
      cases hy
  obtain ⟨replies, k1, k2⟩ := key
  cases r1 with
  | err e => cases k1
  | panic => cases k1
  | diverge => cases k1
  | ok x =>
    obtain ⟨rs, own⟩ := x
    cases k1
    obtain ⟨hl, hc⟩ := C72_contents insertionSorter_sorts heapActs_reached 9 own_sensible hr e1
    obtain ⟨n, hn⟩ : ∃ n, own = [n] := by
      match own, hl with
      | [n], _ => exact ⟨n, rfl⟩
    subst hn
    refine ⟨rs, n, e1, k2, ?_⟩
    obtain ⟨ops, h7, _, h8⟩ := hc 0 n rfl
    rw [h8]
    change Calls _ [.addNode [] (b!"a") (some 0), .addEdge (b!"a") (b!"b") true none] ops at h7
    match ops, h7 with
    | [op1, op2], ⟨⟨kvs1, o1, e1, p1⟩, ⟨kvs2, o2, e2, p2⟩, _⟩ =>
      subst e1 e2
      have hk := harg rfl p1
      subst hk
      have hk : kvs2 = [] := List.Perm.eq_nil p2
      subst hk
      rfl

end Gographviz.Props
