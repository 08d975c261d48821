import Verif.Proofs.LockedRun
import Verif.Props.SharingProps
/-!
C73: goroutines that share graphs and guard every call with a lock (`Lock` for any method, `RLock` for reading methods only) see what they would see if the calls were
made one after the other. A goroutine decides what to call from the replies it got; a schedule interleaves the lock operations and the single memory accesses in any way.
-/
namespace Gographviz.Props

open Gographviz Gographviz.Heap Gographviz.Threads Spec Spec.Sharing Spec.OwnGraphs Spec.Locked

variable {ι : Type} [DecidableEq ι]

/-- **C73** At any time, in any schedule: the calls that are done have the replies which they get when they are made one after the other, in the order in which they
were done; each goroutine made the calls it wanted and got these replies; and when nobody has the lock for itself, the graphs have the contents which they have then. -/
theorem C73_one_by_one {sorter : Nat → SortTree} (hsort : Sorts sorter) : ∃ sortE, SortContract sortE ∧
    ∀ {S0 : State}, Reached S0 → ∀ (fuel : Nat) {next : ι → List Reply → Option LCall}, (∀ i rs call, next i rs = some call → SensibleCall S0 call) →
    ∀ {tr : List (ι × Ev)} {c : LConf ι}, (ready S0).Reach sorter fuel next tr c →
    (∀ i, (c.workers i).replies = (doneBy i tr).map (·.2) ∧ Plays (next i) (doneBy i tr)) ∧
    ∃ ν σ, OneByOne ν sortE fuel S0 ((done tr).map (·.2)) σ ∧
      (NoWriter c → ∀ (j : Nat) g, σ.graphs[j]? = some g → contentsIn c.mem j = some (contents σ.mem g)) := by
  refine ⟨sortOf sorter, hsort.contract, ?_⟩
  intro S0 h fuel next hsens tr c hr
  have hi := lock_inv h (finite_start S0) hsort hsens hr
  refine ⟨fun i => ⟨(hi.work i).1, (hi.work i).2.1⟩, ?_⟩
  obtain ⟨σ, ν, tr0, tr', own, h1, h2, _, _, _, h6⟩ := hi.seq
  refine ⟨ν, σ, h1, ?_⟩
  intro hnw j g hj
  unfold LockState at h6
  split at h6
  · rename_i i hl
    exact absurd hl (hnw i)
  · obtain ⟨_, _, ⟨W, k2, k3, _⟩, _⟩ := h6
    have := contentsIn_rep k2.rep (W := c.mem) (fun l v hv => (k3 l v hv.1).1) hj
    rwa [h2] at this

/-- **C73** ... in terms of each graph's own calls: when nobody has the lock for itself, graph number `j` has the contents that an empty graph gets by the calls made on it,
those before (`acts0`) and then those of all goroutines in the order in which they were done (`Model/Graph.lean`, which the theorems about single graphs are about). -/
theorem C73_contents {sorter : Nat → SortTree} (hsort : Sorts sorter) {acts0 : List Act} (hok : OkActs start acts0) (hw : NoWrites acts0) (fuel : Nat)
    {next : ι → List Reply → Option LCall} (hsens : ∀ i rs call, next i rs = some call → SensibleCall (start.run acts0) call) {tr : List (ι × Ev)} {c : LConf ι}
    (hr : (ready (start.run acts0)).Reach sorter fuel next tr c) (hnw : NoWriter c) (j : Nat) (hj : j < (start.run acts0).graphs.length) :
    ∃ ops, Calls (start.run acts0) (changesOf j ((done tr).map (·.2))) ops ∧ OkHistory newGraph (opsOn j acts0 ++ ops) ∧
      contentsIn c.mem j = some (contentsOf (newGraph.run (opsOn j acts0 ++ ops))) := by
  obtain ⟨sortE, _, H⟩ := C73_one_by_one (ι := ι) hsort
  obtain ⟨_, ν, σ, h1, h2⟩ := H ⟨acts0, hok, rfl⟩ fuel hsens hr
  obtain ⟨acts, k1, k2, k3, k4, k5, k6⟩ := h1.history
  have hg := List.getElem?_eq_getElem (l := σ.graphs) (i := j) (by rw [k5]; exact hj)
  rw [h2 hnw j _ hg]
  have hok' : OkActs start (acts0 ++ acts) := okActs_append.2 ⟨hok, k1⟩
  have hw' : NoWrites (acts0 ++ acts) := by
    intro o k v hm
    rcases List.mem_append.1 hm with hm | hm
    · exact hw o k v hm
    · exact k2 o k v hm
  have e : start.run (acts0 ++ acts) = σ := by rw [run_append, k3]
  obtain ⟨h6, h7⟩ := (C61_refines hok' hw' j).1 _ (by rw [e]; exact hg)
  rw [opsOn_append] at h6 h7
  rw [e] at h7
  exact ⟨opsOn j acts, k6 j, h6, congrArg some h7⟩

/-- **C73** There is no data race: between two conflicting accesses of different goroutines the first one gives the lock back and then the second one gets it. -/
theorem C73_no_race {sorter : Nat → SortTree} (hsort : Sorts sorter) {S0 : State} (h : Reached S0) (fuel : Nat) {next : ι → List Reply → Option LCall}
    (hsens : ∀ i rs call, next i rs = some call → SensibleCall S0 call) {tr : List (ι × Ev)} {c : LConf ι} (hr : (ready S0).Reach sorter fuel next tr c) : Ordered tr :=
  (lock_inv h (finite_start S0) hsort hsens hr).ordered

/-- **C73** There is no deadlock: somebody can go on, unless all have finished, or somebody is in a call that would not return either if the calls were made one after
the other (in fact `WriteAst` or `String` on a graph on which they do not return). -/
theorem C73_no_deadlock {sorter : Nat → SortTree} (hsort : Sorts sorter) : ∃ sortE, SortContract sortE ∧
    ∀ {S0 : State}, Reached S0 → ∀ (fuel : Nat) {next : ι → List Reply → Option LCall}, (∀ i rs call, next i rs = some call → SensibleCall S0 call) →
    ∀ {tr : List (ι × Ev)} {c : LConf ι}, (ready S0).Reach sorter fuel next tr c →
    (∀ i, Finished next c i) ∨ (∃ i e c', LConf.Step sorter fuel next i c e c') ∨
    ∃ i n q r ν σ h, LostIn c i n q r ∧ OneByOne ν sortE fuel S0 ((done tr).map (·.2)) σ ∧ σ.graphs[n]? = some h ∧ Right ν sortE fuel σ.mem h (valueOf σ.mem h) q r := by
  refine ⟨sortOf sorter, hsort.contract, ?_⟩
  intro S0 h fuel next hsens tr c hr
  have hi := lock_inv h (finite_start S0) hsort hsens hr
  obtain ⟨σ, ν, tr0, tr', own, h1, h2, _, _, _, h6⟩ := hi.seq
  have heta : ∀ i x, (c.workers i).now = x → c.workers i = ⟨(c.workers i).replies, x⟩ := fun i x hx => by subst hx; rfl
  unfold LockState at h6
  split at h6
  · rename_i i hl
    obtain ⟨⟨call, p, k1, k2⟩, _, _⟩ := h6
    right
    rcases can_step (p := p) hi.fin with ⟨r, rfl⟩ | ⟨a, p', w', hs⟩
    · have hpost : ExclPost i S0 ν (sortOf sorter) fuel σ call r ⟨c.mem, own⟩ := k2 _ (Keep.refl i _)
      cases call with
      | change n ch =>
        obtain ⟨e, rfl, _⟩ := hpost
        exact .inl ⟨i, _, _, .unlock (heta i _ k1) hl⟩
      | ask ex n q =>
        obtain ⟨_, ha⟩ := hpost
        cases r with
        | ok y => exact .inl ⟨i, _, _, .unlock (heta i _ k1) hl⟩
        | err e => exact ha.elim
        | panic =>
          obtain ⟨hg, g1, g2⟩ := ha
          exact .inr ⟨i, n, q, .panic, ν, σ, hg, ⟨ex, _, k1, .inl ⟨rfl, rfl⟩⟩, h1, g1, g2⟩
        | diverge =>
          obtain ⟨hg, g1, g2⟩ := ha
          exact .inr ⟨i, n, q, .diverge, ν, σ, hg, ⟨ex, _, k1, .inr ⟨rfl, rfl⟩⟩, h1, g1, g2⟩
    · exact .inl ⟨i, _, _, .acc (heta i _ k1) hs⟩
  · rename_i rs hl
    obtain ⟨k1, _, ⟨W, k2, k3, k4⟩, _⟩ := h6
    cases rs with
    | nil =>
      by_cases hall : ∀ i, Finished next c i
      · exact .inl hall
      · right; left
        obtain ⟨i, hn⟩ := Classical.not_forall.1 hall
        have hnone : (c.workers i).now = none := by
          cases hx : (c.workers i).now with
          | none => rfl
          | some x => cases (k1 i).2 ⟨x, hx⟩
        cases hc : next i (c.workers i).replies with
        | none => exact absurd ⟨hnone, hc⟩ hn
        | some call =>
          cases hx : call.excl with
          | true => exact ⟨i, _, _, .lock (heta i _ hnone) hc hx hl⟩
          | false => exact ⟨i, _, _, .rlock (heta i _ hnone) hc hx hl⟩
    | cons i rs =>
      right
      obtain ⟨⟨call, p⟩, hx⟩ := (k1 i).1 (List.mem_cons_self ..)
      rcases can_step (p := p) hi.fin with ⟨r, rfl⟩ | ⟨a, p', w', hs⟩
      · obtain ⟨n, q, rfl, hsafe⟩ := k4 i call _ hx
        have ha : Sh W ⟨c.mem, own⟩ ∧ Answer ν (sortOf sorter) fuel σ n q r := hsafe _ (Keep.refl i _)
        obtain ⟨_, ha⟩ := ha
        cases r with
        | ok y => exact .inl ⟨i, _, _, .runlock (heta i _ hx) hl⟩
        | err e => exact ha.elim
        | panic =>
          obtain ⟨hg, g1, g2⟩ := ha
          exact .inr ⟨i, n, q, .panic, ν, σ, hg, ⟨false, _, hx, .inl ⟨rfl, rfl⟩⟩, h1, g1, g2⟩
        | diverge =>
          obtain ⟨hg, g1, g2⟩ := ha
          exact .inr ⟨i, n, q, .diverge, ν, σ, hg, ⟨false, _, hx, .inr ⟨rfl, rfl⟩⟩, h1, g1, g2⟩
      · exact .inl ⟨i, _, _, .acc (heta i _ hx) hs⟩

/-! ### calls end -/

section
variable {sorter : Nat → SortTree} {fuel : Nat} {next : ι → List Reply → Option LCall}

/-- Others do not change goroutine `i`. -/
theorem step_other {i j : ι} {c c' : LConf ι} {e : Ev} (h : LConf.Step sorter fuel next i c e c') (hj : j ≠ i) : c'.workers j = c.workers j := by
  cases h <;> exact set_other c _ hj

/-- What a goroutine in a call can do next. -/
theorem step_in {i : ι} {c c' : LConf ι} {e : Ev} {rs : List Reply} {call : LCall} {p : Prog Reply} (h : LConf.Step sorter fuel next i c e c')
    (hi : c.workers i = ⟨rs, some (call, p)⟩) : (∃ r, e = .done call r) ∨ ∃ a p' w, e = .acc a ∧ p.Step c.mem a p' w ∧ c'.workers i = ⟨rs, some (call, p')⟩ := by
  cases h with
  | lock h1 h2 h3 h4 => rw [hi] at h1; cases h1
  | rlock h1 h2 h3 h4 => rw [hi] at h1; cases h1
  | acc h1 h2 =>
    rw [hi] at h1
    cases h1
    exact .inr ⟨_, _, _, rfl, h2, by dsimp only; rw [set_self]⟩
  | unlock h1 h2 =>
    rw [hi] at h1
    cases h1
    exact .inl ⟨_, rfl⟩
  | runlock h1 h2 =>
    rw [hi] at h1
    cases h1
    exact .inl ⟨_, rfl⟩

/-- A goroutine outside can only begin a call. -/
theorem step_out {i : ι} {c c' : LConf ι} {e : Ev} (h : LConf.Step sorter fuel next i c e c') (hi : (c.workers i).now = none) :
    ∃ rs call p, c'.workers i = ⟨rs, some (call, p)⟩ := by
  cases h with
  | lock h1 h2 h3 h4 => exact ⟨_, _, _, by dsimp only; rw [set_self]⟩
  | rlock h1 h2 h3 h4 => exact ⟨_, _, _, by dsimp only; rw [set_self]⟩
  | acc h1 h2 => rw [h1] at hi; cases hi
  | unlock h1 h2 => rw [h1] at hi; cases hi
  | runlock h1 h2 => rw [h1] at hi; cases hi

/-- **C73** Calls end: in an infinite schedule, a goroutine that goes on again and again completes calls again and again (no call makes infinitely many accesses,
whatever the others do). -/
theorem C73_calls_end {run : Nat → LConf ι} {who : Nat → ι} {ev : Nat → Ev} (h : ∀ k, LConf.Step sorter fuel next (who k) (run k) (ev k) (run (k + 1))) (i : ι)
    (hinf : ∀ N, ∃ k, N ≤ k ∧ who k = i) : ∀ N, ∃ k, N ≤ k ∧ who k = i ∧ ∃ call r, ev k = .done call r := by
  intro N
  apply Classical.byContradiction
  intro hno
  have hno : ∀ k, N ≤ k → who k = i → ∀ call r, ev k ≠ .done call r := fun k h1 h2 call r h3 => hno ⟨k, h1, h2, call, r, h3⟩
  have hstay : ∀ k0 d, (∀ k, k0 ≤ k → k < k0 + d → who k ≠ i) → (run (k0 + d)).workers i = (run k0).workers i := by
    intro k0 d
    induction d with
    | zero => exact fun _ => rfl
    | succ d ih =>
      intro hk
      rw [← ih fun k h1 h2 => hk k h1 (by omega), ← Nat.add_assoc]
      exact step_other (h (k0 + d)) (Ne.symm (hk (k0 + d) (by omega) (by omega)))
  have hnext : ∀ k0, ∃ k1, k0 ≤ k1 ∧ who k1 = i ∧ (run k1).workers i = (run k0).workers i := by
    intro k0
    obtain ⟨d, hd, hmin⟩ : ∃ d, who (k0 + d) = i ∧ ∀ d', d' < d → who (k0 + d') ≠ i := by
      obtain ⟨k, h1, h2⟩ := hinf k0
      obtain ⟨d, rfl⟩ : ∃ d, k = k0 + d := ⟨k - k0, by omega⟩
      clear h1
      induction d using Nat.strongRecOn with
      | _ d ih =>
        by_cases hlt : ∃ d', d' < d ∧ who (k0 + d') = i
        · obtain ⟨d', h1, h3⟩ := hlt
          exact ih d' h1 h3
        · exact ⟨d, h2, fun d' h1 h3 => hlt ⟨d', h1, h3⟩⟩
    refine ⟨k0 + d, by omega, hd, hstay k0 d fun k h1 h2 => ?_⟩
    have := hmin (k - k0) (by omega)
    rwa [show k0 + (k - k0) = k by omega] at this
  have key : ∀ (p : Prog Reply) k0 rs call, N ≤ k0 → (run k0).workers i = ⟨rs, some (call, p)⟩ → False := by
    intro p
    have hgo : ∀ k0 rs call (p : Prog Reply), N ≤ k0 → (run k0).workers i = ⟨rs, some (call, p)⟩ →
        ∃ k1 a p' w w', N ≤ k1 + 1 ∧ p.Step w a p' w' ∧ (run (k1 + 1)).workers i = ⟨rs, some (call, p')⟩ := by
      intro k0 rs call p hk hp
      obtain ⟨k1, h1, h2, h3⟩ := hnext k0
      rw [hp] at h3
      have hs := h k1
      rw [h2] at hs
      rcases step_in hs h3 with ⟨r, hr⟩ | ⟨a, p', w, _, h4, h5⟩
      · exact absurd hr (hno k1 (by omega) h2 call r)
      · exact ⟨k1, a, p', _, w, by omega, h4, h5⟩
    induction p with
    | ret r =>
      intro k0 rs call hk hp
      obtain ⟨k1, a, p', w, w', _, hs, _⟩ := hgo k0 rs call _ hk hp
      exact no_step_ret hs
    | read l k ih =>
      intro k0 rs call hk hp
      obtain ⟨k1, a, p', w, w', h1, hs, h2⟩ := hgo k0 rs call _ hk hp
      cases hs with
      | read => exact ih _ _ rs call h1 h2
    | write l c k ih =>
      intro k0 rs call hk hp
      obtain ⟨k1, a, p', w, w', h1, hs, h2⟩ := hgo k0 rs call _ hk hp
      cases hs with
      | write => exact ih _ rs call h1 h2
    | alloc c k ih =>
      intro k0 rs call hk hp
      obtain ⟨k1, a, p', w, w', h1, hs, h2⟩ := hgo k0 rs call _ hk hp
      cases hs with
      | alloc _ => exact ih _ _ rs call h1 h2
    | order ks k ih =>
      intro k0 rs call hk hp
      obtain ⟨k1, a, p', w, w', h1, hs, h2⟩ := hgo k0 rs call _ hk hp
      cases hs with
      | order _ => exact ih _ _ rs call h1 h2
  obtain ⟨k1, h1, h2, _⟩ := hnext N
  rcases hx : (run k1).workers i with ⟨rs, now⟩
  cases now with
  | some x => exact key x.2 k1 rs x.1 h1 hx
  | none =>
    have hs := h k1
    rw [h2] at hs
    obtain ⟨rs', call, p, h3⟩ := step_out hs (by rw [hx])
    exact key p (k1 + 1) rs' call (by omega) h3

/-- **C73** With finitely many goroutines, an infinite schedule completes infinitely many calls. -/
theorem C73_no_livelock (all : List ι) (hall : ∀ i, i ∈ all) {run : Nat → LConf ι} {who : Nat → ι} {ev : Nat → Ev}
    (h : ∀ k, LConf.Step sorter fuel next (who k) (run k) (ev k) (run (k + 1))) : ∀ N, ∃ k, N ≤ k ∧ ∃ call r, ev k = .done call r := by
  intro N
  have : ∃ i, ∀ N, ∃ k, N ≤ k ∧ who k = i := by
    apply Classical.byContradiction
    intro hno
    have hfin : ∀ i, ∃ M, ∀ k, M ≤ k → who k ≠ i := by
      intro i
      apply Classical.byContradiction
      intro hi
      exact hno ⟨i, fun N => Classical.byContradiction fun hN => hi ⟨N, fun k h1 h2 => hN ⟨k, h1, h2⟩⟩⟩
    have : ∀ l : List ι, ∃ N, ∀ k, N ≤ k → who k ∉ l := by
      intro l
      induction l with
      | nil => exact ⟨0, fun _ _ h => nomatch h⟩
      | cons i l ih =>
        obtain ⟨N, hN⟩ := ih
        obtain ⟨M, hM⟩ := hfin i
        refine ⟨max N M, fun k hk hm => ?_⟩
        rcases List.mem_cons.1 hm with hm | hm
        · exact hM k (by omega) hm
        · exact hN k (by omega) hm
    obtain ⟨M, hM⟩ := this all
    exact hM M (Nat.le_refl M) (hall _)
  obtain ⟨i, hi⟩ := this
  obtain ⟨k, h1, _, h2⟩ := C73_calls_end h i hi N
  exact ⟨k, h1, h2⟩

end

/-! ### an example -/

/-- Two goroutines that share the graph of `heapActs`: one adds a node and prints the graph; the other one asks whether the node is there, and only if so removes it. -/
def lockNext (b : Bool) (rs : List Reply) : Option LCall :=
  if b then match rs with
    | [] => some (.change 0 (.addNode (b!"G") (b!"c") (some 0)))
    | [_] => some (.ask false 0 .string)
    | _ => none
  else match rs with
    | [] => some (.ask false 0 (.isNode (b!"c")))
    | [.out (.bool true)] => some (.change 0 (.removeNode (b!"G") (b!"c")))
    | _ => none

theorem lock_sensible : ∀ b rs call, lockNext b rs = some call → SensibleCall (start.run heapActs) call := by
  intro b rs call h
  have hl : (start.run heapActs).graphs.length = 2 := by decide +kernel
  have ha : (start.run heapActs).args.length = 1 := by decide +kernel
  unfold lockNext at h
  split at h
  · split at h <;> cases h
    · simp [SensibleCall, hl, ha, Change.arg]
    · simp [SensibleCall, hl]
  · split at h <;> cases h
    · simp [SensibleCall, hl]
    · simp [SensibleCall, hl, Change.arg]

/-- The first adds its node; while it prints the graph, the other one finds the node, and removes it when the printing is done. -/
def lockSchedule : List (Bool × Nat) :=
  ((List.replicate 37 true ++ List.replicate 2 false ++ List.replicate 70 true ++ List.replicate 1 false ++ List.replicate 2 true ++ List.replicate 16 false)).zipIdx 100

/-- What `String` returns. -/
def lockText : Str := b!"graph G {\n\ta->b [ color=blue ];\n\tsubgraph cluster1 {\n\t\ta [ color=blue, label=x ];\n\t};\n\tb [ color=blue ];\n\tc [ color=blue ];\n}\n"

/-- The calls that are done, as the theorem says. -/
def lockDone : List (Bool × LCall × Reply) → Bool
  | [(true, .change 0 (.addNode _ _ _), .error none), (false, .ask false 0 (.isNode _), .out (.bool true)), (true, .ask false 0 .string, .out (.text t)),
      (false, .change 0 (.removeNode _ _), .error none)] => t == lockText
  | _ => false

theorem lock_played : (match (ready (start.run heapActs)).play insertionSorter 9 lockNext [] lockSchedule with
    | some (tr, c) => lockDone (done tr) && (c.workers true).now.isNone && (c.workers false).now.isNone && (match c.lock with | .shared [] => true | _ => false) &&
      (contentsIn c.mem 0).any (fun x => x.nodes.map (·.name) == [b!"a", b!"b"])
    | none => false) = true := by
  decide +kernel

/-- The hypotheses are met, and this can happen. -/
theorem example_locked : Sorts insertionSorter ∧ Reached (start.run heapActs) ∧ (∀ b rs call, lockNext b rs = some call → SensibleCall (start.run heapActs) call) ∧
    ∃ tr c x, (ready (start.run heapActs)).Reach insertionSorter 9 lockNext tr c ∧ lockDone (done tr) = true ∧ NoWriter c ∧ contentsIn c.mem 0 = some x ∧
      x.nodes.map (·.name) = [b!"a", b!"b"] := by
  refine ⟨insertionSorter_sorts, heapActs_reached, lock_sensible, ?_⟩
  have h := lock_played
  split at h
  · rename_i tr c hp
    simp only [Bool.and_eq_true] at h
    obtain ⟨⟨⟨⟨h1, _⟩, _⟩, h4⟩, h5⟩ := h
    cases hx : contentsIn c.mem 0 with
    | none => rw [hx] at h5; cases h5
    | some x =>
      rw [hx] at h5
      refine ⟨tr, c, x, LConf.play_reach _ .refl hp, h1, ?_, hx, by simpa using h5⟩
      intro i hl
      rw [hl] at h4
      cases h4
  · cases h

/-! ### without the lock -/

/-- Two goroutines add a node each to the same graph, without a lock. -/
def noLock : Conf Bool Reply := ⟨fun b => (LCall.change 0 (.addNode (b!"G") (if b then b!"c" else b!"d") none)).prog insertionSorter 9, worldOf (start.run heapActs)⟩

/-- Taking turns. -/
def noLockSchedule : List (Bool × Nat) := ((List.replicate 10 [true, false]).flatten).zipIdx 100

theorem noLock_played : (match noLock.play noLockSchedule with
    | some (tr, c) => (match c.procs true, c.procs false with | .ret (.ok (.error none)), .ret (.ok (.error none)) => true | _, _ => false) &&
      (contentsIn c.mem 0).any (fun x => x.nodes.map (·.name) == [b!"a", b!"b", b!"d"]) &&
      tr.any (fun x => tr.any fun y => x.1 && !y.1 && (touched x.2 == some (.graph 0)) && (touched y.2 == some (.graph 0)) && changes x.2)
    | none => false) = true := by
  decide +kernel

/-- **C73** The lock is needed: of two nodes that two goroutines add without it, one can get lost although both calls report success (and there is a data race). -/
theorem C73_lock_needed : ∃ tr c x, noLock.Reach tr c ∧ (∀ b, c.procs b = .ret (.ok (.error none))) ∧ contentsIn c.mem 0 = some x ∧
    x.nodes.map (·.name) = [b!"a", b!"b", b!"d"] ∧ ¬ RaceFree tr := by
  have h := noLock_played
  split at h
  · rename_i tr c hp
    simp only [Bool.and_eq_true] at h
    obtain ⟨⟨h1, h2⟩, h3⟩ := h
    cases hx : contentsIn c.mem 0 with
    | none => rw [hx] at h2; cases h2
    | some x =>
      rw [hx] at h2
      refine ⟨tr, c, x, Conf.play_reach _ hp, ?_, hx, by simpa using h2, ?_⟩
      · split at h1
        · rename_i e1 e2
          intro b
          cases b
          · exact e2
          · exact e1
        · cases h1
      · intro hrf
        obtain ⟨x, hx, h3⟩ := List.any_eq_true.1 h3
        obtain ⟨y, hy, h3⟩ := List.any_eq_true.1 h3
        simp only [Bool.and_eq_true, Bool.not_eq_true', beq_iff_eq] at h3
        obtain ⟨⟨⟨⟨a1, a2⟩, a3⟩, a4⟩, a5⟩ := h3
        exact hrf x hx y hy (by rw [a1, a2]; decide) ⟨_, a3, a4, .inl a5⟩
  · cases h

end Gographviz.Props
