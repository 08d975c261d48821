import Verif.Proofs.Locked
import Verif.Props.OwnGraphsProps
/-!
The invariant of goroutines that share graphs under a lock.
-/
namespace Gographviz.Threads

open Gographviz Gographviz.Heap Gographviz.Spec Gographviz.Spec.Sharing Gographviz.Spec.OwnGraphs Gographviz.Spec.Locked

variable {ι : Type}

/-! ### traces -/

theorem snoc_split {γ : Type} {tr u v : List γ} {x y : γ} (h : tr ++ [x] = u ++ y :: v) : (v = [] ∧ u = tr ∧ y = x) ∨ ∃ v', v = v' ++ [x] ∧ tr = u ++ y :: v' := by
  rcases List.eq_nil_or_concat v with rfl | ⟨v', z, rfl⟩
  · left
    obtain ⟨h1, h2⟩ := List.append_inj' h rfl
    simp only [List.cons.injEq, and_true] at h2
    exact ⟨rfl, h1.symm, h2.symm⟩
  · right
    rw [List.concat_eq_append, ← List.cons_append, ← List.append_assoc] at h
    obtain ⟨h1, h2⟩ := List.append_inj' h rfl
    simp only [List.cons.injEq, and_true] at h2
    exact ⟨v', by rw [List.concat_eq_append, h2], h1⟩

theorem done_append (tr tr' : List (ι × Ev)) : done (tr ++ tr') = done tr ++ done tr' := by
  induction tr with
  | nil => rfl
  | cons x tr ih =>
    obtain ⟨i, e⟩ := x
    cases e <;> simp [done, ih]

theorem doneBy_append [DecidableEq ι] (i : ι) (tr tr' : List (ι × Ev)) : doneBy i (tr ++ tr') = doneBy i tr ++ doneBy i tr' := by
  simp [doneBy, done_append]

theorem Plays.snoc {next : List Reply → Option LCall} {l : List (LCall × Reply)} {x : LCall × Reply} (h : Plays next l) (hx : next (l.map (·.2)) = some x.1) : Plays next (l ++ [x]) := by
  intro pre y post he
  rcases snoc_split he with ⟨_, rfl, rfl⟩ | ⟨v', rfl, h2⟩
  · exact hx
  · exact h pre y v' h2

/-- Every access is in a call that has ended, unless the goroutine is still `inside`. -/
def Ended (tr : List (ι × Ev)) (inside : ι → Prop) : Prop :=
  ∀ u v i a, tr = u ++ (i, .acc a) :: v → (∃ call r, (i, .done call r) ∈ v) ∨ inside i

theorem Ended.snoc {tr : List (ι × Ev)} {P P' : ι → Prop} {i : ι} {e : Ev} (h : Ended tr P) (h1 : ∀ a, e = .acc a → P' i)
    (h2 : ∀ j, P j → P' j ∨ ∃ call r, e = .done call r ∧ j = i) : Ended (tr ++ [(i, e)]) P' := by
  intro u v j a he
  rcases snoc_split he with ⟨rfl, rfl, hx⟩ | ⟨v', rfl, h3⟩
  · cases hx
    exact .inr (h1 a rfl)
  · rcases h u v' j a h3 with ⟨call, r, hd⟩ | hp
    · exact .inl ⟨call, r, List.mem_append_left _ hd⟩
    · rcases h2 j hp with hp | ⟨call, r, rfl, rfl⟩
      · exact .inr hp
      · exact .inl ⟨call, r, by simp⟩

theorem Ordered.snoc {tr : List (ι × Ev)} {j : ι} {e : Ev} (h : Ordered tr)
    (hn : ∀ b, e = .acc b → ∀ u v i a, tr = u ++ (i, .acc a) :: v → i ≠ j → Conflict a b → ∃ v1 v2 v3 call r call', v = v1 ++ (i, .done call r) :: v2 ++ (j, .begin call') :: v3) :
    Ordered (tr ++ [(j, e)]) := by
  intro u v w i k a b he hik hc
  rcases snoc_split he with ⟨rfl, h1, h2⟩ | ⟨w', rfl, h2⟩
  · cases h2
    exact hn b rfl u v i a h1.symm hik hc
  · exact h u v w' i k a b h2 hik hc

/-- The lock lies between what happened before the present phase and now. -/
theorem between_phases {tr0 tr' u v : List (ι × Ev)} {i j : ι} {a : Acc} (h0 : Ended tr0 fun _ => False) (hb : ∃ call, (j, Ev.begin call) ∈ tr')
    (he : tr0 ++ tr' = u ++ (i, .acc a) :: v) (hn : ¬ (i, Ev.acc a) ∈ tr') : ∃ v1 v2 v3 call r call', v = v1 ++ (i, .done call r) :: v2 ++ (j, .begin call') :: v3 := by
  have key : ∃ v0, tr0 = u ++ (i, .acc a) :: v0 ∧ v = v0 ++ tr' := by
    rcases List.append_eq_append_iff.1 he with ⟨x, h1, h2⟩ | ⟨x, h1, h2⟩
    · exact absurd (by rw [h2]; simp) hn
    · cases x with
      | nil => exact absurd (by rw [List.nil_append] at h2; rw [← h2]; simp) hn
      | cons y x =>
        simp only [List.cons_append, List.cons.injEq] at h2
        obtain ⟨rfl, rfl⟩ := h2
        exact ⟨x, h1, rfl⟩
  obtain ⟨v0, h1, rfl⟩ := key
  rcases h0 u v0 i a h1 with ⟨call, r, hd⟩ | hf
  · obtain ⟨call', hb⟩ := hb
    obtain ⟨v1, v2, rfl⟩ := List.append_of_mem hd
    obtain ⟨s, t, rfl⟩ := List.append_of_mem hb
    exact ⟨v1, v2 ++ s, t, call, r, call', by simp⟩
  · exact hf.elim

/-! ### the invariant -/

variable [DecidableEq ι]

/-- Goroutine `i` is in a call. -/
def Inside (c : LConf ι) (i : ι) : Prop := ∃ x, (c.workers i).now = some x

/-- Who has the lock, and what they do; `tr'` is what happened since the lock last changed between reading and writing, `own` tells to whom new objects belong. -/
def LockState (S0 : State) (sorter : Nat → SortTree) (fuel : Nat) (σ : State) (ν : Places) (c : LConf ι) (own : Threads.Loc → Option ι) (tr' : List (ι × Ev)) : Prop :=
  match c.lock with
  | .held i => (∃ call p, (c.workers i).now = some (call, p) ∧ Safe i p (ExclPost i S0 ν (sortOf sorter) fuel σ call) ⟨c.mem, own⟩) ∧
      (∀ j, j ≠ i → (c.workers j).now = none) ∧ ∀ j a, (j, .acc a) ∈ tr' → j = i
  | .shared rs => (∀ i, i ∈ rs ↔ Inside c i) ∧ rs.Nodup ∧
      (∃ W, At S0 ν σ W ∧ Sh W ⟨c.mem, own⟩ ∧ ∀ i call p, (c.workers i).now = some (call, p) → ∃ n q, call = .ask false n q ∧
        Safe i p (fun r s' => Sh W s' ∧ Answer ν (sortOf sorter) fuel σ n q r) ⟨c.mem, own⟩) ∧
      ∀ j a, (j, .acc a) ∈ tr' → Acc.ok ⟨c.mem, own⟩ j a

/-- The invariant. -/
structure LockInv (S0 : State) (sorter : Nat → SortTree) (fuel : Nat) (next : ι → List Reply → Option LCall) (tr : List (ι × Ev)) (c : LConf ι) : Prop where
  seq : ∃ σ ν tr0 tr' own, OneByOne ν (sortOf sorter) fuel S0 ((done tr).map (·.2)) σ ∧ (∀ n, ν.graph n = n) ∧ tr = tr0 ++ tr' ∧ Ended tr0 (fun _ => False) ∧
    (∀ j, Inside c j → ∃ call, (j, .begin call) ∈ tr') ∧ LockState S0 sorter fuel σ ν c own tr'
  fin : Finite c.mem
  ended : Ended tr (Inside c)
  ordered : Ordered tr
  work : ∀ i, (c.workers i).replies = (doneBy i tr).map (·.2) ∧ Plays (next i) (doneBy i tr) ∧
    ∀ call p, (c.workers i).now = some (call, p) → next i (c.workers i).replies = some call

theorem set_self (c : LConf ι) (i : ι) (w : Worker) : c.set i w i = w := by simp [LConf.set]

theorem set_other (c : LConf ι) {i j : ι} (w : Worker) (h : j ≠ i) : c.set i w j = c.workers j := by simp [LConf.set, h]

theorem lock_start {S0 : State} (h : Reached S0) (hfin : Finite (worldOf S0)) (sorter : Nat → SortTree) (fuel : Nat) (next : ι → List Reply → Option LCall) :
    LockInv S0 sorter fuel next [] (ready S0) := by
  have hno : ∀ j : ι, ¬ Inside (ready S0) j := by
    rintro j ⟨x, hx⟩
    cases hx
  refine ⟨⟨S0, .same, [], [], fun _ => none, .nothing, fun _ => rfl, rfl, ?_, fun j hj => absurd hj (hno j), ?_⟩, hfin, ?_, ?_, fun i => ⟨rfl, ?_, ?_⟩⟩
  · intro u v i a he
    simp at he
  · refine ⟨fun i => ⟨(fun hi => nomatch hi), fun hi => absurd hi (hno i)⟩, List.nodup_nil, ⟨worldOf S0, at_start h, fun l v hl => ⟨hl, rfl⟩, ?_⟩, fun _ _ hx => nomatch hx⟩
    intro i call p hx
    cases hx
  · intro u v i a he
    simp at he
  · intro u v w i j a b he
    simp at he
  · intro pre x post he
    simp [doneBy, done] at he
  · intro call p hx
    cases hx

section
variable {S0 : State} {sorter : Nat → SortTree} {fuel : Nat} {next : ι → List Reply → Option LCall} {tr : List (ι × Ev)} {c : LConf ι}

theorem doneBy_other {i : ι} {j : ι} {e : Ev} (h : ∀ call r, e = .done call r → j ≠ i) : doneBy j [(i, e)] = [] := by
  cases e with
  | begin call => rfl
  | acc a => rfl
  | done call r => simp [doneBy, done, Ne.symm (h call r rfl)]

/-- The goroutine begins a call. -/
theorem work_begin (h : ∀ i, (c.workers i).replies = (doneBy i tr).map (·.2) ∧ Plays (next i) (doneBy i tr) ∧
      ∀ call p, (c.workers i).now = some (call, p) → next i (c.workers i).replies = some call) {i : ι} {rs : List Reply} {call : LCall} {p : Prog Reply}
    (hi : (c.workers i).replies = rs) (hn : next i rs = some call) {e : Ev} (he : ∀ call r, e ≠ .done call r) (j : ι) :
    (c.set i ⟨rs, some (call, p)⟩ j).replies = (doneBy j (tr ++ [(i, e)])).map (·.2) ∧ Plays (next j) (doneBy j (tr ++ [(i, e)])) ∧
      ∀ call' p', (c.set i ⟨rs, some (call, p)⟩ j).now = some (call', p') → next j (c.set i ⟨rs, some (call, p)⟩ j).replies = some call' := by
  rw [doneBy_append, doneBy_other (fun call r hx => absurd hx (he call r)), List.append_nil]
  by_cases hj : j = i
  · subst hj
    rw [set_self]
    refine ⟨by rw [← (h j).1, hi], (h j).2.1, ?_⟩
    intro call' p' hx
    cases hx
    exact hn
  · rw [set_other c _ hj]
    exact h j

/-- The goroutine ends a call. -/
theorem work_done (h : ∀ i, (c.workers i).replies = (doneBy i tr).map (·.2) ∧ Plays (next i) (doneBy i tr) ∧
      ∀ call p, (c.workers i).now = some (call, p) → next i (c.workers i).replies = some call) {i : ι} {rs : List Reply} {call : LCall} {p : Prog Reply} {r : Reply}
    (hi : c.workers i = ⟨rs, some (call, p)⟩) (j : ι) :
    (c.set i ⟨rs ++ [r], none⟩ j).replies = (doneBy j (tr ++ [(i, .done call r)])).map (·.2) ∧ Plays (next j) (doneBy j (tr ++ [(i, .done call r)])) ∧
      ∀ call' p', (c.set i ⟨rs ++ [r], none⟩ j).now = some (call', p') → next j (c.set i ⟨rs ++ [r], none⟩ j).replies = some call' := by
  rw [doneBy_append]
  by_cases hj : j = i
  · subst hj
    obtain ⟨h1, h2, h3⟩ := h j
    have h4 := h3 call p (by rw [hi])
    rw [h1] at h4
    have e : doneBy j [(j, Ev.done call r)] = [(call, r)] := by simp [doneBy, done]
    rw [set_self, e]
    refine ⟨?_, Plays.snoc h2 h4, fun _ _ hx => nomatch hx⟩
    rw [List.map_append, ← h1, hi]
    rfl
  · rw [set_other c _ hj, doneBy_other (fun _ _ _ => hj), List.append_nil]
    exact h j

theorem inside_other {i j : ι} {w : Worker} {l : Lock ι} {m : World} (h : j ≠ i) : Inside (⟨c.set i w, l, m⟩ : LConf ι) j ↔ Inside c j := by
  unfold Inside
  dsimp only
  rw [set_other c _ h]

theorem inside_self {i : ι} {rs : List Reply} {x : LCall × Prog Reply} {l : Lock ι} {m : World} : Inside (⟨c.set i ⟨rs, some x⟩, l, m⟩ : LConf ι) i :=
  ⟨x, by dsimp only; rw [set_self]⟩

theorem outside_self {i : ι} {rs : List Reply} {l : Lock ι} {m : World} : ¬ Inside (⟨c.set i ⟨rs, none⟩, l, m⟩ : LConf ι) i := by
  rintro ⟨x, hx⟩
  dsimp only at hx
  rw [set_self] at hx
  cases hx

/-- Beginning with the lock for oneself. -/
theorem LockInv.lock (hS : Reached S0) (hsort : Sorts sorter) (hsens : ∀ i rs call, next i rs = some call → SensibleCall S0 call) (h : LockInv S0 sorter fuel next tr c)
    {i : ι} {rs : List Reply} {call : LCall} (hi : c.workers i = ⟨rs, none⟩) (hn : next i rs = some call) (hl : c.lock = .shared []) :
    LockInv S0 sorter fuel next (tr ++ [(i, .begin call)]) ⟨c.set i ⟨rs, some (call, call.prog sorter fuel)⟩, .held i, c.mem⟩ := by
  obtain ⟨σ, ν, tr0, tr', own, h1, h2, h3, h4, h5, h6⟩ := h.seq
  unfold LockState at h6
  rw [hl] at h6
  obtain ⟨k1, _, ⟨W, k2, k3, _⟩, _⟩ := h6
  have hout : ∀ j, ¬ Inside c j := fun j hj => by cases (k1 j).2 hj
  have hnone : ∀ j, (c.workers j).now = none := fun j => by
    cases hx : (c.workers j).now with
    | none => rfl
    | some x => exact absurd ⟨x, hx⟩ (hout j)
  obtain ⟨acts, g1, g2, g3, g4, g5, _⟩ := h1.history
  refine ⟨⟨σ, ν, tr, [(i, .begin call)], ownAll i, ?_, h2, rfl, ?_, ?_, ?_⟩, h.fin, ?_, ?_, work_begin h.work (by rw [hi]) hn (fun _ _ hx => nomatch hx)⟩
  · rw [done_append]; simpa [done] using h1
  · intro u v j a he
    exact (h.ended u v j a he).imp id (hout j)
  · intro j hj
    by_cases e : j = i
    · subst e; exact ⟨call, by simp⟩
    · exact absurd ((inside_other e).1 hj) (hout j)
  · refine ⟨⟨call, _, by dsimp only; rw [set_self], ?_⟩, fun j hj => by dsimp only; rw [set_other c _ hj]; exact hnone j, fun j a hx => by simp at hx⟩
    exact excl_safe (h1.reached hS) g4 g5 h2 hS.args_wf hsort fuel (hsens i rs call hn) ((k2.mono fun l v hv => (k3 l v hv).1).take i)
  · exact Ended.snoc h.ended (fun _ hx => nomatch hx) fun j hj => absurd hj (hout j)
  · exact Ordered.snoc h.ordered fun _ hx => nomatch hx

/-- Beginning to read. -/
theorem LockInv.rlock (hS : Reached S0) (hsort : Sorts sorter) (hsens : ∀ i rs call, next i rs = some call → SensibleCall S0 call) (h : LockInv S0 sorter fuel next tr c)
    {i : ι} {rs : List Reply} {call : LCall} {readers : List ι} (hi : c.workers i = ⟨rs, none⟩) (hn : next i rs = some call) (hc : call.excl = false)
    (hl : c.lock = .shared readers) :
    LockInv S0 sorter fuel next (tr ++ [(i, .begin call)]) ⟨c.set i ⟨rs, some (call, call.prog sorter fuel)⟩, .shared (i :: readers), c.mem⟩ := by
  obtain ⟨σ, ν, tr0, tr', own, h1, h2, h3, h4, h5, h6⟩ := h.seq
  unfold LockState at h6
  rw [hl] at h6
  obtain ⟨k1, k0, ⟨W, k2, k3, k4⟩, k5⟩ := h6
  have hout : ¬ Inside c i := by
    rintro ⟨x, hx⟩
    rw [hi] at hx; cases hx
  obtain ⟨acts, g1, g2, g3, g4, g5, _⟩ := h1.history
  have hin : ∀ j, Inside c j → Inside (⟨c.set i ⟨rs, some (call, call.prog sorter fuel)⟩, .shared (i :: readers), c.mem⟩ : LConf ι) j := fun j hj => by
    by_cases e : j = i
    · subst e; exact inside_self
    · exact (inside_other e).2 hj
  refine ⟨⟨σ, ν, tr0, tr' ++ [(i, .begin call)], own, ?_, h2, by rw [h3, List.append_assoc], h4, ?_, ?_⟩, h.fin, ?_, ?_, work_begin h.work (by rw [hi]) hn (fun _ _ hx => nomatch hx)⟩
  · rw [done_append]; simpa [done] using h1
  · intro j hj
    by_cases e : j = i
    · subst e; exact ⟨call, by simp⟩
    · obtain ⟨x, hx⟩ := h5 j ((inside_other e).1 hj)
      exact ⟨x, List.mem_append_left _ hx⟩
  · refine ⟨fun j => ?_, List.nodup_cons.2 ⟨fun hx => hout ((k1 i).1 hx), k0⟩, ⟨W, k2, k3, ?_⟩, ?_⟩
    · by_cases e : j = i
      · subst e; exact ⟨fun _ => inside_self, fun _ => List.mem_cons_self ..⟩
      · rw [inside_other e, ← k1 j]
        simp [e]
    · intro j call' p hx
      by_cases e : j = i
      · subst e
        dsimp only at hx
        rw [set_self] at hx
        cases hx
        have hse := hsens j rs call hn
        cases call with
        | change n c => cases hc
        | ask ex n q =>
          cases hc
          exact ⟨n, q, rfl, shared_safe (h1.reached hS) g5 h2 hsort fuel hse k2 k3⟩
      · dsimp only at hx
        rw [set_other c _ e] at hx
        exact k4 j call' p hx
    · intro j a hx
      rcases List.mem_append.1 hx with hx | hx
      · exact k5 j a hx
      · simp at hx
  · exact Ended.snoc h.ended (fun _ hx => nomatch hx) fun j hj => .inl (hin j hj)
  · exact Ordered.snoc h.ordered fun _ hx => nomatch hx

theorem older_sh {W : World} {s s' : GS ι} (h : Sh W s) (ho : Older s s') : Sh W s' := by
  intro l v hl
  obtain ⟨h1, h2⟩ := h l v hl
  obtain ⟨_, h3, h4⟩ := ho l v h1
  exact ⟨h4 h2, h3.trans h2⟩

/-- The accesses in one phase do not conflict, if each goroutine keeps to what is its own or nobody's. -/
theorem ok_conflict {own : Threads.Loc → Option ι} {w : World} {i j : ι} {a b : Acc} (ha : Acc.ok ⟨w, own⟩ i a) (hb : Acc.ok ⟨w, own⟩ j b) (hij : i ≠ j) : ¬ Conflict a b := by
  have := Props.raceFree_of_ok (tr := [(i, a), (j, b)]) (own := own) (w := w) (by
    intro x hx
    simp only [List.mem_cons, List.not_mem_nil, or_false] at hx
    rcases hx with rfl | rfl
    · exact ha
    · exact hb)
  exact this (i, a) (by simp) (j, b) (by simp) hij

/-- An access. -/
theorem LockInv.acc (h : LockInv S0 sorter fuel next tr c) {i : ι} {rs : List Reply} {call : LCall} {p p' : Prog Reply} {a : Acc} {w : World}
    (hi : c.workers i = ⟨rs, some (call, p)⟩) (hp : p.Step c.mem a p' w) :
    LockInv S0 sorter fuel next (tr ++ [(i, .acc a)]) ⟨c.set i ⟨rs, some (call, p')⟩, c.lock, w⟩ := by
  obtain ⟨σ, ν, tr0, tr', own, h1, h2, h3, h4, h5, h6⟩ := h.seq
  have hnow : (c.workers i).now = some (call, p) := by rw [hi]
  have hin : ∀ j, Inside (⟨c.set i ⟨rs, some (call, p')⟩, c.lock, w⟩ : LConf ι) j ↔ Inside c j := fun j => by
    by_cases e : j = i
    · subst e; exact ⟨fun _ => ⟨_, hnow⟩, fun _ => inside_self⟩
    · exact inside_other e
  have hdone : OneByOne ν (sortOf sorter) fuel S0 ((done (tr ++ [(i, .acc a)])).map (·.2)) σ := by
    rw [done_append]; simpa [done] using h1
  have hwork := work_begin (p := p') h.work (i := i) (rs := rs) (call := call) (by rw [hi]) (by rw [← (h.work i).2.2 call p hnow, hi]) (e := .acc a) (fun _ _ hx => nomatch hx)
  have hended := Ended.snoc h.ended (P' := Inside (⟨c.set i ⟨rs, some (call, p')⟩, c.lock, w⟩ : LConf ι)) (i := i) (e := .acc a) (fun _ _ => inside_self) fun j hj => .inl ((hin j).2 hj)
  have hbegin : ∀ j, Inside (⟨c.set i ⟨rs, some (call, p')⟩, c.lock, w⟩ : LConf ι) j → ∃ call', (j, Ev.begin call') ∈ tr' ++ [(i, .acc a)] := fun j hj => by
    obtain ⟨x, hx⟩ := h5 j ((hin j).1 hj)
    exact ⟨x, List.mem_append_left _ hx⟩
  unfold LockState at h6
  cases hl : c.lock with
  | held k =>
    rw [hl] at h6
    obtain ⟨⟨call', p0, k1, k2⟩, k3, k4⟩ := h6
    have hk : k = i := Classical.byContradiction fun e => by
      rw [k3 i (fun e' => e e'.symm)] at hnow; cases hnow
    subst hk
    rw [hnow] at k1
    cases k1
    obtain ⟨own', s1, _, s3, _⟩ := step_safe k2 hp
    refine ⟨⟨σ, ν, tr0, tr' ++ [(k, .acc a)], own', hdone, h2, by rw [h3, List.append_assoc], h4, ?_, ?_⟩, h.fin.step hp, ?_, ?_, hwork⟩
    · rw [hl] at hbegin; exact hbegin
    · refine ⟨⟨call, p', by dsimp only; rw [set_self], s1⟩, fun j hj => by dsimp only; rw [set_other c _ hj]; exact k3 j hj, fun j b hx => ?_⟩
      rcases List.mem_append.1 hx with hx | hx
      · exact k4 j b hx
      · simp only [List.mem_singleton, Prod.mk.injEq] at hx
        exact hx.1
    · rw [hl] at hended; exact hended
    · refine Ordered.snoc h.ordered fun b he u v j a' heq hne hc => ?_
      cases he
      exact between_phases h4 (h5 k ⟨_, hnow⟩) (h3 ▸ heq) fun hx => hne (k4 j a' hx)
  | shared readers =>
    rw [hl] at h6
    obtain ⟨k1, k0, ⟨W, k2, k3, k4⟩, k5⟩ := h6
    obtain ⟨n, q, hc, hsafe⟩ := k4 i call p hnow
    obtain ⟨own', s1, s2, s3, s4⟩ := step_safe hsafe hp
    refine ⟨⟨σ, ν, tr0, tr' ++ [(i, .acc a)], own', hdone, h2, by rw [h3, List.append_assoc], h4, ?_, ?_⟩, h.fin.step hp, ?_, ?_, hwork⟩
    · rw [hl] at hbegin; exact hbegin
    · refine ⟨fun j => ?_, k0, ⟨W, k2, older_sh k3 s4, ?_⟩, ?_⟩
      · rw [hl] at hin
        exact (k1 j).trans (hin j).symm
      · intro j call' p1 hx
        dsimp only at hx
        by_cases e : j = i
        · subst e
          rw [set_self] at hx
          cases hx
          exact ⟨n, q, hc, s1⟩
        · rw [set_other c _ e] at hx
          obtain ⟨n', q', e1, e2⟩ := k4 j call' p1 hx
          exact ⟨n', q', e1, e2.keep (s2 j e)⟩
      · intro j b hx
        rcases List.mem_append.1 hx with hx | hx
        · exact Acc.ok_older s4 (k5 j b hx)
        · simp only [List.mem_singleton, Prod.mk.injEq, Ev.acc.injEq] at hx
          obtain ⟨rfl, rfl⟩ := hx
          exact s3
    · rw [hl] at hended; exact hended
    · refine Ordered.snoc h.ordered fun b he u v j a' heq hne hcf => ?_
      cases he
      exact between_phases h4 (h5 i ⟨_, hnow⟩) (h3 ▸ heq) fun hx => ok_conflict (Acc.ok_older s4 (k5 j a' hx)) s3 hne hcf

/-- Giving the lock back. -/
theorem LockInv.unlock (hS : Reached S0) (h : LockInv S0 sorter fuel next tr c) {i : ι} {rs : List Reply} {call : LCall} {r : Reply}
    (hi : c.workers i = ⟨rs, some (call, .ret (.ok r))⟩) (hl : c.lock = .held i) :
    LockInv S0 sorter fuel next (tr ++ [(i, .done call r)]) ⟨c.set i ⟨rs ++ [r], none⟩, .shared [], c.mem⟩ := by
  obtain ⟨σ, ν, tr0, tr', own, h1, h2, h3, h4, h5, h6⟩ := h.seq
  unfold LockState at h6
  rw [hl] at h6
  obtain ⟨⟨call', p0, k1, k2⟩, k3, k4⟩ := h6
  rw [hi] at k1
  cases k1
  have hpost : ExclPost i S0 ν (sortOf sorter) fuel σ call (.ok r) ⟨c.mem, own⟩ := k2 _ (Keep.refl i _)
  have hout : ∀ j, ¬ Inside (⟨c.set i ⟨rs ++ [r], none⟩, .shared [], c.mem⟩ : LConf ι) j := fun j => by
    by_cases e : j = i
    · subst e; exact outside_self
    · rw [inside_other e]
      rintro ⟨x, hx⟩
      rw [k3 j e] at hx; cases hx
  have hended : Ended (tr ++ [(i, .done call r)]) (Inside (⟨c.set i ⟨rs ++ [r], none⟩, .shared [], c.mem⟩ : LConf ι)) := by
    refine Ended.snoc h.ended (fun _ hx => nomatch hx) fun j hj => ?_
    by_cases e : j = i
    · exact .inr ⟨call, r, rfl, e⟩
    · exact .inl ((inside_other e).2 hj)
  have hnew : ∃ σ' ν', OneByOne ν' (sortOf sorter) fuel S0 ((done tr).map (·.2) ++ [(call, r)]) σ' ∧ (∀ n, ν'.graph n = n) ∧ At S0 ν' σ' c.mem := by
    cases call with
    | change n ch =>
      obtain ⟨e, he, kvs, order, ν', g1, g2, g3, g4, g5⟩ := hpost
      cases he
      subst g5
      exact ⟨_, ν', .change kvs order (h1.agree hS g2) rfl g1, fun n => by rw [g3]; exact h2 n, St.give g4⟩
    | ask ex n q =>
      obtain ⟨g1, hg, x, g2, g3, g4⟩ := hpost
      exact ⟨σ, ν, .ask h1 g2 g3 g4, h2, St.give g1⟩
  obtain ⟨σ', ν', n1, n2, n3⟩ := hnew
  refine ⟨⟨σ', ν', tr ++ [(i, .done call r)], [], fun _ => none, ?_, n2, by rw [List.append_nil], ?_, fun j hj => absurd hj (hout j), ?_⟩, h.fin, hended, ?_, work_done h.work hi⟩
  · rw [done_append, List.map_append]; exact n1
  · intro u v j a he
    exact (hended u v j a he).imp id (hout j)
  · refine ⟨fun j => ⟨(fun hj => nomatch hj), fun hj => absurd hj (hout j)⟩, List.nodup_nil, ⟨c.mem, n3, fun l v hv => ⟨hv, rfl⟩, ?_⟩, fun _ _ hx => nomatch hx⟩
    intro j call' p hx
    exact absurd ⟨_, hx⟩ (hout j)
  · exact Ordered.snoc h.ordered fun _ hx => nomatch hx

/-- A reader gives the lock back. -/
theorem LockInv.runlock (h : LockInv S0 sorter fuel next tr c) {i : ι} {rs : List Reply} {call : LCall} {r : Reply} {readers : List ι}
    (hi : c.workers i = ⟨rs, some (call, .ret (.ok r))⟩) (hl : c.lock = .shared readers) :
    LockInv S0 sorter fuel next (tr ++ [(i, .done call r)]) ⟨c.set i ⟨rs ++ [r], none⟩, .shared (readers.erase i), c.mem⟩ := by
  obtain ⟨σ, ν, tr0, tr', own, h1, h2, h3, h4, h5, h6⟩ := h.seq
  unfold LockState at h6
  rw [hl] at h6
  obtain ⟨k1, k0, ⟨W, k2, k3, k4⟩, k5⟩ := h6
  obtain ⟨n, q, rfl, hsafe⟩ := k4 i call _ (by rw [hi])
  have hpost : Sh W ⟨c.mem, own⟩ ∧ Answer ν (sortOf sorter) fuel σ n q (.ok r) := hsafe _ (Keep.refl i _)
  obtain ⟨g1, hg, x, g2, g3, g4⟩ := hpost
  refine ⟨⟨σ, ν, tr0, tr' ++ [(i, .done (.ask false n q) r)], own, ?_, h2, by rw [h3, List.append_assoc], h4, ?_, ?_⟩, h.fin, ?_, ?_, work_done h.work hi⟩
  · rw [done_append, List.map_append]; exact .ask h1 g2 g3 g4
  · intro j hj
    by_cases e : j = i
    · subst e; exact absurd hj outside_self
    · obtain ⟨x, hx⟩ := h5 j ((inside_other e).1 hj)
      exact ⟨x, List.mem_append_left _ hx⟩
  · refine ⟨fun j => ?_, k0.erase i, ⟨W, k2, k3, ?_⟩, ?_⟩
    · by_cases e : j = i
      · subst e
        exact ⟨fun hj => absurd hj (List.Nodup.not_mem_erase k0), fun hj => absurd hj outside_self⟩
      · rw [inside_other e, ← k1 j, List.mem_erase_of_ne e]
    · intro j call' p hx
      dsimp only at hx
      by_cases e : j = i
      · subst e
        rw [set_self] at hx; cases hx
      · rw [set_other c _ e] at hx
        exact k4 j call' p hx
    · intro j a hx
      rcases List.mem_append.1 hx with hx | hx
      · exact k5 j a hx
      · simp at hx
  · refine Ended.snoc h.ended (fun _ hx => nomatch hx) fun j hj => ?_
    by_cases e : j = i
    · exact .inr ⟨_, r, rfl, e⟩
    · exact .inl ((inside_other e).2 hj)
  · exact Ordered.snoc h.ordered fun _ hx => nomatch hx

/-- All goroutines together. -/
theorem lock_inv (hS : Reached S0) (hfin : Finite (worldOf S0)) (hsort : Sorts sorter) (hsens : ∀ i rs call, next i rs = some call → SensibleCall S0 call)
    (hr : (ready S0).Reach sorter fuel next tr c) : LockInv S0 sorter fuel next tr c := by
  induction hr with
  | refl => exact lock_start hS hfin sorter fuel next
  | step _ hs ih =>
    cases hs with
    | lock h1 h2 h3 h4 => exact ih.lock hS hsort hsens h1 h2 h4
    | rlock h1 h2 h3 h4 => exact ih.rlock hS hsort hsens h1 h2 h3 h4
    | acc h1 h2 => exact ih.acc h1 h2
    | unlock h1 h2 => exact ih.unlock hS h1 h2
    | runlock h1 h2 => exact ih.runlock h1 h2

end

end Gographviz.Threads
