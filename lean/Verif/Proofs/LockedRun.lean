import Verif.Proofs.LockedInv
/-!
Executable schedules, for examples: `map`s are visited in the order in which they are stored, and new objects get the address that the schedule says.
-/
namespace Gographviz.Threads

open Gographviz Gographviz.Heap

/-- One access, with the address `N` for a new object. -/
def Prog.next {α : Type} (N : Nat) : Prog α → World → Option (Acc × Prog α × World)
  | .ret _, _ => none
  | .read l k, w => some (.read l, k (w l), w)
  | .write l c k, w => some (.write l, k, w.put l c)
  | .alloc c k, w => if (w (c.loc N)).isNone then some (.alloc (c.loc N), k N, w.put (c.loc N) c) else none
  | .order ks k, w => some (.order, k ks, w)

theorem Prog.next_step {α : Type} {N : Nat} {p p' : Prog α} {w w' : World} {a : Acc} (h : p.next N w = some (a, p', w')) : p.Step w a p' w' := by
  cases p with
  | ret r => cases h
  | read l k => cases h; exact .read
  | write l c k => cases h; exact .write
  | alloc c k =>
    simp only [Prog.next] at h
    split at h
    · rename_i he
      cases h
      exact .alloc (Option.isNone_iff_eq_none.1 he)
    · cases h
  | order ks k => cases h; exact .order (List.Perm.refl _)

variable {ι : Type} [DecidableEq ι]

/-- Without a lock: the schedule tells who goes on. -/
def Conf.play {α : Type} (c : Conf ι α) : List (ι × Nat) → Option (List (ι × Acc) × Conf ι α)
  | [] => some ([], c)
  | (i, N) :: s => match (c.procs i).next N c.mem with
    | some (a, p, w) => match (⟨fun j => if j = i then p else c.procs j, w⟩ : Conf ι α).play s with
      | some (tr, c') => some ((i, a) :: tr, c')
      | none => none
    | none => none

theorem Conf.play_reach {α : Type} : ∀ (s : List (ι × Nat)) {c c' : Conf ι α} {tr : List (ι × Acc)}, c.play s = some (tr, c') → c.Reach tr c' := by
  intro s
  induction s with
  | nil =>
    intro c c' tr h
    cases h
    exact .refl
  | cons x s ih =>
    intro c c' tr h
    obtain ⟨i, N⟩ := x
    simp only [Conf.play] at h
    split at h
    · rename_i a p w hp
      split at h
      · rename_i tr' c1 h1
        cases h
        have := Reach.trans (.step .refl (.mk (Prog.next_step hp))) (ih h1)
        exact this
      · cases h
    · cases h

/-- With the lock. -/
def LConf.next (sorter : Nat → SortTree) (fuel : Nat) (strat : ι → List Reply → Option LCall) (i : ι) (N : Nat) (c : LConf ι) : Option (Ev × LConf ι) :=
  match (c.workers i).now with
  | none => match strat i (c.workers i).replies with
    | none => none
    | some call => match c.lock with
      | .held _ => none
      | .shared rs =>
        if call.excl then
          if rs.isEmpty then some (.begin call, ⟨c.set i ⟨(c.workers i).replies, some (call, call.prog sorter fuel)⟩, .held i, c.mem⟩) else none
        else some (.begin call, ⟨c.set i ⟨(c.workers i).replies, some (call, call.prog sorter fuel)⟩, .shared (i :: rs), c.mem⟩)
  | some (call, p) => match p with
    | .ret (.ok r) => match c.lock with
      | .held j => if j = i then some (.done call r, ⟨c.set i ⟨(c.workers i).replies ++ [r], none⟩, .shared [], c.mem⟩) else none
      | .shared rs => some (.done call r, ⟨c.set i ⟨(c.workers i).replies ++ [r], none⟩, .shared (rs.erase i), c.mem⟩)
    | p => match p.next N c.mem with
      | some (a, p', w) => some (.acc a, ⟨c.set i ⟨(c.workers i).replies, some (call, p')⟩, c.lock, w⟩)
      | none => none

theorem LConf.next_step {sorter : Nat → SortTree} {fuel : Nat} {strat : ι → List Reply → Option LCall} {i : ι} {N : Nat} {c c' : LConf ι} {e : Ev}
    (h : c.next sorter fuel strat i N = some (e, c')) : LConf.Step sorter fuel strat i c e c' := by
  have heta : ∀ x, (c.workers i).now = x → c.workers i = ⟨(c.workers i).replies, x⟩ := fun x hx => by subst hx; rfl
  unfold LConf.next at h
  split at h
  · rename_i hw
    split at h
    · cases h
    · rename_i call hs
      split at h
      · cases h
      · rename_i rs hl
        split at h
        · rename_i hx
          split at h
          · rename_i he
            cases h
            have : rs = [] := by simpa using he
            subst this
            exact .lock (heta _ hw) hs hx hl
          · cases h
        · rename_i hx
          cases h
          exact .rlock (heta _ hw) hs (by simpa using hx) hl
  · rename_i call p hw
    split at h
    · rename_i r
      split at h
      · rename_i j hl
        split at h
        · rename_i hj
          cases h
          subst hj
          exact .unlock (heta _ hw) hl
        · cases h
      · rename_i rs hl
        cases h
        exact .runlock (heta _ hw) hl
    · split at h
      · rename_i a p' w hp
        cases h
        exact .acc (heta _ hw) (Prog.next_step hp)
      · cases h

/-- The schedule tells who goes on. -/
def LConf.play (sorter : Nat → SortTree) (fuel : Nat) (strat : ι → List Reply → Option LCall) (tr : List (ι × Ev)) (c : LConf ι) : List (ι × Nat) → Option (List (ι × Ev) × LConf ι)
  | [] => some (tr, c)
  | (i, N) :: s => match c.next sorter fuel strat i N with
    | some (e, c') => c'.play sorter fuel strat (tr ++ [(i, e)]) s
    | none => none

theorem LConf.play_reach {sorter : Nat → SortTree} {fuel : Nat} {strat : ι → List Reply → Option LCall} {c0 : LConf ι} :
    ∀ (s : List (ι × Nat)) {c c' : LConf ι} {tr tr' : List (ι × Ev)}, c0.Reach sorter fuel strat tr c → c.play sorter fuel strat tr s = some (tr', c') → c0.Reach sorter fuel strat tr' c' := by
  intro s
  induction s with
  | nil =>
    intro c c' tr tr' hr h
    cases h
    exact hr
  | cons x s ih =>
    intro c c' tr tr' hr h
    obtain ⟨i, N⟩ := x
    simp only [LConf.play] at h
    split at h
    · rename_i e c1 h1
      exact ih (.step hr (LConf.next_step h1)) h
    · cases h

end Gographviz.Threads
