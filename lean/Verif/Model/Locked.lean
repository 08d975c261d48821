import Verif.Model.GraphMem
/-!
Goroutines that share graphs and guard every call with one lock, a `sync.Mutex` or a `sync.RWMutex`. The methods are those of `Model/WriteMem.lean` and
`Model/GraphMem.lean`, access by access; the lock is the caller's. Nothing in this file models code of /repo: it is the program that uses the package.

Simplifications: the lock may be given to anybody who waits for it (a real `RWMutex` prefers writers, which gives fewer schedules); what goroutines do outside the
lock does not touch the graphs.
-/
namespace Gographviz.Threads

open Gographviz Gographviz.Heap

/-- What a goroutine does while it has the lock. -/
inductive LCall where
  /-- `mu.Lock(); g.Method(...); mu.Unlock()`: a method that changes graph number `n` -/
  | change (n : Nat) (c : Change)
  /-- a method that reads graph number `n`, with `mu.Lock()` (`excl`) or with `mu.RLock()` -/
  | ask (excl : Bool) (n : Nat) (q : Query)

/-- It needs the lock for itself. -/
def LCall.excl : LCall → Bool
  | .change _ _ => true
  | .ask e _ _ => e

/-- The call itself. -/
def LCall.prog (sorter : Nat → SortTree) (fuel : Nat) : LCall → Prog Reply
  | .change n c => do
    let e ← c.prog n
    .pure (.error e)
  | .ask _ n q => (q.prog sorter fuel n).reply

/-- A goroutine: the replies it got so far, and the call in which it is now. -/
structure Worker where
  replies : List Reply
  now : Option (LCall × Prog Reply)

/-- The lock. -/
inductive Lock (ι : Type) where
  /-- one goroutine has it for itself -/
  | held (i : ι)
  /-- these read (nobody: the lock is free) -/
  | shared (rs : List ι)

/-- Everything. -/
structure LConf (ι : Type) where
  workers : ι → Worker
  lock : Lock ι
  mem : World

/-- What is recorded. -/
inductive Ev where
  /-- `Lock` or `RLock` returns, and the call begins -/
  | begin (call : LCall)
  /-- an access to memory -/
  | acc (a : Acc)
  /-- the call has returned, and the goroutine gives the lock back -/
  | done (call : LCall) (r : Reply)

variable {ι : Type} [DecidableEq ι]

/-- Another state of goroutine `i`. -/
def LConf.set (c : LConf ι) (i : ι) (w : Worker) : ι → Worker := fun j => if j = i then w else c.workers j

/-- Goroutine `i` goes on. `next i` tells what it calls next, after these replies (`none`: nothing more). -/
inductive LConf.Step (sorter : Nat → SortTree) (fuel : Nat) (next : ι → List Reply → Option LCall) (i : ι) : LConf ι → Ev → LConf ι → Prop where
  | lock {c : LConf ι} {rs : List Reply} {call : LCall} : c.workers i = ⟨rs, none⟩ → next i rs = some call → call.excl = true → c.lock = .shared [] →
      Step sorter fuel next i c (.begin call) ⟨c.set i ⟨rs, some (call, call.prog sorter fuel)⟩, .held i, c.mem⟩
  | rlock {c : LConf ι} {rs : List Reply} {call : LCall} {readers : List ι} : c.workers i = ⟨rs, none⟩ → next i rs = some call → call.excl = false →
      c.lock = .shared readers →
      Step sorter fuel next i c (.begin call) ⟨c.set i ⟨rs, some (call, call.prog sorter fuel)⟩, .shared (i :: readers), c.mem⟩
  | acc {c : LConf ι} {rs : List Reply} {call : LCall} {p p' : Prog Reply} {a : Acc} {w : World} : c.workers i = ⟨rs, some (call, p)⟩ → p.Step c.mem a p' w →
      Step sorter fuel next i c (.acc a) ⟨c.set i ⟨rs, some (call, p')⟩, c.lock, w⟩
  | unlock {c : LConf ι} {rs : List Reply} {call : LCall} {r : Reply} : c.workers i = ⟨rs, some (call, .ret (.ok r))⟩ → c.lock = .held i →
      Step sorter fuel next i c (.done call r) ⟨c.set i ⟨rs ++ [r], none⟩, .shared [], c.mem⟩
  | runlock {c : LConf ι} {rs : List Reply} {call : LCall} {r : Reply} {readers : List ι} : c.workers i = ⟨rs, some (call, .ret (.ok r))⟩ → c.lock = .shared readers →
      Step sorter fuel next i c (.done call r) ⟨c.set i ⟨rs ++ [r], none⟩, .shared (readers.erase i), c.mem⟩

/-- What can be reached from `c`, in any schedule, with what happened, in order. -/
inductive LConf.Reach (sorter : Nat → SortTree) (fuel : Nat) (next : ι → List Reply → Option LCall) (c : LConf ι) : List (ι × Ev) → LConf ι → Prop where
  | refl : Reach sorter fuel next c [] c
  | step {tr : List (ι × Ev)} {c' c'' : LConf ι} {i : ι} {e : Ev} : Reach sorter fuel next c tr c' → LConf.Step sorter fuel next i c' e c'' →
      Reach sorter fuel next c (tr ++ [(i, e)]) c''

end Gographviz.Threads
