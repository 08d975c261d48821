import Verif.Model.Locked
import Verif.Spec.OwnGraphs
/-!
What it means that graphs shared under a lock behave as if the calls were made one after the other.
-/
namespace Gographviz.Spec.Locked

open Gographviz Gographviz.Heap Gographviz.Threads Gographviz.Spec Gographviz.Spec.Sharing Gographviz.Spec.OwnGraphs

/-- These calls, one after the other, starting in the state `S0`, get these replies and lead to a state (the model without goroutines, `Model/Heap.lean`, and what
the reading methods return according to the models of graphs as values). -/
inductive OneByOne (ν : Places) (sortE : List Edge → List Edge) (fuel : Nat) (S0 : State) : List (LCall × Reply) → State → Prop where
  | nothing : OneByOne ν sortE fuel S0 [] S0
  | change {log : List (LCall × Reply)} {σ : State} {n : Nat} {c : Change} {a : Act} (kvs : List (Str × Str)) (order : List Str) :
      OneByOne ν sortE fuel S0 log σ → a = .call n (opOf kvs order c) c.arg → a.Ok σ →
      OneByOne ν sortE fuel S0 (log ++ [(.change n c, .error (σ.act a).2)]) (σ.act a).1
  | ask {log : List (LCall × Reply)} {σ : State} {e : Bool} {n : Nat} {q : Query} {h : HGraph} {x : WRes Out} {y : Reply} :
      OneByOne ν sortE fuel S0 log σ → σ.graphs[n]? = some h → Right ν sortE fuel σ.mem h (valueOf σ.mem h) q x → replyOf x = some y →
      OneByOne ν sortE fuel S0 (log ++ [(.ask e n q, y)]) σ

variable {ι : Type}

/-- The calls that are done, with their replies, in the order in which they were done. -/
def done : List (ι × Ev) → List (ι × LCall × Reply)
  | [] => []
  | (i, .done call r) :: tr => (i, call, r) :: done tr
  | _ :: tr => done tr

/-- Those of goroutine `i`. -/
def doneBy [DecidableEq ι] (i : ι) (tr : List (ι × Ev)) : List (LCall × Reply) := ((done tr).filter fun x => x.1 = i).map (·.2)

/-- A goroutine that decides with `next` what to call, depending on the replies, has made these calls. -/
def Plays (next : List Reply → Option LCall) (l : List (LCall × Reply)) : Prop :=
  ∀ pre x post, l = pre ++ x :: post → next (pre.map (·.2)) = some x.1

/-- The calls that change graph `n`. -/
def changesOf (n : Nat) : List (LCall × Reply) → List Change
  | [] => []
  | (.change k c, _) :: l => if k = n then c :: changesOf n l else changesOf n l
  | _ :: l => changesOf n l

/-- The call makes sense: its graph and its map exist. -/
def SensibleCall (S0 : State) : LCall → Prop
  | .change n c => n < S0.graphs.length ∧ ∀ r, c.arg = some r → r < S0.args.length
  | .ask _ n _ => n < S0.graphs.length

/-- Nothing has happened yet. -/
def ready (S0 : State) : LConf ι := ⟨fun _ => ⟨[], none⟩, .shared [], worldOf S0⟩

/-- Nobody has the lock for itself. -/
def NoWriter (c : LConf ι) : Prop := ∀ i, c.lock ≠ .held i

/-- Goroutine `i` is outside and has nothing more to call. -/
def Finished (next : ι → List Reply → Option LCall) (c : LConf ι) (i : ι) : Prop := (c.workers i).now = none ∧ next i (c.workers i).replies = none

/-- Goroutine `i` is in the call `q` on graph `n`, which does not return (a panic, or a recursion that does not end); `r` tells which. -/
def LostIn (c : LConf ι) (i : ι) (n : Nat) (q : Query) (r : WRes Out) : Prop :=
  ∃ e r', (c.workers i).now = some (.ask e n q, .ret r') ∧ ((r' = .panic ∧ r = .panic) ∨ (r' = .diverge ∧ r = .diverge))

/-- Whenever two goroutines make conflicting accesses, the lock lies between them: after the first access its goroutine gives the lock back, and after that the other one
gets it. -/
def Ordered (tr : List (ι × Ev)) : Prop :=
  ∀ (u v w : List (ι × Ev)) (i j : ι) (a b : Acc), tr = u ++ (i, .acc a) :: v ++ (j, .acc b) :: w → i ≠ j → Conflict a b →
    ∃ v1 v2 v3 call r call', v = v1 ++ (i, .done call r) :: v2 ++ (j, .begin call') :: v3

end Gographviz.Spec.Locked
