import Verif.Model.Concurrent
/-!
Specification for concurrent parses: what a schedule drew, and from whom.
-/
namespace Gographviz.Spec.Conc

open Gographviz Gographviz.Conc

variable {ι : Type} [DecidableEq ι]

/-- The positions of the generator's sequence drawn in a schedule, in order, by anybody. -/
def allDrawn (tr : Schedule ι) : List Nat := tr.filterMap (·.2)

/-- The positions drawn by goroutine `i`, in order. -/
def drawnBy (i : ι) (tr : Schedule ι) : List Nat := (tr.filter fun x => x.1 = i).filterMap (·.2)

/-- The number of steps of goroutine `i`. -/
def stepsOf (i : ι) (tr : Schedule ι) : Nat := (tr.filter fun x => x.1 = i).length

/-- Goroutine inside the critical section of `randInt63`. -/
def Critical : Proc → Prop
  | .locked _ => True
  | .loaded _ _ => True
  | .stored _ _ => True
  | _ => False

/-- The call of `Parse` has returned. -/
def Returned (p : Proc) : Prop := ∃ r, p = .done r

/-- The sequence of values a goroutine has seen, as a generator of its own. -/
def ownGen (gen : Nat → Nat) (ds : List Nat) (k : Nat) : Nat := gen (ds.getD k 0)

end Gographviz.Spec.Conc
