import Verif.Model.Heap
import Verif.Model.Write
/-!
Goroutines that share a memory. A method is a program that reads and writes memory cells one at a time; between two of its accesses other
goroutines may do theirs. Nothing in this file models code of /repo, except that the cells are the objects of package gographviz
(`Model/Heap.lean`) and the things that `WriteAst` allocates.

Simplifications: memory is sequentially consistent (justified by the absence of data races, which is proved); an access concerns a whole object
(the graph with its containers, one node, one map, ...), which can only make more pairs of accesses conflict.
-/
namespace Gographviz.Threads

open Gographviz Gographviz.Heap

/-- Addresses, of each type of object. -/
inductive Loc where
  | graph (n : Nat)
  | node (n : Nat)
  | edge (n : Nat)
  | sub (n : Nat)
  /-- attribute maps: `Attrs` and the `map[string]string` made from them -/
  | map (n : Nat)
  /-- arrays behind slices of edges -/
  | arr (n : Nat)
  /-- maps of type `map[string]bool` (`writtenLocations`) -/
  | set (n : Nat)
  /-- maps of type `map[string]string` that the caller made to use as arguments -/
  | arg (n : Nat)
  deriving DecidableEq, Repr

/-- What is stored there. -/
inductive Cell where
  /-- the struct `Graph` and the containers it points to -/
  | graph (g : HGraph)
  | node (o : NodeObj)
  | edge (o : EdgeObj)
  | sub (o : SubObj)
  | map (m : Map Str)
  | arr (l : List Nat)
  | set (w : Written)
  | arg (m : Map Str)

/-- The address number `n` for this type of object. -/
def Cell.loc : Cell → Nat → Loc
  | .graph _, n => .graph n
  | .node _, n => .node n
  | .edge _, n => .edge n
  | .sub _, n => .sub n
  | .map _, n => .map n
  | .arr _, n => .arr n
  | .set _, n => .set n
  | .arg _, n => .arg n

/-- The memory; `none`: nothing has been allocated there. -/
abbrev World := Loc → Option Cell

/-- Store. -/
def World.put (w : World) (l : Loc) (c : Cell) : World := fun x => if x = l then some c else w x

/-- A program: what it does next, and how it goes on. -/
inductive Prog (α : Type) where
  /-- return -/
  | ret (r : WRes α)
  /-- load a cell; `none` for a pointer to nothing -/
  | read (l : Loc) (k : Option Cell → Prog α)
  /-- store -/
  | write (l : Loc) (c : Cell) (k : Prog α)
  /-- `make` or `&T{...}`: the result is some address that was not in use -/
  | alloc (c : Cell) (k : Nat → Prog α)
  /-- `range` over a map with the keys `ks`: some order -/
  | order (ks : List Str) (k : List Str → Prog α)

/-- Sequencing. -/
def Prog.bind {α β : Type} : Prog α → (α → Prog β) → Prog β
  | .ret (.ok a), f => f a
  | .ret (.err e), _ => .ret (.err e)
  | .ret .panic, _ => .ret .panic
  | .ret .diverge, _ => .ret .diverge
  | .read l k, f => .read l fun c => (k c).bind f
  | .write l c k, f => .write l c (k.bind f)
  | .alloc c k, f => .alloc c fun n => (k n).bind f
  | .order ks k, f => .order ks fun l => (k l).bind f

/-- A value. -/
def Prog.pure {α : Type} (a : α) : Prog α := .ret (.ok a)

instance : Monad Prog where
  pure := Prog.pure
  bind := Prog.bind

/-! ### running -/

/-- An access, as it is recorded. -/
inductive Acc where
  | read (l : Loc)
  | write (l : Loc)
  | alloc (l : Loc)
  | order

/-- One access of a program that ends in the program `p'` and the memory `w'`. -/
inductive Prog.Step {α : Type} : Prog α → World → Acc → Prog α → World → Prop where
  | read {l : Loc} {k : Option Cell → Prog α} {w : World} : Step (.read l k) w (.read l) (k (w l)) w
  | write {l : Loc} {c : Cell} {k : Prog α} {w : World} : Step (.write l c k) w (.write l) k (w.put l c)
  | alloc {c : Cell} {k : Nat → Prog α} {w : World} {n : Nat} : w (c.loc n) = none → Step (.alloc c k) w (.alloc (c.loc n)) (k n) (w.put (c.loc n) c)
  | order {ks l : List Str} {k : List Str → Prog α} {w : World} : l.Perm ks → Step (.order ks k) w .order (k l) w

/-- Goroutines, indexed by `ι`, and the memory. -/
structure Conf (ι α : Type) where
  procs : ι → Prog α
  mem : World

variable {ι α : Type} [DecidableEq ι]

/-- Goroutine `i` makes one access. -/
inductive Conf.Step (i : ι) : Conf ι α → Acc → Conf ι α → Prop where
  | mk {c : Conf ι α} {a : Acc} {p : Prog α} {w : World} : (c.procs i).Step c.mem a p w →
      Conf.Step i c a ⟨fun j => if j = i then p else c.procs j, w⟩

/-- What can be reached from `c`, in any schedule, with the accesses made, in order. -/
inductive Conf.Reach (c : Conf ι α) : List (ι × Acc) → Conf ι α → Prop where
  | refl : Reach c [] c
  | step {tr : List (ι × Acc)} {c' c'' : Conf ι α} {i : ι} {a : Acc} : Reach c tr c' → Conf.Step i c' a c'' → Reach c (tr ++ [(i, a)]) c''

/-! ### sort.Sort -/

/-- What `sort.Sort` does with `data` of a given length: it calls `Less` and `Swap`; how it goes on depends on the answers of `Less` only. -/
inductive SortTree where
  | done
  | less (i j : Nat) (k : Bool → SortTree)
  | swap (i j : Nat) (k : SortTree)

/-- Exchange two elements; `none` if an index is out of range. -/
def swapAt {β : Type} (l : List β) (i j : Nat) : Option (List β) :=
  match l[i]?, l[j]? with
  | some x, some y => some ((l.set i y).set j x)
  | _, _ => none

/-- What becomes of a list of values (`none`: index out of range). -/
def SortTree.run {β : Type} (lt : β → β → Bool) : SortTree → List β → Option (List β)
  | .done, l => some l
  | .less i j k, l => match l[i]?, l[j]? with
    | some x, some y => (k (lt x y)).run lt l
    | _, _ => none
  | .swap i j k, l => (swapAt l i j).bind fun l' => k.run lt l'

/-- The contract of `sort.Sort`: if `Less` is a strict weak order, then it ends, stays within the range, and no later element is less than an earlier one.
(That nothing is lost follows from its using `Swap` only.) -/
def Sorts (sorter : Nat → SortTree) : Prop :=
  ∀ (β : Type) (lt : β → β → Bool), (∀ a, lt a a = false) → (∀ a b c, lt a b = true → lt b c = true → lt a c = true) →
    (∀ a b c, lt a b = false → lt b c = false → lt a c = false) →
    ∀ l : List β, ∃ l', (sorter l.length).run lt l = some l' ∧ l'.Pairwise fun a b => lt b a = false

end Gographviz.Threads
