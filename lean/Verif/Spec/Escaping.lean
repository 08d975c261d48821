import Verif.Model.Graph
import Verif.Model.Base
/-!
Specification for `Escape`: which arguments of a call are escaped, and what a call with escaped arguments is. `esc` is a
parameter: any partial function from strings to strings (`none`: the call panics).
-/
namespace Gographviz.Spec

open Gographviz

/-- The keys and values of an entry list. -/
def entryArgs (kvs : List (Str × Str)) : List Str := kvs.flatMap fun e => [e.1, e.2]

/-- The arguments of a call that the documentation of `Escape` says are escaped: names, parents, attribute names and values.
Ports are not, and `RemoveNode` and `RemoveSubGraph` belong to the embedded graph. -/
def escapedArgs : Op → List Str
  | .setName n => [n]
  | .addPortEdge s _ d _ _ as => s :: d :: entryArgs as
  | .addEdge s d _ as => s :: d :: entryArgs as
  | .addNode p n as => p :: n :: entryArgs as
  | .addAttr p f v => [p, f, v]
  | .addSubGraph p n as => p :: n :: entryArgs as
  | _ => []

/-- `as'` is the map (entries in ascending key order) that holds for every escaped key the escaped value of the last entry
with that escaped key; all keys and values can be escaped. -/
def EscapedMap (esc : Str → Option Str) (as : List (Str × Str)) (as' : List (Str × Str)) : Prop :=
  (∀ s ∈ entryArgs as, (esc s).isSome = true) ∧ as'.Pairwise (fun a b => slt a.1 b.1 = true) ∧
  ∀ k' v', (k', v') ∈ as' ↔
    ∃ pre k v post, as = pre ++ (k, v) :: post ∧ esc k = some k' ∧ esc v = some v' ∧ ∀ e ∈ post, esc e.1 ≠ some k'

/-- `op'` is the call `op` with the escaped arguments escaped. -/
def EscapedCall (esc : Str → Option Str) (op op' : Op) : Prop :=
  match op with
  | .setName n => ∃ n', esc n = some n' ∧ op' = .setName n'
  | .addPortEdge s sp d dp dir as =>
    ∃ s' d' as', esc s = some s' ∧ esc d = some d' ∧ EscapedMap esc as as' ∧ op' = .addPortEdge s' sp d' dp dir as'
  | .addEdge s d dir as => ∃ s' d' as', esc s = some s' ∧ esc d = some d' ∧ EscapedMap esc as as' ∧ op' = .addEdge s' d' dir as'
  | .addNode p n as => ∃ p' n' as', esc p = some p' ∧ esc n = some n' ∧ EscapedMap esc as as' ∧ op' = .addNode p' n' as'
  | .addAttr p f v => ∃ p' f' v', esc p = some p' ∧ esc f = some f' ∧ esc v = some v' ∧ op' = .addAttr p' f' v'
  | .addSubGraph p n as =>
    ∃ p' n' as', esc p = some p' ∧ esc n = some n' ∧ EscapedMap esc as as' ∧ op' = .addSubGraph p' n' as'
  | op => op' = op

/-- NUL bytes replaced by the encoding of U+FFFD. -/
def withoutNul (s : Str) : Str := s.flatMap fun c => if c = 0 then [0xEF, 0xBF, 0xBD] else [c]

/-- The number of backslashes at the end of a text. -/
def endBackslashes (s : Str) : Nat := (s.reverse.takeWhile (· == 92)).length

end Gographviz.Spec
