import Verif.Spec.AbstractGraph
/-!
Specification for C82: calls that do not depend on each other.
-/
namespace Gographviz.Spec

open Gographviz

/-- The two lists of entries give no key two different values. -/
def NoClash (as bs : List (Str × Str)) : Prop := ∀ k v w, (k, v) ∈ as → (k, w) ∈ bs → v = w

/-- The pairs of calls whose order can matter, each in one of the two orders. -/
def OrderIrrelevant : Op → Op → Prop
  | .setStrict b, .setStrict c => b = c
  | .setDir b, .setDir c => b = c
  | .setName n, .setName m => n = m
  -- which graph is the root decides where an attribute goes
  | .setName _, .addAttr _ _ _ => False
  | .setName _, .addSubGraph _ _ as => as = []
  -- the later value counts
  | .addNode _ n as, .addNode _ m bs => n = m → NoClash as bs
  | .addSubGraph _ n as, .addSubGraph _ m bs => n = m → NoClash as bs
  | .addAttr t k v, .addAttr t' k' v' => t = t' → k = k' → v = v'
  -- the subgraph must exist
  | .addAttr t _ _, .addSubGraph _ n _ => t ≠ n
  -- a node must exist to be removed, and takes its edges with it
  | .removeNode _ n, .removeNode _ m => n ≠ m
  | .removeNode _ n, .addNode _ m _ => n ≠ m
  | .removeNode _ n, .addEdge s d _ _ => s ≠ n ∧ d ≠ n
  | .removeNode _ n, .addPortEdge s _ d _ _ _ => s ≠ n ∧ d ≠ n
  | .removeNode p n, .addSubGraph q m _ => ¬ (p = q ∧ n = m)
  -- removing subgraphs is not considered
  | .removeSubGraph .., _ => False
  | _, _ => True

/-- The calls are independent: they concern different things. -/
def Independent (x y : Op) : Prop := OrderIrrelevant x y ∧ OrderIrrelevant y x

/-- Histories that differ in the order of independent calls only. -/
inductive Reordered : List Op → List Op → Prop where
  | refl (l : List Op) : Reordered l l
  | swap {x y : Op} (pre post : List Op) : Independent x y → Reordered (pre ++ x :: y :: post) (pre ++ y :: x :: post)
  | trans {l m r : List Op} : Reordered l m → Reordered m r → Reordered l r

end Gographviz.Spec
