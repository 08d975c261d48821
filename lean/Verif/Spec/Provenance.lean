import Verif.Model.Graph
import Verif.Spec.AbstractGraph
/-!
Specification for C56: where the contents of a graph come from. `H` says which calls were made.
-/
namespace Gographviz.Spec

open Gographviz

/-- Some call offers the entry `k = v` for the graph or subgraph `target`. -/
def Offered (H : Op → Prop) (target k v : Str) : Prop :=
  H (.addAttr target k v) ∨ ∃ p as, H (.addSubGraph p target as) ∧ (k, v) ∈ as

/-- Some call asks for this edge. -/
def EdgeAsked (H : Op → Prop) (src srcPort dst dstPort : Str) (dir : Bool) (attrs : List (Str × Str)) : Prop :=
  H (.addPortEdge src srcPort dst dstPort dir attrs) ∨ (srcPort = [] ∧ dstPort = [] ∧ H (.addEdge src dst dir attrs))

/-- The texts of a call that the graph keeps: names and attribute values (attribute names are checked against the list of registered names). -/
def storedTexts : Op → List Str
  | .setName n => [n]
  | .addPortEdge _ _ _ _ _ as => as.map (·.2)
  | .addEdge _ _ _ as => as.map (·.2)
  | .addNode _ n as => n :: as.map (·.2)
  | .addAttr _ _ v => [v]
  | .addSubGraph _ n as => n :: as.map (·.2)
  | _ => []

/-- The ports of a call. -/
def portTexts : Op → List Str
  | .addPortEdge _ sp _ dp _ _ => [sp, dp]
  | _ => []

end Gographviz.Spec
