import Verif.Model.Graph
/-!
Specification for C91: the kind of a graph (directed or not, strict or not) and the calls that set it.
-/
namespace Gographviz.Spec.Kind

open Gographviz

/-- The graph with another kind, everything else the same. -/
def _root_.Gographviz.Graph.kind (g : Graph) (directed strict : Bool) : Graph := { g with directed := directed, strict := strict }

/-- The call is neither `SetDir` nor `SetStrict`. -/
def _root_.Gographviz.Op.other : Op → Bool
  | .setDir _ => false
  | .setStrict _ => false
  | _ => true

/-- What the last `SetDir` of a history says; `d` without one. -/
def lastDir (d : Bool) : List Op → Bool
  | [] => d
  | .setDir b :: ops => lastDir b ops
  | _ :: ops => lastDir d ops

/-- What the last `SetStrict` of a history says; `s` without one. -/
def lastStrict (s : Bool) : List Op → Bool
  | [] => s
  | .setStrict b :: ops => lastStrict b ops
  | _ :: ops => lastStrict s ops

end Gographviz.Spec.Kind
