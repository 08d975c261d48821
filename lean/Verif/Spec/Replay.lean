import Verif.Model.Analyse
import Verif.Spec.AbstractGraph
import Verif.Spec.Scoping
/-!
Specification: performing a sequence of calls on an implementation of `Interface`, an implementation that records the calls made
on it, and the contents that a sequence of successful calls describes.
-/
namespace Gographviz

open Spec

variable {σ : Type}

/-- Performing one call on an implementation. -/
def Iface.call (I : Iface σ) (g : σ) : Call → σ × Option Err
  | .setStrict b => I.setStrict g b
  | .setDir b => I.setDir g b
  | .setName n => I.setName g n
  | .addPortEdge s sp d dp dir m => I.addPortEdge g s sp d dp dir m
  | .addNode p n m => I.addNode g p n m
  | .addAttr p k v => I.addAttr g p k v
  | .addSubGraph p n m => I.addSubGraph g p n m

/-- Performing a sequence of calls, whatever they return, collecting the errors in order. -/
def replay (I : Iface σ) (g : σ) : List Call → σ × List Err
  | [] => (g, [])
  | x :: xs =>
    let r := I.call g x
    let rest := replay I r.1 xs
    (rest.1, r.2.toList ++ rest.2)

/-- One step of the recording implementation. -/
def logged (r : σ × Option Err) (log : List Call) (x : Call) : (σ × List Call) × Option Err := ((r.1, log ++ [x]), r.2)

/-- The implementation `I` with a log of the calls made on it. -/
def recording (I : Iface σ) : Iface (σ × List Call) where
  setStrict := fun g b => logged (I.setStrict g.1 b) g.2 (.setStrict b)
  setDir := fun g b => logged (I.setDir g.1 b) g.2 (.setDir b)
  setName := fun g n => logged (I.setName g.1 n) g.2 (.setName n)
  addPortEdge := fun g s sp d dp dir m => logged (I.addPortEdge g.1 s sp d dp dir m) g.2 (.addPortEdge s sp d dp dir m)
  addNode := fun g p n m => logged (I.addNode g.1 p n m) g.2 (.addNode p n m)
  addAttr := fun g p k v => logged (I.addAttr g.1 p k v) g.2 (.addAttr p k v)
  addSubGraph := fun g p n m => logged (I.addSubGraph g.1 p n m) g.2 (.addSubGraph p n m)

/-- The calls that `Analyse` makes on the implementation `I` (in state `g`) for the tree `t`. -/
def callsMade (I : Iface σ) (t : Ast.Graph) (g : σ) : List Call := (analyse (recording I) t (g, [])).1.2

namespace Spec

/-- The last value given to a key. -/
def lastValue (es : List (Str × Str)) (k : Str) : Option Str := (es.reverse.find? fun e => decide (e.1 = k)).map Prod.snd

/-- The attributes given to node `n` by a sequence of calls, in order. -/
def nodeGiven (n : Str) : List Call → List (Str × Str)
  | [] => []
  | .addNode _ n' m :: xs => (if n' = n then m else []) ++ nodeGiven n xs
  | _ :: xs => nodeGiven n xs

/-- The attributes given to the graph or subgraph `n`, in order. -/
def graphGiven (n : Str) : List Call → List (Str × Str)
  | [] => []
  | .addSubGraph _ n' m :: xs => (if n' = n then m else []) ++ graphGiven n xs
  | .addAttr n' k v :: xs => (if n' = n then [(k, v)] else []) ++ graphGiven n xs
  | _ :: xs => graphGiven n xs

/-- The edges made by a sequence of calls, in order. -/
def edgesMade : List Call → List AEdge
  | [] => []
  | .addPortEdge s sp d dp dir m :: xs => ⟨s, sp, d, dp, dir, mget m⟩ :: edgesMade xs
  | _ :: xs => edgesMade xs

/-- A call that sets a property of the whole graph. -/
def Call.isSetter : Call → Bool
  | .setStrict _ => true
  | .setDir _ => true
  | .setName _ => true
  | _ => false

/-- The attribute map of a call. -/
def Call.attrs : Call → Map Str
  | .addPortEdge _ _ _ _ _ m => m
  | .addNode _ _ m => m
  | .addSubGraph _ _ m => m
  | _ => []

/-- The attribute names that a statement itself contains. -/
def stmtFields : Ast.Stmt → List Str
  | .node _ as => (entries as).map Prod.fst
  | .edge _ _ as => (entries as).map Prod.fst
  | .nodeAttrs as => (entries as).map Prod.fst
  | .edgeAttrs as => (entries as).map Prod.fst
  | .graphAttrs as => (entries as).map Prod.fst
  | .sub _ _ => []
  | .attr a => [a.field]

/-- A `node [..]` or `edge [..]` statement, whose attributes are only applied to what follows. -/
def isDefaults : Ast.Stmt → Bool
  | .nodeAttrs _ => true
  | .edgeAttrs _ => true
  | _ => false

/-- The names of the attributes that a call sets. -/
def Call.fields : Call → List Str
  | .addAttr _ k _ => [k]
  | x => mkeys x.attrs

end Spec
end Gographviz
