import Verif.Model.AnalyseMaps
import Verif.Spec.Scoping
/-!
Specification vocabulary for the maps that `Analyse` hands to implementations of `Interface`.
-/
namespace Gographviz.Spec

open Gographviz
open Gographviz.Ast (Stmt Loc EdgeRH AttrList)

variable {σ : Type}

/-- An implementation that, like the package's own, looks at the contents of a map during the call only: it neither changes the map nor
keeps it. `I` says what it does with the contents. -/
def copying (I : Iface σ) : MIface σ where
  setStrict := fun s b => let r := I.setStrict s.1 b; ((r.1, s.2), r.2)
  setDir := fun s b => let r := I.setDir s.1 b; ((r.1, s.2), r.2)
  setName := fun s n => let r := I.setName s.1 n; ((r.1, s.2), r.2)
  addPortEdge := fun s a b c d e m => let r := I.addPortEdge s.1 a b c d e (s.2.mapAt m); ((r.1, s.2), r.2)
  addNode := fun s a b m => let r := I.addNode s.1 a b (s.2.mapAt m); ((r.1, s.2), r.2)
  addAttr := fun s a b c => let r := I.addAttr s.1 a b c; ((r.1, s.2), r.2)
  addSubGraph := fun s a b m => let r := I.addSubGraph s.1 a b (s.2.mapAt m); ((r.1, s.2), r.2)

/-- A map that an implementation was given: in which kind of call, the map, and its contents during the call. -/
inductive Given where
  | edge (m : Nat) (contents : Map Str)
  | node (name : Str) (m : Nat) (contents : Map Str)
  | sub (name : Str) (m : Nat) (contents : Map Str)
  deriving DecidableEq, Repr

/-- The map. -/
def Given.map : Given → Nat
  | .edge m _ => m
  | .node _ m _ => m
  | .sub _ m _ => m

/-- Its contents during the call. -/
def Given.contents : Given → Map Str
  | .edge _ c => c
  | .node _ _ c => c
  | .sub _ _ c => c

/-- An implementation that keeps every map it is given (and changes none). -/
def keeper : MIface (List Given) where
  setStrict := fun s _ => (s, none)
  setDir := fun s _ => (s, none)
  setName := fun s _ => (s, none)
  addPortEdge := fun s _ _ _ _ _ m => ((s.1 ++ [.edge m (s.2.mapAt m)], s.2), none)
  addNode := fun s _ n m => ((s.1 ++ [.node n m (s.2.mapAt m)], s.2), none)
  addAttr := fun s _ _ _ => (s, none)
  addSubGraph := fun s _ n m => ((s.1 ++ [.sub n m (s.2.mapAt m)], s.2), none)

mutual
/-- The attributes of the `node [...]` statements in a statement, at any depth. -/
def nodeEntriesS : Stmt → List (Str × Str)
  | .nodeAttrs as => entries as
  | .edge src rhs _ => nodeEntriesL src ++ nodeEntriesR rhs
  | .sub _ body => nodeEntries body
  | _ => []
/-- The same in an edge end. -/
def nodeEntriesL : Loc → List (Str × Str)
  | .node _ => []
  | .sub _ body => nodeEntries body
/-- The same in the right-hand sides of an edge. -/
def nodeEntriesR : List EdgeRH → List (Str × Str)
  | [] => []
  | .mk _ dst :: rest => nodeEntriesL dst ++ nodeEntriesR rest
/-- The same in a statement list. -/
def nodeEntries : List Stmt → List (Str × Str)
  | [] => []
  | s :: ss => nodeEntriesS s ++ nodeEntries ss
end

mutual
/-- The attributes of the `graph [...]` statements in a statement, at any depth. -/
def graphEntriesS : Stmt → List (Str × Str)
  | .graphAttrs as => entries as
  | .edge src rhs _ => graphEntriesL src ++ graphEntriesR rhs
  | .sub _ body => graphEntries body
  | _ => []
/-- The same in an edge end. -/
def graphEntriesL : Loc → List (Str × Str)
  | .node _ => []
  | .sub _ body => graphEntries body
/-- The same in the right-hand sides of an edge. -/
def graphEntriesR : List EdgeRH → List (Str × Str)
  | [] => []
  | .mk _ dst :: rest => graphEntriesL dst ++ graphEntriesR rest
/-- The same in a statement list. -/
def graphEntries : List Stmt → List (Str × Str)
  | [] => []
  | s :: ss => graphEntriesS s ++ graphEntries ss
end

end Gographviz.Spec
