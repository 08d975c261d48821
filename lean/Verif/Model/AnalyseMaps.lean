import Verif.Model.Analyse
/-!
analyse.go with attribute maps as what they are in Go: references. `Analyse` passes maps to a foreign implementation of `Interface`, and some of
them are the maps it goes on using itself. Here a map is an address in a memory, an implementation gets addresses and may read and change
the memory, and it may keep addresses in its state. (`Model/Analyse.lean` passes contents; `C64_copying` says when the two agree.)
-/
namespace Gographviz

open Ast (Stmt Loc EdgeRH AttrList NodeID)

/-- The maps made so far; making a map is appending. -/
abbrev MMem := List (Map Str)

/-- The contents of the map at an address (`nil` and unknown maps are empty). -/
def _root_.List.mapAt (m : MMem) (a : Nat) : Map Str := (m[a]?).getD []

/-- gographviz.go:29-39 `Interface` (without `AddEdge` and `String`, which `Analyse` never calls): an implementation has a state of its own
and access to the memory; attribute maps are passed by address. -/
structure MIface (σ : Type) where
  setStrict : σ × MMem → Bool → (σ × MMem) × Option Err
  setDir : σ × MMem → Bool → (σ × MMem) × Option Err
  setName : σ × MMem → Str → (σ × MMem) × Option Err
  addPortEdge : σ × MMem → Str → Str → Str → Str → Bool → Nat → (σ × MMem) × Option Err
  addNode : σ × MMem → Str → Str → Nat → (σ × MMem) × Option Err
  addAttr : σ × MMem → Str → Str → Str → (σ × MMem) × Option Err
  addSubGraph : σ × MMem → Str → Str → Nat → (σ × MMem) × Option Err

variable {σ : Type}

/-- The error catcher (catch.go:39-42) with the memory beside the implementation. -/
abbrev MCatcher (σ : Type) := Catcher (σ × MMem)

/-- The memory. -/
def Catcher.mem (c : MCatcher σ) : MMem := c.g.2

/-- `make(map[string]string)` and filling it with `m`: the address of the new map. -/
def Catcher.make (c : MCatcher σ) (m : Map Str) : Nat × MCatcher σ :=
  (c.mem.length, { c with g := (c.g.1, c.mem ++ [m]) })

/-- Changing the contents of the map `a`. -/
def Catcher.write (c : MCatcher σ) (a : Nat) (m : Map Str) : MCatcher σ := { c with g := (c.g.1, c.mem.set a m) }

/-- analyse.go:66-73 `stmtVisitor`: its three attribute maps are addresses (never changed); `createdNodes` is not handed out. -/
structure MVisitor where
  graphName : Str
  nodeAttrs : Nat
  edgeAttrs : Nat
  graphAttrs : Nat
  created : Map Unit

/-- analyse.go:60-64 `newStmtVisitor`: three new maps; `none` is the `nil` of analyse.go:57. -/
def newMVisitor (graphName : Str) (nodeAttrs edgeAttrs : Option Nat) (c : MCatcher σ) : MVisitor × MCatcher σ :=
  let contents (c : MCatcher σ) : Option Nat → Map Str
    | none => []
    | some a => c.mem.mapAt a
  let (n, c) := c.make (attrsAmmend [] (contents c nodeAttrs))
  let (e, c) := c.make (attrsAmmend [] (contents c edgeAttrs))
  let (g, c) := c.make []
  (⟨graphName, n, e, g, []⟩, c)

/-- analyse.go:115-120 `addNodeFromEdge`: passes the map of the current node defaults itself. -/
def mAddNodeFromEdge (I : MIface σ) (w : MVisitor) (c : MCatcher σ) (nodeID : Str) : MVisitor × MCatcher σ :=
  if mhas w.created nodeID then (w, c)
  else ({ w with created := mset w.created nodeID () }, c.record (I.addNode c.g w.graphName nodeID w.nodeAttrs))

/-- analyse.go:122-133 `nodeStmt`: passes a new map. -/
def mNodeStmt (I : MIface σ) (w : MVisitor) (c : MCatcher σ) (id : NodeID) (as : AttrList) : MVisitor × MCatcher σ :=
  let nodeID := Ast.nodeIDStr id
  let isNew := !mhas w.created nodeID
  let defaults := if isNew then c.mem.mapAt w.nodeAttrs else []
  let w' := if isNew then { w with created := mset w.created nodeID () } else w
  let (a, c) := c.make (attrsAmmend (Ast.getMap as) defaults)
  (w', c.record (I.addNode c.g w.graphName nodeID a))

/-- analyse.go:144-156: the loop of `edgeStmt`; all edges of the statement get the same map. -/
def mEdgeLoop (I : MIface σ) (attrs : Nat) (w : MVisitor) (c : MCatcher σ) (src : Str) (srcPort : Ast.Port) :
    List EdgeRH → MVisitor × MCatcher σ
  | [] => (w, c)
  | .mk op dst :: rest =>
    let (w, c) := if dst.isNode then mAddNodeFromEdge I w c dst.getID else (w, c)
    let c := c.record (I.addPortEdge c.g src (Ast.portStr srcPort) dst.getID (Ast.portStr dst.getPort) op attrs)
    mEdgeLoop I attrs w c dst.getID dst.getPort rest

/-- analyse.go:135-158 `edgeStmt`: a new map for the statement. -/
def mEdgeStmt (I : MIface σ) (w : MVisitor) (c : MCatcher σ) (src : Loc) (rhs : List EdgeRH) (as : AttrList) :
    MVisitor × MCatcher σ :=
  let (a, c) := c.make (attrsAmmend (Ast.getMap as) (c.mem.mapAt w.edgeAttrs))
  let (w, c) := if src.isNode then mAddNodeFromEdge I w c src.getID else (w, c)
  mEdgeLoop I a w c src.getID src.getPort rhs

/-- analyse.go:172-174: the loop of `graphAttrs`, over a map that nobody else has (visited in key order). -/
def mGraphAttrsLoop (I : MIface σ) (graphName : Str) (c : MCatcher σ) : List (Str × Str) → MCatcher σ
  | [] => c
  | (k, v) :: rest => mGraphAttrsLoop I graphName (c.record (I.addAttr c.g graphName k v)) rest

/-- analyse.go:160-163, 165-168 and 176: `overwrite` (108-113) of the map `a` in place. -/
def mOverwrite (c : MCatcher σ) (a : Nat) (as : AttrList) : MCatcher σ := c.write a (overwrite (c.mem.mapAt a) (Ast.getMap as))

/-- analyse.go:179-183 `subGraph`: passes the map of the current graph attributes itself, then makes the visitor of the subgraph. -/
def mSubGraph (I : MIface σ) (w : MVisitor) (c : MCatcher σ) (id : Str) : MVisitor × MCatcher σ :=
  newMVisitor id (some w.nodeAttrs) (some w.edgeAttrs) (c.record (I.addSubGraph c.g w.graphName id w.graphAttrs))

mutual
/-- analyse.go:75-97 `stmtVisitor.Visit` driven by the `Walk` methods of ast.go (see `walkStmt`). -/
def mWalkStmt (I : MIface σ) (w : MVisitor) (c : MCatcher σ) : Stmt → MVisitor × MCatcher σ
  | .node id as => mNodeStmt I w c id as
  | .edge src rhs as =>
    let (w, c) := mEdgeStmt I w c src rhs as
    let c := mWalkLoc I w c src
    (w, mWalkRHS I w c rhs)
  | .nodeAttrs as => (w, mOverwrite c w.nodeAttrs as)
  | .edgeAttrs as => (w, mOverwrite c w.edgeAttrs as)
  | .graphAttrs as => (w, mOverwrite (mGraphAttrsLoop I w.graphName c (Ast.getMap as)) w.graphAttrs as)
  | .sub id body =>
    let (w', c) := mSubGraph I w c id
    (w, (mWalkStmts I w' c body).2)
  | .attr a => (w, c.record (I.addAttr c.g w.graphName a.field a.value))
/-- ast.go:665-672 (node id: no effect) and 242-249 (subgraph: analyse.go:179-183 and its own visitor). -/
def mWalkLoc (I : MIface σ) (w : MVisitor) (c : MCatcher σ) : Loc → MCatcher σ
  | .node _ => c
  | .sub id body =>
    let (w', c) := mSubGraph I w c id
    (mWalkStmts I w' c body).2
/-- ast.go:543-551 and 562-569. -/
def mWalkRHS (I : MIface σ) (w : MVisitor) (c : MCatcher σ) : List EdgeRH → MCatcher σ
  | [] => c
  | .mk _ dst :: rest => mWalkRHS I w (mWalkLoc I w c dst) rest
/-- ast.go:164-172 `StmtList.Walk`. -/
def mWalkStmts (I : MIface σ) (w : MVisitor) (c : MCatcher σ) : List Stmt → MVisitor × MCatcher σ
  | [] => (w, c)
  | s :: ss =>
    let (w, c) := mWalkStmt I w c s
    mWalkStmts I w c ss
end

/-- analyse.go:31-35 `Analyse` with analyse.go:48-58 `graphVisitor.Visit`: the implementation and the memory afterwards, and all the
errors. `m` is the memory before (maps the caller has). -/
def analyseM (I : MIface σ) (t : Ast.Graph) (g : σ) (m : MMem) : MCatcher σ :=
  let c : MCatcher σ := ⟨(g, m), []⟩
  let c := c.record (I.setStrict c.g t.strict)
  let c := c.record (I.setDir c.g t.type_)
  let c := c.record (I.setName c.g t.id)
  let (w, c) := newMVisitor t.id none none c
  (mWalkStmts I w c t.stmts).2

end Gographviz
