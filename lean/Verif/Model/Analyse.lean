import Verif.Model.Graph
import Verif.Model.Ast
/-!
analyse.go and catch.go.

`Analyse` works on any implementation of `Interface`; the model takes the implementation as a record `Iface σ` of
state-transforming functions. Attribute maps are passed as contents (`Map Str`); for implementations that neither
keep nor modify the map they are given (the package's own `Graph` and `Escape` copy it) this is the same as passing references
(`Model/AnalyseMaps.lean`, `C64_copying`).
-/
namespace Gographviz

open Ast (Stmt Loc EdgeRH AttrList NodeID)

/-- gographviz.go:29-39 `Interface` (without `AddEdge` and `String`, which `Analyse` never calls). -/
structure Iface (σ : Type) where
  setStrict : σ → Bool → σ × Option Err
  setDir : σ → Bool → σ × Option Err
  setName : σ → Str → σ × Option Err
  addPortEdge : σ → Str → Str → Str → Str → Bool → Map Str → σ × Option Err
  addNode : σ → Str → Str → Map Str → σ × Option Err
  addAttr : σ → Str → Str → Str → σ × Option Err
  addSubGraph : σ → Str → Str → Map Str → σ × Option Err

/-- graph.go: `*Graph` as an `Interface`; maps are visited in key order (unobservable, C10). -/
def graphIface : Iface Graph where
  setStrict := Graph.setStrict
  setDir := Graph.setDir
  setName := Graph.setName
  addPortEdge := fun g s sp d dp dir m => g.addPortEdge s sp d dp dir m
  addNode := fun g p n m => g.addNode p n m
  addAttr := Graph.addAttr
  addSubGraph := fun g p n m => g.addSubGraph p n m

variable {σ : Type}

/-- catch.go:39-42 `errCatcher`. -/
structure Catcher (σ : Type) where
  g : σ
  errs : List Err

/-- catch.go:44-90: every forwarding method records the error if there is one. -/
def Catcher.record (c : Catcher σ) (r : σ × Option Err) : Catcher σ :=
  match r.2 with
  | none => { c with g := r.1 }
  | some e => { g := r.1, errs := c.errs ++ [e] }

/-- catch.go:92-101 `getError`: nil or the text of the combined error. -/
def Catcher.getError (c : Catcher σ) : Option Str :=
  match c.errs with
  | [] => none
  | es => some (b!"errors: [" ++ sjoin (b!",") (es.map Err.msg) ++ b!"]")

/-- analyse.go:66-73 `stmtVisitor` (without the interface `g`, which is threaded separately). `createdNodes` is a set. -/
structure Visitor where
  graphName : Str
  nodeAttrs : Map Str
  edgeAttrs : Map Str
  graphAttrs : Map Str
  created : Map Unit
  deriving DecidableEq, Repr

/-- analyse.go:60-64 `newStmtVisitor`: copies the inherited defaults into new maps. -/
def newVisitor (graphName : Str) (nodeAttrs edgeAttrs : Map Str) : Visitor :=
  { graphName, nodeAttrs := attrsAmmend [] nodeAttrs, edgeAttrs := attrsAmmend [] edgeAttrs, graphAttrs := [], created := [] }

/-- analyse.go:108-113 `overwrite`. -/
def overwrite (attrs over : Map Str) : Map Str := msetAll attrs over

/-- analyse.go:115-120 `addNodeFromEdge`. -/
def addNodeFromEdge (I : Iface σ) (w : Visitor) (c : Catcher σ) (nodeID : Str) : Visitor × Catcher σ :=
  if mhas w.created nodeID then (w, c)
  else ({ w with created := mset w.created nodeID () }, c.record (I.addNode c.g w.graphName nodeID w.nodeAttrs))

/-- analyse.go:122-133 `nodeStmt`. -/
def nodeStmt (I : Iface σ) (w : Visitor) (c : Catcher σ) (id : NodeID) (as : AttrList) : Visitor × Catcher σ :=
  let nodeID := Ast.nodeIDStr id
  let isNew := !mhas w.created nodeID
  let defaults := if isNew then w.nodeAttrs else []
  let w' := if isNew then { w with created := mset w.created nodeID () } else w
  (w', c.record (I.addNode c.g w.graphName nodeID (attrsAmmend (Ast.getMap as) defaults)))

/-- analyse.go:144-156: the loop of `edgeStmt`; `src` and `srcPort` are the previous endpoint. -/
def edgeLoop (I : Iface σ) (attrs : Map Str) (w : Visitor) (c : Catcher σ) (src : Str) (srcPort : Ast.Port) :
    List EdgeRH → Visitor × Catcher σ
  | [] => (w, c)
  | .mk op dst :: rest =>
    let (w, c) := if dst.isNode then addNodeFromEdge I w c dst.getID else (w, c)
    let c := c.record (I.addPortEdge c.g src (Ast.portStr srcPort) dst.getID (Ast.portStr dst.getPort) op attrs)
    edgeLoop I attrs w c dst.getID dst.getPort rest

/-- analyse.go:135-158 `edgeStmt`. -/
def edgeStmt (I : Iface σ) (w : Visitor) (c : Catcher σ) (src : Loc) (rhs : List EdgeRH) (as : AttrList) :
    Visitor × Catcher σ :=
  let attrs := attrsAmmend (Ast.getMap as) w.edgeAttrs
  let (w, c) := if src.isNode then addNodeFromEdge I w c src.getID else (w, c)
  edgeLoop I attrs w c src.getID src.getPort rhs

/-- analyse.go:172-174: the loop of `graphAttrs` (the map visited in key order). -/
def graphAttrsLoop (I : Iface σ) (graphName : Str) (c : Catcher σ) : List (Str × Str) → Catcher σ
  | [] => c
  | (k, v) :: rest => graphAttrsLoop I graphName (c.record (I.addAttr c.g graphName k v)) rest

/-- analyse.go:170-177 `graphAttrs`. -/
def graphAttrsStmt (I : Iface σ) (w : Visitor) (c : Catcher σ) (as : AttrList) : Visitor × Catcher σ :=
  let attrs := Ast.getMap as
  ({ w with graphAttrs := overwrite w.graphAttrs attrs }, graphAttrsLoop I w.graphName c attrs)

mutual
/-- analyse.go:75-97 `stmtVisitor.Visit` driven by the `Walk` methods of ast.go: 599-606 (node statement; then a
`nilVisitor`, which ignores the rest), 513-521 (edge statement: visit, then walk the source, the right-hand sides
and the attribute list with the same visitor), 297-305, 269-277, 325-333 (defaults), 242-249 (subgraph),
462-469 (attribute). Visits of IDs, ports, operators and lists have no effect (analyse.go:91-96). -/
def walkStmt (I : Iface σ) (w : Visitor) (c : Catcher σ) : Stmt → Visitor × Catcher σ
  | .node id as => nodeStmt I w c id as
  | .edge src rhs as =>
    let (w, c) := edgeStmt I w c src rhs as
    let c := walkLoc I w c src
    (w, walkRHS I w c rhs)
  | .nodeAttrs as => ({ w with nodeAttrs := overwrite w.nodeAttrs (Ast.getMap as) }, c)
  | .edgeAttrs as => ({ w with edgeAttrs := overwrite w.edgeAttrs (Ast.getMap as) }, c)
  | .graphAttrs as => graphAttrsStmt I w c as
  | .sub id body =>
    let c := c.record (I.addSubGraph c.g w.graphName id w.graphAttrs)
    (w, (walkStmts I (newVisitor id w.nodeAttrs w.edgeAttrs) c body).2)
  | .attr a => (w, c.record (I.addAttr c.g w.graphName a.field a.value))
/-- ast.go:665-672 (node id: no effect) and 242-249 (subgraph: analyse.go:179-183 and its own visitor). -/
def walkLoc (I : Iface σ) (w : Visitor) (c : Catcher σ) : Loc → Catcher σ
  | .node _ => c
  | .sub id body =>
    let c := c.record (I.addSubGraph c.g w.graphName id w.graphAttrs)
    (walkStmts I (newVisitor id w.nodeAttrs w.edgeAttrs) c body).2
/-- ast.go:543-551 and 562-569. -/
def walkRHS (I : Iface σ) (w : Visitor) (c : Catcher σ) : List EdgeRH → Catcher σ
  | [] => c
  | .mk _ dst :: rest => walkRHS I w (walkLoc I w c dst) rest
/-- ast.go:164-172 `StmtList.Walk`. -/
def walkStmts (I : Iface σ) (w : Visitor) (c : Catcher σ) : List Stmt → Visitor × Catcher σ
  | [] => (w, c)
  | s :: ss =>
    let (w, c) := walkStmt I w c s
    walkStmts I w c ss
end

/-- analyse.go:31-35 `Analyse` with analyse.go:48-58 `graphVisitor.Visit` and ast.go:121-129 `Graph.Walk`:
the final state of the implementation and the catcher with all the errors. -/
def analyseC (I : Iface σ) (t : Ast.Graph) (g : σ) : Catcher σ :=
  let c : Catcher σ := ⟨g, []⟩
  let c := c.record (I.setStrict c.g t.strict)
  let c := c.record (I.setDir c.g t.type_)
  let c := c.record (I.setName c.g t.id)
  (walkStmts I (newVisitor t.id [] []) c t.stmts).2

/-- analyse.go:31-35 `Analyse`: the implementation's final state and the error (nil if `none`). -/
def analyse (I : Iface σ) (t : Ast.Graph) (g : σ) : σ × Option Str :=
  let c := analyseC I t g
  (c.g, c.getError)

/-- analyse.go:22-28 `NewAnalysedGraph`. -/
def newAnalysedGraph (t : Ast.Graph) : Except Str Graph :=
  match analyse graphIface t newGraph with
  | (g, none) => .ok g
  | (_, some e) => .error e

end Gographviz
