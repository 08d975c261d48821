import Verif.Model.GoMap
/-!
ast/ast.go: the syntax tree and its printer.
-/
namespace Gographviz.Ast

open Gographviz

/-- ast.go:436-439. -/
structure Attr where
  field : Str
  value : Str
  deriving DecidableEq, Repr

/-- ast.go:403. -/
abbrev AList := List Attr

/-- ast.go:335. -/
abbrev AttrList := List AList

/-- ast.go:675-678. -/
structure Port where
  id1 : Str
  id2 : Str
  deriving DecidableEq, Repr

/-- ast.go:629-632. -/
structure NodeID where
  id : Str
  port : Port
  deriving DecidableEq, Repr

mutual
/-- ast.go:174-187: the seven kinds of statements. A `*SubGraph` (ast.go:189-192) is its ID and its statement list (nil
and empty lists behave identically everywhere). -/
inductive Stmt where
  /-- ast.go:571-574 `NodeStmt` -/
  | node (id : NodeID) (attrs : AttrList)
  /-- ast.go:485-489 `EdgeStmt` -/
  | edge (src : Loc) (rhs : List EdgeRH) (attrs : AttrList)
  /-- ast.go:279 `NodeAttrs` -/
  | nodeAttrs (attrs : AttrList)
  /-- ast.go:251 `EdgeAttrs` -/
  | edgeAttrs (attrs : AttrList)
  /-- ast.go:307 `GraphAttrs` -/
  | graphAttrs (attrs : AttrList)
  /-- ast.go:189-192 `*SubGraph` as a statement -/
  | sub (id : Str) (body : List Stmt)
  /-- ast.go:436-439 `*Attr` as a statement -/
  | attr (a : Attr)
/-- ast.go:471-483 `Location`: a `*NodeID` or a `*SubGraph`. -/
inductive Loc where
  | node (n : NodeID)
  | sub (id : Str) (body : List Stmt)
/-- ast.go:553-556; `op = true` is `DIRECTED` (ast.go:608-613). -/
inductive EdgeRH where
  | mk (op : Bool) (dst : Loc)
end

/-- ast.go:90-95 `Graph`; `type_ = true` is `DIGRAPH` (ast.go:69-74). -/
structure Graph where
  type_ : Bool
  strict : Bool
  id : Str
  stmts : List Stmt

/-! ### Printing -/

/-- ast.go:691-700 `Port.String`. -/
def portStr (p : Port) : Str :=
  if p.id1.length = 0 then []
  else [58] ++ p.id1 ++ (if p.id2.length > 0 then [58] ++ p.id2 else [])

/-- ast.go:653-655 `NodeID.String`. -/
def nodeIDStr (n : NodeID) : Str := n.id ++ portStr n.port

/-- ast.go:458-460 `Attr.indentString`. -/
def attrStr (indent : Str) (a : Attr) : Str := indent ++ a.field ++ b!"=" ++ a.value

/-- ast.go:423-425: the loop of `AList.String` over the elements after the first. -/
def alistTail : List Attr → Str
  | [] => []
  | a :: as => b!", " ++ attrStr [] a ++ alistTail as

/-- ast.go:418-427 `AList.String`. -/
def alistStr : AList → Str
  | [] => []
  | a :: as => attrStr [] a ++ alistTail as

/-- ast.go:354-366 `AttrList.String`. -/
def attrListStr : AttrList → Str
  | [] => []
  | al :: als =>
    let ss := alistStr al
    (if ss.length > 0 then b!"[ " ++ ss ++ b!" ] " else []) ++ attrListStr als

/-- ast.go:615-620 `EdgeOp.String`. -/
def opStr (op : Bool) : Str := if op then b!"->" else b!"--"

/-- ast.go:261-267, 289-295, 317-323: default attribute statements. -/
def defaultsStr (indent kw : Str) (as : AttrList) : Str :=
  let s := attrListStr as
  if s.length = 0 then [] else indent ++ kw ++ b!" " ++ s

mutual
/-- `indentString` of the statement kinds: ast.go:595-597 (node), 509-511 (edge), 289-295, 261-267, 317-323 (defaults),
228-240 (subgraph; the computed `gName` is not used), 458-460 (attribute). -/
def stmtStr (indent : Str) : Stmt → Str
  | .node id as => indent ++ trimSpace (nodeIDStr id ++ b!" " ++ attrListStr as)
  | .edge src rhs as => indent ++ trimSpace (locStr src ++ trimSpace (rhsStr rhs) ++ b!" " ++ attrListStr as)
  | .nodeAttrs as => defaultsStr indent (b!"node") as
  | .edgeAttrs as => defaultsStr indent (b!"edge") as
  | .graphAttrs as => defaultsStr indent (b!"graph") as
  | .sub id body =>
    indent ++ b!"subgraph " ++ id ++ b!" {\n" ++ trimSuffixNL (stmtsLines (indent ++ b!"\t") body) ++ b!"\n" ++ indent ++ b!"}"
  | .attr a => attrStr indent a
/-- ast.go:653-655 and 224-226: `String` of a location (a subgraph is printed with empty indent). -/
def locStr : Loc → Str
  | .node n => nodeIDStr n
  | .sub id body =>
    b!"subgraph " ++ id ++ b!" {\n" ++ trimSuffixNL (stmtsLines (b!"\t") body) ++ b!"\n" ++ b!"}"
/-- ast.go:535-541 `EdgeRHS.String` before the final `TrimSpace`, with ast.go:558-560 `EdgeRH.String`. -/
def rhsStr : List EdgeRH → Str
  | [] => []
  | .mk op dst :: rest => trimSpace (opStr op ++ locStr dst) ++ rhsStr rest
/-- ast.go:149-159: the loop of `StmtList.indentString`. -/
def stmtsLines (indent : Str) : List Stmt → Str
  | [] => []
  | s :: ss =>
    let str := stmtStr indent s
    (if str.length > 0 then str ++ b!";\n" else []) ++ stmtsLines indent ss
end

/-- ast.go:149-162 `StmtList.indentString`. -/
def stmtListStr (indent : Str) (ss : List Stmt) : Str := trimSuffixNL (stmtsLines indent ss)

/-- ast.go:145-147 `StmtList.String`. -/
def stmtListString (ss : List Stmt) : Str := stmtListStr [] ss

/-- `String` of the statement kinds, all of which call `indentString("")`: ast.go:224-226 (subgraph), 257-259, 285-287, 313-315 (defaults), 454-456 (attribute), 505-507 (edge),
591-593 (node). -/
def stmtString (s : Stmt) : Str := stmtStr [] s

/-- ast.go:76-81 `GraphType.String`. -/
def typeStr (t : Bool) : Str := if t then b!"digraph" else b!"graph"

/-- ast.go:108-119 `Graph.String`. -/
def graphStr (g : Graph) : Str :=
  (if g.strict then b!"strict " else []) ++ typeStr g.type_ ++ b!" " ++ g.id ++ b!" {\n" ++
    stmtListStr (b!"\t") g.stmts ++ b!"\n}\n"

/-! ### Helpers used by the analyser and the writer -/

/-- ast.go:395-399: the loops of `GetMap` over one `AList` list. -/
def getMapFrom (m : Map Str) : AttrList → Map Str
  | [] => m
  | al :: als => getMapFrom (msetAll m (al.map fun a => (a.field, a.value))) als

/-- ast.go:393-401 `AttrList.GetMap`: later occurrences of a field overwrite earlier ones. -/
def getMap (as : AttrList) : Map Str := getMapFrom [] as

/-- ast.go:378-391 `PutMap`: one `AList` with the entries in ascending key order. -/
def putMap (m : Map Str) : AttrList :=
  [(ssort (mkeys m)).map fun k => ⟨k, mgetS m k⟩]

/-- ast.go:641-651 `MakeNodeID`. -/
def makeNodeID (id port : Str) : NodeID :=
  if port.length > 0 then
    match splitColon port with
    | [] => ⟨id, ⟨[], []⟩⟩
    | [p1] => ⟨id, ⟨p1, []⟩⟩
    | p1 :: p2 :: _ => ⟨id, ⟨p1, p2⟩⟩
  else ⟨id, ⟨[], []⟩⟩

/-- ast.go:657-663, 216-222: `GetID` of a location. -/
def Loc.getID : Loc → Str
  | .node n => n.id
  | .sub id _ => id

/-- ast.go:661-663, 220-222: `GetPort` of a location. -/
def Loc.getPort : Loc → Port
  | .node n => n.port
  | .sub _ _ => ⟨[], []⟩

/-- ast.go:480-483 `IsNode`. -/
def Loc.isNode : Loc → Bool
  | .node _ => true
  | .sub _ _ => false

end Gographviz.Ast
