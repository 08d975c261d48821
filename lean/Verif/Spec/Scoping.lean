import Verif.Model.Ast
/-!
Specification of the analyser: the sequence of calls that a syntax tree stands for. Nothing is threaded through: the calls of a
statement are given as a function of the statements that precede it in the same scope and of the defaults inherited by the scope.
-/
namespace Gographviz.Spec

open Gographviz Ast

/-- A call of a method of `Interface` with its arguments. -/
inductive Call where
  | setStrict (strict : Bool)
  | setDir (dir : Bool)
  | setName (name : Str)
  | addPortEdge (src srcPort dst dstPort : Str) (directed : Bool) (attrs : Map Str)
  | addNode (parent name : Str) (attrs : Map Str)
  | addAttr (parent field value : Str)
  | addSubGraph (parent name : Str) (attrs : Map Str)
  deriving DecidableEq, Repr

/-- The entries of an attribute list, in order. -/
def entries (as : AttrList) : List (Str × Str) := as.flatten.map fun a => (a.field, a.value)

/-- The map of an attribute list: the last value of each key. -/
def mapOf (as : AttrList) : Map Str := msetAll [] (entries as)

/-- A scope: the name of the (sub)graph and the defaults inherited when it was opened. -/
structure Scope where
  name : Str
  inhNode : Map Str
  inhEdge : Map Str

/-- The entries of the `node [..]` statements of a list of statements (nested scopes do not count). -/
def nodeDefaultEntries : List Stmt → List (Str × Str)
  | [] => []
  | .nodeAttrs as :: ss => entries as ++ nodeDefaultEntries ss
  | _ :: ss => nodeDefaultEntries ss

/-- The entries of the `edge [..]` statements. -/
def edgeDefaultEntries : List Stmt → List (Str × Str)
  | [] => []
  | .edgeAttrs as :: ss => entries as ++ edgeDefaultEntries ss
  | _ :: ss => edgeDefaultEntries ss

/-- The entries of the `graph [..]` statements. -/
def graphDefaultEntries : List Stmt → List (Str × Str)
  | [] => []
  | .graphAttrs as :: ss => entries as ++ graphDefaultEntries ss
  | _ :: ss => graphDefaultEntries ss

/-- The node defaults in force after the statements `pre` of the scope: inherited ones, overwritten in order. -/
def Scope.nodeDefaults (sc : Scope) (pre : List Stmt) : Map Str := msetAll sc.inhNode (nodeDefaultEntries pre)

/-- The edge defaults in force. -/
def Scope.edgeDefaults (sc : Scope) (pre : List Stmt) : Map Str := msetAll sc.inhEdge (edgeDefaultEntries pre)

/-- The graph attributes declared so far in the scope by `graph [..]`. -/
def graphDefaults (pre : List Stmt) : Map Str := msetAll [] (graphDefaultEntries pre)

/-- The node name of an endpoint, if it is a node. -/
def locNode : Loc → List Str
  | .node n => [n.id]
  | .sub _ _ => []

/-- The destinations of the right-hand sides. -/
def dests : List EdgeRH → List Loc
  | [] => []
  | .mk _ d :: rest => d :: dests rest

/-- The node names that a statement mentions in its own scope. -/
def mentions : Stmt → List Str
  | .node id _ => [nodeIDStr id]
  | .edge src rhs _ => (src :: dests rhs).flatMap locNode
  | _ => []

/-- The node names mentioned by the statements `pre` in their own scope. -/
def mentioned (pre : List Stmt) : List Str := pre.flatMap mentions

/-- Explicit attributes over defaults. -/
def over (explicit defaults : Map Str) : Map Str := msetAll defaults explicit

/-- Creation of an endpoint that is a node not yet mentioned. -/
def createCall (sc : Scope) (pre : List Stmt) (seen : List Str) : Loc → List Call
  | .node n => if n.id ∈ mentioned pre ++ seen then [] else [.addNode sc.name n.id (sc.nodeDefaults pre)]
  | .sub _ _ => []

/-- The calls for the operators of an edge statement, in order; `prev` is the endpoint to the left, `seen` the nodes mentioned by
the endpoints up to it. -/
def chainCalls (sc : Scope) (pre : List Stmt) (attrs : Map Str) (seen : List Str) (prev : Loc) : List EdgeRH → List Call
  | [] => []
  | .mk op d :: rest =>
    createCall sc pre seen d ++
    [.addPortEdge prev.getID (portStr prev.getPort) d.getID (portStr d.getPort) op attrs] ++
    chainCalls sc pre attrs (seen ++ locNode d) d rest

mutual
/-- The calls of one statement. -/
def stmtCalls (sc : Scope) (pre : List Stmt) : Stmt → List Call
  | .node id as =>
    [.addNode sc.name (nodeIDStr id) (over (mapOf as) (if nodeIDStr id ∈ mentioned pre then [] else sc.nodeDefaults pre))]
  | .edge src rhs as =>
    createCall sc pre [] src ++ chainCalls sc pre (over (mapOf as) (sc.edgeDefaults pre)) (locNode src) src rhs ++
    locCalls sc pre src ++ rhsCalls sc pre rhs
  | .nodeAttrs _ => []
  | .edgeAttrs _ => []
  | .graphAttrs as => (mapOf as).map fun e => .addAttr sc.name e.1 e.2
  | .sub id body =>
    .addSubGraph sc.name id (graphDefaults pre) ::
      stmtsCalls ⟨id, sc.nodeDefaults pre, sc.edgeDefaults pre⟩ [] body
  | .attr a => [.addAttr sc.name a.field a.value]
/-- The calls for a subgraph used as an endpoint. -/
def locCalls (sc : Scope) (pre : List Stmt) : Loc → List Call
  | .node _ => []
  | .sub id body =>
    .addSubGraph sc.name id (graphDefaults pre) ::
      stmtsCalls ⟨id, sc.nodeDefaults pre, sc.edgeDefaults pre⟩ [] body
/-- The calls for the subgraphs used as endpoints to the right. -/
def rhsCalls (sc : Scope) (pre : List Stmt) : List EdgeRH → List Call
  | [] => []
  | .mk _ dst :: rest => locCalls sc pre dst ++ rhsCalls sc pre rest
/-- The calls of the statements of a scope, `pre` being the statements already processed. -/
def stmtsCalls (sc : Scope) (pre : List Stmt) : List Stmt → List Call
  | [] => []
  | s :: ss => stmtCalls sc pre s ++ stmtsCalls sc (pre ++ [s]) ss
end

/-- The calls of a whole tree. -/
def treeCalls (t : Ast.Graph) : List Call :=
  [.setStrict t.strict, .setDir t.type_, .setName t.id] ++ stmtsCalls ⟨t.id, [], []⟩ [] t.stmts

/-- `Occurs t sc pre s`: the statement `s` stands in the tree `t` in scope `sc`, directly after the statements `pre` of that scope.
A subgraph, as a statement or as an endpoint of an edge, opens a scope that inherits the defaults in force where it stands. -/
inductive Occurs (t : Ast.Graph) : Scope → List Stmt → Stmt → Prop where
  | root {pre : List Stmt} {s : Stmt} {post : List Stmt} : t.stmts = pre ++ s :: post → Occurs t ⟨t.id, [], []⟩ pre s
  | inSub {sc : Scope} {pre : List Stmt} {id : Str} {body pre' : List Stmt} {s : Stmt} {post : List Stmt} :
    Occurs t sc pre (.sub id body) → body = pre' ++ s :: post →
    Occurs t ⟨id, sc.nodeDefaults pre, sc.edgeDefaults pre⟩ pre' s
  | inEnd {sc : Scope} {pre : List Stmt} {src : Loc} {rhs : List EdgeRH} {as : AttrList} {id : Str} {body pre' : List Stmt} {s : Stmt}
      {post : List Stmt} :
    Occurs t sc pre (.edge src rhs as) → Loc.sub id body ∈ src :: dests rhs → body = pre' ++ s :: post →
    Occurs t ⟨id, sc.nodeDefaults pre, sc.edgeDefaults pre⟩ pre' s

/-- One edge per operator, between consecutive endpoints, with the operator's direction and the endpoints' ports. -/
def consecutive (prev : Loc) (attrs : Map Str) : List EdgeRH → List Call
  | [] => []
  | .mk op d :: rest =>
    .addPortEdge prev.getID (portStr prev.getPort) d.getID (portStr d.getPort) op attrs :: consecutive d attrs rest

/-- The call makes an edge. -/
def Call.isEdge : Call → Bool
  | .addPortEdge .. => true
  | _ => false

/-- The attributes that the node statements directly among `ss` give explicitly to node `n`, in order. -/
def explicitEntries (n : Str) : List Stmt → List (Str × Str)
  | [] => []
  | .node id as :: ss => (if nodeIDStr id = n then entries as else []) ++ explicitEntries n ss
  | _ :: ss => explicitEntries n ss

end Gographviz.Spec
