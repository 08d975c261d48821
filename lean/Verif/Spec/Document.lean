import Verif.Spec.Replay
import Verif.Spec.Scoping
/-!
Specification for C66: what a document says, and what it means that a graph is what the document says. A document is a list of statements; attributes
are lists of entries of which the last one for a key counts. Nothing here mentions the analyser or the calls it makes.
-/
namespace Gographviz.Spec.Document

open Gographviz Gographviz.Ast Gographviz.Spec

/-- Entries: names and values in the order in which they are given. -/
abbrev Entries := List (Str × Str)

/-- A (sub)graph that a statement stands in: its name, and the entries of the `node [..]` and `edge [..]` statements in force when it was opened. -/
structure Ctx where
  name : Str
  node : Entries
  edge : Entries

/-- The `node [..]` entries in force after the statements `pre` of the (sub)graph. -/
def Ctx.nodeNow (c : Ctx) (pre : List Stmt) : Entries := c.node ++ nodeDefaultEntries pre

/-- The `edge [..]` entries in force. -/
def Ctx.edgeNow (c : Ctx) (pre : List Stmt) : Entries := c.edge ++ edgeDefaultEntries pre

/-- A subgraph opened after the statements `pre`. -/
def Ctx.inner (c : Ctx) (pre : List Stmt) (id : Str) : Ctx := ⟨id, c.nodeNow pre, c.edgeNow pre⟩

/-- A statement with the (sub)graph it stands in and the statements before it there. -/
structure Item where
  ctx : Ctx
  pre : List Stmt
  stmt : Stmt

mutual
/-- The items of a statement: itself and, if it is or has subgraphs, what is in them. A subgraph that is an end of an edge counts as a
subgraph statement. -/
def itemsStmt (c : Ctx) (pre : List Stmt) : Stmt → List Item
  | .edge src rhs as => ⟨c, pre, .edge src rhs as⟩ :: (itemsLoc c pre src ++ itemsRHS c pre rhs)
  | .sub id body => ⟨c, pre, .sub id body⟩ :: itemsStmts (c.inner pre id) [] body
  | s => [⟨c, pre, s⟩]
def itemsLoc (c : Ctx) (pre : List Stmt) : Loc → List Item
  | .node _ => []
  | .sub id body => ⟨c, pre, .sub id body⟩ :: itemsStmts (c.inner pre id) [] body
def itemsRHS (c : Ctx) (pre : List Stmt) : List EdgeRH → List Item
  | [] => []
  | .mk _ d :: rest => itemsLoc c pre d ++ itemsRHS c pre rest
def itemsStmts (c : Ctx) (pre : List Stmt) : List Stmt → List Item
  | [] => []
  | s :: ss => itemsStmt c pre s ++ itemsStmts c (pre ++ [s]) ss
end

/-- All the statements of a document, in document order. -/
def items (t : Ast.Graph) : List Item := itemsStmts ⟨t.id, [], []⟩ [] t.stmts

/-- The subgraph that the statement is. -/
def Item.sub (i : Item) : List Str := match i.stmt with
  | .sub id _ => [id]
  | _ => []

/-- What the statement gives the node `n`: a node statement its entries, over the `node [..]` entries in force unless the node was already
mentioned in this (sub)graph; an edge statement that mentions it first, the `node [..]` entries in force. -/
def Item.nodeEntries (n : Str) (i : Item) : Entries := match i.stmt with
  | .node id as => if nodeIDStr id = n then (if n ∈ mentioned i.pre then [] else i.ctx.nodeNow i.pre) ++ entries as else []
  | .edge .. => if n ∈ mentions i.stmt ∧ n ∉ mentioned i.pre then i.ctx.nodeNow i.pre else []
  | _ => []

/-- What the statement gives the graph or subgraph `n`: opening a subgraph, the `graph [..]` entries before it in the enclosing (sub)graph; `graph [..]` and `k=v`
their entries to the (sub)graph they stand in. -/
def Item.graphEntries (n : Str) (i : Item) : Entries := match i.stmt with
  | .sub id _ => if id = n then graphDefaultEntries i.pre else []
  | .graphAttrs as => if i.ctx.name = n then entries as else []
  | .attr a => if i.ctx.name = n then [(a.field, a.value)] else []
  | _ => []

/-- One edge per operator, between the ends to its left and right. -/
def edgesFrom (attrs : Str → Option Str) (prev : Loc) : List EdgeRH → List AEdge
  | [] => []
  | .mk op d :: rest => ⟨prev.getID, portStr prev.getPort, d.getID, portStr d.getPort, op, attrs⟩ :: edgesFrom attrs d rest

/-- The edges of the statement: its entries over the `edge [..]` entries in force. -/
def Item.edges (i : Item) : List AEdge := match i.stmt with
  | .edge src rhs as => edgesFrom (lastValue (i.ctx.edgeNow i.pre ++ entries as)) src rhs
  | _ => []

/-- A list with a further entry at the end, unless it has it. -/
def addFirst (acc : List Str) (x : Str) : List Str := if x ∈ acc then acc else acc ++ [x]

/-- The different entries of a list, in the order of their first occurrences. -/
def firsts (xs : List Str) : List Str := xs.foldl addFirst []

/-- What the statement needs: the entries that end up at a node, an edge, a subgraph or the graph. -/
def Item.used (i : Item) : Entries := match i.stmt with
  | .node id as => (if nodeIDStr id ∈ mentioned i.pre then [] else i.ctx.nodeNow i.pre) ++ entries as
  | .edge _ rhs as =>
    (if ∃ n ∈ mentions i.stmt, n ∉ mentioned i.pre then i.ctx.nodeNow i.pre else []) ++
    (if rhs = [] then [] else i.ctx.edgeNow i.pre ++ entries as)
  | .sub _ _ => graphDefaultEntries i.pre
  | .graphAttrs as => entries as
  | .attr a => [(a.field, a.value)]
  | _ => []

/-- The graph is what the document says. -/
structure Describes (t : Ast.Graph) (g : Gographviz.Graph) : Prop where
  name : g.name = t.id
  directed : g.directed = t.type_
  strict : g.strict = t.strict
  nodes : ∀ n, g.isNode n = true ↔ ∃ i ∈ items t, n ∈ mentions i.stmt
  /-- the list of nodes has each mentioned name once, in the order of first mention -/
  nodeOrder : g.nodes.list.map (fun p => (g.nodes.deref p).map Node.name) = (firsts ((items t).flatMap fun i => mentions i.stmt)).map some
  nodeAttrs : ∀ n nd, g.nodes.find n = some nd → ∀ k, mget nd.attrs k = lastValue ((items t).flatMap (Item.nodeEntries n)) k
  subs : ∀ n, g.isSubGraph n = true ↔ ∃ i ∈ items t, n ∈ i.sub
  /-- a subgraph with the name of the whole graph has no attributes of its own: they go to the graph -/
  subAttrs : ∀ n s, mget g.subGraphs n = some s → ∀ k, mget s.attrs k =
    if n = t.id then none else lastValue ((items t).flatMap (Item.graphEntries n)) k
  attrs : ∀ k, mget g.attrs k = lastValue ((items t).flatMap (Item.graphEntries t.id)) k
  children : ∀ p c, mhas (g.relations.children p) c = true ↔ ∃ i ∈ items t, i.ctx.name = p ∧ (c ∈ mentions i.stmt ∨ c ∈ i.sub)
  edges : g.edges.edges.map (fun e => AEdge.mk e.src e.srcPort e.dst e.dstPort e.dir (mget e.attrs)) = (items t).flatMap Item.edges

end Gographviz.Spec.Document
