import Verif.Spec.Document
import Verif.Spec.Independence
/-!
Specification for C84: statements of a document whose order is irrelevant.
-/
namespace Gographviz.Spec.Document

open Gographviz Gographviz.Ast Gographviz.Spec

/-- `node [..]`, `edge [..]` and `graph [..]` concern the statements after them. -/
def concernsLater : Stmt → Bool
  | .nodeAttrs _ => true
  | .edgeAttrs _ => true
  | .graphAttrs _ => true
  | _ => false

/-- What the statement, standing after `pre`, gives the node `n`, with the statements in its subgraphs. -/
def givesNode (c : Ctx) (pre : List Stmt) (s : Stmt) (n : Str) : Entries := (itemsStmt c pre s).flatMap (Item.nodeEntries n)

/-- What it gives the graph or subgraph `n`. -/
def givesGraph (c : Ctx) (pre : List Stmt) (s : Stmt) (n : Str) : Entries := (itemsStmt c pre s).flatMap (Item.graphEntries n)

/-- The two statements, next to each other after `pre`, give nothing two different values. -/
structure IndependentStmts (c : Ctx) (pre : List Stmt) (s s' : Stmt) : Prop where
  plain : concernsLater s = false
  plain' : concernsLater s' = false
  nodes : ∀ n, NoClash (givesNode c (pre ++ [s']) s n) (givesNode c (pre ++ [s]) s' n)
  graphs : ∀ n, NoClash (givesGraph c pre s n) (givesGraph c pre s' n)

/-- Lists of statements of a (sub)graph that differ in the order of independent statements only, there or in subgraphs. -/
inductive Rearranged : Ctx → List Stmt → List Stmt → Prop where
  | refl (c : Ctx) (ss : List Stmt) : Rearranged c ss ss
  | swap {c : Ctx} {s s' : Stmt} (pre post : List Stmt) : IndependentStmts c pre s s' → Rearranged c (pre ++ s :: s' :: post) (pre ++ s' :: s :: post)
  | inside {c : Ctx} {id : Str} {body body' : List Stmt} (pre post : List Stmt) : Rearranged (c.inner pre id) body body' →
      Rearranged c (pre ++ .sub id body :: post) (pre ++ .sub id body' :: post)
  | insideSource {c : Ctx} {id : Str} {body body' : List Stmt} (pre post : List Stmt) (rhs : List EdgeRH) (as : AttrList) : Rearranged (c.inner pre id) body body' →
      Rearranged c (pre ++ .edge (.sub id body) rhs as :: post) (pre ++ .edge (.sub id body') rhs as :: post)
  | insideTarget {c : Ctx} {id : Str} {body body' : List Stmt} (pre post : List Stmt) (src : Loc) (r1 r2 : List EdgeRH) (op : Bool) (as : AttrList) :
      Rearranged (c.inner pre id) body body' →
      Rearranged c (pre ++ .edge src (r1 ++ .mk op (.sub id body) :: r2) as :: post) (pre ++ .edge src (r1 ++ .mk op (.sub id body') :: r2) as :: post)
  | trans {c : Ctx} {a b d : List Stmt} : Rearranged c a b → Rearranged c b d → Rearranged c a d

end Gographviz.Spec.Document
