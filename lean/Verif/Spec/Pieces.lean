import Verif.Spec.Replay
import Verif.Spec.Scoping
/-!
Specification for C89: a document that is given in pieces.
-/
namespace Gographviz.Spec.Pieces

open Gographviz Gographviz.Ast Gographviz.Spec

/-- No `node [..]`, `edge [..]` or `graph [..]` with entries among the statements themselves (in their subgraphs there may be any). -/
def NoDefaults (ss : List Stmt) : Prop := nodeDefaultEntries ss = [] ∧ edgeDefaultEntries ss = [] ∧ graphDefaultEntries ss = []

/-- Where the second list of statements mentions, for the first time, a node that the first one mentions, it has given no `node [..]` entries yet. -/
def NoLateDefaults (first second : List Stmt) : Prop :=
  ∀ pre s post, second = pre ++ s :: post → (∃ n ∈ mentions s, n ∈ mentioned first ∧ n ∉ mentioned pre) → nodeDefaultEntries pre = []

/-- The document with the statements of two documents (and the header of the first). -/
def joined (t1 t2 : Ast.Graph) : Ast.Graph := ⟨t1.type_, t1.strict, t1.id, t1.stmts ++ t2.stmts⟩

/-- The documents say the same before the brace. -/
def SameHeader (t1 t2 : Ast.Graph) : Prop := t1.type_ = t2.type_ ∧ t1.strict = t2.strict ∧ t1.id = t2.id

/-- `Analyse` of one document after the other on the same graph, as long as there is no error. -/
def analyseAll (I : Iface Gographviz.Graph) (type_ strict : Bool) (name : Str) : List (List Stmt) → Gographviz.Graph → Gographviz.Graph × Option Str
  | [], g => (g, none)
  | ss :: rest, g => match analyse I ⟨type_, strict, name, ss⟩ g with
    | (g', none) => analyseAll I type_ strict name rest g'
    | (g', some e) => (g', some e)

end Gographviz.Spec.Pieces
