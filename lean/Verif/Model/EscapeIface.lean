import Verif.Model.Analyse
import Verif.Model.Escape
/-!
`Analyse` with an `*Escape` as the implementation of `Interface`.
-/
namespace Gographviz

/-- escape.go: a call of a method of `*Escape` made by `Analyse`. `none` is the state after a panic: `Analyse` does not recover, so nothing happens any more. -/
def escCall (x : Option Graph) (f : Graph → Option (Graph × Option Err)) : Option Graph × Option Err := match x with
  | none => (none, none)
  | some g => match f g with
    | none => (none, none)
    | some (g', e) => (some g', e)

/-- escape.go:160-188 and the methods promoted from `*Graph` (escape.go:25-27): `*Escape` as an `Interface` (gographviz.go:29-39). -/
def escIface (U : Unicode) : Iface (Option Graph) where
  setStrict x b := escCall x fun g => escStep U g (.setStrict b)
  setDir x b := escCall x fun g => escStep U g (.setDir b)
  setName x n := escCall x fun g => escStep U g (.setName n)
  addPortEdge x s sp d dp dir m := escCall x fun g => escStep U g (.addPortEdge s sp d dp dir m)
  addNode x p n m := escCall x fun g => escStep U g (.addNode p n m)
  addAttr x p f v := escCall x fun g => escStep U g (.addAttr p f v)
  addSubGraph x p n m := escCall x fun g => escStep U g (.addSubGraph p n m)

/-- analyse.go:31-35 `Analyse(tree, escape)`: the graph inside the `Escape` and the error; `none` if it panics. -/
def analyseEscape (U : Unicode) (t : Ast.Graph) (g : Graph) : Option (Graph × Option Str) :=
  match analyse (escIface U) t (some g) with
  | (some g', e) => some (g', e)
  | (none, _) => none

end Gographviz
