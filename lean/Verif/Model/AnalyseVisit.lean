import Verif.Model.Analyse
import Verif.Model.Walk
import Verif.Model.Parser
/-!
analyse.go: the visitors as objects, driven by the `Walk` methods of ast.go, with the iteration order of every `range` over an
attribute map left open. (`Model/Analyse.lean` is the same analyser with the traversal unrolled and maps visited in key order;
`Proofs/AnyOrder.lean` proves that they agree.)
-/
namespace Gographviz

open Ast (Stmt Loc EdgeRH AttrList NodeID Elem Vis)

variable {σ : Type}

/-- The three visitor types: analyse.go:37-42 `nilVisitor`, 44-46 `graphVisitor`, 66-73 `stmtVisitor` (a pointer). -/
inductive VRef where
  | nilV
  | graphV
  | stmtV (p : Nat)

/-- Everything the visitors can change: the `stmtVisitor` objects created so far (allocation is appending) and the error catcher with the
`Interface` behind it. -/
structure VState (σ : Type) where
  heap : List Visitor
  c : Catcher σ

/-- analyse.go:60-64 `newStmtVisitor`: allocation. -/
def VState.alloc (s : VState σ) (w : Visitor) : Option VRef × VState σ :=
  (some (.stmtV s.heap.length), { s with heap := s.heap ++ [w] })

/-- Storing the fields of the visitor object `p` and the catcher after one of the methods of analyse.go. -/
def VState.store (s : VState σ) (p : Nat) (r : Visitor × Catcher σ) : VState σ := ⟨s.heap.set p r.1, r.2⟩

/-- analyse.go:170-177 `graphAttrs`; `ord` gives the order in which the `range` of line 172 visits the map. -/
def graphAttrsAny (I : Iface σ) (ord : σ → Map Str → List (Str × Str)) (w : Visitor) (c : Catcher σ) (as : AttrList) :
    Visitor × Catcher σ :=
  let attrs := Ast.getMap as
  ({ w with graphAttrs := overwrite w.graphAttrs attrs }, graphAttrsLoop I w.graphName c (ord c.g attrs))

/-- analyse.go:75-97 `stmtVisitor.Visit` of the object `p` with fields `w`. -/
def stmtVisit (I : Iface σ) (ord : σ → Map Str → List (Str × Str)) (p : Nat) (w : Visitor) (e : Elem) (s : VState σ) :
    Option VRef × VState σ :=
  match e with
  | .nodeStmt id as => (some .nilV, s.store p (nodeStmt I w s.c id as))
  | .edgeStmt src rhs as => (some (.stmtV p), s.store p (edgeStmt I w s.c src rhs as))
  | .nodeAttrs as => (some .nilV, s.store p ({ w with nodeAttrs := overwrite w.nodeAttrs (Ast.getMap as) }, s.c))
  | .edgeAttrs as => (some .nilV, s.store p ({ w with edgeAttrs := overwrite w.edgeAttrs (Ast.getMap as) }, s.c))
  | .graphAttrs as => (some .nilV, s.store p (graphAttrsAny I ord w s.c as))
  | .subGraph id _ =>
    let s := s.store p (w, s.c.record (I.addSubGraph s.c.g w.graphName id w.graphAttrs))
    s.alloc (newVisitor id w.nodeAttrs w.edgeAttrs)
  | .attr a => (some (.stmtV p), s.store p (w, s.c.record (I.addAttr s.c.g w.graphName a.field a.value)))
  | .attrList _ => (some .nilV, s)
  | _ => (some (.stmtV p), s)

/-- analyse.go:48-58 `graphVisitor.Visit`. -/
def graphVisit (I : Iface σ) (e : Elem) (s : VState σ) : Option VRef × VState σ :=
  match e with
  | .graph t =>
    let c := s.c.record (I.setStrict s.c.g t.strict)
    let c := c.record (I.setDir c.g t.type_)
    let c := c.record (I.setName c.g t.id)
    VState.alloc { s with c := c } (newVisitor t.id [] [])
  | _ => (some .graphV, s)

/-- The `Visit` methods of the three visitor types (40-42, 48-58, 75-97). A pointer to an object that does not exist cannot occur. -/
def analyseVis (I : Iface σ) (ord : σ → Map Str → List (Str × Str)) : Vis VRef (VState σ) := fun v e s =>
  match v with
    | .nilV => (some .nilV, s)
    | .graphV => graphVisit I e s
    | .stmtV p => match s.heap[p]? with
      | none => (none, s)
      | some w => stmtVisit I ord p w e s

/-- analyse.go:31-35 `Analyse`: `graph.Walk(&graphVisitor{gerr})`, and the catcher afterwards (`none`: a panic). -/
def analyseAny (I : Iface σ) (ord : σ → Map Str → List (Str × Str)) (t : Ast.Graph) (g : σ) : Option (Catcher σ) :=
  (Ast.walkGraph (analyseVis I ord) (some .graphV) t ⟨[], ⟨g, []⟩⟩).map VState.c

/-- graph.go: `*Graph` as an `Interface`, with a counter of the calls made so far. In the call number `i` the `range` over the argument
map visits its entries in the order `ord i`. -/
def graphIfaceAny (ord : Nat → Map Str → List (Str × Str)) : Iface (Graph × Nat) :=
  let next (i : Nat) (r : Graph × Option Err) : (Graph × Nat) × Option Err := ((r.1, i + 1), r.2)
  { setStrict := fun g b => next g.2 (g.1.setStrict b)
    setDir := fun g b => next g.2 (g.1.setDir b)
    setName := fun g n => next g.2 (g.1.setName n)
    addPortEdge := fun g s sp d dp dir m => next g.2 (g.1.addPortEdge s sp d dp dir (ord g.2 m))
    addNode := fun g p n m => next g.2 (g.1.addNode p n (ord g.2 m))
    addAttr := fun g p f v => next g.2 (g.1.addAttr p f v)
    addSubGraph := fun g p n m => next g.2 (g.1.addSubGraph p n (ord g.2 m)) }

/-- analyse.go:22-28 `NewAnalysedGraph` where the `range` loops in `Graph`'s methods use the orders `ord` and those of analyse.go:172
the orders `ord'` (both indexed by the number of calls made before). -/
def newAnalysedGraphAny (ord ord' : Nat → Map Str → List (Str × Str)) (t : Ast.Graph) : Option (Except Str Graph) :=
  (analyseAny (graphIfaceAny ord) (fun g m => ord' g.2 m) t (newGraph, 0)).map fun c =>
    match c.getError with
    | none => .ok c.g.1
    | some e => .error e

/-- gographviz.go:52-58 `Read` with open iteration orders. -/
def readAny (ord ord' : Nat → Map Str → List (Str × Str)) (rnd : Nat → Nat) (cnt : Nat) (src : Str) : Parse.ReadRes :=
  match Parse.parseBytes rnd cnt src with
  | .ok t _ => match newAnalysedGraphAny ord ord' t with
    | some (.ok g) => .ok g
    | some (.error m) => .analyseErr m
    | none => .panic
  | .syntaxErr _ _ => .parseErr
  | .reduceErr _ => .parseErr
  | .panic => .panic
  | .diverge => .diverge

end Gographviz
