import Verif.Props.MergeProps
import Verif.Spec.Kind
/-!
C91: whether a graph is directed or strict changes nothing else.
-/
namespace Gographviz.Props

open Gographviz Spec Spec.Kind
open Gographviz.Ast (Stmt Loc EdgeRH)

namespace Kind

theorem addAttr_kind (g : Graph) (d s : Bool) (p f v : Str) : (g.kind d s).addAttr p f v = ((g.addAttr p f v).1.kind d s, (g.addAttr p f v).2) := by
  unfold Graph.addAttr
  have h1 : (g.kind d s).name = g.name := rfl
  have h2 : (g.kind d s).attrs = g.attrs := rfl
  have h3 : (g.kind d s).subGraphs = g.subGraphs := rfl
  rw [h1, h2, h3]
  by_cases hn : g.name = p
  · rw [if_pos hn, if_pos hn]
    cases attrsAdd g.attrs f v <;> rfl
  · rw [if_neg hn, if_neg hn]
    cases mget g.subGraphs p with
    | none => rfl
    | some x =>
      simp only
      cases attrsAdd x.attrs f v <;> rfl

theorem addAttrs_kind (n : Str) (as : List (Str × Str)) : ∀ (g : Graph) (d s : Bool),
    (g.kind d s).addAttrs n as = ((g.addAttrs n as).1.kind d s, (g.addAttrs n as).2) := by
  induction as with
  | nil => intro g d s; rfl
  | cons e as ih =>
    intro g d s
    obtain ⟨k, v⟩ := e
    simp only [Graph.addAttrs, addAttr_kind]
    rcases h : g.addAttr n k v with ⟨g', _ | e⟩
    · exact ih g' d s
    · rfl

theorem removeNode_kind (g : Graph) (d s : Bool) (p n : Str) : (g.kind d s).removeNode p n = ((g.removeNode p n).1.kind d s, (g.removeNode p n).2) := by
  unfold Graph.removeNode
  simp only [Graph.kind]
  rcases g.nodes.remove n with ⟨ns, _ | e⟩ <;> rfl

theorem removeNodes_kind (p : Str) (cs : List Str) : ∀ (g : Graph) (d s : Bool),
    (g.kind d s).removeNodes p cs = ((g.removeNodes p cs).1.kind d s, (g.removeNodes p cs).2) := by
  induction cs with
  | nil => intro g d s; rfl
  | cons c cs ih =>
    intro g d s
    simp only [Graph.removeNodes, removeNode_kind]
    rcases h : g.removeNode p c with ⟨g', _ | e⟩
    · exact ih g' d s
    · rfl

end Kind

/-- C91. Every other call returns the same error and does the same to a graph of any kind, and keeps the kind. -/
theorem C91_calls (g : Graph) (d s : Bool) {op : Op} (h : op.other = true) : (g.kind d s).step op = ((g.step op).1.kind d s, (g.step op).2) := by
  cases op with
  | setStrict b => cases h
  | setDir b => cases h
  | setName n => rfl
  | addPortEdge a ap b bp dir as =>
    simp only [Graph.step, Graph.addPortEdge]
    cases newAttrs as <;> rfl
  | addEdge a b dir as =>
    simp only [Graph.step, Graph.addEdge, Graph.addPortEdge]
    cases newAttrs as <;> rfl
  | addNode p n as =>
    simp only [Graph.step, Graph.addNode]
    cases newAttrs as <;> rfl
  | addAttr p f v => exact Kind.addAttr_kind g d s p f v
  | addSubGraph p n as => exact Kind.addAttrs_kind n as { g with relations := g.relations.add p n, subGraphs := subGraphsAdd g.subGraphs n } d s
  | removeNode p n => exact Kind.removeNode_kind g d s p n
  | removeSubGraph p n o =>
    simp only [Graph.step, Graph.removeSubGraph, Kind.removeNodes_kind]
    rcases h : g.removeNodes p o with ⟨g', _ | e⟩ <;> rfl

/-- C91. `SetDir` and `SetStrict` may be called at any time or not at all: the graph is that of the other calls with the kind that was set last, and the other calls
return the same errors; `SetDir` and `SetStrict` return none. -/
theorem C91_histories (ops : List Op) (g : Graph) :
    g.run ops = (g.run (ops.filter Op.other)).kind (lastDir g.directed ops) (lastStrict g.strict ops) ∧
    ((ops.zip (g.runErrs ops)).filter fun x => x.1.other).map Prod.snd = g.runErrs (ops.filter Op.other) ∧
    ∀ x ∈ ops.zip (g.runErrs ops), x.1.other = false → x.2 = none := by
  suffices ∀ (d s : Bool), (g.kind d s).run ops = (g.run (ops.filter Op.other)).kind (lastDir d ops) (lastStrict s ops) ∧
      ((ops.zip ((g.kind d s).runErrs ops)).filter fun x => x.1.other).map Prod.snd = g.runErrs (ops.filter Op.other) ∧
      ∀ x ∈ ops.zip ((g.kind d s).runErrs ops), x.1.other = false → x.2 = none from this g.directed g.strict
  induction ops generalizing g with
  | nil => intro d s; exact ⟨rfl, rfl, fun x hx => by cases hx⟩
  | cons op ops ih =>
    intro d s
    by_cases h : op.other = true
    · have hs := C91_calls g d s h
      have hi := ih (g.step op).1 d s
      have hd : lastDir d (op :: ops) = lastDir d ops := by cases op <;> first | rfl | cases h
      have hst : lastStrict s (op :: ops) = lastStrict s ops := by cases op <;> first | rfl | cases h
      rw [hd, hst]
      simp only [List.filter_cons, h, if_true, Graph.run, Graph.runErrs, hs, List.zip_cons_cons, List.map_cons, hi.1, hi.2.1, true_and]
      intro x hx hf
      rcases List.mem_cons.1 hx with rfl | hx
      · simp only at hf; rw [h] at hf; cases hf
      · exact hi.2.2 x hx hf
    · have h' : op.other = false := by cases h2 : op.other <;> simp_all
      cases op <;> try (exact absurd rfl h)
      · rename_i b
        have hi := ih g d b
        refine ⟨?_, ?_, ?_⟩
        · simp only [List.filter_cons, h', Graph.run, lastStrict, lastDir]; exact hi.1
        · simp only [List.filter_cons, h', Graph.runErrs, List.zip_cons_cons]; exact hi.2.1
        · intro x hx hf
          simp only [Graph.runErrs, List.zip_cons_cons] at hx
          rcases List.mem_cons.1 hx with rfl | hx
          · rfl
          · exact hi.2.2 x hx hf
      · rename_i b
        have hi := ih g b s
        refine ⟨?_, ?_, ?_⟩
        · simp only [List.filter_cons, h', Graph.run, lastStrict, lastDir]; exact hi.1
        · simp only [List.filter_cons, h', Graph.runErrs, List.zip_cons_cons]; exact hi.2.1
        · intro x hx hf
          simp only [Graph.runErrs, List.zip_cons_cons] at hx
          rcases List.mem_cons.1 hx with rfl | hx
          · rfl
          · exact hi.2.2 x hx hf

namespace Kind

theorem childLoop_kind (g : Graph) (d s : Bool) (rec_ : Written → Str → WRes ((Str × List Stmt) × Written)) (cs : List Str) :
    ∀ wr, childLoop (g.kind d s) rec_ wr cs = childLoop g rec_ wr cs := by
  induction cs with
  | nil => intro wr; rfl
  | cons c cs ih =>
    intro wr
    simp only [childLoop, ih]
    rfl

theorem newSubGraph_kind (g : Graph) (d s : Bool) (f : Nat) : newSubGraph (g.kind d s) f = newSubGraph g f := by
  induction f with
  | zero => rfl
  | succ f ih =>
    funext wr name
    simp only [newSubGraph, ih, childLoop_kind]
    rfl

theorem edgeStmts_kind (g : Graph) (d s : Bool) (f : Nat) (es : List Edge) : ∀ wr, edgeStmts (g.kind d s) f wr es = edgeStmts g f wr es := by
  induction es with
  | nil => intro wr; rfl
  | cons e es ih =>
    intro wr
    simp only [edgeStmts, newEdgeStmt, newLocation, newSubGraph_kind, ih]
    rfl

theorem rootSubs_kind (g : Graph) (d s : Bool) (f : Nat) (ss : List (Option SubGraph)) : ∀ wr, rootSubs (g.kind d s) f wr ss = rootSubs g f wr ss := by
  induction ss with
  | nil => intro wr; rfl
  | cons x ss ih =>
    intro wr
    cases x with
    | none => rfl
    | some x =>
      simp only [rootSubs, newSubGraph_kind, ih]
      rfl

theorem rootNodes_kind (g : Graph) (d s : Bool) (ns : List (Option Node)) : ∀ wr, rootNodes (g.kind d s) wr ns = rootNodes g wr ns := by
  induction ns with
  | nil => intro wr; rfl
  | cons x ns ih =>
    intro wr
    cases x with
    | none => rfl
    | some x =>
      simp only [rootNodes, ih]
      rfl

end Kind

/-- C91. The tree of a graph of another kind has the same name and the same statements; it fails in the same way. -/
theorem C91_written (sortE : List Edge → List Edge) (f : Nat) (g : Graph) (d s : Bool) :
    writeAst sortE f (g.kind d s) = (writeAst sortE f g).bind fun t => .ok ⟨d, s, t.id, t.stmts⟩ := by
  unfold writeAst
  have h1 : (g.kind d s).edges = g.edges := rfl
  have h2 : (g.kind d s).subGraphs = g.subGraphs := rfl
  have h3 : (g.kind d s).nodes = g.nodes := rfl
  simp only [Kind.edgeStmts_kind, Kind.rootSubs_kind, Kind.rootNodes_kind, h1, h2, h3]
  cases edgeStmts g f [] (sortE g.edges.edges) with
  | ok es =>
    simp only [WRes.bind]
    cases rootSubs g f es.2 (subGraphsSorted g.subGraphs) with
    | ok ss =>
      simp only
      cases rootNodes g ss.2 g.nodes.sorted <;> rfl
    | err e => rfl
    | panic => rfl
    | diverge => rfl
  | err e => rfl
  | panic => rfl
  | diverge => rfl

/-- C91. A document of another kind with the same name and statements gives the same graph of the other kind, and the same error. -/
theorem C91_read (d s : Bool) (t : Ast.Graph) (g : Graph) :
    analyse graphIface ⟨d, s, t.id, t.stmts⟩ g = ((analyse graphIface t g).1.kind d s, (analyse graphIface t g).2) := by
  have key : ∀ (cs : List Call), (∀ x ∈ cs, x.isSetter = false) → ∀ g : Graph,
      replay graphIface (g.kind d s) cs = ((replay graphIface g cs).1.kind d s, (replay graphIface g cs).2) := by
    intro cs
    induction cs with
    | nil => intro _ g; rfl
    | cons x cs ih =>
      intro hx g
      have hc : graphIface.call (g.kind d s) x = ((graphIface.call g x).1.kind d s, (graphIface.call g x).2) := by
        rw [graphIface_call, graphIface_call]
        apply C91_calls
        have := hx x (List.mem_cons_self ..)
        cases x <;> first | rfl | cases this
      simp only [replay, hc, ih (fun y hy => hx y (List.mem_cons_of_mem _ hy))]
  have hp : ∀ x ∈ stmtsCalls ⟨t.id, [], []⟩ [] t.stmts, x.isSetter = false :=
    fun x hx => (stmtsCalls_plain t.stmts ⟨t.id, [], []⟩ MapWF.nil MapWF.nil [] x hx).1
  have h1 : replay graphIface g (treeCalls ⟨d, s, t.id, t.stmts⟩) =
      replay graphIface (({ g with name := t.id, directed := t.type_, strict := t.strict } : Graph).kind d s) (stmtsCalls ⟨t.id, [], []⟩ [] t.stmts) := rfl
  have h2 : replay graphIface g (treeCalls t) =
      replay graphIface ({ g with name := t.id, directed := t.type_, strict := t.strict } : Graph) (stmtsCalls ⟨t.id, [], []⟩ [] t.stmts) := rfl
  unfold analyse
  rw [analyseC_eq, analyseC_eq, h1, h2, key _ hp]
  rfl

/-! `strict digraph { a -> b; a -> b }`. -/

namespace Kind
def twice : Ast.Graph := ⟨true, true, [], [.edge (.node (Merge.nd (b!"a"))) [.mk true (.node (Merge.nd (b!"b")))] [],
  .edge (.node (Merge.nd (b!"a"))) [.mk true (.node (Merge.nd (b!"b")))] []]⟩
def twiceGraph : Graph := (analyse graphIface twice newGraph).1
end Kind

/-- C91. Hence `strict` does not keep a graph from having an edge twice: it has both, and both are written. -/
theorem C91_strict_edge_twice : (analyse graphIface Kind.twice newGraph).2 = none ∧ Kind.twiceGraph.strict = true ∧
    Kind.twiceGraph.edges.edges.map (fun e => (e.src, e.dst)) = [(b!"a", b!"b"), (b!"a", b!"b")] ∧
    ∃ t, writeAst edgeInsertionSort 3 Kind.twiceGraph = .ok t ∧ t.strict = true ∧ t.stmts.length = 4 := by
  refine ⟨by decide +kernel, by decide +kernel, by decide +kernel, _, rfl, by decide +kernel, by decide +kernel⟩

/-- A history with `SetDir` and `SetStrict` in the middle, and what is left without them. -/
theorem example_kind : (newGraph.run [.addNode (b!"G") (b!"a") [], .setDir true, .addEdge (b!"a") (b!"b") true [], .setStrict true, .setDir false]) =
    (newGraph.run [.addNode (b!"G") (b!"a") [], .addEdge (b!"a") (b!"b") true []]).kind false true ∧
    (newGraph.run [.addNode (b!"G") (b!"a") [], .addEdge (b!"a") (b!"b") true []]).edges.edges.length = 1 := by decide +kernel

end Gographviz.Props
