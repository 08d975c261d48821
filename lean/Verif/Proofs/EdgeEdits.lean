import Verif.Spec.EdgeEdits
import Verif.Proofs.Graph
/-!
Assignments to `g.Edges.Edges`: the maps `SrcToDsts` and `DstToSrcs` are never read, so an edited graph goes on like a graph made by calls alone.
-/
namespace Gographviz

open Spec
open Ast (Stmt Loc EdgeRH)

namespace EdgeEdit

/-- The graph with other edges. -/
def withE (g : Graph) (E : Edges) : Graph := { g with edges := E }

/-! ### the writer looks only at the slice -/

theorem childLoop_withE (g : Graph) (E : Edges) (rec_ : Written → Str → WRes ((Str × List Stmt) × Written)) (wr : Written) (cs : List Str) :
    childLoop (withE g E) rec_ wr cs = childLoop g rec_ wr cs := by
  induction cs generalizing wr with
  | nil => rfl
  | cons c cs ih =>
    simp only [childLoop, ih]
    rfl

theorem newSubGraph_withE (g : Graph) (E : Edges) (f : Nat) : newSubGraph (withE g E) f = newSubGraph g f := by
  induction f with
  | zero => rfl
  | succ f ih =>
    funext wr n
    simp only [newSubGraph, ih, childLoop_withE]
    rfl

theorem newLocation_withE (g : Graph) (E : Edges) (f : Nat) (wr : Written) (n p : Str) : newLocation (withE g E) f wr n p = newLocation g f wr n p := by
  simp only [newLocation, newSubGraph_withE]
  rfl

theorem edgeStmts_withE (g : Graph) (E : Edges) (f : Nat) (wr : Written) (es : List Edge) : edgeStmts (withE g E) f wr es = edgeStmts g f wr es := by
  induction es generalizing wr with
  | nil => rfl
  | cons e es ih => simp only [edgeStmts, newEdgeStmt, newLocation_withE, ih]

theorem rootSubs_withE (g : Graph) (E : Edges) (f : Nat) (wr : Written) (ss : List (Option SubGraph)) :
    rootSubs (withE g E) f wr ss = rootSubs g f wr ss := by
  induction ss generalizing wr with
  | nil => rfl
  | cons s ss ih =>
    cases s with
    | none => rfl
    | some s =>
      simp only [rootSubs, newSubGraph_withE, ih]
      rfl

theorem rootNodes_withE (g : Graph) (E : Edges) (wr : Written) (ns : List (Option Node)) : rootNodes (withE g E) wr ns = rootNodes g wr ns := by
  induction ns generalizing wr with
  | nil => rfl
  | cons n ns ih =>
    cases n with
    | none => rfl
    | some n =>
      simp only [rootNodes, ih]
      rfl

theorem writeAst_withE (g : Graph) {E : Edges} (h : E.edges = g.edges.edges) (sortE : List Edge → List Edge) (f : Nat) :
    writeAst sortE f (withE g E) = writeAst sortE f g := by
  unfold writeAst
  simp only [edgeStmts_withE, rootSubs_withE, rootNodes_withE]
  show (edgeStmts g f [] (sortE E.edges)).bind _ = _
  rw [h]
  rfl

/-! ### a call does the same whatever the edges are, and makes of the slice the same -/

theorem addAttr_withE (g : Graph) (E : Edges) (p f v : Str) :
    (withE g E).addAttr p f v = (withE (g.addAttr p f v).1 E, (g.addAttr p f v).2) := by
  unfold Graph.addAttr
  simp only [withE]
  by_cases hp : g.name = p
  · subst hp
    simp only [↓reduceIte]
    cases attrsAdd g.attrs f v <;> rfl
  · simp only [hp, ↓reduceIte]
    cases mget g.subGraphs p with
    | none => rfl
    | some sub =>
      simp only
      cases attrsAdd sub.attrs f v <;> rfl

theorem addAttr_edges (g : Graph) (p f v : Str) : (g.addAttr p f v).1.edges = g.edges := by
  unfold Graph.addAttr
  by_cases hp : g.name = p
  · simp only [hp, ↓reduceIte]
    cases attrsAdd g.attrs f v <;> rfl
  · simp only [hp, ↓reduceIte]
    cases mget g.subGraphs p with
    | none => rfl
    | some sub =>
      simp only
      cases attrsAdd sub.attrs f v <;> rfl

theorem addAttrs_withE (g : Graph) (E : Edges) (n : Str) (kvs : List (Str × Str)) :
    (withE g E).addAttrs n kvs = (withE (g.addAttrs n kvs).1 E, (g.addAttrs n kvs).2) := by
  induction kvs generalizing g with
  | nil => rfl
  | cons kv kvs ih =>
    obtain ⟨k, v⟩ := kv
    simp only [Graph.addAttrs, addAttr_withE]
    rcases hx : g.addAttr n k v with ⟨g1, _ | e⟩
    · simp only [ih]
    · rfl

theorem addAttrs_edges (g : Graph) (n : Str) (kvs : List (Str × Str)) : (g.addAttrs n kvs).1.edges = g.edges := by
  induction kvs generalizing g with
  | nil => rfl
  | cons kv kvs ih =>
    obtain ⟨k, v⟩ := kv
    have ha := addAttr_edges g n k v
    simp only [Graph.addAttrs]
    rcases hx : g.addAttr n k v with ⟨g1, _ | e⟩
    · rw [hx] at ha
      simp only [ih]
      exact ha
    · rw [hx] at ha
      exact ha

/-- What relates two graphs: everything but the edges is the same, the slices of edges are the same. -/
def Rel (g g' : Graph) : Prop := ∃ E, g' = withE g E ∧ E.edges = g.edges.edges

theorem removeNode_withE (g : Graph) (E : Edges) (p n : Str) : ∃ E', (withE g E).removeNode p n = (withE (g.removeNode p n).1 E', (g.removeNode p n).2) ∧
    (E.edges = g.edges.edges → E'.edges = (g.removeNode p n).1.edges.edges) ∧ (E.edges = [] ∧ E = newEdges → E' = newEdges) ∧
    (E.edges = g.edges.edges → (g.removeNode p n).2 = none → E' = (g.removeNode p n).1.edges) := by
  unfold Graph.removeNode
  simp only [withE]
  rcases g.nodes.remove n with ⟨ns, _ | e⟩
  · refine ⟨edgesRebuild (fun e => !(decide (e.dst = n) || decide (e.src = n))) E.edges, rfl, fun h => ?_, ?_, fun h _ => ?_⟩
    · simp only [h]
    · rintro ⟨-, rfl⟩; rfl
    · simp only [h]
  · exact ⟨E, rfl, fun h => h, fun h => h.2, fun _ h => nomatch h⟩

theorem removeNodes_withE (g : Graph) (E : Edges) (p : Str) (cs : List Str) : ∃ E', (withE g E).removeNodes p cs = (withE (g.removeNodes p cs).1 E', (g.removeNodes p cs).2) ∧
    (E.edges = g.edges.edges → E'.edges = (g.removeNodes p cs).1.edges.edges) ∧ (E.edges = [] ∧ E = newEdges → E' = newEdges) := by
  induction cs generalizing g E with
  | nil => exact ⟨E, rfl, fun h => h, fun h => h.2⟩
  | cons c cs ih =>
    obtain ⟨E1, he, h1, h2, -⟩ := removeNode_withE g E p c
    simp only [Graph.removeNodes, he]
    rcases hx : g.removeNode p c with ⟨g1, _ | e⟩
    · rw [hx] at h1
      simp only
      obtain ⟨E2, he2, h3, h4⟩ := ih g1 E1
      refine ⟨E2, he2, fun h => h3 (h1 h), fun h => h4 ?_⟩
      rw [h2 h]
      exact ⟨rfl, rfl⟩
    · rw [hx] at h1
      exact ⟨E1, rfl, h1, h2⟩

theorem removeSubGraph_withE (g : Graph) (E : Edges) (p n : Str) (o : List Str) :
    ∃ E', (withE g E).removeSubGraph p n o = (withE (g.removeSubGraph p n o).1 E', (g.removeSubGraph p n o).2) ∧
    (E.edges = g.edges.edges → E'.edges = (g.removeSubGraph p n o).1.edges.edges) ∧ (E.edges = [] ∧ E = newEdges → E' = newEdges) ∧
    (E.edges = g.edges.edges → (g.removeSubGraph p n o).2 = none → E' = (g.removeSubGraph p n o).1.edges) := by
  obtain ⟨E1, he, h1, h2⟩ := removeNodes_withE g E p o
  unfold Graph.removeSubGraph
  rw [he]
  rcases hx : g.removeNodes p o with ⟨g1, _ | e⟩ <;> rw [hx] at h1
  · simp only at h1 ⊢
    refine ⟨_, rfl, fun h => ?_, fun h => ?_, fun h _ => ?_⟩
    · simp only [withE, h1 h]
    · simp only [withE, h2 h]; rfl
    · simp only [withE, h1 h]
  · exact ⟨E1, rfl, h1, h2, fun _ h => nomatch h⟩

/-- One call, on a graph with other edges. -/
theorem step_withE (g : Graph) (E : Edges) (op : Op) : ∃ E', (withE g E).step op = (withE (g.step op).1 E', (g.step op).2) ∧
    (E.edges = g.edges.edges → E'.edges = (g.step op).1.edges.edges) := by
  cases op with
  | setStrict b => exact ⟨E, rfl, fun h => h⟩
  | setDir b => exact ⟨E, rfl, fun h => h⟩
  | setName n => exact ⟨E, rfl, fun h => h⟩
  | addPortEdge s sp d dp dir as =>
    simp only [Graph.step, Graph.addPortEdge]
    cases newAttrs as with
    | error e => exact ⟨E, rfl, fun h => h⟩
    | ok as => exact ⟨_, rfl, fun h => by simp only [Edges.add]; rw [← h]; rfl⟩
  | addEdge s d dir as =>
    simp only [Graph.step, Graph.addEdge, Graph.addPortEdge]
    cases newAttrs as with
    | error e => exact ⟨E, rfl, fun h => h⟩
    | ok as => exact ⟨_, rfl, fun h => by simp only [Edges.add]; rw [← h]; rfl⟩
  | addNode p n as =>
    simp only [Graph.step, Graph.addNode]
    cases newAttrs as <;> exact ⟨E, rfl, fun h => h⟩
  | addAttr p f v => exact ⟨E, addAttr_withE g E p f v, fun h => by simp only [Graph.step, addAttr_edges]; exact h⟩
  | addSubGraph p n as =>
    refine ⟨E, addAttrs_withE { g with relations := g.relations.add p n, subGraphs := subGraphsAdd g.subGraphs n } E n as, fun h => ?_⟩
    simp only [Graph.step, Graph.addSubGraph, addAttrs_edges]
    exact h
  | removeNode p n =>
    obtain ⟨E', h1, h2, -⟩ := removeNode_withE g E p n
    exact ⟨E', h1, h2⟩
  | removeSubGraph p n o =>
    obtain ⟨E', h1, h2, -⟩ := removeSubGraph_withE g E p n o
    exact ⟨E', h1, h2⟩

/-! ### the same graph with any edges can be made by calls -/

theorem without_edges {g : Graph} (h : Reachable g) : Reachable (withE g newEdges) := by
  induction h with
  | init => exact .init
  | @step g op hr hok ih =>
    cases op with
    | setStrict b => exact .step (.setStrict b) ih trivial
    | setDir b => exact .step (.setDir b) ih trivial
    | setName n => exact .step (.setName n) ih trivial
    | addPortEdge s sp d dp dir as =>
      simp only [Graph.step, Graph.addPortEdge]
      cases newAttrs as <;> exact ih
    | addEdge s d dir as =>
      simp only [Graph.step, Graph.addEdge, Graph.addPortEdge]
      cases newAttrs as <;> exact ih
    | addNode p n as =>
      have := Reachable.step (.addNode p n as) ih hok
      simp only [Graph.step, Graph.addNode] at this ⊢
      cases hx : newAttrs as <;> (rw [hx] at this; exact this)
    | addAttr p f v =>
      have := Reachable.step (.addAttr p f v) ih trivial
      simp only [Graph.step, addAttr_withE] at this
      exact this
    | addSubGraph p n as =>
      have := Reachable.step (.addSubGraph p n as) ih hok
      have e := addAttrs_withE { g with relations := g.relations.add p n, subGraphs := subGraphsAdd g.subGraphs n } newEdges n as
      simp only [Graph.step, Graph.addSubGraph] at this ⊢
      have e' := congrArg Prod.fst e
      simp only at e'
      rw [← e']
      exact this
    | removeNode p n =>
      have := Reachable.step (.removeNode p n) ih trivial
      obtain ⟨E', h1, -, h2, -⟩ := removeNode_withE g newEdges p n
      simp only [Graph.step, h1] at this ⊢
      rw [h2 ⟨rfl, rfl⟩] at this
      exact this
    | removeSubGraph p n o =>
      have := Reachable.step (.removeSubGraph p n o) ih hok
      obtain ⟨E', h1, -, h2, -⟩ := removeSubGraph_withE g newEdges p n o
      simp only [Graph.step, h1] at this ⊢
      rw [h2 ⟨rfl, rfl⟩] at this
      exact this

theorem edgeLike_ok {e : Edge} (h : EdgeLike e) : AttrsOk e.attrs :=
  ⟨h.1, fun kv hkv => h.2 kv.1 kv.2 (mget_of_mem h.1 hkv)⟩

theorem add_edges {g : Graph} (h : Reachable g) (es : List Edge) (hes : ∀ e ∈ es, EdgeLike e) : Reachable (withE g (es.foldl Edges.add g.edges)) := by
  induction es generalizing g with
  | nil => exact h
  | cons e es ih =>
    have ho := edgeLike_ok (hes e (.head _))
    have hs := Reachable.step (.addPortEdge e.src e.srcPort e.dst e.dstPort e.dir e.attrs) h ho.wf.nodup
    simp only [Graph.step] at hs
    rw [addPortEdge_ok _ _ _ _ _ _ (fun kv hkv => ho.reg kv hkv), msetAll_empty ho.wf] at hs
    exact ih hs fun e' he' => hes e' (.tail _ he')

theorem foldl_add_edges (es : List Edge) (E : Edges) : (es.foldl Edges.add E).edges = E.edges ++ es := by
  induction es generalizing E with
  | nil => simp
  | cons e es ih => simp [ih, Edges.add]

/-- With any edges in its slice, a reachable graph is a reachable graph up to the two maps. -/
theorem any_edges {g : Graph} (h : Reachable g) (es : List Edge) (hes : ∀ e ∈ es, EdgeLike e) : ∃ E, Reachable (withE g E) ∧ E.edges = es := by
  refine ⟨_, add_edges (without_edges h) es hes, ?_⟩
  rw [foldl_add_edges]
  rfl

theorem Edited.sim {g : Graph} (h : Edited g) : ∃ E, Reachable (withE g E) ∧ E.edges = g.edges.edges := by
  induction h with
  | init => exact ⟨newEdges, .init, rfl⟩
  | @step g m hr hok ih =>
    obtain ⟨E, hE, he⟩ := ih
    cases m with
    | call op =>
      obtain ⟨E', h1, h2⟩ := step_withE g E op
      have hok' : op.Ok (withE g E) := by cases op <;> exact hok
      have := Reachable.step op hE hok'
      rw [h1] at this
      exact ⟨E', this, h2 he⟩
    | assign es =>
      obtain ⟨E', h1, h2⟩ := any_edges hE es hok
      exact ⟨E', h1, h2⟩

end EdgeEdit
end Gographviz
