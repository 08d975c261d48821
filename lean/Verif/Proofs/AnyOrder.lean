import Verif.Model.AnalyseVisit
import Verif.Proofs.Walk
import Verif.Proofs.Analyse
import Verif.Proofs.GraphOps
/-!
The analyser as visitor objects driven by `Walk` is the analyser of `Model/Analyse.lean`, up to the order of the `graph [..]` calls; and
that order, like the order of all other `range` loops, does not matter.
-/
namespace Gographviz

open Spec
open Ast (Stmt Loc EdgeRH AttrList NodeID Elem Vis)

variable {σ : Type}

mutual
/-- `walkStmt` with open iteration order. -/
def walkStmtA (I : Iface σ) (ord : σ → Map Str → List (Str × Str)) (w : Visitor) (c : Catcher σ) : Stmt → Visitor × Catcher σ
  | .node id as => nodeStmt I w c id as
  | .edge src rhs as =>
    let (w, c) := edgeStmt I w c src rhs as
    let c := walkLocA I ord w c src
    (w, walkRHSA I ord w c rhs)
  | .nodeAttrs as => ({ w with nodeAttrs := overwrite w.nodeAttrs (Ast.getMap as) }, c)
  | .edgeAttrs as => ({ w with edgeAttrs := overwrite w.edgeAttrs (Ast.getMap as) }, c)
  | .graphAttrs as => graphAttrsAny I ord w c as
  | .sub id body =>
    let c := c.record (I.addSubGraph c.g w.graphName id w.graphAttrs)
    (w, (walkStmtsA I ord (newVisitor id w.nodeAttrs w.edgeAttrs) c body).2)
  | .attr a => (w, c.record (I.addAttr c.g w.graphName a.field a.value))
def walkLocA (I : Iface σ) (ord : σ → Map Str → List (Str × Str)) (w : Visitor) (c : Catcher σ) : Loc → Catcher σ
  | .node _ => c
  | .sub id body =>
    let c := c.record (I.addSubGraph c.g w.graphName id w.graphAttrs)
    (walkStmtsA I ord (newVisitor id w.nodeAttrs w.edgeAttrs) c body).2
def walkRHSA (I : Iface σ) (ord : σ → Map Str → List (Str × Str)) (w : Visitor) (c : Catcher σ) : List EdgeRH → Catcher σ
  | [] => c
  | .mk _ dst :: rest => walkRHSA I ord w (walkLocA I ord w c dst) rest
def walkStmtsA (I : Iface σ) (ord : σ → Map Str → List (Str × Str)) (w : Visitor) (c : Catcher σ) : List Stmt → Visitor × Catcher σ
  | [] => (w, c)
  | s :: ss =>
    let (w, c) := walkStmtA I ord w c s
    walkStmtsA I ord w c ss
end

def analyseCA (I : Iface σ) (ord : σ → Map Str → List (Str × Str)) (t : Ast.Graph) (g : σ) : Catcher σ :=
  let c : Catcher σ := ⟨g, []⟩
  let c := c.record (I.setStrict c.g t.strict)
  let c := c.record (I.setDir c.g t.type_)
  let c := c.record (I.setName c.g t.id)
  (walkStmtsA I ord (newVisitor t.id [] []) c t.stmts).2

/-! ### the traversal -/

mutual
theorem trav_nilV (I : Iface σ) (ord : σ → Map Str → List (Str × Str)) : ∀ (t : ETree) (s : VState σ),
    travP (analyseVis I ord) .nilV t s = some s
  | .node e parts, s => by
    simp only [travP, analyseVis]
    exact travs_nilV I ord parts s
theorem travs_nilV (I : Iface σ) (ord : σ → Map Str → List (Str × Str)) : ∀ (ts : List ETree) (s : VState σ),
    travPs (analyseVis I ord) .nilV ts s = some s
  | [], s => rfl
  | t :: ts, s => by
    simp only [travPs]
    rw [trav_nilV I ord t s]
    exact travs_nilV I ord ts s
end

/-- After some part of the walk with the visitor object `p`: its fields, the catcher, and the other objects. -/
structure Post (s s' : VState σ) (p : Nat) (r : Visitor × Catcher σ) : Prop where
  c : s'.c = r.2
  w : s'.heap[p]? = some r.1
  len : s.heap.length ≤ s'.heap.length
  others : ∀ q, q < s.heap.length → q ≠ p → s'.heap[q]? = s.heap[q]?

theorem lt_of_get {l : List Visitor} {p : Nat} {w : Visitor} (h : l[p]? = some w) : p < l.length :=
  (List.getElem?_eq_some_iff.1 h).1

theorem Post.refl {s : VState σ} {p : Nat} {w : Visitor} (h : s.heap[p]? = some w) : Post s s p (w, s.c) :=
  ⟨rfl, h, Nat.le_refl _, fun _ _ _ => rfl⟩

theorem Post.store {s : VState σ} {p : Nat} {w : Visitor} (h : s.heap[p]? = some w) (r : Visitor × Catcher σ) : Post s (s.store p r) p r := by
  refine ⟨rfl, ?_, by simp [VState.store], fun q _ hne => ?_⟩
  · simp [VState.store, lt_of_get h]
  · simp [VState.store, List.getElem?_set, hne.symm]

theorem Post.trans {s s' s'' : VState σ} {p : Nat} {r r' : Visitor × Catcher σ} (h : Post s s' p r) (h' : Post s' s'' p r') : Post s s'' p r' :=
  ⟨h'.c, h'.w, Nat.le_trans h.len h'.len, fun q hq hne => (h'.others q (Nat.lt_of_lt_of_le hq h.len) hne).trans (h.others q hq hne)⟩

variable {I : Iface σ} {ord : σ → Map Str → List (Str × Str)}

/-- Elements that the visitor ignores. -/
theorem visit_skip {s : VState σ} {p : Nat} {w : Visitor} (h : s.heap[p]? = some w) (e : Elem)
    (he : stmtVisit I ord p w e s = (some (.stmtV p), s)) : analyseVis I ord (.stmtV p) e s = (some (.stmtV p), s) := by
  simp only [analyseVis, h]; exact he

theorem visit_at {s : VState σ} {p : Nat} {w : Visitor} (h : s.heap[p]? = some w) (e : Elem) :
    analyseVis I ord (.stmtV p) e s = stmtVisit I ord p w e s := by
  simp only [analyseVis, h]

theorem leaf_skip {s : VState σ} {p : Nat} {w : Visitor} (h : s.heap[p]? = some w) (x : Str) :
    travP (analyseVis I ord) (.stmtV p) (idTree x) s = some s := by
  rw [idTree, travP_node _ _ rfl, visit_at h]; rfl

theorem nodeID_skip {s : VState σ} {p : Nat} {w : Visitor} (h : s.heap[p]? = some w) (n : NodeID) :
    travP (analyseVis I ord) (.stmtV p) (nodeIDTree n) s = some s := by
  have hp : travP (analyseVis I ord) (.stmtV p) (portTree n.port) s = some s := by
    rw [portTree, travP_node _ _ rfl, visit_at h]
    simp only [stmtVisit, travOs, travPs]
    rw [leaf_skip h]
    simp only [Option.bind_some]
    rw [leaf_skip h]; rfl
  rw [nodeIDTree, travP_node _ _ rfl, visit_at h]
  simp only [stmtVisit, travOs, travPs]
  rw [leaf_skip h]
  simp only [Option.bind_some]
  rw [hp]; rfl

theorem attrList_skip {s : VState σ} {p : Nat} {w : Visitor} (h : s.heap[p]? = some w) (as : AttrList) :
    travP (analyseVis I ord) (.stmtV p) (attrListTree as) s = some s := by
  simp only [attrListTree, travP, visit_at h, stmtVisit]
  exact travs_nilV I ord _ s

/-- A subgraph, given its statements. -/
theorem sub_post {body : List Stmt}
    (ih : ∀ (s : VState σ) (p : Nat) (w : Visitor), s.heap[p]? = some w →
      ∃ s', travPs (analyseVis I ord) (.stmtV p) (stmtTrees body) s = some s' ∧ Post s s' p (walkStmtsA I ord w s.c body))
    (id : Str) {s : VState σ} {p : Nat} {w : Visitor} (h : s.heap[p]? = some w) :
    ∃ s', travP (analyseVis I ord) (.stmtV p) (.node (.subGraph id body) [idTree id, .node (.stmtList body) (stmtTrees body)]) s = some s' ∧
      Post s s' p (w, (walkStmtsA I ord (newVisitor id w.nodeAttrs w.edgeAttrs)
        (s.c.record (I.addSubGraph s.c.g w.graphName id w.graphAttrs)) body).2) := by
  rw [travP_node _ _ rfl, visit_at h]
  simp only [stmtVisit, VState.alloc, travOs, travPs]
  have h0 := Post.store h (w, s.c.record (I.addSubGraph s.c.g w.graphName id w.graphAttrs))
  generalize hs1 : s.store p (w, s.c.record (I.addSubGraph s.c.g w.graphName id w.graphAttrs)) = s1 at h0
  have hnew : ({ s1 with heap := s1.heap ++ [newVisitor id w.nodeAttrs w.edgeAttrs] } : VState σ).heap[s1.heap.length]? =
      some (newVisitor id w.nodeAttrs w.edgeAttrs) := by simp
  obtain ⟨s', he, hp⟩ := ih _ _ _ hnew
  rw [leaf_skip hnew]
  simp only [Option.bind_some]
  rw [travP_node _ _ rfl, visit_at hnew]
  simp only [stmtVisit, travOs]
  rw [he]
  have hlt := lt_of_get h0.w
  have hkeep : ∀ q, q < s1.heap.length → s'.heap[q]? = s1.heap[q]? := by
    intro q hq
    rw [hp.others q (by simp; omega) (Nat.ne_of_lt hq)]
    exact List.getElem?_append_left hq
  refine ⟨s', rfl, ?_, ?_, ?_, ?_⟩
  · have hc : s1.c = s.c.record (I.addSubGraph s.c.g w.graphName id w.graphAttrs) := h0.c
    rw [hp.c, ← hc]
  · rw [hkeep p hlt]; exact h0.w
  · have := hp.len; simp at this; have := h0.len; omega
  · intro q hq hne
    rw [hkeep q (Nat.lt_of_lt_of_le hq h0.len)]; exact h0.others q hq hne

mutual
theorem stmt_post (I : Iface σ) (ord : σ → Map Str → List (Str × Str)) : ∀ (st : Stmt) (s : VState σ) (p : Nat) (w : Visitor), s.heap[p]? = some w →
    ∃ s', travP (analyseVis I ord) (.stmtV p) (stmtTree st) s = some s' ∧ Post s s' p (walkStmtA I ord w s.c st)
  | .node id as, s, p, w, h => by
    refine ⟨_, ?_, Post.store h _⟩
    rw [stmtTree, travP_node _ _ rfl, visit_at h]
    simp only [stmtVisit, travOs]
    exact travs_nilV I ord _ _
  | .edge src rhs as, s, p, w, h => by
    rw [stmtTree, travP_node _ _ rfl, visit_at h]
    simp only [stmtVisit, travOs, travPs]
    have h0 := Post.store h (edgeStmt I w s.c src rhs as)
    obtain ⟨s1, e1, h1⟩ := loc_post I ord src _ _ _ h0.w
    obtain ⟨s2, e2, h2⟩ := rhs_post I ord rhs _ _ _ h1.w
    refine ⟨s2, ?_, ?_⟩
    · rw [e1]
      simp only [Option.bind_some]
      rw [travP_node _ _ rfl, visit_at h1.w]
      simp only [stmtVisit, travOs]
      rw [e2]
      simp only [Option.bind_some]
      rw [attrList_skip h2.w]; rfl
    · have := (h0.trans h1).trans h2
      rw [h1.c, h0.c] at this
      exact this
  | .nodeAttrs as, s, p, w, h => by
    refine ⟨_, ?_, Post.store h _⟩
    simp only [stmtTree, travP, visit_at h, stmtVisit]
    exact travs_nilV I ord _ _
  | .edgeAttrs as, s, p, w, h => by
    refine ⟨_, ?_, Post.store h _⟩
    simp only [stmtTree, travP, visit_at h, stmtVisit]
    exact travs_nilV I ord _ _
  | .graphAttrs as, s, p, w, h => by
    refine ⟨_, ?_, Post.store h _⟩
    simp only [stmtTree, travP, visit_at h, stmtVisit]
    exact travs_nilV I ord _ _
  | .sub id body, s, p, w, h => sub_post (fun s p w h => stmts_post I ord body s p w h) id h
  | .attr a, s, p, w, h => by
    have h0 := Post.store h (w, s.c.record (I.addAttr s.c.g w.graphName a.field a.value))
    refine ⟨_, ?_, h0⟩
    rw [stmtTree, attrTree, travP_node _ _ rfl, visit_at h]
    simp only [stmtVisit, travOs, travPs]
    rw [leaf_skip h0.w]
    simp only [Option.bind_some]
    rw [leaf_skip h0.w]; rfl
theorem loc_post (I : Iface σ) (ord : σ → Map Str → List (Str × Str)) : ∀ (l : Loc) (s : VState σ) (p : Nat) (w : Visitor), s.heap[p]? = some w →
    ∃ s', travP (analyseVis I ord) (.stmtV p) (locTree l) s = some s' ∧ Post s s' p (w, walkLocA I ord w s.c l)
  | .node n, s, p, w, h => ⟨s, nodeID_skip h n, Post.refl h⟩
  | .sub id body, s, p, w, h => sub_post (fun s p w h => stmts_post I ord body s p w h) id h
theorem rhs_post (I : Iface σ) (ord : σ → Map Str → List (Str × Str)) : ∀ (rhs : List EdgeRH) (s : VState σ) (p : Nat) (w : Visitor),
    s.heap[p]? = some w →
    ∃ s', travPs (analyseVis I ord) (.stmtV p) (rhsTrees rhs) s = some s' ∧ Post s s' p (w, walkRHSA I ord w s.c rhs)
  | [], s, p, w, h => ⟨s, rfl, Post.refl h⟩
  | .mk op dst :: rest, s, p, w, h => by
    obtain ⟨s1, e1, h1⟩ := loc_post I ord dst _ _ _ h
    obtain ⟨s2, e2, h2⟩ := rhs_post I ord rest _ _ _ h1.w
    refine ⟨s2, ?_, ?_⟩
    · simp only [rhsTrees, travPs]
      rw [travP_node _ _ rfl, visit_at h]
      simp only [stmtVisit, travOs, travPs]
      have hl : travP (analyseVis I ord) (.stmtV p) (.node (.edgeOp op) []) s = some s := by
        rw [travP_node _ _ rfl, visit_at h]; rfl
      rw [hl]
      simp only [Option.bind_some]
      rw [e1]
      exact e2
    · have := h1.trans h2
      rw [h1.c] at this
      exact this
theorem stmts_post (I : Iface σ) (ord : σ → Map Str → List (Str × Str)) : ∀ (ss : List Stmt) (s : VState σ) (p : Nat) (w : Visitor),
    s.heap[p]? = some w →
    ∃ s', travPs (analyseVis I ord) (.stmtV p) (stmtTrees ss) s = some s' ∧ Post s s' p (walkStmtsA I ord w s.c ss)
  | [], s, p, w, h => ⟨s, rfl, Post.refl h⟩
  | st :: rest, s, p, w, h => by
    obtain ⟨s1, e1, h1⟩ := stmt_post I ord st _ _ _ h
    obtain ⟨s2, e2, h2⟩ := stmts_post I ord rest _ _ _ h1.w
    refine ⟨s2, ?_, ?_⟩
    · simp only [stmtTrees, travPs]
      rw [e1]; exact e2
    · have := h1.trans h2
      rw [h1.c] at this
      exact this
end

/-- The walk of the visitor objects is the unrolled analyser. -/
theorem analyseAny_eq (I : Iface σ) (ord : σ → Map Str → List (Str × Str)) (t : Ast.Graph) (g : σ) :
    analyseAny I ord t g = some (analyseCA I ord t g) := by
  unfold analyseAny
  rw [walkGraph_eq, graphTree, travP_node _ _ rfl]
  simp only [analyseVis, graphVisit, VState.alloc, travOs, travPs, List.nil_append, List.length_nil]
  generalize hc : Catcher.record _ (I.setName _ t.id) = c
  have h0 : ({ heap := [newVisitor t.id [] []], c := c } : VState σ).heap[0]? = some (newVisitor t.id [] []) := rfl
  obtain ⟨s', e, h⟩ := stmts_post I ord t.stmts _ _ _ h0
  have hl : travP (analyseVis I ord) (.stmtV 0) (.node (.type t.type_) []) ⟨[newVisitor t.id [] []], c⟩ = some ⟨[newVisitor t.id [] []], c⟩ := by
    rw [travP_node _ _ rfl, visit_at h0]; rfl
  have hb : travP (analyseVis I ord) (.stmtV 0) (.node (.stmtList t.stmts) (stmtTrees t.stmts)) ⟨[newVisitor t.id [] []], c⟩ = some s' := by
    rw [travP_node _ _ rfl, visit_at h0]; exact e
  have hw : (fun v e s => match v with
    | VRef.nilV => (some VRef.nilV, s)
    | VRef.graphV => graphVisit I e s
    | VRef.stmtV p => match s.heap[p]? with
      | none => (none, s)
      | some w => stmtVisit I ord p w e s : Vis VRef (VState σ)) = analyseVis I ord := rfl
  rw [hl]
  simp only [Option.bind_some]
  rw [leaf_skip h0]
  simp only [Option.bind_some]
  rw [hb]
  simp only [Option.bind_some, Option.map_some]
  rw [h.c]
  unfold analyseCA
  rw [← hc]

/-! ### visiting the maps in key order -/

mutual
theorem walkStmtA_id (I : Iface σ) : ∀ (st : Stmt) (w : Visitor) (c : Catcher σ), walkStmtA I (fun _ m => m) w c st = walkStmt I w c st
  | .node id as, w, c => rfl
  | .edge src rhs as, w, c => by
    simp only [walkStmtA, walkStmt, walkLocA_id I src, walkRHSA_id I rhs]
  | .nodeAttrs as, w, c => rfl
  | .edgeAttrs as, w, c => rfl
  | .graphAttrs as, w, c => rfl
  | .sub id body, w, c => by simp only [walkStmtA, walkStmt, walkStmtsA_id I body]
  | .attr a, w, c => rfl
theorem walkLocA_id (I : Iface σ) : ∀ (l : Loc) (w : Visitor) (c : Catcher σ), walkLocA I (fun _ m => m) w c l = walkLoc I w c l
  | .node n, w, c => rfl
  | .sub id body, w, c => by simp only [walkLocA, walkLoc, walkStmtsA_id I body]
theorem walkRHSA_id (I : Iface σ) : ∀ (rhs : List EdgeRH) (w : Visitor) (c : Catcher σ), walkRHSA I (fun _ m => m) w c rhs = walkRHS I w c rhs
  | [], w, c => rfl
  | .mk op dst :: rest, w, c => by simp only [walkRHSA, walkRHS, walkLocA_id I dst, walkRHSA_id I rest]
theorem walkStmtsA_id (I : Iface σ) : ∀ (ss : List Stmt) (w : Visitor) (c : Catcher σ), walkStmtsA I (fun _ m => m) w c ss = walkStmts I w c ss
  | [], w, c => rfl
  | st :: rest, w, c => by simp only [walkStmtsA, walkStmts, walkStmtA_id I st, walkStmtsA_id I rest]
end

theorem analyseAny_id (I : Iface σ) (t : Ast.Graph) (g : σ) : analyseAny I (fun _ m => m) t g = some (analyseC I t g) := by
  rw [analyseAny_eq]
  simp only [analyseCA, analyseC, walkStmtsA_id]

end Gographviz
