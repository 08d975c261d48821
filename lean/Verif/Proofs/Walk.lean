import Verif.Spec.Traversal
/-!
The `Walk` methods follow the visitor protocol.
-/
namespace Gographviz

open Spec
open Ast

variable {V σ : Type}

/-- Is this a non-empty list of attribute lists? -/
def attrListsB : Elem → Bool
  | .nodeAttrs as | .edgeAttrs as | .graphAttrs as | .attrList as => !as.isEmpty
  | _ => false

theorem attrListsB_iff (e : Elem) : attrListsB e = true ↔ IsAttrLists e := by
  cases e <;> simp [attrListsB, IsAttrLists]

mutual
/-- The protocol with the panic. -/
def travP (vis : Vis V σ) (v : V) : ETree → σ → Option σ
  | .node e parts, s =>
    match vis v e s with
    | (none, s) => if attrListsB e then none else some s
    | (some v', s) => travPs vis v' parts s
def travPs (vis : Vis V σ) (v : V) : List ETree → σ → Option σ
  | [], s => some s
  | t :: ts, s => (travP vis v t s).bind (travPs vis v ts)
end

mutual
theorem travP_spec (vis : Vis V σ) : ∀ (t : ETree) (v : V) (s : σ),
    (NilAtAttrs vis v t s → travP vis v t s = none) ∧ (¬ NilAtAttrs vis v t s → travP vis v t s = some (traverse vis v t s))
  | .node e parts, v, s => by
    simp only [travP, NilAtAttrs, traverse]
    rcases h : vis v e s with ⟨_ | v', s'⟩
    · simp only [← attrListsB_iff]
      cases attrListsB e <;> simp
    · exact travPs_spec vis parts v' s'
theorem travPs_spec (vis : Vis V σ) : ∀ (ts : List ETree) (v : V) (s : σ),
    (NilAtAttrss vis v ts s → travPs vis v ts s = none) ∧ (¬ NilAtAttrss vis v ts s → travPs vis v ts s = some (traverses vis v ts s))
  | [], v, s => by simp [travPs, NilAtAttrss, traverses]
  | t :: ts, v, s => by
    simp only [travPs, NilAtAttrss, traverses]
    have h1 := travP_spec vis t v s
    have h2 := travPs_spec vis ts v (traverse vis v t s)
    constructor
    · intro h
      by_cases hn : NilAtAttrs vis v t s
      · rw [h1.1 hn]; rfl
      · rw [h1.2 hn]
        exact h2.1 (h.resolve_left hn)
    · intro h
      rw [h1.2 (fun h' => h (.inl h'))]
      exact h2.2 (fun h' => h (.inr h'))
end

/-- What a `Walk` method should do, for a possibly nil visitor. -/
def travO (vis : Vis V σ) : Option V → ETree → σ → Option σ
  | none, _, s => some s
  | some v, t, s => travP vis v t s

def travOs (vis : Vis V σ) : Option V → List ETree → σ → Option σ
  | none, _, s => some s
  | some v, ts, s => travPs vis v ts s

theorem travOs_nil (vis : Vis V σ) (v : Option V) (s : σ) : travOs vis v [] s = some s := by cases v <;> rfl

theorem travOs_cons (vis : Vis V σ) (v : Option V) (t : ETree) (ts : List ETree) (s : σ) :
    travOs vis v (t :: ts) s = (travO vis v t s).bind (travOs vis v ts) := by
  cases v with
  | none => rfl
  | some v => rfl

theorem travP_node (vis : Vis V σ) (v : V) {e : Elem} (h : attrListsB e = false) (parts : List ETree) (s : σ) :
    travP vis v (.node e parts) s = travOs vis (vis v e s).1 parts (vis v e s).2 := by
  simp only [travP]
  rcases h' : vis v e s with ⟨_ | v', s'⟩ <;> simp [h, travOs]

theorem walkLeaf_eq (vis : Vis V σ) (v : Option V) {e : Elem} (h : attrListsB e = false) (s : σ) :
    walkLeaf vis v e s = travO vis v (.node e []) s := by
  cases v with
  | none => rfl
  | some v =>
    simp only [travO, walkLeaf]
    rw [travP_node vis v h, travOs_nil]

theorem walkId_eq (vis : Vis V σ) (v : Option V) (x : Str) (s : σ) : walkLeaf vis v (.id x) s = travO vis v (idTree x) s :=
  walkLeaf_eq vis v rfl s

theorem travOs_one (vis : Vis V σ) (v : Option V) (t : ETree) (s : σ) : travOs vis v [t] s = travO vis v t s := by
  rw [travOs_cons]
  cases h : travO vis v t s with
  | none => rfl
  | some s' => exact travOs_nil vis v s'

theorem walkAttr_eq (vis : Vis V σ) (v : Option V) (a : Attr) (s : σ) : walkAttr vis v a s = travO vis v (attrTree a) s := by
  cases v with
  | none => rfl
  | some v =>
    simp only [travO, walkAttr, attrTree]
    rw [travP_node vis v rfl, travOs_cons]
    simp only [travOs_one, walkId_eq]
    congr 1
    funext s'
    rw [travOs_one]

theorem walkAttrs_eq (vis : Vis V σ) (v : Option V) (as : List Attr) (s : σ) : walkAttrs vis v as s = travOs vis v (as.map attrTree) s := by
  induction as generalizing s with
  | nil => exact (travOs_nil vis v s).symm
  | cons a as ih =>
    simp only [walkAttrs, List.map_cons]
    rw [travOs_cons, walkAttr_eq]
    congr 1
    funext s'
    exact ih s'

theorem walkAList_eq (vis : Vis V σ) (v : V) (al : AList) (s : σ) : walkAList vis (some v) al s = travP vis v (alistTree al) s := by
  simp only [walkAList, alistTree]
  rw [travP_node vis v rfl, walkAttrs_eq]

theorem walkALists_eq (vis : Vis V σ) (v : V) (as : AttrList) (s : σ) :
    walkALists vis (some v) as s = travPs vis v (as.map alistTree) s := by
  induction as generalizing s with
  | nil => rfl
  | cons al als ih =>
    simp only [walkALists, List.map_cons, travPs]
    rw [walkAList_eq]
    congr 1
    funext s'
    exact ih s'

theorem walkAttrList_eq (vis : Vis V σ) (v : Option V) (e : Elem) (as : AttrList) (h : attrListsB e = !as.isEmpty) (s : σ) :
    walkAttrList vis v e as s = travO vis v (.node e (as.map alistTree)) s := by
  cases v with
  | none => rfl
  | some v =>
    simp only [travO, walkAttrList, travP]
    rcases h' : vis v e s with ⟨_ | v', s'⟩
    · simp only [h]
      cases as with
      | nil => rfl
      | cons al als => simp [walkALists, walkAList]
    · exact walkALists_eq vis v' as s'

theorem walkPort_eq (vis : Vis V σ) (v : Option V) (p : Port) (s : σ) : walkPort vis v p s = travO vis v (portTree p) s := by
  cases v with
  | none => rfl
  | some v =>
    simp only [travO, walkPort, portTree]
    rw [travP_node vis v rfl, travOs_cons, walkId_eq]
    congr 1
    funext s'
    rw [travOs_one, walkId_eq]

theorem walkNodeID_eq (vis : Vis V σ) (v : Option V) (n : NodeID) (s : σ) : walkNodeID vis v n s = travO vis v (nodeIDTree n) s := by
  cases v with
  | none => rfl
  | some v =>
    simp only [travO, walkNodeID, nodeIDTree]
    rw [travP_node vis v rfl, travOs_cons, walkId_eq]
    congr 1
    funext s'
    rw [travOs_one, walkPort_eq]

/-- A list element (`StmtList`, `EdgeRHS`) given its loop. -/
theorem listWalk_eq (vis : Vis V σ) (v : Option V) {e : Elem} (h : attrListsB e = false) (parts : List ETree)
    (f : Option V → σ → Option σ) (hf : ∀ v s, f v s = travOs vis v parts s) (s : σ) :
    (match v with | none => some s | some v => f (vis v e s).1 (vis v e s).2) = travO vis v (.node e parts) s := by
  cases v with
  | none => rfl
  | some v => simp only [travO]; rw [travP_node vis v h, hf]

mutual
theorem walkS_eq (vis : Vis V σ) : ∀ (st : Stmt) (v : Option V) (s : σ), walkS vis v st s = travO vis v (stmtTree st) s
  | .node id as, v, s => by
    cases v with
    | none => rfl
    | some v =>
      simp only [travO, walkS, stmtTree]
      rw [travP_node vis v rfl, travOs_cons, walkNodeID_eq]
      congr 1
      funext s'
      rw [travOs_one, walkAttrList_eq vis _ _ as rfl]
      rfl
  | .edge src rhs as, v, s => by
    cases v with
    | none => rfl
    | some v =>
      simp only [travO, walkS, stmtTree]
      rw [travP_node vis v rfl, travOs_cons, walkL_eq vis src]
      congr 1
      funext s'
      rw [travOs_cons]
      refine Eq.trans (congrArg (fun o => Option.bind o _) (listWalk_eq vis (vis v (.edgeStmt src rhs as) s).1 (e := .edgeRHS rhs) rfl
        (rhsTrees rhs) (fun v s => walkR vis v rhs s) (fun v s => walkR_eq vis rhs v s) s')) ?_
      congr 1
      funext s''
      rw [travOs_one, walkAttrList_eq vis _ _ as rfl]
      rfl
  | .nodeAttrs as, v, s => walkAttrList_eq vis v _ as rfl s
  | .edgeAttrs as, v, s => walkAttrList_eq vis v _ as rfl s
  | .graphAttrs as, v, s => walkAttrList_eq vis v _ as rfl s
  | .sub id body, v, s => by
    cases v with
    | none => rfl
    | some v =>
      simp only [travO, walkS, stmtTree]
      rw [travP_node vis v rfl, travOs_cons, walkId_eq]
      congr 1
      funext s'
      rw [travOs_one]
      exact listWalk_eq vis _ (e := .stmtList body) rfl (stmtTrees body) (fun v s => walkSs vis v body s)
        (fun v s => walkSs_eq vis body v s) s'
  | .attr a, v, s => walkAttr_eq vis v a s
theorem walkL_eq (vis : Vis V σ) : ∀ (l : Loc) (v : Option V) (s : σ), walkL vis v l s = travO vis v (locTree l) s
  | .node n, v, s => walkNodeID_eq vis v n s
  | .sub id body, v, s => by
    cases v with
    | none => rfl
    | some v =>
      simp only [travO, walkL, locTree]
      rw [travP_node vis v rfl, travOs_cons, walkId_eq]
      congr 1
      funext s'
      rw [travOs_one]
      exact listWalk_eq vis _ (e := .stmtList body) rfl (stmtTrees body) (fun v s => walkSs vis v body s)
        (fun v s => walkSs_eq vis body v s) s'
theorem walkR_eq (vis : Vis V σ) : ∀ (rhs : List EdgeRH) (v : Option V) (s : σ), walkR vis v rhs s = travOs vis v (rhsTrees rhs) s
  | [], v, s => (travOs_nil vis v s).symm
  | .mk op dst :: rest, v, s => by
    simp only [walkR, rhsTrees]
    rw [travOs_cons]
    have : (match v with
      | none => some s
      | some v =>
        (walkLeaf vis (vis v (.edgeRH op dst) s).1 (.edgeOp op) (vis v (.edgeRH op dst) s).2).bind fun s_1 =>
        walkL vis (vis v (.edgeRH op dst) s).1 dst s_1) = travO vis v (.node (.edgeRH op dst) [.node (.edgeOp op) [], locTree dst]) s := by
      cases v with
      | none => rfl
      | some v =>
        simp only [travO]
        rw [travP_node vis v rfl, travOs_cons, walkLeaf_eq vis _ (e := .edgeOp op) rfl]
        congr 1
        funext s'
        rw [travOs_one, walkL_eq vis dst]
    refine Eq.trans (congrArg (fun o => Option.bind o _) this) ?_
    congr 1
    funext s'
    exact walkR_eq vis rest v s'
theorem walkSs_eq (vis : Vis V σ) : ∀ (ss : List Stmt) (v : Option V) (s : σ), walkSs vis v ss s = travOs vis v (stmtTrees ss) s
  | [], v, s => (travOs_nil vis v s).symm
  | st :: rest, v, s => by
    simp only [walkSs, stmtTrees]
    rw [travOs_cons, walkS_eq vis st]
    congr 1
    funext s'
    exact walkSs_eq vis rest v s'
end

theorem walkStmtList_eq (vis : Vis V σ) (v : Option V) (ss : List Stmt) (s : σ) :
    walkStmtList vis v ss s = travO vis v (.node (.stmtList ss) (stmtTrees ss)) s :=
  listWalk_eq vis v (e := .stmtList ss) rfl (stmtTrees ss) (fun v s => walkSs vis v ss s) (fun v s => walkSs_eq vis ss v s) s

theorem walkGraph_eq (vis : Vis V σ) (v : V) (t : Ast.Graph) (s : σ) : walkGraph vis (some v) t s = travP vis v (graphTree t) s := by
  simp only [walkGraph, graphTree]
  rw [travP_node vis v rfl, travOs_cons, walkLeaf_eq vis _ (e := .type t.type_) rfl]
  congr 1
  funext s'
  rw [travOs_cons, walkId_eq]
  congr 1
  funext s''
  rw [travOs_one, walkStmtList_eq]

mutual
theorem traverse_logged (vis : Vis V σ) (hv : ∀ v e s, (vis v e s).1 ≠ none) : ∀ (t : ETree) (v : V) (s : σ) (l : List Elem),
    traverse (logged vis) v t (s, l) = (traverse vis v t s, l ++ preorder t)
  | .node e parts, v, s, l => by
    simp only [traverse, logged, preorder]
    rcases h : vis v e s with ⟨_ | v', s'⟩
    · exact absurd (by rw [h]) (hv v e s)
    · have := traverses_logged vis hv parts v' s' (l ++ [e])
      rw [List.append_assoc] at this
      exact this
theorem traverses_logged (vis : Vis V σ) (hv : ∀ v e s, (vis v e s).1 ≠ none) : ∀ (ts : List ETree) (v : V) (s : σ) (l : List Elem),
    traverses (logged vis) v ts (s, l) = (traverses vis v ts s, l ++ preorders ts)
  | [], v, s, l => by simp [traverses, preorders]
  | t :: ts, v, s, l => by
    simp only [traverses, preorders]
    rw [traverse_logged vis hv t, traverses_logged vis hv ts, List.append_assoc]
end

mutual
theorem nilAtAttrs_never (vis : Vis V σ) (hv : ∀ v e s, IsAttrLists e → (vis v e s).1 ≠ none) : ∀ (t : ETree) (v : V) (s : σ),
    ¬ NilAtAttrs vis v t s
  | .node e parts, v, s => by
    simp only [NilAtAttrs]
    rcases h : vis v e s with ⟨_ | v', s'⟩
    · intro he; exact hv v e s he (by rw [h])
    · exact nilAtAttrss_never vis hv parts v' s'
theorem nilAtAttrss_never (vis : Vis V σ) (hv : ∀ v e s, IsAttrLists e → (vis v e s).1 ≠ none) : ∀ (ts : List ETree) (v : V) (s : σ),
    ¬ NilAtAttrss vis v ts s
  | [], v, s => by simp [NilAtAttrss]
  | t :: ts, v, s => by
    simp only [NilAtAttrss, not_or]
    exact ⟨nilAtAttrs_never vis hv t v s, nilAtAttrss_never vis hv ts v _⟩
end

end Gographviz
