import Verif.Model.Analyse
import Verif.Spec.Replay
import Verif.Proofs.Containers
/-!
The analyser makes exactly the calls of the specification, on every implementation of the interface.
-/
namespace Gographviz

open Spec
open Ast (Stmt Loc EdgeRH AttrList)

variable {σ : Type}

/-- A catcher after a sequence of calls. -/
def Catcher.run (I : Iface σ) (c : Catcher σ) (xs : List Call) : Catcher σ :=
  ⟨(replay I c.g xs).1, c.errs ++ (replay I c.g xs).2⟩

theorem Catcher.run_nil (I : Iface σ) (c : Catcher σ) : c.run I [] = c := by
  simp [Catcher.run, replay]

theorem replay_append (I : Iface σ) (g : σ) (xs ys : List Call) :
    replay I g (xs ++ ys) = ((replay I (replay I g xs).1 ys).1, (replay I g xs).2 ++ (replay I (replay I g xs).1 ys).2) := by
  induction xs generalizing g with
  | nil => simp [replay]
  | cons x xs ih => simp [replay, ih]

theorem Catcher.run_append (I : Iface σ) (c : Catcher σ) (xs ys : List Call) : c.run I (xs ++ ys) = (c.run I xs).run I ys := by
  simp [Catcher.run, replay_append]

theorem Catcher.run_cons (I : Iface σ) (c : Catcher σ) (x : Call) (xs : List Call) : c.run I (x :: xs) = (c.run I [x]).run I xs :=
  Catcher.run_append I c [x] xs

theorem Catcher.record_eq (I : Iface σ) (c : Catcher σ) (x : Call) : c.record (I.call c.g x) = c.run I [x] := by
  simp only [Catcher.record, Catcher.run, replay, List.append_nil]
  cases (I.call c.g x).2 <;> simp

/-! ### maps -/

theorem getMap_eq (as : AttrList) : Ast.getMap as = mapOf as := by
  unfold Ast.getMap mapOf entries
  have : ∀ m : Map Str, Ast.getMapFrom m as = msetAll m (as.flatten.map fun a => (a.field, a.value)) := by
    induction as with
    | nil => intro m; rfl
    | cons al als ih => intro m; simp only [Ast.getMapFrom, ih, List.flatten_cons, List.map_append, msetAll_append]
  exact this []

theorem mapOf_wf (as : AttrList) : MapWF (mapOf as) := MapWF.nil.msetAll _

theorem attrsAmmend_wf {a : Map Str} (h : MapWF a) (more : List (Str × Str)) : MapWF (attrsAmmend a more) := by
  induction more generalizing a with
  | nil => exact h
  | cons e more ih =>
    have : attrsAmmend a (e :: more) = attrsAmmend (if mhas a e.1 then a else mset a e.1 e.2) more := rfl
    rw [this]
    apply ih
    split
    · exact h
    · exact h.mset _ _

theorem mget_attrsAmmend (a : Map Str) {more : Map Str} (hm : MapWF more) (k : Str) :
    mget (attrsAmmend a more) k = match mget a k with | some v => some v | none => mget more k := by
  induction more generalizing a with
  | nil => simp only [attrsAmmend, List.foldl_nil, mget]; cases mget a k <;> rfl
  | cons e more ih =>
    have : attrsAmmend a (e :: more) = attrsAmmend (if mhas a e.1 then a else mset a e.1 e.2) more := rfl
    rw [this, ih _ hm.tail]
    have hne : ∀ e' ∈ more, e'.1 ≠ e.1 := fun e' he' => (slt_ne ((List.pairwise_cons.1 hm).1 e' he')).symm
    have hnone : mget more e.1 = none := by
      rw [mget_eq_none_iff]
      intro hk
      obtain ⟨e', he', h⟩ := List.mem_map.1 hk
      exact hne e' he' h
    by_cases hh : mhas a e.1 = true
    · rw [if_pos hh]
      cases hk : mget a k with
      | some v => rfl
      | none =>
        have : e.1 ≠ k := by
          rintro rfl
          simp [mhas, hk] at hh
        simp [mget, this]
    · rw [if_neg hh, mget_mset]
      by_cases he : e.1 = k
      · subst he
        have : mget a e.1 = none := by
          cases h : mget a e.1 with
          | none => rfl
          | some v => simp [mhas, h] at hh
        simp [mget, this]
      · simp [he, mget]

theorem attrsAmmend_eq_over {a d : Map Str} (ha : MapWF a) (hd : MapWF d) : attrsAmmend a d = over a d := by
  apply Map.ext (attrsAmmend_wf ha d) (hd.msetAll a)
  intro k
  rw [mget_attrsAmmend a hd, mget_msetAll_wf _ ha]
  cases mget a k <;> rfl

theorem attrsAmmend_nil {d : Map Str} (hd : MapWF d) : attrsAmmend [] d = d := by
  rw [attrsAmmend_eq_over MapWF.nil hd]; rfl

theorem msetAll_mapOf {m : Map Str} (h : MapWF m) (as : AttrList) : msetAll m (mapOf as) = msetAll m (entries as) := by
  apply Map.ext (h.msetAll _) (h.msetAll _)
  intro k
  rw [mget_msetAll_wf _ (mapOf_wf as), mget_msetAll]
  unfold mapOf
  rw [mget_msetAll]
  cases lastAssign (entries as) k <;> rfl

/-! ### the visitor and the scope -/

/-- The visitor state after the statements `pre` of a scope. -/
structure VisOk (w : Visitor) (sc : Scope) (pre : List Stmt) : Prop where
  name : w.graphName = sc.name
  node : w.nodeAttrs = sc.nodeDefaults pre
  edge : w.edgeAttrs = sc.edgeDefaults pre
  graph : w.graphAttrs = graphDefaults pre
  created : ∀ n, mhas w.created n = true ↔ n ∈ mentioned pre
  wfN : MapWF sc.inhNode
  wfE : MapWF sc.inhEdge

theorem nodeDefaultEntries_append (a b : List Stmt) : nodeDefaultEntries (a ++ b) = nodeDefaultEntries a ++ nodeDefaultEntries b := by
  induction a with
  | nil => rfl
  | cons s a ih => cases s <;> simp [nodeDefaultEntries, ih]

theorem edgeDefaultEntries_append (a b : List Stmt) : edgeDefaultEntries (a ++ b) = edgeDefaultEntries a ++ edgeDefaultEntries b := by
  induction a with
  | nil => rfl
  | cons s a ih => cases s <;> simp [edgeDefaultEntries, ih]

theorem graphDefaultEntries_append (a b : List Stmt) : graphDefaultEntries (a ++ b) = graphDefaultEntries a ++ graphDefaultEntries b := by
  induction a with
  | nil => rfl
  | cons s a ih => cases s <;> simp [graphDefaultEntries, ih]

theorem VisOk.wfNode {w : Visitor} {sc : Scope} {pre : List Stmt} (h : VisOk w sc pre) : MapWF (sc.nodeDefaults pre) := h.wfN.msetAll _
theorem VisOk.wfEdge {w : Visitor} {sc : Scope} {pre : List Stmt} (h : VisOk w sc pre) : MapWF (sc.edgeDefaults pre) := h.wfE.msetAll _

/-- A new scope. -/
theorem newVisitor_ok {w : Visitor} {sc : Scope} {pre : List Stmt} (h : VisOk w sc pre) (id : Str) :
    VisOk (newVisitor id w.nodeAttrs w.edgeAttrs) ⟨id, sc.nodeDefaults pre, sc.edgeDefaults pre⟩ [] := by
  refine ⟨rfl, ?_, ?_, rfl, fun n => ?_, h.wfNode, h.wfEdge⟩
  · show attrsAmmend [] w.nodeAttrs = _
    rw [h.node, attrsAmmend_nil h.wfNode]; rfl
  · show attrsAmmend [] w.edgeAttrs = _
    rw [h.edge, attrsAmmend_nil h.wfEdge]; rfl
  · simp [newVisitor, mhas, mget, mentioned]

/-- Statements that change neither defaults nor mentions. -/
theorem VisOk.step {w : Visitor} {sc : Scope} {pre : List Stmt} (h : VisOk w sc pre) (s : Stmt)
    (h1 : nodeDefaultEntries [s] = []) (h2 : edgeDefaultEntries [s] = []) (h3 : graphDefaultEntries [s] = [])
    {cr : Map Unit} (h4 : ∀ n, mhas cr n = true ↔ n ∈ mentioned pre ++ mentions s) :
    VisOk { w with created := cr } sc (pre ++ [s]) := by
  refine ⟨h.name, ?_, ?_, ?_, fun n => ?_, h.wfN, h.wfE⟩
  · unfold Scope.nodeDefaults; rw [nodeDefaultEntries_append, h1, List.append_nil]; exact h.node
  · unfold Scope.edgeDefaults; rw [edgeDefaultEntries_append, h2, List.append_nil]; exact h.edge
  · unfold graphDefaults; rw [graphDefaultEntries_append, h3, List.append_nil]; exact h.graph
  · rw [h4]; simp [mentioned]

theorem VisOk.same {w : Visitor} {sc : Scope} {pre : List Stmt} (h : VisOk w sc pre) (s : Stmt)
    (h1 : nodeDefaultEntries [s] = []) (h2 : edgeDefaultEntries [s] = []) (h3 : graphDefaultEntries [s] = [])
    (h4 : mentions s = []) : VisOk w sc (pre ++ [s]) := by
  have := h.step s h1 h2 h3 (cr := w.created) (fun n => by rw [h4, List.append_nil]; exact h.created n)
  exact this

/-! ### edges -/

/-- The visitor within an edge statement: the nodes `seen` have been mentioned too. -/
structure VisSeen (w : Visitor) (sc : Scope) (pre : List Stmt) (seen : List Str) : Prop where
  name : w.graphName = sc.name
  node : w.nodeAttrs = sc.nodeDefaults pre
  edge : w.edgeAttrs = sc.edgeDefaults pre
  graph : w.graphAttrs = graphDefaults pre
  created : ∀ n, mhas w.created n = true ↔ n ∈ mentioned pre ++ seen
  wfN : MapWF sc.inhNode
  wfE : MapWF sc.inhEdge

theorem createCall_eq (I : Iface σ) {w : Visitor} {sc : Scope} {pre : List Stmt} {seen : List Str} (h : VisSeen w sc pre seen)
    (c : Catcher σ) (l : Loc) :
    ∃ w', (if l.isNode then addNodeFromEdge I w c l.getID else (w, c)) = (w', c.run I (createCall sc pre seen l)) ∧
      VisSeen w' sc pre (seen ++ locNode l) := by
  cases l with
  | sub id body =>
    exact ⟨w, by simp [Loc.isNode, createCall, Catcher.run_nil], by simpa [locNode] using h⟩
  | node n =>
    simp only [Ast.Loc.isNode, if_true, Ast.Loc.getID, createCall, locNode]
    unfold addNodeFromEdge
    by_cases hm : mhas w.created n.id = true
    · rw [if_pos hm, if_pos ((h.created _).1 hm), Catcher.run_nil]
      refine ⟨w, rfl, h.name, h.node, h.edge, h.graph, fun x => ?_, h.wfN, h.wfE⟩
      rw [h.created, List.mem_append, List.mem_append, List.mem_append, List.mem_singleton]
      have hx := (h.created _).1 hm
      rw [List.mem_append] at hx
      constructor
      · rintro (h | h)
        · exact .inl h
        · exact .inr (.inl h)
      · rintro (h | h | rfl)
        · exact .inl h
        · exact .inr h
        · exact hx
    · rw [if_neg hm, if_neg (fun h' => hm ((h.created _).2 h')), h.name, h.node]
      refine ⟨{ w with created := mset w.created n.id () }, ?_, h.name, h.node, h.edge, h.graph, fun x => ?_, h.wfN, h.wfE⟩
      · rw [← Catcher.record_eq]; simp only [Iface.call]
        rw [h.name, h.node]
      · rw [mhas_mset, Bool.or_eq_true, decide_eq_true_eq, h.created, List.mem_append, List.mem_append, List.mem_append,
          List.mem_singleton]
        constructor
        · rintro (rfl | h | h)
          · exact .inr (.inr rfl)
          · exact .inl h
          · exact .inr (.inl h)
        · rintro (h | h | rfl)
          · exact .inr (.inl h)
          · exact .inr (.inr h)
          · exact .inl rfl

theorem edgeLoop_eq (I : Iface σ) {sc : Scope} {pre : List Stmt} (attrs : Map Str) (rhs : List EdgeRH) :
    ∀ {w : Visitor} {seen : List Str} (_ : VisSeen w sc pre seen) (c : Catcher σ) (prev : Loc),
    ∃ w', edgeLoop I attrs w c prev.getID prev.getPort rhs = (w', c.run I (chainCalls sc pre attrs seen prev rhs)) ∧
      VisSeen w' sc pre (seen ++ (dests rhs).flatMap locNode) := by
  induction rhs with
  | nil => intro w seen h c prev; exact ⟨w, by simp [edgeLoop, chainCalls, Catcher.run_nil], by simpa [dests] using h⟩
  | cons r rest ih =>
    intro w seen h c prev
    cases r with
    | mk op d =>
      obtain ⟨w1, e1, h1⟩ := createCall_eq I h c d
      obtain ⟨w2, e2, h2⟩ := ih h1 ((c.run I (createCall sc pre seen d)).run I
        [.addPortEdge prev.getID (Ast.portStr prev.getPort) d.getID (Ast.portStr d.getPort) op attrs]) d
      refine ⟨w2, ?_, ?_⟩
      · simp only [edgeLoop, chainCalls]
        rw [e1]
        simp only
        have : (c.run I (createCall sc pre seen d)).record (I.addPortEdge (c.run I (createCall sc pre seen d)).g prev.getID
            (Ast.portStr prev.getPort) d.getID (Ast.portStr d.getPort) op attrs) = (c.run I (createCall sc pre seen d)).run I
            [.addPortEdge prev.getID (Ast.portStr prev.getPort) d.getID (Ast.portStr d.getPort) op attrs] := by
          rw [← Catcher.record_eq]; rfl
        rw [this, e2, Catcher.run_append, Catcher.run_append]
      · rw [dests, List.flatMap_cons, ← List.append_assoc]
        exact h2

theorem graphAttrsLoop_eq (I : Iface σ) (name : Str) (c : Catcher σ) (kvs : List (Str × Str)) :
    graphAttrsLoop I name c kvs = c.run I (kvs.map fun e => .addAttr name e.1 e.2) := by
  induction kvs generalizing c with
  | nil => simp [graphAttrsLoop, Catcher.run_nil]
  | cons e kvs ih =>
    obtain ⟨k, v⟩ := e
    simp only [graphAttrsLoop, List.map_cons]
    rw [ih, show ∀ (x : Call) xs, x :: xs = [x] ++ xs from fun _ _ => rfl, Catcher.run_append, ← Catcher.record_eq]
    rfl

mutual
theorem walkStmt_eq (I : Iface σ) : (s : Stmt) → ∀ (w : Visitor) (sc : Scope) (pre : List Stmt) (_ : VisOk w sc pre) (c : Catcher σ),
    ∃ w', walkStmt I w c s = (w', c.run I (stmtCalls sc pre s)) ∧ VisOk w' sc (pre ++ [s])
  | .node id as => by
    intro w sc pre h c
    simp only [walkStmt, nodeStmt, stmtCalls, getMap_eq]
    by_cases hm : mhas w.created (Ast.nodeIDStr id) = true
    · have hm' := (h.created _).1 hm
      simp only [hm, Bool.not_true, Bool.false_eq_true, if_false, if_pos hm']
      refine ⟨w, ?_, ?_⟩
      · rw [attrsAmmend_eq_over (mapOf_wf as) MapWF.nil, ← Catcher.record_eq, h.name]; rfl
      · refine h.step (.node id as) rfl rfl rfl (cr := w.created) fun n => ?_
        rw [h.created]
        simp only [mentions, List.mem_append, List.mem_singleton]
        constructor
        · exact .inl
        · rintro (h | rfl)
          · exact h
          · exact hm'
    · have hm' : ¬ Ast.nodeIDStr id ∈ mentioned pre := fun h' => hm ((h.created _).2 h')
      have hm0 : mhas w.created (Ast.nodeIDStr id) = false := by simpa using hm
      simp only [hm0, Bool.not_false, if_true, if_neg hm']
      refine ⟨{ w with created := mset w.created (Ast.nodeIDStr id) () }, ?_, ?_⟩
      · rw [h.node, attrsAmmend_eq_over (mapOf_wf as) h.wfNode, ← Catcher.record_eq, h.name]; rfl
      · refine h.step (.node id as) rfl rfl rfl fun n => ?_
        rw [mhas_mset, Bool.or_eq_true, decide_eq_true_eq, h.created]
        simp only [mentions, List.mem_append, List.mem_singleton]
        constructor
        · rintro (rfl | h)
          · exact .inr rfl
          · exact .inl h
        · rintro (h | rfl)
          · exact .inr h
          · exact .inl rfl
  | .edge src rhs as => by
    intro w sc pre h c
    have h0 : VisSeen w sc pre [] := ⟨h.name, h.node, h.edge, h.graph, fun n => by rw [List.append_nil]; exact h.created n, h.wfN, h.wfE⟩
    obtain ⟨w1, e1, h1⟩ := createCall_eq I h0 c src
    obtain ⟨w2, e2, h2⟩ := edgeLoop_eq I (over (mapOf as) (sc.edgeDefaults pre)) rhs h1 (c.run I (createCall sc pre [] src)) src
    rw [List.nil_append] at e2 h2
    simp only [walkStmt, edgeStmt, stmtCalls, getMap_eq]
    rw [h.edge, attrsAmmend_eq_over (mapOf_wf as) h.wfEdge, e1]
    simp only
    rw [e2]
    simp only
    have hok2 : VisOk w2 sc (pre ++ [.edge src rhs as]) := by
      refine ⟨h2.name, ?_, ?_, ?_, fun n => ?_, h.wfN, h.wfE⟩
      · unfold Scope.nodeDefaults; rw [nodeDefaultEntries_append]; simp [nodeDefaultEntries]; exact h2.node
      · unfold Scope.edgeDefaults; rw [edgeDefaultEntries_append]; simp [edgeDefaultEntries]; exact h2.edge
      · unfold graphDefaults; rw [graphDefaultEntries_append]; simp [graphDefaultEntries]; exact h2.graph
      · rw [h2.created]
        simp [mentioned, mentions]
    refine ⟨w2, ?_, hok2⟩
    rw [walkLoc_eq I src _ _ _ _ h2, walkRHS_eq I rhs _ _ _ _ h2, Catcher.run_append, Catcher.run_append, Catcher.run_append]
  | .nodeAttrs as => by
    intro w sc pre h c
    simp only [walkStmt, stmtCalls, getMap_eq, Catcher.run_nil]
    refine ⟨_, rfl, h.name, ?_, ?_, ?_, fun n => ?_, h.wfN, h.wfE⟩
    · show overwrite w.nodeAttrs (mapOf as) = _
      unfold overwrite Scope.nodeDefaults
      rw [nodeDefaultEntries_append, msetAll_append, h.node, msetAll_mapOf h.wfNode]
      simp [nodeDefaultEntries, Scope.nodeDefaults]
    · unfold Scope.edgeDefaults; rw [edgeDefaultEntries_append]; simp [edgeDefaultEntries]; exact h.edge
    · unfold graphDefaults; rw [graphDefaultEntries_append]; simp [graphDefaultEntries]; exact h.graph
    · rw [h.created]; simp [mentioned, mentions]
  | .edgeAttrs as => by
    intro w sc pre h c
    simp only [walkStmt, stmtCalls, getMap_eq, Catcher.run_nil]
    refine ⟨_, rfl, h.name, ?_, ?_, ?_, fun n => ?_, h.wfN, h.wfE⟩
    · unfold Scope.nodeDefaults; rw [nodeDefaultEntries_append]; simp [nodeDefaultEntries]; exact h.node
    · show overwrite w.edgeAttrs (mapOf as) = _
      unfold overwrite Scope.edgeDefaults
      rw [edgeDefaultEntries_append, msetAll_append, h.edge, msetAll_mapOf h.wfEdge]
      simp [edgeDefaultEntries, Scope.edgeDefaults]
    · unfold graphDefaults; rw [graphDefaultEntries_append]; simp [graphDefaultEntries]; exact h.graph
    · rw [h.created]; simp [mentioned, mentions]
  | .graphAttrs as => by
    intro w sc pre h c
    simp only [walkStmt, graphAttrsStmt, stmtCalls, getMap_eq]
    rw [graphAttrsLoop_eq]
    refine ⟨{ w with graphAttrs := overwrite w.graphAttrs (mapOf as) }, by rw [← h.name], h.name, ?_, ?_, ?_, fun n => ?_, h.wfN, h.wfE⟩
    · unfold Scope.nodeDefaults; rw [nodeDefaultEntries_append]; simp [nodeDefaultEntries]; exact h.node
    · unfold Scope.edgeDefaults; rw [edgeDefaultEntries_append]; simp [edgeDefaultEntries]; exact h.edge
    · show overwrite w.graphAttrs (mapOf as) = _
      unfold overwrite graphDefaults
      rw [graphDefaultEntries_append, msetAll_append, h.graph, msetAll_mapOf (show MapWF (graphDefaults pre) from MapWF.nil.msetAll _)]
      simp [graphDefaultEntries, graphDefaults]
    · rw [h.created]; simp [mentioned, mentions]
  | .sub id body => by
    intro w sc pre h c
    simp only [walkStmt, stmtCalls]
    obtain ⟨w', e, _⟩ := walkStmts_eq I body _ _ _ (newVisitor_ok h id) (c.run I [.addSubGraph sc.name id (graphDefaults pre)])
    refine ⟨w, ?_, h.same (.sub id body) rfl rfl rfl rfl⟩
    have hr : c.record (I.addSubGraph c.g w.graphName id w.graphAttrs) = c.run I [.addSubGraph sc.name id (graphDefaults pre)] := by
      rw [← Catcher.record_eq, h.name, h.graph]; rfl
    rw [hr, e, Catcher.run_cons _ _ _ (stmtsCalls _ _ _)]
  | .attr a => by
    intro w sc pre h c
    refine ⟨w, ?_, h.same (.attr a) rfl rfl rfl rfl⟩
    simp only [walkStmt, stmtCalls]
    rw [← Catcher.record_eq, h.name]; rfl
theorem walkLoc_eq (I : Iface σ) : (l : Loc) → ∀ (w : Visitor) (sc : Scope) (pre : List Stmt) (seen : List Str)
    (_ : VisSeen w sc pre seen) (c : Catcher σ), walkLoc I w c l = c.run I (locCalls sc pre l)
  | .node n => by intro w sc pre seen h c; simp [walkLoc, locCalls, Catcher.run_nil]
  | .sub id body => by
    intro w sc pre seen h c
    simp only [walkLoc, locCalls]
    have hnew : VisOk (newVisitor id w.nodeAttrs w.edgeAttrs) ⟨id, sc.nodeDefaults pre, sc.edgeDefaults pre⟩ [] := by
      refine ⟨rfl, ?_, ?_, rfl, fun n => ?_, h.wfN.msetAll _, h.wfE.msetAll _⟩
      · show attrsAmmend [] w.nodeAttrs = _
        rw [h.node, attrsAmmend_nil (show MapWF (sc.nodeDefaults pre) from h.wfN.msetAll _)]; rfl
      · show attrsAmmend [] w.edgeAttrs = _
        rw [h.edge, attrsAmmend_nil (show MapWF (sc.edgeDefaults pre) from h.wfE.msetAll _)]; rfl
      · simp [newVisitor, mhas, mget, mentioned]
    obtain ⟨w', e, _⟩ := walkStmts_eq I body _ _ _ hnew (c.run I [.addSubGraph sc.name id (graphDefaults pre)])
    have hr : c.record (I.addSubGraph c.g w.graphName id w.graphAttrs) = c.run I [.addSubGraph sc.name id (graphDefaults pre)] := by
      rw [← Catcher.record_eq, h.name, h.graph]; rfl
    rw [hr, e, Catcher.run_cons _ _ _ (stmtsCalls _ _ _)]
theorem walkRHS_eq (I : Iface σ) : (rhs : List EdgeRH) → ∀ (w : Visitor) (sc : Scope) (pre : List Stmt) (seen : List Str)
    (_ : VisSeen w sc pre seen) (c : Catcher σ), walkRHS I w c rhs = c.run I (rhsCalls sc pre rhs)
  | [] => by intro w sc pre seen h c; simp [walkRHS, rhsCalls, Catcher.run_nil]
  | .mk op d :: rest => by
    intro w sc pre seen h c
    simp only [walkRHS, rhsCalls]
    rw [walkLoc_eq I d _ _ _ _ h, walkRHS_eq I rest _ _ _ _ h, Catcher.run_append]
theorem walkStmts_eq (I : Iface σ) : (ss : List Stmt) → ∀ (w : Visitor) (sc : Scope) (pre : List Stmt) (_ : VisOk w sc pre) (c : Catcher σ),
    ∃ w', walkStmts I w c ss = (w', c.run I (stmtsCalls sc pre ss)) ∧ VisOk w' sc (pre ++ ss)
  | [] => by intro w sc pre h c; exact ⟨w, by simp [walkStmts, stmtsCalls, Catcher.run_nil], by simpa using h⟩
  | s :: ss => by
    intro w sc pre h c
    obtain ⟨w1, e1, h1⟩ := walkStmt_eq I s _ _ _ h c
    obtain ⟨w2, e2, h2⟩ := walkStmts_eq I ss _ _ _ h1 (c.run I (stmtCalls sc pre s))
    refine ⟨w2, ?_, by simpa using h2⟩
    simp only [walkStmts, stmtsCalls]
    rw [e1]
    simp only
    rw [e2, Catcher.run_append]
end

/-- The analyser performs exactly the specified calls. -/
theorem analyseC_eq (I : Iface σ) (t : Ast.Graph) (g : σ) :
    analyseC I t g = ⟨(replay I g (treeCalls t)).1, (replay I g (treeCalls t)).2⟩ := by
  have h0 : VisOk (newVisitor t.id [] []) ⟨t.id, [], []⟩ [] :=
    ⟨rfl, rfl, rfl, rfl, fun n => by simp [newVisitor, mhas, mget, mentioned], MapWF.nil, MapWF.nil⟩
  unfold analyseC
  simp only
  obtain ⟨w', e, _⟩ := walkStmts_eq I t.stmts _ _ _ h0 ((⟨g, []⟩ : Catcher σ).run I [.setStrict t.strict, .setDir t.type_, .setName t.id])
  have hr : (((⟨g, []⟩ : Catcher σ).record (I.setStrict g t.strict)).record (I.setDir ((⟨g, []⟩ : Catcher σ).record (I.setStrict g t.strict)).g t.type_)).record
      (I.setName (((⟨g, []⟩ : Catcher σ).record (I.setStrict g t.strict)).record (I.setDir ((⟨g, []⟩ : Catcher σ).record (I.setStrict g t.strict)).g t.type_)).g t.id) =
      (⟨g, []⟩ : Catcher σ).run I [.setStrict t.strict, .setDir t.type_, .setName t.id] := by
    have e1 : (⟨g, []⟩ : Catcher σ).record (I.setStrict g t.strict) = (⟨g, []⟩ : Catcher σ).run I [.setStrict t.strict] := by
      rw [← Catcher.record_eq]; rfl
    rw [e1]
    have e2 : ∀ c : Catcher σ, c.record (I.setDir c.g t.type_) = c.run I [.setDir t.type_] := fun c => by rw [← Catcher.record_eq]; rfl
    rw [e2]
    have e3 : ∀ c : Catcher σ, c.record (I.setName c.g t.id) = c.run I [.setName t.id] := fun c => by rw [← Catcher.record_eq]; rfl
    rw [e3, ← Catcher.run_append, ← Catcher.run_append]
    rfl
  rw [hr, e]
  simp only
  rw [← Catcher.run_append]
  simp [Catcher.run, treeCalls]

end Gographviz
