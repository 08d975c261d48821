import Verif.Proofs.Replay
import Verif.Spec.Printing
/-!
What printing and parsing normalises does not change the calls of the analyser.
-/
namespace Gographviz

open Spec
open Ast (Stmt Loc EdgeRH AttrList)

theorem entries_norm (as : AttrList) : entries (normAttrs as) = entries as := by
  unfold entries normAttrs
  congr 1
  induction as with
  | nil => rfl
  | cons a as ih =>
    cases a with
    | nil => simpa using ih
    | cons x xs => simp [ih]

theorem mapOf_norm (as : AttrList) : mapOf (normAttrs as) = mapOf as := by unfold mapOf; rw [entries_norm]

theorem entries_norm_empty {as : AttrList} (h : normAttrs as = []) : entries as = [] := by
  rw [← entries_norm, h]; rfl

theorem normNode_id (n : Ast.NodeID) : (normNode n).id = n.id := by unfold normNode; split <;> rfl

theorem normNode_portStr (n : Ast.NodeID) : Ast.portStr (normNode n).port = Ast.portStr n.port := by
  unfold normNode
  split
  · rename_i h; simp [Ast.portStr, h]
  · rfl

theorem normNode_nodeIDStr (n : Ast.NodeID) : Ast.nodeIDStr (normNode n) = Ast.nodeIDStr n := by
  simp only [Ast.nodeIDStr, normNode_id, normNode_portStr]

theorem mentioned_append (a b : List Stmt) : mentioned (a ++ b) = mentioned a ++ mentioned b := by simp [mentioned]

/-- Two statement lists that leave the same defaults and mention the same nodes. -/
structure PreEq (pre pre' : List Stmt) : Prop where
  node : nodeDefaultEntries pre = nodeDefaultEntries pre'
  edge : edgeDefaultEntries pre = edgeDefaultEntries pre'
  graph : graphDefaultEntries pre = graphDefaultEntries pre'
  ment : mentioned pre = mentioned pre'

theorem PreEq.append {a a' b b' : List Stmt} (h : PreEq a a') (h' : PreEq b b') : PreEq (a ++ b) (a' ++ b') where
  node := by rw [nodeDefaultEntries_append, nodeDefaultEntries_append, h.node, h'.node]
  edge := by rw [edgeDefaultEntries_append, edgeDefaultEntries_append, h.edge, h'.edge]
  graph := by rw [graphDefaultEntries_append, graphDefaultEntries_append, h.graph, h'.graph]
  ment := by rw [mentioned_append, mentioned_append, h.ment, h'.ment]

theorem locNode_norm (l : Loc) : locNode (normLoc l) = locNode l := by cases l <;> simp [normLoc, locNode, normNode_id]

theorem dests_norm (rhs : List EdgeRH) : (dests (normRHS rhs)).flatMap locNode = (dests rhs).flatMap locNode := by
  induction rhs with
  | nil => simp [normRHS]
  | cons r rest ih => cases r with | mk op d => simp [normRHS, dests, locNode_norm, ih]

theorem preEq_norm (s : Stmt) : PreEq [s] (normStmt s) := by
  cases s with
  | node n as => constructor <;> simp [normStmt, nodeDefaultEntries, edgeDefaultEntries, graphDefaultEntries, mentioned, mentions, normNode_nodeIDStr]
  | edge src rhs as =>
    constructor <;> simp [normStmt, nodeDefaultEntries, edgeDefaultEntries, graphDefaultEntries, mentioned, mentions, locNode_norm, dests_norm]
  | nodeAttrs as =>
    simp only [normStmt, normDefaults]
    split
    · rename_i h
      have := entries_norm_empty h
      constructor <;> simp [nodeDefaultEntries, edgeDefaultEntries, graphDefaultEntries, mentioned, mentions, this]
    · constructor <;> simp [nodeDefaultEntries, edgeDefaultEntries, graphDefaultEntries, mentioned, mentions, entries_norm]
  | edgeAttrs as =>
    simp only [normStmt, normDefaults]
    split
    · rename_i h
      have := entries_norm_empty h
      constructor <;> simp [nodeDefaultEntries, edgeDefaultEntries, graphDefaultEntries, mentioned, mentions, this]
    · constructor <;> simp [nodeDefaultEntries, edgeDefaultEntries, graphDefaultEntries, mentioned, mentions, entries_norm]
  | graphAttrs as =>
    simp only [normStmt, normDefaults]
    split
    · rename_i h
      have := entries_norm_empty h
      constructor <;> simp [nodeDefaultEntries, edgeDefaultEntries, graphDefaultEntries, mentioned, mentions, this]
    · constructor <;> simp [nodeDefaultEntries, edgeDefaultEntries, graphDefaultEntries, mentioned, mentions, entries_norm]
  | sub id body => constructor <;> simp [normStmt, nodeDefaultEntries, edgeDefaultEntries, graphDefaultEntries, mentioned, mentions]
  | attr a => constructor <;> simp [normStmt, nodeDefaultEntries, edgeDefaultEntries, graphDefaultEntries, mentioned, mentions]

theorem createCall_norm (sc : Scope) {pre pre' : List Stmt} (h : PreEq pre pre') (seen : List Str) (l : Loc) :
    createCall sc pre' seen (normLoc l) = createCall sc pre seen l := by
  cases l with
  | sub id body => simp [normLoc, createCall]
  | node n => simp only [normLoc, createCall, normNode_id, Scope.nodeDefaults, h.node, h.ment]

theorem getID_norm (l : Loc) : (normLoc l).getID = l.getID := by cases l <;> simp [normLoc, Ast.Loc.getID, normNode_id]
theorem getPort_norm (l : Loc) : Ast.portStr (normLoc l).getPort = Ast.portStr l.getPort := by
  cases l <;> simp [normLoc, Ast.Loc.getPort, normNode_portStr]

theorem chainCalls_norm (sc : Scope) {pre pre' : List Stmt} (h : PreEq pre pre') (attrs : Map Str) (rhs : List EdgeRH) :
    ∀ (seen : List Str) (prev : Loc), chainCalls sc pre' attrs seen (normLoc prev) (normRHS rhs) = chainCalls sc pre attrs seen prev rhs := by
  induction rhs with
  | nil => intro seen prev; simp [normRHS, chainCalls]
  | cons r rest ih =>
    cases r with
    | mk op d =>
      intro seen prev
      simp only [normRHS, chainCalls, createCall_norm sc h, getID_norm, getPort_norm, locNode_norm, ih]

mutual
theorem stmtCalls_norm : (s : Stmt) → ∀ (sc : Scope) (pre pre' : List Stmt) (_ : PreEq pre pre'),
    stmtsCalls sc pre' (normStmt s) = stmtCalls sc pre s
  | .node n as => by
    intro sc pre pre' h
    simp only [normStmt, stmtsCalls, stmtCalls, Scope.nodeDefaults, h.node, h.ment, mapOf_norm, List.append_nil, normNode_nodeIDStr]
  | .edge src rhs as => by
    intro sc pre pre' h
    simp only [normStmt, stmtsCalls, stmtCalls, List.append_nil, createCall_norm sc h, chainCalls_norm sc h, mapOf_norm, locNode_norm,
      locCalls_norm src sc pre pre' h, rhsCalls_norm rhs sc pre pre' h, Scope.edgeDefaults, h.edge]
  | .nodeAttrs as => by
    intro sc pre pre' h
    simp only [normStmt, normDefaults]
    split <;> simp [stmtsCalls, stmtCalls]
  | .edgeAttrs as => by
    intro sc pre pre' h
    simp only [normStmt, normDefaults]
    split <;> simp [stmtsCalls, stmtCalls]
  | .graphAttrs as => by
    intro sc pre pre' h
    simp only [normStmt, normDefaults]
    split
    · rename_i he
      have : mapOf as = [] := by rw [← mapOf_norm, he]; rfl
      simp [stmtsCalls, stmtCalls, this]
    · simp [stmtsCalls, stmtCalls, mapOf_norm]
  | .sub id body => by
    intro sc pre pre' h
    simp only [normStmt, stmtsCalls, stmtCalls, Scope.nodeDefaults, Scope.edgeDefaults, graphDefaults, h.node, h.edge, h.graph, List.append_nil]
    rw [stmtsCalls_norm body _ [] [] ⟨rfl, rfl, rfl, rfl⟩]
  | .attr a => by
    intro sc pre pre' h
    simp only [normStmt, stmtsCalls, stmtCalls, List.append_nil]
theorem locCalls_norm : (l : Loc) → ∀ (sc : Scope) (pre pre' : List Stmt) (_ : PreEq pre pre'),
    locCalls sc pre' (normLoc l) = locCalls sc pre l
  | .node n => by intro sc pre pre' h; simp only [normLoc, locCalls]
  | .sub id body => by
    intro sc pre pre' h
    simp only [normLoc, locCalls, Scope.nodeDefaults, Scope.edgeDefaults, graphDefaults, h.node, h.edge, h.graph]
    rw [stmtsCalls_norm body _ [] [] ⟨rfl, rfl, rfl, rfl⟩]
theorem rhsCalls_norm : (rhs : List EdgeRH) → ∀ (sc : Scope) (pre pre' : List Stmt) (_ : PreEq pre pre'),
    rhsCalls sc pre' (normRHS rhs) = rhsCalls sc pre rhs
  | [] => by intro sc pre pre' h; simp only [normRHS, rhsCalls]
  | .mk op d :: rest => by
    intro sc pre pre' h
    simp only [normRHS, rhsCalls]
    rw [locCalls_norm d sc pre pre' h, rhsCalls_norm rest sc pre pre' h]
theorem stmtsCalls_norm : (ss : List Stmt) → ∀ (sc : Scope) (pre pre' : List Stmt) (_ : PreEq pre pre'),
    stmtsCalls sc pre' (normStmts ss) = stmtsCalls sc pre ss
  | [] => by intro sc pre pre' h; simp only [normStmts, stmtsCalls]
  | s :: ss => by
    intro sc pre pre' h
    simp only [normStmts, stmtsCalls]
    rw [stmtsCalls_append, stmtCalls_norm s sc pre pre' h, stmtsCalls_norm ss sc (pre ++ [s]) (pre' ++ normStmt s) (h.append (preEq_norm s))]
end

theorem treeCalls_norm (t : Ast.Graph) : treeCalls (norm t) = treeCalls t := by
  unfold treeCalls norm
  rw [stmtsCalls_norm t.stmts _ [] [] ⟨rfl, rfl, rfl, rfl⟩]

/-- A tree and its normal form are analysed alike. -/
theorem newAnalysedGraph_norm (t : Ast.Graph) : newAnalysedGraph (norm t) = newAnalysedGraph t := by
  unfold newAnalysedGraph analyse
  rw [analyseC_eq, analyseC_eq, treeCalls_norm]

end Gographviz
