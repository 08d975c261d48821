import Verif.Proofs.NormCalls
/-!
A node statement for a node called `a:p` prints the same text, and leads to the same calls, as one for the node `a` with the port `p`.
-/
namespace Gographviz

open Spec
open Ast (Stmt Loc EdgeRH AttrList NodeID)

mutual
/-- Replaces the node of every node statement. -/
def mapStmt (φ : NodeID → NodeID) : Stmt → Stmt
  | .node n as => .node (φ n) as
  | .edge src rhs as => .edge (mapLoc φ src) (mapRHS φ rhs) as
  | .nodeAttrs as => .nodeAttrs as
  | .edgeAttrs as => .edgeAttrs as
  | .graphAttrs as => .graphAttrs as
  | .sub id body => .sub id (mapStmts φ body)
  | .attr a => .attr a
def mapLoc (φ : NodeID → NodeID) : Loc → Loc
  | .node n => .node n
  | .sub id body => .sub id (mapStmts φ body)
def mapRHS (φ : NodeID → NodeID) : List EdgeRH → List EdgeRH
  | [] => []
  | .mk op dst :: rest => .mk op (mapLoc φ dst) :: mapRHS φ rest
def mapStmts (φ : NodeID → NodeID) : List Stmt → List Stmt
  | [] => []
  | s :: ss => mapStmt φ s :: mapStmts φ ss
end

def mapTree (φ : NodeID → NodeID) (t : Ast.Graph) : Ast.Graph := { t with stmts := mapStmts φ t.stmts }

theorem mapStmts_append (φ : NodeID → NodeID) (a b : List Stmt) : mapStmts φ (a ++ b) = mapStmts φ a ++ mapStmts φ b := by
  induction a with
  | nil => simp [mapStmts]
  | cons s ss ih => simp [mapStmts, ih]

theorem mem_mapStmts {φ : NodeID → NodeID} {ss : List Stmt} {s : Stmt} (h : s ∈ mapStmts φ ss) : ∃ s' ∈ ss, s = mapStmt φ s' := by
  induction ss with
  | nil => simp [mapStmts] at h
  | cons x ss ih =>
    simp only [mapStmts, List.mem_cons] at h
    rcases h with h | h
    · exact ⟨x, by simp, h⟩
    · obtain ⟨s', h1, h2⟩ := ih h
      exact ⟨s', by simp [h1], h2⟩

section
variable {φ : NodeID → NodeID} (hφ : ∀ n, Ast.nodeIDStr (φ n) = Ast.nodeIDStr n)
include hφ

mutual
theorem stmtStr_map : (s : Stmt) → ∀ i : Str, Ast.stmtStr i (mapStmt φ s) = Ast.stmtStr i s
  | .node n as => by intro i; simp only [mapStmt, Ast.stmtStr, hφ]
  | .edge src rhs as => by intro i; simp only [mapStmt, Ast.stmtStr, locStr_map src, rhsStr_map rhs]
  | .nodeAttrs as => by intro i; simp only [mapStmt]
  | .edgeAttrs as => by intro i; simp only [mapStmt]
  | .graphAttrs as => by intro i; simp only [mapStmt]
  | .sub id body => by intro i; simp only [mapStmt, Ast.stmtStr, stmtsLines_map body]
  | .attr a => by intro i; simp only [mapStmt]
theorem locStr_map : (l : Loc) → Ast.locStr (mapLoc φ l) = Ast.locStr l
  | .node n => by simp only [mapLoc]
  | .sub id body => by simp only [mapLoc, Ast.locStr, stmtsLines_map body]
theorem rhsStr_map : (r : List EdgeRH) → Ast.rhsStr (mapRHS φ r) = Ast.rhsStr r
  | [] => by simp only [mapRHS]
  | .mk op d :: rest => by simp only [mapRHS, Ast.rhsStr, locStr_map d, rhsStr_map rest]
theorem stmtsLines_map : (ss : List Stmt) → ∀ i : Str, Ast.stmtsLines i (mapStmts φ ss) = Ast.stmtsLines i ss
  | [] => by intro i; simp only [mapStmts]
  | s :: ss => by intro i; simp only [mapStmts, Ast.stmtsLines, stmtStr_map s, stmtsLines_map ss]
end

theorem graphStr_map (t : Ast.Graph) : Ast.graphStr (mapTree φ t) = Ast.graphStr t := by
  unfold Ast.graphStr mapTree Ast.stmtListStr
  simp only
  rw [stmtsLines_map hφ]

omit hφ in
theorem locNode_map (l : Loc) : locNode (mapLoc φ l) = locNode l := by cases l <;> simp [mapLoc, locNode]

omit hφ in
theorem dests_map (rhs : List EdgeRH) : (dests (mapRHS φ rhs)).flatMap locNode = (dests rhs).flatMap locNode := by
  induction rhs with
  | nil => simp [mapRHS]
  | cons r rest ih => cases r with | mk op d => simp [mapRHS, dests, locNode_map, ih]

theorem preEq_map (s : Stmt) : PreEq [s] [mapStmt φ s] := by
  cases s <;> constructor <;>
    simp [mapStmt, nodeDefaultEntries, edgeDefaultEntries, graphDefaultEntries, mentioned, mentions, hφ, locNode_map, dests_map]

omit hφ in
theorem createCall_map (sc : Scope) {pre pre' : List Stmt} (h : PreEq pre pre') (seen : List Str) (l : Loc) :
    createCall sc pre' seen (mapLoc φ l) = createCall sc pre seen l := by
  cases l with
  | sub id body => simp [mapLoc, createCall]
  | node n => simp only [mapLoc, createCall, Scope.nodeDefaults, h.node, h.ment]

omit hφ in
theorem getID_map (l : Loc) : (mapLoc φ l).getID = l.getID := by cases l <;> simp [mapLoc, Ast.Loc.getID]
omit hφ in
theorem getPort_map (l : Loc) : (mapLoc φ l).getPort = l.getPort := by cases l <;> simp [mapLoc, Ast.Loc.getPort]

omit hφ in
theorem chainCalls_map (sc : Scope) {pre pre' : List Stmt} (h : PreEq pre pre') (attrs : Map Str) (rhs : List EdgeRH) :
    ∀ (seen : List Str) (prev : Loc), chainCalls sc pre' attrs seen (mapLoc φ prev) (mapRHS φ rhs) = chainCalls sc pre attrs seen prev rhs := by
  induction rhs with
  | nil => intro seen prev; simp [mapRHS, chainCalls]
  | cons r rest ih =>
    cases r with
    | mk op d =>
      intro seen prev
      simp only [mapRHS, chainCalls, createCall_map sc h, getID_map, getPort_map, locNode_map, ih]

mutual
theorem stmtCalls_map : (s : Stmt) → ∀ (sc : Scope) (pre pre' : List Stmt) (_ : PreEq pre pre'),
    stmtCalls sc pre' (mapStmt φ s) = stmtCalls sc pre s
  | .node n as => by
    intro sc pre pre' h
    simp only [mapStmt, stmtCalls, Scope.nodeDefaults, h.node, h.ment, hφ]
  | .edge src rhs as => by
    intro sc pre pre' h
    simp only [mapStmt, stmtCalls, createCall_map sc h, chainCalls_map sc h, locNode_map,
      locCalls_map src sc pre pre' h, rhsCalls_map rhs sc pre pre' h, Scope.edgeDefaults, h.edge]
  | .nodeAttrs as => by intro sc pre pre' h; simp only [mapStmt, stmtCalls]
  | .edgeAttrs as => by intro sc pre pre' h; simp only [mapStmt, stmtCalls]
  | .graphAttrs as => by intro sc pre pre' h; simp only [mapStmt, stmtCalls]
  | .sub id body => by
    intro sc pre pre' h
    simp only [mapStmt, stmtCalls, Scope.nodeDefaults, Scope.edgeDefaults, graphDefaults, h.node, h.edge, h.graph]
    rw [stmtsCalls_map body _ [] [] ⟨rfl, rfl, rfl, rfl⟩]
  | .attr a => by intro sc pre pre' h; simp only [mapStmt, stmtCalls]
theorem locCalls_map : (l : Loc) → ∀ (sc : Scope) (pre pre' : List Stmt) (_ : PreEq pre pre'),
    locCalls sc pre' (mapLoc φ l) = locCalls sc pre l
  | .node n => by intro sc pre pre' h; simp only [mapLoc, locCalls]
  | .sub id body => by
    intro sc pre pre' h
    simp only [mapLoc, locCalls, Scope.nodeDefaults, Scope.edgeDefaults, graphDefaults, h.node, h.edge, h.graph]
    rw [stmtsCalls_map body _ [] [] ⟨rfl, rfl, rfl, rfl⟩]
theorem rhsCalls_map : (rhs : List EdgeRH) → ∀ (sc : Scope) (pre pre' : List Stmt) (_ : PreEq pre pre'),
    rhsCalls sc pre' (mapRHS φ rhs) = rhsCalls sc pre rhs
  | [] => by intro sc pre pre' h; simp only [mapRHS, rhsCalls]
  | .mk op d :: rest => by
    intro sc pre pre' h
    simp only [mapRHS, rhsCalls]
    rw [locCalls_map d sc pre pre' h, rhsCalls_map rest sc pre pre' h]
theorem stmtsCalls_map : (ss : List Stmt) → ∀ (sc : Scope) (pre pre' : List Stmt) (_ : PreEq pre pre'),
    stmtsCalls sc pre' (mapStmts φ ss) = stmtsCalls sc pre ss
  | [] => by intro sc pre pre' h; simp only [mapStmts, stmtsCalls]
  | s :: ss => by
    intro sc pre pre' h
    simp only [mapStmts, stmtsCalls]
    rw [stmtCalls_map s sc pre pre' h, stmtsCalls_map ss sc (pre ++ [s]) (pre' ++ [mapStmt φ s]) (h.append (preEq_map hφ s))]
end

theorem newAnalysedGraph_map (t : Ast.Graph) : newAnalysedGraph (mapTree φ t) = newAnalysedGraph t := by
  have : treeCalls (mapTree φ t) = treeCalls t := by
    unfold treeCalls mapTree
    simp only
    rw [stmtsCalls_map hφ t.stmts _ [] [] ⟨rfl, rfl, rfl, rfl⟩]
  unfold newAnalysedGraph analyse
  rw [analyseC_eq, analyseC_eq, this]

end

open Classical in
/-- The node, if possible with its port apart. -/
noncomputable def splitName (n : NodeID) : NodeID :=
  if h : ∃ m, ValidNode m ∧ Ast.nodeIDStr m = Ast.nodeIDStr n then h.choose else n

theorem splitName_str (n : NodeID) : Ast.nodeIDStr (splitName n) = Ast.nodeIDStr n := by
  unfold splitName
  split
  · rename_i h; exact h.choose_spec.2
  · rfl

theorem splitName_valid {n : NodeID} (h : ∃ m, ValidNode m ∧ Ast.nodeIDStr m = Ast.nodeIDStr n) : ValidNode (splitName n) := by
  unfold splitName
  rw [dif_pos h]
  exact h.choose_spec.1

end Gographviz
