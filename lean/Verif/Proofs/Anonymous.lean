import Verif.Spec.Anonymous
import Verif.Spec.Meaning
import Verif.Spec.Scoping
import Verif.Proofs.Replay
/-!
Other generated names: another tree, other calls.
-/
namespace Gographviz.Anon

open Gographviz Spec Ast
open Gographviz.Spec.Meaning

/-! ### the tree with other names of subgraphs -/

mutual
/-- The statement with the names of all subgraphs changed. -/
def renStmt (ρ : Str → Str) : Stmt → Stmt
  | .node n as => .node n as
  | .edge src rhs as => .edge (renLoc ρ src) (renRHS ρ rhs) as
  | .nodeAttrs as => .nodeAttrs as
  | .edgeAttrs as => .edgeAttrs as
  | .graphAttrs as => .graphAttrs as
  | .sub id body => .sub (ρ id) (renStmts ρ body)
  | .attr a => .attr a
/-- The same for an end of an edge. -/
def renLoc (ρ : Str → Str) : Loc → Loc
  | .node n => .node n
  | .sub id body => .sub (ρ id) (renStmts ρ body)
/-- The same for right-hand sides. -/
def renRHS (ρ : Str → Str) : List EdgeRH → List EdgeRH
  | [] => []
  | .mk op d :: rest => .mk op (renLoc ρ d) :: renRHS ρ rest
/-- The same for lists. -/
def renStmts (ρ : Str → Str) : List Stmt → List Stmt
  | [] => []
  | s :: ss => renStmt ρ s :: renStmts ρ ss
end

theorem renStmts_append (ρ : Str → Str) (a b : List Stmt) : renStmts ρ (a ++ b) = renStmts ρ a ++ renStmts ρ b := by
  induction a with
  | nil => simp [renStmts]
  | cons s a ih => simp [renStmts, ih]

theorem renRHS_append (ρ : Str → Str) (a b : List EdgeRH) : renRHS ρ (a ++ b) = renRHS ρ a ++ renRHS ρ b := by
  induction a with
  | nil => simp [renRHS]
  | cons s a ih => cases s; simp [renRHS, ih]

/-- The renaming leaves a node identifier alone, in all the forms in which it becomes a name. -/
def FixNode (ρ : Str → Str) (n : NodeID) : Prop := ρ n.id = n.id ∧ ρ (nodeIDStr n) = nodeIDStr n ∧ ρ (portStr n.port) = portStr n.port

mutual
/-- All node identifiers are left alone. -/
def FixStmt (ρ : Str → Str) : Stmt → Prop
  | .node n _ => FixNode ρ n
  | .edge src rhs _ => FixLoc ρ src ∧ FixRHS ρ rhs
  | .sub _ body => FixStmts ρ body
  | .nodeAttrs _ => True
  | .edgeAttrs _ => True
  | .graphAttrs _ => True
  | .attr _ => True
/-- The same for an end of an edge. -/
def FixLoc (ρ : Str → Str) : Loc → Prop
  | .node n => FixNode ρ n
  | .sub _ body => FixStmts ρ body
/-- The same for right-hand sides. -/
def FixRHS (ρ : Str → Str) : List EdgeRH → Prop
  | [] => True
  | .mk _ d :: rest => FixLoc ρ d ∧ FixRHS ρ rest
/-- The same for lists. -/
def FixStmts (ρ : Str → Str) : List Stmt → Prop
  | [] => True
  | s :: ss => FixStmt ρ s ∧ FixStmts ρ ss
end

theorem fixStmts_append (ρ : Str → Str) (a b : List Stmt) : FixStmts ρ (a ++ b) ↔ FixStmts ρ a ∧ FixStmts ρ b := by
  induction a with
  | nil => simp [FixStmts]
  | cons s a ih => simp [FixStmts, ih, and_assoc]

theorem fixRHS_append (ρ : Str → Str) (a b : List EdgeRH) : FixRHS ρ (a ++ b) ↔ FixRHS ρ a ∧ FixRHS ρ b := by
  induction a with
  | nil => simp [FixRHS]
  | cons s a ih => cases s; simp [FixRHS, ih, and_assoc]

/-! ### from tokens to the renamed tree -/

/-- What the renaming must leave alone: texts with a colon, the empty text. -/
structure Keeps (ρ : Str → Str) : Prop where
  empty : ρ [] = []
  colon : ∀ s, 58 ∈ s → ρ s = s

theorem fixNode {ρ : Str → Str} (hk : Keeps ρ) {ts : List Lexeme} {n : NodeID} (h : NodeIdM ts n) (hid : ∀ l ∈ ts, l.1 = 18 → ρ l.2 = l.2) : FixNode ρ n := by
  have port : ∀ p : Port, ρ (portStr p) = portStr p := by
    intro p
    unfold portStr
    split
    · exact hk.empty
    · exact hk.colon _ (by simp)
  have node : ∀ n : NodeID, ρ n.id = n.id → ρ (nodeIDStr n) = nodeIDStr n := by
    intro n hn
    unfold nodeIDStr portStr
    split
    · rw [List.append_nil, hn]
    · exact hk.colon _ (by simp)
  have key : ρ n.id = n.id := by
    cases h with
    | plain => exact hid _ (.head _) rfl
    | port => exact hid _ (.head _) rfl
    | port2 => exact hid _ (.head _) rfl
  exact ⟨key, node n key, port _⟩

section
variable {gen gen' : Nat → Str} {ρ : Str → Str} {c0 d0 n : Nat}

/-- The position of the second generator that corresponds to a position of the first. -/
def sh (c0 d0 k : Nat) : Nat := d0 + (k - c0)

theorem optStmts_ren (hk : Keeps ρ) (hg : ∀ k, c0 ≤ k → k < n → ρ (gen k) = gen' (sh c0 d0 k)) {c c' : Nat} {ts : List Lexeme} {b : List Stmt}
    (h : OptStmtsM gen c ts b c') : c ≤ c' ∧ (c0 ≤ c → c' ≤ n → (∀ l ∈ ts, l.1 = 18 → ρ l.2 = l.2) →
      OptStmtsM gen' (sh c0 d0 c) ts (renStmts ρ b) (sh c0 d0 c') ∧ FixStmts ρ b) := by
  have hs : ∀ k, c0 ≤ k → sh c0 d0 (k + 1) = sh c0 d0 k + 1 := by intro k hk; unfold sh; omega
  refine OptStmtsM.rec
    (motive_1 := fun c ts s c' _ => c ≤ c' ∧ (c0 ≤ c → c' ≤ n → (∀ l ∈ ts, l.1 = 18 → ρ l.2 = l.2) →
      StmtM gen' (sh c0 d0 c) ts (renStmt ρ s) (sh c0 d0 c') ∧ FixStmt ρ s))
    (motive_2 := fun c ts d c' _ => c ≤ c' ∧ (c0 ≤ c → c' ≤ n → (∀ l ∈ ts, l.1 = 18 → ρ l.2 = l.2) →
      LocM gen' (sh c0 d0 c) ts (renLoc ρ d) (sh c0 d0 c') ∧ FixLoc ρ d))
    (motive_3 := fun c ts rhs c' _ => c ≤ c' ∧ (c0 ≤ c → c' ≤ n → (∀ l ∈ ts, l.1 = 18 → ρ l.2 = l.2) →
      RhsM gen' (sh c0 d0 c) ts (renRHS ρ rhs) (sh c0 d0 c') ∧ FixRHS ρ rhs))
    (motive_4 := fun c ts id b c' _ => c ≤ c' ∧ (c0 ≤ c → c' ≤ n → (∀ l ∈ ts, l.1 = 18 → ρ l.2 = l.2) →
      SubM gen' (sh c0 d0 c) ts (ρ id) (renStmts ρ b) (sh c0 d0 c') ∧ FixStmts ρ b))
    (motive_5 := fun c ts b c' _ => c ≤ c' ∧ (c0 ≤ c → c' ≤ n → (∀ l ∈ ts, l.1 = 18 → ρ l.2 = l.2) →
      StmtsM gen' (sh c0 d0 c) ts (renStmts ρ b) (sh c0 d0 c') ∧ FixStmts ρ b))
    (motive_6 := fun c ts b c' _ => c ≤ c' ∧ (c0 ≤ c → c' ≤ n → (∀ l ∈ ts, l.1 = 18 → ρ l.2 = l.2) →
      OptStmtsM gen' (sh c0 d0 c) ts (renStmts ρ b) (sh c0 d0 c') ∧ FixStmts ρ b))
    ?_ ?_ ?_ ?_ ?_ ?_ ?_ ?_ ?_ ?_ ?_ ?_ ?_ ?_ ?_ ?_ ?_ ?_ h
  · intro c f l v
    refine ⟨Nat.le_refl _, fun _ _ _ => ⟨?_, ?_⟩⟩
    · simp only [renStmt]; exact .attr
    · simp only [FixStmt]
  · intro c ts us nd as h1 h2
    refine ⟨Nat.le_refl _, fun _ _ hid => ⟨?_, ?_⟩⟩
    · simp only [renStmt]; exact .node h1 h2
    · simp only [FixStmt]; exact fixNode hk h1 fun l hl => hid l (List.mem_append_left _ hl)
  · intro c c1 c2 ts us vs src rhs as h1 h2 h3 a b
    refine ⟨Nat.le_trans a.1 b.1, fun hc hn hid => ?_⟩
    have a' := a.2 hc (Nat.le_trans b.1 hn) fun l hl => hid l (List.mem_append_left _ hl)
    have b' := b.2 (Nat.le_trans hc a.1) hn fun l hl => hid l (List.mem_append_right _ (List.mem_append_left _ hl))
    simp only [renStmt, FixStmt]
    exact ⟨.edge a'.1 b'.1 h3, a'.2, b'.2⟩
  · intro c l ts as h
    refine ⟨Nat.le_refl _, fun _ _ _ => ?_⟩
    simp only [renStmt, FixStmt]
    exact ⟨.graphAttrs h, trivial⟩
  · intro c l ts as h
    refine ⟨Nat.le_refl _, fun _ _ _ => ?_⟩
    simp only [renStmt, FixStmt]
    exact ⟨.nodeAttrs h, trivial⟩
  · intro c l ts as h
    refine ⟨Nat.le_refl _, fun _ _ _ => ?_⟩
    simp only [renStmt, FixStmt]
    exact ⟨.edgeAttrs h, trivial⟩
  · intro c c' ts id body h a
    refine ⟨a.1, fun hc hn hid => ?_⟩
    simp only [renStmt, FixStmt]
    exact ⟨.sub (a.2 hc hn hid).1, (a.2 hc hn hid).2⟩
  · intro c ts nd h
    refine ⟨Nat.le_refl _, fun _ _ hid => ?_⟩
    simp only [renLoc, FixLoc]
    exact ⟨.node h, fixNode hk h hid⟩
  · intro c c' ts id body h a
    refine ⟨a.1, fun hc hn hid => ?_⟩
    simp only [renLoc, FixLoc]
    exact ⟨.sub (a.2 hc hn hid).1, (a.2 hc hn hid).2⟩
  · intro c c' x op ts d h1 h2 a
    refine ⟨a.1, fun hc hn hid => ?_⟩
    have a' := a.2 hc hn fun l hl => hid l (.tail _ hl)
    simp only [renRHS, FixRHS]
    exact ⟨.one h1 a'.1, a'.2, trivial⟩
  · intro c c1 c2 ts us rhs x op d h1 h2 h3 a b
    refine ⟨Nat.le_trans a.1 b.1, fun hc hn hid => ?_⟩
    have a' := a.2 hc (Nat.le_trans b.1 hn) fun l hl => hid l (List.mem_append_left _ hl)
    have b' := b.2 (Nat.le_trans hc a.1) hn fun l hl => hid l (List.mem_append_right _ (.tail _ hl))
    rw [renRHS_append, fixRHS_append]
    simp only [renRHS, FixRHS]
    exact ⟨.snoc a'.1 h2 b'.1, a'.2, b'.2, trivial⟩
  · intro c c' l l' ts b h a
    refine ⟨Nat.le_succ_of_le a.1, fun hc hn hid => ?_⟩
    have a' := a.2 hc (by omega) fun l hl => hid l (.tail _ (List.mem_append_left _ hl))
    have hc' : c0 ≤ c' := Nat.le_trans hc a.1
    rw [hg c' hc' (by omega), hs c' hc']
    exact ⟨.braces a'.1, a'.2⟩
  · intro c c' k l l' ts b h a
    refine ⟨Nat.le_succ_of_le a.1, fun hc hn hid => ?_⟩
    have a' := a.2 hc (by omega) fun l hl => hid l (.tail _ (.tail _ (List.mem_append_left _ hl)))
    have hc' : c0 ≤ c' := Nat.le_trans hc a.1
    rw [hg c' hc' (by omega), hs c' hc']
    exact ⟨.anon a'.1, a'.2⟩
  · intro c c' k s l l' ts b h a
    refine ⟨a.1, fun hc hn hid => ?_⟩
    have a' := a.2 hc hn fun l hl => hid l (.tail _ (.tail _ (.tail _ (List.mem_append_left _ hl))))
    rw [hid (18, s) (.tail _ (.head _)) rfl]
    exact ⟨.named a'.1, a'.2⟩
  · intro c c' ts sm s h1 h2 a
    refine ⟨a.1, fun hc hn hid => ?_⟩
    have a' := a.2 hc hn fun l hl => hid l (List.mem_append_left _ hl)
    simp only [renStmts, FixStmts]
    exact ⟨.one a'.1 h2, a'.2, trivial⟩
  · intro c c1 c2 ts us sm ss s h1 h2 h3 a b
    refine ⟨Nat.le_trans a.1 b.1, fun hc hn hid => ?_⟩
    have a' := a.2 hc (Nat.le_trans b.1 hn) fun l hl => hid l (List.mem_append_left _ hl)
    have b' := b.2 (Nat.le_trans hc a.1) hn fun l hl => hid l (List.mem_append_right _ (List.mem_append_left _ hl))
    rw [renStmts_append, fixStmts_append]
    simp only [renStmts, FixStmts]
    exact ⟨.snoc a'.1 b'.1 h3, a'.2, b'.2, trivial⟩
  · intro c
    refine ⟨Nat.le_refl _, fun _ _ _ => ?_⟩
    simp only [renStmts, FixStmts]
    exact ⟨.absent, trivial⟩
  · intro c c' ts ss h a
    exact ⟨a.1, fun hc hn hid => ⟨.present (a.2 hc hn hid).1, (a.2 hc hn hid).2⟩⟩

theorem graph_ren (hk : Keeps ρ) (hg : ∀ k, c0 ≤ k → k < n → ρ (gen k) = gen' (sh c0 d0 k)) {ts : List Lexeme} {t : Ast.Graph}
    (h : GraphM gen c0 ts t n) (hid : ∀ l ∈ ts, l.1 = 18 → ρ l.2 = l.2) :
    c0 ≤ n ∧ GraphM gen' d0 ts { t with stmts := renStmts ρ t.stmts } (sh c0 d0 n) ∧ FixStmts ρ t.stmts ∧ ρ t.id = t.id := by
  cases h with
  | @mk _ st is us k d l l' id b h1 h2 h3 h4 =>
    have a := optStmts_ren hk hg h4
    have a' := a.2 (Nat.le_refl _) (Nat.le_refl _) fun l hl => hid l (by simp [hl])
    refine ⟨a.1, ?_, a'.2, ?_⟩
    · have e : sh c0 d0 c0 = d0 := by unfold sh; omega
      have := GraphM.mk (l := l) (l' := l') h1 h2 h3 a'.1
      rw [e] at this
      exact this
    · cases h3 with
      | absent => exact hk.empty
      | present => exact hid (18, _) (by simp) rfl
end

/-! ### from the renamed tree to the renamed calls -/

/-- The call with other names. -/
def renCall (ρ : Str → Str) : Call → Call
  | .setStrict b => .setStrict b
  | .setDir b => .setDir b
  | .setName n => .setName (ρ n)
  | .addPortEdge s sp d dp dir m => .addPortEdge (ρ s) (ρ sp) (ρ d) (ρ dp) dir m
  | .addNode p n m => .addNode (ρ p) (ρ n) m
  | .addAttr p k v => .addAttr (ρ p) k v
  | .addSubGraph p n m => .addSubGraph (ρ p) (ρ n) m

theorem callOp_ren (ρ : Str → Str) (x : Call) : callOp (renCall ρ x) = renameOp ρ (callOp x) := by cases x <;> rfl

theorem fields_ren (ρ : Str → Str) (x : Call) : (renCall ρ x).fields = x.fields := by cases x <;> rfl

theorem nodeDefaultEntries_ren (ρ : Str → Str) (pre : List Stmt) : nodeDefaultEntries (renStmts ρ pre) = nodeDefaultEntries pre := by
  induction pre with
  | nil => rfl
  | cons s pre ih => cases s <;> simp [renStmts, renStmt, nodeDefaultEntries, ih]

theorem edgeDefaultEntries_ren (ρ : Str → Str) (pre : List Stmt) : edgeDefaultEntries (renStmts ρ pre) = edgeDefaultEntries pre := by
  induction pre with
  | nil => rfl
  | cons s pre ih => cases s <;> simp [renStmts, renStmt, edgeDefaultEntries, ih]

theorem graphDefaultEntries_ren (ρ : Str → Str) (pre : List Stmt) : graphDefaultEntries (renStmts ρ pre) = graphDefaultEntries pre := by
  induction pre with
  | nil => rfl
  | cons s pre ih => cases s <;> simp [renStmts, renStmt, graphDefaultEntries, ih]

theorem locNode_ren (ρ : Str → Str) (d : Loc) : locNode (renLoc ρ d) = locNode d := by cases d <;> simp [renLoc, locNode]

theorem dests_ren (ρ : Str → Str) (rhs : List EdgeRH) : (dests (renRHS ρ rhs)).flatMap locNode = (dests rhs).flatMap locNode := by
  induction rhs with
  | nil => simp [renRHS]
  | cons r rhs ih => cases r; simp [renRHS, dests, locNode_ren, ih]

theorem mentioned_ren (ρ : Str → Str) (pre : List Stmt) : mentioned (renStmts ρ pre) = mentioned pre := by
  unfold mentioned
  induction pre with
  | nil => simp [renStmts]
  | cons s pre ih =>
    simp only [renStmts, List.flatMap_cons, ih]
    congr 1
    cases s <;> simp [renStmt, mentions, locNode_ren, dests_ren]

/-- The scope with another name. -/
def renScope (ρ : Str → Str) (sc : Scope) : Scope := { sc with name := ρ sc.name }

theorem nodeDefaults_ren (ρ : Str → Str) (sc : Scope) (pre : List Stmt) : (renScope ρ sc).nodeDefaults (renStmts ρ pre) = sc.nodeDefaults pre := by
  unfold Scope.nodeDefaults renScope; rw [nodeDefaultEntries_ren]

theorem edgeDefaults_ren (ρ : Str → Str) (sc : Scope) (pre : List Stmt) : (renScope ρ sc).edgeDefaults (renStmts ρ pre) = sc.edgeDefaults pre := by
  unfold Scope.edgeDefaults renScope; rw [edgeDefaultEntries_ren]

theorem graphDefaults_ren (ρ : Str → Str) (pre : List Stmt) : graphDefaults (renStmts ρ pre) = graphDefaults pre := by
  unfold graphDefaults; rw [graphDefaultEntries_ren]

theorem createCall_ren {ρ : Str → Str} (sc : Scope) (pre : List Stmt) (seen : List Str) {d : Loc} (h : FixLoc ρ d) :
    createCall (renScope ρ sc) (renStmts ρ pre) seen (renLoc ρ d) = (createCall sc pre seen d).map (renCall ρ) := by
  cases d with
  | node n =>
    simp only [FixLoc] at h
    simp only [renLoc, createCall, mentioned_ren, nodeDefaults_ren]
    split
    · rfl
    · simp only [List.map_cons, List.map_nil, renCall, h.1]; rfl
  | sub id b => simp [renLoc, createCall]

theorem getID_ren {ρ : Str → Str} {d : Loc} (h : FixLoc ρ d) : (renLoc ρ d).getID = ρ d.getID := by
  cases d with
  | node n =>
    simp only [FixLoc] at h
    simp only [renLoc, Loc.getID, h.1]
  | sub id b => simp [renLoc, Loc.getID]

theorem getPort_ren {ρ : Str → Str} (hk : Keeps ρ) {d : Loc} (h : FixLoc ρ d) : portStr (renLoc ρ d).getPort = ρ (portStr d.getPort) := by
  cases d with
  | node n =>
    simp only [FixLoc] at h
    simp only [renLoc, Loc.getPort, h.2.2]
  | sub id b =>
    simp only [renLoc, Loc.getPort]
    exact hk.empty.symm

theorem chainCalls_ren {ρ : Str → Str} (hk : Keeps ρ) (sc : Scope) (pre : List Stmt) (m : Map Str) (seen : List Str) {prev : Loc} (hp : FixLoc ρ prev)
    {rhs : List EdgeRH} (h : FixRHS ρ rhs) :
    chainCalls (renScope ρ sc) (renStmts ρ pre) m seen (renLoc ρ prev) (renRHS ρ rhs) = (chainCalls sc pre m seen prev rhs).map (renCall ρ) := by
  induction rhs generalizing seen prev with
  | nil => simp [renRHS, chainCalls]
  | cons r rhs ih =>
    obtain ⟨op, d⟩ := r
    simp only [FixRHS] at h
    simp only [renRHS, chainCalls, createCall_ren sc pre seen h.1, List.map_append, List.map_cons, List.map_nil, renCall, getID_ren hp, getID_ren h.1,
      getPort_ren hk hp, getPort_ren hk h.1, locNode_ren, ih _ h.1 h.2]

mutual
theorem stmtCalls_ren {ρ : Str → Str} (hk : Keeps ρ) : ∀ (s : Stmt) (sc : Scope) (pre : List Stmt), FixStmt ρ s →
    stmtCalls (renScope ρ sc) (renStmts ρ pre) (renStmt ρ s) = (stmtCalls sc pre s).map (renCall ρ)
  | .node n as, sc, pre, h => by
    simp only [FixStmt] at h
    simp only [renStmt, stmtCalls, mentioned_ren, nodeDefaults_ren, List.map_cons, List.map_nil, renCall, h.2.1]
    rfl
  | .edge src rhs as, sc, pre, h => by
    simp only [FixStmt] at h
    simp only [renStmt, stmtCalls, List.map_append, createCall_ren sc pre [] h.1, edgeDefaults_ren, locNode_ren,
      chainCalls_ren hk sc pre _ _ h.1 h.2, locCalls_ren hk src sc pre h.1, rhsCalls_ren hk rhs sc pre h.2]
  | .nodeAttrs as, sc, pre, h => by simp [renStmt, stmtCalls]
  | .edgeAttrs as, sc, pre, h => by simp [renStmt, stmtCalls]
  | .graphAttrs as, sc, pre, h => by
    simp only [renStmt, stmtCalls, List.map_map]
    rfl
  | .sub id body, sc, pre, h => by
    simp only [FixStmt] at h
    have := stmtsCalls_ren hk body ⟨id, sc.nodeDefaults pre, sc.edgeDefaults pre⟩ [] h
    simp only [renStmts] at this
    simp only [renStmt, stmtCalls, List.map_cons, renCall, graphDefaults_ren, nodeDefaults_ren, edgeDefaults_ren]
    rw [← this]
    rfl
  | .attr a, sc, pre, h => by
    simp only [renStmt, stmtCalls, List.map_cons, List.map_nil]
    rfl
theorem locCalls_ren {ρ : Str → Str} (hk : Keeps ρ) : ∀ (d : Loc) (sc : Scope) (pre : List Stmt), FixLoc ρ d →
    locCalls (renScope ρ sc) (renStmts ρ pre) (renLoc ρ d) = (locCalls sc pre d).map (renCall ρ)
  | .node n, sc, pre, h => by simp [renLoc, locCalls]
  | .sub id body, sc, pre, h => by
    simp only [FixLoc] at h
    have := stmtsCalls_ren hk body ⟨id, sc.nodeDefaults pre, sc.edgeDefaults pre⟩ [] h
    simp only [renStmts] at this
    simp only [renLoc, locCalls, List.map_cons, renCall, graphDefaults_ren, nodeDefaults_ren, edgeDefaults_ren]
    rw [← this]
    rfl
theorem rhsCalls_ren {ρ : Str → Str} (hk : Keeps ρ) : ∀ (rhs : List EdgeRH) (sc : Scope) (pre : List Stmt), FixRHS ρ rhs →
    rhsCalls (renScope ρ sc) (renStmts ρ pre) (renRHS ρ rhs) = (rhsCalls sc pre rhs).map (renCall ρ)
  | [], sc, pre, h => by simp [renRHS, rhsCalls]
  | .mk op d :: rest, sc, pre, h => by
    simp only [FixRHS] at h
    simp only [renRHS, rhsCalls, List.map_append, locCalls_ren hk d sc pre h.1, rhsCalls_ren hk rest sc pre h.2]
theorem stmtsCalls_ren {ρ : Str → Str} (hk : Keeps ρ) : ∀ (ss : List Stmt) (sc : Scope) (pre : List Stmt), FixStmts ρ ss →
    stmtsCalls (renScope ρ sc) (renStmts ρ pre) (renStmts ρ ss) = (stmtsCalls sc pre ss).map (renCall ρ)
  | [], sc, pre, h => by simp [renStmts, stmtsCalls]
  | s :: ss, sc, pre, h => by
    simp only [FixStmts] at h
    have := stmtsCalls_ren hk ss sc (pre ++ [s]) h.2
    rw [renStmts_append] at this
    simp only [renStmts] at this
    simp only [renStmts, stmtsCalls, List.map_append, stmtCalls_ren hk s sc pre h.1, this]
end

theorem treeCalls_ren {ρ : Str → Str} (hk : Keeps ρ) {t : Ast.Graph} (h : FixStmts ρ t.stmts) (hid : ρ t.id = t.id) :
    treeCalls { t with stmts := renStmts ρ t.stmts } = (treeCalls t).map (renCall ρ) := by
  have := stmtsCalls_ren hk t.stmts ⟨t.id, [], []⟩ [] h
  have e : renScope ρ ⟨t.id, [], []⟩ = ⟨t.id, [], []⟩ := by unfold renScope; rw [hid]
  rw [e] at this
  simp only [renStmts] at this
  simp only [treeCalls, List.map_append, List.map_cons, List.map_nil, renCall, hid, this]

/-! ### a renaming that takes one list of names to another -/

/-- Two strings exchanged. -/
def swap (a b s : Str) : Str := if s = a then b else if s = b then a else s

theorem swap_inj (a b : Str) : ∀ s t, swap a b s = swap a b t → s = t := by
  intro s t h
  unfold swap at h
  by_cases h1 : s = a <;> by_cases h2 : s = b <;> by_cases h3 : t = a <;> by_cases h4 : t = b <;> simp_all

/-- Exchanging names one after the other. -/
def carry : List (Str × Str) → Str → Str
  | [], s => s
  | (a, b) :: l, s => swap (carry l a) b (carry l s)

theorem carry_inj (l : List (Str × Str)) : ∀ s t, carry l s = carry l t → s = t := by
  induction l with
  | nil => intro s t h; exact h
  | cons p l ih => intro s t h; exact ih _ _ (swap_inj _ _ _ _ h)

theorem carry_mem (l : List (Str × Str)) (h1 : (l.map Prod.fst).Nodup) (h2 : (l.map Prod.snd).Nodup) : ∀ p ∈ l, carry l p.1 = p.2 := by
  induction l with
  | nil => intro p hp; cases hp
  | cons q l ih =>
    obtain ⟨a, b⟩ := q
    simp only [List.map_cons, List.nodup_cons] at h1 h2
    intro p hp
    rcases List.mem_cons.1 hp with rfl | hp
    · simp [carry, swap]
    · have e := ih h1.2 h2.2 p hp
      have n1 : carry l p.1 ≠ carry l a := fun h => h1.1 (carry_inj l _ _ h ▸ List.mem_map_of_mem hp)
      have n2 : p.2 ≠ b := fun h => h2.1 (h ▸ List.mem_map_of_mem hp)
      rw [e] at n1
      simp only [carry, swap, e, n1, n2, ↓reduceIte]

theorem carry_other (l : List (Str × Str)) {s : Str} (h1 : s ∉ l.map Prod.fst) (h2 : s ∉ l.map Prod.snd) : carry l s = s := by
  induction l with
  | nil => rfl
  | cons q l ih =>
    obtain ⟨a, b⟩ := q
    simp only [List.map_cons, List.mem_cons, not_or] at h1 h2
    have e := ih h1.2 h2.2
    have n1 : s ≠ carry l a := fun h => h1.1 (carry_inj l _ _ (e.trans h))
    simp only [carry, swap, e, n1, h2.1, ↓reduceIte]

end Gographviz.Anon
