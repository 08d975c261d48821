import Verif.Props.AnalyseProps
import Verif.Props.ParseProps
import Verif.Props.AnalyseOk
import Verif.Props.RoundTrip
import Verif.Spec.Document
import Verif.Proofs.NodeOrder
import Verif.Props.FormatProps
/-!
C66: reading a document gives exactly the graph that the document describes.
-/
namespace Gographviz.Props

open Gographviz.Spec Gographviz.Spec.Document
open Gographviz.Parse (parseBytes anonName)
open Gographviz.Spec.Meaning (GraphM)
open Gographviz.Ast (Stmt Loc EdgeRH AttrList)

/-! ### the calls, statement by statement -/

/-- A statement with its scope. -/
structure ScItem where
  sc : Scope
  pre : List Stmt
  stmt : Stmt

mutual
def scStmt (sc : Scope) (pre : List Stmt) : Stmt → List ScItem
  | .edge src rhs as => ⟨sc, pre, .edge src rhs as⟩ :: (scLoc sc pre src ++ scRHS sc pre rhs)
  | .sub id body => ⟨sc, pre, .sub id body⟩ :: scStmts ⟨id, sc.nodeDefaults pre, sc.edgeDefaults pre⟩ [] body
  | .node id as => [⟨sc, pre, .node id as⟩]
  | .nodeAttrs as => [⟨sc, pre, .nodeAttrs as⟩]
  | .edgeAttrs as => [⟨sc, pre, .edgeAttrs as⟩]
  | .graphAttrs as => [⟨sc, pre, .graphAttrs as⟩]
  | .attr a => [⟨sc, pre, .attr a⟩]
def scLoc (sc : Scope) (pre : List Stmt) : Loc → List ScItem
  | .node _ => []
  | .sub id body => ⟨sc, pre, .sub id body⟩ :: scStmts ⟨id, sc.nodeDefaults pre, sc.edgeDefaults pre⟩ [] body
def scRHS (sc : Scope) (pre : List Stmt) : List EdgeRH → List ScItem
  | [] => []
  | .mk _ d :: rest => scLoc sc pre d ++ scRHS sc pre rest
def scStmts (sc : Scope) (pre : List Stmt) : List Stmt → List ScItem
  | [] => []
  | s :: ss => scStmt sc pre s ++ scStmts sc (pre ++ [s]) ss
end

/-- The calls made for the statement itself. -/
def ScItem.calls (i : ScItem) : List Call := match i.stmt with
  | .edge src rhs as => createCall i.sc i.pre [] src ++ chainCalls i.sc i.pre (over (mapOf as) (i.sc.edgeDefaults i.pre)) (locNode src) src rhs
  | .sub id _ => [.addSubGraph i.sc.name id (graphDefaults i.pre)]
  | s => stmtCalls i.sc i.pre s

mutual
theorem scStmt_calls (sc : Scope) (pre : List Stmt) : (s : Stmt) → stmtCalls sc pre s = (scStmt sc pre s).flatMap ScItem.calls
  | .edge src rhs as => by
    simp only [stmtCalls, scStmt, List.flatMap_cons, List.flatMap_append, ScItem.calls, scLoc_calls sc pre src, scRHS_calls sc pre rhs, List.append_assoc]
  | .sub id body => by
    simp only [stmtCalls, scStmt, List.flatMap_cons, ScItem.calls, scStmts_calls _ [] body, List.singleton_append]
  | .node id as => by simp [stmtCalls, scStmt, ScItem.calls]
  | .nodeAttrs as => by simp [stmtCalls, scStmt, ScItem.calls]
  | .edgeAttrs as => by simp [stmtCalls, scStmt, ScItem.calls]
  | .graphAttrs as => by simp [stmtCalls, scStmt, ScItem.calls]
  | .attr a => by simp [stmtCalls, scStmt, ScItem.calls]
theorem scLoc_calls (sc : Scope) (pre : List Stmt) : (l : Loc) → locCalls sc pre l = (scLoc sc pre l).flatMap ScItem.calls
  | .node n => by simp [locCalls, scLoc]
  | .sub id body => by
    simp only [locCalls, scLoc, List.flatMap_cons, ScItem.calls, scStmts_calls _ [] body, List.singleton_append]
theorem scRHS_calls (sc : Scope) (pre : List Stmt) : (r : List EdgeRH) → rhsCalls sc pre r = (scRHS sc pre r).flatMap ScItem.calls
  | [] => by simp [rhsCalls, scRHS]
  | .mk op d :: rest => by
    simp only [rhsCalls, scRHS, List.flatMap_append, scLoc_calls sc pre d, scRHS_calls sc pre rest]
theorem scStmts_calls (sc : Scope) (pre : List Stmt) : (ss : List Stmt) → stmtsCalls sc pre ss = (scStmts sc pre ss).flatMap ScItem.calls
  | [] => by simp [stmtsCalls, scStmts]
  | s :: ss => by
    simp only [stmtsCalls, scStmts, List.flatMap_append, scStmt_calls sc pre s, scStmts_calls sc (pre ++ [s]) ss]
end

/-! ### scopes and contexts -/

/-- The maps of the scope are those that the entries of the context make. -/
structure CtxRel (sc : Scope) (c : Ctx) : Prop where
  name : sc.name = c.name
  node : ∀ k, mget sc.inhNode k = lastValue c.node k
  edge : ∀ k, mget sc.inhEdge k = lastValue c.edge k
  nodeWF : MapWF sc.inhNode
  edgeWF : MapWF sc.inhEdge

theorem lastValue_append (a b : Entries) (k : Str) : lastValue (a ++ b) k = (lastValue b k).or (lastValue a k) := by
  simp only [lastValue_eq, lastAssign_append]

theorem CtxRel.nodeNow {sc : Scope} {c : Ctx} (h : CtxRel sc c) (pre : List Stmt) (k : Str) :
    mget (sc.nodeDefaults pre) k = lastValue (c.nodeNow pre) k := by
  rw [Ctx.nodeNow, lastValue_append, mget_nodeDefaults, h.node]

theorem CtxRel.edgeNow {sc : Scope} {c : Ctx} (h : CtxRel sc c) (pre : List Stmt) (k : Str) :
    mget (sc.edgeDefaults pre) k = lastValue (c.edgeNow pre) k := by
  rw [Ctx.edgeNow, lastValue_append, mget_edgeDefaults, h.edge]

theorem CtxRel.inner {sc : Scope} {c : Ctx} (h : CtxRel sc c) (pre : List Stmt) (id : Str) :
    CtxRel ⟨id, sc.nodeDefaults pre, sc.edgeDefaults pre⟩ (c.inner pre id) :=
  ⟨rfl, h.nodeNow pre, h.edgeNow pre, h.nodeWF.msetAll _, h.edgeWF.msetAll _⟩

/-- The same statement. -/
structure ItemRel (i : ScItem) (j : Item) : Prop where
  ctx : CtxRel i.sc j.ctx
  pre : i.pre = j.pre
  stmt : i.stmt = j.stmt

theorem forall2_append {α β : Type} {R : α → β → Prop} {a b : List α} {c d : List β} (h : Forall2 R a c) (h' : Forall2 R b d) : Forall2 R (a ++ b) (c ++ d) := by
  induction h with
  | nil => exact h'
  | cons h _ ih => exact .cons h ih

mutual
theorem rel_stmt : (s : Stmt) → ∀ {sc : Scope} {c : Ctx} (_ : CtxRel sc c) (pre : List Stmt), Forall2 ItemRel (scStmt sc pre s) (itemsStmt c pre s)
  | .edge src rhs as => fun h pre => by
    simp only [scStmt, itemsStmt]
    exact .cons ⟨h, rfl, rfl⟩ (forall2_append (rel_loc src h pre) (rel_rhs rhs h pre))
  | .sub id body => fun h pre => by
    simp only [scStmt, itemsStmt]
    exact .cons ⟨h, rfl, rfl⟩ (rel_stmts body (h.inner pre id) [])
  | .node id as => fun h pre => by simp only [scStmt, itemsStmt]; exact .cons ⟨h, rfl, rfl⟩ .nil
  | .nodeAttrs as => fun h pre => by simp only [scStmt, itemsStmt]; exact .cons ⟨h, rfl, rfl⟩ .nil
  | .edgeAttrs as => fun h pre => by simp only [scStmt, itemsStmt]; exact .cons ⟨h, rfl, rfl⟩ .nil
  | .graphAttrs as => fun h pre => by simp only [scStmt, itemsStmt]; exact .cons ⟨h, rfl, rfl⟩ .nil
  | .attr a => fun h pre => by simp only [scStmt, itemsStmt]; exact .cons ⟨h, rfl, rfl⟩ .nil
theorem rel_loc : (l : Loc) → ∀ {sc : Scope} {c : Ctx} (_ : CtxRel sc c) (pre : List Stmt), Forall2 ItemRel (scLoc sc pre l) (itemsLoc c pre l)
  | .node n => fun h pre => by simp only [scLoc, itemsLoc]; exact .nil
  | .sub id body => fun h pre => by
    simp only [scLoc, itemsLoc]
    exact .cons ⟨h, rfl, rfl⟩ (rel_stmts body (h.inner pre id) [])
theorem rel_rhs : (r : List EdgeRH) → ∀ {sc : Scope} {c : Ctx} (_ : CtxRel sc c) (pre : List Stmt), Forall2 ItemRel (scRHS sc pre r) (itemsRHS c pre r)
  | [] => fun h pre => by simp only [scRHS, itemsRHS]; exact .nil
  | .mk op d :: rest => fun h pre => by
    simp only [scRHS, itemsRHS]
    exact forall2_append (rel_loc d h pre) (rel_rhs rest h pre)
theorem rel_stmts : (ss : List Stmt) → ∀ {sc : Scope} {c : Ctx} (_ : CtxRel sc c) (pre : List Stmt), Forall2 ItemRel (scStmts sc pre ss) (itemsStmts c pre ss)
  | [] => fun h pre => by simp only [scStmts, itemsStmts]; exact .nil
  | s :: ss => fun h pre => by
    simp only [scStmts, itemsStmts]
    exact forall2_append (rel_stmt s h pre) (rel_stmts ss h (pre ++ [s]))
end

theorem rel_items (t : Ast.Graph) : Forall2 ItemRel (scStmts ⟨t.id, [], []⟩ [] t.stmts) (items t) :=
  rel_stmts t.stmts ⟨rfl, fun _ => rfl, fun _ => rfl, .nil, .nil⟩ []

/-! ### what one statement does -/

theorem nodeGiven_create (n : Str) (sc : Scope) (pre : List Stmt) (seen : List Str) (l : Loc) :
    nodeGiven n (createCall sc pre seen l) = if n ∈ locNode l ∧ n ∉ mentioned pre ++ seen then sc.nodeDefaults pre else [] := by
  cases l with
  | sub id body => simp [createCall, nodeGiven, locNode]
  | node m =>
    simp only [createCall, locNode, List.mem_singleton]
    by_cases hm : m.id ∈ mentioned pre ++ seen
    · rw [if_pos hm, if_neg]
      · rfl
      · rintro ⟨rfl, h⟩; exact h hm
    · rw [if_neg hm]
      by_cases he : m.id = n
      · subst he
        simp [nodeGiven, hm]
      · rw [if_neg]
        · simp [nodeGiven, he]
        · rintro ⟨rfl, _⟩; exact he rfl

theorem nodeGiven_chain (n : Str) (sc : Scope) (pre : List Stmt) (attrs : Map Str) (rhs : List EdgeRH) : ∀ (seen : List Str) (prev : Loc),
    nodeGiven n (chainCalls sc pre attrs seen prev rhs) =
      if n ∈ (dests rhs).flatMap locNode ∧ n ∉ mentioned pre ++ seen then sc.nodeDefaults pre else [] := by
  induction rhs with
  | nil => intro seen prev; simp [chainCalls, nodeGiven, dests]
  | cons r rest ih =>
    cases r with
    | mk op d =>
      intro seen prev
      simp only [chainCalls, nodeGiven_append, nodeGiven, nodeGiven_create, ih, dests, List.flatMap_cons, List.mem_append, List.append_nil]
      by_cases h1 : n ∈ locNode d <;> by_cases h2 : n ∈ mentioned pre <;> by_cases h3 : n ∈ seen <;> simp [h1, h2, h3]

theorem nodeGiven_item {i : ScItem} {j : Item} (h : ItemRel i j) (n k : Str) :
    lastAssign (nodeGiven n i.calls) k = lastValue (j.nodeEntries n) k := by
  obtain ⟨sc, pre, s⟩ := i
  obtain ⟨c, pre', s'⟩ := j
  obtain ⟨hc, rfl, rfl⟩ := h
  simp only at hc
  simp only
  have hdef : MapWF (sc.nodeDefaults pre) := hc.nodeWF.msetAll _
  cases s with
  | node id as =>
    simp only [ScItem.calls, stmtCalls, nodeGiven, Item.nodeEntries, List.append_nil]
    by_cases e : Ast.nodeIDStr id = n
    · subst e
      simp only [if_true]
      rw [lastValue_append]
      have hw : MapWF (if Ast.nodeIDStr id ∈ mentioned pre then [] else sc.nodeDefaults pre) := by
        split
        · exact .nil
        · exact hdef
      rw [mget_eq_lastAssign (over_wf hw), mget_over (mapOf_wf as), mget_mapOf]
      congr 1
      split
      · rfl
      · exact hc.nodeNow pre k
    · simp only [if_neg e]
      rfl
  | edge src rhs as =>
    simp only [ScItem.calls, nodeGiven_append, nodeGiven_create, nodeGiven_chain, Item.nodeEntries, mentions, List.flatMap_cons, List.mem_append]
    by_cases h1 : n ∈ locNode src <;> by_cases h2 : n ∈ mentioned pre <;> by_cases h3 : n ∈ (dests rhs).flatMap locNode <;>
      simp [h1, h2, h3] <;> first | rfl | (rw [mget_eq_lastAssign hdef]; exact hc.nodeNow pre k)
  | graphAttrs as =>
    have : ∀ l : List (Str × Str), nodeGiven n (l.map fun e => Call.addAttr sc.name e.1 e.2) = [] := by
      intro l
      induction l with
      | nil => rfl
      | cons e l ih => simpa [nodeGiven] using ih
    simp only [ScItem.calls, stmtCalls, this, Item.nodeEntries]
    rfl
  | nodeAttrs as => simp [ScItem.calls, stmtCalls, nodeGiven, Item.nodeEntries, lastAssign, lastValue]
  | edgeAttrs as => simp [ScItem.calls, stmtCalls, nodeGiven, Item.nodeEntries, lastAssign, lastValue]
  | sub id body => rfl
  | attr a => simp [ScItem.calls, stmtCalls, nodeGiven, Item.nodeEntries, lastAssign, lastValue]

theorem graphGiven_create (n : Str) (sc : Scope) (pre : List Stmt) (seen : List Str) (l : Loc) : graphGiven n (createCall sc pre seen l) = [] := by
  cases l with
  | sub id body => rfl
  | node m => simp only [createCall]; split <;> rfl

theorem graphGiven_chain (n : Str) (sc : Scope) (pre : List Stmt) (attrs : Map Str) (rhs : List EdgeRH) : ∀ (seen : List Str) (prev : Loc),
    graphGiven n (chainCalls sc pre attrs seen prev rhs) = [] := by
  induction rhs with
  | nil => intro seen prev; rfl
  | cons r rest ih =>
    cases r with
    | mk op d => intro seen prev; simp [chainCalls, graphGiven_append, graphGiven, graphGiven_create, ih]

theorem graphGiven_item {i : ScItem} {j : Item} (h : ItemRel i j) (n k : Str) :
    lastAssign (graphGiven n i.calls) k = lastValue (j.graphEntries n) k := by
  obtain ⟨sc, pre, s⟩ := i
  obtain ⟨c, pre', s'⟩ := j
  obtain ⟨hc, rfl, rfl⟩ := h
  simp only at hc
  simp only
  cases s with
  | node id as => simp [ScItem.calls, stmtCalls, graphGiven, Item.graphEntries, lastAssign, lastValue]
  | edge src rhs as => simp only [ScItem.calls, graphGiven_append, graphGiven_create, graphGiven_chain, Item.graphEntries]; rfl
  | graphAttrs as =>
    have : ∀ l : List (Str × Str), graphGiven n (l.map fun e => Call.addAttr sc.name e.1 e.2) = if sc.name = n then l else [] := by
      intro l
      induction l with
      | nil => simp [graphGiven]
      | cons e l ih =>
        simp only [List.map_cons, graphGiven, ih]
        by_cases e : sc.name = n <;> simp [e]
    simp only [ScItem.calls, stmtCalls, this, Item.graphEntries, ← hc.name]
    split
    · rw [mget_eq_lastAssign (mapOf_wf as), mget_mapOf]
    · rfl
  | nodeAttrs as => simp [ScItem.calls, stmtCalls, graphGiven, Item.graphEntries, lastAssign, lastValue]
  | edgeAttrs as => simp [ScItem.calls, stmtCalls, graphGiven, Item.graphEntries, lastAssign, lastValue]
  | sub id body =>
    simp only [ScItem.calls, graphGiven, Item.graphEntries, List.append_nil]
    split
    · unfold graphDefaults
      rw [mget_eq_lastAssign (MapWF.nil.msetAll _)]
      rw [mget_msetAll, lastValue_eq]
      cases lastAssign (graphDefaultEntries pre) k <;> rfl
    · rfl
  | attr a =>
    simp only [ScItem.calls, stmtCalls, graphGiven, Item.graphEntries, ← hc.name, List.append_nil]
    rw [lastValue_eq]

theorem edgesMade_create (sc : Scope) (pre : List Stmt) (seen : List Str) (l : Loc) : edgesMade (createCall sc pre seen l) = [] := by
  cases l with
  | sub id body => rfl
  | node m => simp only [createCall]; split <;> rfl

theorem edgesMade_chain (sc : Scope) (pre : List Stmt) (attrs : Map Str) (rhs : List EdgeRH) : ∀ (seen : List Str) (prev : Loc),
    edgesMade (chainCalls sc pre attrs seen prev rhs) = edgesFrom (mget attrs) prev rhs := by
  induction rhs with
  | nil => intro seen prev; rfl
  | cons r rest ih =>
    cases r with
    | mk op d => intro seen prev; simp [chainCalls, edgesMade_append, edgesMade, edgesMade_create, ih, edgesFrom]

theorem edgesMade_item {i : ScItem} {j : Item} (h : ItemRel i j) : edgesMade i.calls = j.edges := by
  obtain ⟨sc, pre, s⟩ := i
  obtain ⟨c, pre', s'⟩ := j
  obtain ⟨hc, rfl, rfl⟩ := h
  simp only at hc
  simp only
  cases s with
  | node id as => simp [ScItem.calls, stmtCalls, edgesMade, Item.edges]
  | edge src rhs as =>
    simp only [ScItem.calls, edgesMade_append, edgesMade_create, edgesMade_chain, Item.edges, List.nil_append]
    congr 1
    funext k
    rw [mget_over (mapOf_wf as), mget_mapOf, lastValue_append, hc.edgeNow]
  | graphAttrs as =>
    have : ∀ l : List (Str × Str), edgesMade (l.map fun e => Call.addAttr sc.name e.1 e.2) = [] := by
      intro l
      induction l with
      | nil => rfl
      | cons e l ih => simpa [edgesMade] using ih
    simp only [ScItem.calls, stmtCalls, this, Item.edges]
  | nodeAttrs as => simp [ScItem.calls, stmtCalls, edgesMade, Item.edges]
  | edgeAttrs as => simp [ScItem.calls, stmtCalls, edgesMade, Item.edges]
  | sub id body => rfl
  | attr a => simp [ScItem.calls, stmtCalls, edgesMade, Item.edges]

theorem create_addNode {sc : Scope} {pre : List Stmt} {seen : List Str} {l : Loc} {p n : Str} {m : Map Str}
    (h : Call.addNode p n m ∈ createCall sc pre seen l) : p = sc.name ∧ n ∈ locNode l := by
  cases l with
  | sub id body => cases h
  | node x =>
    simp only [createCall] at h
    split at h
    · cases h
    · simp only [List.mem_singleton, Call.addNode.injEq] at h
      exact ⟨h.1, by simp [locNode, h.2.1]⟩

theorem chain_addNode {sc : Scope} {pre : List Stmt} {attrs : Map Str} {p n : Str} {m : Map Str} (rhs : List EdgeRH) : ∀ (seen : List Str) (prev : Loc),
    Call.addNode p n m ∈ chainCalls sc pre attrs seen prev rhs → p = sc.name ∧ n ∈ (dests rhs).flatMap locNode := by
  induction rhs with
  | nil => intro seen prev h; cases h
  | cons r rest ih =>
    cases r with
    | mk op d =>
      intro seen prev h
      simp only [chainCalls, List.mem_append, List.mem_singleton] at h
      rcases h with (h | h) | h
      · obtain ⟨h1, h2⟩ := create_addNode h
        exact ⟨h1, by simp [dests, h2]⟩
      · cases h
      · obtain ⟨h1, h2⟩ := ih _ _ h
        exact ⟨h1, by simp only [dests, List.flatMap_cons, List.mem_append]; exact .inr h2⟩

theorem addNode_item {i : ScItem} {p n : Str} {m : Map Str} (h : Call.addNode p n m ∈ i.calls) : p = i.sc.name ∧ n ∈ mentions i.stmt := by
  obtain ⟨sc, pre, s⟩ := i
  cases s with
  | node id as =>
    simp only [ScItem.calls, stmtCalls, List.mem_singleton, Call.addNode.injEq] at h
    exact ⟨h.1, by simp [mentions, h.2.1]⟩
  | edge src rhs as =>
    simp only [ScItem.calls, List.mem_append] at h
    simp only [mentions, List.flatMap_cons, List.mem_append]
    rcases h with h | h
    · exact ⟨(create_addNode h).1, .inl (create_addNode h).2⟩
    · exact ⟨(chain_addNode rhs _ _ h).1, .inr (chain_addNode rhs _ _ h).2⟩
  | graphAttrs as =>
    simp only [ScItem.calls, stmtCalls, List.mem_map] at h
    obtain ⟨e, _, h⟩ := h
    cases h
  | nodeAttrs as => simp [ScItem.calls, stmtCalls] at h
  | edgeAttrs as => simp [ScItem.calls, stmtCalls] at h
  | sub id body => simp [ScItem.calls] at h
  | attr a => simp [ScItem.calls, stmtCalls] at h

theorem chain_noSub {sc : Scope} {pre : List Stmt} {attrs : Map Str} {p n : Str} {m : Map Str} (rhs : List EdgeRH) : ∀ (seen : List Str) (prev : Loc),
    Call.addSubGraph p n m ∉ chainCalls sc pre attrs seen prev rhs := by
  have hc : ∀ seen l, Call.addSubGraph p n m ∉ createCall sc pre seen l := by
    intro seen l h
    cases l with
    | sub id body => cases h
    | node x =>
      simp only [createCall] at h
      split at h
      · cases h
      · simp at h
  induction rhs with
  | nil => intro seen prev h; cases h
  | cons r rest ih =>
    cases r with
    | mk op d =>
      intro seen prev h
      simp only [chainCalls, List.mem_append, List.mem_singleton] at h
      rcases h with (h | h) | h
      · exact hc _ _ h
      · cases h
      · exact ih _ _ h

theorem addSub_item (i : ScItem) (p n : Str) : (∃ m, Call.addSubGraph p n m ∈ i.calls) ↔ p = i.sc.name ∧ ∃ b, i.stmt = .sub n b := by
  obtain ⟨sc, pre, s⟩ := i
  cases s with
  | node id as => simp [ScItem.calls, stmtCalls]
  | edge src rhs as =>
    constructor
    · rintro ⟨m, h⟩
      simp only [ScItem.calls, List.mem_append] at h
      rcases h with h | h
      · cases src with
        | sub id body => cases h
        | node x =>
          simp only [createCall] at h
          split at h
          · cases h
          · simp at h
      · exact absurd h (chain_noSub rhs _ _)
    · rintro ⟨_, b, h⟩; cases h
  | graphAttrs as => simp [ScItem.calls, stmtCalls]
  | nodeAttrs as => simp [ScItem.calls, stmtCalls]
  | edgeAttrs as => simp [ScItem.calls, stmtCalls]
  | sub id body =>
    simp only [ScItem.calls, List.mem_singleton, Call.addSubGraph.injEq]
    constructor
    · rintro ⟨m, h1, h2, _⟩; exact ⟨h1, body, by rw [h2]⟩
    · rintro ⟨h1, b, h2⟩; cases h2; exact ⟨_, h1, rfl, rfl⟩
  | attr a => simp [ScItem.calls, stmtCalls]

/-! ### every mentioned node is created in its (sub)graph -/

theorem create_made {sc : Scope} {pre : List Stmt} {seen : List Str} {l : Loc} {n : Str} (h : n ∈ locNode l) (h' : n ∉ mentioned pre ++ seen) :
    ∃ m, Call.addNode sc.name n m ∈ createCall sc pre seen l := by
  cases l with
  | sub id body => cases h
  | node x =>
    simp only [locNode, List.mem_singleton] at h
    subst h
    exact ⟨sc.nodeDefaults pre, by simp only [createCall, if_neg h', List.mem_singleton]⟩

theorem chain_made {sc : Scope} {pre : List Stmt} {attrs : Map Str} {n : Str} (rhs : List EdgeRH) : ∀ (seen : List Str) (prev : Loc),
    n ∈ (dests rhs).flatMap locNode → n ∉ mentioned pre ++ seen → ∃ m, Call.addNode sc.name n m ∈ chainCalls sc pre attrs seen prev rhs := by
  induction rhs with
  | nil => intro seen prev h; simp [dests] at h
  | cons r rest ih =>
    cases r with
    | mk op d =>
      intro seen prev h h'
      simp only [chainCalls]
      by_cases hd : n ∈ locNode d
      · obtain ⟨m, hm⟩ := create_made (sc := sc) hd h'
        exact ⟨m, by simp [hm]⟩
      · simp only [dests, List.flatMap_cons, List.mem_append] at h
        obtain ⟨m, hm⟩ := ih (seen ++ locNode d) d (h.resolve_left hd) (by
          simp only [List.mem_append, not_or] at h' ⊢
          exact ⟨h'.1, h'.2, hd⟩)
        exact ⟨m, by simp [hm]⟩

/-- A statement creates the nodes it mentions first. -/
theorem stmt_made {sc : Scope} {pre : List Stmt} {s : Stmt} {n : Str} (h : n ∈ mentions s) (h' : n ∉ mentioned pre) :
    ∃ m, Call.addNode sc.name n m ∈ stmtCalls sc pre s := by
  cases s with
  | node id as =>
    simp only [mentions, List.mem_singleton] at h
    subst h
    simp only [stmtCalls, List.mem_singleton]
    exact ⟨_, rfl⟩
  | edge src rhs as =>
    simp only [mentions, List.flatMap_cons, List.mem_append] at h
    simp only [stmtCalls]
    by_cases hs : n ∈ locNode src
    · obtain ⟨m, hm⟩ := create_made (sc := sc) (seen := []) hs (by simpa using h')
      exact ⟨m, by simp [hm]⟩
    · obtain ⟨m, hm⟩ := chain_made (sc := sc) (attrs := over (mapOf as) (sc.edgeDefaults pre)) rhs (locNode src) src (h.resolve_left hs) (by
        simp only [List.mem_append, not_or]; exact ⟨h', hs⟩)
      exact ⟨m, by simp [hm]⟩
  | _ => simp [mentions] at h

mutual
theorem made_stmt : (s : Stmt) → ∀ (sc : Scope) (pre : List Stmt) {i : ScItem} {n : Str} (_ : i ∈ scStmt sc pre s) (_ : n ∈ mentions i.stmt),
    (i.sc.name = sc.name ∧ n ∈ mentioned pre) ∨ ∃ m, Call.addNode i.sc.name n m ∈ stmtCalls sc pre s
  | .edge src rhs as => fun sc pre i n hi hn => by
    simp only [scStmt, List.mem_cons, List.mem_append] at hi
    rcases hi with rfl | hi | hi
    · by_cases hp : n ∈ mentioned pre
      · exact .inl ⟨rfl, hp⟩
      · exact .inr (stmt_made hn hp)
    · obtain ⟨m, hm⟩ := made_loc src sc pre hi hn
      exact .inr ⟨m, by simp [stmtCalls, hm]⟩
    · obtain ⟨m, hm⟩ := made_rhs rhs sc pre hi hn
      exact .inr ⟨m, by simp [stmtCalls, hm]⟩
  | .sub id body => fun sc pre i n hi hn => by
    simp only [scStmt, List.mem_cons] at hi
    rcases hi with rfl | hi
    · simp [mentions] at hn
    · obtain ⟨_, h⟩ | ⟨m, hm⟩ := made_stmts body _ [] hi hn
      · simp [mentioned] at h
      · exact .inr ⟨m, by simp [stmtCalls, hm]⟩
  | .node id as => fun sc pre i n hi hn => by
    simp only [scStmt, List.mem_singleton] at hi
    subst hi
    by_cases hp : n ∈ mentioned pre
    · exact .inl ⟨rfl, hp⟩
    · exact .inr (stmt_made hn hp)
  | .nodeAttrs as => fun sc pre i n hi hn => by
    simp only [scStmt, List.mem_singleton] at hi; subst hi; simp [mentions] at hn
  | .edgeAttrs as => fun sc pre i n hi hn => by
    simp only [scStmt, List.mem_singleton] at hi; subst hi; simp [mentions] at hn
  | .graphAttrs as => fun sc pre i n hi hn => by
    simp only [scStmt, List.mem_singleton] at hi; subst hi; simp [mentions] at hn
  | .attr a => fun sc pre i n hi hn => by
    simp only [scStmt, List.mem_singleton] at hi; subst hi; simp [mentions] at hn
theorem made_loc : (l : Loc) → ∀ (sc : Scope) (pre : List Stmt) {i : ScItem} {n : Str} (_ : i ∈ scLoc sc pre l) (_ : n ∈ mentions i.stmt),
    ∃ m, Call.addNode i.sc.name n m ∈ locCalls sc pre l
  | .node x => fun sc pre i n hi hn => by simp [scLoc] at hi
  | .sub id body => fun sc pre i n hi hn => by
    simp only [scLoc, List.mem_cons] at hi
    rcases hi with rfl | hi
    · simp [mentions] at hn
    · obtain ⟨_, h⟩ | ⟨m, hm⟩ := made_stmts body _ [] hi hn
      · simp [mentioned] at h
      · exact ⟨m, by simp [locCalls, hm]⟩
theorem made_rhs : (r : List EdgeRH) → ∀ (sc : Scope) (pre : List Stmt) {i : ScItem} {n : Str} (_ : i ∈ scRHS sc pre r) (_ : n ∈ mentions i.stmt),
    ∃ m, Call.addNode i.sc.name n m ∈ rhsCalls sc pre r
  | [] => fun sc pre i n hi hn => by simp [scRHS] at hi
  | .mk op d :: rest => fun sc pre i n hi hn => by
    simp only [scRHS, List.mem_append] at hi
    rcases hi with hi | hi
    · obtain ⟨m, hm⟩ := made_loc d sc pre hi hn
      exact ⟨m, by simp [rhsCalls, hm]⟩
    · obtain ⟨m, hm⟩ := made_rhs rest sc pre hi hn
      exact ⟨m, by simp [rhsCalls, hm]⟩
theorem made_stmts : (ss : List Stmt) → ∀ (sc : Scope) (pre : List Stmt) {i : ScItem} {n : Str} (_ : i ∈ scStmts sc pre ss) (_ : n ∈ mentions i.stmt),
    (i.sc.name = sc.name ∧ n ∈ mentioned pre) ∨ ∃ m, Call.addNode i.sc.name n m ∈ stmtsCalls sc pre ss
  | [] => fun sc pre i n hi hn => by simp [scStmts] at hi
  | s :: ss => fun sc pre i n hi hn => by
    simp only [scStmts, List.mem_append] at hi
    rcases hi with hi | hi
    · rcases made_stmt s sc pre hi hn with h | ⟨m, hm⟩
      · exact .inl h
      · exact .inr ⟨m, by simp [stmtsCalls, hm]⟩
    · rcases made_stmts ss sc (pre ++ [s]) hi hn with ⟨h1, h2⟩ | ⟨m, hm⟩
      · rw [mentioned_append, List.mem_append] at h2
        by_cases hp : n ∈ mentioned pre
        · exact .inl ⟨h1, hp⟩
        · have hs : n ∈ mentions s := by simpa [mentioned] using h2.resolve_left hp
          obtain ⟨m, hm⟩ := stmt_made (sc := sc) hs hp
          exact .inr ⟨m, by rw [h1]; simp [stmtsCalls, hm]⟩
      · exact .inr ⟨m, by simp [stmtsCalls, hm]⟩
end

/-! ### the order of the nodes -/

theorem foldl_create (sc : Scope) (pre : List Stmt) (seen : List Str) (l : Loc) (acc : List Str) (h : ∀ n ∈ mentioned pre ++ seen, n ∈ acc) :
    (namedNodes (createCall sc pre seen l)).foldl addFirst acc = (locNode l).foldl addFirst acc := by
  cases l with
  | sub id body => rfl
  | node x =>
    simp only [createCall, locNode]
    split
    · rename_i hx
      simp [namedNodes, addFirst, h _ hx]
    · rfl

theorem foldl_chain (sc : Scope) (pre : List Stmt) (attrs : Map Str) (rhs : List EdgeRH) : ∀ (seen : List Str) (prev : Loc) (acc : List Str),
    (∀ n ∈ mentioned pre ++ seen, n ∈ acc) →
    (namedNodes (chainCalls sc pre attrs seen prev rhs)).foldl addFirst acc = ((dests rhs).flatMap locNode).foldl addFirst acc := by
  induction rhs with
  | nil => intro seen prev acc _; rfl
  | cons r rest ih =>
    cases r with
    | mk op d =>
      intro seen prev acc h
      simp only [chainCalls, namedNodes_append, namedNodes, List.append_nil, List.foldl_append, foldl_create sc pre seen d acc h, dests, List.flatMap_cons]
      apply ih
      intro n hn
      rw [mem_foldl_addFirst]
      simp only [List.mem_append] at h hn
      rcases hn with hn | hn | hn
      · exact .inl (h n (.inl hn))
      · exact .inl (h n (.inr hn))
      · exact .inr hn

theorem foldl_self {sc : Scope} {pre : List Stmt} {s : Stmt} (hs : ∀ id b, s ≠ .sub id b) (acc : List Str) (h : ∀ n ∈ mentioned pre, n ∈ acc) :
    (namedNodes (ScItem.mk sc pre s).calls).foldl addFirst acc = (mentions s).foldl addFirst acc := by
  cases s with
  | node id as => simp [ScItem.calls, stmtCalls, namedNodes, mentions]
  | edge src rhs as =>
    simp only [ScItem.calls, namedNodes_append, List.foldl_append, mentions, List.flatMap_cons]
    rw [foldl_create sc pre [] src acc (by simpa using h)]
    apply foldl_chain
    intro n hn
    rw [mem_foldl_addFirst]
    rcases List.mem_append.1 hn with hn | hn
    · exact .inl (h n hn)
    · exact .inr hn
  | graphAttrs as =>
    have : ∀ l : List (Str × Str), namedNodes (l.map fun e => Call.addAttr sc.name e.1 e.2) = [] := by
      intro l
      induction l with
      | nil => rfl
      | cons e l ih => simpa [namedNodes] using ih
    simp only [ScItem.calls, stmtCalls, this, mentions]
  | nodeAttrs as => simp [ScItem.calls, stmtCalls, namedNodes, mentions]
  | edgeAttrs as => simp [ScItem.calls, stmtCalls, namedNodes, mentions]
  | sub id body => exact absurd rfl (hs id body)
  | attr a => simp [ScItem.calls, stmtCalls, namedNodes, mentions]

mutual
theorem order_stmt : (s : Stmt) → ∀ (sc : Scope) (pre : List Stmt) (acc : List Str) (_ : ∀ n ∈ mentioned pre, n ∈ acc),
    (namedNodes (stmtCalls sc pre s)).foldl addFirst acc = ((scStmt sc pre s).flatMap fun i => mentions i.stmt).foldl addFirst acc
  | .edge src rhs as => fun sc pre acc h => by
    have h1 := foldl_self (sc := sc) (s := .edge src rhs as) (by simp) acc h
    simp only [ScItem.calls] at h1
    simp only [stmtCalls, namedNodes_append, List.foldl_append, scStmt, List.flatMap_cons, List.flatMap_append] at h1 ⊢
    rw [h1, order_loc src sc pre, order_rhs rhs sc pre]
  | .sub id body => fun sc pre acc h => by
    simp only [stmtCalls, namedNodes, scStmt, List.flatMap_cons, mentions, List.nil_append]
    exact order_stmts body _ [] acc (by simp [mentioned])
  | .node id as => fun sc pre acc h => by
    simpa [scStmt, ScItem.calls] using foldl_self (sc := sc) (s := .node id as) (by simp) acc h
  | .nodeAttrs as => fun sc pre acc h => by
    simpa [scStmt, ScItem.calls] using foldl_self (sc := sc) (s := .nodeAttrs as) (by simp) acc h
  | .edgeAttrs as => fun sc pre acc h => by
    simpa [scStmt, ScItem.calls] using foldl_self (sc := sc) (s := .edgeAttrs as) (by simp) acc h
  | .graphAttrs as => fun sc pre acc h => by
    simpa [scStmt, ScItem.calls] using foldl_self (sc := sc) (s := .graphAttrs as) (by simp) acc h
  | .attr a => fun sc pre acc h => by
    simpa [scStmt, ScItem.calls] using foldl_self (sc := sc) (s := .attr a) (by simp) acc h
theorem order_loc : (l : Loc) → ∀ (sc : Scope) (pre : List Stmt) (acc : List Str),
    (namedNodes (locCalls sc pre l)).foldl addFirst acc = ((scLoc sc pre l).flatMap fun i => mentions i.stmt).foldl addFirst acc
  | .node x => fun sc pre acc => by simp [locCalls, scLoc, namedNodes]
  | .sub id body => fun sc pre acc => by
    simp only [locCalls, namedNodes, scLoc, List.flatMap_cons, mentions, List.nil_append]
    exact order_stmts body _ [] acc (by simp [mentioned])
theorem order_rhs : (r : List EdgeRH) → ∀ (sc : Scope) (pre : List Stmt) (acc : List Str),
    (namedNodes (rhsCalls sc pre r)).foldl addFirst acc = ((scRHS sc pre r).flatMap fun i => mentions i.stmt).foldl addFirst acc
  | [] => fun sc pre acc => by simp [rhsCalls, scRHS, namedNodes]
  | .mk op d :: rest => fun sc pre acc => by
    simp only [rhsCalls, scRHS, namedNodes_append, List.foldl_append, List.flatMap_append]
    rw [order_loc d sc pre, order_rhs rest sc pre]
theorem order_stmts : (ss : List Stmt) → ∀ (sc : Scope) (pre : List Stmt) (acc : List Str) (_ : ∀ n ∈ mentioned pre, n ∈ acc),
    (namedNodes (stmtsCalls sc pre ss)).foldl addFirst acc = ((scStmts sc pre ss).flatMap fun i => mentions i.stmt).foldl addFirst acc
  | [] => fun sc pre acc h => by simp [stmtsCalls, scStmts, namedNodes]
  | s :: ss => fun sc pre acc h => by
    simp only [stmtsCalls, scStmts, namedNodes_append, List.foldl_append, List.flatMap_append]
    rw [order_stmt s sc pre acc h]
    apply order_stmts ss sc (pre ++ [s])
    intro n hn
    rw [mem_foldl_addFirst]
    rw [mentioned_append, List.mem_append] at hn
    rcases hn with hn | hn
    · exact .inl (h n hn)
    · right
      rw [List.mem_flatMap]
      refine ⟨⟨sc, pre, s⟩, ?_, by simpa [mentioned] using hn⟩
      cases s <;> simp [scStmt]
end

theorem forall2_flatMap {α β γ : Type} {R : α → β → Prop} {f : α → List γ} {g : β → List γ} (hfg : ∀ a b, R a b → f a = g b) {l : List α} {l' : List β}
    (h : Forall2 R l l') : l.flatMap f = l'.flatMap g := by
  induction h with
  | nil => rfl
  | cons h _ ih => rw [List.flatMap_cons, List.flatMap_cons, hfg _ _ h, ih]

/-! ### the theorems -/

theorem edgesMade_flatMap {l : List ScItem} {l' : List Item} (h : Forall2 ItemRel l l') : edgesMade (l.flatMap ScItem.calls) = l'.flatMap Item.edges := by
  induction h with
  | nil => rfl
  | cons h _ ih => simp only [List.flatMap_cons, edgesMade_append, edgesMade_item h, ih]

theorem nodeGiven_flatMap {l : List ScItem} {l' : List Item} (h : Forall2 ItemRel l l') (n k : Str) :
    lastAssign (nodeGiven n (l.flatMap ScItem.calls)) k = lastValue (l'.flatMap (Item.nodeEntries n)) k := by
  induction h with
  | nil => rfl
  | cons h _ ih => simp only [List.flatMap_cons, nodeGiven_append, lastAssign_append, lastValue_append, nodeGiven_item h, ih]

theorem graphGiven_flatMap {l : List ScItem} {l' : List Item} (h : Forall2 ItemRel l l') (n k : Str) :
    lastAssign (graphGiven n (l.flatMap ScItem.calls)) k = lastValue (l'.flatMap (Item.graphEntries n)) k := by
  induction h with
  | nil => rfl
  | cons h _ ih => simp only [List.flatMap_cons, graphGiven_append, lastAssign_append, lastValue_append, graphGiven_item h, ih]

theorem addNode_iff (t : Ast.Graph) (p n : Str) : (∃ m, Call.addNode p n m ∈ stmtsCalls ⟨t.id, [], []⟩ [] t.stmts) ↔
    ∃ i ∈ items t, i.ctx.name = p ∧ n ∈ mentions i.stmt := by
  constructor
  · rintro ⟨m, h⟩
    rw [scStmts_calls, List.mem_flatMap] at h
    obtain ⟨i, hi, h⟩ := h
    obtain ⟨h1, h2⟩ := addNode_item h
    obtain ⟨j, hj, hr⟩ := (rel_items t).mem_left hi
    exact ⟨j, hj, by rw [← hr.ctx.name, h1], by rw [← hr.stmt]; exact h2⟩
  · rintro ⟨j, hj, h1, h2⟩
    obtain ⟨i, hi, hr⟩ := (rel_items t).mem_right hj
    rcases made_stmts t.stmts _ [] hi (by rw [hr.stmt]; exact h2) with ⟨_, h⟩ | ⟨m, hm⟩
    · simp [mentioned] at h
    · exact ⟨m, by rw [← h1, ← hr.ctx.name]; exact hm⟩

theorem addSub_iff (t : Ast.Graph) (p n : Str) : (∃ m, Call.addSubGraph p n m ∈ stmtsCalls ⟨t.id, [], []⟩ [] t.stmts) ↔
    ∃ i ∈ items t, i.ctx.name = p ∧ n ∈ i.sub := by
  have hsub : ∀ i : Item, n ∈ i.sub ↔ ∃ b, i.stmt = .sub n b := by
    rintro ⟨c, pre, s⟩
    cases s with
    | sub id body => simp [Item.sub, eq_comm]
    | _ => simp [Item.sub]
  constructor
  · rintro ⟨m, h⟩
    rw [scStmts_calls, List.mem_flatMap] at h
    obtain ⟨i, hi, h⟩ := h
    obtain ⟨h1, b, h2⟩ := (addSub_item i p n).1 ⟨m, h⟩
    obtain ⟨j, hj, hr⟩ := (rel_items t).mem_left hi
    exact ⟨j, hj, by rw [← hr.ctx.name, h1], (hsub j).2 ⟨b, by rw [← hr.stmt]; exact h2⟩⟩
  · rintro ⟨j, hj, h1, h2⟩
    obtain ⟨i, hi, hr⟩ := (rel_items t).mem_right hj
    obtain ⟨b, hb⟩ := (hsub j).1 h2
    obtain ⟨m, hm⟩ := (addSub_item i p n).2 ⟨by rw [hr.ctx.name, h1], b, by rw [hr.stmt]; exact hb⟩
    exact ⟨m, by rw [scStmts_calls, List.mem_flatMap]; exact ⟨i, hi, hm⟩⟩

/-- C66. The graph made of a tree is what the tree describes: exactly its nodes, subgraphs, containment, edges (in document order), and
attributes. -/
theorem C66_document {t : Ast.Graph} {g : Graph} (h : newAnalysedGraph t = .ok g) : Describes t g := by
  obtain ⟨hr, hname, hdir, hstr, heff⟩ := analysed_effect h
  have hcalls := scStmts_calls ⟨t.id, [], []⟩ [] t.stmts
  have hrel := rel_items t
  refine ⟨hname, hdir, hstr, ?_, ?_, ?_, ?_, ?_, ?_, ?_, ?_⟩
  · intro n
    rw [← abs_isNode hr, heff.node]
    constructor
    · rintro (h | ⟨p, m, h⟩)
      · cases h
      · obtain ⟨i, hi, _, hn⟩ := (addNode_iff t p n).1 ⟨m, h⟩
        exact ⟨i, hi, hn⟩
    · rintro ⟨i, hi, hn⟩
      obtain ⟨m, hm⟩ := (addNode_iff t i.ctx.name n).2 ⟨i, hi, rfl, hn⟩
      exact .inr ⟨_, m, hm⟩
  · rw [hr.inv.nodes.names_map, analysed_names h, order_stmts t.stmts _ [] [] (by simp [mentioned]),
      forall2_flatMap (g := fun i : Item => mentions i.stmt) (fun a b hab => by rw [hab.stmt]) hrel]
    rfl
  · intro n nd hn k
    have := heff.nodeVal n k
    rw [hcalls, nodeGiven_flatMap hrel] at this
    have h1 : AGraph.nodeVal (abs g) n k = mget nd.attrs k := by simp [AGraph.nodeVal, abs, hn]
    have h2 : AGraph.nodeVal { AGraph.empty with name := t.id, directed := t.type_, strict := t.strict } n k = none := rfl
    rw [h1, h2, Option.or_none] at this
    exact this
  · intro n
    rw [← abs_isSub, heff.sub]
    constructor
    · rintro (h | ⟨p, m, h⟩)
      · cases h
      · obtain ⟨i, hi, _, hn⟩ := (addSub_iff t p n).1 ⟨m, h⟩
        exact ⟨i, hi, hn⟩
    · rintro ⟨i, hi, hn⟩
      obtain ⟨m, hm⟩ := (addSub_iff t i.ctx.name n).2 ⟨i, hi, rfl, hn⟩
      exact .inr ⟨_, m, hm⟩
  · intro n s hs k
    have h1 : AGraph.subVal (abs g) n k = mget s.attrs k := by simp [AGraph.subVal, abs, hs]
    by_cases e : n = t.id
    · subst e
      rw [if_pos rfl, ← h1]
      exact heff.subRoot k
    · rw [if_neg e, ← h1, heff.subVal n k e, hcalls, graphGiven_flatMap hrel]
      exact Option.or_none
  · intro k
    have := heff.attrs k
    rw [hcalls, graphGiven_flatMap hrel] at this
    exact this.trans Option.or_none
  · intro p c
    have := heff.contains p c
    show (abs g).contains p c = true ↔ _
    rw [this, addNode_iff, addSub_iff]
    constructor
    · rintro (h | ⟨i, hi, h1, h2⟩ | ⟨i, hi, h1, h2⟩)
      · cases h
      · exact ⟨i, hi, h1, .inl h2⟩
      · exact ⟨i, hi, h1, .inr h2⟩
    · rintro ⟨i, hi, h1, h2 | h2⟩
      · exact .inr (.inl ⟨i, hi, h1, h2⟩)
      · exact .inr (.inr ⟨i, hi, h1, h2⟩)
  · have := heff.edges
    rw [hcalls, edgesMade_flatMap hrel] at this
    rw [show (abs g).edges = g.edges.edges.map (fun e => AEdge.mk e.src e.srcPort e.dst e.dstPort e.dir (mget e.attrs)) from rfl] at this
    simpa [AGraph.empty] using this

/-! ### which documents are accepted -/

/-- All keys are registered. -/
def KeysReg (es : Entries) : Prop := ∀ e ∈ es, Registered e.1

theorem keysReg_append (a b : Entries) : KeysReg (a ++ b) ↔ KeysReg a ∧ KeysReg b := by
  simp only [KeysReg, List.mem_append]
  constructor
  · intro h; exact ⟨fun e he => h e (.inl he), fun e he => h e (.inr he)⟩
  · rintro ⟨h1, h2⟩ e (he | he)
    · exact h1 e he
    · exact h2 e he

theorem keysReg_iff {m : Map Str} {es : Entries} (h : ∀ k, mget m k = lastValue es k) : (∀ k ∈ mkeys m, Registered k) ↔ KeysReg es := by
  have hk : ∀ k, k ∈ mkeys m ↔ k ∈ es.map Prod.fst := by
    intro k
    rw [← mget_isSome_iff, h, lastValue_eq, lastAssign_isSome]
  constructor
  · intro h' e he
    exact h' e.1 ((hk e.1).2 (List.mem_map.2 ⟨e, he, rfl⟩))
  · intro h' k hk'
    obtain ⟨e, he, rfl⟩ := List.mem_map.1 ((hk k).1 hk')
    exact h' e he

/-- The calls only have registered names. -/
def CallsReg (xs : List Call) : Prop := ∀ x ∈ xs, ∀ k ∈ x.fields, Registered k

theorem callsReg_append (a b : List Call) : CallsReg (a ++ b) ↔ CallsReg a ∧ CallsReg b := by
  simp only [CallsReg, List.mem_append]
  constructor
  · intro h; exact ⟨fun e he => h e (.inl he), fun e he => h e (.inr he)⟩
  · rintro ⟨h1, h2⟩ e (he | he)
    · exact h1 e he
    · exact h2 e he

theorem callsReg_singleton (x : Call) : CallsReg [x] ↔ ∀ k ∈ x.fields, Registered k := by
  simp [CallsReg]

theorem callsReg_create {sc : Scope} {c : Ctx} (hc : CtxRel sc c) (pre : List Stmt) (seen : List Str) (l : Loc) :
    CallsReg (createCall sc pre seen l) ↔ ((∃ n ∈ locNode l, n ∉ mentioned pre ++ seen) → KeysReg (c.nodeNow pre)) := by
  cases l with
  | sub id body => simp [createCall, CallsReg, locNode]
  | node m =>
    have hk := keysReg_iff (hc.nodeNow pre)
    simp only [createCall, locNode]
    split
    · rename_i h
      constructor
      · rintro _ ⟨n, hn, hn'⟩
        rw [List.mem_singleton.1 hn] at hn'
        exact absurd h hn'
      · intro _ x hx; cases hx
    · rename_i h
      rw [callsReg_singleton]
      show (∀ k ∈ mkeys (sc.nodeDefaults pre), Registered k) ↔ _
      rw [hk]
      exact ⟨fun h _ => h, fun h' => h' ⟨m.id, List.mem_singleton.2 rfl, h⟩⟩

theorem callsReg_chain {sc : Scope} {c : Ctx} (hc : CtxRel sc c) (pre : List Stmt) {attrs : Map Str} {es : Entries} (ha : ∀ k, mget attrs k = lastValue es k)
    (rhs : List EdgeRH) : ∀ (seen : List Str) (prev : Loc), CallsReg (chainCalls sc pre attrs seen prev rhs) ↔
      ((∃ n ∈ (dests rhs).flatMap locNode, n ∉ mentioned pre ++ seen) → KeysReg (c.nodeNow pre)) ∧ (rhs ≠ [] → KeysReg es) := by
  induction rhs with
  | nil => intro seen prev; simp [chainCalls, CallsReg, dests]
  | cons r rest ih =>
    cases r with
    | mk op d =>
      intro seen prev
      simp only [chainCalls, callsReg_append, callsReg_create hc, ih, callsReg_singleton, dests, List.flatMap_cons, List.mem_append]
      rw [show (∀ k ∈ (Call.addPortEdge prev.getID (Ast.portStr prev.getPort) d.getID (Ast.portStr d.getPort) op attrs).fields, Registered k) ↔ KeysReg es from keysReg_iff ha]
      constructor
      · rintro ⟨⟨h1, h2⟩, h3, h4⟩
        refine ⟨?_, fun _ => h2⟩
        rintro ⟨n, hn, hn'⟩
        by_cases hd : n ∈ locNode d
        · exact h1 ⟨n, hd, hn'⟩
        · refine h3 ⟨n, hn.resolve_left hd, ?_⟩
          simp only [not_or] at hn' ⊢
          exact ⟨hn'.1, hn'.2, hd⟩
      · rintro ⟨h1, h2⟩
        refine ⟨⟨?_, h2 (by simp)⟩, ?_, fun _ => h2 (by simp)⟩
        · rintro ⟨n, hn, hn'⟩; exact h1 ⟨n, .inl hn, hn'⟩
        · rintro ⟨n, hn, hn'⟩
          refine h1 ⟨n, .inr hn, ?_⟩
          simp only [not_or] at hn' ⊢
          exact ⟨hn'.1, hn'.2.1⟩

theorem keysReg_nil : KeysReg [] := fun _ h => nomatch h

theorem keysReg_ite (p : Prop) [Decidable p] (es : Entries) : KeysReg (if p then es else []) ↔ (p → KeysReg es) := by
  split
  · rename_i h; simp [h]
  · rename_i h; simp [h, keysReg_nil]

theorem callsReg_item {i : ScItem} {j : Item} (h : ItemRel i j) : CallsReg i.calls ↔ KeysReg j.used := by
  obtain ⟨sc, pre, s⟩ := i
  obtain ⟨c, pre', s'⟩ := j
  obtain ⟨hc, rfl, rfl⟩ := h
  simp only at hc
  simp only
  cases s with
  | node id as =>
    simp only [ScItem.calls, stmtCalls, callsReg_singleton, Item.used]
    apply keysReg_iff
    intro k
    show mget (over (mapOf as) _) k = _
    rw [mget_over (mapOf_wf as), mget_mapOf, lastValue_append]
    congr 1
    split
    · rfl
    · exact hc.nodeNow pre k
  | edge src rhs as =>
    have ha : ∀ k, mget (over (mapOf as) (sc.edgeDefaults pre)) k = lastValue (c.edgeNow pre ++ entries as) k := by
      intro k
      rw [mget_over (mapOf_wf as), mget_mapOf, lastValue_append, hc.edgeNow]
    have e : KeysReg (if rhs = [] then [] else c.edgeNow pre ++ entries as) ↔ (rhs ≠ [] → KeysReg (c.edgeNow pre ++ entries as)) := by
      split
      · rename_i h; simp [h, keysReg_nil]
      · rename_i h; simp [h]
    have eu : KeysReg (Item.used ⟨c, pre, .edge src rhs as⟩) ↔
        ((∃ n ∈ mentions (.edge src rhs as), n ∉ mentioned pre) → KeysReg (c.nodeNow pre)) ∧ (rhs ≠ [] → KeysReg (c.edgeNow pre ++ entries as)) := by
      show KeysReg (_ ++ _) ↔ _
      rw [keysReg_append]
      exact and_congr (keysReg_ite _ _) e
    rw [eu]
    simp only [ScItem.calls, callsReg_append, callsReg_create hc, callsReg_chain hc pre ha, mentions, List.flatMap_cons, List.mem_append, List.append_nil]
    constructor
    · rintro ⟨h1, h2, h3⟩
      refine ⟨?_, h3⟩
      rintro ⟨n, hn, hn'⟩
      by_cases hs : n ∈ locNode src
      · exact h1 ⟨n, hs, by simpa using hn'⟩
      · exact h2 ⟨n, hn.resolve_left hs, by simp only [not_or]; exact ⟨hn', hs⟩⟩
    · rintro ⟨h1, h3⟩
      refine ⟨?_, ?_, h3⟩
      · rintro ⟨n, hn, hn'⟩; exact h1 ⟨n, .inl hn, by simpa using hn'⟩
      · rintro ⟨n, hn, hn'⟩
        simp only [not_or] at hn'
        exact h1 ⟨n, .inr hn, hn'.1⟩
  | graphAttrs as =>
    simp only [ScItem.calls, stmtCalls, Item.used]
    rw [← keysReg_iff (mget_mapOf as)]
    simp only [CallsReg, List.mem_map, mkeys]
    constructor
    · rintro h k ⟨e, he, rfl⟩
      exact h _ ⟨e, he, rfl⟩ e.1 (List.mem_singleton.2 rfl)
    · rintro h x ⟨e, he, rfl⟩ k hk
      rw [List.mem_singleton.1 hk]
      exact h _ ⟨e, he, rfl⟩
  | nodeAttrs as => simp [ScItem.calls, stmtCalls, CallsReg, Item.used, KeysReg]
  | edgeAttrs as => simp [ScItem.calls, stmtCalls, CallsReg, Item.used, KeysReg]
  | sub id body =>
    simp only [ScItem.calls, callsReg_singleton, Item.used]
    apply keysReg_iff
    intro k
    show mget (graphDefaults pre) k = _
    unfold graphDefaults
    rw [mget_msetAll, lastValue_eq]
    cases lastAssign (graphDefaultEntries pre) k <;> rfl
  | attr a => simp [ScItem.calls, stmtCalls, CallsReg, Item.used, KeysReg, Call.fields]

/-- C66. The names that the specification uses: a node statement `n`, `n:p` or `n:p:q` is about the node with this text as its name (see `C66_port_node`),
an end `n`, `n:p` or `n:p:q` of an edge is the node `n` at the port ``, `:p` or `:p:q`, and a subgraph at the end of an edge is an end without port. -/
theorem C66_names (n p q : Str) (hp : p ≠ []) (hq : q ≠ []) (body : List Stmt) :
    Ast.nodeIDStr ⟨n, ⟨[], []⟩⟩ = n ∧ Ast.nodeIDStr ⟨n, ⟨p, []⟩⟩ = n ++ b!":" ++ p ∧ Ast.nodeIDStr ⟨n, ⟨p, q⟩⟩ = n ++ b!":" ++ p ++ b!":" ++ q ∧
    (∀ x, (Loc.node ⟨n, x⟩).getID = n ∧ (Loc.node ⟨n, x⟩).getPort = x) ∧ Ast.portStr ⟨[], []⟩ = [] ∧ Ast.portStr ⟨p, []⟩ = b!":" ++ p ∧
    Ast.portStr ⟨p, q⟩ = b!":" ++ p ++ b!":" ++ q ∧ (Loc.sub n body).getID = n ∧ Ast.portStr (Loc.sub n body).getPort = [] := by
  simp [Ast.nodeIDStr, Ast.portStr, Loc.getID, Loc.getPort, List.length_pos_iff, hp, hq]

/-- C66. A tree is accepted exactly if every entry that ends up somewhere has a name that Graphviz knows. -/
theorem C66_accepted (t : Ast.Graph) : (∃ g, newAnalysedGraph t = .ok g) ↔ ∀ i ∈ items t, ∀ e ∈ i.used, Registered e.1 := by
  rw [newAnalysedGraph_ok_iff]
  show CallsReg (treeCalls t) ↔ _
  unfold treeCalls
  have h0 : CallsReg [.setStrict t.strict, .setDir t.type_, .setName t.id] := by
    intro x hx k hk
    simp only [List.mem_cons, List.not_mem_nil, or_false] at hx
    rcases hx with rfl | rfl | rfl <;> cases hk
  rw [callsReg_append, scStmts_calls]
  have hrel := rel_items t
  constructor
  · rintro ⟨_, h⟩ j hj
    obtain ⟨i, hi, hr⟩ := hrel.mem_right hj
    exact (callsReg_item hr).1 fun x hx => h x (List.mem_flatMap.2 ⟨i, hi, hx⟩)
  · intro h
    refine ⟨h0, fun x hx => ?_⟩
    obtain ⟨i, hi, hx⟩ := List.mem_flatMap.1 hx
    obtain ⟨j, hj, hr⟩ := hrel.mem_left hi
    exact (callsReg_item hr).2 (h j hj) x hx

/-! ### from the text -/

/-- C66. Reading a text that is accepted: its tokens are a sentence of dot.bnf, and the graph is what the tree of that sentence describes. -/
theorem C66_read {rnd : Nat → Nat} {cnt : Nat} {src : Str} {g : Graph} (h : Parse.read rnd cnt src = .ok g) :
    ∃ ts e t n, Lex.tokens src = some (ts ++ [e]) ∧ GraphM (fun k => anonName (rnd k)) cnt (ts.map lexeme) t n ∧ Describes t g := by
  obtain ⟨t, n, hp, hn⟩ := read_analysed h
  obtain ⟨ts, e, ht, _⟩ := source_spec rnd cnt src
  exact ⟨ts, e, t, n, ht, (C35_source rnd cnt src ht t n).1 hp, C66_document hn⟩

/-- C66. Reading succeeds exactly for the texts whose tokens are a sentence of dot.bnf of which every entry that ends up somewhere has a name
that Graphviz knows. -/
theorem C66_read_accepted (rnd : Nat → Nat) (cnt : Nat) (src : Str) : (∃ g, Parse.read rnd cnt src = .ok g) ↔
    ∃ ts e t n, Lex.tokens src = some (ts ++ [e]) ∧ GraphM (fun k => anonName (rnd k)) cnt (ts.map lexeme) t n ∧
      ∀ i ∈ items t, ∀ x ∈ i.used, Registered x.1 := by
  constructor
  · rintro ⟨g, h⟩
    obtain ⟨t, n, hp, hn⟩ := read_analysed h
    obtain ⟨ts, e, ht, _⟩ := source_spec rnd cnt src
    exact ⟨ts, e, t, n, ht, (C35_source rnd cnt src ht t n).1 hp, (C66_accepted t).1 ⟨g, hn⟩⟩
  · rintro ⟨ts, e, t, n, ht, hm, hu⟩
    obtain ⟨g, hg⟩ := (C66_accepted t).2 hu
    have hp := (C35_source rnd cnt src ht t n).2 hm
    exact ⟨g, by unfold Parse.read; rw [hp]; simp only [hg]⟩

/-- C46. The value of every attribute of every node, exactly: the last entry that the document's statements give it, a statement's own entries counting
after the `node [..]` entries in force. -/
theorem C46_exactly {t : Ast.Graph} {g : Graph} (h : newAnalysedGraph t = .ok g) {n : Str} (hn : g.isNode n = true) (k : Str) :
    nodeValue g n k = lastValue ((items t).flatMap (Item.nodeEntries n)) k := by
  obtain ⟨hr, _⟩ := analysed_effect h
  obtain ⟨p, hp⟩ := (mhas_iff_mget g.nodes.lookup n).1 hn
  obtain ⟨nd, _, _, hf, _⟩ := hr.inv.nodes.find_eq hp
  unfold nodeValue
  rw [hf]
  exact (C66_document h).nodeAttrs n nd hf k

/-- A document: `digraph G { node [color=red]; a -> b:p; subgraph S { graph [label=x]; b [shape=box]; c -> subgraph T { d } }; a [color=blue]; node [color=green]; b }`. -/
def documentSample : Ast.Graph :=
  let n (s : Str) : Ast.NodeID := ⟨s, ⟨[], []⟩⟩
  { type_ := true, strict := false, id := b!"G",
    stmts := [.nodeAttrs [[⟨b!"color", b!"red"⟩]],
      .edge (.node (n (b!"a"))) [.mk true (.node ⟨b!"b", ⟨b!"p", []⟩⟩)] [],
      .sub (b!"S") [.graphAttrs [[⟨b!"label", b!"x"⟩]], .node (n (b!"b")) [[⟨b!"shape", b!"box"⟩]],
        .edge (.node (n (b!"c"))) [.mk true (.sub (b!"T") [.node (n (b!"d")) []])] []],
      .node (n (b!"a")) [[⟨b!"color", b!"blue"⟩]],
      .nodeAttrs [[⟨b!"color", b!"green"⟩]],
      .node (n (b!"b")) []] }

/-- It is accepted, and what it describes is what one expects: eleven statements; the nodes a, b, c, d in this order, `a` blue, `b` a red box, T
inside S with the label of S. -/
theorem example_document : (∃ g, newAnalysedGraph documentSample = .ok g) ∧ (items documentSample).length = 11 ∧
    firsts ((items documentSample).flatMap fun i => mentions i.stmt) = [b!"a", b!"b", b!"c", b!"d"] ∧
    lastValue ((items documentSample).flatMap (Item.nodeEntries (b!"a"))) (b!"color") = some (b!"blue") ∧
    lastValue ((items documentSample).flatMap (Item.nodeEntries (b!"b"))) (b!"color") = some (b!"red") ∧
    lastValue ((items documentSample).flatMap (Item.nodeEntries (b!"b"))) (b!"shape") = some (b!"box") ∧
    lastValue ((items documentSample).flatMap (Item.graphEntries (b!"T"))) (b!"label") = some (b!"x") ∧
    ((items documentSample).flatMap Item.edges).map (fun e => (e.src, e.dst)) = [(b!"a", b!"b"), (b!"c", b!"T")] :=
  ⟨(C66_accepted _).2 (by decide +kernel), by decide +kernel⟩

/-- `digraph G { a -> b; a:p [color=red] }`. -/
def portStatement : Ast.Graph := ⟨true, false, b!"G", [.edge (.node ⟨b!"a", ⟨[], []⟩⟩) [.mk true (.node ⟨b!"b", ⟨[], []⟩⟩)] [],
  .node ⟨b!"a", ⟨b!"p", []⟩⟩ [[⟨b!"color", b!"red"⟩]]]⟩

/-- Found in the code: the port of a node statement becomes part of the node's name, so that `a:p [color=red]` does not say anything about the node `a`
but makes another node. -/
theorem C66_port_node : ∃ g, newAnalysedGraph portStatement = .ok g ∧ g.isNode (b!"a") = true ∧
    g.isNode (b!"a:p") = true ∧ nodeValue g (b!"a") (b!"color") = none ∧ nodeValue g (b!"a:p") (b!"color") = some (b!"red") := by
  have h : (match newAnalysedGraph portStatement with
      | .ok g => decide (g.isNode (b!"a") = true ∧ g.isNode (b!"a:p") = true ∧ nodeValue g (b!"a") (b!"color") = none ∧
          nodeValue g (b!"a:p") (b!"color") = some (b!"red"))
      | .error _ => false) = true := by decide +kernel
  cases hg : newAnalysedGraph portStatement with
  | ok g => rw [hg] at h; exact ⟨g, rfl, of_decide_eq_true h⟩
  | error m => rw [hg] at h; cases h

end Gographviz.Props
