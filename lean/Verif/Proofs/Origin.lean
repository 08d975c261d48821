import Verif.Proofs.Replay
import Verif.Proofs.WriteSem
/-!
Where the calls of a tree come from, and when they all succeed.
-/
namespace Gographviz

open Spec
open Ast (Stmt Loc EdgeRH AttrList)

/-! ### origin of the calls -/

/-- The calls that a statement makes itself, not those of the statements nested in it. -/
def OwnCall (sc : Scope) (pre : List Stmt) : Stmt → Call → Prop
  | .edge src rhs as, x => x ∈ createCall sc pre [] src ∨
      x ∈ chainCalls sc pre (over (mapOf as) (sc.edgeDefaults pre)) (locNode src) src rhs ∨
      ∃ id body, Loc.sub id body ∈ src :: dests rhs ∧ x = .addSubGraph sc.name id (graphDefaults pre)
  | .sub id _, x => x = .addSubGraph sc.name id (graphDefaults pre)
  | s, x => x ∈ stmtCalls sc pre s

/-- A call comes from a statement of the tree. -/
def HasOrigin (t : Ast.Graph) (x : Call) : Prop := ∃ sc pre s, Occurs t sc pre s ∧ OwnCall sc pre s x

mutual
theorem stmtCalls_origin {t : Ast.Graph} : (s : Stmt) → ∀ (sc : Scope) (pre : List Stmt) (_ : Occurs t sc pre s),
    ∀ x ∈ stmtCalls sc pre s, HasOrigin t x
  | .node id as => fun sc pre h x hx => ⟨sc, pre, _, h, hx⟩
  | .edge src rhs as => fun sc pre h x hx => by
    simp only [stmtCalls, List.mem_append] at hx
    rcases hx with ((hx | hx) | hx) | hx
    · exact ⟨sc, pre, _, h, .inl hx⟩
    · exact ⟨sc, pre, _, h, .inr (.inl hx)⟩
    · exact locCalls_origin src sc pre src rhs as (List.mem_cons_self ..) h x hx
    · exact rhsCalls_origin rhs sc pre src rhs as (fun l hl => List.mem_cons_of_mem _ hl) h x hx
  | .nodeAttrs as => fun sc pre h x hx => ⟨sc, pre, _, h, hx⟩
  | .edgeAttrs as => fun sc pre h x hx => ⟨sc, pre, _, h, hx⟩
  | .graphAttrs as => fun sc pre h x hx => ⟨sc, pre, _, h, hx⟩
  | .sub id body => fun sc pre h x hx => by
    simp only [stmtCalls, List.mem_cons] at hx
    rcases hx with hx | hx
    · exact ⟨sc, pre, _, h, hx⟩
    · exact stmtsCalls_origin body _ [] (fun pre' s post e => .inSub h (by simpa using e)) x hx
  | .attr a => fun sc pre h x hx => ⟨sc, pre, _, h, hx⟩
theorem locCalls_origin {t : Ast.Graph} : (l : Loc) → ∀ (sc : Scope) (pre : List Stmt) (src : Loc) (rhs : List EdgeRH) (as : AttrList)
    (_ : l ∈ src :: dests rhs) (_ : Occurs t sc pre (.edge src rhs as)), ∀ x ∈ locCalls sc pre l, HasOrigin t x
  | .node n => fun sc pre src rhs as hl h x hx => by simp [locCalls] at hx
  | .sub id body => fun sc pre src rhs as hl h x hx => by
    simp only [locCalls, List.mem_cons] at hx
    rcases hx with hx | hx
    · exact ⟨sc, pre, _, h, .inr (.inr ⟨id, body, hl, hx⟩)⟩
    · exact stmtsCalls_origin body _ [] (fun pre' s post e => .inEnd h hl (by simpa using e)) x hx
theorem rhsCalls_origin {t : Ast.Graph} : (r : List EdgeRH) → ∀ (sc : Scope) (pre : List Stmt) (src : Loc) (rhs : List EdgeRH) (as : AttrList)
    (_ : ∀ l ∈ dests r, l ∈ src :: dests rhs) (_ : Occurs t sc pre (.edge src rhs as)), ∀ x ∈ rhsCalls sc pre r, HasOrigin t x
  | [] => fun sc pre src rhs as hl h x hx => by simp [rhsCalls] at hx
  | .mk op d :: rest => fun sc pre src rhs as hl h x hx => by
    simp only [rhsCalls, List.mem_append] at hx
    rcases hx with hx | hx
    · exact locCalls_origin d sc pre src rhs as (hl d (by simp [dests])) h x hx
    · exact rhsCalls_origin rest sc pre src rhs as (fun l hl' => hl l (by simp [dests, hl'])) h x hx
theorem stmtsCalls_origin {t : Ast.Graph} : (ss : List Stmt) → ∀ (sc : Scope) (pre : List Stmt)
    (_ : ∀ pre' s post, ss = pre' ++ s :: post → Occurs t sc (pre ++ pre') s), ∀ x ∈ stmtsCalls sc pre ss, HasOrigin t x
  | [] => fun sc pre h x hx => by simp [stmtsCalls] at hx
  | s :: ss => fun sc pre h x hx => by
    simp only [stmtsCalls, List.mem_append] at hx
    rcases hx with hx | hx
    · exact stmtCalls_origin s sc pre (by simpa using h [] s ss rfl) x hx
    · refine stmtsCalls_origin ss sc (pre ++ [s]) (fun pre' s' post e => ?_) x hx
      have := h (s :: pre') s' post (by rw [e]; rfl)
      simpa using this
end

theorem treeCalls_origin {t : Ast.Graph} {x : Call} (hx : x ∈ stmtsCalls ⟨t.id, [], []⟩ [] t.stmts) : HasOrigin t x :=
  stmtsCalls_origin t.stmts _ [] (fun pre' s post e => by simpa using Occurs.root e) x hx

theorem allLoc_mem {l : Loc} {rhs : List EdgeRH} (h : l ∈ dests rhs) : ∀ x ∈ allLoc l, x ∈ allRHS rhs := by
  induction rhs with
  | nil => cases h
  | cons r rest ih =>
    cases r with
    | mk op d =>
      intro x hx
      simp only [dests, List.mem_cons] at h
      simp only [allRHS, List.mem_append]
      rcases h with rfl | h
      · exact .inl hx
      · exact .inr (ih h x hx)

mutual
theorem allStmt_trans {y x : Stmt} : (s : Stmt) → y ∈ allStmt s → x ∈ allStmt y → x ∈ allStmt s
  | .edge src rhs as => fun h hx => by
    simp only [allStmt, List.mem_cons, List.mem_append] at h
    rcases h with rfl | h | h
    · exact hx
    · simp only [allStmt, List.mem_cons, List.mem_append]
      exact .inr (.inl (allLoc_trans src h hx))
    · simp only [allStmt, List.mem_cons, List.mem_append]
      exact .inr (.inr (allRHS_trans rhs h hx))
  | .sub id body => fun h hx => by
    simp only [allStmt, List.mem_cons] at h
    rcases h with rfl | h
    · exact hx
    · simp only [allStmt, List.mem_cons]
      exact .inr (allStmts_trans body h hx)
  | .node id as => fun h hx => by
    simp only [allStmt, List.mem_singleton] at h; subst h; exact hx
  | .nodeAttrs as => fun h hx => by
    simp only [allStmt, List.mem_singleton] at h; subst h; exact hx
  | .edgeAttrs as => fun h hx => by
    simp only [allStmt, List.mem_singleton] at h; subst h; exact hx
  | .graphAttrs as => fun h hx => by
    simp only [allStmt, List.mem_singleton] at h; subst h; exact hx
  | .attr a => fun h hx => by
    simp only [allStmt, List.mem_singleton] at h; subst h; exact hx
theorem allLoc_trans {y x : Stmt} : (l : Loc) → y ∈ allLoc l → x ∈ allStmt y → x ∈ allLoc l
  | .node _ => fun h => by simp [allLoc] at h
  | .sub id body => fun h hx => by
    simp only [allLoc, List.mem_cons] at h ⊢
    rcases h with rfl | h
    · simpa only [allStmt, List.mem_cons] using hx
    · exact .inr (allStmts_trans body h hx)
theorem allRHS_trans {y x : Stmt} : (l : List EdgeRH) → y ∈ allRHS l → x ∈ allStmt y → x ∈ allRHS l
  | [] => fun h => by simp [allRHS] at h
  | .mk op dst :: rest => fun h hx => by
    simp only [allRHS, List.mem_append] at h ⊢
    rcases h with h | h
    · exact .inl (allLoc_trans dst h hx)
    · exact .inr (allRHS_trans rest h hx)
theorem allStmts_trans {y x : Stmt} : (ss : List Stmt) → y ∈ allStmts ss → x ∈ allStmt y → x ∈ allStmts ss
  | [] => fun h => by simp [allStmts] at h
  | s :: ss => fun h hx => by
    simp only [allStmts, List.mem_append] at h ⊢
    rcases h with h | h
    · exact .inl (allStmt_trans s h hx)
    · exact .inr (allStmts_trans ss h hx)
end

/-- Every statement of the tree stands somewhere. -/
theorem occurs_exists {t : Ast.Graph} {s : Stmt} (h : s ∈ t.stmts) : ∃ pre, Occurs t ⟨t.id, [], []⟩ pre s := by
  obtain ⟨pre, post, e⟩ := List.append_of_mem h
  exact ⟨pre, .root e⟩

/-- Where a statement stands. -/
theorem occurs_where {t : Ast.Graph} {sc : Scope} {pre : List Stmt} {s : Stmt} (h : Occurs t sc pre s) :
    s ∈ allStmts t.stmts ∧ ((sc = ⟨t.id, [], []⟩ ∧ ∃ post, t.stmts = pre ++ s :: post) ∨
      ∃ body, Stmt.sub sc.name body ∈ allStmts t.stmts ∧ ∃ post, body = pre ++ s :: post) := by
  induction h with
  | @root pre s post h =>
    refine ⟨mem_allStmts_of_mem (by rw [h]; simp), .inl ⟨rfl, post, h⟩⟩
  | @inSub sc pre id body pre' s post h hb ih =>
    have hs := ih.1
    refine ⟨mem_allStmts_trans t.stmts hs (mem_allStmts_of_mem (by rw [hb]; simp)), .inr ⟨body, hs, post, hb⟩⟩
  | @inEnd sc pre src rhs as id body pre' s post h hl hb ih =>
    have hs : Stmt.sub id body ∈ allStmts t.stmts := by
      have h1 : Stmt.sub id body ∈ allStmt (.edge src rhs as) := by
        simp only [allStmt, List.mem_cons, reduceCtorEq, false_or, List.mem_append]
        rcases List.mem_cons.1 hl with rfl | hl
        · left; simp [allLoc]
        · right; exact allLoc_mem hl _ (by simp [allLoc])
      obtain ⟨s0, hs0, hin⟩ := mem_allStmts.1 ih.1
      exact mem_allStmts.2 ⟨s0, hs0, allStmt_trans s0 hin h1⟩
    exact ⟨mem_allStmts_trans t.stmts hs (mem_allStmts_of_mem (by rw [hb]; simp)), .inr ⟨body, hs, post, hb⟩⟩
/-- A subgraph with this name and body stands in the tree, as a statement or as an endpoint of an edge. -/
def SubStands (t : Ast.Graph) (n : Str) (body : List Stmt) : Prop :=
  ∃ sc pre, (Occurs t sc pre (.sub n body) ∨ ∃ src rhs as, Occurs t sc pre (.edge src rhs as) ∧ Loc.sub n body ∈ src :: dests rhs)

/-- A statement stands in the tree. (A subgraph used as an endpoint counts as a statement.) -/
def Stands (t : Ast.Graph) (x : Stmt) : Prop := (∃ sc pre, Occurs t sc pre x) ∨ ∃ n b, x = .sub n b ∧ SubStands t n b

mutual
theorem sub_stands {t : Ast.Graph} {x : Stmt} : (s : Stmt) → ∀ (sc : Scope) (pre : List Stmt) (_ : Occurs t sc pre s)
    (_ : x ∈ allStmt s), Stands t x
  | .edge src rhs as => fun sc pre h hm => by
    simp only [allStmt, List.mem_cons, List.mem_append] at hm
    rcases hm with rfl | hm | hm
    · exact .inl ⟨sc, pre, h⟩
    · exact loc_stands src sc pre src rhs as (List.mem_cons_self ..) h hm
    · exact rhs_stands rhs sc pre src rhs as (fun l hl => List.mem_cons_of_mem _ hl) h hm
  | .sub id body => fun sc pre h hm => by
    simp only [allStmt, List.mem_cons] at hm
    rcases hm with rfl | hm
    · exact .inl ⟨sc, pre, h⟩
    · exact stmts_stands body _ [] (fun pre' s post e => .inSub h (by simpa using e)) hm
  | .node id as => fun sc pre h hm => by simp only [allStmt, List.mem_singleton] at hm; subst hm; exact .inl ⟨sc, pre, h⟩
  | .nodeAttrs as => fun sc pre h hm => by simp only [allStmt, List.mem_singleton] at hm; subst hm; exact .inl ⟨sc, pre, h⟩
  | .edgeAttrs as => fun sc pre h hm => by simp only [allStmt, List.mem_singleton] at hm; subst hm; exact .inl ⟨sc, pre, h⟩
  | .graphAttrs as => fun sc pre h hm => by simp only [allStmt, List.mem_singleton] at hm; subst hm; exact .inl ⟨sc, pre, h⟩
  | .attr a => fun sc pre h hm => by simp only [allStmt, List.mem_singleton] at hm; subst hm; exact .inl ⟨sc, pre, h⟩
theorem loc_stands {t : Ast.Graph} {x : Stmt} : (l : Loc) → ∀ (sc : Scope) (pre : List Stmt) (src : Loc) (rhs : List EdgeRH) (as : AttrList)
    (_ : l ∈ src :: dests rhs) (_ : Occurs t sc pre (.edge src rhs as)) (_ : x ∈ allLoc l), Stands t x
  | .node _ => fun sc pre src rhs as hl h hm => by simp [allLoc] at hm
  | .sub id body => fun sc pre src rhs as hl h hm => by
    simp only [allLoc, List.mem_cons] at hm
    rcases hm with rfl | hm
    · exact .inr ⟨id, body, rfl, sc, pre, .inr ⟨src, rhs, as, h, hl⟩⟩
    · exact stmts_stands body _ [] (fun pre' s post e => .inEnd h hl (by simpa using e)) hm
theorem rhs_stands {t : Ast.Graph} {x : Stmt} : (r : List EdgeRH) → ∀ (sc : Scope) (pre : List Stmt) (src : Loc) (rhs : List EdgeRH) (as : AttrList)
    (_ : ∀ l ∈ dests r, l ∈ src :: dests rhs) (_ : Occurs t sc pre (.edge src rhs as)) (_ : x ∈ allRHS r), Stands t x
  | [] => fun sc pre src rhs as hl h hm => by simp [allRHS] at hm
  | .mk op d :: rest => fun sc pre src rhs as hl h hm => by
    simp only [allRHS, List.mem_append] at hm
    rcases hm with hm | hm
    · exact loc_stands d sc pre src rhs as (hl d (by simp [dests])) h hm
    · exact rhs_stands rest sc pre src rhs as (fun l hl' => hl l (by simp [dests, hl'])) h hm
theorem stmts_stands {t : Ast.Graph} {x : Stmt} : (ss : List Stmt) → ∀ (sc : Scope) (pre : List Stmt)
    (_ : ∀ pre' s post, ss = pre' ++ s :: post → Occurs t sc (pre ++ pre') s) (_ : x ∈ allStmts ss), Stands t x
  | [] => fun sc pre h hm => by simp [allStmts] at hm
  | s :: ss => fun sc pre h hm => by
    simp only [allStmts, List.mem_append] at hm
    rcases hm with hm | hm
    · exact sub_stands s sc pre (by simpa using h [] s ss rfl) hm
    · refine stmts_stands ss sc (pre ++ [s]) (fun pre' s' post e => ?_) hm
      have := h (s :: pre') s' post (by rw [e]; rfl)
      simpa using this
end

theorem tree_stands' {t : Ast.Graph} {x : Stmt} (h : x ∈ allStmts t.stmts) : Stands t x :=
  stmts_stands t.stmts _ [] (fun pre' s post e => by simpa using Occurs.root e) h

theorem tree_stands {t : Ast.Graph} {n : Str} {b : List Stmt} (h : Stmt.sub n b ∈ allStmts t.stmts) : SubStands t n b := by
  rcases tree_stands' h with ⟨sc, pre, h⟩ | ⟨n', b', e, h⟩
  · exact ⟨sc, pre, .inl h⟩
  · cases e; exact h

/-- The statements of a subgraph that stands in the tree. -/
theorem SubStands.inner {t : Ast.Graph} {n : Str} {body pre : List Stmt} {s : Stmt} {post : List Stmt} (h : SubStands t n body)
    (hb : body = pre ++ s :: post) : ∃ sc : Scope, sc.name = n ∧ Occurs t sc pre s := by
  obtain ⟨sc, pre', h | ⟨src, rhs, as, h, hl⟩⟩ := h
  · exact ⟨_, rfl, .inSub h hb⟩
  · exact ⟨_, rfl, .inEnd h hl hb⟩

/-! ### success -/

/-- Every `addAttr` is about a known name or about a subgraph added before. -/
def TargetsOk : (Str → Prop) → List Call → Prop
  | _, [] => True
  | K, .addAttr p _ _ :: xs => K p ∧ TargetsOk K xs
  | K, .addSubGraph _ n _ :: xs => TargetsOk (fun y => y = n ∨ K y) xs
  | K, _ :: xs => TargetsOk K xs

theorem TargetsOk.mono {K K' : Str → Prop} {xs : List Call} (h : TargetsOk K xs) (hk : ∀ n, K n → K' n) : TargetsOk K' xs := by
  induction xs generalizing K K' with
  | nil => trivial
  | cons x xs ih =>
    cases x with
    | addAttr p k v => exact ⟨hk _ h.1, ih h.2 hk⟩
    | addSubGraph p n m => exact ih (K := fun y => y = n ∨ K y) h fun y hy => hy.imp id (hk y)
    | setStrict b => exact ih (K := K) h hk
    | setDir b => exact ih (K := K) h hk
    | setName b => exact ih (K := K) h hk
    | addPortEdge => exact ih (K := K) h hk
    | addNode => exact ih (K := K) h hk

theorem TargetsOk.append {K : Str → Prop} {xs ys : List Call} (h : TargetsOk K xs) (h' : TargetsOk K ys) : TargetsOk K (xs ++ ys) := by
  induction xs generalizing K with
  | nil => exact h'
  | cons x xs ih =>
    cases x with
    | addAttr p k v => exact ⟨h.1, ih h.2 h'⟩
    | addSubGraph p n m => exact ih (K := fun y => y = n ∨ K y) h (h'.mono fun _ hy => .inr hy)
    | setStrict b => exact ih (K := K) h h'
    | setDir b => exact ih (K := K) h h'
    | setName b => exact ih (K := K) h h'
    | addPortEdge => exact ih (K := K) h h'
    | addNode => exact ih (K := K) h h'

theorem createCall_targets (K : Str → Prop) (sc : Scope) (pre : List Stmt) (seen : List Str) (l : Loc) : TargetsOk K (createCall sc pre seen l) := by
  cases l with
  | sub id body => trivial
  | node n => simp only [createCall]; split <;> trivial

theorem chainCalls_targets (K : Str → Prop) (sc : Scope) (pre : List Stmt) (attrs : Map Str) (rhs : List EdgeRH) :
    ∀ (seen : List Str) (prev : Loc), TargetsOk K (chainCalls sc pre attrs seen prev rhs) := by
  induction rhs with
  | nil => intro _ _; trivial
  | cons r rest ih =>
    cases r with
    | mk op d =>
      intro seen prev
      simp only [chainCalls]
      exact ((createCall_targets K sc pre seen d).append (by simp [TargetsOk])).append (ih _ _)

mutual
theorem stmtCalls_targets : (s : Stmt) → ∀ (K : Str → Prop) (sc : Scope) (pre : List Stmt) (_ : K sc.name), TargetsOk K (stmtCalls sc pre s)
  | .node id as => fun K sc pre h => by simp [stmtCalls, TargetsOk]
  | .edge src rhs as => fun K sc pre h => by
    simp only [stmtCalls]
    exact (((createCall_targets _ _ _ _ _).append (chainCalls_targets _ _ _ _ _ _ _)).append (locCalls_targets src K sc pre)).append
      (rhsCalls_targets rhs K sc pre)
  | .nodeAttrs as => fun K sc pre h => by simp [stmtCalls, TargetsOk]
  | .edgeAttrs as => fun K sc pre h => by simp [stmtCalls, TargetsOk]
  | .graphAttrs as => fun K sc pre h => by
    simp only [stmtCalls]
    induction mapOf as with
    | nil => trivial
    | cons e m ih => exact ⟨h, ih⟩
  | .sub id body => fun K sc pre h => by
    simp only [stmtCalls, TargetsOk]
    exact stmtsCalls_targets body _ _ [] (.inl rfl)
  | .attr a => fun K sc pre h => by simp [stmtCalls, TargetsOk, h]
theorem locCalls_targets : (l : Loc) → ∀ (K : Str → Prop) (sc : Scope) (pre : List Stmt), TargetsOk K (locCalls sc pre l)
  | .node n => fun K sc pre => by simp [locCalls, TargetsOk]
  | .sub id body => fun K sc pre => by
    simp only [locCalls, TargetsOk]
    exact stmtsCalls_targets body _ _ [] (.inl rfl)
theorem rhsCalls_targets : (r : List EdgeRH) → ∀ (K : Str → Prop) (sc : Scope) (pre : List Stmt), TargetsOk K (rhsCalls sc pre r)
  | [] => fun K sc pre => by simp [rhsCalls, TargetsOk]
  | .mk op d :: rest => fun K sc pre => by
    simp only [rhsCalls]
    exact (locCalls_targets d K sc pre).append (rhsCalls_targets rest K sc pre)
theorem stmtsCalls_targets : (ss : List Stmt) → ∀ (K : Str → Prop) (sc : Scope) (pre : List Stmt) (_ : K sc.name), TargetsOk K (stmtsCalls sc pre ss)
  | [] => fun K sc pre h => by simp [stmtsCalls, TargetsOk]
  | s :: ss => fun K sc pre h => by
    simp only [stmtsCalls]
    exact (stmtCalls_targets s K sc pre h).append (stmtsCalls_targets ss K sc _ h)
end

theorem asetAttrs_reg (n : Str) : ∀ (m : List (Str × Str)) (b : AGraph), (b.setAttrs n m).2 = none ↔ AllReg m := by
  intro m
  induction m with
  | nil => intro b; exact ⟨(fun _ _ h => nomatch h), fun _ => rfl⟩
  | cons e m ih =>
    intro b
    simp only [AGraph.setAttrs]
    by_cases hk : Registered e.1
    · rw [if_pos hk, ih]
      constructor
      · intro h' e' he'
        rcases List.mem_cons.1 he' with rfl | he'
        · exact hk
        · exact h' _ he'
      · exact fun h' e' he' => h' e' (List.mem_cons_of_mem _ he')
    · rw [if_neg hk]
      simp only [reduceCtorEq, false_iff]
      exact fun h' => hk (h' _ (List.mem_cons_self ..))

/-- A call with a known target succeeds exactly when all its attribute names are registered. -/
theorem step_ok_iff {a : AGraph} {x : Call} (ht : ∀ p k v, x = .addAttr p k v → a.name = p ∨ (a.sub p).isSome = true) :
    (a.step (callOp x)).2 = none ↔ ∀ k ∈ x.fields, Registered k := by
  have hreg : ∀ m : Map Str, AllReg m ↔ ∀ k ∈ mkeys m, Registered k := by
    intro m
    unfold AllReg mkeys
    simp
  cases x with
  | setStrict b => simp [callOp, AGraph.step, Call.fields, Call.attrs, mkeys]
  | setDir b => simp [callOp, AGraph.step, Call.fields, Call.attrs, mkeys]
  | setName b => simp [callOp, AGraph.step, Call.fields, Call.attrs, mkeys]
  | addPortEdge s sp d dp dir m =>
    simp only [callOp, AGraph.step, Call.fields, Call.attrs]
    rw [← hreg, ← firstBad_none]
    cases firstBad m <;> simp
  | addNode p n m =>
    simp only [callOp, AGraph.step, Call.fields, Call.attrs]
    rw [← hreg, ← firstBad_none]
    cases firstBad m <;> simp
  | addAttr p k v =>
    simp only [callOp, AGraph.step, Call.fields]
    rw [if_pos (ht p k v rfl)]
    by_cases hk : Registered k <;> simp [hk]
  | addSubGraph p n m =>
    simp only [callOp, AGraph.step, Call.fields, Call.attrs]
    rw [asetAttrs_reg, hreg]

theorem areplay_ok_iff {xs : List Call} : ∀ {a : AGraph} {K : Str → Prop}, (∀ n, K n → a.name = n ∨ (a.sub n).isSome = true) → TargetsOk K xs →
    (∀ x ∈ xs, PlainCall x) → ((areplay a xs).2 = [] ↔ ∀ x ∈ xs, ∀ k ∈ x.fields, Registered k) := by
  induction xs with
  | nil => intro a K _ _ _; simp [areplay]
  | cons x xs ih =>
    intro a K hK ht hp
    have hx : (a.step (callOp x)).2 = none ↔ ∀ k ∈ x.fields, Registered k := by
      apply step_ok_iff
      rintro p k v rfl
      exact hK p ht.1
    simp only [areplay, List.append_eq_nil_iff, List.mem_cons, forall_eq_or_imp]
    have h1 : (a.step (callOp x)).2.toList = [] ↔ (a.step (callOp x)).2 = none := by cases (a.step (callOp x)).2 <;> simp
    rw [h1, hx]
    have hnext : (∀ k ∈ x.fields, Registered k) → ((areplay (a.step (callOp x)).1 xs).2 = [] ↔ ∀ x ∈ xs, ∀ k ∈ x.fields, Registered k) := by
      intro h2
      have he := Effect.single (hp x (List.mem_cons_self ..)).1 (hp x (List.mem_cons_self ..)).2 (hx.2 h2)
      have hp' := fun y hy => hp y (List.mem_cons_of_mem _ hy)
      have hkeep : ∀ n, K n → (a.step (callOp x)).1.name = n ∨ ((a.step (callOp x)).1.sub n).isSome = true := by
        intro n hn
        rcases hK n hn with h | h
        · exact .inl (by rw [he.name]; exact h)
        · exact .inr ((he.sub n).2 (.inl h))
      cases x with
      | addAttr p k v => exact ih hkeep ht.2 hp'
      | addSubGraph p n m =>
        refine ih (K := fun y => y = n ∨ K y) ?_ ht hp'
        rintro y (rfl | hy)
        · exact .inr ((he.sub y).2 (.inr ⟨p, m, List.mem_singleton.2 rfl⟩))
        · exact hkeep y hy
      | setStrict b => exact ih (K := K) hkeep ht hp'
      | setDir b => exact ih (K := K) hkeep ht hp'
      | setName b => exact ih (K := K) hkeep ht hp'
      | addPortEdge => exact ih (K := K) hkeep ht hp'
      | addNode => exact ih (K := K) hkeep ht hp'
    constructor
    · rintro ⟨h2, h3⟩
      exact ⟨h2, (hnext h2).1 h3⟩
    · rintro ⟨h2, h3⟩
      exact ⟨h2, (hnext h2).2 h3⟩

/-- `NewAnalysedGraph` succeeds exactly when every attribute name in the calls is registered. -/
theorem newAnalysedGraph_ok_iff (t : Ast.Graph) :
    (∃ g, newAnalysedGraph t = .ok g) ↔ ∀ x ∈ treeCalls t, ∀ k ∈ x.fields, Registered k := by
  have hp : ∀ x ∈ stmtsCalls ⟨t.id, [], []⟩ [] t.stmts, PlainCall x :=
    stmtsCalls_plain t.stmts ⟨t.id, [], []⟩ MapWF.nil MapWF.nil []
  have hw : ∀ x ∈ treeCalls t, MapWF x.attrs := by
    intro x hx
    simp only [treeCalls, List.mem_append, List.mem_cons, List.not_mem_nil, or_false] at hx
    rcases hx with (rfl | rfl | rfl) | h
    · exact MapWF.nil
    · exact MapWF.nil
    · exact MapWF.nil
    · exact (hp x h).2
  have hab := abs_replay Reachable.init hw
  rw [abs_new] at hab
  have he : areplay AGraph.empty (treeCalls t) = areplay { AGraph.empty with name := t.id, directed := t.type_, strict := t.strict }
      (stmtsCalls ⟨t.id, [], []⟩ [] t.stmts) := rfl
  have hiff := areplay_ok_iff (a := { AGraph.empty with name := t.id, directed := t.type_, strict := t.strict }) (K := fun n => n = t.id)
    (fun n hn => .inl hn.symm) (stmtsCalls_targets t.stmts _ _ [] rfl) hp
  have h1 : (∃ g, newAnalysedGraph t = .ok g) ↔ (replay graphIface newGraph (treeCalls t)).2 = [] := by
    unfold newAnalysedGraph analyse
    rw [analyseC_eq]
    simp only [Catcher.getError]
    cases (replay graphIface newGraph (treeCalls t)).2 with
    | nil => simp
    | cons e es => simp
  rw [h1]
  have h2 : (replay graphIface newGraph (treeCalls t)).2 = (areplay AGraph.empty (treeCalls t)).2 := by rw [hab]
  rw [h2, he, hiff]
  simp only [treeCalls, List.mem_append, List.mem_cons, List.not_mem_nil, or_false]
  constructor
  · rintro h x ((rfl | rfl | rfl) | hx) k hk
    · cases hk
    · cases hk
    · cases hk
    · exact h x hx k hk
  · exact fun h x hx => h x (.inr hx)

/-! ### edges -/

mutual
theorem stmt_no_edges : (s : Stmt) → ∀ (sc : Scope) (pre : List Stmt) (_ : ∀ x ∈ allStmt s, isEdgeStmt x = false), edgesMade (stmtCalls sc pre s) = []
  | .node id as => fun sc pre h => by simp [stmtCalls, edgesMade]
  | .edge src rhs as => fun sc pre h => by have := h _ (self_mem_allStmt _); cases this
  | .nodeAttrs as => fun sc pre h => by simp [stmtCalls, edgesMade]
  | .edgeAttrs as => fun sc pre h => by simp [stmtCalls, edgesMade]
  | .graphAttrs as => fun sc pre h => by
    simp only [stmtCalls]
    induction mapOf as with
    | nil => rfl
    | cons e m ih => simpa only [List.map_cons, edgesMade] using ih
  | .sub id body => fun sc pre h => by
    simp only [stmtCalls, edgesMade]
    exact stmts_no_edges body _ [] fun x hx => h x (by simp [allStmt, hx])
  | .attr a => fun sc pre h => by simp [stmtCalls, edgesMade]
theorem stmts_no_edges : (ss : List Stmt) → ∀ (sc : Scope) (pre : List Stmt) (_ : ∀ x ∈ allStmts ss, isEdgeStmt x = false), edgesMade (stmtsCalls sc pre ss) = []
  | [] => fun sc pre h => by simp [stmtsCalls, edgesMade]
  | s :: ss => fun sc pre h => by
    simp only [stmtsCalls, edgesMade_append]
    rw [stmt_no_edges s sc pre fun x hx => h x (by simp [allStmts, hx]), stmts_no_edges ss sc _ fun x hx => h x (by simp [allStmts, hx])]
    rfl
end

theorem create_no_edges (sc : Scope) (pre : List Stmt) (seen : List Str) (l : Loc) : edgesMade (createCall sc pre seen l) = [] := by
  cases l with
  | sub id body => rfl
  | node n => simp only [createCall]; split <;> rfl

theorem loc_no_edges (sc : Scope) (pre : List Stmt) (l : Loc) (h : ∀ x ∈ allLoc l, isEdgeStmt x = false) : edgesMade (locCalls sc pre l) = [] := by
  cases l with
  | node n => simp [locCalls, edgesMade]
  | sub id body =>
    simp only [locCalls, edgesMade]
    exact stmts_no_edges body _ [] fun x hx => h x (by simp [allLoc, hx])

/-- An edge statement with one operator and no edges inside its endpoints makes one edge. -/
theorem edge_one (sc : Scope) (pre : List Stmt) (src dst : Loc) (dir : Bool) (as : AttrList)
    (h : ∀ x ∈ allLoc src, isEdgeStmt x = false) (h' : ∀ x ∈ allLoc dst, isEdgeStmt x = false) :
    edgesMade (stmtCalls sc pre (.edge src [.mk dir dst] as)) =
      [⟨src.getID, Ast.portStr src.getPort, dst.getID, Ast.portStr dst.getPort, dir, mget (over (mapOf as) (sc.edgeDefaults pre))⟩] := by
  simp only [stmtCalls, chainCalls, rhsCalls, edgesMade_append, create_no_edges, loc_no_edges _ _ _ h, loc_no_edges _ _ _ h', List.nil_append,
    List.append_nil, edgesMade]

end Gographviz
