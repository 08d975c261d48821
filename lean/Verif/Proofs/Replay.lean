import Verif.Proofs.Analyse
import Verif.Proofs.GraphOps
/-!
Sequences of calls on the package's own `Graph`: closed form of the resulting graph.
-/
namespace Gographviz

open Spec
open Ast (Stmt Loc EdgeRH AttrList)

variable {σ : Type}

/-! ### recording -/

theorem recording_call (I : Iface σ) (g : σ) (log : List Call) (x : Call) :
    (recording I).call (g, log) x = (((I.call g x).1, log ++ [x]), (I.call g x).2) := by
  cases x <;> rfl

theorem replay_recording (I : Iface σ) (g : σ) (log : List Call) (xs : List Call) :
    replay (recording I) (g, log) xs = (((replay I g xs).1, log ++ xs), (replay I g xs).2) := by
  induction xs generalizing g log with
  | nil => simp [replay]
  | cons x xs ih => simp [replay, recording_call, ih]

/-! ### calls as operations -/

/-- A call as an operation of the history model. -/
def callOp : Call → Op
  | .setStrict b => .setStrict b
  | .setDir b => .setDir b
  | .setName n => .setName n
  | .addPortEdge s sp d dp dir m => .addPortEdge s sp d dp dir m
  | .addNode p n m => .addNode p n m
  | .addAttr p k v => .addAttr p k v
  | .addSubGraph p n m => .addSubGraph p n m

theorem graphIface_call (g : Graph) (x : Call) : graphIface.call g x = g.step (callOp x) := by cases x <;> rfl

theorem callOp_ok (g : Graph) {x : Call} (h : MapWF x.attrs) : (callOp x).Ok g := by
  cases x <;> simp only [callOp, Op.Ok] <;> exact h.nodup

theorem replay_reachable {g : Graph} (hg : Reachable g) {xs : List Call} (h : ∀ x ∈ xs, MapWF x.attrs) :
    Reachable (replay graphIface g xs).1 := by
  induction xs generalizing g with
  | nil => exact hg
  | cons x xs ih =>
    simp only [replay]
    apply ih
    · rw [graphIface_call]
      exact .step _ hg (callOp_ok g (h x (List.mem_cons_self ..)))
    · exact fun y hy => h y (List.mem_cons_of_mem _ hy)

/-! ### last values -/

theorem lastValue_eq (es : List (Str × Str)) (k : Str) : lastValue es k = lastAssign es k := by
  induction es with
  | nil => rfl
  | cons e es ih =>
    obtain ⟨k', v⟩ := e
    simp only [lastValue, List.reverse_cons, List.find?_append, lastAssign] at ih ⊢
    rw [← ih]
    cases List.find? (fun e => decide (e.1 = k)) es.reverse with
    | some x => simp
    | none => by_cases h : k' = k <;> simp [h]

theorem lastAssign_append (a b : List (Str × Str)) (k : Str) : lastAssign (a ++ b) k = (lastAssign b k).or (lastAssign a k) := by
  induction a with
  | nil => simp [lastAssign]
  | cons e a ih =>
    obtain ⟨k', v⟩ := e
    simp only [List.cons_append, lastAssign, ih]
    cases lastAssign b k <;> cases lastAssign a k <;> simp

/-! ### closed form -/

/-- The value of an attribute of a node of the abstract graph. -/
def AGraph.nodeVal (a : AGraph) (n k : Str) : Option Str := (a.node n).bind fun f => f k

/-- The value of an attribute of a subgraph of the abstract graph. -/
def AGraph.subVal (a : AGraph) (n k : Str) : Option Str := (a.sub n).bind fun f => f k

/-- What a sequence of successful calls other than setters does to the abstract graph. -/
structure Effect (a : AGraph) (xs : List Call) (b : AGraph) : Prop where
  name : b.name = a.name
  directed : b.directed = a.directed
  strict : b.strict = a.strict
  node : ∀ n, (b.node n).isSome = true ↔ (a.node n).isSome = true ∨ ∃ p m, Call.addNode p n m ∈ xs
  nodeVal : ∀ n k, AGraph.nodeVal b n k = (lastAssign (nodeGiven n xs) k).or (AGraph.nodeVal a n k)
  sub : ∀ n, (b.sub n).isSome = true ↔ (a.sub n).isSome = true ∨ ∃ p m, Call.addSubGraph p n m ∈ xs
  attrs : ∀ k, b.attrs k = (lastAssign (graphGiven a.name xs) k).or (a.attrs k)
  subVal : ∀ n k, n ≠ a.name → AGraph.subVal b n k = (lastAssign (graphGiven n xs) k).or (AGraph.subVal a n k)
  subRoot : ∀ k, AGraph.subVal b a.name k = AGraph.subVal a a.name k
  contains : ∀ p c, b.contains p c = true ↔ a.contains p c = true ∨ (∃ m, Call.addNode p c m ∈ xs) ∨ ∃ m, Call.addSubGraph p c m ∈ xs
  edges : b.edges = a.edges ++ edgesMade xs

/-- Replaying on the abstract graph. -/
def areplay (a : AGraph) : List Call → AGraph × List Err
  | [] => (a, [])
  | x :: xs => ((areplay (a.step (callOp x)).1 xs).1, (a.step (callOp x)).2.toList ++ (areplay (a.step (callOp x)).1 xs).2)

theorem abs_replay {g : Graph} (hg : Reachable g) {xs : List Call} (h : ∀ x ∈ xs, MapWF x.attrs) :
    areplay (abs g) xs = (abs (replay graphIface g xs).1, (replay graphIface g xs).2) := by
  induction xs generalizing g with
  | nil => rfl
  | cons x xs ih =>
    have hok := callOp_ok g (h x (List.mem_cons_self ..))
    have hst := abs_step hg.inv (callOp x) hok
    have := ih (.step (callOp x) hg hok) (fun y hy => h y (List.mem_cons_of_mem _ hy))
    simp only [areplay, replay, graphIface_call]
    rw [← hst]
    simp only
    rw [this]

theorem asetAttrs_ok (a : AGraph) (n : Str) {m : Map Str} (hm : MapWF m) (hr : AllReg m) :
    (a.setAttrs n m).2 = none ∧
    (a.setAttrs n m).1 = (if a.name = n then { a with attrs := fun k => (lastAssign m k).or (a.attrs k) }
      else match a.sub n with
        | some f => { a with sub := upd a.sub n (some fun k => (lastAssign m k).or (f k)) }
        | none => a) := by
  clear hm
  induction m generalizing a with
  | nil =>
    refine ⟨rfl, ?_⟩
    simp only [AGraph.setAttrs, lastAssign, Option.none_or]
    split
    · rfl
    · cases h : a.sub n with
      | none => rfl
      | some f =>
        simp only
        have : upd a.sub n (some f) = a.sub := by
          funext x; unfold upd; split
          · rename_i h'; rw [h', h]
          · rfl
        rw [show (fun k => f k) = f from rfl, this]
  | cons e m ih =>
    obtain ⟨k0, v0⟩ := e
    have hk : Registered k0 := hr _ (List.mem_cons_self ..)
    have hr' : AllReg m := fun e he => hr e (List.mem_cons_of_mem _ he)
    simp only [AGraph.setAttrs, if_pos hk]
    obtain ⟨h1, h2⟩ := ih (a.setAttr n k0 v0) hr'
    refine ⟨h1, ?_⟩
    rw [h2]
    have hval : ∀ (f : AAttrs) (k : Str), (lastAssign m k).or (upd f k0 (some v0) k) = (lastAssign ((k0, v0) :: m) k).or (f k) := by
      intro f k
      simp only [lastAssign, upd]
      by_cases hkk : k = k0
      · subst hkk; cases lastAssign m k <;> simp
      · have := Ne.symm hkk
        cases lastAssign m k <;> simp [hkk, this]
    by_cases hn : a.name = n
    · simp only [AGraph.setAttr, if_pos hn]
      simp only [hval]
    · simp only [AGraph.setAttr, if_neg hn]
      cases hs : a.sub n with
      | none => simp only [if_neg hn, hs]
      | some f =>
        simp only [if_neg hn]
        have : upd a.sub n (some (upd f k0 (some v0))) n = some (upd f k0 (some v0)) := by simp [upd]
        rw [this]
        simp only [hval]
        congr 1
        funext x; simp only [upd]; split <;> rfl

theorem Effect.nil (a : AGraph) : Effect a [] a where
  name := rfl
  directed := rfl
  strict := rfl
  node := fun n => by simp
  nodeVal := fun n k => by simp [nodeGiven, lastAssign]
  sub := fun n => by simp
  attrs := fun k => by simp [graphGiven, lastAssign]
  subVal := fun n k _ => by simp [graphGiven, lastAssign]
  subRoot := fun k => rfl
  contains := fun p c => by simp
  edges := by simp [edgesMade]

theorem nodeGiven_append (n : Str) (xs ys : List Call) : nodeGiven n (xs ++ ys) = nodeGiven n xs ++ nodeGiven n ys := by
  induction xs with
  | nil => rfl
  | cons x xs ih => cases x <;> simp [nodeGiven, ih]

theorem graphGiven_append (n : Str) (xs ys : List Call) : graphGiven n (xs ++ ys) = graphGiven n xs ++ graphGiven n ys := by
  induction xs with
  | nil => rfl
  | cons x xs ih => cases x <;> simp [graphGiven, ih]

theorem edgesMade_append (xs ys : List Call) : edgesMade (xs ++ ys) = edgesMade xs ++ edgesMade ys := by
  induction xs with
  | nil => rfl
  | cons x xs ih => cases x <;> simp [edgesMade, ih]

theorem Effect.trans {a b c : AGraph} {xs ys : List Call} (h1 : Effect a xs b) (h2 : Effect b ys c) : Effect a (xs ++ ys) c where
  name := h2.name.trans h1.name
  directed := h2.directed.trans h1.directed
  strict := h2.strict.trans h1.strict
  node := fun n => by
    rw [h2.node, h1.node]
    simp only [List.mem_append]
    constructor
    · rintro ((h | ⟨p, m, h⟩) | ⟨p, m, h⟩)
      · exact .inl h
      · exact .inr ⟨p, m, .inl h⟩
      · exact .inr ⟨p, m, .inr h⟩
    · rintro (h | ⟨p, m, h | h⟩)
      · exact .inl (.inl h)
      · exact .inl (.inr ⟨p, m, h⟩)
      · exact .inr ⟨p, m, h⟩
  nodeVal := fun n k => by rw [h2.nodeVal, h1.nodeVal, nodeGiven_append, lastAssign_append, Option.or_assoc]
  sub := fun n => by
    rw [h2.sub, h1.sub]
    simp only [List.mem_append]
    constructor
    · rintro ((h | ⟨p, m, h⟩) | ⟨p, m, h⟩)
      · exact .inl h
      · exact .inr ⟨p, m, .inl h⟩
      · exact .inr ⟨p, m, .inr h⟩
    · rintro (h | ⟨p, m, h | h⟩)
      · exact .inl (.inl h)
      · exact .inl (.inr ⟨p, m, h⟩)
      · exact .inr ⟨p, m, h⟩
  attrs := fun k => by rw [h2.attrs, h1.attrs, h1.name, graphGiven_append, lastAssign_append, Option.or_assoc]
  subVal := fun n k hn => by
    rw [h2.subVal n k (by rw [h1.name]; exact hn), h1.subVal n k hn, graphGiven_append, lastAssign_append, Option.or_assoc]
  subRoot := fun k => by
    have := h2.subRoot k
    rw [h1.name] at this
    rw [this, h1.subRoot]
  contains := fun p c => by
    rw [h2.contains, h1.contains]
    simp only [List.mem_append]
    constructor
    · rintro ((h | ⟨m, h⟩ | ⟨m, h⟩) | ⟨m, h⟩ | ⟨m, h⟩)
      · exact .inl h
      · exact .inr (.inl ⟨m, .inl h⟩)
      · exact .inr (.inr ⟨m, .inl h⟩)
      · exact .inr (.inl ⟨m, .inr h⟩)
      · exact .inr (.inr ⟨m, .inr h⟩)
    · rintro (h | ⟨m, h | h⟩ | ⟨m, h | h⟩)
      · exact .inl (.inl h)
      · exact .inl (.inr (.inl ⟨m, h⟩))
      · exact .inr (.inl ⟨m, h⟩)
      · exact .inl (.inr (.inr ⟨m, h⟩))
      · exact .inr (.inr ⟨m, h⟩)
  edges := by rw [h2.edges, h1.edges, edgesMade_append, List.append_assoc]

theorem entry_wf {m : Map Str} (h : MapWF m) (k : Str) : entry m k = lastAssign m k := (entry_eq h.nodup k).symm

theorem Effect.single {a : AGraph} {x : Call} (hs : x.isSetter = false) (hw : MapWF x.attrs)
    (he : (a.step (callOp x)).2 = none) : Effect a [x] (a.step (callOp x)).1 := by
  cases x with
  | setStrict b => cases hs
  | setDir b => cases hs
  | setName b => cases hs
  | addPortEdge s sp d dp dir m =>
    have hw : MapWF m := hw
    simp only [callOp, AGraph.step] at he ⊢
    cases hf : firstBad m with
    | some e => rw [hf] at he; cases he
    | none =>
      simp only
      have hent : entry m = mget m := by
        funext k; rw [entry_wf hw, mget_eq_lastAssign hw]
      constructor <;> try first | rfl | exact fun _ => rfl
      · intro n; simp
      · intro n k; simp [nodeGiven, lastAssign, AGraph.nodeVal]
      · intro n; simp
      · intro n k _; simp [graphGiven, lastAssign, AGraph.subVal]
      · intro p c; simp
      · simp [edgesMade, hent]
  | addNode p n m =>
    have hw : MapWF m := hw
    simp only [callOp, AGraph.step] at he ⊢
    cases hf : firstBad m with
    | some e => rw [hf] at he; cases he
    | none =>
      simp only
      constructor <;> try first | rfl | exact fun _ => rfl
      · intro n'
        by_cases h : n' = n
        · subst h; simp [upd]
        · simp [upd, h]
      · intro n' k
        by_cases h : n = n'
        · subst h
          simp only [AGraph.nodeVal, upd, if_true, Option.bind_some, merge, nodeGiven, List.append_nil]
          rw [entry_wf hw]
          cases a.node n <;> rfl
        · have h' : n' ≠ n := Ne.symm h
          simp [AGraph.nodeVal, upd, h', nodeGiven, h, lastAssign]
      · intro n; simp
      · intro n k _; simp [graphGiven, lastAssign, AGraph.subVal]
      · intro p' c'
        by_cases h1 : p' = p <;> by_cases h2 : c' = n <;> simp [h1, h2]
      · simp [edgesMade]
  | addAttr t k v =>
    simp only [callOp, AGraph.step] at he ⊢
    by_cases hc : a.name = t ∨ (a.sub t).isSome = true
    · rw [if_pos hc] at he ⊢
      by_cases hk : Registered k
      · rw [if_pos hk]
        simp only [AGraph.setAttr]
        by_cases hn : a.name = t
        · rw [if_pos hn]
          constructor <;> try first | rfl | exact fun _ => rfl
          · intro n; simp
          · intro n k; simp [nodeGiven, lastAssign, AGraph.nodeVal]
          · intro n; simp
          · intro k'
            simp only [upd, graphGiven, hn, if_true, lastAssign, List.append_nil]
            by_cases hkk : k' = k
            · simp [hkk]
            · have := Ne.symm hkk; simp [hkk, this]
          · intro n k' hne
            have : t ≠ n := fun h => hne (by rw [← h, hn])
            simp [graphGiven, lastAssign, AGraph.subVal, this]
          · intro p c; simp
          · simp [edgesMade]
        · rw [if_neg hn]
          have hsub : (a.sub t).isSome = true := hc.resolve_left hn
          cases hst : a.sub t with
          | none => rw [hst] at hsub; cases hsub
          | some f =>
            simp only
            constructor <;> try first | rfl | exact fun _ => rfl
            · intro n; simp
            · intro n k; simp [nodeGiven, lastAssign, AGraph.nodeVal]
            · intro n
              by_cases h : n = t
              · subst h; simp [upd, hst]
              · simp [upd, h]
            · intro k'
              have : t ≠ a.name := Ne.symm hn
              simp [graphGiven, lastAssign, this]
            · intro n k' _
              by_cases h : t = n
              · subst h
                simp only [AGraph.subVal, upd, if_true, Option.bind_some, graphGiven, List.append_nil, lastAssign, hst]
                by_cases hkk : k' = k
                · simp [hkk]
                · have := Ne.symm hkk; simp [hkk, this]
              · have h' : n ≠ t := Ne.symm h
                simp [AGraph.subVal, upd, h', graphGiven, h, lastAssign]
            · intro k'
              simp only [AGraph.subVal, upd, if_neg hn]
            · intro p c; simp
            · simp [edgesMade]
      · rw [if_neg hk] at he; cases he
    · rw [if_neg hc] at he; cases he
  | addSubGraph p n m =>
    have hw : MapWF m := hw
    simp only [callOp, AGraph.step] at he ⊢
    have hr : AllReg m := by
      apply Classical.byContradiction
      intro hr
      revert he
      generalize ({ a with
        sub := upd a.sub n (some ((a.sub n).getD fun _ => none))
        contains := fun p' c' => (p' = p && c' = n) || a.contains p' c' } : AGraph) = b
      have : ∀ (m : List (Str × Str)) (b : AGraph), ¬ AllReg m → (b.setAttrs n m).2 ≠ none := by
        intro m
        induction m with
        | nil => intro b h; exact absurd (fun _ h => nomatch h) h
        | cons e m ih =>
          intro b h
          simp only [AGraph.setAttrs]
          by_cases hk : Registered e.1
          · rw [if_pos hk]
            apply ih
            intro h'
            apply h
            intro e' he'
            rcases List.mem_cons.1 he' with rfl | he'
            · exact hk
            · exact h' _ he'
          · rw [if_neg hk]; simp
      exact this m b hr
    obtain ⟨_, h2⟩ := asetAttrs_ok ({ a with
        sub := upd a.sub n (some ((a.sub n).getD fun _ => none))
        contains := fun p' c' => (p' = p && c' = n) || a.contains p' c' } : AGraph) n hw hr
    rw [h2]
    by_cases hn : a.name = n
    · rw [if_pos hn]
      constructor <;> try first | rfl | exact fun _ => rfl
      · intro n; simp
      · intro n k; simp [nodeGiven, lastAssign, AGraph.nodeVal]
      · intro n'
        by_cases h : n' = n
        · subst h; simp [upd]
        · simp [upd, h]
      · intro k
        simp [graphGiven, hn]
      · intro n' k hne
        have : n ≠ n' := fun h => hne (by rw [← h, hn])
        have this' : n' ≠ n := Ne.symm this
        simp [graphGiven, lastAssign, AGraph.subVal, this, upd, this']
      · intro k
        simp only [AGraph.subVal, upd, hn, if_true]
        cases a.sub n <;> rfl
      · intro p' c'
        by_cases h1 : p' = p <;> by_cases h2 : c' = n <;> simp [h1, h2]
      · simp [edgesMade]
    · rw [if_neg hn]
      have hself : ∀ f : Option AAttrs, upd a.sub n f n = f := fun f => by simp [upd]
      simp only [hself]
      constructor <;> try first | rfl | exact fun _ => rfl
      · intro n; simp
      · intro n k; simp [nodeGiven, lastAssign, AGraph.nodeVal]
      · intro n'
        by_cases h : n' = n
        · subst h; simp [upd]
        · simp [upd, h]
      · intro k
        have : n ≠ a.name := Ne.symm hn
        simp [graphGiven, lastAssign, this]
      · intro n' k _
        by_cases h : n = n'
        · subst h
          simp only [AGraph.subVal, upd, if_true, Option.bind_some, graphGiven, List.append_nil]
          cases a.sub n <;> rfl
        · have h' : n' ≠ n := Ne.symm h
          simp [AGraph.subVal, upd, h', graphGiven, h, lastAssign]
      · intro k
        simp only [AGraph.subVal, upd, if_neg hn]
      · intro p' c'
        by_cases h1 : p' = p <;> by_cases h2 : c' = n <;> simp [h1, h2]
      · simp [edgesMade]

theorem Effect.replay {a : AGraph} {xs : List Call} (hs : ∀ x ∈ xs, x.isSetter = false) (hw : ∀ x ∈ xs, MapWF x.attrs)
    (he : (areplay a xs).2 = []) : Effect a xs (areplay a xs).1 := by
  induction xs generalizing a with
  | nil => exact .nil a
  | cons x xs ih =>
    simp only [areplay, List.append_eq_nil_iff] at he
    have h1 : (a.step (callOp x)).2 = none := by
      cases h : (a.step (callOp x)).2 with
      | none => rfl
      | some e => rw [h] at he; cases he.1
    exact (Effect.single (hs x (List.mem_cons_self ..)) (hw x (List.mem_cons_self ..)) h1).trans
      (ih (fun y hy => hs y (List.mem_cons_of_mem _ hy)) (fun y hy => hw y (List.mem_cons_of_mem _ hy)) he.2)

/-! ### the calls of a tree -/

/-- The calls made for statements carry well-formed maps and are not setters. -/
def PlainCall (x : Call) : Prop := x.isSetter = false ∧ MapWF x.attrs

theorem over_wf {a d : Map Str} (hd : MapWF d) : MapWF (over a d) := hd.msetAll a

theorem createCall_plain {sc : Scope} (hn : MapWF sc.inhNode) (pre : List Stmt) (seen : List Str) (l : Loc) :
    ∀ x ∈ createCall sc pre seen l, PlainCall x := by
  intro x hx
  cases l with
  | sub id body => cases hx
  | node n =>
    simp only [createCall] at hx
    split at hx
    · cases hx
    · rcases List.mem_singleton.1 hx with rfl
      exact ⟨rfl, hn.msetAll _⟩

theorem chainCalls_plain {sc : Scope} (hn : MapWF sc.inhNode) (pre : List Stmt) {attrs : Map Str} (ha : MapWF attrs) (rhs : List EdgeRH) :
    ∀ (seen : List Str) (prev : Loc), ∀ x ∈ chainCalls sc pre attrs seen prev rhs, PlainCall x := by
  induction rhs with
  | nil => intro _ _ x hx; cases hx
  | cons r rest ih =>
    cases r with
    | mk op d =>
      intro seen prev x hx
      simp only [chainCalls, List.mem_append, List.mem_singleton] at hx
      rcases hx with (h | rfl) | h
      · exact createCall_plain hn _ _ _ _ h
      · exact ⟨rfl, ha⟩
      · exact ih _ _ _ h

mutual
theorem stmtCalls_plain : (s : Stmt) → ∀ (sc : Scope) (_ : MapWF sc.inhNode) (_ : MapWF sc.inhEdge) (pre : List Stmt),
    ∀ x ∈ stmtCalls sc pre s, PlainCall x
  | .node id as => by
    intro sc hn he pre x hx
    simp only [stmtCalls, List.mem_singleton] at hx
    subst hx
    refine ⟨rfl, over_wf ?_⟩
    split
    · exact MapWF.nil
    · exact hn.msetAll _
  | .edge src rhs as => by
    intro sc hn he pre x hx
    simp only [stmtCalls, List.mem_append] at hx
    rcases hx with ((h | h) | h) | h
    · exact createCall_plain hn _ _ _ _ h
    · exact chainCalls_plain hn _ (over_wf (he.msetAll _)) _ _ _ _ h
    · exact locCalls_plain src sc hn he pre x h
    · exact rhsCalls_plain rhs sc hn he pre x h
  | .nodeAttrs as => by intro sc hn he pre x hx; simp [stmtCalls, locCalls, rhsCalls, stmtsCalls] at hx
  | .edgeAttrs as => by intro sc hn he pre x hx; simp [stmtCalls, locCalls, rhsCalls, stmtsCalls] at hx
  | .graphAttrs as => by
    intro sc hn he pre x hx
    simp only [stmtCalls, List.mem_map] at hx
    obtain ⟨e, _, rfl⟩ := hx
    exact ⟨rfl, MapWF.nil⟩
  | .sub id body => by
    intro sc hn he pre x hx
    simp only [stmtCalls, List.mem_cons] at hx
    rcases hx with rfl | h
    · exact ⟨rfl, MapWF.nil.msetAll _⟩
    · exact stmtsCalls_plain body ⟨id, _, _⟩ (hn.msetAll _) (he.msetAll _) [] x h
  | .attr a => by
    intro sc hn he pre x hx
    simp only [stmtCalls, List.mem_singleton] at hx
    subst hx
    exact ⟨rfl, MapWF.nil⟩
theorem locCalls_plain : (l : Loc) → ∀ (sc : Scope) (_ : MapWF sc.inhNode) (_ : MapWF sc.inhEdge) (pre : List Stmt),
    ∀ x ∈ locCalls sc pre l, PlainCall x
  | .node n => by intro sc hn he pre x hx; simp [stmtCalls, locCalls, rhsCalls, stmtsCalls] at hx
  | .sub id body => by
    intro sc hn he pre x hx
    simp only [locCalls, List.mem_cons] at hx
    rcases hx with rfl | h
    · exact ⟨rfl, MapWF.nil.msetAll _⟩
    · exact stmtsCalls_plain body ⟨id, _, _⟩ (hn.msetAll _) (he.msetAll _) [] x h
theorem rhsCalls_plain : (rhs : List EdgeRH) → ∀ (sc : Scope) (_ : MapWF sc.inhNode) (_ : MapWF sc.inhEdge) (pre : List Stmt),
    ∀ x ∈ rhsCalls sc pre rhs, PlainCall x
  | [] => by intro sc hn he pre x hx; simp [stmtCalls, locCalls, rhsCalls, stmtsCalls] at hx
  | .mk op d :: rest => by
    intro sc hn he pre x hx
    simp only [rhsCalls, List.mem_append] at hx
    rcases hx with h | h
    · exact locCalls_plain d sc hn he pre x h
    · exact rhsCalls_plain rest sc hn he pre x h
theorem stmtsCalls_plain : (ss : List Stmt) → ∀ (sc : Scope) (_ : MapWF sc.inhNode) (_ : MapWF sc.inhEdge) (pre : List Stmt),
    ∀ x ∈ stmtsCalls sc pre ss, PlainCall x
  | [] => by intro sc hn he pre x hx; simp [stmtCalls, locCalls, rhsCalls, stmtsCalls] at hx
  | s :: ss => by
    intro sc hn he pre x hx
    simp only [stmtsCalls, List.mem_append] at hx
    rcases hx with h | h
    · exact stmtCalls_plain s sc hn he pre x h
    · exact stmtsCalls_plain ss sc hn he _ x h
end

/-! ### endpoints are created -/

/-- A call that creates the node `n`. -/
def MakesNode (xs : List Call) (n : Str) : Prop := ∃ p m, Call.addNode p n m ∈ xs

/-- A call that creates the subgraph `n`. -/
def MakesSub (xs : List Call) (n : Str) : Prop := ∃ p m, Call.addSubGraph p n m ∈ xs

/-- An endpoint (with port) that the calls create. -/
def EndMade (xs : List Call) (n port : Str) : Prop := MakesNode xs n ∨ (MakesSub xs n ∧ port = [])

theorem MakesNode.mono {xs ys : List Call} {n : Str} (h : MakesNode xs n) (hs : ∀ x ∈ xs, x ∈ ys) : MakesNode ys n := by
  obtain ⟨p, m, h⟩ := h; exact ⟨p, m, hs _ h⟩

theorem EndMade.mono {xs ys : List Call} {n port : Str} (h : EndMade xs n port) (hs : ∀ x ∈ xs, x ∈ ys) : EndMade ys n port := by
  rcases h with h | ⟨⟨p, m, h⟩, hp⟩
  · exact .inl (h.mono hs)
  · exact .inr ⟨⟨p, m, hs _ h⟩, hp⟩

/-- An endpoint is a node that is mentioned, or a subgraph without port whose creation is among the calls of the endpoint. -/
theorem chain_ends (sc : Scope) (pre : List Stmt) (attrs : Map Str) (rhs : List EdgeRH) :
    ∀ (seen : List Str) (prev : Loc) {s sp d dp : Str} {dir : Bool} {m : Map Str},
      Call.addPortEdge s sp d dp dir m ∈ chainCalls sc pre attrs seen prev rhs →
      ∃ l₁ ∈ prev :: dests rhs, ∃ l₂ ∈ dests rhs, s = l₁.getID ∧ sp = Ast.portStr l₁.getPort ∧ d = l₂.getID ∧ dp = Ast.portStr l₂.getPort := by
  induction rhs with
  | nil => intro seen prev s sp d dp dir m h; cases h
  | cons r rest ih =>
    cases r with
    | mk op l =>
      intro seen prev s sp d dp dir m h
      simp only [chainCalls, List.mem_append, List.mem_singleton] at h
      rcases h with (h | h) | h
      · cases l with
        | sub id body => cases h
        | node n =>
          simp only [createCall] at h
          split at h
          · cases h
          · cases List.mem_singleton.1 h
      · cases h
        exact ⟨prev, List.mem_cons_self .., l, List.mem_cons_self .., rfl, rfl, rfl, rfl⟩
      · obtain ⟨l₁, h1, l₂, h2, hh⟩ := ih _ _ h
        exact ⟨l₁, List.mem_cons_of_mem _ h1, l₂, List.mem_cons_of_mem _ h2, hh⟩

/-- Every node endpoint to the right is mentioned before, seen, or created. -/
theorem chain_creates (sc : Scope) (pre : List Stmt) (attrs : Map Str) (rhs : List EdgeRH) :
    ∀ (seen : List Str) (prev : Loc) (n : Ast.NodeID), Loc.node n ∈ dests rhs →
      n.id ∈ mentioned pre ∨ n.id ∈ seen ∨ MakesNode (chainCalls sc pre attrs seen prev rhs) n.id := by
  induction rhs with
  | nil => intro seen prev n h; cases h
  | cons r rest ih =>
    cases r with
    | mk op l =>
      intro seen prev n h
      simp only [dests, List.mem_cons] at h
      have hc : ∀ n : Ast.NodeID, l = .node n → n.id ∈ mentioned pre ∨ n.id ∈ seen ∨
          MakesNode (chainCalls sc pre attrs seen prev (.mk op l :: rest)) n.id := by
        rintro n rfl
        by_cases hm : n.id ∈ mentioned pre ++ seen
        · rcases List.mem_append.1 hm with h | h
          · exact .inl h
          · exact .inr (.inl h)
        · refine .inr (.inr ⟨sc.name, sc.nodeDefaults pre, ?_⟩)
          rw [chainCalls, createCall, if_neg hm]; simp
      rcases h with h | h
      · exact hc n h.symm
      · rcases ih (seen ++ locNode l) l n h with h | h | h
        · exact .inl h
        · rcases List.mem_append.1 h with h | h
          · exact .inr (.inl h)
          · cases l with
            | sub id body => cases h
            | node n' =>
              have : n.id = n'.id := List.mem_singleton.1 h
              rw [this]
              exact hc n' rfl
        · refine .inr (.inr (h.mono fun x hx => ?_))
          simp only [chainCalls, List.mem_append]
          exact .inr hx

/-- Every node mentioned by a statement is mentioned before or created by the statement's calls. -/
theorem mentions_made (sc : Scope) (pre : List Stmt) (s : Stmt) {n : Str} (h : n ∈ mentions s) :
    n ∈ mentioned pre ∨ MakesNode (stmtCalls sc pre s) n := by
  cases s with
  | node id as =>
    rcases List.mem_singleton.1 h with rfl
    exact .inr ⟨_, _, by simp only [stmtCalls, List.mem_singleton]; rfl⟩
  | edge src rhs as =>
    simp only [mentions, List.flatMap_cons, List.mem_append, List.mem_flatMap] at h
    have hsrc : n ∈ locNode src → n ∈ mentioned pre ∨ MakesNode (stmtCalls sc pre (.edge src rhs as)) n := by
      intro h
      cases src with
      | sub id body => cases h
      | node n' =>
        rcases List.mem_singleton.1 h with rfl
        by_cases hm : n'.id ∈ mentioned pre ++ []
        · exact .inl (by simpa using hm)
        · refine .inr ⟨sc.name, sc.nodeDefaults pre, ?_⟩
          rw [stmtCalls, createCall, if_neg hm]; simp
    rcases h with h | ⟨l, hl, h⟩
    · exact hsrc h
    · cases l with
      | sub id body => cases h
      | node n' =>
        rcases List.mem_singleton.1 h with rfl
        rcases chain_creates sc pre (over (mapOf as) (sc.edgeDefaults pre)) rhs (locNode src) src n' hl with h | h | h
        · exact .inl h
        · exact hsrc h
        · refine .inr (h.mono fun x hx => ?_)
          simp only [stmtCalls, List.mem_append]
          exact .inl (.inl (.inr hx))
  | nodeAttrs as => cases h
  | edgeAttrs as => cases h
  | graphAttrs as => cases h
  | sub id body => cases h
  | attr a => cases h

/-- A subgraph endpoint is created. -/
theorem locCalls_made (sc : Scope) (pre : List Stmt) {id : Str} {body : List Stmt} : MakesSub (locCalls sc pre (.sub id body)) id :=
  ⟨_, _, by simp only [locCalls]; exact List.mem_cons_self ..⟩

theorem rhsCalls_made (sc : Scope) (pre : List Stmt) {rhs : List EdgeRH} {id : Str} {body : List Stmt} (h : Loc.sub id body ∈ dests rhs) :
    MakesSub (rhsCalls sc pre rhs) id := by
  induction rhs with
  | nil => cases h
  | cons r rest ih =>
    cases r with
    | mk op l =>
      simp only [dests, List.mem_cons] at h
      rcases h with h | h
      · subst h
        obtain ⟨p, m, h⟩ := locCalls_made sc pre (id := id) (body := body)
        exact ⟨p, m, by simp only [rhsCalls, List.mem_append]; exact .inl h⟩
      · obtain ⟨p, m, h⟩ := ih h
        exact ⟨p, m, by simp only [rhsCalls, List.mem_append]; exact .inr h⟩

/-- Within an edge statement every endpoint is made, given that the nodes mentioned before are. -/
theorem edge_ends (sc : Scope) (pre : List Stmt) (src : Loc) (rhs : List EdgeRH) (as : AttrList) {all : List Call}
    (hall : ∀ x ∈ stmtCalls sc pre (.edge src rhs as), x ∈ all) (hpre : ∀ n ∈ mentioned pre, MakesNode all n)
    {l : Loc} (hl : l ∈ src :: dests rhs) : EndMade all l.getID (Ast.portStr l.getPort) := by
  cases l with
  | node n =>
    left
    have hm : n.id ∈ mentions (.edge src rhs as) := by
      simp only [mentions, List.mem_flatMap]
      exact ⟨_, hl, List.mem_singleton.2 rfl⟩
    rcases mentions_made sc pre _ hm with h | h
    · exact hpre _ h
    · exact h.mono hall
  | sub id body =>
    right
    refine ⟨?_, rfl⟩
    rcases List.mem_cons.1 hl with rfl | h
    · obtain ⟨p, m, h⟩ := locCalls_made sc pre (id := id) (body := body)
      exact ⟨p, m, hall _ (by simp only [stmtCalls, List.mem_append]; exact .inl (.inr h))⟩
    · obtain ⟨p, m, h⟩ := rhsCalls_made sc pre h
      exact ⟨p, m, hall _ (by simp only [stmtCalls, List.mem_append]; exact .inr h)⟩

/-- All edges among `xs` have endpoints made by `all`. -/
def EdgesMade (all xs : List Call) : Prop :=
  ∀ s sp d dp dir m, Call.addPortEdge s sp d dp dir m ∈ xs → EndMade all s sp ∧ EndMade all d dp

mutual
theorem stmtCalls_ends : (s : Stmt) → ∀ (sc : Scope) (pre : List Stmt) (all : List Call)
    (_ : ∀ x ∈ stmtCalls sc pre s, x ∈ all) (_ : ∀ n ∈ mentioned pre, MakesNode all n), EdgesMade all (stmtCalls sc pre s)
  | .node id as => by
    intro sc pre all hall hpre a sp d dp dir m h
    simp only [stmtCalls, List.mem_singleton] at h
    cases h
  | .edge src rhs as => by
    intro sc pre all hall hpre a sp d dp dir m h
    have hends := fun l hl => edge_ends sc pre src rhs as hall hpre (l := l) hl
    have hsub := hall
    simp only [stmtCalls, List.mem_append] at h hsub
    rcases h with ((h | h) | h) | h
    · cases src with
      | sub id body => cases h
      | node n =>
        simp only [createCall] at h
        split at h
        · cases h
        · cases List.mem_singleton.1 h
    · obtain ⟨l₁, h1, l₂, h2, rfl, rfl, rfl, rfl⟩ := chain_ends _ _ _ _ _ _ h
      exact ⟨hends l₁ h1, hends l₂ (List.mem_cons_of_mem _ h2)⟩
    · exact locCalls_ends src sc pre all (fun x hx => hsub x (.inl (.inr hx))) _ _ _ _ _ _ h
    · exact rhsCalls_ends rhs sc pre all (fun x hx => hsub x (.inr hx)) _ _ _ _ _ _ h
  | .nodeAttrs as => by intro sc pre all hall hpre a sp d dp dir m h; simp [stmtCalls, locCalls, rhsCalls, stmtsCalls] at h
  | .edgeAttrs as => by intro sc pre all hall hpre a sp d dp dir m h; simp [stmtCalls, locCalls, rhsCalls, stmtsCalls] at h
  | .graphAttrs as => by
    intro sc pre all hall hpre a sp d dp dir m h
    simp only [stmtCalls, List.mem_map] at h
    obtain ⟨e, _, h⟩ := h
    cases h
  | .sub id body => by
    intro sc pre all hall hpre a sp d dp dir m h
    simp only [stmtCalls, List.mem_cons] at h hall
    rcases h with h | h
    · cases h
    · exact stmtsCalls_ends body _ [] all (fun x hx => hall x (.inr hx)) (fun n hn => nomatch hn) _ _ _ _ _ _ h
  | .attr a => by
    intro sc pre all hall hpre a sp d dp dir m h
    simp only [stmtCalls, List.mem_singleton] at h
    cases h
theorem locCalls_ends : (l : Loc) → ∀ (sc : Scope) (pre : List Stmt) (all : List Call)
    (_ : ∀ x ∈ locCalls sc pre l, x ∈ all), EdgesMade all (locCalls sc pre l)
  | .node n => by intro sc pre all hall a sp d dp dir m h; simp [stmtCalls, locCalls, rhsCalls, stmtsCalls] at h
  | .sub id body => by
    intro sc pre all hall a sp d dp dir m h
    simp only [locCalls, List.mem_cons] at h hall
    rcases h with h | h
    · cases h
    · exact stmtsCalls_ends body _ [] all (fun x hx => hall x (.inr hx)) (fun n hn => nomatch hn) _ _ _ _ _ _ h
theorem rhsCalls_ends : (rhs : List EdgeRH) → ∀ (sc : Scope) (pre : List Stmt) (all : List Call)
    (_ : ∀ x ∈ rhsCalls sc pre rhs, x ∈ all), EdgesMade all (rhsCalls sc pre rhs)
  | [] => by intro sc pre all hall a sp d dp dir m h; simp [stmtCalls, locCalls, rhsCalls, stmtsCalls] at h
  | .mk op l :: rest => by
    intro sc pre all hall a sp d dp dir m h
    simp only [rhsCalls, List.mem_append] at h hall
    rcases h with h | h
    · exact locCalls_ends l sc pre all (fun x hx => hall x (.inl hx)) _ _ _ _ _ _ h
    · exact rhsCalls_ends rest sc pre all (fun x hx => hall x (.inr hx)) _ _ _ _ _ _ h
theorem stmtsCalls_ends : (ss : List Stmt) → ∀ (sc : Scope) (pre : List Stmt) (all : List Call)
    (_ : ∀ x ∈ stmtsCalls sc pre ss, x ∈ all) (_ : ∀ n ∈ mentioned pre, MakesNode all n), EdgesMade all (stmtsCalls sc pre ss)
  | [] => by intro sc pre all hall hpre a sp d dp dir m h; simp [stmtCalls, locCalls, rhsCalls, stmtsCalls] at h
  | s :: ss => by
    intro sc pre all hall hpre a sp d dp dir m h
    simp only [stmtsCalls, List.mem_append] at h hall
    rcases h with h | h
    · exact stmtCalls_ends s sc pre all (fun x hx => hall x (.inl hx)) hpre _ _ _ _ _ _ h
    · refine stmtsCalls_ends ss sc _ all (fun x hx => hall x (.inr hx)) (fun n hn => ?_) _ _ _ _ _ _ h
      simp only [mentioned, List.flatMap_append, List.mem_append, List.flatMap_cons, List.flatMap_nil, List.append_nil] at hn
      rcases hn with hn | hn
      · exact hpre n hn
      · rcases mentions_made sc pre s hn with h | h
        · exact hpre n h
        · exact h.mono fun x hx => hall x (.inl hx)
end

/-- The graph built from a tree without errors: its effect on the empty graph. -/
theorem analysed_effect {t : Ast.Graph} {g : Graph} (h : newAnalysedGraph t = .ok g) :
    Reachable g ∧ g.name = t.id ∧ g.directed = t.type_ ∧ g.strict = t.strict ∧
    Effect { AGraph.empty with name := t.id, directed := t.type_, strict := t.strict } (stmtsCalls ⟨t.id, [], []⟩ [] t.stmts) (abs g) := by
  have hp := stmtsCalls_plain t.stmts ⟨t.id, [], []⟩ MapWF.nil MapWF.nil []
  have hw : ∀ x ∈ treeCalls t, MapWF x.attrs := by
    intro x hx
    simp only [treeCalls, List.mem_append, List.mem_cons, List.not_mem_nil, or_false] at hx
    rcases hx with (rfl | rfl | rfl) | h
    · exact MapWF.nil
    · exact MapWF.nil
    · exact MapWF.nil
    · exact (hp x h).2
  have hr := replay_reachable Reachable.init hw
  have hab := abs_replay Reachable.init hw
  unfold newAnalysedGraph analyse at h
  rw [analyseC_eq] at h
  simp only [Catcher.getError] at h
  cases hes : (replay graphIface newGraph (treeCalls t)).2 with
  | cons e es => rw [hes] at h; cases h
  | nil =>
    rw [hes] at h
    simp only [Except.ok.injEq] at h
    subst h
    rw [hes, abs_new] at hab
    have he : (areplay { AGraph.empty with name := t.id, directed := t.type_, strict := t.strict }
        (stmtsCalls ⟨t.id, [], []⟩ [] t.stmts)) = (abs (replay graphIface newGraph (treeCalls t)).1, []) := hab
    have heff := Effect.replay (fun x hx => (hp x hx).1) (fun x hx => (hp x hx).2) (by rw [he])
    rw [he] at heff
    exact ⟨hr, heff.name, heff.directed, heff.strict, heff⟩


/-! ### what the calls depend on -/

mutual
theorem stmtCalls_congr' : (s : Stmt) → ∀ (sc : Scope) (pre pre' : List Stmt) (_ : nodeDefaultEntries pre = nodeDefaultEntries pre')
    (_ : edgeDefaultEntries pre = edgeDefaultEntries pre') (_ : graphDefaultEntries pre = graphDefaultEntries pre')
    (_ : mentioned pre = mentioned pre'), stmtCalls sc pre s = stmtCalls sc pre' s
  | .node id as => by intro sc pre pre' h1 h2 h3 h4; simp only [stmtCalls, Scope.nodeDefaults, h1, h4]
  | .edge src rhs as => by
    intro sc pre pre' h1 h2 h3 h4
    have hc : ∀ seen l, createCall sc pre seen l = createCall sc pre' seen l := by
      intro seen l
      cases l with
      | sub id body => rfl
      | node n => simp only [createCall, Scope.nodeDefaults, h1, h4]
    have hch : ∀ rhs attrs seen prev, chainCalls sc pre attrs seen prev rhs = chainCalls sc pre' attrs seen prev rhs := by
      intro rhs
      induction rhs with
      | nil => intro _ _ _; rfl
      | cons r rest ih => cases r with | mk op d => intro attrs seen prev; simp only [chainCalls, hc, ih]
    simp only [stmtCalls, hc, hch, Scope.edgeDefaults, h2]
    rw [locCalls_congr' src sc pre pre' h1 h2 h3, rhsCalls_congr' rhs sc pre pre' h1 h2 h3]
  | .nodeAttrs as => by intro sc pre pre' h1 h2 h3 h4; simp only [stmtCalls]
  | .edgeAttrs as => by intro sc pre pre' h1 h2 h3 h4; simp only [stmtCalls]
  | .graphAttrs as => by intro sc pre pre' h1 h2 h3 h4; simp only [stmtCalls]
  | .sub id body => by
    intro sc pre pre' h1 h2 h3 h4
    simp only [stmtCalls, Scope.nodeDefaults, Scope.edgeDefaults, graphDefaults, h1, h2, h3]
  | .attr a => by intro sc pre pre' h1 h2 h3 h4; simp only [stmtCalls]
theorem locCalls_congr' : (l : Loc) → ∀ (sc : Scope) (pre pre' : List Stmt) (_ : nodeDefaultEntries pre = nodeDefaultEntries pre')
    (_ : edgeDefaultEntries pre = edgeDefaultEntries pre') (_ : graphDefaultEntries pre = graphDefaultEntries pre'),
    locCalls sc pre l = locCalls sc pre' l
  | .node n => by intro sc pre pre' h1 h2 h3; simp only [locCalls]
  | .sub id body => by
    intro sc pre pre' h1 h2 h3
    simp only [locCalls, Scope.nodeDefaults, Scope.edgeDefaults, graphDefaults, h1, h2, h3]
theorem rhsCalls_congr' : (rhs : List EdgeRH) → ∀ (sc : Scope) (pre pre' : List Stmt) (_ : nodeDefaultEntries pre = nodeDefaultEntries pre')
    (_ : edgeDefaultEntries pre = edgeDefaultEntries pre') (_ : graphDefaultEntries pre = graphDefaultEntries pre'),
    rhsCalls sc pre rhs = rhsCalls sc pre' rhs
  | [] => by intro sc pre pre' h1 h2 h3; simp only [rhsCalls]
  | .mk op d :: rest => by
    intro sc pre pre' h1 h2 h3
    simp only [rhsCalls]
    rw [locCalls_congr' d sc pre pre' h1 h2 h3, rhsCalls_congr' rest sc pre pre' h1 h2 h3]
end

theorem stmtCalls_congr {sc : Scope} {pre pre' : List Stmt} {s : Stmt} (h1 : nodeDefaultEntries pre = nodeDefaultEntries pre')
    (h2 : edgeDefaultEntries pre = edgeDefaultEntries pre') (h3 : graphDefaultEntries pre = graphDefaultEntries pre')
    (h4 : mentioned pre = mentioned pre') : stmtCalls sc pre s = stmtCalls sc pre' s := stmtCalls_congr' s sc pre pre' h1 h2 h3 h4

theorem stmtsCalls_append (sc : Scope) (pre a b : List Stmt) :
    stmtsCalls sc pre (a ++ b) = stmtsCalls sc pre a ++ stmtsCalls sc (pre ++ a) b := by
  induction a generalizing pre with
  | nil => simp [stmtsCalls]
  | cons s a ih => simp [stmtsCalls, ih]

end Gographviz
