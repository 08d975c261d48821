import Verif.Proofs.Replay
import Verif.Props.WriteProps2
import Verif.Props.GraphProps
/-!
Properties C22–C27 and C46: from syntax trees to graphs (`Analyse`, `NewAnalysedGraph`).
-/
namespace Gographviz.Props

open Gographviz Spec
open Gographviz.Ast (Stmt Loc EdgeRH AttrList)

variable {σ τ : Type}

/-! ### C23 -/

theorem callsMade_eq (I : Iface σ) (t : Ast.Graph) (g : σ) : callsMade I t g = treeCalls t := by
  unfold callsMade analyse
  rw [analyseC_eq, replay_recording]
  simp

/-- C23. The sequence of calls does not depend on the implementation, its state, or which calls fail. -/
theorem C23_same_calls (I : Iface σ) (J : Iface τ) (t : Ast.Graph) (g : σ) (g' : τ) : callsMade I t g = callsMade J t g' := by
  rw [callsMade_eq, callsMade_eq]

/-- C23. `Analyse` performs all those calls, in order, going on after failures; it returns no error exactly when none of them
failed, and otherwise the message lists the messages of all the failures in call order. -/
theorem C23_all_errors (I : Iface σ) (t : Ast.Graph) (g : σ) :
    (analyse I t g).1 = (replay I g (callsMade I t g)).1 ∧
    ((analyse I t g).2 = none ↔ (replay I g (callsMade I t g)).2 = []) ∧
    ((replay I g (callsMade I t g)).2 ≠ [] → (analyse I t g).2 =
      some (b!"errors: [" ++ sjoin (b!",") ((replay I g (callsMade I t g)).2.map Err.msg) ++ b!"]")) := by
  rw [callsMade_eq]
  unfold analyse
  rw [analyseC_eq]
  simp only [Catcher.getError]
  refine ⟨trivial, ?_, ?_⟩
  · cases (replay I g (treeCalls t)).2 <;> simp
  · cases (replay I g (treeCalls t)).2 <;> simp

/-- `digraph G { node [color=red]; a [nonsense=1]; a -> b -> c; nope [bad=2] }`, two calls of which fail. -/
def badTree : Ast.Graph :=
  { type_ := true, strict := false, id := b!"G",
    stmts := [.nodeAttrs [[⟨b!"color", b!"red"⟩]], .node ⟨b!"a", ⟨[], []⟩⟩ [[⟨b!"nonsense", b!"1"⟩]],
      .edge (.node ⟨b!"a", ⟨[], []⟩⟩) [.mk true (.node ⟨b!"b", ⟨[], []⟩⟩), .mk true (.node ⟨b!"c", ⟨[], []⟩⟩)] [],
      .node ⟨b!"nope", ⟨[], []⟩⟩ [[⟨b!"bad", b!"2"⟩]]] }

example : (analyse graphIface badTree newGraph).2 =
    some (b!"errors: [nonsense is not a valid attribute,bad is not a valid attribute]") ∧
    ((analyse graphIface badTree newGraph).1.isNode (b!"c")) = true ∧ (callsMade graphIface badTree newGraph).length = 9 := by
  refine ⟨by decide +kernel, by decide +kernel, by decide +kernel⟩

/-! ### C24: scoping of defaults -/

theorem infix_trans {α : Type} {a b c : List α} (h1 : a <:+: b) (h2 : b <:+: c) : a <:+: c := h1.trans h2

theorem rhsCalls_infix (sc : Scope) (pre : List Stmt) {l : Loc} {rhs : List EdgeRH} (h : l ∈ dests rhs) :
    locCalls sc pre l <:+: rhsCalls sc pre rhs := by
  induction rhs with
  | nil => cases h
  | cons r rest ih =>
    cases r with
    | mk op d =>
      simp only [dests, List.mem_cons] at h
      simp only [rhsCalls]
      rcases h with rfl | h
      · exact (List.prefix_append _ _).isInfix
      · exact (ih h).trans (List.suffix_append _ _).isInfix

theorem body_infix {sc : Scope} {body pre : List Stmt} {s : Stmt} {post : List Stmt} (h : body = pre ++ s :: post) :
    stmtCalls sc pre s <:+: stmtsCalls sc [] body := by
  subst h
  rw [stmtsCalls_append, List.nil_append]
  simp only [stmtsCalls]
  exact ((List.prefix_append _ _).isInfix).trans (List.suffix_append _ _).isInfix

theorem occurs_infix {t : Ast.Graph} {sc : Scope} {pre : List Stmt} {s : Stmt} (h : Occurs t sc pre s) :
    stmtCalls sc pre s <:+: treeCalls t := by
  induction h with
  | root h => exact (body_infix h).trans (List.suffix_append _ _).isInfix
  | inSub h hb ih =>
    refine ((body_infix hb).trans ?_).trans ih
    simp only [stmtCalls]
    exact (List.suffix_cons _ _).isInfix
  | @inEnd sc pre src rhs as id body pre' s post h hl hb ih =>
    refine ((body_infix hb).trans ?_).trans ih
    have h1 : stmtsCalls ⟨id, sc.nodeDefaults pre, sc.edgeDefaults pre⟩ [] body <:+: locCalls sc pre (.sub id body) := by
      simp only [locCalls]
      exact (List.suffix_cons _ _).isInfix
    refine h1.trans ?_
    simp only [stmtCalls]
    rcases List.mem_cons.1 hl with rfl | hl
    · exact ((List.suffix_append _ _).isInfix).trans (List.prefix_append _ _).isInfix
    · exact (rhsCalls_infix sc pre hl).trans (List.suffix_append _ _).isInfix

theorem mget_nodeDefaults (sc : Scope) (pre : List Stmt) (k : Str) :
    mget (sc.nodeDefaults pre) k = (lastValue (nodeDefaultEntries pre) k).or (mget sc.inhNode k) := by
  unfold Scope.nodeDefaults
  rw [mget_msetAll, lastValue_eq]
  cases lastAssign (nodeDefaultEntries pre) k <;> rfl

theorem mget_edgeDefaults (sc : Scope) (pre : List Stmt) (k : Str) :
    mget (sc.edgeDefaults pre) k = (lastValue (edgeDefaultEntries pre) k).or (mget sc.inhEdge k) := by
  unfold Scope.edgeDefaults
  rw [mget_msetAll, lastValue_eq]
  cases lastAssign (edgeDefaultEntries pre) k <;> rfl

theorem mget_mapOf (as : AttrList) (k : Str) : mget (mapOf as) k = lastValue (entries as) k := by
  unfold mapOf
  rw [mget_msetAll, lastValue_eq]
  cases lastAssign (entries as) k <;> rfl

theorem mget_over {a d : Map Str} (ha : MapWF a) (k : Str) : mget (over a d) k = (mget a k).or (mget d k) := by
  unfold over
  rw [mget_msetAll_wf _ ha]
  cases mget a k <;> rfl

/-- C24, nodes. A node statement anywhere in the tree makes one `AddNode` call for the enclosing (sub)graph. The value of key `k` is
the last one in the statement; failing that, if the node is mentioned for the first time in this scope, the last one given by a
preceding `node [..]` statement of this scope; failing that, the one inherited when the scope was opened (by `Occurs`: the
defaults in force where the subgraph stands). Nothing after the statement and nothing inside nested scopes matters. -/
theorem C24_node_defaults (I : Iface σ) (g : σ) {t : Ast.Graph} {sc : Scope} {pre : List Stmt} {id : Ast.NodeID} {as : AttrList}
    (h : Occurs t sc pre (.node id as)) :
    ∃ m, [Call.addNode sc.name (Ast.nodeIDStr id) m] <:+: callsMade I t g ∧
      ∀ k, mget m k = (lastValue (entries as) k).or
        (if Ast.nodeIDStr id ∈ mentioned pre then none else (lastValue (nodeDefaultEntries pre) k).or (mget sc.inhNode k)) := by
  refine ⟨over (mapOf as) (if Ast.nodeIDStr id ∈ mentioned pre then [] else sc.nodeDefaults pre), ?_, ?_⟩
  · rw [callsMade_eq]
    have := occurs_infix h
    rwa [stmtCalls] at this
  · intro k
    rw [mget_over (mapOf_wf as), mget_mapOf]
    split
    · rfl
    · rw [mget_nodeDefaults]

/-- C24, nodes created by edges. A node endpoint that the scope has not mentioned before gets exactly the node defaults in force. -/
theorem C24_edge_endpoint_defaults (I : Iface σ) (g : σ) {t : Ast.Graph} {sc : Scope} {pre : List Stmt} {src : Loc}
    {rhs : List EdgeRH} {as : AttrList} (h : Occurs t sc pre (.edge src rhs as)) {n : Ast.NodeID} (hn : Loc.node n ∈ src :: dests rhs)
    (hm : n.id ∉ mentioned pre) :
    ∃ m, Call.addNode sc.name n.id m ∈ callsMade I t g ∧
      ∀ k, mget m k = (lastValue (nodeDefaultEntries pre) k).or (mget sc.inhNode k) := by
  refine ⟨sc.nodeDefaults pre, ?_, mget_nodeDefaults sc pre⟩
  rw [callsMade_eq]
  have hin := (occurs_infix h).subset
  apply hin
  simp only [stmtCalls, List.mem_append]
  have hsrc : ∀ n : Ast.NodeID, src = .node n → n.id ∉ mentioned pre → Call.addNode sc.name n.id (sc.nodeDefaults pre) ∈ createCall sc pre [] src := by
    rintro n rfl hm
    simp [createCall, hm]
  rcases List.mem_cons.1 hn with rfl | hn
  · exact .inl (.inl (.inl (hsrc n rfl hm)))
  · by_cases hs : n.id ∈ locNode src
    · cases src with
      | sub id body => cases hs
      | node n' =>
        have : n.id = n'.id := List.mem_singleton.1 hs
        rw [this] at hm ⊢
        exact .inl (.inl (.inl (hsrc n' rfl hm)))
    · refine .inl (.inl (.inr ?_))
      generalize over (mapOf as) (sc.edgeDefaults pre) = attrs
      generalize locNode src = seen at hs
      clear hsrc hin h
      induction rhs generalizing src seen with
      | nil => cases hn
      | cons r rest ih =>
        cases r with
        | mk op d =>
          simp only [dests, List.mem_cons] at hn
          by_cases hd : n.id ∈ locNode d
          · cases d with
            | sub id body => cases hd
            | node n' =>
              have : n.id = n'.id := List.mem_singleton.1 hd
              have hm' : ¬ n'.id ∈ mentioned pre ++ seen := by
                rw [← this]; simp [hm, hs]
              rw [chainCalls, createCall, if_neg hm', this]
              simp
          · have : Loc.node n ∈ dests rest := by
              rcases hn with rfl | h
              · exact absurd (List.mem_singleton.2 rfl) hd
              · exact h
            simp only [chainCalls, List.mem_append]
            exact .inr (ih (src := d) (List.mem_cons_of_mem _ this) this (seen ++ locNode d) (by simp [hs, hd]))

/-- C24, edges. All edges of an edge statement carry the same attributes: the statement's own, over the edge defaults in force. -/
theorem C24_edge_defaults (I : Iface σ) (g : σ) {t : Ast.Graph} {sc : Scope} {pre : List Stmt} {src : Loc} {rhs : List EdgeRH}
    {as : AttrList} (h : Occurs t sc pre (.edge src rhs as)) :
    ∃ m own nested, own ++ nested <:+: callsMade I t g ∧ own.filter Call.isEdge = consecutive src m rhs ∧
      ∀ k, mget m k = (lastValue (entries as) k).or ((lastValue (edgeDefaultEntries pre) k).or (mget sc.inhEdge k)) := by
  refine ⟨over (mapOf as) (sc.edgeDefaults pre),
    createCall sc pre [] src ++ chainCalls sc pre (over (mapOf as) (sc.edgeDefaults pre)) (locNode src) src rhs,
    locCalls sc pre src ++ rhsCalls sc pre rhs, ?_, ?_, ?_⟩
  · rw [callsMade_eq, ← List.append_assoc]
    have := occurs_infix h
    simpa only [stmtCalls] using this
  · have hc : ∀ (seen : List Str) (l : Loc), (createCall sc pre seen l).filter Call.isEdge = [] := by
      intro seen l
      cases l with
      | sub id body => rfl
      | node n => simp only [createCall]; split <;> rfl
    rw [List.filter_append, hc, List.nil_append]
    generalize over (mapOf as) (sc.edgeDefaults pre) = attrs
    generalize locNode src = seen
    clear h
    induction rhs generalizing src seen with
    | nil => rfl
    | cons r rest ih =>
      cases r with
      | mk op d =>
        rw [chainCalls, List.filter_append, List.filter_append, hc, ih, consecutive]
        rfl
  · intro k
    rw [mget_over (mapOf_wf as), mget_mapOf, mget_edgeDefaults]

/-- C24. Statements never influence the calls of earlier statements. -/
theorem C24_never_earlier (I : Iface σ) (g : σ) (t : Ast.Graph) (more : List Stmt) :
    callsMade I t g <+: callsMade I { t with stmts := t.stmts ++ more } g := by
  simp only [callsMade_eq, treeCalls]
  rw [stmtsCalls_append, ← List.append_assoc]
  exact List.prefix_append _ _

/-- C24. What is inside a subgraph never influences what follows (or precedes) it: exchanging its body changes only a contiguous part
of the calls, the one that starts with the creation of the subgraph. -/
theorem C24_never_outside (I : Iface σ) (g : σ) (t : Ast.Graph) (pre post : List Stmt) (id : Str) :
    ∃ before after m, ∀ body, ∃ inside, callsMade I { t with stmts := pre ++ .sub id body :: post } g =
      before ++ [Call.addSubGraph t.id id m] ++ inside ++ after := by
  have hdef : ∀ body body', ∀ rest, stmtsCalls ⟨t.id, [], []⟩ (pre ++ [.sub id body]) rest =
      stmtsCalls ⟨t.id, [], []⟩ (pre ++ [.sub id body']) rest := by
    intro body body' rest
    suffices h : ∀ (rest tail : List Stmt), stmtsCalls ⟨t.id, [], []⟩ (pre ++ [.sub id body] ++ tail) rest =
        stmtsCalls ⟨t.id, [], []⟩ (pre ++ [.sub id body'] ++ tail) rest by simpa using h rest []
    intro rest
    induction rest with
    | nil => intro tail; simp [stmtsCalls]
    | cons s rest ih =>
      intro tail
      simp only [stmtsCalls]
      have hs : stmtCalls ⟨t.id, [], []⟩ (pre ++ [.sub id body] ++ tail) s = stmtCalls ⟨t.id, [], []⟩ (pre ++ [.sub id body'] ++ tail) s := by
        apply stmtCalls_congr
        · simp [nodeDefaultEntries_append, nodeDefaultEntries]
        · simp [edgeDefaultEntries_append, edgeDefaultEntries]
        · simp [graphDefaultEntries_append, graphDefaultEntries]
        · simp [mentioned, mentions]
      rw [hs]
      have := ih (tail ++ [s])
      rw [← List.append_assoc, ← List.append_assoc] at this
      rw [this]
  refine ⟨[.setStrict t.strict, .setDir t.type_, .setName t.id] ++ stmtsCalls ⟨t.id, [], []⟩ [] pre,
    stmtsCalls ⟨t.id, [], []⟩ (pre ++ [.sub id []]) post, graphDefaults pre, fun body => ?_⟩
  have key : ∀ body, stmtsCalls ⟨t.id, [], []⟩ [] (pre ++ .sub id body :: post) =
      stmtsCalls ⟨t.id, [], []⟩ [] pre ++ ([Call.addSubGraph t.id id (graphDefaults pre)] ++
        stmtsCalls ⟨id, Scope.nodeDefaults ⟨t.id, [], []⟩ pre, Scope.edgeDefaults ⟨t.id, [], []⟩ pre⟩ [] body) ++
        stmtsCalls ⟨t.id, [], []⟩ (pre ++ [.sub id []]) post := by
    intro body
    rw [stmtsCalls_append, List.nil_append]
    simp only [stmtsCalls, stmtCalls]
    rw [hdef body []]
    simp
  refine ⟨stmtsCalls ⟨id, Scope.nodeDefaults ⟨t.id, [], []⟩ pre, Scope.edgeDefaults ⟨t.id, [], []⟩ pre⟩ [] body, ?_⟩
  rw [callsMade_eq, treeCalls, key]; simp

/-- `digraph G { node [color=red]; a; subgraph S { node [shape=box]; a; b }; c -> d; edge [color=blue]; a -> d [label=x] }` -/
def scopeTree : Ast.Graph :=
  { type_ := true, strict := false, id := b!"G",
    stmts := [.nodeAttrs [[⟨b!"color", b!"red"⟩]], .node ⟨b!"a", ⟨[], []⟩⟩ [],
      .sub (b!"S") [.nodeAttrs [[⟨b!"shape", b!"box"⟩]], .node ⟨b!"a", ⟨[], []⟩⟩ [], .node ⟨b!"b", ⟨[], []⟩⟩ [[⟨b!"color", b!"green"⟩]]],
      .edge (.node ⟨b!"c", ⟨[], []⟩⟩) [.mk true (.node ⟨b!"d", ⟨[], []⟩⟩)] [],
      .edgeAttrs [[⟨b!"color", b!"blue"⟩]],
      .edge (.node ⟨b!"a", ⟨[], []⟩⟩) [.mk true (.node ⟨b!"d", ⟨[], []⟩⟩)] [[⟨b!"label", b!"x"⟩]]] }

/-- The node statement for `b` in the nested scope: the hypothesis of `C24_node_defaults` holds, two default statements count. -/
example : Occurs scopeTree ⟨b!"S", [(b!"color", b!"red")], []⟩
    [.nodeAttrs [[⟨b!"shape", b!"box"⟩]], .node ⟨b!"a", ⟨[], []⟩⟩ []] (.node ⟨b!"b", ⟨[], []⟩⟩ [[⟨b!"color", b!"green"⟩]]) :=
  Occurs.inSub (sc := ⟨b!"G", [], []⟩) (pre := [.nodeAttrs [[⟨b!"color", b!"red"⟩]], .node ⟨b!"a", ⟨[], []⟩⟩ []]) (.root rfl) rfl

example : callsMade graphIface scopeTree newGraph =
    [.setStrict false, .setDir true, .setName (b!"G"),
     .addNode (b!"G") (b!"a") [(b!"color", b!"red")],
     .addSubGraph (b!"G") (b!"S") [],
     .addNode (b!"S") (b!"a") [(b!"color", b!"red"), (b!"shape", b!"box")],
     .addNode (b!"S") (b!"b") [(b!"color", b!"green"), (b!"shape", b!"box")],
     .addNode (b!"G") (b!"c") [(b!"color", b!"red")],
     .addNode (b!"G") (b!"d") [(b!"color", b!"red")],
     .addPortEdge (b!"c") [] (b!"d") [] true [],
     .addPortEdge (b!"a") [] (b!"d") [] true [(b!"color", b!"blue"), (b!"label", b!"x")]] := by
  decide +kernel

/-! ### C25: chains -/

theorem createCall_nodup (sc : Scope) (pre : List Stmt) (seen : List Str) (l : Loc) {p n : Str} {m : Map Str}
    (h : Call.addNode p n m ∈ createCall sc pre seen l) : p = sc.name ∧ m = sc.nodeDefaults pre ∧ n ∉ mentioned pre ∧ n ∉ seen ∧
      l = .node ⟨n, l.getPort⟩ := by
  cases l with
  | sub id body => cases h
  | node n' =>
    simp only [createCall] at h
    split at h
    · cases h
    · rename_i hm
      cases List.mem_singleton.1 h
      rw [List.mem_append, not_or] at hm
      exact ⟨rfl, rfl, hm.1, hm.2, rfl⟩

theorem chainCalls_kind (sc : Scope) (pre : List Stmt) (attrs : Map Str) (rhs : List EdgeRH) :
    ∀ (seen : List Str) (prev : Loc), ∀ x ∈ chainCalls sc pre attrs seen prev rhs,
      x.isEdge = true ∨ ∃ n port, x = .addNode sc.name n (sc.nodeDefaults pre) ∧ n ∉ mentioned pre ∧ n ∉ seen ∧
        Loc.node ⟨n, port⟩ ∈ dests rhs := by
  induction rhs with
  | nil => intro _ _ x h; cases h
  | cons r rest ih =>
    cases r with
    | mk op d =>
      intro seen prev x h
      simp only [chainCalls, List.mem_append, List.mem_singleton] at h
      rcases h with (h | rfl) | h
      · right
        cases d with
        | sub id body => cases h
        | node n =>
          have h0 := h
          simp only [createCall] at h
          split at h
          · cases h
          · cases List.mem_singleton.1 h
            obtain ⟨_, _, h1, h2, _⟩ := createCall_nodup _ _ _ _ h0
            exact ⟨n.id, n.port, rfl, h1, h2, List.mem_cons_self ..⟩
      · exact .inl rfl
      · rcases ih _ _ x h with h | ⟨n, port, he, h1, h2, h3⟩
        · exact .inl h
        · rw [List.mem_append, not_or] at h2
          exact .inr ⟨n, port, he, h1, h2.1, List.mem_cons_of_mem _ h3⟩

/-- The names created by calls. -/
def created : List Call → List Str
  | [] => []
  | .addNode _ n _ :: xs => n :: created xs
  | _ :: xs => created xs

theorem mem_created {xs : List Call} {n : Str} : n ∈ created xs ↔ ∃ p m, Call.addNode p n m ∈ xs := by
  induction xs with
  | nil => simp [created]
  | cons x xs ih =>
    cases x with
    | addNode p' n' m' =>
      simp only [created, List.mem_cons, ih]
      constructor
      · rintro (rfl | ⟨p, m, h⟩)
        · exact ⟨p', m', .inl rfl⟩
        · exact ⟨p, m, .inr h⟩
      · rintro ⟨p, m, h | h⟩
        · cases h; exact .inl rfl
        · exact .inr ⟨p, m, h⟩
    | _ => simp [created, ih]

theorem created_append (xs ys : List Call) : created (xs ++ ys) = created xs ++ created ys := by
  induction xs with
  | nil => rfl
  | cons x xs ih => cases x <;> simp [created, ih]

theorem chain_created_nodup (sc : Scope) (pre : List Stmt) (attrs : Map Str) (rhs : List EdgeRH) :
    ∀ (seen : List Str) (prev : Loc), (created (chainCalls sc pre attrs seen prev rhs)).Nodup := by
  induction rhs with
  | nil => intro _ _; exact List.nodup_nil
  | cons r rest ih =>
    cases r with
    | mk op d =>
      intro seen prev
      simp only [chainCalls, created_append]
      have h2 : created [Call.addPortEdge prev.getID (Ast.portStr prev.getPort) d.getID (Ast.portStr d.getPort) op attrs] = [] := rfl
      rw [h2, List.append_nil]
      have h1 : created (createCall sc pre seen d) = [] ∨ ∃ n, d = .node n ∧ created (createCall sc pre seen d) = [n.id] := by
        cases d with
        | sub id body => exact .inl rfl
        | node n =>
          simp only [createCall]
          split
          · exact .inl rfl
          · exact .inr ⟨n, rfl, rfl⟩
      rcases h1 with h1 | ⟨n, rfl, h1⟩
      · rw [h1]; exact ih _ _
      · rw [h1]
        refine List.nodup_cons.2 ⟨fun hin => ?_, ih _ _⟩
        obtain ⟨p, m, hin⟩ := mem_created.1 hin
        rcases chainCalls_kind sc pre attrs rest _ _ _ hin with h | ⟨n', _, he, _, hs, _⟩
        · cases h
        · cases he
          exact hs (List.mem_append_right _ (List.mem_singleton.2 rfl))

/-- C25. An edge statement with endpoints `src`, `dests rhs` makes, before anything inside its endpoints is processed, exactly one
edge per operator between consecutive endpoints (`consecutive`), all with the same attributes, and besides that only creates nodes:
each node endpoint not yet mentioned in the scope exactly once, with the node defaults in force, and no others. -/
theorem C25_chain (I : Iface σ) (g : σ) {t : Ast.Graph} {sc : Scope} {pre : List Stmt} {src : Loc} {rhs : List EdgeRH} {as : AttrList}
    (h : Occurs t sc pre (.edge src rhs as)) :
    ∃ m own nested, own ++ nested <:+: callsMade I t g ∧
      own.filter Call.isEdge = consecutive src m rhs ∧ (consecutive src m rhs).length = rhs.length ∧
      (∀ x ∈ own, x.isEdge = true ∨ ∃ n, x = .addNode sc.name n (sc.nodeDefaults pre)) ∧
      (created own).Nodup ∧
      (∀ n, n ∈ created own ↔ n ∉ mentioned pre ∧ ∃ port, Loc.node ⟨n, port⟩ ∈ src :: dests rhs) := by
  refine ⟨over (mapOf as) (sc.edgeDefaults pre),
    createCall sc pre [] src ++ chainCalls sc pre (over (mapOf as) (sc.edgeDefaults pre)) (locNode src) src rhs,
    locCalls sc pre src ++ rhsCalls sc pre rhs, ?_, ?_, ?_, ?_, ?_, ?_⟩
  · rw [callsMade_eq, ← List.append_assoc]
    have := occurs_infix h
    simpa only [stmtCalls] using this
  · have hc : ∀ (seen : List Str) (l : Loc), (createCall sc pre seen l).filter Call.isEdge = [] := by
      intro seen l
      cases l with
      | sub id body => rfl
      | node n => simp only [createCall]; split <;> rfl
    rw [List.filter_append, hc, List.nil_append]
    generalize over (mapOf as) (sc.edgeDefaults pre) = attrs
    generalize locNode src = seen
    clear h
    induction rhs generalizing src seen with
    | nil => rfl
    | cons r rest ih =>
      cases r with
      | mk op d =>
        rw [chainCalls, List.filter_append, List.filter_append, hc, ih, consecutive]
        rfl
  · generalize over (mapOf as) (sc.edgeDefaults pre) = attrs
    clear h
    induction rhs generalizing src with
    | nil => rfl
    | cons r rest ih => cases r with | mk op d => simp [consecutive, ih]
  · intro x hx
    rcases List.mem_append.1 hx with hx | hx
    · right
      cases src with
      | sub id body => cases hx
      | node n =>
        simp only [createCall] at hx
        split at hx
        · cases hx
        · exact ⟨n.id, List.mem_singleton.1 hx⟩
    · rcases chainCalls_kind _ _ _ _ _ _ x hx with h | ⟨n, _, he, _⟩
      · exact .inl h
      · exact .inr ⟨n, he⟩
  · rw [created_append]
    rw [List.nodup_append]
    refine ⟨?_, chain_created_nodup _ _ _ _ _ _, ?_⟩
    · cases src with
      | sub id body => exact List.nodup_nil
      | node n => simp only [createCall]; split <;> simp [created]
    · intro a ha b hb hab
      subst hab
      obtain ⟨p, m, ha⟩ := mem_created.1 ha
      obtain ⟨p', m', hb⟩ := mem_created.1 hb
      obtain ⟨_, _, _, _, hsrc⟩ := createCall_nodup _ _ _ _ ha
      rcases chainCalls_kind _ _ _ _ _ _ _ hb with h | ⟨n', _, he, _, hs, _⟩
      · cases h
      · cases he
        rw [hsrc] at hs
        exact hs (List.mem_singleton.2 rfl)
  · intro n
    constructor
    · intro hn
      obtain ⟨p, m, hn⟩ := mem_created.1 hn
      rcases List.mem_append.1 hn with hn | hn
      · obtain ⟨_, _, h1, _, h2⟩ := createCall_nodup _ _ _ _ hn
        exact ⟨h1, src.getPort, by rw [h2]; exact List.mem_cons_self ..⟩
      · rcases chainCalls_kind _ _ _ _ _ _ _ hn with h | ⟨n', port, he, h1, _, h3⟩
        · cases h
        · cases he
          exact ⟨h1, port, List.mem_cons_of_mem _ h3⟩
    · rintro ⟨hm, port, hl⟩
      rw [mem_created]
      have hsrc : ∀ n : Ast.NodeID, src = .node n → n.id ∉ mentioned pre → ∃ p m, Call.addNode p n.id m ∈ createCall sc pre [] src := by
        rintro n rfl hm
        exact ⟨_, _, by simp only [createCall, List.append_nil, if_neg hm]; exact List.mem_singleton.2 rfl⟩
      rcases List.mem_cons.1 hl with rfl | hl
      · obtain ⟨p, m, h⟩ := hsrc _ rfl hm
        exact ⟨p, m, List.mem_append_left _ h⟩
      · rcases chain_creates sc pre (over (mapOf as) (sc.edgeDefaults pre)) rhs (locNode src) src _ hl with h | h | ⟨p, m, h⟩
        · exact absurd h hm
        · cases src with
          | sub id body => cases h
          | node n' =>
            have he : n = n'.id := List.mem_singleton.1 h
            subst he
            obtain ⟨p, m, h⟩ := hsrc n' rfl hm
            exact ⟨p, m, List.mem_append_left _ h⟩
        · exact ⟨p, m, List.mem_append_right _ h⟩

/-- `a:p -> {x} -- a -> b`: an endpoint twice, a subgraph endpoint. -/
def chainTree : Ast.Graph :=
  { type_ := true, strict := false, id := b!"G",
    stmts := [.edge (.node ⟨b!"a", ⟨b!"p", []⟩⟩) [.mk true (.sub (b!"S") [.node ⟨b!"x", ⟨[], []⟩⟩ []]), .mk false (.node ⟨b!"a", ⟨[], []⟩⟩),
      .mk true (.node ⟨b!"b", ⟨[], []⟩⟩)] [[⟨b!"label", b!"l"⟩]]] }

example : Occurs chainTree ⟨b!"G", [], []⟩ [] (.edge (.node ⟨b!"a", ⟨b!"p", []⟩⟩) [.mk true (.sub (b!"S") [.node ⟨b!"x", ⟨[], []⟩⟩ []]),
      .mk false (.node ⟨b!"a", ⟨[], []⟩⟩), .mk true (.node ⟨b!"b", ⟨[], []⟩⟩)] [[⟨b!"label", b!"l"⟩]]) ∧
    callsMade graphIface chainTree newGraph =
      [.setStrict false, .setDir true, .setName (b!"G"), .addNode (b!"G") (b!"a") [],
       .addPortEdge (b!"a") (b!":p") (b!"S") [] true [(b!"label", b!"l")],
       .addPortEdge (b!"S") [] (b!"a") [] false [(b!"label", b!"l")],
       .addNode (b!"G") (b!"b") [],
       .addPortEdge (b!"a") [] (b!"b") [] true [(b!"label", b!"l")],
       .addSubGraph (b!"G") (b!"S") [], .addNode (b!"S") (b!"x") []] :=
  ⟨.root rfl, by decide +kernel⟩

/-! ### C26: graph attributes -/

/-- C26. `graph [..]` anywhere sets its attributes (last value of each key, each key once) on the enclosing (sub)graph and does nothing
else; `k=v` sets `k` on the enclosing (sub)graph and does nothing else. -/
theorem C26_graph_attributes (I : Iface σ) (g : σ) {t : Ast.Graph} {sc : Scope} {pre : List Stmt} :
    (∀ as, Occurs t sc pre (.graphAttrs as) → ∃ kvs : List (Str × Str), kvs.map (fun e => Call.addAttr sc.name e.1 e.2) <:+: callsMade I t g ∧
      kvs.Pairwise (fun a b => slt a.1 b.1 = true) ∧ ∀ k v, (k, v) ∈ kvs ↔ lastValue (entries as) k = some v) ∧
    (∀ a, Occurs t sc pre (.attr a) → [Call.addAttr sc.name a.field a.value] <:+: callsMade I t g) := by
  refine ⟨fun as h => ⟨mapOf as, ?_, mapOf_wf as, fun k v => ?_⟩, fun a h => ?_⟩
  · rw [callsMade_eq]
    have := occurs_infix h
    rwa [stmtCalls] at this
  · rw [mem_iff_mget (mapOf_wf as), mget_mapOf]
  · rw [callsMade_eq]
    have := occurs_infix h
    rwa [stmtCalls] at this

/-- C26. A subgraph opened in a scope, as a statement or as an endpoint, is created as a child of the enclosing (sub)graph with exactly
the attributes that preceding `graph [..]` statements of this same scope declare (later ones override); `k=v` statements and
attributes of outer scopes are not inherited. -/
theorem C26_subgraph_inherits (I : Iface σ) (g : σ) {t : Ast.Graph} {sc : Scope} {pre : List Stmt} {id : Str}
    (h : (∃ body, Occurs t sc pre (.sub id body)) ∨
      (∃ src rhs as body, Occurs t sc pre (.edge src rhs as) ∧ Loc.sub id body ∈ src :: dests rhs)) :
    ∃ m, Call.addSubGraph sc.name id m ∈ callsMade I t g ∧ ∀ k, mget m k = lastValue (graphDefaultEntries pre) k := by
  refine ⟨graphDefaults pre, ?_, fun k => ?_⟩
  · rw [callsMade_eq]
    rcases h with ⟨body, h⟩ | ⟨src, rhs, as, body, h, hl⟩
    · apply (occurs_infix h).subset
      simp only [stmtCalls]
      exact List.mem_cons_self ..
    · apply (occurs_infix h).subset
      simp only [stmtCalls, List.mem_append]
      rcases List.mem_cons.1 hl with rfl | hl
      · exact .inl (.inr (by simp only [locCalls]; exact List.mem_cons_self ..))
      · exact .inr ((rhsCalls_infix sc pre hl).subset (by simp only [locCalls]; exact List.mem_cons_self ..))
  · unfold graphDefaults
    rw [mget_msetAll, lastValue_eq]
    cases lastAssign (graphDefaultEntries pre) k <;> rfl

/-- `digraph G { graph [color=red]; rankdir=LR; subgraph S { subgraph T { a } } }` -/
def graphAttrTree : Ast.Graph :=
  { type_ := true, strict := false, id := b!"G",
    stmts := [.graphAttrs [[⟨b!"color", b!"red"⟩]], .attr ⟨b!"rankdir", b!"LR"⟩,
      .sub (b!"S") [.sub (b!"T") [.node ⟨b!"a", ⟨[], []⟩⟩ []]]] }

example : Occurs graphAttrTree ⟨b!"G", [], []⟩ [] (.graphAttrs [[⟨b!"color", b!"red"⟩]]) ∧
    Occurs graphAttrTree ⟨b!"S", [], []⟩ [] (.sub (b!"T") [.node ⟨b!"a", ⟨[], []⟩⟩ []]) ∧
    callsMade graphIface graphAttrTree newGraph = [.setStrict false, .setDir true, .setName (b!"G"),
      .addAttr (b!"G") (b!"color") (b!"red"), .addAttr (b!"G") (b!"rankdir") (b!"LR"),
      .addSubGraph (b!"G") (b!"S") [(b!"color", b!"red")], .addSubGraph (b!"S") (b!"T") [], .addNode (b!"T") (b!"a") []] := by
  refine ⟨.root rfl, ?_, by decide +kernel⟩
  exact Occurs.inSub (sc := ⟨b!"G", [], []⟩) (pre := [.graphAttrs [[⟨b!"color", b!"red"⟩]], .attr ⟨b!"rankdir", b!"LR"⟩]) (.root rfl) rfl

/-! ### C27: what has been read can be written -/

theorem abs_isNode {g : Graph} (h : Reachable g) (n : Str) : ((abs g).node n).isSome = g.isNode n := by
  have := abs_node_none h.inv n
  unfold Graph.isNode mhas
  cases h1 : mget g.nodes.lookup n <;> cases h2 : (abs g).node n <;> simp_all

theorem abs_isSub {g : Graph} (n : Str) : ((abs g).sub n).isSome = g.isSubGraph n := by
  simp only [abs, Graph.isSubGraph, mhas]
  cases mget g.subGraphs n <;> rfl

/-- In a graph built from a tree every end of an edge can be written, and every recorded child is a node or a subgraph. -/
theorem analysed_ends {t : Ast.Graph} {g : Graph} (h : newAnalysedGraph t = .ok g) :
    (∀ e ∈ g.edges.edges, ¬ BadEnd g e.src e.srcPort ∧ ¬ BadEnd g e.dst e.dstPort) ∧
    ∀ m c, mhas (g.relations.children m) c = true → g.isNode c = true ∨ g.isSubGraph c = true := by
  obtain ⟨hr, hn, hd, hst, heff⟩ := analysed_effect h
  have hisn : ∀ n, g.isNode n = true ↔ MakesNode (stmtsCalls ⟨t.id, [], []⟩ [] t.stmts) n := by
    intro n
    rw [← abs_isNode hr, heff.node]
    simp [AGraph.empty, MakesNode]
  have hiss : ∀ n, g.isSubGraph n = true ↔ MakesSub (stmtsCalls ⟨t.id, [], []⟩ [] t.stmts) n := by
    intro n
    rw [← abs_isSub, heff.sub]
    simp [AGraph.empty, MakesSub]
  have hends := stmtsCalls_ends t.stmts ⟨t.id, [], []⟩ [] (stmtsCalls ⟨t.id, [], []⟩ [] t.stmts) (fun x hx => hx)
    (fun n hn => nomatch hn)
  have hgood : ∀ n port, EndMade (stmtsCalls ⟨t.id, [], []⟩ [] t.stmts) n port → ¬ BadEnd g n port := by
    rintro n port (hm | ⟨hm, rfl⟩) ⟨h1, h2⟩
    · rw [← hisn, h1] at hm; cases hm
    · rcases h2 with h2 | h2
      · rw [← hiss, h2] at hm; cases hm
      · exact h2 rfl
  refine ⟨fun ed hed => ?_, fun m c hc => ?_⟩
  · have hin : absEdge ed ∈ (abs g).edges := List.mem_map.2 ⟨ed, hed, rfl⟩
    rw [heff.edges] at hin
    simp only [AGraph.empty, List.nil_append] at hin
    have hmem : ∀ (xs : List Call) (ae : AEdge), ae ∈ edgesMade xs → ∃ m, Call.addPortEdge ae.src ae.srcPort ae.dst ae.dstPort ae.dir m ∈ xs := by
      intro xs
      induction xs with
      | nil => intro ae h; cases h
      | cons x xs ih =>
        intro ae h
        cases x with
        | addPortEdge s sp d dp dir m =>
          simp only [edgesMade, List.mem_cons] at h
          rcases h with rfl | h
          · exact ⟨m, List.mem_cons_self ..⟩
          · obtain ⟨m, h⟩ := ih ae h; exact ⟨m, List.mem_cons_of_mem _ h⟩
        | _ => obtain ⟨m, h⟩ := ih ae h; exact ⟨m, List.mem_cons_of_mem _ h⟩
    obtain ⟨m, hm⟩ := hmem _ _ hin
    have := hends _ _ _ _ _ _ hm
    exact ⟨hgood _ _ this.1, hgood _ _ this.2⟩
  · have : (abs g).contains m c = true := hc
    rw [heff.contains] at this
    simp only [AGraph.empty] at this
    rcases this with h | ⟨mm, h⟩ | ⟨mm, h⟩
    · cases h
    · exact .inl ((hisn c).2 ⟨_, _, h⟩)
    · exact .inr ((hiss c).2 ⟨_, _, h⟩)

/-- C27. If `NewAnalysedGraph` succeeds on a tree and no subgraph that has to be written reaches a containment cycle, writing the graph
succeeds (at every sufficient recursion depth). In particular if containment is acyclic. -/
theorem C27_read_then_write {t : Ast.Graph} {g : Graph} (h : newAnalysedGraph t = .ok g)
    (hac : ∀ n, MustWrite g n → ¬ ReachesCycle g n) {sortE : List Edge → List Edge} (hs : SortContract sortE) :
    ∃ t', ∀ f, g.subGraphs.length < f → writeAst sortE f g = .ok t' := by
  obtain ⟨hr, -⟩ := analysed_effect h
  obtain ⟨hends, hch⟩ := analysed_ends h
  obtain ⟨r, hall, ⟨t', rfl⟩ | ⟨e, rfl⟩⟩ := C16_terminates hr hs hac
  · exact ⟨t', hall⟩
  · exfalso
    have he := hall (g.subGraphs.length + 1) (Nat.lt_succ_self _)
    rcases C19_error_cause hr hs he with ⟨ed, hed, hb⟩ | ⟨n, _, m, c, _, hc, h1, h2⟩
    · rcases hb with hb | hb
      · exact (hends ed hed).1 hb
      · exact (hends ed hed).2 hb
    · rcases hch m c hc with h | h
      · rw [h1] at h; cases h
      · rw [h2] at h; cases h

/-- C27. And the condition is exact when no name is used both for a node and a subgraph: otherwise the writer recurses for ever, it never
returns an error. -/
theorem C27_exactly {t : Ast.Graph} {g : Graph} (h : newAnalysedGraph t = .ok g) (hd : NamesDisjoint g)
    {sortE : List Edge → List Edge} (hs : SortContract sortE) :
    ((∀ n, MustWrite g n → ¬ ReachesCycle g n) ∧ ∃ t', ∀ f, g.subGraphs.length < f → writeAst sortE f g = .ok t') ∨
    ((∃ n, MustWrite g n ∧ ReachesCycle g n) ∧ ∀ f, writeAst sortE f g = .diverge) := by
  by_cases hac : ∃ n, MustWrite g n ∧ ReachesCycle g n
  · refine .inr ⟨hac, fun f => ?_⟩
    obtain ⟨n, hm, hc⟩ := hac
    obtain ⟨hends, hch⟩ := analysed_ends h
    refine C16_cycle_diverges (analysed_effect h).1 hs hd hm hc hends ?_ f
    rintro n' - ⟨m, c, -, hc', h1, h2⟩
    rcases hch m c hc' with h | h
    · rw [h1] at h; cases h
    · rw [h2] at h; cases h
  · have hac' : ∀ n, MustWrite g n → ¬ ReachesCycle g n := fun n hm hc => hac ⟨n, hm, hc⟩
    exact .inl ⟨hac', C27_read_then_write h hac' hs⟩

example : ∃ g, newAnalysedGraph scopeTree = .ok g ∧ Acyclic g ∧ ∃ t', writeAst edgeInsertionSort 2 g = .ok t' := by
  refine ⟨_, rfl, ?_, _, rfl⟩
  rintro n ⟨b, h0, h2⟩
  have h1 := h0.2.2
  have hb : b = b!"S" := by
    have h1 := (mhas_iff _ _).1 h1
    have : mkeys (analyse graphIface scopeTree newGraph).1.subGraphs = [b!"S"] := by decide +kernel
    exact List.mem_singleton.1 (this ▸ h1)
  subst hb
  have hno : ∀ c, ¬ SubChild (analyse graphIface scopeTree newGraph).1 (b!"S") c := by
    rintro c ⟨hc, hc1, hc2⟩
    have hc2 := (mhas_iff _ _).1 hc2
    have e1 : mkeys (analyse graphIface scopeTree newGraph).1.subGraphs = [b!"S"] := by decide +kernel
    rw [e1] at hc2
    rw [List.mem_singleton.1 hc2] at hc
    exact absurd hc (by decide +kernel)
  cases h2 with
  | refl => exact hno _ h0
  | head h _ => exact hno _ h

/-! ### C46: explicit attributes against defaults -/

/-- C46 is false of the code: `digraph G { a [color=red]; node [color=blue]; subgraph S { a } }` ends with a blue `a`: the mention of
`a` in the nested scope is a first mention there, so the default is applied over the explicit value. -/
theorem C46_default_overrides_explicit :
    ∃ (t : Ast.Graph) (g : Graph), Occurs t ⟨t.id, [], []⟩ [] (.node ⟨b!"a", ⟨[], []⟩⟩ [[⟨b!"color", b!"red"⟩]]) ∧
      (∀ sc pre as, Occurs t sc pre (.node ⟨b!"a", ⟨[], []⟩⟩ as) → as = [] ∨ as = [[⟨b!"color", b!"red"⟩]]) ∧
      newAnalysedGraph t = .ok g ∧ nodeValue g (b!"a") (b!"color") = some (b!"blue") := by
  refine ⟨{ type_ := true, strict := false, id := b!"G", stmts := [.node ⟨b!"a", ⟨[], []⟩⟩ [[⟨b!"color", b!"red"⟩]],
      .nodeAttrs [[⟨b!"color", b!"blue"⟩]], .sub (b!"S") [.node ⟨b!"a", ⟨[], []⟩⟩ []]] }, _, .root (pre := []) rfl, ?_, rfl, by decide +kernel⟩
  have key : ∀ sc pre s, Occurs { type_ := true, strict := false, id := b!"G", stmts := [.node ⟨b!"a", ⟨[], []⟩⟩ [[⟨b!"color", b!"red"⟩]],
      .nodeAttrs [[⟨b!"color", b!"blue"⟩]], .sub (b!"S") [.node ⟨b!"a", ⟨[], []⟩⟩ []]] } sc pre s →
      s = .node ⟨b!"a", ⟨[], []⟩⟩ [[⟨b!"color", b!"red"⟩]] ∨ s = .nodeAttrs [[⟨b!"color", b!"blue"⟩]] ∨
        s = .sub (b!"S") [.node ⟨b!"a", ⟨[], []⟩⟩ []] ∨ s = .node ⟨b!"a", ⟨[], []⟩⟩ [] := by
    intro sc pre s h
    induction h with
    | @root pre s post h =>
      have hm : s ∈ pre ++ s :: post := by simp
      rw [← h] at hm
      simp only [List.mem_cons, List.not_mem_nil, or_false] at hm
      rcases hm with h | h | h
      · exact .inl h
      · exact .inr (.inl h)
      · exact .inr (.inr (.inl h))
    | inSub _ hb ih =>
      rcases ih with h | h | h | h <;> cases h
      rename_i pre' s' post' _
      have hm : s' ∈ pre' ++ s' :: post' := by simp
      rw [← hb] at hm
      exact .inr (.inr (.inr (List.mem_singleton.1 hm)))
    | inEnd _ _ _ ih => rcases ih with h | h | h | h <;> cases h
  intro sc pre as h
  rcases key _ _ _ h with h | h | h | h
  · cases h; exact .inr rfl
  · cases h
  · cases h
  · cases h; exact .inl rfl

mutual
theorem stmtCalls_other : (s : Stmt) → ∀ (n : Str) (sc : Scope) (pre : List Stmt) (_ : ∀ s' ∈ allStmt s, n ∉ mentions s'),
    nodeGiven n (stmtCalls sc pre s) = []
  | .node id as => by
    intro n sc pre h
    have := h (.node id as) (by simp [allStmt])
    simp only [mentions, List.mem_singleton] at this
    simp [stmtCalls, nodeGiven, Ne.symm this]
  | .edge src rhs as => by
    intro n sc pre h
    have hown := h (.edge src rhs as) (by simp [allStmt])
    simp only [stmtCalls, nodeGiven_append]
    rw [locCalls_other src n sc pre (fun s' hs' => h s' (by simp [allStmt, hs'])),
      rhsCalls_other rhs n sc pre (fun s' hs' => h s' (by simp [allStmt, hs']))]
    simp only [List.append_nil]
    have hn : ∀ port, Loc.node ⟨n, port⟩ ∉ src :: dests rhs := by
      intro port hin
      apply hown
      simp only [mentions, List.mem_flatMap]
      exact ⟨_, hin, List.mem_singleton.2 rfl⟩
    have hnone : ∀ xs : List Call, (∀ p m, Call.addNode p n m ∉ xs) → nodeGiven n xs = [] := by
      intro xs
      induction xs with
      | nil => intro _; rfl
      | cons x xs ih =>
        intro hx
        have ih := ih (fun p m h => hx p m (List.mem_cons_of_mem _ h))
        cases x with
        | addNode p' n' m' =>
          have : n' ≠ n := by rintro rfl; exact hx _ _ (List.mem_cons_self ..)
          simp [nodeGiven, this, ih]
        | _ => simpa [nodeGiven] using ih
    rw [hnone _ (fun p m hin => ?_), hnone _ (fun p m hin => ?_)]
    · rfl
    · rcases chainCalls_kind _ _ _ _ _ _ _ hin with h | ⟨n', port, he, _, _, h3⟩
      · cases h
      · cases he; exact hn port (List.mem_cons_of_mem _ h3)
    · obtain ⟨_, _, _, _, h2⟩ := createCall_nodup _ _ _ _ hin
      exact hn src.getPort (by rw [h2]; exact List.mem_cons_self ..)
  | .nodeAttrs as => by intro n sc pre h; simp [stmtCalls, nodeGiven]
  | .edgeAttrs as => by intro n sc pre h; simp [stmtCalls, nodeGiven]
  | .graphAttrs as => by
    intro n sc pre h
    simp only [stmtCalls]
    induction mapOf as with
    | nil => rfl
    | cons e m ih => simpa [nodeGiven] using ih
  | .sub id body => by
    intro n sc pre h
    simp only [stmtCalls, nodeGiven]
    exact stmtsCalls_other body n _ _ (fun s' hs' => h s' (by simp [allStmt, hs']))
  | .attr a => by intro n sc pre h; simp [stmtCalls, nodeGiven]
theorem locCalls_other : (l : Loc) → ∀ (n : Str) (sc : Scope) (pre : List Stmt) (_ : ∀ s' ∈ allLoc l, n ∉ mentions s'),
    nodeGiven n (locCalls sc pre l) = []
  | .node _ => by intro n sc pre h; simp [locCalls, nodeGiven]
  | .sub id body => by
    intro n sc pre h
    simp only [locCalls, nodeGiven]
    exact stmtsCalls_other body n _ _ (fun s' hs' => h s' (by simp [allLoc, hs']))
theorem rhsCalls_other : (rhs : List EdgeRH) → ∀ (n : Str) (sc : Scope) (pre : List Stmt) (_ : ∀ s' ∈ allRHS rhs, n ∉ mentions s'),
    nodeGiven n (rhsCalls sc pre rhs) = []
  | [] => by intro n sc pre h; simp [rhsCalls, nodeGiven]
  | .mk op d :: rest => by
    intro n sc pre h
    simp only [rhsCalls, nodeGiven_append]
    rw [locCalls_other d n sc pre (fun s' hs' => h s' (by simp [allRHS, hs'])),
      rhsCalls_other rest n sc pre (fun s' hs' => h s' (by simp [allRHS, hs']))]
    rfl
theorem stmtsCalls_other : (ss : List Stmt) → ∀ (n : Str) (sc : Scope) (pre : List Stmt) (_ : ∀ s' ∈ allStmts ss, n ∉ mentions s'),
    nodeGiven n (stmtsCalls sc pre ss) = []
  | [] => by intro n sc pre h; simp [stmtsCalls, nodeGiven]
  | s :: ss => by
    intro n sc pre h
    simp only [stmtsCalls, nodeGiven_append]
    rw [stmtCalls_other s n sc pre (fun s' hs' => h s' (by simp [allStmts, hs'])),
      stmtsCalls_other ss n sc _ (fun s' hs' => h s' (by simp [allStmts, hs']))]
    rfl
end

theorem nodeGiven_none (n : Str) (xs : List Call) (hx : ∀ p m, Call.addNode p n m ∉ xs) : nodeGiven n xs = [] := by
  induction xs with
  | nil => rfl
  | cons x xs ih =>
    have ih := ih (fun p m h => hx p m (List.mem_cons_of_mem _ h))
    cases x with
    | addNode p' n' m' =>
      have : n' ≠ n := by rintro rfl; exact hx _ _ (List.mem_cons_self ..)
      simp [nodeGiven, this, ih]
    | _ => simpa [nodeGiven] using ih

/-- A statement other than a node statement gives nothing to a node that is mentioned before in the scope and not inside the statement. -/
theorem stmtCalls_silent {n : Str} {sc : Scope} {pre : List Stmt} {s : Stmt} (hm : n ∈ mentioned pre)
    (hnest : ∀ s' ∈ (allStmt s).tail, n ∉ mentions s') (hs : ∀ id as, s ≠ .node id as) : nodeGiven n (stmtCalls sc pre s) = [] := by
  cases s with
  | node id as => exact absurd rfl (hs id as)
  | edge src rhs as =>
    simp only [allStmt, List.tail_cons, List.mem_append] at hnest
    simp only [stmtCalls, nodeGiven_append]
    rw [locCalls_other src n sc pre (fun s' hs' => hnest s' (.inl hs')), rhsCalls_other rhs n sc pre (fun s' hs' => hnest s' (.inr hs')),
      nodeGiven_none, nodeGiven_none]
    · rfl
    · intro p m hin
      rcases chainCalls_kind _ _ _ _ _ _ _ hin with h | ⟨n', port, he, h1, _, _⟩
      · cases h
      · cases he; exact h1 hm
    · intro p m hin
      exact (createCall_nodup _ _ _ _ hin).2.2.1 hm
  | sub id body =>
    simp only [allStmt, List.tail_cons] at hnest
    simp only [stmtCalls, nodeGiven]
    exact stmtsCalls_other body n _ _ hnest
  | graphAttrs as =>
    apply stmtCalls_other
    simp [allStmt, mentions]
  | _ => simp [stmtCalls, nodeGiven]

/-- After its first mention in a scope a node is only given explicit attributes there. -/
theorem later_explicit (n k : Str) (sc : Scope) (ss : List Stmt) : ∀ (pre : List Stmt), n ∈ mentioned pre →
    (∀ s ∈ ss, ∀ s' ∈ (allStmt s).tail, n ∉ mentions s') →
    lastAssign (nodeGiven n (stmtsCalls sc pre ss)) k = lastAssign (explicitEntries n ss) k := by
  induction ss with
  | nil => intro pre _ _; simp [stmtsCalls, nodeGiven, explicitEntries]
  | cons s ss ih =>
    intro pre hm hnest
    simp only [stmtsCalls, nodeGiven_append, lastAssign_append]
    rw [ih (pre ++ [s]) (by simp only [mentioned, List.flatMap_append, List.mem_append]; exact .inl hm)
      (fun s' hs' => hnest s' (List.mem_cons_of_mem _ hs'))]
    by_cases hs : ∃ id as, s = .node id as
    · obtain ⟨id, as, rfl⟩ := hs
      simp only [explicitEntries, lastAssign_append, stmtCalls, nodeGiven, List.append_nil]
      by_cases hid : Ast.nodeIDStr id = n
      · subst hid
        simp only [if_true, if_pos hm]
        have : over (mapOf as) [] = mapOf as := msetAll_empty (mapOf_wf as)
        rw [this, mget_eq_lastAssign (mapOf_wf as), mget_mapOf, lastValue_eq]
      · simp [hid]
    · have hs' : ∀ id as, s ≠ .node id as := fun id as h => hs ⟨id, as, h⟩
      rw [stmtCalls_silent hm (hnest s (List.mem_cons_self ..)) hs']
      have : explicitEntries n (s :: ss) = explicitEntries n ss := by
        cases s with
        | node id as => exact absurd rfl (hs' id as)
        | _ => rfl
      rw [this]
      simp [lastAssign]

/-- Within one scope: the value given last explicitly is not overwritten. -/
theorem explicit_wins (n k v : Str) (sc : Scope) (hwf : MapWF sc.inhNode) (ss : List Stmt) : ∀ (pre : List Stmt),
    (∀ s ∈ ss, ∀ s' ∈ (allStmt s).tail, n ∉ mentions s') → lastAssign (explicitEntries n ss) k = some v →
    lastAssign (nodeGiven n (stmtsCalls sc pre ss)) k = some v := by
  induction ss with
  | nil => intro pre _ h; cases h
  | cons s ss ih =>
    intro pre hnest h
    have hnest' := fun s' hs' => hnest s' (List.mem_cons_of_mem _ hs')
    simp only [stmtsCalls, nodeGiven_append, lastAssign_append]
    by_cases hs : ∃ id as, s = .node id as
    · obtain ⟨id, as, rfl⟩ := hs
      by_cases hid : Ast.nodeIDStr id = n
      · subst hid
        rw [later_explicit (Ast.nodeIDStr id) k sc ss (pre ++ [Stmt.node id as]) (by simp [mentioned, mentions]) hnest']
        simp only [explicitEntries, lastAssign_append, if_true] at h
        cases hrest : lastAssign (explicitEntries (Ast.nodeIDStr id) ss) k with
        | some v' => rw [hrest] at h; exact h
        | none =>
          rw [hrest] at h
          simp only [Option.none_or] at h ⊢
          have hw : MapWF (if Ast.nodeIDStr id ∈ mentioned pre then [] else sc.nodeDefaults pre) := by
            split
            · exact MapWF.nil
            · exact hwf.msetAll _
          simp only [stmtCalls, nodeGiven, if_true, List.append_nil]
          rw [mget_eq_lastAssign (over_wf hw), mget_over (mapOf_wf as), mget_mapOf, lastValue_eq, h]
          rfl
      · simp only [explicitEntries, if_neg hid, List.nil_append] at h
        rw [ih _ hnest' h]
        rfl
    · have : explicitEntries n (s :: ss) = explicitEntries n ss := by
        cases s with
        | node id as => exact absurd ⟨id, as, rfl⟩ hs
        | _ => rfl
      rw [this] at h
      rw [ih _ hnest' h]
      rfl

/-- C46, the part that holds: if the node is mentioned only in one scope (here: the outermost one; it is not mentioned inside any
subgraph), the value of a key is the one given last explicitly by its node statements, whatever defaults are declared where. Missing:
mentions in several scopes, for which the claim is false (`C46_default_overrides_explicit`). -/
theorem C46_explicit_wins_partial {t : Ast.Graph} {g : Graph} (h : newAnalysedGraph t = .ok g) {n : Str}
    (hnest : ∀ s ∈ t.stmts, ∀ s' ∈ (allStmt s).tail, n ∉ mentions s') {k v : Str}
    (hk : lastValue (explicitEntries n t.stmts) k = some v) : nodeValue g n k = some v := by
  obtain ⟨_, _, _, _, heff⟩ := analysed_effect h
  rw [nodeValue_abs]
  have := heff.nodeVal n k
  rw [lastValue_eq] at hk
  rw [explicit_wins n k v _ MapWF.nil t.stmts [] hnest hk] at this
  exact this

example : ∃ g, newAnalysedGraph scopeTree = .ok g ∧
    (∀ s ∈ scopeTree.stmts, ∀ s' ∈ (allStmt s).tail, (b!"c") ∉ mentions s') := by
  refine ⟨_, rfl, ?_⟩
  intro s hs s' hs'
  simp only [scopeTree, List.mem_cons, List.not_mem_nil, or_false] at hs
  rcases hs with rfl | rfl | rfl | rfl | rfl | rfl
  · simp [allStmt] at hs'
  · simp [allStmt] at hs'
  · simp only [allStmt, allStmts, List.tail_cons, List.cons_append, List.nil_append, List.mem_cons, List.not_mem_nil, or_false] at hs'
    rcases hs' with rfl | rfl | rfl <;> simp [mentions, Ast.nodeIDStr, Ast.portStr]
  · simp [allStmt, allLoc, allRHS] at hs'
  · simp [allStmt] at hs'
  · simp [allStmt, allLoc, allRHS] at hs'

/-! ### C22: cluster endpoints -/

/-- C22, the part that holds: an endpoint of an edge that is a cluster subgraph (and not also a node) is written by its name. Missing:
that it is read back as a cluster only, which is false (`C22_cluster_becomes_node`). -/
theorem C22_cluster_written_by_name_partial {g : Graph} (h : Reachable g) {sortE : List Edge → List Edge} (hs : SortContract sortE) {f : Nat}
    {t : Ast.Graph} (ht : writeAst sortE f g = .ok t) :
    Forall2 (fun e s => ∃ src dst, s = Stmt.edge src [.mk e.dir dst] (attrsAsList e.attrs) ∧
      (g.isClusterSubGraph e.src = true → src = .node (Ast.makeNodeID e.src e.srcPort)) ∧
      (g.isClusterSubGraph e.dst = true → dst = .node (Ast.makeNodeID e.dst e.dstPort)))
      (sortE g.edges.edges) (t.stmts.filter isEdgeStmt) := by
  refine (C18_edges_faithful h hs ht).1.imp ?_
  rintro e s ⟨src, dst, rfl, h1, h2⟩
  refine ⟨src, dst, rfl, fun hc => ?_, fun hc => ?_⟩
  · rcases h1 with ⟨rfl, _⟩ | ⟨_, _, _, _, hn, _⟩
    · rfl
    · rw [hc] at hn; cases hn
  · rcases h2 with ⟨rfl, _⟩ | ⟨_, _, _, _, hn, _⟩
    · rfl
    · rw [hc] at hn; cases hn

/-- A graph with an edge from `a` to the cluster subgraph `cluster_x`, which contains `c`. -/
def clusterOps : List Op := [.setName (b!"G"), .setDir true, .addNode (b!"G") (b!"a") [], .addSubGraph (b!"G") (b!"cluster_x") [],
  .addNode (b!"cluster_x") (b!"c") [], .addEdge (b!"a") (b!"cluster_x") true []]

/-- What is written for it: `digraph G { a->cluster_x; subgraph cluster_x { c; }; a; }`. -/
def clusterTree : Ast.Graph :=
  { type_ := true, strict := false, id := b!"G",
    stmts := [.edge (.node ⟨b!"a", ⟨[], []⟩⟩) [.mk true (.node ⟨b!"cluster_x", ⟨[], []⟩⟩)] [[]],
      .sub (b!"cluster_x") [.node ⟨b!"c", ⟨[], []⟩⟩ [[]]], .node ⟨b!"a", ⟨[], []⟩⟩ [[]]] }

/-- C22 is false of the code: after writing and analysing again, the cluster is also a node. -/
theorem C22_cluster_becomes_node :
    ∃ g t g', Reachable g ∧ g.isClusterSubGraph (b!"cluster_x") = true ∧ g.isNode (b!"cluster_x") = false ∧
      writeAst edgeInsertionSort 2 g = .ok t ∧ newAnalysedGraph t = .ok g' ∧ g'.isNode (b!"cluster_x") = true :=
  ⟨newGraph.run clusterOps, clusterTree, (analyse graphIface clusterTree newGraph).1, Reachable.init.run (by decide +kernel),
    by decide +kernel, by decide +kernel, rfl, rfl, by decide +kernel⟩

example : Reachable (newGraph.run clusterOps) ∧ writeAst edgeInsertionSort 2 (newGraph.run clusterOps) = .ok clusterTree :=
  ⟨Reachable.init.run (by decide +kernel), rfl⟩

end Gographviz.Props
