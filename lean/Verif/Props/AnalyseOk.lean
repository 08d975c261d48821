import Verif.Props.AnalyseProps
import Verif.Proofs.Origin
import Verif.Model.Parser
/-!
C49: when reading succeeds.
-/
namespace Gographviz.Props

open Gographviz Spec
open Gographviz.Ast (Stmt Loc EdgeRH AttrList)

theorem mem_mkeys_msetAll {m : Map Str} {es : List (Str × Str)} {k : Str} : k ∈ mkeys (msetAll m es) ↔ k ∈ mkeys m ∨ k ∈ es.map Prod.fst := by
  rw [← mget_isSome_iff, ← mget_isSome_iff, mget_msetAll, ← lastAssign_isSome]
  cases lastAssign es k <;> simp

theorem mem_mapOf_keys {as : AttrList} {k : Str} : k ∈ mkeys (mapOf as) ↔ k ∈ (entries as).map Prod.fst := by
  unfold mapOf
  rw [mem_mkeys_msetAll]
  simp [mkeys]

/-- The names used in a tree. -/
def Used (t : Ast.Graph) (k : Str) : Prop := ∃ s ∈ allStmts t.stmts, k ∈ stmtFields s

theorem defaults_used {ss : List Stmt} {k : Str} :
    (k ∈ (nodeDefaultEntries ss).map Prod.fst → ∃ s ∈ ss, k ∈ stmtFields s) ∧
    (k ∈ (edgeDefaultEntries ss).map Prod.fst → ∃ s ∈ ss, k ∈ stmtFields s) ∧
    (k ∈ (graphDefaultEntries ss).map Prod.fst → ∃ s ∈ ss, k ∈ stmtFields s) := by
  induction ss with
  | nil => simp [nodeDefaultEntries, edgeDefaultEntries, graphDefaultEntries]
  | cons s ss ih =>
    obtain ⟨h1, h2, h3⟩ := ih
    have lift : (∃ s ∈ ss, k ∈ stmtFields s) → ∃ s' ∈ s :: ss, k ∈ stmtFields s' := fun ⟨x, hx, hk⟩ => ⟨x, List.mem_cons_of_mem _ hx, hk⟩
    have self : k ∈ stmtFields s → ∃ s' ∈ s :: ss, k ∈ stmtFields s' := fun hk => ⟨s, List.mem_cons_self .., hk⟩
    refine ⟨?_, ?_, ?_⟩
    · cases s with
      | nodeAttrs as =>
        simp only [nodeDefaultEntries, List.map_append, List.mem_append]
        rintro (h | h)
        · exact self h
        · exact lift (h1 h)
      | _ => intro h; exact lift (h1 h)
    · cases s with
      | edgeAttrs as =>
        simp only [edgeDefaultEntries, List.map_append, List.mem_append]
        rintro (h | h)
        · exact self h
        · exact lift (h2 h)
      | _ => intro h; exact lift (h2 h)
    · cases s with
      | graphAttrs as =>
        simp only [graphDefaultEntries, List.map_append, List.mem_append]
        rintro (h | h)
        · exact self h
        · exact lift (h3 h)
      | _ => intro h; exact lift (h3 h)

theorem pre_all {t : Ast.Graph} {sc : Scope} {pre : List Stmt} {s : Stmt} (h : Occurs t sc pre s) : ∀ x ∈ pre, x ∈ allStmts t.stmts := by
  intro x hx
  rcases (occurs_where h).2 with ⟨_, post, e⟩ | ⟨body, hb, post, e⟩
  · exact mem_allStmts_of_mem (by rw [e]; simp [hx])
  · exact mem_allStmts_trans t.stmts hb (mem_allStmts_of_mem (by rw [e]; simp [hx]))

theorem pre_used {t : Ast.Graph} {sc : Scope} {pre : List Stmt} {s : Stmt} (h : Occurs t sc pre s) {k : Str} :
    (∃ s ∈ pre, k ∈ stmtFields s) → Used t k := fun ⟨x, hx, hk⟩ => ⟨x, pre_all h x hx, hk⟩

/-- The defaults in force anywhere use only names of the tree. -/
theorem scope_used {t : Ast.Graph} {sc : Scope} {pre : List Stmt} {s : Stmt} (h : Occurs t sc pre s) {k : Str} :
    (k ∈ mkeys sc.inhNode → Used t k) ∧ (k ∈ mkeys sc.inhEdge → Used t k) := by
  induction h with
  | root h => exact ⟨(fun h => nomatch h), (fun h => nomatch h)⟩
  | inSub h hb ih =>
    constructor
    · intro hk
      rcases mem_mkeys_msetAll.1 hk with hk | hk
      · exact ih.1 hk
      · exact pre_used h (defaults_used.1 hk)
    · intro hk
      rcases mem_mkeys_msetAll.1 hk with hk | hk
      · exact ih.2 hk
      · exact pre_used h (defaults_used.2.1 hk)
  | inEnd h hl hb ih =>
    constructor
    · intro hk
      rcases mem_mkeys_msetAll.1 hk with hk | hk
      · exact ih.1 hk
      · exact pre_used h (defaults_used.1 hk)
    · intro hk
      rcases mem_mkeys_msetAll.1 hk with hk | hk
      · exact ih.2 hk
      · exact pre_used h (defaults_used.2.1 hk)

theorem over_keys {a d : Map Str} {k : Str} : k ∈ mkeys (over a d) ↔ k ∈ mkeys d ∨ k ∈ mkeys a := by
  unfold over
  rw [mem_mkeys_msetAll]
  rfl

/-- Every attribute name in a call made for a tree occurs in the tree. -/
theorem call_used {t : Ast.Graph} {x : Call} (hx : x ∈ treeCalls t) {k : Str} (hk : k ∈ x.fields) : Used t k := by
  simp only [treeCalls, List.mem_append, List.mem_cons, List.not_mem_nil, or_false] at hx
  rcases hx with (rfl | rfl | rfl) | hx
  · cases hk
  · cases hk
  · cases hk
  obtain ⟨sc, pre, s, hocc, hown⟩ := treeCalls_origin hx
  have hin := (occurs_where hocc).1
  have hnd : k ∈ mkeys (sc.nodeDefaults pre) → Used t k := by
    intro hk
    rcases mem_mkeys_msetAll.1 hk with hk | hk
    · exact (scope_used hocc).1 hk
    · exact pre_used hocc (defaults_used.1 hk)
  have hed : k ∈ mkeys (sc.edgeDefaults pre) → Used t k := by
    intro hk
    rcases mem_mkeys_msetAll.1 hk with hk | hk
    · exact (scope_used hocc).2 hk
    · exact pre_used hocc (defaults_used.2.1 hk)
  have hgd : k ∈ mkeys (graphDefaults pre) → Used t k := by
    intro hk
    rcases mem_mkeys_msetAll.1 hk with hk | hk
    · cases hk
    · exact pre_used hocc (defaults_used.2.2 hk)
  have hcr : ∀ seen l, x ∈ createCall sc pre seen l → Used t k := by
    intro seen l hx
    cases l with
    | sub => cases hx
    | node n =>
      simp only [createCall] at hx
      split at hx
      · cases hx
      · rcases List.mem_singleton.1 hx with rfl
        exact hnd hk
  cases s with
  | node id as =>
    simp only [OwnCall, stmtCalls, List.mem_singleton] at hown
    subst hown
    rcases over_keys.1 hk with hk | hk
    · split at hk
      · cases hk
      · exact hnd hk
    · exact ⟨_, hin, mem_mapOf_keys.1 hk⟩
  | edge src rhs as =>
    have hchain : ∀ (rhs : List EdgeRH) seen prev, x ∈ chainCalls sc pre (over (mapOf as) (sc.edgeDefaults pre)) seen prev rhs → Used t k := by
      intro rhs
      induction rhs with
      | nil => intro seen prev hx; cases hx
      | cons r rest ih =>
        cases r with
        | mk op d =>
          intro seen prev hx
          simp only [chainCalls, List.mem_append, List.mem_singleton] at hx
          rcases hx with (hx | hx) | hx
          · exact hcr _ _ hx
          · subst hx
            rcases over_keys.1 hk with hk | hk
            · exact hed hk
            · exact ⟨_, hin, mem_mapOf_keys.1 hk⟩
          · exact ih _ _ hx
    rcases hown with hx | hx | ⟨id, body, hl, hx⟩
    · exact hcr _ _ hx
    · exact hchain _ _ _ hx
    · subst hx; exact hgd hk
  | nodeAttrs as => simp [OwnCall, stmtCalls] at hown
  | edgeAttrs as => simp [OwnCall, stmtCalls] at hown
  | graphAttrs as =>
    simp only [OwnCall, stmtCalls] at hown
    obtain ⟨e, he, rfl⟩ := List.mem_map.1 hown
    rcases List.mem_singleton.1 hk with rfl
    exact ⟨_, hin, mem_mapOf_keys.1 (List.mem_map.2 ⟨e, he, rfl⟩)⟩
  | sub id body =>
    simp only [OwnCall] at hown
    subst hown
    exact hgd hk
  | attr a =>
    simp only [OwnCall, stmtCalls, List.mem_singleton] at hown
    subst hown
    rcases List.mem_singleton.1 hk with rfl
    exact ⟨_, hin, List.mem_singleton.2 rfl⟩

/-- C49. If every attribute name in the tree is registered, analysing it succeeds: nothing else is an error. -/
theorem C49_registered_suffices (t : Ast.Graph) (h : ∀ s ∈ allStmts t.stmts, ∀ k ∈ stmtFields s, Registered k) :
    ∃ g, newAnalysedGraph t = .ok g := by
  rw [newAnalysedGraph_ok_iff]
  intro x hx k hk
  obtain ⟨s, hs, hk⟩ := call_used hx hk
  exact h s hs k hk

/-- C49. An unregistered attribute name makes it fail wherever it stands, except in `node [..]` and `edge [..]` (which matter only if
something follows that they apply to). -/
theorem C49_unregistered_fails (t : Ast.Graph) {s : Stmt} (hs : s ∈ allStmts t.stmts) (hd : isDefaults s = false)
    (he : ∀ src as, s ≠ .edge src [] as) {k : Str} (hk : k ∈ stmtFields s) (hr : ¬ Registered k) :
    ∃ m, newAnalysedGraph t = .error m := by
  have key : ∃ x ∈ treeCalls t, k ∈ x.fields := by
    rcases tree_stands' hs with ⟨sc, pre, hocc⟩ | ⟨n, b, rfl, _⟩
    · have hsub := (occurs_infix hocc).subset
      cases s with
      | node id as =>
        refine ⟨_, hsub (by simp only [stmtCalls, List.mem_singleton]; rfl), ?_⟩
        exact over_keys.2 (.inr (mem_mapOf_keys.2 hk))
      | edge src rhs as =>
        cases rhs with
        | nil => exact absurd rfl (he src as)
        | cons r rest =>
          cases r with
          | mk op d =>
            refine ⟨_, hsub (a := .addPortEdge src.getID (Ast.portStr src.getPort) d.getID (Ast.portStr d.getPort) op
              (over (mapOf as) (sc.edgeDefaults pre))) ?_, ?_⟩
            · simp only [stmtCalls, chainCalls, List.mem_append, List.mem_singleton]
              simp
            · exact over_keys.2 (.inr (mem_mapOf_keys.2 hk))
      | nodeAttrs as => cases hd
      | edgeAttrs as => cases hd
      | graphAttrs as =>
        obtain ⟨e, he', rfl⟩ := List.mem_map.1 (mem_mapOf_keys.2 hk)
        exact ⟨.addAttr sc.name e.1 e.2, hsub (by simp only [stmtCalls]; exact List.mem_map.2 ⟨e, he', rfl⟩), List.mem_singleton.2 rfl⟩
      | sub id body => cases hk
      | attr a =>
        rcases List.mem_singleton.1 hk with rfl
        exact ⟨.addAttr sc.name a.field a.value, hsub (by simp [stmtCalls]), List.mem_singleton.2 rfl⟩
    · cases hk
  cases hn : newAnalysedGraph t with
  | error m => exact ⟨m, rfl⟩
  | ok g =>
    obtain ⟨x, hx, hk⟩ := key
    exact absurd ((newAnalysedGraph_ok_iff t).1 ⟨g, hn⟩ x hx k hk) hr

/-- C49, exactly: analysing succeeds if and only if every attribute name in the calls that the tree stands for is registered. -/
theorem C49_exactly (t : Ast.Graph) : (∃ g, newAnalysedGraph t = .ok g) ↔ ∀ x ∈ treeCalls t, ∀ k ∈ x.fields, Registered k :=
  newAnalysedGraph_ok_iff t

/-- C49, for `Read`: a text that is parsed is read exactly when every attribute name in the calls of its tree is registered, the graph is that of the tree, and
otherwise an error of the analysis is returned; a text that is not parsed is not read. -/
theorem C49_read (rnd : Nat → Nat) (cnt : Nat) (src : Str) :
    (∀ t n, Parse.parseBytes rnd cnt src = .ok t n →
      ((∃ g, Parse.read rnd cnt src = .ok g) ↔ ∀ x ∈ treeCalls t, ∀ k ∈ x.fields, Registered k) ∧
      ((∃ m, Parse.read rnd cnt src = .analyseErr m) ↔ ∃ x ∈ treeCalls t, ∃ k ∈ x.fields, ¬ Registered k) ∧
      ∀ g, Parse.read rnd cnt src = .ok g ↔ newAnalysedGraph t = .ok g) ∧
    ((∀ t n, Parse.parseBytes rnd cnt src ≠ .ok t n) → ∀ g, Parse.read rnd cnt src ≠ .ok g) ∧
    (Parse.read rnd cnt src = .parseErr ↔ (∃ tok ex, Parse.parseBytes rnd cnt src = .syntaxErr tok ex) ∨ ∃ tok, Parse.parseBytes rnd cnt src = .reduceErr tok) := by
  unfold Parse.read
  cases hp : Parse.parseBytes rnd cnt src with
  | ok t n =>
    refine ⟨fun t' n' e => ?_, fun h => absurd rfl (h t n), ?_⟩
    · cases e
      have h1 := C49_exactly t
      cases hg : newAnalysedGraph t with
      | ok g =>
        have h2 := h1.1 ⟨g, hg⟩
        simp only [hg]
        refine ⟨⟨fun _ => h2, fun _ => ⟨g, rfl⟩⟩, ⟨fun ⟨m, e⟩ => (by cases e), fun ⟨x, hx, k, hk, hn⟩ => absurd (h2 x hx k hk) hn⟩, fun g' => ?_⟩
        constructor <;> intro e <;> cases e <;> rfl
      | error m =>
        have h2 : ¬ ∀ x ∈ treeCalls t, ∀ k ∈ x.fields, Registered k := fun h => by
          obtain ⟨g, e⟩ := h1.2 h
          rw [hg] at e; cases e
        simp only [hg]
        refine ⟨⟨fun ⟨g, e⟩ => (by cases e), fun h => absurd h h2⟩, ⟨fun _ => ?_, fun _ => ⟨m, rfl⟩⟩, fun g' => ?_⟩
        · apply Classical.byContradiction
          intro hne
          exact h2 fun x hx k hk => Classical.byContradiction fun hr => hne ⟨x, hx, k, hk, hr⟩
        · constructor <;> intro e <;> cases e
    · constructor
      · intro e
        cases hg : newAnalysedGraph t <;> simp [hg] at e
      · rintro (⟨_, _, e⟩ | ⟨_, e⟩) <;> cases e
  | syntaxErr tok ex => exact ⟨fun _ _ e => (by cases e), fun _ g e => (by cases e), fun _ => .inl ⟨_, _, rfl⟩, fun _ => rfl⟩
  | reduceErr tok => exact ⟨fun _ _ e => (by cases e), fun _ g e => (by cases e), fun _ => .inr ⟨_, rfl⟩, fun _ => rfl⟩
  | panic => exact ⟨fun _ _ e => (by cases e), fun _ g e => (by cases e), fun e => (by cases e), fun h => by rcases h with ⟨_, _, e⟩ | ⟨_, e⟩ <;> cases e⟩
  | diverge => exact ⟨fun _ _ e => (by cases e), fun _ g e => (by cases e), fun e => (by cases e), fun h => by rcases h with ⟨_, _, e⟩ | ⟨_, e⟩ <;> cases e⟩

/-- A `node [..]` with an unregistered name is not noticed if no node follows. -/
theorem C49_unused_default_unnoticed :
    (∃ g, newAnalysedGraph ⟨true, false, b!"G", [.node ⟨b!"a", ⟨[], []⟩⟩ [], .nodeAttrs [[⟨b!"nonsense", b!"1"⟩]]]⟩ = .ok g) ∧
    ∃ m, newAnalysedGraph ⟨true, false, b!"G", [.nodeAttrs [[⟨b!"nonsense", b!"1"⟩]], .node ⟨b!"a", ⟨[], []⟩⟩ []]⟩ = .error m :=
  ⟨⟨_, rfl⟩, ⟨_, rfl⟩⟩

end Gographviz.Props
