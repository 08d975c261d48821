import Verif.Proofs.WriteSem
/-!
When the writer succeeds, fails, or recurses without bound.
-/
namespace Gographviz

open Spec
open Ast (Stmt Loc EdgeRH)

theorem mapW_cases {α β : Type} {f : α → WRes β} {l : List α} :
    (∃ l', mapW f l = .ok l') ∨ (∃ a ∈ l, (∃ e, f a = .err e ∧ mapW f l = .err e) ∨ (f a = .panic ∧ mapW f l = .panic) ∨
      (f a = .diverge ∧ mapW f l = .diverge)) := by
  induction l with
  | nil => exact .inl ⟨[], rfl⟩
  | cons a l ih =>
    simp only [mapW]
    cases hfa : f a with
    | ok b =>
      rcases ih with ⟨l', hl⟩ | ⟨x, hx, h⟩
      · exact .inl ⟨b :: l', by simp [hl]⟩
      · right
        refine ⟨x, List.mem_cons_of_mem _ hx, ?_⟩
        rcases h with ⟨e, h1, h2⟩ | ⟨h1, h2⟩ | ⟨h1, h2⟩
        · exact .inl ⟨e, h1, by simp [h2]⟩
        · exact .inr (.inl ⟨h1, by simp [h2]⟩)
        · exact .inr (.inr ⟨h1, by simp [h2]⟩)
    | err e => exact .inr ⟨a, List.mem_cons_self .., .inl ⟨e, hfa, rfl⟩⟩
    | panic => exact .inr ⟨a, List.mem_cons_self .., .inr (.inl ⟨hfa, rfl⟩)⟩
    | diverge => exact .inr ⟨a, List.mem_cons_self .., .inr (.inr ⟨hfa, rfl⟩)⟩

theorem Spec.Star.trans {α : Type} {R : α → α → Prop} {a b c : α} (h : Star R a b) (h' : Star R b c) : Star R a c := by
  induction h with
  | refl => exact h'
  | head h _ ih => exact .head h (ih h')

theorem Spec.Star.single {α : Type} {R : α → α → Prop} {a b : α} (h : R a b) : Star R a b := .head h (.refl b)

theorem nodeStmtOf_isNode {g : Graph} (h : GInv g) {c : Str} (hc : g.isNode c = true) : ∃ s, nodeStmtOf g c = .ok s := by
  obtain ⟨nd, hf, _⟩ := (isNode_find h c).1 hc
  exact ⟨_, by unfold nodeStmtOf; rw [hf]⟩

/-- Outcomes of a child. -/
theorem childOf_cases {g : Graph} (h : GInv g) (body : Str → WRes (List Stmt)) (c : Str) :
    (g.isNode c = true ∧ ∃ s, childOf g body c = .ok s) ∨
    (g.isNode c = false ∧ g.isSubGraph c = true ∧ childOf g body c = (body c).bind fun b => .ok (.sub c b)) ∨
    (g.isNode c = false ∧ g.isSubGraph c = false ∧ childOf g body c = .err (.notNodeOrSubGraph c)) := by
  unfold childOf
  cases hn : g.isNode c with
  | true =>
    left
    obtain ⟨s, hs⟩ := nodeStmtOf_isNode h hn
    exact ⟨rfl, s, by simp [hs]⟩
  | false =>
    cases hsb : g.isSubGraph c with
    | true => exact .inr (.inl ⟨rfl, rfl, by simp⟩)
    | false => exact .inr (.inr ⟨rfl, rfl, by simp⟩)

theorem subBody_no_panic {g : Graph} (h : GInv g) {f : Nat} {n : Str} (hn : g.isSubGraph n = true) : subBody g f n ≠ .panic := by
  induction f generalizing n with
  | zero => simp [subBody]
  | succ f ih =>
    obtain ⟨s, hs⟩ := (isSub_get g n).1 hn
    simp only [subBody, hs]
    rcases mapW_cases (f := childOf g (subBody g f)) (l := g.relations.sortedChildren n) with ⟨l', hl⟩ | ⟨c, hc, h'⟩
    · simp [hl]
    · rcases h' with ⟨e, _, h2⟩ | ⟨h1, _⟩ | ⟨_, h2⟩
      · simp [h2]
      · exfalso
        rcases childOf_cases h (subBody g f) c with ⟨_, s, hs⟩ | ⟨_, hsub, he⟩ | ⟨_, _, he⟩
        · rw [hs] at h1; cases h1
        · rw [he] at h1
          have := ih hsub
          cases hb : subBody g f c with
          | panic => exact this hb
          | ok b => rw [hb] at h1; cases h1
          | err e => rw [hb] at h1; cases h1
          | diverge => rw [hb] at h1; cases h1
        · rw [he] at h1; cases h1
      · simp [h2]

/-- An error when writing a subgraph comes from a dangling child. -/
theorem subBody_err {g : Graph} (h : GInv g) {f : Nat} {n : Str} {e : Err} (he : subBody g f n = .err e) : Dangles g n := by
  induction f generalizing n e with
  | zero => cases he
  | succ f ih =>
    simp only [subBody] at he
    cases hs : mget g.subGraphs n with
    | none => rw [hs] at he; cases he
    | some s =>
      rw [hs] at he
      simp only at he
      rcases mapW_cases (f := childOf g (subBody g f)) (l := g.relations.sortedChildren n) with ⟨l', hl⟩ | ⟨c, hc, h'⟩
      · rw [hl] at he; cases he
      · rcases h' with ⟨e', h1, h2⟩ | ⟨_, h2⟩ | ⟨_, h2⟩
        · rcases childOf_cases h (subBody g f) c with ⟨_, s, hs⟩ | ⟨hn, hsub, hc'⟩ | ⟨hn, hsub, _⟩
          · rw [hs] at h1; cases h1
          · rw [hc'] at h1
            cases hb : subBody g f c with
            | err e'' =>
              obtain ⟨m, d, hst, hd⟩ := ih hb
              exact ⟨m, d, .head ⟨mem_sortedChildren.1 hc, hn, hsub⟩ hst, hd⟩
            | ok b => rw [hb] at h1; cases h1
            | panic => rw [hb] at h1; cases h1
            | diverge => rw [hb] at h1; cases h1
          · exact ⟨n, c, .refl n, mem_sortedChildren.1 hc, hn, hsub⟩
        · rw [h2] at he; cases he
        · rw [h2] at he; cases he

/-- What success of `subBody` says about the children. -/
theorem subBody_ok_children {g : Graph} (h : GInv g) {f : Nat} {n : Str} {b : List Stmt} (hb : subBody g (f + 1) n = .ok b)
    {c : Str} (hc : mhas (g.relations.children n) c = true) (hnode : g.isNode c = false) :
    g.isSubGraph c = true ∧ ∃ b', subBody g f c = .ok b' := by
  simp only [subBody] at hb
  cases hs : mget g.subGraphs n with
  | none => rw [hs] at hb; cases hb
  | some s =>
    rw [hs] at hb
    simp only at hb
    obtain ⟨cs, hcs, _⟩ := WRes.bind_eq_ok.1 hb
    obtain ⟨st, _, hst⟩ := (mapW_ok.1 hcs).mem_left (mem_sortedChildren.2 hc)
    rcases (childOf_ok h hst).2 with ⟨nd, _, hf⟩ | ⟨b', hb', _, _, hsub⟩
    · exfalso
      rw [(isNode_find h c).2 hnode] at hf
      cases hf
    · exact ⟨hsub, b', hb'⟩

/-- A written subgraph does not dangle. -/
theorem subBody_ok_not_dangles {g : Graph} (h : GInv g) {f : Nat} {n : Str} {b : List Stmt} (hb : subBody g f n = .ok b) :
    ¬ Dangles g n := by
  rintro ⟨m, c, hst, hc, hn, hsub⟩
  induction hst generalizing f b with
  | refl =>
    cases f with
    | zero => cases hb
    | succ f =>
      have := (subBody_ok_children h hb hc hn).1
      rw [hsub] at this; cases this
  | head hr _ ih =>
    cases f with
    | zero => cases hb
    | succ f =>
      obtain ⟨_, b', hb'⟩ := subBody_ok_children h hb hr.1 hr.2.1
      exact ih hb' hc

/-- The subgraphs that can be written (no dangling child and no cycle below). -/
inductive Writable (g : Graph) : Str → Prop where
  | mk {n : Str} : g.isSubGraph n = true →
      (∀ c, mhas (g.relations.children n) c = true → g.isNode c = false → Writable g c) → Writable g n

theorem subBody_ok_isSub {g : Graph} {f : Nat} {n : Str} {b : List Stmt} (hb : subBody g f n = .ok b) : g.isSubGraph n = true := by
  cases f with
  | zero => cases hb
  | succ f =>
    simp only [subBody] at hb
    cases hs : mget g.subGraphs n with
    | none => rw [hs] at hb; cases hb
    | some s => exact (isSub_get g n).2 ⟨s, hs⟩

theorem subBody_ok_writable {g : Graph} (h : GInv g) {f : Nat} {n : Str} {b : List Stmt} (hb : subBody g f n = .ok b) :
    Writable g n := by
  induction f generalizing n b with
  | zero => cases hb
  | succ f ih =>
    refine .mk (subBody_ok_isSub hb) fun c hc hn => ?_
    obtain ⟨_, b', hb'⟩ := subBody_ok_children h hb hc hn
    exact ih hb'

/-- All the subgraph statements inside a written body are writable. -/
theorem subBody_ok_inner {g : Graph} (h : GInv g) {f : Nat} {n : Str} {b : List Stmt} (hb : subBody g f n = .ok b) :
    ∀ m body, Stmt.sub m body ∈ allStmts b → ∃ f', subBody g f' m = .ok body := by
  induction f generalizing n b with
  | zero => cases hb
  | succ f ih =>
    simp only [subBody] at hb
    cases hs : mget g.subGraphs n with
    | none => rw [hs] at hb; cases hb
    | some s =>
      rw [hs] at hb
      simp only at hb
      obtain ⟨cs, hcs, h'⟩ := WRes.bind_eq_ok.1 hb
      cases h'
      intro m body hm
      rw [attrStmts_eq (h.subs.attrs n s hs).wf, allStmts_append, allStmts_attrs, List.mem_append] at hm
      rcases hm with hm | hm
      · obtain ⟨e, _, he⟩ := List.mem_map.1 hm
        cases he
      · obtain ⟨s0, hs0, hin⟩ := mem_allStmts.1 hm
        obtain ⟨c, hc, hcc⟩ := (mapW_ok.1 hcs).mem_right hs0
        rcases (childOf_ok h hcc).2 with ⟨nd, rfl, hf⟩ | ⟨b, hb, rfl, _⟩
        · simp [allStmt] at hin
        · simp only [allStmt, List.mem_cons, Stmt.sub.injEq] at hin
          rcases hin with ⟨rfl, rfl⟩ | hin
          · exact ⟨f, hb⟩
          · exact ih hb m body hin

theorem mapW_exists_fuel {α β : Type} {f : Nat → α → WRes β} {l : List α}
    (hm : ∀ a b n n', f n a = .ok b → n ≤ n' → f n' a = .ok b)
    (h : ∀ a ∈ l, ∃ n b, f n a = .ok b) : ∃ n l', mapW (f n) l = .ok l' := by
  induction l with
  | nil => exact ⟨0, [], rfl⟩
  | cons a l ih =>
    obtain ⟨n1, b, hb⟩ := h a (List.mem_cons_self ..)
    obtain ⟨n2, l', hl⟩ := ih fun a ha => h a (List.mem_cons_of_mem _ ha)
    refine ⟨max n1 n2, b :: l', ?_⟩
    have h1 := hm a b n1 (max n1 n2) hb (Nat.le_max_left ..)
    have h2 : mapW (f (max n1 n2)) l = .ok l' := by
      rw [mapW_ok] at hl ⊢
      exact hl.imp fun a b hab => hm a b _ _ hab (Nat.le_max_right ..)
    simp [mapW, h1, h2]

theorem subBody_mono_ok {g : Graph} {f f' : Nat} {n : Str} {b : List Stmt} (h : subBody g f n = .ok b) (hf : f ≤ f') :
    subBody g f' n = .ok b := by
  rw [subBody_mono' (by rw [h]; simp) hf, h]

theorem Writable.exists {g : Graph} (h : GInv g) {n : Str} (hw : Writable g n) : ∃ f b, subBody g f n = .ok b := by
  induction hw with
  | @mk n hsub hc ih =>
    obtain ⟨s, hs⟩ := (isSub_get g n).1 hsub
    have : ∃ f l', mapW (childOf g (subBody g f)) (g.relations.sortedChildren n) = .ok l' := by
      apply mapW_exists_fuel (f := fun f => childOf g (subBody g f))
      · intro c st f f' hst hff
        unfold childOf at hst ⊢
        split
        · rename_i hn; rwa [if_pos hn] at hst
        · rename_i hn
          rw [if_neg hn] at hst
          split
          · rename_i hs'
            rw [if_pos hs'] at hst
            obtain ⟨b, hb, hst⟩ := WRes.bind_eq_ok.1 hst
            rw [subBody_mono_ok hb hff]
            exact hst
          · rename_i hs'; rw [if_neg hs'] at hst; cases hst
      · intro c hc'
        have hc' := mem_sortedChildren.1 hc'
        rcases childOf_cases h (subBody g 0) c with ⟨_, s, hs⟩ | ⟨hn, hsub, _⟩ | ⟨hn, hsub, _⟩
        · exact ⟨0, s, hs⟩
        · obtain ⟨f, b, hb⟩ := ih c hc' hn
          refine ⟨f, .sub c b, ?_⟩
          unfold childOf
          simp [hn, hsub, hb]
        · have := hc c hc' hn
          cases this with
          | mk hsub' _ => rw [hsub] at hsub'; cases hsub'
    obtain ⟨f, l', hl⟩ := this
    exact ⟨f + 1, attrStmts s.attrs ++ l', by simp only [subBody, hs, hl, WRes.bind_ok]⟩

/-- A writable subgraph reaches no cycle. -/
theorem Writable.no_cycle {g : Graph} {n : Str} (hw : Writable g n) : ¬ Plus (SubChild g) n n := by
  induction hw with
  | @mk n _ hc ih =>
    rintro ⟨c, hr, hst⟩
    apply ih c hr.1 hr.2.1
    -- c ->* n -> c
    cases hst with
    | refl => exact ⟨_, hr, .refl _⟩
    | head h1 h2 => exact ⟨_, h1, h2.trans (Star.single hr)⟩

theorem Writable.star {g : Graph} {n m : Str} (hw : Writable g n) (hs : Star (SubChild g) n m) : Writable g m := by
  induction hs with
  | refl => exact hw
  | head hr _ ih =>
    cases hw with
    | mk _ hc => exact ih (hc _ hr.1 hr.2.1)

/-! ### termination -/

theorem nodup_subset_length {α : Type} [DecidableEq α] {l l' : List α} (hn : l.Nodup) (hs : ∀ x ∈ l, x ∈ l') : l.length ≤ l'.length := by
  induction l generalizing l' with
  | nil => simp
  | cons a l ih =>
    rw [List.nodup_cons] at hn
    have ha := hs a (List.mem_cons_self ..)
    have := ih (l' := l'.erase a) hn.2 fun x hx => by
      have hne : x ≠ a := fun e => hn.1 (e ▸ hx)
      exact (List.mem_erase_of_ne hne).2 (hs x (List.mem_cons_of_mem _ hx))
    rw [List.length_erase_of_mem ha] at this
    have hpos : 0 < l'.length := List.length_pos_of_mem ha
    simp only [List.length_cons]
    omega

theorem subBody_terminates {g : Graph} (h : GInv g) {f : Nat} {n : Str} (hac : ∀ m, Star (SubChild g) n m → ¬ Plus (SubChild g) m m) (anc : List Str)
    (hnd : anc.Nodup) (hsub : ∀ a ∈ anc, g.isSubGraph a = true) (hst : ∀ a ∈ anc, Plus (SubChild g) a n)
    (hn : g.isSubGraph n = true) (hlen : (mkeys g.subGraphs).length < f + anc.length) : subBody g f n ≠ .diverge := by
  have hmem : ∀ {a}, g.isSubGraph a = true → a ∈ mkeys g.subGraphs := fun ha => (mhas_iff _ _).1 ha
  have hnanc : n ∉ anc := fun hm => hac n (.refl n) (hst n hm)
  induction f generalizing n anc with
  | zero =>
    exfalso
    have := nodup_subset_length hnd fun a ha => hmem (hsub a ha)
    omega
  | succ f ih =>
    obtain ⟨s, hs⟩ := (isSub_get g n).1 hn
    simp only [subBody, hs]
    rcases mapW_cases (f := childOf g (subBody g f)) (l := g.relations.sortedChildren n) with ⟨l', hl⟩ | ⟨c, hc, h'⟩
    · simp [hl]
    · rcases h' with ⟨e, _, h2⟩ | ⟨_, h2⟩ | ⟨h1, _⟩
      · simp [h2]
      · simp [h2]
      · exfalso
        rcases childOf_cases h (subBody g f) c with ⟨_, s, hs⟩ | ⟨hcn, hcs, he⟩ | ⟨_, _, he⟩
        · rw [hs] at h1; cases h1
        · rw [he] at h1
          have hr : SubChild g n c := ⟨mem_sortedChildren.1 hc, hcn, hcs⟩
          have hst' : ∀ a ∈ n :: anc, Plus (SubChild g) a c := by
            intro a ha
            rcases List.mem_cons.1 ha with rfl | ha
            · exact ⟨c, hr, .refl c⟩
            · obtain ⟨b, hb, hbs⟩ := hst a ha
              exact ⟨b, hb, hbs.trans (Star.single hr)⟩
          have := ih (fun m hm => hac m (.head hr hm)) (n :: anc) (List.nodup_cons.2 ⟨hnanc, hnd⟩)
            (by intro a ha; rcases List.mem_cons.1 ha with rfl | ha; exact hn; exact hsub a ha) hst' hcs
            (by simp only [List.length_cons]; omega) (fun hm => hac c (Spec.Star.single hr) (hst' c hm))
          cases hb : subBody g f c with
          | diverge => exact this hb
          | ok b => rw [hb] at h1; cases h1
          | err e => rw [hb] at h1; cases h1
          | panic => rw [hb] at h1; cases h1
        · rw [he] at h1; cases h1

theorem subBody_fuel {g : Graph} (h : GInv g) {f : Nat} {n : Str} (hac : ∀ m, Star (SubChild g) n m → ¬ Plus (SubChild g) m m) (hn : g.isSubGraph n = true)
    (hf : g.subGraphs.length < f) : subBody g f n ≠ .diverge := by
  apply subBody_terminates h hac [] List.nodup_nil (fun _ h => nomatch h) (fun _ h => nomatch h) hn
  simpa [mkeys] using hf

theorem locOf_cases {g : Graph} (h : GInv g) (f : Nat) (n p : Str) :
    (∃ l, locOf g f n p = .ok l ∧ ¬ BadEnd g n p) ∨ (∃ e, locOf g f n p = .err e ∧ BadEnd g n p) ∨
    (g.isNode n = false ∧ g.isClusterSubGraph n = false ∧ g.isSubGraph n = true ∧ p = [] ∧
      locOf g f n p = (subBody g f n).bind fun b => .ok (.sub n b)) := by
  unfold locOf BadEnd
  cases hn : g.isNode n with
  | true =>
    obtain ⟨nd, hf, _⟩ := (isNode_find h n).1 hn
    exact .inl ⟨.node (Ast.makeNodeID n p), by simp [hf], by simp⟩
  | false =>
    cases hcl : g.isClusterSubGraph n with
    | true =>
      have hsub : g.isSubGraph n = true := by simp only [Graph.isClusterSubGraph, Bool.and_eq_true] at hcl; exact hcl.1
      cases p with
      | nil => exact .inl ⟨.node (Ast.makeNodeID n []), by simp, by simp [hsub]⟩
      | cons c p => exact .inr (.inl ⟨.subGraphPort (c :: p), by simp, by simp⟩)
    | false =>
      cases hsub : g.isSubGraph n with
      | true =>
        cases p with
        | nil => exact .inr (.inr (by simp))
        | cons c p => exact .inr (.inl ⟨.subGraphPort (c :: p), by simp, by simp⟩)
      | false => exact .inr (.inl ⟨.notNodeOrSubGraph n, by simp, by simp⟩)

/-- An endpoint can be written. -/
def EndOk (g : Graph) (n p : Str) : Prop :=
  ¬ BadEnd g n p ∧ (g.isNode n = false → g.isClusterSubGraph n = false → Writable g n)

theorem locOf_ok {g : Graph} (h : GInv g) {f : Nat} {n p : Str} {l : Loc} (hl : locOf g f n p = .ok l) : EndOk g n p := by
  rcases locOf_cases h f n p with ⟨l', hl', hb⟩ | ⟨e, he, _⟩ | ⟨hn, hc, hs, hp, he⟩
  · refine ⟨hb, fun hn hc => ?_⟩
    have hl2 := hl
    unfold locOf at hl2
    rw [if_neg (by simp [hn]), if_neg (by simp [hc])] at hl2
    split at hl2
    · split at hl2
      · cases hl2
      · obtain ⟨b, hb, _⟩ := WRes.bind_eq_ok.1 hl2
        exact subBody_ok_writable h hb
    · cases hl2
  · rw [he] at hl; cases hl
  · rw [he] at hl
    obtain ⟨b, hb, _⟩ := WRes.bind_eq_ok.1 hl
    exact ⟨by simp [BadEnd, hn, hs, hp], fun _ _ => subBody_ok_writable h hb⟩

theorem EndOk.exists {g : Graph} (h : GInv g) {n p : Str} (hok : EndOk g n p) : ∃ f l, locOf g f n p = .ok l := by
  rcases locOf_cases h 0 n p with ⟨l', hl', hb⟩ | ⟨e, _, hb⟩ | ⟨hn, hc, hs, hp, he⟩
  · exact ⟨0, l', hl'⟩
  · exact absurd hb hok.1
  · obtain ⟨f, b, hb⟩ := (hok.2 hn hc).exists h
    refine ⟨f, .sub n b, ?_⟩
    unfold locOf
    simp [hn, hc, hs, hp, hb]

theorem locOf_mono_ok {g : Graph} {f f' : Nat} {n p : Str} {l : Loc} (h : locOf g f n p = .ok l) (hf : f ≤ f') :
    locOf g f' n p = .ok l := by
  rw [locOf_mono (by rw [h]; simp) hf, h]

theorem edgeOf_mono_ok {g : Graph} {f f' : Nat} {e : Edge} {s : Stmt} (h : edgeOf g f e = .ok s) (hf : f ≤ f') :
    edgeOf g f' e = .ok s := by
  rw [edgeOf_mono (by rw [h]; simp) hf, h]

theorem edgeOf_ok {g : Graph} (h : GInv g) {f : Nat} {e : Edge} {s : Stmt} (hs : edgeOf g f e = .ok s) :
    EndOk g e.src e.srcPort ∧ EndOk g e.dst e.dstPort := by
  unfold edgeOf at hs
  obtain ⟨l, hl, hs⟩ := WRes.bind_eq_ok.1 hs
  obtain ⟨l', hl', hs⟩ := WRes.bind_eq_ok.1 hs
  exact ⟨locOf_ok h hl, locOf_ok h hl'⟩

theorem edgeOf_exists {g : Graph} (h : GInv g) {e : Edge} (h1 : EndOk g e.src e.srcPort) (h2 : EndOk g e.dst e.dstPort) :
    ∃ f s, edgeOf g f e = .ok s := by
  obtain ⟨f1, l1, e1⟩ := h1.exists h
  obtain ⟨f2, l2, e2⟩ := h2.exists h
  refine ⟨max f1 f2, .edge l1 [.mk e.dir l2] (Ast.putMap (attrsCopy e.attrs)), ?_⟩
  unfold edgeOf
  rw [locOf_mono_ok e1 (Nat.le_max_left ..), locOf_mono_ok e2 (Nat.le_max_right ..)]
  rfl

/-! ### the root subgraphs -/

theorem rootSubsOf_exists {g : Graph} (h : GInv g) (ns : List Str)
    (hw : ∀ n ∈ ns, mhas (g.relations.children g.name) n = true → Writable g n) (seen : List Str) :
    ∃ f ss, ∀ f', f ≤ f' → rootSubsOf g f' seen ns = .ok ss := by
  induction ns generalizing seen with
  | nil => exact ⟨0, [], fun _ _ => rfl⟩
  | cons n ns ih =>
    have ih := ih fun n hn => hw n (List.mem_cons_of_mem _ hn)
    by_cases hc : (!decide (n ∈ seen) && mhas (g.relations.children g.name) n) = true
    · have hchild : mhas (g.relations.children g.name) n = true := by
        simp only [Bool.and_eq_true] at hc; exact hc.2
      obtain ⟨f1, b, hb⟩ := (hw n (List.mem_cons_self ..) hchild).exists h
      obtain ⟨f2, ss, hss⟩ := ih (seen ++ n :: marksL b)
      refine ⟨max f1 f2, .sub n b :: ss, fun f' hf' => ?_⟩
      simp only [rootSubsOf, if_pos hc]
      rw [subBody_mono_ok hb (Nat.le_trans (Nat.le_max_left ..) hf')]
      simp [hss f' (Nat.le_trans (Nat.le_max_right ..) hf')]
    · obtain ⟨f, ss, hss⟩ := ih seen
      refine ⟨f, ss, fun f' hf' => ?_⟩
      simp only [rootSubsOf, if_neg hc]
      exact hss f' hf'

/-- The statements written for the root subgraphs. -/
theorem rootSubsOf_ok {g : Graph} {f : Nat} {seen ns : List Str} {ss : List Stmt}
    (hs : rootSubsOf g f seen ns = .ok ss) :
    (∀ s ∈ ss, ∃ n b, n ∈ ns ∧ s = .sub n b ∧ subBody g f n = .ok b ∧ mhas (g.relations.children g.name) n = true ∧ n ∉ seen) ∧
    (∀ n ∈ ns, mhas (g.relations.children g.name) n = true → n ∈ seen ∨ n ∈ marksL ss) := by
  induction ns generalizing seen ss with
  | nil =>
    simp only [rootSubsOf] at hs
    cases hs
    exact ⟨(fun _ h => nomatch h), (fun _ h => nomatch h)⟩
  | cons n ns ih =>
    simp only [rootSubsOf] at hs
    split at hs
    · rename_i hc
      simp only [Bool.and_eq_true, Bool.not_eq_true', decide_eq_false_iff_not] at hc
      obtain ⟨b, hb, hs⟩ := WRes.bind_eq_ok.1 hs
      obtain ⟨rs, hrs, hs⟩ := WRes.bind_eq_ok.1 hs
      cases hs
      have := ih hrs
      refine ⟨?_, ?_⟩
      · intro s hs
        rcases List.mem_cons.1 hs with rfl | hs
        · exact ⟨n, b, List.mem_cons_self .., rfl, hb, hc.2, hc.1⟩
        · obtain ⟨m, b', hm, e1, e2, e3, e4⟩ := this.1 s hs
          exact ⟨m, b', List.mem_cons_of_mem _ hm, e1, e2, e3, fun hm' => e4 (List.mem_append_left _ hm')⟩
      · intro m hm hch
        simp only [marksL, marks, List.mem_append]
        rcases List.mem_cons.1 hm with rfl | hm
        · exact .inr (.inl (List.mem_cons_self ..))
        · rcases this.2 m hm hch with h' | h'
          · rcases List.mem_append.1 h' with h' | h'
            · exact .inl h'
            · exact .inr (.inl h')
          · exact .inr (.inr h')
    · rename_i hc
      have := ih hs
      refine ⟨?_, ?_⟩
      · intro s hs
        obtain ⟨m, b', hm, e⟩ := this.1 s hs
        exact ⟨m, b', List.mem_cons_of_mem _ hm, e⟩
      · intro m hm hch
        rcases List.mem_cons.1 hm with rfl | hm
        · simp only [hch, Bool.and_true, Bool.not_eq_true', decide_eq_false_iff_not, Decidable.not_not] at hc
          exact .inl hc
        · exact this.2 m hm hch

theorem rootSubsOf_cases {g : Graph} (f : Nat) (seen ns : List Str) :
    (∃ ss, rootSubsOf g f seen ns = .ok ss) ∨ (∃ n ∈ ns, mhas (g.relations.children g.name) n = true ∧
      ((∃ e, subBody g f n = .err e ∧ rootSubsOf g f seen ns = .err e) ∨
       (subBody g f n = .panic ∧ rootSubsOf g f seen ns = .panic) ∨
       (subBody g f n = .diverge ∧ rootSubsOf g f seen ns = .diverge))) := by
  induction ns generalizing seen with
  | nil => exact .inl ⟨[], rfl⟩
  | cons n ns ih =>
    simp only [rootSubsOf]
    split
    · rename_i hc
      simp only [Bool.and_eq_true] at hc
      cases hb : subBody g f n with
      | ok b =>
        rcases ih (seen ++ n :: marksL b) with ⟨ss, hss⟩ | ⟨m, hm, hch, h'⟩
        · exact .inl ⟨.sub n b :: ss, by simp [hss]⟩
        · right
          refine ⟨m, List.mem_cons_of_mem _ hm, hch, ?_⟩
          rcases h' with ⟨e, h1, h2⟩ | ⟨h1, h2⟩ | ⟨h1, h2⟩
          · exact .inl ⟨e, h1, by simp [h2]⟩
          · exact .inr (.inl ⟨h1, by simp [h2]⟩)
          · exact .inr (.inr ⟨h1, by simp [h2]⟩)
      | err e => exact .inr ⟨n, List.mem_cons_self .., hc.2, .inl ⟨e, hb, rfl⟩⟩
      | panic => exact .inr ⟨n, List.mem_cons_self .., hc.2, .inr (.inl ⟨hb, rfl⟩)⟩
      | diverge => exact .inr ⟨n, List.mem_cons_self .., hc.2, .inr (.inr ⟨hb, rfl⟩)⟩
    · rcases ih seen with h' | ⟨m, hm, h'⟩
      · exact .inl h'
      · exact .inr ⟨m, List.mem_cons_of_mem _ hm, h'⟩

theorem rootNodesW_ok {g : Graph} (h : GInv g) (seen : List Str) :
    ∃ ns, mapW (nodeStmtOf g) ((mkeys g.nodes.lookup).filter fun n => !decide (n ∈ seen)) = .ok ns := by
  rcases mapW_cases (f := nodeStmtOf g) (l := (mkeys g.nodes.lookup).filter fun n => !decide (n ∈ seen)) with h' | ⟨n, hn, h'⟩
  · exact h'
  · exfalso
    have hin : g.isNode n = true := (mhas_iff _ _).2 (List.mem_filter.1 hn).1
    obtain ⟨s, hs⟩ := nodeStmtOf_isNode h hin
    rcases h' with ⟨e, h1, _⟩ | ⟨h1, _⟩ | ⟨h1, _⟩ <;> rw [hs] at h1 <;> cases h1

/-- Anatomy of a successful `WriteAst`. -/
theorem writeAst_ok {g : Graph} (h : GInv g) {sortE : List Edge → List Edge} {f : Nat} {t : Ast.Graph}
    (ht : writeAst sortE f g = .ok t) : ∃ es ss ns,
    Forall2 (fun e s => edgeOf g f e = .ok s) (sortE g.edges.edges) es ∧
    rootSubsOf g f (marksL es) (mkeys g.subGraphs) = .ok ss ∧
    Forall2 (fun n s => nodeStmtOf g n = .ok s) ((mkeys g.nodes.lookup).filter fun n => !decide (n ∈ marksL es ++ marksL ss)) ns ∧
    t = { type_ := g.directed, strict := g.strict, id := g.name, stmts := attrsAsStmts g.attrs ++ es ++ ss ++ ns } := by
  rw [writeAst_eq h] at ht
  obtain ⟨es, hes, ht⟩ := WRes.bind_eq_ok.1 ht
  obtain ⟨ss, hss, ht⟩ := WRes.bind_eq_ok.1 ht
  obtain ⟨ns, hns, ht⟩ := WRes.bind_eq_ok.1 ht
  rw [attrStmts_eq h.attrs.wf] at ht
  cases ht
  exact ⟨es, ss, ns, mapW_ok.1 hes, hss, mapW_ok.1 hns, rfl⟩

/-- Outcomes of `WriteAst`. -/
theorem writeAst_cases {g : Graph} (h : GInv g) {sortE : List Edge → List Edge} (hs : SortContract sortE) (f : Nat) :
    (∃ t, writeAst sortE f g = .ok t) ∨
    (∃ err, writeAst sortE f g = .err err ∧
      ((∃ e ∈ g.edges.edges, BadEnd g e.src e.srcPort ∨ BadEnd g e.dst e.dstPort) ∨ (∃ n, MustWrite g n ∧ Dangles g n))) ∨
    (writeAst sortE f g = .diverge ∧ ∃ n, MustWrite g n ∧ subBody g f n = .diverge) := by
  rw [writeAst_eq h]
  have hmem : ∀ e, e ∈ sortE g.edges.edges ↔ e ∈ g.edges.edges := fun e => (hs.perm _).mem_iff
  -- the endpoints
  have hloc : ∀ e ∈ g.edges.edges, ∀ n p, (n = e.src ∧ p = e.srcPort ∨ n = e.dst ∧ p = e.dstPort) →
      (∃ l, locOf g f n p = .ok l) ∨ (∃ err, locOf g f n p = .err err ∧ (BadEnd g n p ∨ (MustWrite g n ∧ Dangles g n))) ∨
      (locOf g f n p = .diverge ∧ MustWrite g n ∧ subBody g f n = .diverge) := by
    intro e he n p hnp
    have hend : e.src = n ∨ e.dst = n := by rcases hnp with ⟨rfl, _⟩ | ⟨rfl, _⟩ <;> simp
    rcases locOf_cases h f n p with ⟨l, hl, _⟩ | ⟨err, he', hb⟩ | ⟨hn, hc, hsub, hp, he'⟩
    · exact .inl ⟨l, hl⟩
    · exact .inr (.inl ⟨err, he', .inl hb⟩)
    · have hmw : MustWrite g n := ⟨hsub, .inr ⟨hn, hc, e, he, hend⟩⟩
      rw [he']
      cases hb : subBody g f n with
      | ok b => exact .inl ⟨_, rfl⟩
      | err err => exact .inr (.inl ⟨err, rfl, .inr ⟨hmw, subBody_err h hb⟩⟩)
      | panic => exact absurd hb (subBody_no_panic h hsub)
      | diverge => exact .inr (.inr ⟨rfl, hmw, rfl⟩)
  rcases mapW_cases (f := edgeOf g f) (l := sortE g.edges.edges) with ⟨es, hes⟩ | ⟨e, he, h'⟩
  · rw [hes]
    simp only [WRes.bind_ok]
    rcases rootSubsOf_cases f (marksL es) (mkeys g.subGraphs) (g := g) with ⟨ss, hss⟩ | ⟨n, hn, hch, h'⟩
    · rw [hss]
      simp only [WRes.bind_ok]
      obtain ⟨ns, hns⟩ := rootNodesW_ok h (marksL es ++ marksL ss)
      rw [hns]
      exact .inl ⟨_, rfl⟩
    · have hsub : g.isSubGraph n = true := (mhas_iff _ _).2 hn
      have hmw : MustWrite g n := ⟨hsub, .inl hch⟩
      rcases h' with ⟨err, h1, h2⟩ | ⟨h1, _⟩ | ⟨h1, h2⟩
      · exact .inr (.inl ⟨err, by simp [h2], .inr ⟨n, hmw, subBody_err h h1⟩⟩)
      · exact absurd h1 (subBody_no_panic h hsub)
      · exact .inr (.inr ⟨by simp [h2], n, hmw, h1⟩)
  · have he := (hmem e).1 he
    have hsrc := hloc e he e.src e.srcPort (.inl ⟨rfl, rfl⟩)
    have hdst := hloc e he e.dst e.dstPort (.inr ⟨rfl, rfl⟩)
    have hcomb : (∃ s, edgeOf g f e = .ok s) ∨ (∃ err, edgeOf g f e = .err err ∧
          ((∃ e ∈ g.edges.edges, BadEnd g e.src e.srcPort ∨ BadEnd g e.dst e.dstPort) ∨ (∃ n, MustWrite g n ∧ Dangles g n))) ∨
        (edgeOf g f e = .diverge ∧ ∃ n, MustWrite g n ∧ subBody g f n = .diverge) := by
      unfold edgeOf
      rcases hsrc with ⟨l, hl⟩ | ⟨err, hl, hb⟩ | ⟨hl, hb⟩
      · rw [hl]
        simp only [WRes.bind_ok]
        rcases hdst with ⟨l, hl⟩ | ⟨err, hl, hb⟩ | ⟨hl, hb⟩
        · rw [hl]; exact .inl ⟨_, rfl⟩
        · rw [hl]
          refine .inr (.inl ⟨err, rfl, ?_⟩)
          rcases hb with hb | hb
          · exact .inl ⟨e, he, .inr hb⟩
          · exact .inr ⟨_, hb⟩
        · rw [hl]; exact .inr (.inr ⟨rfl, _, hb⟩)
      · rw [hl]
        refine .inr (.inl ⟨err, rfl, ?_⟩)
        rcases hb with hb | hb
        · exact .inl ⟨e, he, .inl hb⟩
        · exact .inr ⟨_, hb⟩
      · rw [hl]; exact .inr (.inr ⟨rfl, _, hb⟩)
    rcases h' with ⟨err, h1, h2⟩ | ⟨h1, h2⟩ | ⟨h1, h2⟩
    · rcases hcomb with ⟨s, hs⟩ | ⟨err', h3, h4⟩ | ⟨h3, _⟩
      · rw [hs] at h1; cases h1
      · exact .inr (.inl ⟨err, by simp [h2], h4⟩)
      · rw [h3] at h1; cases h1
    · rcases hcomb with ⟨s, hs⟩ | ⟨err', h3, _⟩ | ⟨h3, _⟩ <;> simp_all
    · rcases hcomb with ⟨s, hs⟩ | ⟨err', h3, _⟩ | ⟨h3, h4⟩
      · rw [hs] at h1; cases h1
      · rw [h3] at h1; cases h1
      · exact .inr (.inr ⟨by simp [h2], h4⟩)

/-! ### the statements inside edges -/

theorem locOf_inner {g : Graph} (h : GInv g) {f : Nat} {n p : Str} {l : Loc} (hl : locOf g f n p = .ok l) :
    (∀ s ∈ allLoc l, InnerOk g s) ∧ (∀ m body, Stmt.sub m body ∈ allLoc l → ∃ f', subBody g f' m = .ok body) ∧
    (∀ id as, Stmt.node id as ∈ allLoc l → ∃ m body, Stmt.sub m body ∈ allLoc l ∧
      mhas (g.relations.children m) id.id = true) ∧
    (g.isNode n = true ∨ g.isClusterSubGraph n = true → l = .node (Ast.makeNodeID n p)) ∧
    (g.isNode n = false → g.isClusterSubGraph n = false → ∃ body, l = .sub n body) := by
  unfold locOf at hl
  split at hl
  · rename_i hn
    split at hl
    · cases hl
      exact ⟨by simp [allLoc], by simp [allLoc], by simp [allLoc], fun _ => rfl, fun h => by simp [hn] at h⟩
    · cases hl
  · rename_i hn
    split at hl
    · rename_i hc
      split at hl
      · cases hl
      · cases hl
        exact ⟨by simp [allLoc], by simp [allLoc], by simp [allLoc], fun _ => rfl, fun _ h => by simp [hc] at h⟩
    · rename_i hc
      split at hl
      · split at hl
        · cases hl
        · obtain ⟨b, hb, hl⟩ := WRes.bind_eq_ok.1 hl
          cases hl
          have h1 := subBody_ok h hb
          refine ⟨?_, ?_, ?_, fun h => ?_, fun _ _ => ⟨b, rfl⟩⟩
          · intro s hs
            simp only [allLoc, List.mem_cons] at hs
            rcases hs with rfl | hs
            · exact h1.1
            · exact h1.2.1 s hs
          · intro m body hm
            simp only [allLoc, List.mem_cons, Stmt.sub.injEq] at hm
            rcases hm with ⟨rfl, rfl⟩ | hm
            · exact ⟨f, hb⟩
            · exact subBody_ok_inner h hb m body hm
          · intro id as hin
            simp only [allLoc, List.mem_cons, reduceCtorEq, false_or] at hin
            exact h1.2.2 id as hin
          · rcases h with h | h
            · exact absurd h hn
            · exact absurd h hc
      · cases hl

/-- Everything below an edge statement. -/
theorem edgeOf_inner {g : Graph} (h : GInv g) {f : Nat} {e : Edge} {s : Stmt} (hs : edgeOf g f e = .ok s) :
    ∃ src dst, s = .edge src [.mk e.dir dst] (Ast.putMap (attrsCopy e.attrs)) ∧
      locOf g f e.src e.srcPort = .ok src ∧ locOf g f e.dst e.dstPort = .ok dst ∧
      ∀ x ∈ allStmt s, x = s ∨ (InnerOk g x ∧ (∀ m body, x = .sub m body → ∃ f', subBody g f' m = .ok body) ∧
        (∀ id as, x = .node id as → ∃ m body, Stmt.sub m body ∈ allStmt s ∧ mhas (g.relations.children m) id.id = true)) := by
  unfold edgeOf at hs
  obtain ⟨src, hl, hs⟩ := WRes.bind_eq_ok.1 hs
  obtain ⟨dst, hl', hs⟩ := WRes.bind_eq_ok.1 hs
  cases hs
  refine ⟨src, dst, rfl, hl, hl', ?_⟩
  have h1 := locOf_inner h hl
  have h2 := locOf_inner h hl'
  intro x hx
  simp only [allStmt, allRHS, List.append_nil, List.mem_cons, List.mem_append] at hx ⊢
  rcases hx with rfl | hx | hx
  · exact .inl rfl
  · right
    refine ⟨h1.1 x hx, fun m body e => h1.2.1 m body (e ▸ hx), fun id as e => ?_⟩
    obtain ⟨m, body, hm, hc⟩ := h1.2.2.1 id as (e ▸ hx)
    exact ⟨m, body, .inr (.inl hm), hc⟩
  · right
    refine ⟨h2.1 x hx, fun m body e => h2.2.1 m body (e ▸ hx), fun id as e => ?_⟩
    obtain ⟨m, body, hm, hc⟩ := h2.2.2.1 id as (e ▸ hx)
    exact ⟨m, body, .inr (.inr hm), hc⟩

/-- Each subgraph marked by a successful run of the edges and root subgraphs was written, if it is not a node. -/
theorem marked_written {g : Graph} (h : GInv g) {f : Nat} {l : List Edge} {es ss : List Stmt} {seen ns : List Str}
    (hes : Forall2 (fun e s => edgeOf g f e = .ok s) l es) (hss : rootSubsOf g f seen ns = .ok ss)
    {n : Str} (hm : n ∈ marksL es ∨ n ∈ marksL ss) (hn : g.isNode n = false) :
    ∃ f' body, subBody g f' n = .ok body ∧ Stmt.sub n body ∈ allStmts (es ++ ss) := by
  have hnn : ∀ id as, InnerOk g (.node id as) → id.id ≠ n := by
    rintro id as ⟨_, nd, hf, _⟩ rfl
    rw [(isNode_find h _).2 hn] at hf; cases hf
  rw [allStmts_append]
  rcases hm with hm | hm
  · rcases (mem_marksL n es).1 hm with ⟨id, as, hin, he⟩ | ⟨body, hin⟩
    · exfalso
      obtain ⟨s, hs, hin⟩ := mem_allStmts.1 hin
      obtain ⟨e, _, hes⟩ := hes.mem_right hs
      obtain ⟨src, dst, rfl, _, _, hall⟩ := edgeOf_inner h hes
      rcases hall _ hin with h' | ⟨h', _⟩
      · cases h'
      · exact hnn id as h' he
    · obtain ⟨s, hs, hin'⟩ := mem_allStmts.1 hin
      obtain ⟨e, _, hes⟩ := hes.mem_right hs
      obtain ⟨src, dst, rfl, _, _, hall⟩ := edgeOf_inner h hes
      rcases hall _ hin' with h' | ⟨_, h', _⟩
      · cases h'
      · obtain ⟨f', hf'⟩ := h' n body rfl
        exact ⟨f', body, hf', List.mem_append_left _ hin⟩
  · have hr := (rootSubsOf_ok hss).1
    rcases (mem_marksL n ss).1 hm with ⟨id, as, hin, he⟩ | ⟨body, hin⟩
    · exfalso
      obtain ⟨s, hs, hin⟩ := mem_allStmts.1 hin
      obtain ⟨m, b, _, rfl, hb, _⟩ := hr s hs
      simp only [allStmt, List.mem_cons, reduceCtorEq, false_or] at hin
      exact hnn id as ((subBody_ok h hb).2.1 _ hin) he
    · obtain ⟨s, hs, hin'⟩ := mem_allStmts.1 hin
      obtain ⟨m, b, _, rfl, hb, _⟩ := hr s hs
      simp only [allStmt, List.mem_cons, Stmt.sub.injEq] at hin'
      rcases hin' with ⟨rfl, rfl⟩ | hin'
      · exact ⟨f, _, hb, List.mem_append_right _ hin⟩
      · obtain ⟨f', hf'⟩ := subBody_ok_inner h hb n body hin'
        exact ⟨f', body, hf', List.mem_append_right _ hin⟩

/-- `WriteAst` succeeds exactly when all endpoints and all subgraphs that must be written can be written. -/
theorem writeAst_ok_iff {g : Graph} (h : GInv g) {sortE : List Edge → List Edge} (hs : SortContract sortE)
    (hd : NamesDisjoint g) :
    (∃ f t, writeAst sortE f g = .ok t) ↔
      (∀ e ∈ g.edges.edges, EndOk g e.src e.srcPort ∧ EndOk g e.dst e.dstPort) ∧
      (∀ n, g.isSubGraph n = true → mhas (g.relations.children g.name) n = true → Writable g n) := by
  have hmem : ∀ e, e ∈ sortE g.edges.edges ↔ e ∈ g.edges.edges := fun e => (hs.perm _).mem_iff
  constructor
  · rintro ⟨f, t, ht⟩
    obtain ⟨es, ss, ns, hes, hss, _, _⟩ := writeAst_ok h ht
    refine ⟨?_, ?_⟩
    · intro e he
      obtain ⟨s, _, hs'⟩ := hes.mem_left ((hmem e).2 he)
      exact edgeOf_ok h hs'
    · intro n hsub hch
      have hm := (rootSubsOf_ok hss).2 n ((mhas_iff _ _).1 hsub) hch
      have hn : g.isNode n = false := by
        cases hn : g.isNode n with
        | false => rfl
        | true => exact absurd ⟨hn, hsub⟩ (hd n)
      obtain ⟨f', b, hb, _⟩ := marked_written h hes hss hm hn
      exact subBody_ok_writable h hb
  · rintro ⟨h1, h2⟩
    obtain ⟨f1, es, hes⟩ := mapW_exists_fuel (f := edgeOf g) (l := sortE g.edges.edges)
      (fun a b n n' hab hn => edgeOf_mono_ok hab hn)
      fun e he => edgeOf_exists h (h1 e ((hmem e).1 he)).1 (h1 e ((hmem e).1 he)).2
    obtain ⟨f2, ss, hss⟩ := rootSubsOf_exists h (mkeys g.subGraphs)
      (fun n hn hch => h2 n ((mhas_iff _ _).2 hn) hch) (marksL es)
    obtain ⟨ns, hns⟩ := rootNodesW_ok h (marksL es ++ marksL ss)
    refine ⟨max f1 f2, { type_ := g.directed, strict := g.strict, id := g.name, stmts := attrStmts g.attrs ++ es ++ ss ++ ns }, ?_⟩
    rw [writeAst_eq h]
    have hes' : mapW (edgeOf g (max f1 f2)) (sortE g.edges.edges) = .ok es := by
      rw [mapW_ok] at hes ⊢
      exact hes.imp fun e s h' => edgeOf_mono_ok h' (Nat.le_max_left ..)
    rw [hes']
    simp only [WRes.bind_ok]
    rw [hss _ (Nat.le_max_right ..)]
    simp only [WRes.bind_ok]
    rw [hns]
    rfl

/-- Without dangling names the criterion does not need disjoint names in this direction. -/
theorem writeAst_exists {g : Graph} (h : GInv g) {sortE : List Edge → List Edge} (hs : SortContract sortE)
    (h1 : ∀ e ∈ g.edges.edges, EndOk g e.src e.srcPort ∧ EndOk g e.dst e.dstPort)
    (h2 : ∀ n, g.isSubGraph n = true → mhas (g.relations.children g.name) n = true → Writable g n) :
    ∃ f t, writeAst sortE f g = .ok t := by
  have hmem : ∀ e, e ∈ sortE g.edges.edges ↔ e ∈ g.edges.edges := fun e => (hs.perm _).mem_iff
  obtain ⟨f1, es, hes⟩ := mapW_exists_fuel (f := edgeOf g) (l := sortE g.edges.edges)
    (fun a b n n' hab hn => edgeOf_mono_ok hab hn)
    fun e he => edgeOf_exists h (h1 e ((hmem e).1 he)).1 (h1 e ((hmem e).1 he)).2
  obtain ⟨f2, ss, hss⟩ := rootSubsOf_exists h (mkeys g.subGraphs)
    (fun n hn hch => h2 n ((mhas_iff _ _).2 hn) hch) (marksL es)
  obtain ⟨ns, hns⟩ := rootNodesW_ok h (marksL es ++ marksL ss)
  refine ⟨max f1 f2, { type_ := g.directed, strict := g.strict, id := g.name, stmts := attrStmts g.attrs ++ es ++ ss ++ ns }, ?_⟩
  rw [writeAst_eq h]
  have hes' : mapW (edgeOf g (max f1 f2)) (sortE g.edges.edges) = .ok es := by
    rw [mapW_ok] at hes ⊢
    exact hes.imp fun e s h' => edgeOf_mono_ok h' (Nat.le_max_left ..)
  rw [hes']
  simp only [WRes.bind_ok]
  rw [hss _ (Nat.le_max_right ..)]
  simp only [WRes.bind_ok]
  rw [hns]
  rfl

end Gographviz
