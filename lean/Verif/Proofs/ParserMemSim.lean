import Verif.Proofs.ParserMem
/-! The parser with its memory simulates the one with values. -/
namespace Gographviz.ParseMem
open Gographviz Gographviz.Lex Gographviz.Ast Gographviz.Parse Gographviz.Slices

/-- Two optional values that are both absent, or both present and related. -/
inductive ORel {α β : Type} (R : α → β → Prop) : Option α → Option β → Prop where
  | none : ORel R none none
  | some {a : α} {b : β} : R a b → ORel R (some a) (some b)

theorem ORel.bind {α β γ δ : Type} {R : α → β → Prop} {S : γ → δ → Prop} {x : Option α} {y : Option β} {f : α → Option γ} {g : β → Option δ}
    (h : ORel R x y) (hf : ∀ a b, R a b → ORel S (f a) (g b)) : ORel S (x >>= f) (y >>= g) := by
  cases h with
  | none => exact .none
  | some h => exact hf _ _ h

theorem ORel.map {α β γ δ : Type} {R : α → β → Prop} {S : γ → δ → Prop} {x : Option α} {y : Option β} {f : α → γ} {g : β → δ}
    (h : ORel R x y) (hf : ∀ a b, R a b → S (f a) (g b)) : ORel S (x.map f) (y.map g) := by
  cases h with
  | none => exact .none
  | some h => exact .some (hf _ _ h)

/-- A result of a `ReduceFunc` in memory stands for the value `b`, and lists that others will extend are not touched. -/
structure Good (buf : Str) (h : Heap) (X : List MAttrib) (p : MAttrib × Heap) (b : Attrib) : Prop where
  grows : Grows h p.2
  sees : Sees buf p.2 p.1 b
  full : ∀ s, own p.1 = some s → Full p.2 s
  frame : ∀ t, Full h t → (∀ x ∈ X, ∀ s, own x = some s → s.arr ≠ t.arr) → Full p.2 t ∧ ∀ s, own p.1 = some s → s.arr ≠ t.arr

/-- Results of `ReduceFunc`s. -/
inductive ERel (buf : Str) (h : Heap) (X : List MAttrib) : Except Unit (MAttrib × Heap) → Except Unit Attrib → Prop where
  | error : ERel buf h X (.error ()) (.error ())
  | ok {p : MAttrib × Heap} {b : Attrib} : Good buf h X p b → ERel buf h X (.ok p) (.ok b)

section
variable (buf : Str) (h : Heap) (X : List MAttrib)

/-- An argument and its value. -/
def AR (a : MAttrib) (b : Attrib) : Prop := Sees buf h a b ∧ ∀ s, own a = some s → Full h s ∧ ∃ x ∈ X, own x = some s

variable {buf h X}

theorem good_same {a : MAttrib} {b : Attrib} (hs : Sees buf h a b) (ho : own a = none) : ORel (ERel buf h X) (okM a h) (okA b) :=
  .some (.ok ⟨Grows.refl h, hs, by simp [ho], fun t ht _ => ⟨ht, by simp [ho]⟩⟩)

theorem marg_sim {Y : List Attrib} (hX : ∀ i : Nat, ORel (AR buf h X) X[i]? Y[i]?) (i : Option Nat) : ORel (AR buf h X) (marg X i) (arg Y i) := by
  cases i with
  | none => exact .some ⟨⟨0, rfl⟩, by simp [own]⟩
  | some i => exact hX i

theorem isNil_sim {a : MAttrib} {b : Attrib} (hs : Sees buf h a b) : mIsNil a = isNil b := by
  obtain ⟨n, e⟩ := hs
  cases a <;> simp only [seeAttrib, Option.map_eq_some_iff, Option.some.injEq] at e <;>
    first | (obtain ⟨x, _, rfl⟩ := e; rfl) | (subst e; rfl)

theorem drawsName_sim {a : MAttrib} {b : Attrib} (hs : Sees buf h a b) : mDrawsName a = drawsName b := by
  obtain ⟨n, e⟩ := hs
  cases a with
  | id s => simp only [seeAttrib, Option.some.injEq] at e; subst e; cases s <;> rfl
  | _ =>
    simp only [seeAttrib, Option.map_eq_some_iff, Option.some.injEq] at e
    first | (obtain ⟨x, _, rfl⟩ := e; rfl) | (subst e; rfl)

theorem id_sim {a : MAttrib} {b : Attrib} : AR buf h X a b → ORel (fun s t => s = t) (mID a) (asID b) := by
  intro hs
  obtain ⟨⟨n, e⟩, ho⟩ := hs
  cases a <;> simp only [seeAttrib, Option.map_eq_some_iff, Option.some.injEq] at e <;>
    first
    | (subst e; exact .none)
    | (obtain ⟨x, _, rfl⟩ := e; exact .none)
    | (subst e; exact .some rfl)
    | (obtain ⟨x, hx, rfl⟩ := e; exact .some ⟨⟨n, hx⟩, ho _ rfl⟩)
    | (obtain ⟨x, hx, rfl⟩ := e; exact .some ⟨hx, ho _ rfl⟩)
theorem attr_sim {a : MAttrib} {b : Attrib} : AR buf h X a b → ORel (fun s t => s = t) (mAttr a) (asAttr b) := by
  intro hs
  obtain ⟨⟨n, e⟩, ho⟩ := hs
  cases a <;> simp only [seeAttrib, Option.map_eq_some_iff, Option.some.injEq] at e <;>
    first
    | (subst e; exact .none)
    | (obtain ⟨x, _, rfl⟩ := e; exact .none)
    | (subst e; exact .some rfl)
    | (obtain ⟨x, hx, rfl⟩ := e; exact .some ⟨⟨n, hx⟩, ho _ rfl⟩)
    | (obtain ⟨x, hx, rfl⟩ := e; exact .some ⟨hx, ho _ rfl⟩)
theorem op_sim {a : MAttrib} {b : Attrib} : AR buf h X a b → ORel (fun s t => s = t) (mOp a) (asOp b) := by
  intro hs
  obtain ⟨⟨n, e⟩, ho⟩ := hs
  cases a <;> simp only [seeAttrib, Option.map_eq_some_iff, Option.some.injEq] at e <;>
    first
    | (subst e; exact .none)
    | (obtain ⟨x, _, rfl⟩ := e; exact .none)
    | (subst e; exact .some rfl)
    | (obtain ⟨x, hx, rfl⟩ := e; exact .some ⟨⟨n, hx⟩, ho _ rfl⟩)
    | (obtain ⟨x, hx, rfl⟩ := e; exact .some ⟨hx, ho _ rfl⟩)
theorem nodeId_sim {a : MAttrib} {b : Attrib} : AR buf h X a b → ORel (fun s t => s = t) (mNodeId a) (asNodeId b) := by
  intro hs
  obtain ⟨⟨n, e⟩, ho⟩ := hs
  cases a <;> simp only [seeAttrib, Option.map_eq_some_iff, Option.some.injEq] at e <;>
    first
    | (subst e; exact .none)
    | (obtain ⟨x, _, rfl⟩ := e; exact .none)
    | (subst e; exact .some rfl)
    | (obtain ⟨x, hx, rfl⟩ := e; exact .some ⟨⟨n, hx⟩, ho _ rfl⟩)
    | (obtain ⟨x, hx, rfl⟩ := e; exact .some ⟨hx, ho _ rfl⟩)
theorem port_sim {a : MAttrib} {b : Attrib} : AR buf h X a b → ORel (fun s t => s = t) (mPort a) (asPort b) := by
  intro hs
  obtain ⟨⟨n, e⟩, ho⟩ := hs
  cases a <;> simp only [seeAttrib, Option.map_eq_some_iff, Option.some.injEq] at e <;>
    first
    | (subst e; exact .none)
    | (obtain ⟨x, _, rfl⟩ := e; exact .none)
    | (subst e; exact .some rfl)
    | (obtain ⟨x, hx, rfl⟩ := e; exact .some ⟨⟨n, hx⟩, ho _ rfl⟩)
    | (obtain ⟨x, hx, rfl⟩ := e; exact .some ⟨hx, ho _ rfl⟩)
theorem tok_sim {a : MAttrib} {b : Attrib} : AR buf h X a b → ORel (fun s t => seeTok buf s = t) (mTok a) (asTok b) := by
  intro hs
  obtain ⟨⟨n, e⟩, ho⟩ := hs
  cases a <;> simp only [seeAttrib, Option.map_eq_some_iff, Option.some.injEq] at e <;>
    first
    | (subst e; exact .none)
    | (obtain ⟨x, _, rfl⟩ := e; exact .none)
    | (subst e; exact .some rfl)
    | (obtain ⟨x, hx, rfl⟩ := e; exact .some ⟨⟨n, hx⟩, ho _ rfl⟩)
    | (obtain ⟨x, hx, rfl⟩ := e; exact .some ⟨hx, ho _ rfl⟩)
theorem stmts_sim {a : MAttrib} {b : Attrib} : AR buf h X a b →
    ORel (fun s t => (∃ n, seeStmts h n s = some t) ∧ Full h s ∧ ∃ x ∈ X, own x = some s) (mStmts a) (asStmts b) := by
  intro hs
  obtain ⟨⟨n, e⟩, ho⟩ := hs
  cases a <;> simp only [seeAttrib, Option.map_eq_some_iff, Option.some.injEq] at e <;>
    first
    | (subst e; exact .none)
    | (obtain ⟨x, _, rfl⟩ := e; exact .none)
    | (subst e; exact .some rfl)
    | (obtain ⟨x, hx, rfl⟩ := e; exact .some ⟨⟨n, hx⟩, ho _ rfl⟩)
    | (obtain ⟨x, hx, rfl⟩ := e; exact .some ⟨hx, ho _ rfl⟩)
theorem alist_sim {a : MAttrib} {b : Attrib} : AR buf h X a b →
    ORel (fun s t => seeAList h s = some t ∧ Full h s ∧ ∃ x ∈ X, own x = some s) (mAList a) (asAList b) := by
  intro hs
  obtain ⟨⟨n, e⟩, ho⟩ := hs
  cases a <;> simp only [seeAttrib, Option.map_eq_some_iff, Option.some.injEq] at e <;>
    first
    | (subst e; exact .none)
    | (obtain ⟨x, _, rfl⟩ := e; exact .none)
    | (subst e; exact .some rfl)
    | (obtain ⟨x, hx, rfl⟩ := e; exact .some ⟨⟨n, hx⟩, ho _ rfl⟩)
    | (obtain ⟨x, hx, rfl⟩ := e; exact .some ⟨hx, ho _ rfl⟩)
theorem attrList_sim {a : MAttrib} {b : Attrib} : AR buf h X a b →
    ORel (fun s t => seeAttrList h s = some t ∧ Full h s ∧ ∃ x ∈ X, own x = some s) (mAttrList a) (asAttrList b) := by
  intro hs
  obtain ⟨⟨n, e⟩, ho⟩ := hs
  cases a <;> simp only [seeAttrib, Option.map_eq_some_iff, Option.some.injEq] at e <;>
    first
    | (subst e; exact .none)
    | (obtain ⟨x, _, rfl⟩ := e; exact .none)
    | (subst e; exact .some rfl)
    | (obtain ⟨x, hx, rfl⟩ := e; exact .some ⟨⟨n, hx⟩, ho _ rfl⟩)
    | (obtain ⟨x, hx, rfl⟩ := e; exact .some ⟨hx, ho _ rfl⟩)
theorem rhs_sim {a : MAttrib} {b : Attrib} : AR buf h X a b →
    ORel (fun s t => (∃ n, seeRHS h (seeStmts h n) s = some t) ∧ Full h s ∧ ∃ x ∈ X, own x = some s) (mRHS a) (asRHS b) := by
  intro hs
  obtain ⟨⟨n, e⟩, ho⟩ := hs
  cases a <;> simp only [seeAttrib, Option.map_eq_some_iff, Option.some.injEq] at e <;>
    first
    | (subst e; exact .none)
    | (obtain ⟨x, _, rfl⟩ := e; exact .none)
    | (subst e; exact .some rfl)
    | (obtain ⟨x, hx, rfl⟩ := e; exact .some ⟨⟨n, hx⟩, ho _ rfl⟩)
    | (obtain ⟨x, hx, rfl⟩ := e; exact .some ⟨hx, ho _ rfl⟩)

theorem stmt_sim {a : MAttrib} {b : Attrib} (hs : AR buf h X a b) : ORel (fun s t => ∃ n, seeStmt h (seeStmts h n) s = some t) (mStmt a) (asStmt b) := by
  obtain ⟨⟨n, e⟩, ho⟩ := hs
  cases a <;> simp only [seeAttrib, Option.map_eq_some_iff, Option.some.injEq] at e <;>
    first
    | (subst e; exact .none)
    | (obtain ⟨x, _, rfl⟩ := e; exact .none)
    | (subst e; exact .some ⟨n, rfl⟩)
    | (obtain ⟨x, hx, rfl⟩ := e; exact .some ⟨n, hx⟩)
    | (obtain ⟨x, hx, rfl⟩ := e; exact .some ⟨n, by simp only [seeStmt, hx, Option.map_some]⟩)

theorem loc_sim {a : MAttrib} {b : Attrib} (hs : AR buf h X a b) : ORel (fun s t => ∃ n, seeLoc (seeStmts h n) s = some t) (mLoc a) (asLoc b) := by
  obtain ⟨⟨n, e⟩, ho⟩ := hs
  cases a <;> simp only [seeAttrib, Option.map_eq_some_iff, Option.some.injEq] at e <;>
    first
    | (subst e; exact .none)
    | (obtain ⟨x, _, rfl⟩ := e; exact .none)
    | (subst e; exact .some ⟨n, rfl⟩)
    | (obtain ⟨x, hx, rfl⟩ := e; exact .some ⟨n, by simp only [seeLoc, hx, Option.map_some]⟩)

theorem orNil_sim {α β : Type} {R : α → β → Prop} {a : MAttrib} {b : Attrib} (hs : AR buf h X a b) {d : α} {d' : β} (hd : R d d') {f : MAttrib → Option α} {g : Attrib → Option β}
    (hf : ORel R (f a) (g b)) : ORel R (mOrNil a d f) (orNil b d' g) := by
  unfold mOrNil orNil
  rw [isNil_sim hs.1]
  split
  · exact .some hd
  · exact hf

theorem ORel.mono {α β : Type} {R S : α → β → Prop} {x : Option α} {y : Option β} (h : ORel R x y) (hrs : ∀ a b, R a b → S a b) : ORel S x y := by
  cases h with
  | none => exact .none
  | some h => exact .some (hrs _ _ h)

theorem see_nil (h : Heap) : seeStmts h 1 nilSlice = some [] := by
  have : look h nilSlice = some [] := look_iff.2 ⟨by simp [view, nilSlice], rfl⟩
  simp [seeStmts, this, each]

theorem see_make (h : Heap) : seeAttrList (make h).1 (make h).2 = some [] := by
  unfold seeAttrList
  rw [rep_look (rep_make h)]; rfl

/-- Attributes of a statement: the given ones, or a new empty list. -/
theorem attrsOr_sim {a : MAttrib} {b : Attrib} (hs : AR buf h X a b) :
    ORel (fun p t => Grows h p.2 ∧ seeAttrList p.2 p.1 = some t ∧ ∀ t, Full h t → Full p.2 t) (attrsOr h a) (orNil b [] asAttrList) := by
  unfold attrsOr orNil
  rw [isNil_sim hs.1]
  split
  · exact .some ⟨alloc_grows h [], see_make h, fun t ht => alloc_frame ht _⟩
  · have := attrList_sim hs
    revert this
    generalize mAttrList a = x, asAttrList b = y
    intro h
    cases h with
    | none => exact .none
    | some h => exact .some ⟨Grows.refl _, h.1, fun _ h => h⟩

/-- A new list with one element. -/
theorem good_single {c : Cell} {mk : Slice → MAttrib} {b : Attrib} (ho : ∀ s, own (mk s) = some s)
    (hs : Sees buf (single h c).1 (mk (single h c).2) b) : ORel (ERel buf h X) (okM (mk (single h c).2) (single h c).1) (okA b) := by
  refine .some (.ok ⟨alloc_grows h _, hs, fun s e => ?_, fun t ht _ => ⟨alloc_frame ht _, fun s e => ?_⟩⟩)
  · rw [ho] at e; cases e; exact single_full h c
  · rw [ho] at e; cases e
    have := ht.lt
    show h.length ≠ t.arr
    omega

/-- Appending to a list that is an argument. -/
theorem good_append (grow : Growth) {s : Slice} (hF : Full h s) (hx : ∃ x ∈ X, own x = some s) {l : List Cell} (hl : look h s = some l) {c : Cell} {mk : Slice → MAttrib} {b : Attrib}
    (ho : ∀ s, own (mk s) = some s) (hs : Sees buf (append grow h s [some c]).1 (mk (append grow h s [some c]).2) b) :
    ORel (ERel buf h X) (okM (mk (append grow h s [some c]).2) (append grow h s [some c]).1) (okA b) := by
  obtain ⟨a1, a2, a3, a4⟩ := append_full grow hF hl c
  refine .some (.ok ⟨a1, hs, fun r e => ?_, fun t ht hd => ?_⟩)
  · rw [ho] at e; cases e; exact a3
  · obtain ⟨x, hx, hxo⟩ := hx
    obtain ⟨b1, b2⟩ := a4 t ht (hd x hx s hxo)
    refine ⟨b1, fun r e => ?_⟩
    rw [ho] at e; cases e; exact b2

theorem look_of_bind {γ : Type} {s : Slice} {F : Cell → Option γ} {r : List γ} (e : (look h s).bind (each F) = some r) :
    ∃ l, look h s = some l ∧ each F l = some r := by
  cases hl : look h s with
  | none => rw [hl] at e; cases e
  | some l => exact ⟨l, rfl, by rw [hl] at e; exact e⟩

theorem evalActM_sim (grow : Growth) (anon : Str) {Y : List Attrib} (hX : ∀ i : Nat, ORel (AR buf h X) X[i]? Y[i]?) (act : Act) :
    ORel (ERel buf h X) (evalActM grow buf anon h X act) (evalAct anon Y act) := by
  have A := marg_sim hX
  cases act with
  | x i =>
    refine ORel.bind (A _) fun a b hab => ?_
    exact .some (.ok ⟨Grows.refl h, hab.1, fun s e => (hab.2 s e).1, fun t ht hd => ⟨ht, fun s e => by
      obtain ⟨x, hx, hxo⟩ := (hab.2 s e).2
      exact hd x hx s hxo⟩⟩)
  | op d => exact good_same ⟨0, rfl⟩ rfl
  | newGraph t st id l =>
    refine ORel.bind (A _) fun a b hab => ORel.bind (orNil_sim hab rfl (id_sim hab)) fun i j hij => ?_
    refine ORel.bind (A _) fun a b hab => ORel.bind (orNil_sim (R := fun s t => ∃ n, seeStmts h n s = some t) hab ⟨1, see_nil h⟩
      ((stmts_sim hab).mono fun _ _ h => h.1)) fun s ss hs => ?_
    obtain ⟨n, hn⟩ := hs
    subst hij
    exact good_same ⟨n, by simp [seeAttrib, seeGraph, hn]⟩ rfl
  | newStmtList s =>
    refine ORel.bind (A _) fun a b hab => ORel.bind (stmt_sim hab) fun s t ⟨n, hn⟩ => ?_
    refine good_single (mk := .stmts) (fun _ => rfl) ⟨n + 1, ?_⟩
    have g : Grows h (single h (.stmt s)).1 := alloc_grows h _
    simp only [seeAttrib, seeStmts, rep_look (single_rep h (.stmt s)), Option.bind_some, each, cellStmt]
    rw [g.stmt (fun s r e => g.stmts (Nat.le_refl _) e) hn]
    rfl
  | appendStmtList ss s =>
    refine ORel.bind (A _) fun a b hab => ORel.bind (stmts_sim hab) fun u v ⟨⟨n, hn⟩, hF, hx⟩ => ?_
    refine ORel.bind (A _) fun a' b' hab' => ORel.bind (stmt_sim hab') fun s t ⟨k, hk⟩ => ?_
    cases n with
    | zero => cases hn
    | succ n =>
      obtain ⟨l, hl, he⟩ := look_of_bind hn
      refine good_append grow hF hx hl (mk := .stmts) (fun _ => rfl) ⟨max n k + 1, ?_⟩
      obtain ⟨g, r, -⟩ := append_full grow hF hl (.stmt s)
      simp only [seeAttrib, seeStmts, rep_look r, Option.bind_some]
      rw [each_snoc (g.cellStmt (c := .stmt s) (fun s r e => g.stmts (Nat.le_max_right n k) e) hk)
        (each_mono (fun x y hx => g.cellStmt (fun s r e => g.stmts (Nat.le_max_left n k) e) hx) he)]
      rfl
  | newAttr f v =>
    refine ORel.bind (A _) fun a b hab => ORel.bind (id_sim hab) fun i j hij => ORel.bind (A _) fun a' b' hab' => ?_
    subst hij
    rw [isNil_sim hab'.1]
    split
    · exact good_same ⟨0, rfl⟩ rfl
    · have := id_sim hab'
      revert this
      generalize mID a' = x, asID b' = y
      intro h
      cases h with
      | none => exact .some .error
      | some e => subst e; exact good_same ⟨0, rfl⟩ rfl
  | newGraphAttrs a =>
    refine ORel.bind (A _) fun a b hab => ORel.bind (attrList_sim hab) fun s t hs => ?_
    exact good_same ⟨0, by simp [seeAttrib, seeStmt, hs.1]⟩ rfl
  | newNodeAttrs a =>
    refine ORel.bind (A _) fun a b hab => ORel.bind (attrList_sim hab) fun s t hs => ?_
    exact good_same ⟨0, by simp [seeAttrib, seeStmt, hs.1]⟩ rfl
  | newEdgeAttrs a =>
    refine ORel.bind (A _) fun a b hab => ORel.bind (attrList_sim hab) fun s t hs => ?_
    exact good_same ⟨0, by simp [seeAttrib, seeStmt, hs.1]⟩ rfl
  | newAttrList a =>
    refine ORel.bind (A _) fun a b hab => ?_
    rw [isNil_sim hab.1]
    simp only
    split
    · refine .some (.ok ⟨alloc_grows h [], ⟨0, by simp [seeAttrib, see_make]⟩, fun s e => ?_, fun t ht _ => ⟨alloc_frame ht _, fun s e => ?_⟩⟩)
      · cases e; exact make_full h
      · cases e
        have := ht.lt
        show h.length ≠ t.arr
        omega
    · refine ORel.bind (alist_sim hab) fun s t hs => ?_
      obtain ⟨a1, a2, a3, a4⟩ := append_full grow (make_full h) (rep_look (rep_make h)) (.alist s)
      have gm : Grows h (make h).1 := alloc_grows h []
      refine .some (.ok ⟨gm.trans a1, ⟨0, ?_⟩, fun s e => ?_, fun t ht _ => ?_⟩)
      · simp only [seeAttrib, seeAttrList, rep_look a2, Option.bind_some, List.nil_append, each, cellAList]
        rw [a1.alist (gm.alist hs.1)]
        rfl
      · cases e; exact a3
      · have h1 := ht.lt
        obtain ⟨b1, b2⟩ := a4 t (alloc_frame ht _) (by show h.length ≠ t.arr; omega)
        exact ⟨b1, fun s e => by cases e; exact b2⟩
  | appendAttrList as a =>
    refine ORel.bind (A _) fun a b hab => ORel.bind (attrList_sim hab) fun u v ⟨hv, hF, hx⟩ => ORel.bind (A _) fun a' b' hab' => ?_
    rw [isNil_sim hab'.1]
    split
    · exact .some (.ok ⟨Grows.refl h, ⟨0, by simp [seeAttrib, hv]⟩, fun s e => by cases e; exact hF, fun t ht hd => ⟨ht, fun s e => by
        cases e
        obtain ⟨x, hx, hxo⟩ := hx
        exact hd x hx u hxo⟩⟩)
    · refine ORel.bind (alist_sim hab') fun s t hs => ?_
      obtain ⟨l, hl, he⟩ := look_of_bind hv
      refine good_append grow hF hx hl (mk := .attrList) (fun _ => rfl) ⟨0, ?_⟩
      obtain ⟨g, r, -⟩ := append_full grow hF hl (.alist s)
      simp only [seeAttrib, seeAttrList, rep_look r, Option.bind_some]
      rw [each_snoc (x := Cell.alist s) (y := t) (by simpa [cellAList] using g.alist hs.1)
        (each_mono (fun x y hx => by cases x <;> first | exact g.alist hx | cases hx) he)]
      rfl
  | newAList a =>
    refine ORel.bind (A _) fun a b hab => ORel.bind (attr_sim hab) fun s t hs => ?_
    subst hs
    refine good_single (mk := .alist) (fun _ => rfl) ⟨0, ?_⟩
    simp [seeAttrib, seeAList, rep_look (single_rep h (.attr s)), each, cellAttr]
  | appendAList as a =>
    refine ORel.bind (A _) fun a b hab => ORel.bind (alist_sim hab) fun u v ⟨hv, hF, hx⟩ => ORel.bind (A _) fun a' b' hab' =>
      ORel.bind (attr_sim hab') fun s t hs => ?_
    subst hs
    obtain ⟨l, hl, he⟩ := look_of_bind hv
    refine good_append grow hF hx hl (mk := .alist) (fun _ => rfl) ⟨0, ?_⟩
    obtain ⟨g, r, -⟩ := append_full grow hF hl (.attr s)
    simp only [seeAttrib, seeAList, rep_look r, Option.bind_some]
    rw [each_snoc (x := Cell.attr s) (y := s) rfl he]
    rfl
  | newEdgeStmt id e as =>
    refine ORel.bind (A _) fun a b hab => ORel.bind (attrsOr_sim hab) fun p t ⟨g, hp, hfr⟩ => ?_
    refine ORel.bind (A _) fun a b hab => ORel.bind (loc_sim hab) fun l l' ⟨n, hn⟩ => ?_
    refine ORel.bind (A _) fun a b hab => ORel.bind (rhs_sim hab) fun r r' ⟨⟨k, hk⟩, _⟩ => ?_
    refine .some (.ok ⟨g, ⟨max n k, ?_⟩, fun s e => (by cases e), fun t ht _ => ⟨hfr t ht, fun s e => (by cases e)⟩⟩)
    simp only [seeAttrib, seeStmt, hp, seeLoc_mono (fun s r e => g.stmts (Nat.le_max_left n k) e) hn,
      g.rhs (fun s r e => g.stmts (Nat.le_max_right n k) e) hk]
    rfl
  | newEdgeRHS op id =>
    refine ORel.bind (A _) fun a b hab => ORel.bind (op_sim hab) fun d d' hd => ?_
    refine ORel.bind (A _) fun a b hab => ORel.bind (loc_sim hab) fun l l' ⟨n, hn⟩ => ?_
    subst hd
    refine good_single (mk := .rhs) (fun _ => rfl) ⟨n, ?_⟩
    have g : Grows h (single h (.rh d l)).1 := alloc_grows h _
    simp only [seeAttrib, seeRHS, rep_look (single_rep h (.rh d l)), Option.bind_some, each, cellRH]
    rw [seeLoc_mono (fun s r e => g.stmts (Nat.le_refl n) e) hn]
    rfl
  | appendEdgeRHS e op id =>
    refine ORel.bind (A _) fun a b hab => ORel.bind (rhs_sim hab) fun u v ⟨⟨k, hk⟩, hF, hx⟩ => ?_
    refine ORel.bind (A _) fun a b hab => ORel.bind (op_sim hab) fun d d' hd => ?_
    refine ORel.bind (A _) fun a b hab => ORel.bind (loc_sim hab) fun l l' ⟨n, hn⟩ => ?_
    subst hd
    obtain ⟨cs, hl, he⟩ := look_of_bind hk
    refine good_append grow hF hx hl (mk := .rhs) (fun _ => rfl) ⟨max k n, ?_⟩
    obtain ⟨g, r, -⟩ := append_full grow hF hl (.rh d l)
    simp only [seeAttrib, seeRHS, rep_look r, Option.bind_some]
    rw [each_snoc (x := Cell.rh d l) (y := EdgeRH.mk d l')
      (by simp only [cellRH, seeLoc_mono (fun s r e => g.stmts (Nat.le_max_right k n) e) hn, Option.map_some])
      (each_mono (fun x y hx => cellRH_mono (fun s r e => g.stmts (Nat.le_max_left k n) e) hx) he)]
    rfl
  | newNodeStmt id as =>
    refine ORel.bind (A _) fun a b hab => ORel.bind (nodeId_sim hab) fun i j hij => ?_
    refine ORel.bind (A _) fun a b hab => ORel.bind (attrsOr_sim hab) fun p t ⟨g, hp, hfr⟩ => ?_
    subst hij
    refine .some (.ok ⟨g, ⟨0, ?_⟩, fun s e => (by cases e), fun t ht _ => ⟨hfr t ht, fun s e => (by cases e)⟩⟩)
    simp only [seeAttrib, seeStmt, hp, Option.map_some]
  | newNodeID id p =>
    refine ORel.bind (A _) fun a b hab => ORel.bind (id_sim hab) fun i j hij => ?_
    refine ORel.bind (A _) fun a b hab => ORel.bind (orNil_sim hab rfl (port_sim hab)) fun k l hkl => ?_
    subst hij; subst hkl
    exact good_same ⟨0, rfl⟩ rfl
  | newPort a b =>
    refine ORel.bind (A _) fun a b hab => ORel.bind (orNil_sim hab rfl (id_sim hab)) fun i j hij => ?_
    refine ORel.bind (A _) fun a b hab => ORel.bind (orNil_sim hab rfl (id_sim hab)) fun k l hkl => ?_
    subst hij; subst hkl
    exact good_same ⟨0, rfl⟩ rfl
  | newSubGraph id l =>
    refine ORel.bind (A _) fun a b hab => ?_
    rw [drawsName_sim hab.1]
    have body : ∀ nm : Str, ORel (ERel buf h X) (do okM (.sub nm (← mOrNil (← marg X l) nilSlice mStmts)) h)
        (do okA (.sub nm (← orNil (← arg Y l) [] asStmts))) := fun nm => by
      refine ORel.bind (A _) fun a b hab => ORel.bind (orNil_sim (R := fun s t => ∃ n, seeStmts h n s = some t) hab ⟨1, see_nil h⟩
        ((stmts_sim hab).mono fun _ _ h => h.1)) fun s ss ⟨n, hn⟩ => ?_
      exact good_same ⟨n, by simp [seeAttrib, hn]⟩ rfl
    split
    · exact body anon
    · have := id_sim hab
      revert this
      generalize mID a = x, asID b = y
      intro h
      cases h with
      | none => exact .some .error
      | some e => subst e; exact body _
  | newID a =>
    refine ORel.bind (A _) fun a b hab => ?_
    rw [isNil_sim hab.1]
    split
    · exact good_same ⟨0, rfl⟩ rfl
    · refine ORel.bind (tok_sim hab) fun t t' ht => ?_
      subst ht
      exact good_same ⟨0, rfl⟩ rfl

theorem actDraws_sim {Y : List Attrib} (hX : ∀ i : Nat, ORel (AR buf h X) X[i]? Y[i]?) (act : Act) : mActDraws X act = actDraws Y act := by
  cases act with
  | newSubGraph id l =>
    simp only [mActDraws, actDraws]
    have := marg_sim hX id
    revert this
    generalize marg X id = x, arg Y id = y
    intro h
    cases h with
    | none => rfl
    | some hab => simp [drawsName_sim hab.1]
  | _ => rfl

end
end Gographviz.ParseMem
