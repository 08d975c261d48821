import Verif.Spec.Dotlang
import Verif.Spec.Meaning
import Verif.Props.PastedProps
/-!
Lemmas for C95: the published grammar and the accepted one, compared.
-/
namespace Gographviz.Proofs.Dot
open Gographviz Gographviz.Spec Gographviz.Spec.Meaning
open Gographviz.Spec.Dot (May Entry MayAList MayAttrList NodeId EdgeOp Target Heading Kind Announces)

/-- What has been read, last token first, ends like the announcement of a brace. -/
def Ann : List Nat → Prop
  | k :: r => Announces k ∨ (k = 18 ∧ ∃ k' r', r = k' :: r' ∧ Announces k')
  | [] => False

/-- The next token is not the `]` after a comma and not the `}` of bare braces. -/
def okAt (rev : List Nat) (t : Nat) : Prop :=
  (t = 12 → ∀ r, rev ≠ 13 :: r) ∧ (t = 4 → ∀ r, rev = 3 :: r → Ann r)

/-- No token of the list is one of those. -/
def scan (rev : List Nat) : List Nat → Prop
  | [] => True
  | t :: ts => okAt rev t ∧ scan (t :: rev) ts

theorem scan_append (rev a b : List Nat) : scan rev (a ++ b) ↔ scan rev a ∧ scan (a.reverse ++ rev) b := by
  induction a generalizing rev with
  | nil => simp [scan]
  | cons t a ih => simp [scan, ih, and_assoc]

theorem ann_iff (before : List Nat) : Ann before.reverse ↔ Spec.Dot.Announced before := by
  constructor
  · intro h
    match hb : before.reverse, h with
    | k :: r, .inl h =>
      refine ⟨r.reverse, k, h, .inl ?_⟩
      have := congrArg List.reverse hb
      simpa using this
    | _ :: r, .inr ⟨rfl, k', r', hr, h⟩ =>
      refine ⟨r'.reverse, k', h, .inr ?_⟩
      have := congrArg List.reverse hb
      subst hr
      simpa using this
  · rintro ⟨p, k, h, rfl | rfl⟩
    · simp [Ann, h]
    · simp [Ann, h]

theorem scan_iff_aux (ts rev : List Nat) : scan rev ts ↔ ∀ before t after, ts = before ++ t :: after → okAt (before.reverse ++ rev) t := by
  induction ts generalizing rev with
  | nil => simp [scan]
  | cons x xs ih =>
    rw [scan, ih]
    constructor
    · rintro ⟨h1, h2⟩ before t after he
      cases before with
      | nil => simp only [List.nil_append, List.cons.injEq] at he; obtain ⟨rfl, rfl⟩ := he; simpa using h1
      | cons y before =>
        simp only [List.cons_append, List.cons.injEq] at he
        obtain ⟨rfl, rfl⟩ := he
        simpa using h2 before t after rfl
    · intro h
      refine ⟨h [] x xs rfl, fun before t after he => ?_⟩
      subst he
      simpa using h (x :: before) t after rfl

theorem scan_iff (ts : List Nat) : scan [] ts ↔ Spec.Dot.NoLastComma ts ∧ Spec.Dot.NoBareBraces ts := by
  rw [scan_iff_aux]
  constructor
  · intro h
    refine ⟨?_, ?_⟩
    · rintro ⟨before, after, rfl⟩
      have := (h (before ++ [13]) 12 after (by simp)).1 rfl before.reverse
      simp at this
    · intro before after he
      have := (h (before ++ [3]) 4 after (by simp [he])).2 rfl before.reverse (by simp)
      exact (ann_iff before).1 this
  · rintro ⟨h1, h2⟩ before t after he
    refine ⟨?_, ?_⟩
    · rintro rfl r hr
      refine h1 ⟨r.reverse, after, ?_⟩
      have := congrArg List.reverse hr
      simp only [List.append_nil, List.reverse_reverse, List.reverse_cons] at this
      rw [he, this]; simp
    · rintro rfl r hr
      have := congrArg List.reverse hr
      simp only [List.append_nil, List.reverse_reverse, List.reverse_cons] at this
      have h := h2 r.reverse after (by rw [he, this]; simp)
      rw [← ann_iff, List.reverse_reverse] at h
      exact h

/-- Where a statement can begin. -/
def Start (rev : List Nat) : Prop := ¬ Ann rev ∧ ∀ r, rev ≠ 13 :: r
/-- Where a statement can end. -/
def Fin (rev : List Nat) : Prop := Start rev ∧ ∀ r, rev ≠ 3 :: r

theorem Start.push {rev : List Nat} (h : Start rev) {t : Nat} (h1 : ¬ Announces t) (h2 : t ≠ 13) : Start (t :: rev) := by
  refine ⟨?_, ?_⟩
  · rintro (ha | ⟨rfl, k, r, rfl, hk⟩)
    · exact h1 ha
    · exact h.1 (.inl hk)
  · rintro r he
    exact h2 (List.cons.inj he).1

/-- Tokens other than 18 need no condition. -/
theorem Start.fresh {rev : List Nat} {t : Nat} (h1 : ¬ Announces t) (h2 : t ≠ 13) (h3 : t ≠ 18) : Start (t :: rev) := by
  refine ⟨?_, ?_⟩
  · rintro (ha | ⟨he, _⟩)
    · exact h1 ha
    · exact h3 he
  · rintro r he
    exact h2 (List.cons.inj he).1

theorem fin {rev : List Nat} {t : Nat} (h : Start (t :: rev)) (h3 : t ≠ 3) : Fin (t :: rev) :=
  ⟨h, fun _ he => h3 (List.cons.inj he).1⟩

theorem okAt.other {rev : List Nat} {t : Nat} (h1 : t ≠ 12) (h2 : t ≠ 4) : okAt rev t := ⟨fun h => absurd h h1, fun h => absurd h h2⟩

theorem okAt.fin {rev : List Nat} {t : Nat} (h : Fin rev) : okAt rev t := ⟨fun _ => h.1.2, fun _ r hr => absurd hr (h.2 r)⟩

theorem okAt.bracket {rev : List Nat} (h : ∀ r, rev ≠ 13 :: r) : okAt rev 12 := ⟨fun _ => h, fun h => absurd h (by decide)⟩

theorem na {t : Nat} (h : t ≠ 2 := by decide) (h1 : t ≠ 6 := by decide) (h2 : t ≠ 15 := by decide) : ¬ Announces t := by
  rintro (h' | h' | h') <;> contradiction

/-! ### Attributes -/

theorem entry_acc {ns : List Nat} (h : Entry ns) {ts : List Lexeme} (e : ts.map Prod.fst = ns) : ∃ a, AttrM ts a := by
  cases h with
  | flag =>
    match ts, e with
    | [(18, f)], _ => exact ⟨_, .flag⟩
  | pair =>
    match ts, e with
    | [(18, f), (8, l), (18, v)], _ => exact ⟨_, .pair⟩

theorem may_acc {t : Nat} {ns : List Nat} (h : May t ns) {ts : List Lexeme} (e : ts.map Prod.fst = ns) : Opt t ts := by
  cases h with
  | no => rw [List.map_eq_nil_iff.1 e]; exact .absent
  | yes =>
    match ts, e with
    | [(x, l)], e => simp at e; subst e; exact .present

theorem alist_cons {ts cm us : List Lexeme} {a : Ast.Attr} {as : Ast.AList} (h : AttrM ts a) (hc : Opt 13 cm) (h' : AListM us as) :
    AListM (ts ++ (cm ++ us)) (a :: as) := by
  induction h' with
  | one h2 => exact .snoc (.one h) hc h2
  | snoc _ h2 h3 ih => simpa using AListM.snoc ih h2 h3

theorem alist_acc {ns : List Nat} (h : Spec.Dot.AList ns) :
    ∀ {rev : List Nat} {ts : List Lexeme}, scan rev (ns ++ [12]) → ts.map Prod.fst = ns → ∃ as, AListM ts as := by
  induction h with
  | @last a c h1 h2 =>
    intro rev ts hs e
    cases h2 with
    | no =>
      obtain ⟨x, hx⟩ := entry_acc h1 (by simpa using e)
      exact ⟨_, .one hx⟩
    | yes =>
      rw [List.append_assoc, scan_append] at hs
      exact absurd rfl (hs.2.2.1.1 rfl _)
  | @more a c r h1 h2 _ ih =>
    intro rev ts hs e
    obtain ⟨t1, t2, rfl, e1, e2⟩ := List.map_eq_append_iff.1 e
    obtain ⟨t3, t4, rfl, e3, e4⟩ := List.map_eq_append_iff.1 e2
    obtain ⟨x, hx⟩ := entry_acc h1 e1
    rw [List.append_assoc, List.append_assoc, scan_append, scan_append] at hs
    obtain ⟨as, has⟩ := ih hs.2.2 e4
    exact ⟨_, alist_cons hx (may_acc h2 e3) has⟩

theorem attrList_cons {ts us : List Lexeme} {as bs : Ast.AttrList} (h : BracketM ts as) (h' : AttrListM us bs) : AttrListM (ts ++ us) (as ++ bs) := by
  induction h' with
  | one h2 => exact .snoc (.one h) h2
  | snoc _ h2 ih => simpa using AttrListM.snoc ih h2

theorem bracket_acc {ns : List Nat} (h : MayAList ns) {rev : List Nat} {l l' : Str} {ts : List Lexeme} (hs : scan rev (ns ++ [12]))
    (e : ts.map Prod.fst = ns) : ∃ as, BracketM ((11, l) :: (ts ++ [(12, l')])) as := by
  cases h with
  | no => rw [List.map_eq_nil_iff.1 e]; exact ⟨_, .empty⟩
  | yes h =>
    obtain ⟨as, h⟩ := alist_acc h hs e
    exact ⟨_, .full h⟩

theorem attrList_acc {ns : List Nat} (h : Spec.Dot.AttrList ns) :
    ∀ {rev : List Nat} {ts : List Lexeme}, scan rev ns → ts.map Prod.fst = ns → ∃ as, AttrListM ts as := by
  induction h with
  | @last a h =>
    intro rev ts hs e
    match ts, e with
    | (x, l) :: ts, e =>
      simp only [List.map_cons, List.cons.injEq] at e
      obtain ⟨rfl, e⟩ := e
      obtain ⟨t1, t2, rfl, e1, e2⟩ := List.map_eq_append_iff.1 e
      match t2, e2 with
      | [(y, l')], e2 =>
        simp only [List.map_cons, List.map_nil, List.cons.injEq, and_true] at e2
        subst e2
        obtain ⟨as, h⟩ := bracket_acc (l := l) (l' := l') h hs.2 e1
        exact ⟨_, .one h⟩
  | @more a r h _ ih =>
    intro rev ts hs e
    match ts, e with
    | (x, l) :: ts, e =>
      simp only [List.map_cons, List.cons.injEq] at e
      obtain ⟨rfl, e⟩ := e
      obtain ⟨t1, t2, rfl, e1, e2⟩ := List.map_eq_append_iff.1 e
      match t2, e2 with
      | (y, l') :: t2, e2 =>
        simp only [List.map_cons, List.cons.injEq] at e2
        obtain ⟨rfl, e2⟩ := e2
        have hs' := hs.2
        rw [show a ++ 12 :: r = (a ++ [12]) ++ r by simp, scan_append] at hs'
        obtain ⟨as, h⟩ := bracket_acc (l := l) (l' := l') h hs'.1 e1
        obtain ⟨bs, h'⟩ := ih hs'.2 e2
        exact ⟨_, by simpa using attrList_cons h h'⟩

theorem mayAttrList_acc {ns : List Nat} (h : MayAttrList ns) {rev : List Nat} {ts : List Lexeme} (hs : scan rev ns) (e : ts.map Prod.fst = ns) :
    ∃ as, OptAttrListM ts as := by
  cases h with
  | no => rw [List.map_eq_nil_iff.1 e]; exact ⟨_, .absent⟩
  | yes h =>
    obtain ⟨as, h⟩ := attrList_acc h hs e
    exact ⟨_, .present h⟩

theorem attrList_fin {ns : List Nat} (h : Spec.Dot.AttrList ns) : ∀ rev : List Nat, Fin (ns.reverse ++ rev) := by
  induction h with
  | last h => intro rev; simpa using fin (.fresh na (by decide) (by decide)) (by decide)
  | @more a r h _ ih => intro rev; simpa using ih (12 :: (a.reverse ++ 11 :: rev))

theorem mayAttrList_fin {ns : List Nat} (h : MayAttrList ns) {rev : List Nat} (hr : Fin rev) : Fin (ns.reverse ++ rev) := by
  cases h with
  | no => exact hr
  | yes h => exact attrList_fin h rev

theorem nodeId_fin {ns : List Nat} (h : NodeId ns) {rev : List Nat} (hr : Start rev) : Fin (ns.reverse ++ rev) := by
  cases h with
  | plain => exact fin (hr.push na (by decide)) (by decide)
  | port => exact fin (.push (.fresh na (by decide) (by decide)) na (by decide)) (by decide)
  | compass => exact fin (.push (.fresh na (by decide) (by decide)) na (by decide)) (by decide)

theorem nodeId_acc {ns : List Nat} (h : NodeId ns) {ts : List Lexeme} (e : ts.map Prod.fst = ns) : ∃ n, NodeIdM ts n := by
  cases h with
  | plain =>
    match ts, e with
    | [(18, f)], _ => exact ⟨_, .plain⟩
  | port =>
    match ts, e with
    | [(18, f), (14, l), (18, v)], _ => exact ⟨_, .port⟩
  | compass =>
    match ts, e with
    | [(18, f), (14, l), (18, v), (14, l'), (18, w)], _ => exact ⟨_, .port2⟩

theorem rhs_cons {gen : Nat → Str} {c c1 c2 : Nat} {ts us : List Lexeme} {x : Lexeme} {op : Bool} {d : Ast.Loc} {rhs : List Ast.EdgeRH}
    (h0 : OpM x op) (h : LocM gen c ts d c1) (h' : RhsM gen c1 us rhs c2) : RhsM gen c (x :: (ts ++ us)) (.mk op d :: rhs) c2 := by
  obtain ⟨n, hn⟩ : ∃ n, rhs.length = n := ⟨_, rfl⟩
  induction n generalizing rhs us c2 with
  | zero => cases h' <;> simp at hn
  | succ n ih =>
    cases h' with
    | one h1 h2 => simpa using RhsM.snoc (.one h0 h) h1 h2
    | snoc h1 h2 h3 => simpa using RhsM.snoc (ih h1 (by simpa using hn)) h2 h3

/-- Published and free of the two forms: accepted. -/
theorem stmtList_acc (gen : Nat → Str) {ns : List Nat} (h : Spec.Dot.StmtList ns) :
    (∀ rev, Start rev → (ns = [] ∨ Fin (ns.reverse ++ rev)) ∧ (scan rev ns → ∀ ts : List Lexeme, ts.map Prod.fst = ns → ∀ c, ∃ ss c', OptStmtsM gen c ts ss c')) := by
  refine Spec.Dot.StmtList.rec
    (motive_1 := fun ns _ => ∀ rev, Start rev → Fin (ns.reverse ++ rev) ∧ (scan rev ns → ∀ ts : List Lexeme, ts.map Prod.fst = ns → ∀ c, ∃ s c', StmtM gen c ts s c'))
    (motive_2 := fun ns _ => ∀ rev, Start rev → Fin (ns.reverse ++ rev) ∧ (scan rev ns → ∀ ts : List Lexeme, ts.map Prod.fst = ns → ∀ c, ∃ s c', LocM gen c ts s c'))
    (motive_3 := fun ns _ => ∀ rev, Start rev → Fin (ns.reverse ++ rev) ∧ (scan rev ns → ∀ ts : List Lexeme, ts.map Prod.fst = ns → ∀ c, ∃ s c', RhsM gen c ts s c'))
    (motive_4 := fun ns _ => ∀ rev, Start rev → Fin (ns.reverse ++ rev) ∧ (scan rev ns → ∀ ts : List Lexeme, ts.map Prod.fst = ns → ∀ c, ∃ i s c', SubM gen c ts i s c'))
    (motive_5 := fun ns _ => ∀ rev, Start rev → (ns = [] ∨ Fin (ns.reverse ++ rev)) ∧
      (scan rev ns → ∀ ts : List Lexeme, ts.map Prod.fst = ns → ∀ c, ∃ ss c', OptStmtsM gen c ts ss c'))
    ?_ ?_ ?_ ?_ ?_ ?_ ?_ ?_ ?_ ?_ ?_ ?_ h
  · intro a b ha hb rev hr
    have hf := nodeId_fin ha hr
    refine ⟨by simpa using mayAttrList_fin hb hf, fun hs ts e c => ?_⟩
    obtain ⟨t1, t2, rfl, e1, e2⟩ := List.map_eq_append_iff.1 e
    obtain ⟨n, hn⟩ := nodeId_acc ha e1
    obtain ⟨as, has⟩ := mayAttrList_acc hb ((scan_append _ _ _).1 hs).2 e2
    exact ⟨_, _, .node hn has⟩
  · intro a b d _ _ hd iha ihb rev hr
    have ha := iha rev hr
    have hb := ihb _ ha.1.1
    refine ⟨by simpa using mayAttrList_fin hd hb.1, fun hs ts e c => ?_⟩
    obtain ⟨t1, t2, rfl, e1, e2⟩ := List.map_eq_append_iff.1 e
    obtain ⟨t3, t4, rfl, e3, e4⟩ := List.map_eq_append_iff.1 e2
    rw [scan_append, scan_append] at hs
    obtain ⟨x, c1, hx⟩ := ha.2 hs.1 _ e1 c
    obtain ⟨y, c2, hy⟩ := hb.2 hs.2.1 _ e3 c1
    obtain ⟨as, has⟩ := mayAttrList_acc hd hs.2.2 e4
    exact ⟨_, _, .edge hx hy has⟩
  · intro k a hk ha rev hr
    refine ⟨by simpa using attrList_fin ha (k :: rev), fun hs ts e c => ?_⟩
    match ts, e with
    | (x, l) :: ts, e =>
      simp only [List.map_cons, List.cons.injEq] at e
      obtain ⟨rfl, e'⟩ := e
      obtain ⟨as, has⟩ := attrList_acc ha hs.2 e'
      cases hk with
      | graph => exact ⟨_, _, .graphAttrs has⟩
      | node => exact ⟨_, _, .nodeAttrs has⟩
      | edge => exact ⟨_, _, .edgeAttrs has⟩
  · intro rev hr
    refine ⟨fin (.push (.fresh na (by decide) (by decide)) na (by decide)) (by decide), fun hs ts e c => ?_⟩
    match ts, e with
    | [(18, f), (8, l), (18, v)], _ => exact ⟨_, _, .attr⟩
  · intro a _ ih rev hr
    refine ⟨(ih rev hr).1, fun hs ts e c => ?_⟩
    obtain ⟨i, s, c', h⟩ := (ih rev hr).2 hs ts e c
    exact ⟨_, _, .sub h⟩
  · intro a ha rev hr
    refine ⟨nodeId_fin ha hr, fun hs ts e c => ?_⟩
    obtain ⟨n, hn⟩ := nodeId_acc ha e
    exact ⟨_, _, .node hn⟩
  · intro a _ ih rev hr
    refine ⟨(ih rev hr).1, fun hs ts e c => ?_⟩
    obtain ⟨i, s, c', h⟩ := (ih rev hr).2 hs ts e c
    exact ⟨_, _, .sub h⟩
  · intro o a ho _ ih rev hr
    have hr' : Start (o :: rev) := by cases ho <;> exact .fresh na (by decide) (by decide)
    refine ⟨by simpa using (ih _ hr').1, fun hs ts e c => ?_⟩
    match ts, e with
    | (x, l) :: ts, e =>
      simp only [List.map_cons, List.cons.injEq] at e
      obtain ⟨rfl, e'⟩ := e
      obtain ⟨d, c', hd⟩ := (ih _ hr').2 hs.2 _ e' c
      cases ho with
      | directed => exact ⟨_, _, .one .directed hd⟩
      | undirected => exact ⟨_, _, .one .undirected hd⟩
  · intro o a r ho _ _ ih ihr rev hr
    have hr' : Start (o :: rev) := by cases ho <;> exact .fresh na (by decide) (by decide)
    have ha := ih _ hr'
    have hb := ihr _ ha.1.1
    refine ⟨by simpa using hb.1, fun hs ts e c => ?_⟩
    match ts, e with
    | (x, l) :: ts, e =>
      simp only [List.map_cons, List.cons.injEq] at e
      obtain ⟨rfl, e'⟩ := e
      obtain ⟨t1, t2, rfl, e1, e2⟩ := List.map_eq_append_iff.1 e'
      have hs' := (scan_append _ _ _).1 hs.2
      obtain ⟨d, c1, hd⟩ := ha.2 hs'.1 _ e1 c
      obtain ⟨y, c2, hy⟩ := hb.2 hs'.2 _ e2 c1
      cases ho with
      | directed => exact ⟨_, _, rhs_cons .directed hd hy⟩
      | undirected => exact ⟨_, _, rhs_cons .undirected hd hy⟩
  · intro h a hh _ ih rev hr
    have hb := ih (3 :: (h.reverse ++ rev)) (.fresh na (by decide) (by decide))
    refine ⟨by simpa using fin (.fresh na (by decide) (by decide)) (by decide), fun hs ts e c => ?_⟩
    obtain ⟨t1, t2, rfl, e1, e2⟩ := List.map_eq_append_iff.1 e
    match t2, e2 with
    | (x, l) :: t2, e2 =>
      simp only [List.map_cons, List.cons.injEq] at e2
      obtain ⟨rfl, e2⟩ := e2
      obtain ⟨t3, t4, rfl, e3, e4⟩ := List.map_eq_append_iff.1 e2
      match t4, e4 with
      | [(y, l')], e4 =>
        simp only [List.map_cons, List.map_nil, List.cons.injEq, and_true] at e4
        subst e4
        have hs' := ((scan_append _ _ _).1 hs).2
        obtain ⟨b, c', hb'⟩ := hb.2 ((scan_append _ _ _).1 hs'.2).1 _ e3 c
        cases hh with
        | none =>
          have : t1 = [] := List.map_eq_nil_iff.1 e1
          subst this
          cases hb' with
          | present hb' => exact ⟨_, _, _, .braces hb'⟩
          | absent =>
            simp only [List.map_nil] at e3
            subst e3
            exact absurd (hs'.2.1.2 rfl _ rfl) hr.1
        | anonymous =>
          match t1, e1 with
          | [(15, k)], _ => exact ⟨_, _, _, .anon hb'⟩
        | named =>
          match t1, e1 with
          | [(15, k), (18, s)], _ => exact ⟨_, _, _, .named hb'⟩
  · intro rev hr
    refine ⟨.inl rfl, fun hs ts e c => ?_⟩
    rw [List.map_eq_nil_iff.1 e]
    exact ⟨_, _, .absent⟩
  · intro a s r _ hs _ iha ihr rev hr
    have ha := iha rev hr
    have hsf : Fin (s.reverse ++ (a.reverse ++ rev)) := by
      cases hs with
      | no => exact ha.1
      | yes => exact fin (.fresh na (by decide) (by decide)) (by decide)
    have hb := ihr _ hsf.1
    refine ⟨.inr ?_, fun hsc ts e c => ?_⟩
    · rcases hb.1 with rfl | hb
      · simpa using hsf
      · simpa using hb
    · obtain ⟨t1, t2, rfl, e1, e2⟩ := List.map_eq_append_iff.1 e
      obtain ⟨t3, t4, rfl, e3, e4⟩ := List.map_eq_append_iff.1 e2
      rw [scan_append, scan_append] at hsc
      obtain ⟨x, c1, hx⟩ := ha.2 hsc.1 _ e1 c
      obtain ⟨y, c2, hy⟩ := hb.2 hsc.2.2 _ e4 c1
      exact ⟨_, _, by simpa using Props.optStmtsM_append (.present (.one hx (may_acc hs e3))) hy⟩

/-! ### The converse -/

theorem opt_pub {t : Nat} {ts : List Lexeme} (h : Opt t ts) : May t (ts.map Prod.fst) := by
  cases h with
  | absent => exact .no
  | present => exact .yes

theorem attr_pub {ts : List Lexeme} {a : Ast.Attr} (h : AttrM ts a) : Entry (ts.map Prod.fst) := by
  cases h with
  | flag => exact .flag
  | pair => exact .pair

theorem alist_snoc {a c e : List Nat} (h : Spec.Dot.AList a) : ∀ {a' : List Nat}, a = a' → May 13 c → Entry e → (∀ r, a.reverse ≠ 13 :: r) → Spec.Dot.AList (a ++ (c ++ e)) := by
  induction h with
  | @last x y h1 h2 =>
    intro _ _ hc he hn
    cases h2 with
    | no => simpa using Spec.Dot.AList.more h1 hc (by simpa using Spec.Dot.AList.last he .no)
    | yes => simp at hn
  | @more x y r h1 h2 h3 ih =>
    intro _ _ hc he hn
    have : ∀ q, r.reverse ≠ 13 :: q := by
      intro q hq
      refine hn (q ++ (y.reverse ++ x.reverse)) ?_
      simp [hq]
    simpa using Spec.Dot.AList.more h1 h2 (ih rfl hc he this)

theorem entry_last {ns : List Nat} (h : Entry ns) (rev : List Nat) : ∀ r, ns.reverse ++ rev ≠ 13 :: r := by
  cases h <;> simp

theorem alist_pub {ts : List Lexeme} {as : Ast.AList} (h : AListM ts as) :
    Spec.Dot.AList (ts.map Prod.fst) ∧ (∀ rev r, (ts.map Prod.fst).reverse ++ rev ≠ 13 :: r) ∧ ∀ rev, scan rev (ts.map Prod.fst) := by
  have sc : ∀ {us : List Lexeme} {a : Ast.Attr}, AttrM us a → ∀ rev, scan rev (us.map Prod.fst) := by
    intro us a h rev
    cases h <;> simp [scan, okAt]
  induction h with
  | one h =>
    refine ⟨?_, entry_last (attr_pub h), sc h⟩
    have := Spec.Dot.AList.last (attr_pub h) .no
    simpa using this
  | @snoc ts cm us as a h1 h2 h3 ih =>
    refine ⟨?_, ?_, ?_⟩
    · have := alist_snoc (c := cm.map Prod.fst) (e := us.map Prod.fst) ih.1 rfl (opt_pub h2) (attr_pub h3) (by simpa using ih.2.1 [])
      simpa using this
    · intro rev r
      have := entry_last (attr_pub h3) ((cm.map Prod.fst).reverse ++ ((ts.map Prod.fst).reverse ++ rev)) r
      simpa using this
    · intro rev
      rw [List.map_append, List.map_append, scan_append, scan_append]
      refine ⟨ih.2.2 rev, ?_, sc h3 _⟩
      cases h2 with
      | absent => trivial
      | present => exact ⟨okAt.other (t := 13) (by decide) (by decide), trivial⟩

theorem bracket_pub {ts : List Lexeme} {as : Ast.AttrList} (h : BracketM ts as) :
    ∃ a, ts.map Prod.fst = 11 :: (a ++ [12]) ∧ MayAList a ∧ ∀ rev, scan rev (ts.map Prod.fst) := by
  cases h with
  | empty => exact ⟨[], rfl, .no, fun rev => by simp [scan, okAt]⟩
  | @full l l' ts as h =>
    obtain ⟨h1, h2, h3⟩ := alist_pub h
    refine ⟨_, by simp, .yes h1, fun rev => ?_⟩
    rw [List.map_cons, List.map_append]
    refine ⟨okAt.other (t := 11) (by decide) (by decide), ?_⟩
    rw [scan_append]
    exact ⟨h3 _, .bracket (h2 _), trivial⟩

theorem attrList_snoc {a b : List Nat} (h : Spec.Dot.AttrList a) (hb : MayAList b) : Spec.Dot.AttrList (a ++ (11 :: (b ++ [12]))) := by
  induction h with
  | last h => simpa using Spec.Dot.AttrList.more h (.last hb)
  | more h _ ih => simpa using Spec.Dot.AttrList.more h ih

theorem attrList_pub {ts : List Lexeme} {as : Ast.AttrList} (h : AttrListM ts as) :
    Spec.Dot.AttrList (ts.map Prod.fst) ∧ ∀ rev, scan rev (ts.map Prod.fst) := by
  induction h with
  | one h =>
    obtain ⟨a, h1, h2, h3⟩ := bracket_pub h
    exact ⟨h1 ▸ .last h2, h3⟩
  | @snoc ts us as bs _ h ih =>
    obtain ⟨a, h1, h2, h3⟩ := bracket_pub h
    refine ⟨?_, fun rev => ?_⟩
    · rw [List.map_append, h1]
      exact attrList_snoc ih.1 h2
    · rw [List.map_append, scan_append]
      exact ⟨ih.2 _, h3 _⟩

theorem optAttrList_pub {ts : List Lexeme} {as : Ast.AttrList} (h : OptAttrListM ts as) :
    MayAttrList (ts.map Prod.fst) ∧ ∀ rev, scan rev (ts.map Prod.fst) := by
  cases h with
  | absent => exact ⟨.no, fun _ => trivial⟩
  | present h => exact ⟨.yes (attrList_pub h).1, (attrList_pub h).2⟩

theorem nodeId_pub {ts : List Lexeme} {n : Ast.NodeID} (h : NodeIdM ts n) : NodeId (ts.map Prod.fst) ∧ ∀ rev, scan rev (ts.map Prod.fst) := by
  cases h with
  | plain => exact ⟨.plain, fun rev => by simp [scan, okAt]⟩
  | port => exact ⟨.port, fun rev => by simp [scan, okAt]⟩
  | port2 => exact ⟨.compass, fun rev => by simp [scan, okAt]⟩

theorem edgeRHS_snoc (n : Nat) : ∀ {a : List Nat}, a.length ≤ n → Spec.Dot.EdgeRHS a → ∀ {o : Nat} {b : List Nat},
    EdgeOp o → Spec.Dot.EdgeEnd b → Spec.Dot.EdgeRHS (a ++ (o :: b)) := by
  induction n with
  | zero => intro a hn h; cases h <;> simp at hn
  | succ n ih =>
    intro a hn h o b ho hb
    cases h with
    | last h1 h2 => exact .more h1 h2 (.last ho hb)
    | @more o' a' r h1 h2 h3 =>
      simpa using Spec.Dot.EdgeRHS.more h1 h2 (ih (by simp at hn; omega) h3 ho hb)

theorem stmtList_append {a b : List Nat} (ha : Spec.Dot.StmtList a) (hb : Spec.Dot.StmtList b) : Spec.Dot.StmtList (a ++ b) := by
  refine Spec.Dot.StmtList.rec (motive_1 := fun _ _ => True) (motive_2 := fun _ _ => True) (motive_3 := fun _ _ => True) (motive_4 := fun _ _ => True)
    (motive_5 := fun a _ => Spec.Dot.StmtList (a ++ b)) ?_ ?_ ?_ ?_ ?_ ?_ ?_ ?_ ?_ ?_ ?_ ?_ ha
  · intros; trivial
  · intros; trivial
  · intros; trivial
  · trivial
  · intros; trivial
  · intros; trivial
  · intros; trivial
  · intros; trivial
  · intros; trivial
  · intros; trivial
  · exact hb
  · intro a s r h1 h2 _ _ ih
    simpa using Spec.Dot.StmtList.some h1 h2 ih

/-- From where a statement can begin to where one can end, without the two forms. -/
def Good (ns : List Nat) : Prop := ∀ rev, Start rev → scan rev ns ∧ Fin (ns.reverse ++ rev)

theorem Good.append {a b : List Nat} (ha : Good a) (hb : Good b) : Good (a ++ b) := by
  intro rev hr
  have h1 := ha rev hr
  have h2 := hb _ h1.2.1
  rw [scan_append, List.reverse_append, List.append_assoc]
  exact ⟨⟨h1.1, h2.1⟩, h2.2⟩

theorem Good.attrs {ts : List Lexeme} {as : Ast.AttrList} {a : List Nat} (ha : Good a) (h : OptAttrListM ts as) : Good (a ++ ts.map Prod.fst) := by
  intro rev hr
  have h1 := ha rev hr
  have h2 := optAttrList_pub h
  rw [scan_append, List.reverse_append, List.append_assoc]
  exact ⟨⟨h1.1, h2.2 _⟩, mayAttrList_fin h2.1 h1.2⟩

theorem Good.semi {sm : List Lexeme} {a : List Nat} (ha : Good a) (h : Opt 7 sm) : Good (a ++ sm.map Prod.fst) := by
  cases h with
  | absent => simpa using ha
  | present =>
    refine ha.append fun rev _ => ?_
    exact ⟨⟨okAt.other (t := 7) (by decide) (by decide), trivial⟩, fin (t := 7) (.fresh na (by decide) (by decide)) (by decide)⟩

theorem Good.node {ts : List Lexeme} {n : Ast.NodeID} (h : NodeIdM ts n) : Good (ts.map Prod.fst) :=
  fun _ hr => ⟨(nodeId_pub h).2 _, nodeId_fin (nodeId_pub h).1 hr⟩

theorem Good.braces {h ns : List Nat} (hh : Heading h) (hg : (ns = [] ∧ h ≠ []) ∨ Good ns) : Good (h ++ (3 :: (ns ++ [4]))) := by
  intro rev hr
  have h3 : Start (3 :: (h.reverse ++ rev)) := .fresh na (by decide) (by decide)
  refine ⟨?_, by simpa using fin (t := 4) (.fresh na (by decide) (by decide)) (by decide)⟩
  rw [scan_append]
  refine ⟨by cases hh <;> simp [scan, okAt], okAt.other (by decide) (by decide), ?_⟩
  rw [scan_append]
  rcases hg with ⟨rfl, hn⟩ | hg
  · refine ⟨trivial, ⟨fun h => absurd h (by decide), fun _ r hr => ?_⟩, trivial⟩
    simp only [List.reverse_nil, List.nil_append, List.cons.injEq, true_and] at hr
    subst hr
    cases hh with
    | none => exact absurd rfl hn
    | anonymous => exact .inl (.inr (.inr rfl))
    | named => exact .inr ⟨rfl, _, _, rfl, .inr (.inr rfl)⟩
  · exact ⟨(hg _ h3).1, .fin (hg _ h3).2, trivial⟩

/-- Accepted: published, and free of the two forms. -/
theorem optStmts_pub {gen : Nat → Str} {c c' : Nat} {ts : List Lexeme} {ss : List Ast.Stmt} (h : OptStmtsM gen c ts ss c') :
    Spec.Dot.StmtList (ts.map Prod.fst) ∧ (ts.map Prod.fst = [] ∨ Good (ts.map Prod.fst)) := by
  refine OptStmtsM.rec (gen := gen)
    (motive_1 := fun c ts s c' _ => Spec.Dot.Stmt (ts.map Prod.fst) ∧ Good (ts.map Prod.fst))
    (motive_2 := fun c ts l c' _ => Spec.Dot.EdgeEnd (ts.map Prod.fst) ∧ Good (ts.map Prod.fst))
    (motive_3 := fun c ts es c' _ => Spec.Dot.EdgeRHS (ts.map Prod.fst) ∧ Good (ts.map Prod.fst))
    (motive_4 := fun c ts id b c' _ => Spec.Dot.Subgraph (ts.map Prod.fst) ∧ Good (ts.map Prod.fst))
    (motive_5 := fun c ts ss c' _ => Spec.Dot.StmtList (ts.map Prod.fst) ∧ Good (ts.map Prod.fst))
    (motive_6 := fun c ts ss c' _ => Spec.Dot.StmtList (ts.map Prod.fst) ∧ (ts.map Prod.fst = [] ∨ Good (ts.map Prod.fst)))
    ?_ ?_ ?_ ?_ ?_ ?_ ?_ ?_ ?_ ?_ ?_ ?_ ?_ ?_ ?_ ?_ ?_ ?_ h
  · intro c f l v
    refine ⟨.assign, fun rev hr => ⟨by simp [scan, okAt], ?_⟩⟩
    exact fin (t := 18) (.push (.fresh (t := 8) na (by decide) (by decide)) na (by decide)) (by decide)
  · intro c ts us n as h1 h2
    rw [List.map_append]
    exact ⟨.node (nodeId_pub h1).1 (optAttrList_pub h2).1, (Good.node h1).attrs h2⟩
  · intro c c1 c2 ts us vs src rhs as _ _ h3 ih1 ih2
    rw [List.map_append, List.map_append]
    refine ⟨.edge ih1.1 ih2.1 (optAttrList_pub h3).1, ?_⟩
    rw [← List.append_assoc]
    exact (ih1.2.append ih2.2).attrs h3
  · intro c l ts as h
    obtain ⟨h1, h2⟩ := attrList_pub h
    refine ⟨.attr .graph h1, fun rev hr => ⟨⟨okAt.other (t := 2) (by decide) (by decide), h2 _⟩, ?_⟩⟩
    simpa using attrList_fin h1 (2 :: rev)
  · intro c l ts as h
    obtain ⟨h1, h2⟩ := attrList_pub h
    refine ⟨.attr .node h1, fun rev hr => ⟨⟨okAt.other (t := 9) (by decide) (by decide), h2 _⟩, ?_⟩⟩
    simpa using attrList_fin h1 (9 :: rev)
  · intro c l ts as h
    obtain ⟨h1, h2⟩ := attrList_pub h
    refine ⟨.attr .edge h1, fun rev hr => ⟨⟨okAt.other (t := 10) (by decide) (by decide), h2 _⟩, ?_⟩⟩
    simpa using attrList_fin h1 (10 :: rev)
  · intro c c' ts id b _ ih
    exact ⟨.sub ih.1, ih.2⟩
  · intro c ts n h
    exact ⟨.node (nodeId_pub h).1, .node h⟩
  · intro c c' ts id b _ ih
    exact ⟨.sub ih.1, ih.2⟩
  · intro c c' x op ts d h1 _ ih
    rw [List.map_cons]
    cases h1 with
    | directed =>
      refine ⟨.last .directed ih.1, Good.append (a := [16]) (fun rev hr => ?_) ih.2⟩
      exact ⟨⟨.other (by decide) (by decide), trivial⟩, fin (.fresh na (by decide) (by decide)) (by decide)⟩
    | undirected =>
      refine ⟨.last .undirected ih.1, Good.append (a := [17]) (fun rev hr => ?_) ih.2⟩
      exact ⟨⟨.other (by decide) (by decide), trivial⟩, fin (.fresh na (by decide) (by decide)) (by decide)⟩
  · intro c c1 c2 ts us rhs x op d _ h1 _ ih0 ih
    rw [List.map_append, List.map_cons]
    cases h1 with
    | directed =>
      refine ⟨edgeRHS_snoc _ (Nat.le_refl _) ih0.1 .directed ih.1, ih0.2.append (Good.append (a := [16]) (fun rev hr => ?_) ih.2)⟩
      exact ⟨⟨.other (by decide) (by decide), trivial⟩, fin (.fresh na (by decide) (by decide)) (by decide)⟩
    | undirected =>
      refine ⟨edgeRHS_snoc _ (Nat.le_refl _) ih0.1 .undirected ih.1, ih0.2.append (Good.append (a := [17]) (fun rev hr => ?_) ih.2)⟩
      exact ⟨⟨.other (by decide) (by decide), trivial⟩, fin (.fresh na (by decide) (by decide)) (by decide)⟩
  · intro c c' l l' ts b _ ih
    have := Good.braces .none (.inr ih.2)
    have h2 := Spec.Dot.Subgraph.mk .none ih.1
    simp only [List.map_cons, List.map_append, List.map_nil]
    exact ⟨h2, this⟩
  · intro c c' k l l' ts b _ ih
    have := Good.braces .anonymous (ih.2.imp (fun h => ⟨h, by simp⟩) fun h => h)
    have h2 := Spec.Dot.Subgraph.mk .anonymous ih.1
    simp only [List.map_cons, List.map_append, List.map_nil]
    exact ⟨h2, this⟩
  · intro c c' k s l l' ts b _ ih
    have := Good.braces .named (ih.2.imp (fun h => ⟨h, by simp⟩) fun h => h)
    have h2 := Spec.Dot.Subgraph.mk .named ih.1
    simp only [List.map_cons, List.map_append, List.map_nil]
    exact ⟨h2, this⟩
  · intro c c' ts sm s _ h ih
    rw [List.map_append]
    refine ⟨?_, ih.2.semi h⟩
    simpa using Spec.Dot.StmtList.some ih.1 (opt_pub h) .none
  · intro c c1 c2 ts us sm ss s _ _ h ih0 ih
    rw [List.map_append, List.map_append]
    refine ⟨stmtList_append ih0.1 ?_, ih0.2.append (ih.2.semi h)⟩
    simpa using Spec.Dot.StmtList.some ih.1 (opt_pub h) .none
  · intro c
    exact ⟨.none, .inl rfl⟩
  · intro c c' ts ss _ ih
    exact ⟨ih.1, .inr ih.2⟩

theorem mayId_acc {ns : List Nat} (h : May 18 ns) {ts : List Lexeme} (e : ts.map Prod.fst = ns) : ∃ i, OptId ts i := by
  cases h with
  | no => rw [List.map_eq_nil_iff.1 e]; exact ⟨_, .absent⟩
  | yes =>
    match ts, e with
    | [(18, l)], _ => exact ⟨_, .present⟩

/-- Whole documents. -/
theorem graph_iff (gen : Nat → Str) (c : Nat) (ts : List Lexeme) : (∃ g c', GraphM gen c ts g c') ↔
    Spec.Dot.Graph (ts.map Prod.fst) ∧ scan [] (ts.map Prod.fst) := by
  constructor
  · rintro ⟨g, c', h⟩
    cases h with
    | @mk _ st is ts k d l l' id b h1 h2 h3 h4 =>
      have hk : Kind k.1 ∧ Announces k.1 ∧ k.1 ≠ 12 ∧ k.1 ≠ 4 := by
        cases h2
        · exact ⟨.graph, .inl rfl, by simp, by simp⟩
        · exact ⟨.digraph, .inr (.inl rfl), by simp, by simp⟩
      have hi : May 18 (is.map Prod.fst) := by
        cases h3
        · exact .no
        · exact .yes
      obtain ⟨hp, hg⟩ := optStmts_pub h4
      simp only [List.map_cons, List.map_append, List.map_nil]
      refine ⟨.mk (opt_pub h1) hk.1 hi hp, ?_⟩
      rw [scan_append]
      refine ⟨by cases h1 <;> simp [scan, okAt], .other hk.2.2.1 hk.2.2.2, ?_⟩
      rw [scan_append]
      refine ⟨by cases h3 <;> simp [scan, okAt], .other (by simp) (by simp), ?_⟩
      have h3s : ∀ rev, Start (3 :: rev) := fun rev => .fresh na (by decide) (by decide)
      rw [scan_append]
      rcases hg with hg | hg
      · rw [hg]
        refine ⟨trivial, ⟨fun h => absurd h (by simp), fun _ r hr => ?_⟩, trivial⟩
        simp only [List.reverse_nil, List.nil_append, List.cons.injEq, true_and] at hr
        subst hr
        cases h3 with
        | absent => exact .inl hk.2.1
        | present => exact .inr ⟨rfl, _, _, rfl, hk.2.1⟩
      · exact ⟨(hg _ (h3s _)).1, .fin (hg _ (h3s _)).2, trivial⟩
  · rintro ⟨h, hs⟩
    generalize hn : ts.map Prod.fst = ns at h hs
    cases h with
    | @mk s i a k h1 h2 h3 h4 =>
      obtain ⟨t1, t2, rfl, e1, e2⟩ := List.map_eq_append_iff.1 hn
      match t2, e2 with
      | (x, l) :: t2, e2 =>
        simp only [List.map_cons, List.cons.injEq] at e2
        obtain ⟨rfl, e2'⟩ := e2
        obtain ⟨t3, t4, rfl, e3, e4⟩ := List.map_eq_append_iff.1 e2'
        match t4, e4 with
        | (y, m) :: t4, e4 =>
          simp only [List.map_cons, List.cons.injEq] at e4
          obtain ⟨rfl, e4'⟩ := e4
          obtain ⟨t5, t6, rfl, e5, e6⟩ := List.map_eq_append_iff.1 e4'
          match t6, e6 with
          | [(z, n)], e6 =>
            simp only [List.map_cons, List.map_nil, List.cons.injEq, and_true] at e6
            subst e6
            have hs1 := ((scan_append _ _ _).1 hs).2.2
            have hs2 := ((scan_append _ _ _).1 hs1).2.2
            have hs3 := ((scan_append _ _ _).1 hs2).1
            obtain ⟨ss, c', hb⟩ := (stmtList_acc gen h4 _ (.fresh na (by decide) (by decide))).2 hs3 _ e5 c
            obtain ⟨id, hid⟩ := mayId_acc h3 e3
            cases h2 with
            | graph => exact ⟨_, _, .mk (may_acc h1 e1) .graph hid hb⟩
            | digraph => exact ⟨_, _, .mk (may_acc h1 e1) .digraph hid hb⟩

end Gographviz.Proofs.Dot
