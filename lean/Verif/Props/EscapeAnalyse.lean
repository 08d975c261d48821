import Verif.Model.EscapeIface
import Verif.Spec.Names
import Verif.Props.EscapeText
import Verif.Props.EscapeExact
import Verif.Props.FormatProps
/-!
C85: a document analysed into an Escape.
-/
namespace Gographviz.Props

open Gographviz Spec Lex Print Parse
open Gographviz.Ast (Stmt Loc EdgeRH AttrList)

namespace EscAn

/-! ### the calls carry the names of the document -/

/-- All the keys and values. -/
def MapP (P : Str → Prop) (m : List (Str × Str)) : Prop := ∀ e ∈ m, P e.1 ∧ P e.2

/-- All the texts that Escape escapes. -/
def CallP (P : Str → Prop) : Call → Prop
  | .setName n => P n
  | .addPortEdge s _ d _ _ m => P s ∧ P d ∧ MapP P m
  | .addNode p n m => P p ∧ P n ∧ MapP P m
  | .addAttr p k v => P p ∧ P k ∧ P v
  | .addSubGraph p n m => P p ∧ P n ∧ MapP P m
  | _ => True

variable {P : Str → Prop}

theorem MapP.nil : MapP P [] := fun _ h => nomatch h

theorem MapP.msetAll {m kvs : List (Str × Str)} (h : MapP P m) (h' : MapP P kvs) : MapP P (msetAll m kvs) := by
  intro e he
  rcases mem_msetAll he with he | he
  · exact h e he
  · exact h' e he

theorem MapP.append {a b : List (Str × Str)} (h : MapP P a) (h' : MapP P b) : MapP P (a ++ b) := fun e he => (List.mem_append.1 he).elim (h e) (h' e)

theorem entriesP {as : AttrList} (h : ∀ s ∈ identsAttrs as, P s) : MapP P (entries as) := by
  intro e he
  obtain ⟨a, ha, rfl⟩ := List.mem_map.1 he
  obtain ⟨al, hal, ha⟩ := List.mem_flatten.1 ha
  have : ∀ s ∈ [a.field, a.value], s ∈ identsAttrs as := fun s hs => List.mem_flatMap.2 ⟨al, hal, List.mem_flatMap.2 ⟨a, ha, hs⟩⟩
  exact ⟨h _ (this _ (by simp)), h _ (this _ (by simp))⟩

theorem mapOfP {as : AttrList} (h : ∀ s ∈ identsAttrs as, P s) : MapP P (mapOf as) := MapP.nil.msetAll (entriesP h)

theorem defaultsP : ∀ (pre : List Stmt), (∀ s ∈ namesStmts pre, P s) → MapP P (nodeDefaultEntries pre) ∧ MapP P (edgeDefaultEntries pre) ∧ MapP P (graphDefaultEntries pre) := by
  intro pre
  induction pre with
  | nil => intro _; exact ⟨.nil, .nil, .nil⟩
  | cons s ss ih =>
    intro h
    simp only [namesStmts, List.mem_append] at h
    obtain ⟨i1, i2, i3⟩ := ih fun x hx => h x (.inr hx)
    have hs : ∀ x ∈ namesStmt s, P x := fun x hx => h x (.inl hx)
    cases s with
    | nodeAttrs as => simp only [namesStmt] at hs; exact ⟨(entriesP hs).append i1, i2, i3⟩
    | edgeAttrs as => simp only [namesStmt] at hs; exact ⟨i1, (entriesP hs).append i2, i3⟩
    | graphAttrs as => simp only [namesStmt] at hs; exact ⟨i1, i2, (entriesP hs).append i3⟩
    | _ => exact ⟨i1, i2, i3⟩

/-- What holds of the scope of statements. -/
structure ScP (P : Str → Prop) (sc : Scope) (pre : List Stmt) : Prop where
  name : P sc.name
  node : MapP P sc.inhNode
  edge : MapP P sc.inhEdge
  pre : ∀ s ∈ namesStmts pre, P s

theorem ScP.nodeNow {sc : Scope} {pre : List Stmt} (h : ScP P sc pre) : MapP P (sc.nodeDefaults pre) := h.node.msetAll (defaultsP pre h.pre).1
theorem ScP.edgeNow {sc : Scope} {pre : List Stmt} (h : ScP P sc pre) : MapP P (sc.edgeDefaults pre) := h.edge.msetAll (defaultsP pre h.pre).2.1
theorem ScP.graphNow {sc : Scope} {pre : List Stmt} (h : ScP P sc pre) : MapP P (graphDefaults pre) := MapP.nil.msetAll (defaultsP pre h.pre).2.2

theorem getID_names (l : Loc) : l.getID ∈ namesLoc l := by
  cases l with
  | node n => simp [Loc.getID, namesLoc]
  | sub id body => simp [Loc.getID, namesLoc]

theorem createP {sc : Scope} {pre : List Stmt} (h : ScP P sc pre) (seen : List Str) {l : Loc} (hl : ∀ s ∈ namesLoc l, P s) : ∀ x ∈ createCall sc pre seen l, CallP P x := by
  intro x hx
  cases l with
  | sub id body => cases hx
  | node n =>
    simp only [createCall] at hx
    split at hx
    · cases hx
    · rw [List.mem_singleton.1 hx]
      exact ⟨h.name, hl _ (by simp [namesLoc]), h.nodeNow⟩

theorem chainP {sc : Scope} {pre : List Stmt} (h : ScP P sc pre) {attrs : Map Str} (ha : MapP P attrs) : ∀ (rhs : List EdgeRH) (seen : List Str) (prev : Loc),
    (∀ s ∈ namesLoc prev, P s) → (∀ s ∈ namesRHS rhs, P s) → ∀ x ∈ chainCalls sc pre attrs seen prev rhs, CallP P x
  | [], _, _, _, _ => fun x hx => by cases hx
  | .mk op d :: rest, seen, prev, hp, hr => fun x hx => by
    simp only [namesRHS, List.mem_append] at hr
    simp only [chainCalls, List.mem_append, List.mem_singleton] at hx
    rcases hx with (hx | hx) | hx
    · exact createP h _ (fun s hs => hr s (.inl hs)) x hx
    · rw [hx]
      exact ⟨hp _ (getID_names prev), hr _ (.inl (getID_names d)), ha⟩
    · exact chainP h ha rest _ d (fun s hs => hr s (.inl hs)) (fun s hs => hr s (.inr hs)) x hx

theorem namesStmts_append (a b : List Stmt) : namesStmts (a ++ b) = namesStmts a ++ namesStmts b := by
  induction a with
  | nil => simp [namesStmts]
  | cons s a ih => simp only [List.cons_append, namesStmts, ih, List.append_assoc]

mutual
theorem stmtP : (s : Stmt) → ∀ {sc : Scope} {pre : List Stmt}, ScP P sc pre → (∀ x ∈ namesStmt s, P x) → ∀ x ∈ stmtCalls sc pre s, CallP P x
  | .node id as => by
    intro h hs x hx
    simp only [stmtCalls, List.mem_singleton] at hx
    simp only [namesStmt, List.mem_cons] at hs
    subst hx
    refine ⟨h.name, hs _ (.inl rfl), ?_⟩
    unfold over
    refine MapP.msetAll ?_ (mapOfP fun s h => hs s (.inr h))
    split
    · exact .nil
    · exact h.nodeNow
  | .edge src rhs as => by
    intro h hs x hx
    simp only [stmtCalls, List.mem_append] at hx
    simp only [namesStmt, List.mem_append] at hs
    have h1 : ∀ s ∈ namesLoc src, P s := fun s h => hs s (.inl (.inl h))
    have h2 : ∀ s ∈ namesRHS rhs, P s := fun s h => hs s (.inl (.inr h))
    rcases hx with ((hx | hx) | hx) | hx
    · exact createP h _ h1 x hx
    · exact chainP h (MapP.msetAll h.edgeNow (mapOfP fun s h => hs s (.inr h))) rhs _ src h1 h2 x hx
    · exact locP src h h1 x hx
    · exact rhsP rhs h h2 x hx
  | .nodeAttrs as => by intro h hs x hx; simp [stmtCalls] at hx
  | .edgeAttrs as => by intro h hs x hx; simp [stmtCalls] at hx
  | .graphAttrs as => by
    intro h hs x hx
    simp only [stmtCalls, List.mem_map] at hx
    simp only [namesStmt] at hs
    obtain ⟨e, he, rfl⟩ := hx
    exact ⟨h.name, mapOfP hs e he⟩
  | .sub id body => by
    intro h hs x hx
    simp only [stmtCalls, List.mem_cons] at hx
    simp only [namesStmt, List.mem_cons] at hs
    rcases hx with rfl | hx
    · exact ⟨h.name, hs _ (.inl rfl), h.graphNow⟩
    · exact stmtsP body (sc := ⟨id, _, _⟩) (pre := []) ⟨hs _ (.inl rfl), h.nodeNow, h.edgeNow, fun s hs => by simp [namesStmts] at hs⟩ (fun s h => hs s (.inr h)) x hx
  | .attr a => by
    intro h hs x hx
    simp only [stmtCalls, List.mem_singleton] at hx
    simp only [namesStmt, List.mem_cons] at hs
    subst hx
    exact ⟨h.name, hs _ (.inl rfl), hs _ (.inr (.inl rfl))⟩
theorem locP : (l : Loc) → ∀ {sc : Scope} {pre : List Stmt}, ScP P sc pre → (∀ x ∈ namesLoc l, P x) → ∀ x ∈ locCalls sc pre l, CallP P x
  | .node n => by intro h hs x hx; simp [locCalls] at hx
  | .sub id body => by
    intro h hs x hx
    simp only [locCalls, List.mem_cons] at hx
    simp only [namesLoc, List.mem_cons] at hs
    rcases hx with rfl | hx
    · exact ⟨h.name, hs _ (.inl rfl), h.graphNow⟩
    · exact stmtsP body (sc := ⟨id, _, _⟩) (pre := []) ⟨hs _ (.inl rfl), h.nodeNow, h.edgeNow, fun s hs => by simp [namesStmts] at hs⟩ (fun s h => hs s (.inr h)) x hx
theorem rhsP : (rhs : List EdgeRH) → ∀ {sc : Scope} {pre : List Stmt}, ScP P sc pre → (∀ x ∈ namesRHS rhs, P x) → ∀ x ∈ rhsCalls sc pre rhs, CallP P x
  | [] => by intro h hs x hx; simp [rhsCalls] at hx
  | .mk op d :: rest => by
    intro h hs x hx
    simp only [rhsCalls, List.mem_append] at hx
    simp only [namesRHS, List.mem_append] at hs
    rcases hx with hx | hx
    · exact locP d h (fun s h => hs s (.inl h)) x hx
    · exact rhsP rest h (fun s h => hs s (.inr h)) x hx
theorem stmtsP : (ss : List Stmt) → ∀ {sc : Scope} {pre : List Stmt}, ScP P sc pre → (∀ x ∈ namesStmts ss, P x) → ∀ x ∈ stmtsCalls sc pre ss, CallP P x
  | [] => by intro h hs x hx; simp [stmtsCalls] at hx
  | s :: ss => by
    intro h hs x hx
    simp only [stmtsCalls, List.mem_append] at hx
    simp only [namesStmts, List.mem_append] at hs
    rcases hx with hx | hx
    · exact stmtP s h (fun s h => hs s (.inl h)) x hx
    · refine stmtsP ss (pre := _ ++ [s]) ⟨h.name, h.node, h.edge, fun y hy => ?_⟩ (fun s h => hs s (.inr h)) x hx
      rcases (namesStmts_append _ [s] ▸ hy : y ∈ namesStmts _ ++ namesStmts [s]) |> List.mem_append.1 with hy | hy
      · exact h.pre y hy
      · simp only [namesStmts, List.append_nil] at hy
        exact hs y (.inl hy)
end

theorem treeP {t : Ast.Graph} (h : ∀ s ∈ namesDoc t, P s) : ∀ x ∈ treeCalls t, CallP P x := by
  have hid : P t.id := h _ (by simp [namesDoc])
  intro x hx
  simp only [treeCalls, List.mem_append, List.mem_cons, List.not_mem_nil, or_false] at hx
  rcases hx with (rfl | rfl | rfl) | hx
  · trivial
  · trivial
  · exact hid
  · exact stmtsP t.stmts ⟨hid, .nil, .nil, fun s hs => by simp [namesStmts] at hs⟩ (fun s hs => h s (by simp [namesDoc, hs])) x hx

theorem tree_wf (t : Ast.Graph) : ∀ x ∈ treeCalls t, MapWF x.attrs := by
  have hp := stmtsCalls_plain t.stmts ⟨t.id, [], []⟩ MapWF.nil MapWF.nil []
  intro x hx
  simp only [treeCalls, List.mem_append, List.mem_cons, List.not_mem_nil, or_false] at hx
  rcases hx with (rfl | rfl | rfl) | h
  · exact MapWF.nil
  · exact MapWF.nil
  · exact MapWF.nil
  · exact (hp x h).2

/-! ### calls on an Escape -/

theorem escIface_call (U : Unicode) (g : Graph) (x : Call) : (escIface U).call (some g) x =
    (match escStep U g (callOp x) with
    | none => (none, none)
    | some (g', e) => (some g', e)) := by
  cases x <;> (simp only [Iface.call, escIface, escCall, callOp]; generalize escStep U g _ = r; rcases r with _ | ⟨g1, e⟩ <;> simp only)

theorem escIface_none (U : Unicode) (x : Call) : (escIface U).call none x = (none, none) := by cases x <;> rfl

theorem replay_none (U : Unicode) (xs : List Call) : (replay (escIface U) none xs).1 = none := by
  induction xs with
  | nil => rfl
  | cons x xs ih => simp only [replay, escIface_none, ih]

theorem replay_esc (U : Unicode) (xs : List Call) : ∀ g : Graph,
    (match escRun U g (xs.map callOp) with
    | none => (replay (escIface U) (some g) xs).1 = none
    | some (g', errs) => replay (escIface U) (some g) xs = (some g', errs.filterMap fun e => e)) := by
  induction xs with
  | nil => intro g; rfl
  | cons x xs ih =>
    intro g
    simp only [List.map_cons, escRun, replay, escIface_call]
    cases hs : escStep U g (callOp x) with
    | none => exact replay_none U xs
    | some r =>
      obtain ⟨g1, e⟩ := r
      have := ih g1
      simp only
      cases hr : escRun U g1 (xs.map callOp) with
      | none => rw [hr] at this; simp only [Option.map_none]; exact this
      | some r =>
        obtain ⟨g2, es⟩ := r
        rw [hr] at this
        simp only at this
        simp only [Option.map_some, this]
        cases e <;> rfl

theorem analyseEscape_eq (U : Unicode) (t : Ast.Graph) (g : Graph) : analyseEscape U t g =
    (escRun U g ((treeCalls t).map callOp)).map fun r => (r.1, combined r.2) := by
  unfold analyseEscape analyse
  rw [analyseC_eq]
  have := replay_esc U (treeCalls t) g
  cases hr : escRun U g ((treeCalls t).map callOp) with
  | none => rw [hr] at this; simp only at this; rw [this]; rfl
  | some r =>
    obtain ⟨g', es⟩ := r
    rw [hr] at this
    simp only at this
    rw [this]
    simp only [Option.map_some, Catcher.getError, combined]
    generalize (es.filterMap fun e => e) = l
    cases l <;> rfl

theorem esc_fixed {U : Unicode} {s : Str} (h : Unescaped U s) : esc U s = some s := (C63_escape_text U s s).2 h

theorem escAttrsFrom_fixed {U : Unicode} {m : List (Str × Str)} (h : MapP (Unescaped U) m) : ∀ acc : Map Str, escAttrsFrom U acc m = some (msetAll acc m) := by
  induction m with
  | nil => intro acc; rfl
  | cons e m ih =>
    intro acc
    obtain ⟨k, v⟩ := e
    have h0 := h (k, v) (List.mem_cons_self ..)
    simp only [escAttrsFrom, esc_fixed h0.1, esc_fixed h0.2, msetAll_cons]
    exact ih (fun e he => h e (List.mem_cons_of_mem _ he)) _

theorem escAttrs_fixed {U : Unicode} {m : Map Str} (hw : MapWF m) (h : MapP (Unescaped U) m) : escAttrs U m = some m := by
  unfold escAttrs
  rw [escAttrsFrom_fixed h, msetAll_empty hw]

theorem escStep_fixed {U : Unicode} {x : Call} (hw : MapWF x.attrs) (h : CallP (Unescaped U) x) (g : Graph) : escStep U g (callOp x) = some (g.step (callOp x)) := by
  cases x with
  | setStrict b => rfl
  | setDir b => rfl
  | setName n => simp only [callOp, escStep, escSetName, esc_fixed h]; rfl
  | addPortEdge s sp d dp dir m => have hm := escAttrs_fixed (m := m) hw h.2.2; simp only [callOp, escStep, escAddPortEdge, esc_fixed h.1, esc_fixed h.2.1, hm]; rfl
  | addNode p n m => have hm := escAttrs_fixed (m := m) hw h.2.2; simp only [callOp, escStep, escAddNode, esc_fixed h.1, esc_fixed h.2.1, hm]; rfl
  | addAttr p k v => simp only [callOp, escStep, escAddAttr, esc_fixed h.1, esc_fixed h.2.1, esc_fixed h.2.2]; rfl
  | addSubGraph p n m => have hm := escAttrs_fixed (m := m) hw h.2.2; simp only [callOp, escStep, escAddSubGraph, esc_fixed h.1, esc_fixed h.2.1, hm]; rfl

theorem escRun_fixed {U : Unicode} (xs : List Call) : (∀ x ∈ xs, MapWF x.attrs) → (∀ x ∈ xs, CallP (Unescaped U) x) → ∀ g : Graph,
    ∃ errs, escRun U g (xs.map callOp) = some ((replay graphIface g xs).1, errs) ∧ (errs.filterMap fun e => e) = (replay graphIface g xs).2 := by
  induction xs with
  | nil => intro _ _ g; exact ⟨[], rfl, rfl⟩
  | cons x xs ih =>
    intro hw h g
    obtain ⟨errs, h1, h2⟩ := ih (fun y hy => hw y (List.mem_cons_of_mem _ hy)) (fun y hy => h y (List.mem_cons_of_mem _ hy)) (g.step (callOp x)).1
    refine ⟨(g.step (callOp x)).2 :: errs, ?_, ?_⟩
    · simp only [List.map_cons, escRun, escStep_fixed (hw x (List.mem_cons_self ..)) (h x (List.mem_cons_self ..)), h1, Option.map_some, replay, graphIface_call]
    · simp only [replay, graphIface_call, ← h2]
      cases (g.step (callOp x)).2 <;> rfl

/-! ### identifiers that escaping leaves alone -/

theorem strBody_quote {b : List Nat} (h : StrBody b) : ∀ pre post, b = pre ++ 34 :: post → pre.getLast? = some 92 := by
  induction h with
  | nil => intro pre post e; cases pre <;> cases e
  | @char r b hr _ ih =>
    intro pre post e
    cases pre with
    | nil => cases e; exact absurd rfl hr.2.2.1
    | cons a pre =>
      injection e with e1 e2
      have := ih pre post e2
      cases pre with
      | nil => cases this
      | cons c pre => rw [List.getLast?_cons_cons]; exact this
  | @esc r b hr _ ih =>
    intro pre post e
    cases pre with
    | nil => cases e
    | cons a pre =>
      injection e with e1 e2
      subst e1
      cases pre with
      | nil => rfl
      | cons c pre =>
        injection e2 with e2 e3
        have := ih pre post e3
        cases pre with
        | nil => cases this
        | cons d pre => rw [List.getLast?_cons_cons, List.getLast?_cons_cons]; exact this

theorem htmlBody_count {b : List Nat} (h : HtmlBody b) : b.count 60 = b.count 62 := by
  induction h with
  | nil => rfl
  | @char r b hr _ ih =>
    rw [List.count_cons, List.count_cons, ih]
    simp [hr.2.2.1, hr.2.2.2]
  | @tag t b _ ht _ ih =>
    have h1 : t.count 60 = 0 := List.count_eq_zero.2 fun h => (ht _ h).2.2.1 rfl
    have h2 : t.count 62 = 0 := List.count_eq_zero.2 fun h => (ht _ h).2.2.2 rfl
    simp only [List.count_cons, List.count_append, h1, h2, ih]
    simp

theorem digit_plain (U : Unicode) {r : Nat} (h : digit r) : NumeralChar U r ∧ r ∉ whiteSpace := by
  unfold digit at h
  refine ⟨.inl h, fun hw => ?_⟩
  rw [mem_whiteSpace] at hw
  revert hw
  have : ∀ r, r < 58 → 48 ≤ r → isSpaceRune r ≠ true := by decide
  exact this r (by omega) h.1

/-- Of the identifiers of a document Escape only changes words. -/
theorem unescaped_id (U : Unicode) {s : Str} (h : ValidId s) (hw : Word (runes s) → WordText U s) : Unescaped U s := by
  rcases h with ⟨h, -⟩ | ⟨m, ds, fs, hm, hds, hfs, h⟩ | ⟨b, hb, h⟩ | ⟨b, hb, h⟩
  · have hwt := hw h
    obtain ⟨c, cs, e, hc, -⟩ := h
    refine .inr ⟨⟨c, by rw [e]; simp, (hwt.2 c (by rw [e]; simp)).1⟩, ?_, .inl ⟨.inr (.inl hwt), rfl⟩⟩
    rintro rfl
    rw [runes_ascii (by omega)] at e
    cases e
    exact absurd hc (by decide)
  · have key : ∀ d ∈ ds ++ fs, digit d := fun d hd => (List.mem_append.1 hd).elim (hds d) (hfs d)
    have hdot : NumeralChar U 46 := .inr (.inl rfl)
    obtain ⟨body, e, hb, d, hd, hdig⟩ : ∃ body, runes s = m ++ body ∧ (∀ c ∈ body, NumeralChar U c) ∧ ∃ d ∈ body, digit d := by
      rcases h with ⟨h0, h⟩ | ⟨h0, h⟩ | ⟨h0, h⟩
      · obtain ⟨d, fs', rfl⟩ := List.exists_cons_of_ne_nil h0
        refine ⟨_, h, fun c hc => ?_, d, by simp, hfs d (by simp)⟩
        rcases List.mem_cons.1 hc with rfl | hc
        · exact hdot
        · exact (digit_plain U (hfs c hc)).1
      · obtain ⟨d, ds', rfl⟩ := List.exists_cons_of_ne_nil h0
        exact ⟨_, h, fun c hc => (digit_plain U (hds c hc)).1, d, by simp, hds d (by simp)⟩
      · obtain ⟨d, ds', rfl⟩ := List.exists_cons_of_ne_nil h0
        refine ⟨(d :: ds') ++ 46 :: fs, by rw [h]; simp, fun c hc => ?_, d, by simp, hds d (by simp)⟩
        rcases List.mem_append.1 hc with hc | hc
        · exact (digit_plain U (hds c hc)).1
        · rcases List.mem_cons.1 hc with rfl | hc
          · exact hdot
          · exact (digit_plain U (hfs c hc)).1
    refine .inr ⟨⟨d, by rw [e]; simp [hd], (digit_plain U hdig).2⟩, ?_, .inl ⟨.inr (.inr (.inl ⟨m, body, e, (by rintro rfl; cases hd), hb, ?_⟩)), rfl⟩⟩
    · rintro rfl
      rw [runes_ascii (by omega), runes_nil] at e
      have : d ∈ [34] := by rw [e]; simp [hd]
      rw [List.mem_singleton.1 this] at hdig
      exact absurd hdig (by decide)
    · rcases hm with rfl | rfl
      · exact .inl rfl
      · exact .inr ⟨[], rfl, fun c hc => by cases hc⟩
  · obtain ⟨c, hc, hrc⟩ := runes_head_ascii (by omega) h
    obtain ⟨d, hd, hrd⟩ := runes_last_ascii (by omega) hrc
    have hq : QuotedText s := ⟨d, by rw [hc, hd]; simp, fun pre post e => strBody_quote hb pre post (by rw [← hrd]; exact e)⟩
    refine .inr ⟨⟨34, by rw [h]; simp, by decide⟩, ?_, .inl ⟨.inr (.inr (.inr hq)), rfl⟩⟩
    rintro rfl
    rw [runes_ascii (by omega), runes_nil] at h
    cases b <;> cases h
  · have hh : HtmlText s := by
      refine ⟨⟨[], b ++ [62], h, fun r hr => by cases hr⟩, ?_⟩
      rw [← runes_count s (by omega), ← runes_count s (by omega), h]
      simp only [List.count_cons, List.count_append, htmlBody_count hb]
      simp
    refine .inr ⟨⟨60, by rw [h]; simp, by decide⟩, ?_, .inl ⟨.inl hh, rfl⟩⟩
    rintro rfl
    rw [runes_ascii (by omega), runes_nil] at h
    cases h

theorem asciiWord {U : Unicode} {s : Str} (ha : ∀ x ∈ s, x < 128) (h : Word (runes s)) : WordText U s := by
  rw [runes_all_ascii s ha] at h
  obtain ⟨c, cs, e, hc, hcs⟩ := h
  have hlc : ∀ x ∈ s, (letter x ∨ digit x) := by
    intro x hx
    rw [e] at hx
    rcases List.mem_cons.1 hx with rfl | hx
    · exact .inl hc
    · exact hcs x hx
  unfold WordText
  rw [runes_all_ascii s ha]
  refine ⟨⟨c, cs, e, ?_⟩, fun r hr => ?_⟩
  · have := ha c (by rw [e]; simp)
    unfold letter at hc
    unfold LetterChar
    omega
  · have h1 := ha r hr
    have h2 := hlc r hr
    have : ∀ r, r < 128 → (letter r ∨ digit r) → r ∉ whiteSpace ∧ r ≠ 45 ∧ r ≠ 46 ∧ r ≠ 47 := by decide
    exact this r h1 h2

end EscAn

open EscAn

/-- C85. What `Analyse` does to an Escape, for every document: it makes the calls that it makes for a Graph, each with its arguments escaped; it panics if one of them cannot be escaped. -/
theorem C85_calls (U : Unicode) (t : Ast.Graph) (g g' : Graph) (e : Option Str) : analyseEscape U t g = some (g', e) ↔
    ∃ ops', Forall2 (EscapedCall (esc U)) ((callsMade graphIface t g).map callOp) ops' ∧ g.run ops' = g' ∧ combined (g.runErrs ops') = e := by
  rw [analyseEscape_eq, callsMade_eq]
  constructor
  · intro h
    obtain ⟨⟨g1, es⟩, hr, he⟩ := Option.map_eq_some_iff.1 h
    cases he
    obtain ⟨ops', h1, h2, h3⟩ := (C32_escape_is_graph U g g1 _ es).1 hr
    exact ⟨ops', h1, h2, by rw [h3]⟩
  · rintro ⟨ops', h1, rfl, rfl⟩
    rw [(C32_escape_is_graph U g _ _ _).2 ⟨ops', h1, rfl, rfl⟩]
    rfl

/-- The calls of the document are not changed by escaping. -/
theorem EscAn.same_calls (U : Unicode) {t : Ast.Graph} (h : ∀ x ∈ treeCalls t, CallP (Unescaped U) x) (g : Graph) :
    analyseEscape U t g = some (analyse graphIface t g) := by
  obtain ⟨errs, h1, h2⟩ := escRun_fixed (treeCalls t) (tree_wf t) h g
  rw [analyseEscape_eq, h1]
  unfold analyse
  rw [analyseC_eq]
  simp only [Option.map_some, combined, h2, Catcher.getError]
  cases (replay graphIface g (treeCalls t)).2 <;> rfl

/-- C85, partial: if escaping leaves the names and values in the document as they are, analysing it into an Escape gives the same graph and the same error as analysing it into a Graph. -/
theorem C85_same_partial (U : Unicode) {t : Ast.Graph} (h : ∀ s ∈ namesDoc t, Unescaped U s) (g : Graph) :
    analyseEscape U t g = some (analyse graphIface t g) := same_calls U (treeP h) g

theorem C85_ident {rnd : Nat → Nat} {cnt : Nat} {src : Str} {t : Ast.Graph} {n : Nat} (hp : parseBytes rnd cnt src = .ok t n) {s : Str} (hs : s ∈ idents t) :
    s = [] ∨ ValidId s ∧ ((∀ x ∈ s, x < 128) ∨ ∃ k, (src.drop k).take s.length = s) := by
  obtain ⟨ts, h1, h2, _⟩ := C45_verbatim rnd cnt src hp
  obtain ⟨ts', h3, h4, _⟩ := C33_total src
  rw [h1] at h3
  cases h3
  rcases h2 s hs with h | h | ⟨k, _, _, h⟩ | ⟨tk, ht, h18, hl, hsl⟩
  · exact .inl h
  · subst h
    exact .inr ⟨.inl ⟨⟨116, _, rfl, by decide, by decide⟩, by decide +kernel⟩, .inl (by decide)⟩
  · subst h
    refine .inr ⟨(anonName_valid _).1, .inl ?_⟩
    intro x hx
    rcases List.mem_append.1 hx with h | h
    · have : ∀ y ∈ b!"anon", y < 128 := by decide
      exact this x h
    · have : digit x := decDigitsN_digits _ _ _ (by simp) x h
      unfold digit at this
      omega
  · subst hl
    exact .inr ⟨tokensOf_valid h4 tk ht h18, .inr ⟨_, hsl⟩⟩

/-- For texts: the names are not changed if the words in the text consist of what Unicode calls letters (none starts with ε) and has no white space, and the nodes of node statements have no ports or are
words with them. -/
theorem C85_source_names (U : Unicode) {rnd : Nat → Nat} {cnt : Nat} {src : Str} {t : Ast.Graph} {n : Nat} (hp : parseBytes rnd cnt src = .ok t n)
    (hwords : ∀ s ∈ idents t, Word (runes s) → WordText U s) (hports : ∀ s ∈ namesDoc t, s ∈ idents t ∨ WordText U s) :
    ∀ s ∈ namesDoc t, Unescaped U s := by
  intro s hs
  rcases hports s hs with h | h
  · rcases C85_ident hp h with rfl | ⟨hv, _⟩
    · exact .inl ⟨rfl, rfl⟩
    · exact unescaped_id U hv (hwords s h)
  · have h' := h
    obtain ⟨⟨c, cs, e, hc⟩, hall⟩ := h'
    refine .inr ⟨⟨c, by rw [e]; simp, (hall c (by rw [e]; simp)).1⟩, ?_, .inl ⟨.inr (.inl h), rfl⟩⟩
    rintro rfl
    rw [runes_ascii (by omega), runes_nil] at e
    cases e
    unfold LetterChar at hc
    omega

/-- For texts in ASCII only the ports of node statements are a problem. -/
theorem C85_ascii_names (U : Unicode) {rnd : Nat → Nat} {cnt : Nat} {src : Str} {t : Ast.Graph} {n : Nat} (hp : parseBytes rnd cnt src = .ok t n)
    (ha : ∀ b ∈ src, b < 128) (hports : ∀ s ∈ namesDoc t, s ∈ idents t ∨ WordText U s) : ∀ s ∈ namesDoc t, Unescaped U s := by
  refine C85_source_names U hp (fun s hs hw => ?_) hports
  rcases C85_ident hp hs with rfl | ⟨_, h | ⟨k, h⟩⟩
  · obtain ⟨c, cs, e, _⟩ := hw
    cases e
  · exact asciiWord h hw
  · refine asciiWord (fun x hx => ha x ?_) hw
    rw [← h] at hx
    exact List.mem_of_mem_drop (List.mem_of_mem_take hx)

/-- C85, partial: for texts whose words are words for Escape too; ports in node statements only after words. -/
theorem C85_source_partial (U : Unicode) {rnd : Nat → Nat} {cnt : Nat} {src : Str} {t : Ast.Graph} {n : Nat} (hp : parseBytes rnd cnt src = .ok t n)
    (hwords : ∀ s ∈ idents t, Word (runes s) → WordText U s) (hports : ∀ s ∈ namesDoc t, s ∈ idents t ∨ WordText U s) (g : Graph) :
    analyseEscape U t g = some (analyse graphIface t g) := C85_same_partial U (C85_source_names U hp hwords hports) g

/-- C85, partial: for texts in ASCII only the ports of node statements are a problem. -/
theorem C85_ascii_partial (U : Unicode) {rnd : Nat → Nat} {cnt : Nat} {src : Str} {t : Ast.Graph} {n : Nat} (hp : parseBytes rnd cnt src = .ok t n)
    (ha : ∀ b ∈ src, b < 128) (hports : ∀ s ∈ namesDoc t, s ∈ idents t ∨ WordText U s) (g : Graph) :
    analyseEscape U t g = some (analyse graphIface t g) := C85_same_partial U (C85_ascii_names U hp ha hports) g

/-! ### the test of the test suite -/

namespace EscAn

/-- All the names and values of a graph. -/
structure GraphP (P : Str → Prop) (g : Graph) : Prop where
  name : P g.name
  attrs : ∀ k v, mget g.attrs k = some v → P k ∧ P v
  nodes : ∀ n nd, g.nodes.find n = some nd → P n ∧ ∀ k v, mget nd.attrs k = some v → P k ∧ P v
  subs : ∀ n s, mget g.subGraphs n = some s → P n ∧ ∀ k v, mget s.attrs k = some v → P k ∧ P v
  edges : ∀ e ∈ g.edges.edges, P e.src ∧ P e.dst ∧ ∀ k v, mget e.attrs k = some v → P k ∧ P v

theorem analysedP {P : Str → Prop} {t : Ast.Graph} {g : Graph} (h : newAnalysedGraph t = .ok g) (h0 : P []) (ht : ∀ s ∈ namesDoc t, P s) : GraphP P g := by
  obtain ⟨he, hok⟩ := analysed_run h
  have hg : Reachable g := by rw [he]; exact Reachable.init.run hok
  have hcall : ∀ {op : Op}, op ∈ (treeCalls t).map callOp → ∃ x, CallP P x ∧ callOp x = op := by
    intro op h
    obtain ⟨x, hx, e⟩ := List.mem_map.1 h
    exact ⟨x, treeP ht x hx, e⟩
  obtain ⟨h1, h2, h3, h4, h5, h6, -, h8⟩ := C56_provenance _ hok
  rw [← he] at h1 h2 h3 h4 h5 h6 h8
  have hsub : ∀ {p n m}, Op.addSubGraph p n m ∈ (treeCalls t).map callOp → P n ∧ MapP P m := by
    intro p n m hm
    obtain ⟨x, hx, e⟩ := hcall hm
    cases x <;> cases e
    exact hx.2
  have hnode : ∀ {p n m}, Op.addNode p n m ∈ (treeCalls t).map callOp → P n ∧ MapP P m := by
    intro p n m hm
    obtain ⟨x, hx, e⟩ := hcall hm
    cases x <;> cases e
    exact hx.2
  have hoff : ∀ t' k v, Offered (· ∈ (treeCalls t).map callOp) t' k v → P k ∧ P v := by
    rintro t' k v (hm | ⟨p, as, hm, hkv⟩)
    · obtain ⟨x, hx, e⟩ := hcall hm
      cases x <;> cases e
      exact hx.2
    · exact (hsub hm).2 _ hkv
  refine ⟨?_, ?_, ?_, ?_, ?_⟩
  · rcases h1 with h | h
    · rw [h]; exact h0
    · obtain ⟨x, hx, e⟩ := hcall h
      cases x <;> cases e
      exact hx
  · intro k v hk
    obtain ⟨t', _, ho⟩ := h2 k v hk
    exact hoff t' k v ho
  · intro n nd hn
    refine ⟨?_, fun k v hk => ?_⟩
    · obtain ⟨p, kvs, hm⟩ := h3 n (by
        cases hi : g.isNode n with
        | true => rfl
        | false => rw [(isNode_find hg.inv n).2 hi] at hn; cases hn)
      exact (hnode hm).1
    · obtain ⟨p, kvs, hm, hkv⟩ := h4 n k v (by unfold nodeValue; rw [hn]; exact hk)
      exact (hnode hm).2 _ hkv
  · intro n s hn
    refine ⟨?_, fun k v hk => hoff n k v (h6 n s k v hn hk)⟩
    obtain ⟨p, kvs, hm⟩ := h5 n (by unfold Graph.isSubGraph mhas; rw [hn]; rfl)
    exact (hsub hm).1
  · intro e he'
    obtain ⟨kvs, hm, ha⟩ := h8 e he'
    rcases hm with hm | ⟨-, -, hm⟩
    · obtain ⟨x, hx, e'⟩ := hcall hm
      cases x <;> cases e'
      refine ⟨hx.1, hx.2.1, fun k v hk => ?_⟩
      rw [ha k] at hk
      exact hx.2.2 _ (entry_mem hk)
    · obtain ⟨x, hx, e'⟩ := hcall hm
      cases x <;> cases e'

variable {P : Str → Prop}

theorem attrsListP {a : Attrs} (ha : MapWF a) (hp : ∀ k v, mget a k = some v → P k ∧ P v) : ∀ s ∈ identsAttrs (attrsAsList a), P s := by
  intro s hs
  obtain ⟨al, hal, hs⟩ := List.mem_flatMap.1 hs
  rw [List.mem_singleton.1 hal] at hs
  obtain ⟨x, hx, hs⟩ := List.mem_flatMap.1 hs
  obtain ⟨e, he, rfl⟩ := List.mem_map.1 hx
  have := hp e.1 e.2 (mget_of_mem ha he)
  simp only [List.mem_cons, List.not_mem_nil, or_false] at hs
  rcases hs with rfl | rfl
  · exact this.1
  · exact this.2

theorem namesStmts_iff (ss : List Stmt) : (∀ x ∈ namesStmts ss, P x) ↔ ∀ s ∈ ss, ∀ x ∈ namesStmt s, P x := by
  induction ss with
  | nil => simp [namesStmts]
  | cons s ss ih =>
    simp only [namesStmts, List.mem_append, List.forall_mem_cons]
    rw [← ih]
    exact ⟨fun h => ⟨fun x hx => h x (.inl hx), fun x hx => h x (.inr hx)⟩, fun h x hx => hx.elim (h.1 x) (h.2 x)⟩

theorem attrsStmtsP {a : Attrs} (ha : MapWF a) (hp : ∀ k v, mget a k = some v → P k ∧ P v) : ∀ s ∈ namesStmts (attrsAsStmts a), P s := by
  rw [namesStmts_iff]
  intro s hs x hx
  obtain ⟨e, he, rfl⟩ := List.mem_map.1 hs
  have := hp e.1 e.2 (mget_of_mem ha he)
  simp only [namesStmt, List.mem_cons, List.not_mem_nil, or_false] at hx
  rcases hx with rfl | rfl
  · exact this.1
  · exact this.2

theorem nodeStmtP {g : Graph} (h : GInv g) (hv : GraphP P g) {c : Str} {nd : Node} (hf : g.nodes.find c = some nd) :
    ∀ x ∈ namesStmt (.node ⟨c, ⟨[], []⟩⟩ (attrsAsList nd.attrs)), P x := by
  intro x hx
  simp only [namesStmt, List.mem_cons] at hx
  rcases hx with rfl | hx
  · have : Ast.nodeIDStr ⟨c, ⟨[], []⟩⟩ = c := by simp [Ast.nodeIDStr, Ast.portStr]
    rw [this]
    exact (hv.nodes c nd hf).1
  · exact attrsListP (find_attrs h hf).wf (hv.nodes c nd hf).2 x hx

theorem subBodyP {g : Graph} (h : GInv g) (hv : GraphP P g) {f : Nat} {n : Str} {b : List Stmt} (hb : subBody g f n = .ok b) : ∀ x ∈ namesStmts b, P x := by
  induction f generalizing n b with
  | zero => cases hb
  | succ f ih =>
    simp only [subBody] at hb
    cases hs : mget g.subGraphs n with
    | none => rw [hs] at hb; cases hb
    | some sub =>
      rw [hs] at hb
      simp only at hb
      obtain ⟨cs, hcs, h'⟩ := WRes.bind_eq_ok.1 hb
      cases h'
      have hw := h.subs.attrs n sub hs
      rw [attrStmts_eq hw.wf, namesStmts_append]
      intro x hx
      rcases List.mem_append.1 hx with hx | hx
      · exact attrsStmtsP hw.wf (hv.subs n sub hs).2 x hx
      · refine (namesStmts_iff cs).2 ?_ x hx
        intro s hs' x hx
        obtain ⟨c, _, hc⟩ := (mapW_ok.1 hcs).mem_right hs'
        rcases (childOf_ok h hc).2 with ⟨nd, rfl, hf⟩ | ⟨b', hb', rfl, _, hsub⟩
        · exact nodeStmtP h hv hf x hx
        · obtain ⟨s', hs'⟩ := (isSub_get g c).1 hsub
          simp only [namesStmt, List.mem_cons] at hx
          rcases hx with rfl | hx
          · exact (hv.subs _ s' hs').1
          · exact ih hb' x hx

theorem locWrittenP {g : Graph} (h : Reachable g) (hv : GraphP P g) {f : Nat} {n p : Str} {l : Loc} (hl : locOf g f n p = .ok l) (hn : P n) :
    ∀ x ∈ namesLoc l, P x := by
  intro x hx
  rcases loc_written h hl with ⟨rfl, _⟩ | ⟨b, rfl, hb, _, _, hsub, _⟩
  · simp only [namesLoc, List.mem_singleton, makeNodeID_id] at hx
    rw [hx]; exact hn
  · simp only [namesLoc, List.mem_cons] at hx
    rcases hx with rfl | hx
    · exact hn
    · exact subBodyP h.inv hv hb x hx

theorem writtenP {g : Graph} (h : Reachable g) (hv : GraphP P g) {sortE : List Edge → List Edge} (hs : SortContract sortE) {f : Nat} {t : Ast.Graph}
    (ht : Gographviz.writeAst sortE f g = .ok t) : ∀ x ∈ namesDoc t, P x := by
  obtain ⟨es, ss, ns, hes, hss, hns, rfl⟩ := written_parts h ht
  intro x hx
  simp only [namesDoc, List.mem_cons, namesStmts_append, List.mem_append] at hx
  rcases hx with rfl | ((hx | hx) | hx) | hx
  · exact hv.name
  · exact attrsStmtsP h.inv.attrs.wf hv.attrs x hx
  · revert x
    rw [namesStmts_iff]
    intro s hs' x hx
    obtain ⟨e, he, hes'⟩ := hes.mem_right hs'
    have he := (hs.perm _).mem_iff.1 he
    obtain ⟨src, dst, rfl, h1, h2, _⟩ := edgeOf_inner h.inv hes'
    simp only [namesStmt, namesRHS, List.append_nil, List.mem_append] at hx
    rcases hx with (hx | hx) | hx
    · exact locWrittenP h hv h1 (hv.edges e he).1 x hx
    · exact locWrittenP h hv h2 (hv.edges e he).2.1 x hx
    · rw [putMap_eq (h.inv.edges.attrs e he).wf] at hx
      exact attrsListP (h.inv.edges.attrs e he).wf (hv.edges e he).2.2 x hx
  · revert x
    rw [namesStmts_iff]
    intro s hs' x hx
    obtain ⟨n, b, hn, rfl, hb, _⟩ := (rootSubsOf_ok hss).1 s hs'
    obtain ⟨s', hs''⟩ := (isSub_get g n).1 (subBody_ok_isSub hb)
    simp only [namesStmt, List.mem_cons] at hx
    rcases hx with rfl | hx
    · exact (hv.subs _ s' hs'').1
    · exact subBodyP h.inv hv hb x hx
  · revert x
    rw [namesStmts_iff]
    intro s hs' x hx
    obtain ⟨n, _, hn⟩ := hns.mem_right hs'
    obtain ⟨nd, hf, rfl⟩ := nodeStmtOf_ok h.inv hn
    exact nodeStmtP h.inv hv hf x hx

end EscAn

theorem EscAn.treeCalls_map {φ : Ast.NodeID → Ast.NodeID} (hφ : ∀ n, Ast.nodeIDStr (φ n) = Ast.nodeIDStr n) (t : Ast.Graph) : treeCalls (mapTree φ t) = treeCalls t := by
  unfold treeCalls mapTree
  simp only
  rw [stmtsCalls_map hφ t.stmts _ [] [] ⟨rfl, rfl, rfl, rfl⟩]

/-- C85, partial: what the test suite does with its documents (`anal`, analysewrite_test.go:43-72). A text is read into a Graph and written; what was written is analysed into an Escape and written
again: the two texts are the same. The conditions are those of `C60_format_idempotent_partial`, and escaping leaves the names and values of the document as they are. -/
theorem C85_reformat_partial (U : Unicode) (rnd : Nat → Nat) (cnt : Nat) {src : Str} {t : Ast.Graph} {n : Nat} (hparse : parseBytes rnd cnt src = .ok t n)
    (hnames : ∀ s ∈ namesDoc t, Unescaped U s) (htrim : ∀ s ∈ idents t, trimSpace s = s) {g : Graph} (hread : Parse.read rnd cnt src = .ok g)
    (hnp : NoPorts g) (hna : NamesApart g) (hcl : NoClusterEnds g) (hac : ∀ m, MustWrite g m → ¬ ReachesCycle g m)
    {sortE sortE' : List Edge → List Edge} (hs : SortContract sortE) (hs' : SortContract sortE') (rnd' : Nat → Nat) (cnt' : Nat) :
    ∃ text t' n' g', ∀ f, g.subGraphs.length < f →
      graphString sortE f g = .ok text ∧ parseBytes rnd' cnt' text = .ok t' n' ∧ analyseEscape U t' newGraph = some (g', none) ∧ graphString sortE' f g' = .ok text := by
  obtain ⟨text, g', hall⟩ := C60_format_idempotent_partial rnd cnt hparse htrim hread hnp hna hcl hac hs hs' rnd' cnt'
  obtain ⟨e1, e2, -⟩ := hall _ (Nat.lt_succ_self _)
  obtain ⟨t', n', hp', hg'⟩ := read_analysed e2
  refine ⟨text, t', n', g', fun f hf => ⟨(hall f hf).1, hp', ?_, (hall f hf).2.2⟩⟩
  have hp := C36_parsed_printable rnd cnt src hparse htrim
  obtain ⟨t1, n1, hp1, hg⟩ := read_analysed hread
  rw [hparse] at hp1
  cases hp1
  obtain ⟨hr, hv⟩ := analysed_valid hp hg fun n hn => absurd hn (NoClusterEnds.none hcl n)
  obtain ⟨tw, htw⟩ := analysed_string hg hac hs
  obtain ⟨hw, hw'⟩ := htw _ (Nat.lt_succ_self _)
  rw [e1] at hw'
  injection hw' with htext
  have hP := writtenP hr (analysedP hg (.inl ⟨rfl, rfl⟩) hnames) hs hw
  rw [htext, ← graphStr_map splitName_str, C36_print_parse (written_printable hr hv hs hw)] at hp'
  cases hp'
  rw [same_calls U (by rw [treeCalls_norm, treeCalls_map splitName_str]; exact treeP hP)]
  unfold newAnalysedGraph at hg'
  cases ha : analyse graphIface (norm (mapTree splitName tw)) newGraph with
  | mk a b =>
    rw [ha] at hg'
    cases b with
    | none => cases hg'; rfl
    | some m => cases hg'

/-! ### the conditions are needed, and they can be met -/

/-- Unicode tables in which everything beyond ASCII is a letter. -/
def allLetters : Unicode := ⟨fun _ => true, fun _ => false⟩

/-- The nodes after analysing a text into an Escape (`none`: a panic) and into a Graph, and the error texts. -/
def bothWays (src : Str) : Option (Option (List Str × Option Str) × (List Str × Option Str)) := match parseBytes (fun k => k) 0 src with
  | .ok t _ => some ((analyseEscape allLetters t newGraph).map fun r => (mkeys r.1.nodes.lookup, r.2), (mkeys (analyse graphIface t newGraph).1.nodes.lookup, (analyse graphIface t newGraph).2))
  | _ => none

/-- C85. A node statement with a port after a quoted name: the Escape stores the node under another name than the Graph. -/
theorem C85_port_renamed : bothWays (b!"graph { \"a b\":p }") = some (some ([b!"\"&#34;a b&#34;:p\""], none), ([b!"\"a b\":p"], none)) := by decide +kernel

/-- C85. An identifier of the language that is white space to `strings.TrimSpace` (U+00A0): a Graph accepts the text, an Escape panics. -/
theorem C85_space_panics : bothWays (b!"graph { " ++ [0xC2, 0xA0] ++ b!" }") = some (none, ([[0xC2, 0xA0]], none)) := by decide +kernel

/-- C85. An identifier that starts with ε: the Escape stores the node under its name in quotes. -/
theorem C85_epsilon_renamed : bothWays (b!"graph { " ++ [0xCE, 0xB5] ++ b!" }") = some (some ([[34, 0xCE, 0xB5, 34]], none), ([[0xCE, 0xB5]], none)) := by decide +kernel

/-- A test for the hypothesis about ports. -/
def wordPortB (s : Str) : Bool := match s with
  | [] => false
  | c :: _ => decide (65 ≤ c ∧ c ≤ 90 ∨ 97 ≤ c ∧ c ≤ 122 ∨ c = 95) && s.all fun x => decide (x < 128 ∧ x ∉ whiteSpace ∧ x ≠ 45 ∧ x ≠ 46 ∧ x ≠ 47)

theorem wordPortB_ok (U : Unicode) {s : Str} (h : wordPortB s = true) : WordText U s := by
  unfold wordPortB at h
  split at h
  · cases h
  · rename_i c cs
    simp only [Bool.and_eq_true, decide_eq_true_eq, List.all_eq_true] at h
    unfold WordText
    rw [runes_all_ascii _ fun x hx => (h.2 x hx).1]
    refine ⟨⟨c, cs, rfl, ?_⟩, fun r hr => (h.2 r hr).2⟩
    unfold LetterChar
    omega

theorem namesB_ok (U : Unicode) {src : Str} {t : Ast.Graph} {n : Nat} (hp : parseBytes (fun k => k) 0 src = .ok t n)
    (h : (src.all (fun b => decide (b < 128)) && match parseBytes (fun k => k) 0 src with
      | .ok t _ => (namesDoc t).all fun s => decide (s ∈ idents t) || wordPortB s
      | _ => false) = true) : ∀ s ∈ namesDoc t, Unescaped U s := by
  rw [hp] at h
  simp only [Bool.and_eq_true, List.all_eq_true, decide_eq_true_eq, Bool.or_eq_true] at h
  exact C85_ascii_names U hp h.1 fun s hs => (h.2 s hs).imp id (wordPortB_ok U)

/-- The hypotheses of `C85_same_partial` and `C85_reformat_partial` are met by a document with defaults, chains, subgraphs and ports in node statements, whatever the Unicode tables. -/
theorem example_escape_analyse (U : Unicode) : ∃ t n g, parseBytes (fun k => k) 0 formatSample = .ok t n ∧ (∀ s ∈ namesDoc t, Unescaped U s) ∧ (∀ s ∈ idents t, trimSpace s = s) ∧
    Parse.read (fun k => k) 0 formatSample = .ok g ∧ NoPorts g ∧ NamesApart g ∧ NoClusterEnds g ∧ (∀ m, MustWrite g m → ¬ ReachesCycle g m) := by
  obtain ⟨t, n, g, h1, h2, h3, h4⟩ := example_format
  exact ⟨t, n, g, h1, namesB_ok U h1 (by decide +kernel), h2, h3, h4⟩

/-- The same with a quoted name, a numeral and an HTML string. -/
theorem example_escape_kinds (U : Unicode) : ∃ t n, parseBytes (fun k => k) 0 (b!"digraph G { a -> \"b c\"; subgraph S { <i>; -1.5 [label=\"x y\"] } }") = .ok t n ∧ ∀ s ∈ namesDoc t, Unescaped U s := by
  have h : (match parseBytes (fun k => k) 0 (b!"digraph G { a -> \"b c\"; subgraph S { <i>; -1.5 [label=\"x y\"] } }") with | .ok _ _ => true | _ => false) = true := by decide +kernel
  split at h
  · rename_i t n hp
    exact ⟨t, n, hp, namesB_ok U hp (by decide +kernel)⟩
  · cases h

end Gographviz.Props
