import Verif.Props.ParseProps
import Verif.Proofs.PrintParse
/-!
Property C36: printing a syntax tree and parsing the text gives the tree back.
-/
namespace Gographviz.Props

open Gographviz Spec Lex Parse
open Gographviz.Spec.Meaning
open Gographviz.Ast (Stmt Loc EdgeRH AttrList graphStr)

/-- C36. For every syntax tree over valid identifiers, `Parse(tree.String())` succeeds and gives the tree back, up to dropping empty
attribute lists and empty default statements. No generated name is drawn, whatever the state of the generator. -/
theorem C36_print_parse {t : Ast.Graph} (h : Printable t) (rnd : Nat → Nat) (cnt : Nat) : parseBytes rnd cnt (graphStr t) = .ok (norm t) cnt := by
  obtain ⟨ls, h1, h2⟩ := Print.graph_toked h
  obtain ⟨ys', h3, h4⟩ := h1 [] [([], 1, [])] trivial (.eof .eof)
  rw [List.append_nil] at h3
  obtain ⟨ys, ts, h5, h6, h7⟩ := tokens_toks (graphStr t)
  rw [h5.det h3] at h7
  obtain ⟨us, e, h8, _, _, _, _⟩ := source_spec rnd cnt (graphStr t)
  rw [h6] at h8
  cases h8
  rw [C35_source rnd cnt _ h6]
  have hm := h7.map
  have hm' : ys'.map (fun y => (y.2.1, y.2.2)) = ys'.map Prod.snd := rfl
  rw [hm', h4, List.map_append] at hm
  have hl : us.map lexeme = ls := List.append_inj_left' hm rfl
  rw [hl]
  exact h2 _ _

/-! ### normalising -/

theorem validNode_norm {n : Ast.NodeID} (h : ValidNode n) : ValidNode (normNode n) := by
  unfold normNode
  split
  · exact ⟨h.1, .inl rfl⟩
  · exact h

theorem normNode_str (n : Ast.NodeID) : Ast.nodeIDStr (normNode n) = Ast.nodeIDStr n := by
  unfold normNode
  split
  · rename_i h
    simp [Ast.nodeIDStr, Ast.portStr, h]
  · rfl

mutual
theorem printable_norm_stmt : (s : Stmt) → PrintableStmt s → PrintableStmts (normStmt s)
  | .node n as, h => by
    simp only [PrintableStmt, normStmt, PrintableStmts, and_true] at h ⊢
    exact ⟨validNode_norm h.1, fun al hal => h.2 al (List.mem_filter.1 hal).1⟩
  | .edge src rhs as, h => by
    simp only [PrintableStmt, normStmt, PrintableStmts, and_true] at h ⊢
    refine ⟨printable_norm_loc src h.1, ?_, printable_norm_rhs rhs h.2.2.1, fun al hal => h.2.2.2 al (List.mem_filter.1 hal).1⟩
    cases rhs with
    | nil => exact absurd rfl h.2.1
    | cons r rest => cases r; simp [normRHS]
  | .nodeAttrs as, h => by
    simp only [PrintableStmt, normStmt, normDefaults] at h ⊢
    split
    · trivial
    · simp only [PrintableStmt, PrintableStmts, and_true]; exact fun al hal => h al (List.mem_filter.1 hal).1
  | .edgeAttrs as, h => by
    simp only [PrintableStmt, normStmt, normDefaults] at h ⊢
    split
    · trivial
    · simp only [PrintableStmt, PrintableStmts, and_true]; exact fun al hal => h al (List.mem_filter.1 hal).1
  | .graphAttrs as, h => by
    simp only [PrintableStmt, normStmt, normDefaults] at h ⊢
    split
    · trivial
    · simp only [PrintableStmt, PrintableStmts, and_true]; exact fun al hal => h al (List.mem_filter.1 hal).1
  | .sub id body, h => by
    simp only [PrintableStmt, normStmt, PrintableStmts, and_true] at h ⊢
    exact ⟨h.1, printable_norm_stmts body h.2⟩
  | .attr a, h => by
    simp only [normStmt, PrintableStmts, and_true]; exact h
theorem printable_norm_loc : (l : Loc) → PrintableLoc l → PrintableLoc (normLoc l)
  | .node n, h => by simp only [PrintableLoc, normLoc] at h ⊢; exact validNode_norm h
  | .sub id body, h => by
    simp only [PrintableLoc, normLoc] at h ⊢
    exact ⟨h.1, printable_norm_stmts body h.2⟩
theorem printable_norm_rhs : (rhs : List EdgeRH) → PrintableRHS rhs → PrintableRHS (normRHS rhs)
  | [], _ => trivial
  | .mk op d :: rest, h => by
    simp only [PrintableRHS, normRHS] at h ⊢
    exact ⟨printable_norm_loc d h.1, printable_norm_rhs rest h.2⟩
theorem printable_norm_stmts : (ss : List Stmt) → PrintableStmts ss → PrintableStmts (normStmts ss)
  | [], _ => trivial
  | s :: ss, h => by
    simp only [PrintableStmts, normStmts] at h ⊢
    have h1 := printable_norm_stmt s h.1
    have h2 := printable_norm_stmts ss h.2
    generalize normStmt s = xs at h1
    induction xs with
    | nil => exact h2
    | cons x xs ih => simp only [PrintableStmts, List.cons_append] at h1 ⊢; exact ⟨h1.1, ih h1.2⟩
end

theorem normAttrs_str (as : AttrList) : Ast.attrListStr (normAttrs as) = Ast.attrListStr as := by
  induction as with
  | nil => rfl
  | cons al als ih =>
    cases al with
    | nil => rw [Print.normAttrs_nil, ih]; simp [Ast.attrListStr, Ast.alistStr]
    | cons a as => rw [Print.normAttrs_cons]; simp only [Ast.attrListStr, ih]

theorem defaults_str (indent kw : Str) (as : AttrList) : Ast.defaultsStr indent kw (normAttrs as) = Ast.defaultsStr indent kw as := by
  simp only [Ast.defaultsStr, normAttrs_str]

theorem defaults_empty {as : AttrList} (h : normAttrs as = []) (indent kw : Str) : Ast.defaultsStr indent kw as = [] := by
  rw [← defaults_str, h]; rfl

theorem stmtsLines_append (indent : Str) (as bs : List Stmt) : Ast.stmtsLines indent (as ++ bs) = Ast.stmtsLines indent as ++ Ast.stmtsLines indent bs := by
  induction as with
  | nil => rfl
  | cons a as ih => simp only [List.cons_append, Ast.stmtsLines, ih, List.append_assoc]

theorem lines_one {indent : Str} {s : Stmt} {x : Str} (h : Ast.stmtStr indent s = x) :
    Ast.stmtsLines indent [s] = (if x.length > 0 then x ++ b!";\n" else []) := by
  simp only [Ast.stmtsLines, h, List.append_nil]

mutual
theorem norm_str_stmt (indent : Str) : (s : Stmt) → Ast.stmtsLines indent (normStmt s) = Ast.stmtsLines indent [s]
  | .node n as => by simp only [normStmt, Ast.stmtsLines, Ast.stmtStr, normAttrs_str, normNode_str]; rfl
  | .edge src rhs as => by simp only [normStmt, Ast.stmtsLines, Ast.stmtStr, normAttrs_str, norm_str_loc src, norm_str_rhs rhs]; rfl
  | .nodeAttrs as => by
    simp only [normStmt, normDefaults]
    split
    · rename_i h; simp [Ast.stmtsLines, Ast.stmtStr, defaults_empty h]
    · simp only [Ast.stmtsLines, Ast.stmtStr, defaults_str]; rfl
  | .edgeAttrs as => by
    simp only [normStmt, normDefaults]
    split
    · rename_i h; simp [Ast.stmtsLines, Ast.stmtStr, defaults_empty h]
    · simp only [Ast.stmtsLines, Ast.stmtStr, defaults_str]; rfl
  | .graphAttrs as => by
    simp only [normStmt, normDefaults]
    split
    · rename_i h; simp [Ast.stmtsLines, Ast.stmtStr, defaults_empty h]
    · simp only [Ast.stmtsLines, Ast.stmtStr, defaults_str]; rfl
  | .sub id body => by simp only [normStmt, Ast.stmtsLines, Ast.stmtStr, norm_str_stmts _ body]; rfl
  | .attr a => rfl
theorem norm_str_loc : (l : Loc) → Ast.locStr (normLoc l) = Ast.locStr l
  | .node n => by simp only [normLoc, Ast.locStr, normNode_str]
  | .sub id body => by simp only [normLoc, Ast.locStr, norm_str_stmts _ body]
theorem norm_str_rhs : (rhs : List EdgeRH) → Ast.rhsStr (normRHS rhs) = Ast.rhsStr rhs
  | [] => rfl
  | .mk op d :: rest => by simp only [normRHS, Ast.rhsStr, norm_str_loc d, norm_str_rhs rest]
theorem norm_str_stmts (indent : Str) : (ss : List Stmt) → Ast.stmtsLines indent (normStmts ss) = Ast.stmtsLines indent ss
  | [] => rfl
  | s :: ss => by
    rw [normStmts, stmtsLines_append, norm_str_stmt indent s, norm_str_stmts indent ss, ← stmtsLines_append]
    rfl
end

/-- C36. What normalising drops is never printed: the normalised tree prints the same text. -/
theorem C36_norm_same_text (t : Ast.Graph) : graphStr (norm t) = graphStr t := by
  simp only [graphStr, norm, Ast.stmtListStr, norm_str_stmts]; rfl

/-- C36. Hence printing is stable: print, parse, print gives the same text. -/
theorem C36_stable {t t' : Ast.Graph} (h : Printable t) (rnd : Nat → Nat) (cnt n : Nat) (hp : parseBytes rnd cnt (graphStr t) = .ok t' n) :
    graphStr t' = graphStr t := by
  rw [C36_print_parse h] at hp
  cases hp
  exact C36_norm_same_text t

/-! ### syntax trees made by the parser -/

theorem decDigitsN_digits (f : Nat) : ∀ (n : Nat) (acc : Str), (∀ x ∈ acc, digit x) → ∀ x ∈ decDigitsN f n acc, digit x := by
  induction f with
  | zero => intro n acc h; exact h
  | succ f ih =>
    intro n acc h
    have hd : ∀ x ∈ (48 + n % 10) :: acc, digit x := by
      intro x hx
      rcases List.mem_cons.1 hx with rfl | hx
      · unfold digit; omega
      · exact h x hx
    simp only [decDigitsN]
    split
    · exact hd
    · exact ih _ _ hd

theorem runes_all_ascii (s : Str) (h : ∀ x ∈ s, x < 128) : runes s = s := by
  induction s with
  | nil => rfl
  | cons c s ih => rw [runes_ascii (h c (by simp)), ih fun x hx => h x (by simp [hx])]

theorem anonName_valid (k : Nat) : ValidName (anonName k) := by
  have hdig : ∀ x ∈ decDigits k, digit x := decDigitsN_digits _ _ _ (by simp)
  have hr : runes (anonName k) = anonName k := by
    apply runes_all_ascii
    intro x hx
    rcases List.mem_append.1 hx with h | h
    · have h' : x ∈ b!"anon" := h
      clear h hx; revert x; decide
    · have := hdig x h; unfold digit at this; omega
  have hne : decDigits k ≠ [] := by
    unfold decDigits
    simp only [decDigitsN]
    split
    · simp
    · have : ∀ (f n : Nat) (acc : Str), acc ≠ [] → decDigitsN f n acc ≠ [] := by
        intro f
        induction f with
        | zero => intro n acc h; exact h
        | succ f ih => intro n acc h; simp only [decDigitsN]; split <;> simp [ih]
      exact this _ _ _ (by simp)
  refine ⟨.inl ⟨?_, ?_⟩, ?_⟩
  · rw [hr]
    refine ⟨97, b!"non" ++ decDigits k, rfl, by decide, ?_⟩
    intro x hx
    rcases List.mem_append.1 hx with h | h
    · left; clear hx; revert x; decide
    · exact .inr (hdig x h)
  · rw [hr]
    intro hm
    have : ∀ w ∈ keywords.map Prod.fst, w.head? ≠ some 97 := by decide
    exact this _ hm rfl
  · apply Print.trimSpace_ok
    · exact Print.headOk_ascii (c := 97) (by omega) _
    · obtain ⟨a, d, hd⟩ : ∃ a d, decDigits k = a ++ [d] := ⟨_, _, (List.dropLast_concat_getLast hne).symm⟩
      have hd' : digit d := hdig d (by rw [hd]; simp)
      have := Print.tailOk_ascii (c := d) (by unfold digit at hd'; omega) (b!"anon" ++ a)
      rw [anonName, hd]
      simpa using this

theorem true_valid : ValidId (b!"true") := by
  refine .inl ⟨⟨116, b!"rue", by decide, by decide, ?_⟩, by decide⟩
  intro x hx
  left; revert x; decide

/-- All identifier lexemes are valid; `N`: those that must not have outer white space. -/
def LexOk (ts : List Lexeme) : Prop := ∀ s, (18, s) ∈ ts → ValidId s

theorem LexOk.left {as bs : List Lexeme} (h : LexOk (as ++ bs)) : LexOk as := fun s hs => h s (by simp [hs])
theorem LexOk.right {as bs : List Lexeme} (h : LexOk (as ++ bs)) : LexOk bs := fun s hs => h s (by simp [hs])
theorem LexOk.tail {x : Lexeme} {bs : List Lexeme} (h : LexOk (x :: bs)) : LexOk bs := fun s hs => h s (by simp [hs])

theorem attrM_valid {ts : List Lexeme} {a : Ast.Attr} (h : AttrM ts a) (hl : LexOk ts) : ValidId a.field ∧ ValidId a.value := by
  cases h with
  | flag => exact ⟨hl _ (by simp), true_valid⟩
  | pair => exact ⟨hl _ (by simp), hl _ (by simp)⟩

theorem alistM_valid {ts : List Lexeme} {as : Ast.AList} (h : AListM ts as) (hl : LexOk ts) : ∀ a ∈ as, ValidId a.field ∧ ValidId a.value := by
  induction h with
  | one h => intro a ha; rw [List.mem_singleton.1 ha]; exact attrM_valid h hl
  | snoc _ _ h3 ih =>
    intro a ha
    rcases List.mem_append.1 ha with h | h
    · exact ih hl.left a h
    · rw [List.mem_singleton.1 h]; exact attrM_valid h3 hl.right.right

theorem bracketM_valid {ts : List Lexeme} {as : AttrList} (h : BracketM ts as) (hl : LexOk ts) : ValidAttrs as := by
  cases h with
  | empty => intro al h; cases h
  | full h => intro al hal; rw [List.mem_singleton.1 hal]; exact alistM_valid h hl.tail.left

theorem attrListM_valid {ts : List Lexeme} {as : AttrList} (h : AttrListM ts as) (hl : LexOk ts) : ValidAttrs as := by
  induction h with
  | one h => exact bracketM_valid h hl
  | snoc _ h2 ih =>
    intro al hal
    rcases List.mem_append.1 hal with h | h
    · exact ih hl.left al h
    · exact bracketM_valid h2 hl.right al h

theorem optAttrListM_valid {ts : List Lexeme} {as : AttrList} (h : OptAttrListM ts as) (hl : LexOk ts) : ValidAttrs as := by
  cases h with
  | absent => intro al h; cases h
  | present h => exact attrListM_valid h hl

/-- No outer white space in the identifiers. -/
def Trimmed (ids : List Str) : Prop := ∀ s ∈ ids, trimSpace s = s

theorem Trimmed.left {as bs : List Str} (h : Trimmed (as ++ bs)) : Trimmed as := fun s hs => h s (by simp [hs])
theorem Trimmed.right {as bs : List Str} (h : Trimmed (as ++ bs)) : Trimmed bs := fun s hs => h s (by simp [hs])

theorem nodeIdM_valid {ts : List Lexeme} {n : Ast.NodeID} (h : NodeIdM ts n) (hl : LexOk ts) (ht : Trimmed (identsNode n)) : ValidNode n := by
  cases h with
  | plain => exact ⟨⟨hl _ (by simp), ht _ (by simp [identsNode])⟩, .inl rfl⟩
  | port => exact ⟨⟨hl _ (by simp), ht _ (by simp [identsNode])⟩, .inr ⟨⟨hl _ (by simp), ht _ (by simp [identsNode])⟩, .inl rfl⟩⟩
  | port2 => exact ⟨⟨hl _ (by simp), ht _ (by simp [identsNode])⟩, .inr ⟨⟨hl _ (by simp), ht _ (by simp [identsNode])⟩,
      .inr ⟨hl _ (by simp), ht _ (by simp [identsNode])⟩⟩⟩

theorem printableStmts_append (as bs : List Stmt) : PrintableStmts (as ++ bs) ↔ PrintableStmts as ∧ PrintableStmts bs := by
  induction as with
  | nil => simp [PrintableStmts]
  | cons a as ih => simp only [List.cons_append, PrintableStmts, ih, and_assoc]

theorem printableRHS_append (as bs : List EdgeRH) : PrintableRHS (as ++ bs) ↔ PrintableRHS as ∧ PrintableRHS bs := by
  induction as with
  | nil => simp [PrintableRHS]
  | cons a as ih => cases a; simp only [List.cons_append, PrintableRHS, ih, and_assoc]

theorem optStmtsM_printable {gen : Nat → Str} (hg : ∀ k, ValidName (gen k)) {c c' : Nat} {ts : List Lexeme} {ss : List Stmt} (h : OptStmtsM gen c ts ss c') :
    LexOk ts → Trimmed (identsStmts ss) → PrintableStmts ss := by
  refine OptStmtsM.rec (gen := gen)
    (motive_1 := fun c ts s c' _ => LexOk ts → Trimmed (identsStmt s) → PrintableStmt s)
    (motive_2 := fun c ts l c' _ => LexOk ts → Trimmed (identsLoc l) → PrintableLoc l)
    (motive_3 := fun c ts es c' _ => LexOk ts → Trimmed (identsRHS es) → es ≠ [] ∧ PrintableRHS es)
    (motive_4 := fun c ts id b c' _ => LexOk ts → Trimmed (identsStmts b) → ValidId id ∧ PrintableStmts b)
    (motive_5 := fun c ts ss c' _ => LexOk ts → Trimmed (identsStmts ss) → PrintableStmts ss)
    (motive_6 := fun c ts ss c' _ => LexOk ts → Trimmed (identsStmts ss) → PrintableStmts ss)
    ?_ ?_ ?_ ?_ ?_ ?_ ?_ ?_ ?_ ?_ ?_ ?_ ?_ ?_ ?_ ?_ ?_ ?_ h
  · intro c f l v hl _
    exact ⟨hl _ (by simp), hl _ (by simp)⟩
  · intro c ts us n as h1 h2 hl ht
    exact ⟨nodeIdM_valid h1 hl.left ht.left, optAttrListM_valid h2 hl.right⟩
  · intro c c1 c2 ts us vs src rhs as _ _ h3 ih1 ih2 hl ht
    simp only [identsStmt] at ht
    have h2 := ih2 hl.right.left ht.left.right
    exact ⟨ih1 hl.left ht.left.left, h2.1, h2.2, optAttrListM_valid h3 hl.right.right⟩
  · intro c l ts as h hl _
    exact attrListM_valid h hl.tail
  · intro c l ts as h hl _
    exact attrListM_valid h hl.tail
  · intro c l ts as h hl _
    exact attrListM_valid h hl.tail
  · intro c c' ts id b _ ih hl ht
    exact ih hl fun s hs => ht s (by simp [identsStmt, hs])
  · intro c ts n h hl ht
    exact nodeIdM_valid h hl ht
  · intro c c' ts id b _ ih hl ht
    exact ih hl fun s hs => ht s (by simp [identsLoc, hs])
  · intro c c' x op ts d h1 _ ih hl ht
    refine ⟨by simp, ?_⟩
    simp only [PrintableRHS, and_true]
    exact ih hl.tail fun s hs => ht s (by simp [identsRHS, hs])
  · intro c c1 c2 ts us rhs x op d _ h1 _ ih0 ih hl ht
    rw [identsRHS_append] at ht
    refine ⟨by simp, ?_⟩
    rw [printableRHS_append]
    refine ⟨(ih0 hl.left ht.left).2, ?_⟩
    simp only [PrintableRHS, and_true]
    exact ih hl.right.tail fun s hs => ht.right s (by simp [identsRHS, hs])
  · intro c c' l l' ts b _ ih hl ht
    exact ⟨(hg c').1, ih hl.tail.left ht⟩
  · intro c c' k l l' ts b _ ih hl ht
    exact ⟨(hg c').1, ih hl.tail.tail.left ht⟩
  · intro c c' k s l l' ts b _ ih hl ht
    exact ⟨hl _ (by simp), ih hl.tail.tail.tail.left ht⟩
  · intro c c' ts sm s _ h2 ih hl ht
    simp only [PrintableStmts, and_true]
    exact ih hl.left fun s hs => ht s (by simp [identsStmts, hs])
  · intro c c1 c2 ts us sm ss s _ _ h3 ih1 ih2 hl ht
    rw [identsStmts_append] at ht
    rw [printableStmts_append]
    refine ⟨ih1 hl.left ht.left, ?_⟩
    simp only [PrintableStmts, and_true]
    exact ih2 hl.right.left fun s hs => ht.right s (by simp [identsStmts, hs])
  · intro c _ _
    trivial
  · intro c c' ts ss _ ih
    exact ih

theorem tokensOf_valid {off : Nat} {rem : Str} {ts : List Token} (h : TokensOf off rem ts) : ∀ t ∈ ts, t.typ = 18 → ValidId t.lit := by
  induction h with
  | eof _ h1 => intro t ht h18; rw [List.mem_singleton.1 ht] at h18; omega
  | cons _ _ _ _ _ hlong _ _ ih =>
    intro t ht h18
    rcases List.mem_cons.1 ht with rfl | hm
    · unfold Longest at hlong
      rw [h18, if_neg (by decide)] at hlong
      rcases hlong.1 with h | h | ⟨_, h⟩
      · exact absurd h (by
          have : ∀ e ∈ keywords, e.2 ≠ 18 := by decide
          exact fun h => this _ h rfl)
      · exact absurd h (by
          have : ∀ e ∈ puncts, e.2 ≠ 18 := by decide
          exact fun h => this _ h rfl)
      · exact h
    · exact ih t hm h18

/-- C36. Every syntax tree made by `Parse` is one that the printer is meant for, if none of its identifiers has outer Unicode white space. -/
theorem C36_parsed_printable (rnd : Nat → Nat) (cnt : Nat) (src : Str) {t : Ast.Graph} {n : Nat} (h : parseBytes rnd cnt src = .ok t n)
    (ht : ∀ s ∈ idents t, trimSpace s = s) : Printable t := by
  obtain ⟨ts, e, h1, he, _, _, _⟩ := source_spec rnd cnt src
  rw [C35_source rnd cnt src h1] at h
  obtain ⟨ts', h2, h3, _⟩ := C33_total src
  rw [h1] at h2; cases h2
  have hl : LexOk (ts.map lexeme) := by
    intro s hs
    obtain ⟨t, ht, hlx⟩ := List.mem_map.1 hs
    simp only [lexeme, Prod.mk.injEq] at hlx
    rw [← hlx.2]
    exact tokensOf_valid h3 t (by simp [ht]) hlx.1
  generalize ts.map lexeme = L at h hl
  cases h with
  | mk a b d f =>
    refine ⟨?_, optStmtsM_printable (fun k => anonName_valid _) f hl.right.tail.right.tail.left fun s hs => ht s (by simp [idents, hs])⟩
    cases d with
    | absent => exact .inl rfl
    | present => exact .inr (hl _ (by simp))

/-- C36. For an accepted source text: printing what `Parse` returned and parsing again gives the same syntax tree (normalised). -/
theorem C36_source (rnd : Nat → Nat) (cnt : Nat) (src : Str) {t : Ast.Graph} {n : Nat} (h : parseBytes rnd cnt src = .ok t n)
    (ht : ∀ s ∈ idents t, trimSpace s = s) (rnd' : Nat → Nat) (cnt' : Nat) : parseBytes rnd' cnt' (graphStr t) = .ok (norm t) cnt' :=
  C36_print_parse (C36_parsed_printable rnd cnt src h ht) rnd' cnt'

/-! ### limits and concrete cases -/

/-- The node name `a` followed by U+00A0 (no-break space), a DOT word. -/
def nbspTree : Ast.Graph := ⟨false, false, [], [.node ⟨[97, 0xC2, 0xA0], ⟨[], []⟩⟩ []]⟩

/-- C36. The restriction on outer white space is necessary: a node name may be a valid DOT word that ends with a Unicode space; the printer
trims it, so another node is read back. -/
theorem C36_space_lost : ValidId [97, 0xC2, 0xA0] ∧ parseBytes (fun k => k) 0 (graphStr nbspTree) = .ok ⟨false, false, [], [.node ⟨[97], ⟨[], []⟩⟩ []]⟩ 0 := by
  constructor
  · refine .inl ⟨⟨97, [160], by decide, by decide, ?_⟩, by decide⟩
    intro x hx
    left; revert x; decide
  · have e : graphStr nbspTree = graphStr ⟨false, false, [], [.node ⟨[97], ⟨[], []⟩⟩ []]⟩ := by decide +kernel
    rw [e]
    refine C36_print_parse (t := ⟨false, false, [], [.node ⟨[97], ⟨[], []⟩⟩ []]⟩) ⟨.inl rfl, ?_⟩ (fun k => k) 0
    simp only [PrintableStmts, PrintableStmt, and_true]
    refine ⟨⟨⟨.inl ⟨⟨97, [], by decide, by decide, by simp⟩, by decide⟩, by decide⟩, .inl rfl⟩, fun al h => by cases h⟩

/-- The parsed sample is printable. -/
theorem sample_printable : ∃ t n, parseBytes (fun k => 7 * k) 3 sample = .ok t n ∧ (∀ s ∈ idents t, trimSpace s = s) ∧ Printable t := by
  have h : (match parseBytes (fun k => 7 * k) 3 sample with
    | .ok g _ => (idents g).all fun s => decide (trimSpace s = s)
    | _ => false) = true := by decide +kernel
  split at h
  · rename_i g n hp
    have ht : ∀ s ∈ idents g, trimSpace s = s := fun s hs => of_decide_eq_true (List.all_eq_true.1 h s hs)
    exact ⟨g, n, hp, ht, C36_parsed_printable _ _ _ hp ht⟩
  · cases h

end Gographviz.Props
