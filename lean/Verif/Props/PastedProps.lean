import Verif.Props.PrintProps
/-!
C70: the printed parts of syntax trees can be put together to a document.
-/
namespace Gographviz.Props
open Gographviz Spec Lex Parse Print
open Gographviz.Spec.Meaning
open Gographviz.Ast (Stmt stmtListString stmtString)

/-- A document as one writes it by hand around a body. -/
def document (directed strict : Bool) (id body : Str) : Str :=
  (if strict then b!"strict " else []) ++ (if directed then b!"digraph" else b!"graph") ++ b!" " ++ id ++ b!" {\n" ++ body ++ b!"\n}\n"

theorem stmtsM_append {gen : Nat → Str} {c c1 : Nat} {us : List Lexeme} {ss : List Stmt} (h : StmtsM gen c us ss c1) :
    ∀ (n : Nat) {c2 : Nat} {vs : List Lexeme} {tt : List Stmt}, tt.length = n → StmtsM gen c1 vs tt c2 → StmtsM gen c (us ++ vs) (ss ++ tt) c2 := by
  intro n
  induction n with
  | zero => intro c2 vs tt hn h; cases h <;> simp at hn
  | succ n ih =>
    intro c2 vs tt hn h'
    cases h' with
    | one h1 h2 => exact .snoc h h1 h2
    | @snoc _ c1' _ ts' us' sm' ss' s' h1 h2 h3 =>
      have := ih (by simpa using hn) h1
      have e := StmtsM.snoc this h2 h3
      simpa only [List.append_assoc] using e

theorem optStmtsM_append {gen : Nat → Str} {c c1 c2 : Nat} {us vs : List Lexeme} {ss tt : List Stmt} (h : OptStmtsM gen c us ss c1) (h' : OptStmtsM gen c1 vs tt c2) :
    OptStmtsM gen c (us ++ vs) (ss ++ tt) c2 := by
  cases h with
  | absent => simpa using h'
  | present h => cases h' with
    | absent => simpa using OptStmtsM.present h
    | present h' => exact .present (stmtsM_append h _ rfl h')

/-- A text whose tokens are known is parsed accordingly. -/
theorem parse_toked {src : Str} {ls : List Lexeme} (h1 : Toked Any src ls) {t : Ast.Graph} (h2 : ∀ gen c, GraphM gen c ls t c) (rnd : Nat → Nat) (cnt : Nat) :
    parseBytes rnd cnt src = .ok t cnt := by
  obtain ⟨ys', h3, h4⟩ := h1 [] [([], 1, [])] trivial (.eof .eof)
  rw [List.append_nil] at h3
  obtain ⟨ys, ts, h5, h6, h7⟩ := tokens_toks src
  rw [h5.det h3] at h7
  obtain ⟨us, e, h8, _, _, _, _⟩ := source_spec rnd cnt src
  rw [h6] at h8
  cases h8
  rw [C35_source rnd cnt _ h6]
  have hm := h7.map
  have hm' : ys'.map (fun y => (y.2.1, y.2.2)) = ys'.map Prod.snd := rfl
  rw [hm', h4, List.map_append] at hm
  have hl : us.map lexeme = ls := List.append_inj_left' hm rfl
  rw [hl]
  exact h2 _ _

theorem parse_document (directed strict : Bool) {id : Str} (hid : id = [] ∨ ValidId id) {body : Str} {ls : List Lexeme} {ss : List Stmt} (h1 : Toked Any body ls)
    (h2 : ∀ gen c, OptStmtsM gen c ls ss c) (rnd : Nat → Nat) (cnt : Nat) :
    parseBytes rnd cnt (document directed strict id body) = .ok ⟨directed, strict, id, ss⟩ cnt := by
  obtain ⟨ls', h3, h4⟩ := wrapped_toked directed strict hid h1 h2
  refine parse_toked (ls := ls') ?_ h4 rnd cnt
  have e : document directed strict id body = (if strict then b!"strict " else []) ++ (Ast.typeStr directed ++ ([32] ++ id ++ ([32] ++ ([123] ++ ([10] ++
      (body ++ ([10] ++ ([125] ++ [10])))))))) := by
    simp [document, Ast.typeStr]
  rw [e]
  exact h3

theorem no_tabs : Tabs [] := fun c hc => by cases hc

theorem pieces_toked : ∀ (pieces : List (List Stmt)), (∀ ss ∈ pieces, PrintableStmts ss) →
    ∃ ls, Toked Any (sjoin [10] (pieces.map stmtListString)) ls ∧ ∀ gen c, OptStmtsM gen c ls (pieces.flatMap normStmts) c
  | [], _ => ⟨[], .nil, fun gen c => .absent⟩
  | [ss], h => by
    obtain ⟨ls, h1, h2⟩ := body_toked no_tabs ss (h ss (by simp))
    exact ⟨ls, h1, by simpa using h2⟩
  | ss :: tt :: rest, h => by
    obtain ⟨ls, h1, h2⟩ := body_toked no_tabs ss (h ss (by simp))
    obtain ⟨us, h3, h4⟩ := pieces_toked (tt :: rest) (fun x hx => h x (List.mem_cons_of_mem _ hx))
    refine ⟨ls ++ us, ?_, fun gen c => ?_⟩
    · have e : sjoin [10] ((ss :: tt :: rest).map stmtListString) = stmtListString ss ++ ([10] ++ sjoin [10] ((tt :: rest).map stmtListString)) := by
        simp [sjoin]
      rw [e]
      exact h1.anyThen (tk_nl.anyThen h3)
    · exact optStmtsM_append (h2 gen c) (h4 gen c)

/-- C70. Statement lists, each printed by its own `String` method, can be put one after the other into the braces of a document: it is read as the document with
all the statements, in that order. -/
theorem C70_lists (directed strict : Bool) {id : Str} (hid : id = [] ∨ ValidId id) (pieces : List (List Stmt)) (h : ∀ ss ∈ pieces, PrintableStmts ss)
    (rnd : Nat → Nat) (cnt : Nat) : parseBytes rnd cnt (document directed strict id (sjoin (b!"\n") (pieces.map stmtListString))) =
      .ok ⟨directed, strict, id, pieces.flatMap normStmts⟩ cnt := by
  obtain ⟨ls, h1, h2⟩ := pieces_toked pieces h
  exact parse_document directed strict hid h1 h2 rnd cnt

theorem semis_toked : ∀ (ss : List Stmt), PrintableStmts ss →
    ∃ ls, Toked Any (ss.flatMap fun s => if stmtString s = [] then [] else stmtString s ++ b!"; ") ls ∧ ∀ gen c, OptStmtsM gen c ls (normStmts ss) c
  | [], _ => ⟨[], .nil, fun gen c => .absent⟩
  | s :: ss, h => by
    simp only [PrintableStmts] at h
    obtain ⟨us, h3, h4⟩ := semis_toked ss h.2
    rcases stmt_toked no_tabs s h.1 with ⟨h1, h2⟩ | ⟨s', ls, h1, h2, h5, h6⟩
    · refine ⟨us, ?_, ?_⟩
      · simpa [stmtString, h1] using h3
      · simpa [normStmts, h2] using h4
    · have hk := (h5.stopThen tk_semi end59).anyThen (tk_space.anyThen h3)
      refine ⟨ls ++ [(7, [59])] ++ ([] ++ us), ?_, fun gen c => ?_⟩
      · simpa [stmtString, h2] using hk
      · simp only [normStmts, h1]
        exact optStmtsM_append (.present (.one (h6 gen c) .present)) (h4 gen c)

/-- C70. Statements, each printed by its own `String` method and followed by a semicolon, make a document with these statements (an empty default statement prints as nothing, and needs
no semicolon). -/
theorem C70_statements (directed strict : Bool) {id : Str} (hid : id = [] ∨ ValidId id) (ss : List Stmt) (h : PrintableStmts ss) (rnd : Nat → Nat) (cnt : Nat) :
    parseBytes rnd cnt (document directed strict id (ss.flatMap fun s => if stmtString s = [] then [] else stmtString s ++ b!"; ")) =
      .ok ⟨directed, strict, id, normStmts ss⟩ cnt := by
  obtain ⟨ls, h1, h2⟩ := semis_toked ss h
  exact parse_document directed strict hid h1 h2 rnd cnt

/-- C70. One statement alone needs no semicolon. -/
theorem C70_statement (directed strict : Bool) {id : Str} (hid : id = [] ∨ ValidId id) (s : Stmt) (h : PrintableStmt s) (rnd : Nat → Nat) (cnt : Nat) :
    parseBytes rnd cnt (document directed strict id (stmtString s)) = .ok ⟨directed, strict, id, normStmt s⟩ cnt := by
  rcases stmt_toked no_tabs s h with ⟨h1, h2⟩ | ⟨s', ls, h1, h2, h5, h6⟩
  · have := parse_document directed strict hid (body := []) (ls := []) (ss := []) .nil (fun gen c => .absent) rnd cnt
    rw [stmtString, h1, h2]
    exact this
  · obtain ⟨ls', h3, h4⟩ := wrapped_line directed strict hid (body := stmtString s) (h5.stopThen tk_nl ⟨by omega, by decide, by decide, by decide⟩) (ss := [s']) (fun gen c => by simpa using OptStmtsM.present (.one (h6 gen c) .absent))
    rw [h1]
    exact parse_toked (by simpa [document, Ast.typeStr, stmtString] using h3) h4 rnd cnt

/-- C70. In particular two accepted documents can be merged by their text: the printed statement lists of both, one after the other, in one pair of braces. -/
theorem C70_merge (rnd : Nat → Nat) (cnt : Nat) {src1 src2 : Str} {t1 t2 : Ast.Graph} {n1 n2 : Nat} (h1 : parseBytes rnd cnt src1 = .ok t1 n1)
    (h2 : parseBytes rnd n1 src2 = .ok t2 n2) (ht : ∀ s ∈ idents t1 ++ idents t2, trimSpace s = s) (directed strict : Bool) {id : Str} (hid : id = [] ∨ ValidId id)
    (rnd' : Nat → Nat) (cnt' : Nat) :
    parseBytes rnd' cnt' (document directed strict id (stmtListString t1.stmts ++ b!"\n" ++ stmtListString t2.stmts)) =
      .ok ⟨directed, strict, id, normStmts t1.stmts ++ normStmts t2.stmts⟩ cnt' := by
  have p1 := (C36_parsed_printable rnd cnt src1 h1 fun s hs => ht s (List.mem_append_left _ hs)).2
  have p2 := (C36_parsed_printable rnd n1 src2 h2 fun s hs => ht s (List.mem_append_right _ hs)).2
  have := C70_lists directed strict hid [t1.stmts, t2.stmts] (by
    intro ss hs
    simp only [List.mem_cons, List.not_mem_nil, or_false] at hs
    rcases hs with rfl | rfl
    · exact p1
    · exact p2) rnd' cnt'
  simpa [sjoin] using this

/-- The hypotheses of `C70_merge` and `C70_lists` are met by the sample document, parsed twice. -/
theorem example_merge : ∃ t1 t2 n1 n2, parseBytes (fun k => 7 * k) 3 sample = .ok t1 n1 ∧ parseBytes (fun k => 7 * k) n1 sample = .ok t2 n2 ∧ t1.stmts ≠ [] ∧
    (∀ s ∈ idents t1 ++ idents t2, trimSpace s = s) ∧ ∀ ss ∈ [t1.stmts, t2.stmts], PrintableStmts ss := by
  have h : (match parseBytes (fun k => 7 * k) 3 sample with
    | .ok g n => (match parseBytes (fun k => 7 * k) n sample with
      | .ok g' _ => !g.stmts.isEmpty && (idents g ++ idents g').all fun s => decide (trimSpace s = s)
      | _ => false)
    | _ => false) = true := by decide +kernel
  split at h
  · rename_i g n hp
    split at h
    · rename_i g' n' hp'
      rw [Bool.and_eq_true] at h
      have ht : ∀ s ∈ idents g ++ idents g', trimSpace s = s := fun s hs => of_decide_eq_true (List.all_eq_true.1 h.2 s hs)
      refine ⟨g, g', n, n', hp, hp', by rintro e; simp [e] at h, ht, ?_⟩
      intro ss hs
      simp only [List.mem_cons, List.not_mem_nil, or_false] at hs
      rcases hs with rfl | rfl
      · exact (C36_parsed_printable _ _ _ hp fun s hs => ht s (List.mem_append_left _ hs)).2
      · exact (C36_parsed_printable _ _ _ hp' fun s hs => ht s (List.mem_append_right _ hs)).2
    · cases h
  · cases h

end Gographviz.Props
