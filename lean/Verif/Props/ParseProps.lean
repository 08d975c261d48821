import Verif.Proofs.Numerals
import Verif.Props.LexProps
import Verif.Proofs.ParseRun
import Verif.Spec.Idents
/-!
Properties C34, C35, C40 (parsing) and C45: the parser.
-/
namespace Gographviz.Props

open Gographviz Spec Lex Parse
open Gographviz.Spec.Grammar (Sentence Derives yield Tree)
open Gographviz.Spec.Meaning (GraphM Lexeme)
open Gographviz.Ast (Stmt Loc EdgeRH AttrList)

/-- Type and text of a token. -/
def lexeme (t : Token) : Lexeme := (t.typ, t.lit)

/-- A scanner that returns the tokens of a list. -/
def listScan : List Token → Option (Token × List Token)
  | [] => none
  | t :: ts => some (t, ts)

theorem listScan_stream {ts : List Token} {e : Token} (he : e.typ = 1) (hno : ∀ t ∈ ts, t.typ ≠ 1) : Stream listScan (ts ++ [e]) (ts ++ [e]) := by
  induction ts with
  | nil => exact .one (sc' := []) rfl he
  | cons t ts ih => exact .cons (sc' := ts ++ [e]) rfl (hno t (by simp)) (ih fun x hx => hno x (by simp [hx]))

theorem scanAll_stream {n : Nat} {l : Lexer} {ts : List Token} (h : scanAll n l = some ts) : Stream scan l ts := by
  induction n generalizing l ts with
  | zero => cases h
  | succ n ih =>
    simp only [scanAll] at h
    split at h
    · cases h
    · rename_i t l' hs
      split at h
      · rename_i h1; cases h; exact .one hs h1
      · rename_i h1
        cases hr : scanAll n l' with
        | none => rw [hr] at h; cases h
        | some us =>
          rw [hr] at h
          cases h
          exact .cons hs h1 (ih hr)

theorem tokensOf_lit {off : Nat} {rem : Str} {ts : List Token} (h : TokensOf off rem ts) : ∀ t ∈ ts, t.typ ≠ 1 → t.lit ≠ [] := by
  induction h with
  | eof _ h1 => intro t ht hne; rw [List.mem_singleton.1 ht] at hne; exact absurd h1 hne
  | cons _ _ h1 _ _ _ _ _ ih =>
    intro t ht hne
    rcases List.mem_cons.1 ht with rfl | hm
    · exact h1
    · exact ih t hm hne

/-- The tokens of a source text, as seen by the parser. -/
theorem source_stream (src : Str) : ∃ ts e, tokens src = some (ts ++ [e]) ∧ e.typ = 1 ∧ (∀ t ∈ ts, t.typ ≠ 1) ∧ IdsOk ts ∧
    Stream scan (newLexer src) (ts ++ [e]) ∧ 8 * (ts.length + 1) < fuelFor src.length := by
  obtain ⟨us, h1, h2, h3⟩ := C33_total src
  have hs := scanAll_stream h1
  obtain ⟨ts, e, rfl, he, hno⟩ := hs.last
  refine ⟨ts, e, h1, he, hno, ?_, hs, ?_⟩
  · intro t ht h18
    exact tokensOf_lit h2 t (by simp [ht]) (by omega)
  · simp only [List.length_append, List.length_cons, List.length_nil] at h3
    simp only [fuelFor]; omega

theorem lx_eq : Parse.lx = lexeme := rfl

/-- The value of a parse tree of a document is a document with the meaning of its tokens. -/
theorem eval_graph {rnd : Nat → Nat} {c c' : Nat} {T : Tree} {v : Attrib} (hT : Derives (.n .DotGraph) T) (hid : IdsOk (yield T))
    (h : evalT rnd c T = some (v, c')) : ∃ g, v = .graph g ∧ GraphM (fun k => anonName (rnd k)) c ((yield T).map lexeme) g c' := by
  obtain ⟨v', c'', h1, h2⟩ := eval_den rnd hT hid c
  rw [h] at h1
  cases h1
  exact h2

/-- All that the theorems below need about parsing. -/
theorem parse_spec {σ : Type} {sc : σ} {scan : σ → Option (Token × σ)} {ts : List Token} {e : Token} (hs : Stream scan sc (ts ++ [e]))
    (he : e.typ = 1) (hno : ∀ t ∈ ts, t.typ ≠ 1) (hid : IdsOk ts) (rnd : Nat → Nat) (c : Nat) {fuel : Nat} (hf : 8 * (ts.length + 1) < fuel) :
    (∃ g c', Sentence ts ∧ parse scan rnd fuel c sc = .ok (.graph g) c' ∧
      (∀ g' c'', GraphM (fun k => anonName (rnd k)) c (ts.map lexeme) g' c'' ↔ g' = g ∧ c'' = c')) ∨
    (¬ Sentence ts ∧ (∀ g' c'', ¬ GraphM (fun k => anonName (rnd k)) c (ts.map lexeme) g' c'') ∧
      ∃ t x, t ∈ ts ++ [e] ∧ parse scan rnd fuel c sc = .syntaxErr t x) := by
  have back : ∀ g' c'', GraphM (fun k => anonName (rnd k)) c (ts.map lexeme) g' c'' →
      ∃ T, Derives (.n .DotGraph) T ∧ yield T = ts ∧ evalT rnd c T = some (.graph g', c'') := fun g' c'' h => parses_graph h rfl hid
  rcases parse_outcome (rnd := rnd) hs he hno hid c hf with ⟨T, v, c', hT, hy, hev, hp⟩ | ⟨hns, t, x, ht, hp⟩
  · left
    subst hy
    obtain ⟨g, rfl, hg⟩ := eval_graph hT hid hev
    refine ⟨g, c', ⟨T, hT, rfl⟩, hp, fun g' c'' => ⟨fun h => ?_, ?_⟩⟩
    · obtain ⟨U, hU, hyU, hevU⟩ := back g' c'' h
      have := unambiguous hU hT hyU
      subst this
      rw [hev] at hevU
      cases hevU
      exact ⟨rfl, rfl⟩
    · rintro ⟨rfl, rfl⟩; exact hg
  · right
    refine ⟨hns, fun g' c'' h => ?_, t, x, ht, hp⟩
    obtain ⟨U, hU, hyU, _⟩ := back g' c'' h
    exact hns ⟨U, hU, hyU⟩

theorem source_spec (rnd : Nat → Nat) (c : Nat) (src : Str) : ∃ ts e, tokens src = some (ts ++ [e]) ∧ e.typ = 1 ∧ (∀ t ∈ ts, t.typ ≠ 1) ∧ IdsOk ts ∧
    ((∃ g c', Sentence ts ∧ parseBytes rnd c src = .ok g c' ∧
      (∀ g' c'', GraphM (fun k => anonName (rnd k)) c (ts.map lexeme) g' c'' ↔ g' = g ∧ c'' = c')) ∨
    (¬ Sentence ts ∧ (∀ g' c'', ¬ GraphM (fun k => anonName (rnd k)) c (ts.map lexeme) g' c'') ∧
      ∃ t x, t ∈ ts ++ [e] ∧ parseBytes rnd c src = .syntaxErr t x)) := by
  obtain ⟨ts, e, h1, he, hno, hid, hs, hf⟩ := source_stream src
  refine ⟨ts, e, h1, he, hno, hid, ?_⟩
  rcases parse_spec hs he hno hid rnd c hf with ⟨g, c', a, b, d⟩ | ⟨a, b, t, x, d, f⟩
  · exact .inl ⟨g, c', a, by simp only [parseBytes, b], d⟩
  · exact .inr ⟨a, b, t, x, d, by simp only [parseBytes, f]⟩

/-! ### C34 -/

/-- C34. `Parse` returns a syntax tree or a syntax error about one of the tokens, for every byte sequence: it does not panic (no failed
type assertion, no table access out of range), does not run for ever, and no action of a production fails. -/
theorem C34_total (rnd : Nat → Nat) (cnt : Nat) (src : Str) :
    (∃ g n, parseBytes rnd cnt src = .ok g n) ∨ (∃ t x ts, parseBytes rnd cnt src = .syntaxErr t x ∧ tokens src = some ts ∧ t ∈ ts) := by
  obtain ⟨ts, e, h1, _, _, _, ⟨g, c', _, h, _⟩ | ⟨_, _, t, x, ht, h⟩⟩ := source_spec rnd cnt src
  · exact .inl ⟨g, c', h⟩
  · exact .inr ⟨t, x, _, h, h1, ht⟩

/-- C34. The bound on the number of iterations that is built into the model does not matter: with any larger bound the result is
the same, so the loop of the parser ends by itself. -/
theorem C34_no_bound (rnd : Nat → Nat) (cnt : Nat) (src : Str) (fuel : Nat) (h : fuelFor src.length ≤ fuel) :
    parse scan rnd fuel cnt (newLexer src) = parse scan rnd (fuelFor src.length) cnt (newLexer src) := by
  obtain ⟨ts, e, h1, he, hno, hid, hs, hf⟩ := source_stream src
  have mono : ∀ (n m : Nat) (st : PState Lexer), loop scan rnd n st ≠ .diverge → n ≤ m → loop scan rnd m st = loop scan rnd n st := by
    intro n
    induction n with
    | zero => intro m st hd _; exact absurd rfl hd
    | succ n ih =>
      intro m st hd hle
      obtain ⟨m, rfl⟩ : ∃ k, m = k + 1 := ⟨m - 1, by omega⟩
      simp only [loop] at hd ⊢
      split
      · rfl
      · rename_i st' hst
        rw [hst] at hd
        exact ih m st' hd (by omega)
  have hne : parse scan rnd (fuelFor src.length) cnt (newLexer src) ≠ .diverge := by
    rcases parse_spec hs he hno hid rnd cnt hf with ⟨g, c', a, b, d⟩ | ⟨a, b, t, x, d, f⟩
    · rw [b]; simp
    · rw [f]; simp
  unfold parse at hne ⊢
  split
  · rfl
  · rename_i t sc hsc
    rw [hsc] at hne
    exact mono _ _ _ hne h

/-- C34. `Read` returns a graph, a syntax error or an error of the analyser, for every byte sequence. -/
theorem C34_read_total (rnd : Nat → Nat) (cnt : Nat) (src : Str) :
    (∃ g, Parse.read rnd cnt src = .ok g) ∨ Parse.read rnd cnt src = .parseErr ∨ ∃ m, Parse.read rnd cnt src = .analyseErr m := by
  unfold Parse.read
  rcases C34_total rnd cnt src with ⟨g, n, h⟩ | ⟨t, x, _, h, _⟩
  · rw [h]
    simp only
    cases newAnalysedGraph g with
    | ok a => exact .inl ⟨a, rfl⟩
    | error m => exact .inr (.inr ⟨m, rfl⟩)
  · rw [h]; exact .inr (.inl rfl)

/-! ### C35 -/

/-- C35. A token sequence (ended by the end-of-input token `e`; identifiers not empty) is accepted exactly when it is a sentence of the
grammar of dot.bnf. -/
theorem C35_accepts_exactly (rnd : Nat → Nat) (cnt : Nat) {ts : List Token} {e : Token} (he : e.typ = 1) (hno : ∀ t ∈ ts, t.typ ≠ 1)
    (hid : ∀ t ∈ ts, t.typ = 18 → t.lit ≠ []) :
    (∃ g n, parse listScan rnd (fuelFor ts.length) cnt (ts ++ [e]) = .ok (.graph g) n) ↔ Sentence ts := by
  rcases parse_spec (listScan_stream he hno) he hno hid rnd cnt (fuel := fuelFor ts.length) (by simp only [fuelFor]; omega) with
    ⟨g, c', a, b, d⟩ | ⟨a, b, t, x, d, f⟩
  · exact ⟨fun _ => a, fun _ => ⟨g, c', b⟩⟩
  · refine ⟨?_, fun h => absurd h a⟩
    rintro ⟨g, n, h⟩
    rw [f] at h; cases h

/-- C35. The syntax tree returned is the meaning of the token sequence, and there is only one. -/
theorem C35_result (rnd : Nat → Nat) (cnt : Nat) {ts : List Token} {e : Token} (he : e.typ = 1) (hno : ∀ t ∈ ts, t.typ ≠ 1)
    (hid : ∀ t ∈ ts, t.typ = 18 → t.lit ≠ []) (g : Ast.Graph) (n : Nat) :
    parse listScan rnd (fuelFor ts.length) cnt (ts ++ [e]) = .ok (.graph g) n ↔ GraphM (fun k => anonName (rnd k)) cnt (ts.map lexeme) g n := by
  rcases parse_spec (listScan_stream he hno) he hno hid rnd cnt (fuel := fuelFor ts.length) (by simp only [fuelFor]; omega) with
    ⟨g', c', a, b, d⟩ | ⟨a, b, t, x, _, f⟩
  · rw [b, d]
    constructor
    · intro h; cases h; exact ⟨rfl, rfl⟩
    · rintro ⟨rfl, rfl⟩; rfl
  · rw [f]
    exact ⟨(fun h => nomatch h), fun h => absurd h (b g n)⟩

/-- C35. The same for source texts. -/
theorem C35_source (rnd : Nat → Nat) (cnt : Nat) (src : Str) {ts : List Token} {e : Token} (h : tokens src = some (ts ++ [e])) (g : Ast.Graph)
    (n : Nat) : parseBytes rnd cnt src = .ok g n ↔ GraphM (fun k => anonName (rnd k)) cnt (ts.map lexeme) g n := by
  obtain ⟨ts', e', h1, _, _, _, hh⟩ := source_spec rnd cnt src
  rw [h] at h1
  obtain ⟨rfl, rfl⟩ : ts' = ts ∧ e' = e := by
    have := (Option.some.injEq _ _).mp h1
    have hl := List.append_inj_left' this rfl
    exact ⟨hl.symm, by subst hl; simpa using this.symm⟩
  rcases hh with ⟨g', c', a, b, d⟩ | ⟨a, b, t, x, _, f⟩
  · rw [b, d]
    constructor
    · intro h; cases h; exact ⟨rfl, rfl⟩
    · rintro ⟨rfl, rfl⟩; rfl
  · rw [f]
    exact ⟨(fun h => nomatch h), fun h => absurd h (b g n)⟩

/-- C35, C41, C66. The generated name of an anonymous subgraph: `anon` and the random number in decimal. -/
theorem C35_generated_name (n : Nat) : ∃ numeral, Spec.Decimal n numeral ∧ anonName n = b!"anon" ++ numeral := ⟨_, decDigits_decimal n, rfl⟩

/-- C35. The grammar is unambiguous: a token sequence has at most one parse tree. -/
theorem C35_unambiguous {T U : Tree} (hT : Derives (.n .DotGraph) T) (hU : Derives (.n .DotGraph) U) (h : yield T = yield U) : T = U :=
  unambiguous hT hU h

/-- C35. A source text is accepted exactly when its tokens (without the end of input) are a sentence of the grammar. -/
theorem C35_source_accepts (rnd : Nat → Nat) (cnt : Nat) (src : Str) {ts : List Token} {e : Token} (h : tokens src = some (ts ++ [e])) :
    (∃ g n, parseBytes rnd cnt src = .ok g n) ↔ Sentence ts := by
  obtain ⟨ts', e', h1, _, _, _, hh⟩ := source_spec rnd cnt src
  rw [h] at h1
  have hl := List.append_inj_left' ((Option.some.injEq _ _).mp h1) rfl
  subst hl
  rcases hh with ⟨g', c', a, b, d⟩ | ⟨a, b, t, x, _, f⟩
  · exact ⟨fun _ => a, fun _ => ⟨_, _, b⟩⟩
  · refine ⟨?_, fun h => absurd h a⟩
    rintro ⟨g, n, h⟩
    rw [f] at h; cases h

/-! ### C40 -/

/-- C40. Inserting white space or comments directly before a token (or at the end of input after a valid token) does not change what
`Parse` returns: the same syntax tree, or a syntax error in both cases. -/
theorem C40_parse (rnd : Nat → Nat) (cnt : Nat) (src w : Str) (hw : Layout w) {as bs : List Token} {t : Token}
    (h : tokens src = some (as ++ t :: bs)) (hinv : t.typ = 1 → ∀ a, as.getLast? = some a → a.typ ≠ 0) (g : Ast.Graph) (n : Nat) :
    parseBytes rnd cnt (src.take t.offset ++ w ++ src.drop t.offset) = .ok g n ↔ parseBytes rnd cnt src = .ok g n := by
  obtain ⟨ts', h1, h2⟩ := C40_tokens src w hw h hinv
  obtain ⟨us, e, h3, _, _, _, _⟩ := source_spec rnd cnt src
  obtain ⟨us', e', h3', _, _, _, _⟩ := source_spec rnd cnt (src.take t.offset ++ w ++ src.drop t.offset)
  rw [C35_source rnd cnt _ h3, C35_source rnd cnt _ h3']
  rw [h1] at h3'; cases h3'
  rw [h] at h3
  have h3 := (Option.some.injEq _ _).mp h3
  rw [h3, List.map_append, List.map_append] at h2
  have hl : us'.map lexeme = us.map lexeme := List.append_inj_left' h2 rfl
  rw [hl]

/-! ### C45 -/

section
open Gographviz.Spec.Meaning

/-- Where an identifier of the syntax tree comes from. -/
def Origin (gen : Nat → Str) (c c' : Nat) (ts : List Lexeme) (s : Str) : Prop :=
  s = [] ∨ s = b!"true" ∨ (∃ k, c ≤ k ∧ k < c' ∧ s = gen k) ∨ (18, s) ∈ ts

theorem identsStmts_append (as bs : List Stmt) : identsStmts (as ++ bs) = identsStmts as ++ identsStmts bs := by
  induction as with
  | nil => simp [identsStmts]
  | cons a as ih => simp [identsStmts, ih]

theorem identsRHS_append (as bs : List EdgeRH) : identsRHS (as ++ bs) = identsRHS as ++ identsRHS bs := by
  induction as with
  | nil => simp [identsRHS]
  | cons a as ih => cases a; simp [identsRHS, ih]

theorem identsAttrs_append (as bs : AttrList) : identsAttrs (as ++ bs) = identsAttrs as ++ identsAttrs bs := by
  simp [identsAttrs]

theorem attrM_idents {ts : List Lexeme} {a : Ast.Attr} (h : AttrM ts a) :
    (∀ s ∈ [a.field, a.value], s = b!"true" ∨ (18, s) ∈ ts) ∧ ∀ s, (18, s) ∈ ts → s ∈ [a.field, a.value] := by
  cases h with
  | flag => simp
  | pair => simp

theorem alistM_idents {ts : List Lexeme} {as : Ast.AList} (h : AListM ts as) :
    (∀ s ∈ identsAttrs [as], s = b!"true" ∨ (18, s) ∈ ts) ∧ ∀ s, (18, s) ∈ ts → s ∈ identsAttrs [as] := by
  induction h with
  | one h => simpa [identsAttrs] using attrM_idents h
  | snoc h1 h2 h3 ih =>
    have h3 := attrM_idents h3
    simp only [identsAttrs, List.flatMap_cons, List.flatMap_nil, List.append_nil, List.flatMap_append, List.mem_append] at ih ⊢
    refine ⟨?_, ?_⟩
    · rintro s (hs | hs)
      · rcases ih.1 s hs with h | h
        · exact .inl h
        · exact .inr (.inl h)
      · rcases h3.1 s hs with h | h
        · exact .inl h
        · exact .inr (.inr (.inr h))
    · rintro s (hs | hs | hs)
      · exact .inl (ih.2 s hs)
      · cases h2 <;> simp at hs
      · exact .inr (h3.2 s hs)

theorem bracketM_idents {ts : List Lexeme} {as : AttrList} (h : BracketM ts as) :
    (∀ s ∈ identsAttrs as, s = b!"true" ∨ (18, s) ∈ ts) ∧ ∀ s, (18, s) ∈ ts → s ∈ identsAttrs as := by
  cases h with
  | empty => simp [identsAttrs]
  | full h =>
    have := alistM_idents h
    refine ⟨fun s hs => ?_, fun s hs => ?_⟩
    · rcases this.1 s hs with h | h
      · exact .inl h
      · exact .inr (by simp [h])
    · simp at hs; exact this.2 s hs

theorem attrListM_idents {ts : List Lexeme} {as : AttrList} (h : AttrListM ts as) :
    (∀ s ∈ identsAttrs as, s = b!"true" ∨ (18, s) ∈ ts) ∧ ∀ s, (18, s) ∈ ts → s ∈ identsAttrs as := by
  induction h with
  | one h => exact bracketM_idents h
  | snoc h1 h2 ih =>
    have h2 := bracketM_idents h2
    rw [identsAttrs_append]
    refine ⟨fun s hs => ?_, fun s hs => ?_⟩
    · rcases List.mem_append.1 hs with h | h
      · rcases ih.1 s h with h | h
        · exact .inl h
        · exact .inr (by simp [h])
      · rcases h2.1 s h with h | h
        · exact .inl h
        · exact .inr (by simp [h])
    · rcases List.mem_append.1 hs with h | h
      · exact List.mem_append_left _ (ih.2 s h)
      · exact List.mem_append_right _ (h2.2 s h)

theorem optAttrListM_idents {ts : List Lexeme} {as : AttrList} (h : OptAttrListM ts as) :
    (∀ s ∈ identsAttrs as, s = b!"true" ∨ (18, s) ∈ ts) ∧ ∀ s, (18, s) ∈ ts → s ∈ identsAttrs as := by
  cases h with
  | absent => simp [identsAttrs]
  | present h => exact attrListM_idents h

theorem nodeIdM_idents {ts : List Lexeme} {n : Ast.NodeID} (h : NodeIdM ts n) :
    (∀ s ∈ identsNode n, s = [] ∨ (18, s) ∈ ts) ∧ ∀ s, (18, s) ∈ ts → s ∈ identsNode n := by
  cases h <;> simp [identsNode]

/-- The statement of C45 for a part of the tree. -/
def IdentsOk (gen : Nat → Str) (c : Nat) (ts : List Lexeme) (ids : List Str) (c' : Nat) : Prop :=
  c ≤ c' ∧ (∀ s ∈ ids, Origin gen c c' ts s) ∧ ∀ s, (18, s) ∈ ts → s ∈ ids

theorem IdentsOk.append {gen : Nat → Str} {c c1 c2 : Nat} {ts us : List Lexeme} {as bs : List Str} (h : IdentsOk gen c ts as c1)
    (h' : IdentsOk gen c1 us bs c2) : IdentsOk gen c (ts ++ us) (as ++ bs) c2 := by
  refine ⟨Nat.le_trans h.1 h'.1, ?_, ?_⟩
  · intro s hs
    have h0 := h.1
    have h0' := h'.1
    rcases List.mem_append.1 hs with h1 | h1
    · rcases h.2.1 s h1 with h2 | h2 | ⟨k, h2, h3, h4⟩ | h2
      · exact .inl h2
      · exact .inr (.inl h2)
      · exact .inr (.inr (.inl ⟨k, h2, by omega, h4⟩))
      · exact .inr (.inr (.inr (by simp [h2])))
    · rcases h'.2.1 s h1 with h2 | h2 | ⟨k, h2, h3, h4⟩ | h2
      · exact .inl h2
      · exact .inr (.inl h2)
      · exact .inr (.inr (.inl ⟨k, by omega, h3, h4⟩))
      · exact .inr (.inr (.inr (by simp [h2])))
  · intro s hs
    rcases List.mem_append.1 hs with h1 | h1
    · exact List.mem_append_left _ (h.2.2 s h1)
    · exact List.mem_append_right _ (h'.2.2 s h1)

theorem IdentsOk.other {gen : Nat → Str} {c : Nat} {ts : List Lexeme} (h : ∀ x ∈ ts, x.1 ≠ 18) : IdentsOk gen c ts [] c :=
  ⟨Nat.le_refl _, by simp, fun s hs => absurd rfl (h _ hs)⟩

theorem IdentsOk.tok {gen : Nat → Str} {c c' t : Nat} {l : Str} {ts : List Lexeme} {ids : List Str} (ht : t ≠ 18) (h : IdentsOk gen c ts ids c') :
    IdentsOk gen c ((t, l) :: ts) ids c' := by
  simpa using IdentsOk.append (.other (ts := [(t, l)]) (by simpa using ht)) h

theorem IdentsOk.opt {gen : Nat → Str} {c t : Nat} {ts : List Lexeme} (ht : t ≠ 18) (h : Opt t ts) : IdentsOk gen c ts [] c := by
  cases h with
  | absent => exact .other (by simp)
  | present => exact .other (by simpa using ht)

theorem IdentsOk.attrs {gen : Nat → Str} {c : Nat} {ts : List Lexeme} {ids : List Str}
    (h : (∀ s ∈ ids, s = b!"true" ∨ (18, s) ∈ ts) ∧ ∀ s, (18, s) ∈ ts → s ∈ ids) : IdentsOk gen c ts ids c :=
  ⟨Nat.le_refl _, fun s hs => (h.1 s hs).elim (fun h => .inr (.inl h)) (fun h => .inr (.inr (.inr h))), h.2⟩

theorem IdentsOk.node {gen : Nat → Str} {c : Nat} {ts : List Lexeme} {n : Ast.NodeID} (h : NodeIdM ts n) : IdentsOk gen c ts (identsNode n) c :=
  have h := nodeIdM_idents h
  ⟨Nat.le_refl _, fun s hs => (h.1 s hs).elim .inl (fun h => .inr (.inr (.inr h))), h.2⟩

theorem optStmts_idents {gen : Nat → Str} {c c' : Nat} {ts : List Lexeme} {ss : List Stmt} (h : OptStmtsM gen c ts ss c') :
    IdentsOk gen c ts (identsStmts ss) c' := by
  have last : ∀ {c : Nat} {l : Str}, IdentsOk gen c [(4, l)] [] c := .other (by simp)
  refine OptStmtsM.rec (gen := gen)
    (motive_1 := fun c ts s c' _ => IdentsOk gen c ts (identsStmt s) c')
    (motive_2 := fun c ts l c' _ => IdentsOk gen c ts (identsLoc l) c')
    (motive_3 := fun c ts es c' _ => IdentsOk gen c ts (identsRHS es) c')
    (motive_4 := fun c ts id b c' _ => IdentsOk gen c ts (id :: identsStmts b) c')
    (motive_5 := fun c ts ss c' _ => IdentsOk gen c ts (identsStmts ss) c')
    (motive_6 := fun c ts ss c' _ => IdentsOk gen c ts (identsStmts ss) c')
    ?_ ?_ ?_ ?_ ?_ ?_ ?_ ?_ ?_ ?_ ?_ ?_ ?_ ?_ ?_ ?_ ?_ ?_ h
  · intro c f l v
    simp only [identsStmt]
    exact .attrs (by simp)
  · intro c ts us n as h1 h2
    exact .append (.node h1) (.attrs (optAttrListM_idents h2))
  · intro c c1 c2 ts us vs src rhs as _ _ h3 ih1 ih2
    simp only [identsStmt, List.append_assoc]
    exact .append ih1 (.append ih2 (.attrs (optAttrListM_idents h3)))
  · intro c l ts as h
    exact .tok (by decide) (.attrs (attrListM_idents h))
  · intro c l ts as h
    exact .tok (by decide) (.attrs (attrListM_idents h))
  · intro c l ts as h
    exact .tok (by decide) (.attrs (attrListM_idents h))
  · intro c c' ts id b _ ih
    exact ih
  · intro c ts n h
    exact .node h
  · intro c c' ts id b _ ih
    exact ih
  · intro c c' x op ts d h1 _ ih
    have : x.1 ≠ 18 := by cases h1 <;> simp
    simp only [identsRHS, List.append_nil]
    exact .tok this ih
  · intro c c1 c2 ts us rhs x op d _ h1 _ ih0 ih
    have : x.1 ≠ 18 := by cases h1 <;> simp
    simp only [identsRHS_append, identsRHS, List.append_nil]
    exact .append ih0 (.tok this ih)
  · intro c c' l l' ts b _ ih
    have := IdentsOk.tok (l := l) (t := 3) (by decide) (ih.append (last (l := l')))
    rw [List.append_nil] at this
    refine ⟨by have := this.1; omega, ?_, fun s hs => List.mem_cons_of_mem _ (this.2.2 s hs)⟩
    intro s hs
    rcases List.mem_cons.1 hs with rfl | hs
    · exact .inr (.inr (.inl ⟨c', this.1, by omega, rfl⟩))
    · rcases this.2.1 s hs with h2 | h2 | ⟨k, h2, h3, h4⟩ | h2
      · exact .inl h2
      · exact .inr (.inl h2)
      · exact .inr (.inr (.inl ⟨k, h2, by omega, h4⟩))
      · exact .inr (.inr (.inr h2))
  · intro c c' k l l' ts b _ ih
    have := IdentsOk.tok (l := k) (t := 15) (by decide) (IdentsOk.tok (l := l) (t := 3) (by decide) (ih.append (last (l := l'))))
    rw [List.append_nil] at this
    refine ⟨by have := this.1; omega, ?_, fun s hs => List.mem_cons_of_mem _ (this.2.2 s hs)⟩
    intro s hs
    rcases List.mem_cons.1 hs with rfl | hs
    · exact .inr (.inr (.inl ⟨c', this.1, by omega, rfl⟩))
    · rcases this.2.1 s hs with h2 | h2 | ⟨k, h2, h3, h4⟩ | h2
      · exact .inl h2
      · exact .inr (.inl h2)
      · exact .inr (.inr (.inl ⟨k, h2, by omega, h4⟩))
      · exact .inr (.inr (.inr h2))
  · intro c c' k s l l' ts b _ ih
    have hname : IdentsOk gen c [(18, s)] [s] c := .attrs (by simp)
    have := IdentsOk.tok (l := k) (t := 15) (by decide) (hname.append (IdentsOk.tok (l := l) (t := 3) (by decide) (ih.append (last (l := l')))))
    simpa using this
  · intro c c' ts sm s _ h2 ih
    have := ih.append (IdentsOk.opt (gen := gen) (by decide) h2)
    simpa [identsStmts] using this
  · intro c c1 c2 ts us sm ss s _ _ h3 ih1 ih2
    have := ih1.append (ih2.append (IdentsOk.opt (gen := gen) (by decide) h3))
    simpa [identsStmts_append, identsStmts] using this
  · intro c
    exact .other (by simp)
  · intro c c' ts ss _ ih
    exact ih

/-- C45. Every identifier in the syntax tree returned by `Parse` is the text of an identifier token of the source, byte for byte (hence a slice of the
input, by C33), except the name of an unnamed graph and absent ports (empty), the implicit value `true`, and generated names; and
every identifier token of the source occurs in the tree. -/
theorem C45_verbatim (rnd : Nat → Nat) (cnt : Nat) (src : Str) {g : Ast.Graph} {n : Nat} (h : parseBytes rnd cnt src = .ok g n) :
    ∃ ts, tokens src = some ts ∧
      (∀ s ∈ idents g, s = [] ∨ s = b!"true" ∨ (∃ k, cnt ≤ k ∧ k < n ∧ s = anonName (rnd k)) ∨
        ∃ t ∈ ts, t.typ = 18 ∧ t.lit = s ∧ (src.drop t.offset).take s.length = s) ∧
      ∀ t ∈ ts, t.typ = 18 → t.lit ∈ idents g := by
  obtain ⟨ts, e, h1, he, _, _, _⟩ := source_spec rnd cnt src
  rw [C35_source rnd cnt src h1] at h
  have hsl := (C33_slices src h1).1
  refine ⟨_, h1, ?_⟩
  generalize hL : ts.map lexeme = L at h
  cases h with
  | mk a b d f =>
    have hf := optStmts_idents f
    rename_i st is ts' k d' l l' id body
    have hk : k.1 ≠ 18 := by cases b <;> simp
    have hidl : IdentsOk (fun k => anonName (rnd k)) cnt is [id] cnt := by
      cases d with
      | absent => exact ⟨Nat.le_refl _, by simp [Origin], by simp⟩
      | present => exact .attrs (by simp)
    have hall := (IdentsOk.opt (gen := fun k => anonName (rnd k)) (c := cnt) (by decide) a).append
      (IdentsOk.tok (t := k.1) (l := k.2) hk (hidl.append (IdentsOk.tok (t := 3) (l := l) (by decide) (hf.append (IdentsOk.other (ts := [(4, l')]) (by simp))))))
    simp only [List.nil_append, List.append_nil, List.cons_append] at hall
    rw [← hL] at hall
    refine ⟨fun s hs => ?_, fun t ht h18 => ?_⟩
    · rcases hall.2.1 s hs with h | h | h | h
      · exact .inl h
      · exact .inr (.inl h)
      · exact .inr (.inr (.inl h))
      · obtain ⟨t, ht, hlx⟩ := List.mem_map.1 h
        simp only [lexeme, Prod.mk.injEq] at hlx
        refine .inr (.inr (.inr ⟨t, by simp [ht], hlx.1, hlx.2, ?_⟩))
        rw [← hlx.2]
        exact (hsl t (by simp [ht])).1
    · refine hall.2.2 t.lit ?_
      rcases List.mem_append.1 ht with ht | ht
      · exact List.mem_map.2 ⟨t, ht, by simp [lexeme, h18]⟩
      · rw [List.mem_singleton.1 ht] at h18; omega
end

/-! ### Concrete cases -/

/-- A document with an anonymous subgraph, ports, attributes and a comment. -/
def sample : Str := b!"strict digraph G { /* c */ node [shape=box]; a:p:n -> { b c } [w] ; d = \"e f\" }"

/-- The sample is accepted, draws one generated name, and has three statements. -/
theorem sample_parses : (match parseBytes (fun k => 7 * k) 3 sample with
    | .ok g n => decide (g.id = b!"G" ∧ g.strict = true ∧ g.type_ = true ∧ g.stmts.length = 3 ∧ n = 4 ∧
        b!"anon21" ∈ idents g ∧ b!"\"e f\"" ∈ idents g ∧ b!"true" ∈ idents g)
    | _ => false) = true := by decide +kernel

/-- The hypotheses of C35, C40 and C45 are met by the sample. -/
example : ∃ g n, parseBytes (fun k => 7 * k) 3 sample = .ok g n := by
  have h := sample_parses
  split at h
  · exact ⟨_, _, by assumption⟩
  · cases h

/-- A text that is not a sentence. -/
example : (match parseBytes (fun k => k) 0 (b!"digraph { a -> ; }") with
    | .syntaxErr t x => decide (t.lit = b!";" ∧ x = [3, 15, 18])
    | _ => false) = true := by decide +kernel

end Gographviz.Props
