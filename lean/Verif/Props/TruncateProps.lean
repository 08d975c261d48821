import Verif.Proofs.Truncate
import Verif.Props.RoundTrip
/-!
C88: a truncated document is never taken for another document.
-/
namespace Gographviz.Props

open Gographviz Gographviz.Lex Gographviz.Parse Spec Spec.Grammar

namespace Truncate

/-- `Parse` returns a tree. -/
def Accepts (rnd : Nat → Nat) (cnt : Nat) (src : Str) : Prop := ∃ t n, parseBytes rnd cnt src = .ok t n

/-- The scans of a source text without the last one, and its tokens without the end of input. -/
theorem scans_of (src : Str) : ∃ ys sk ts e, Toks src (ys ++ [(sk, 1, [])]) ∧ tokens src = some (ts ++ [e]) ∧
    ts.map lexeme = ys.map (fun y => (y.2.1, y.2.2)) ∧ (∀ y ∈ ys, y.2.1 ≠ 1) := by
  obtain ⟨zs, us, h1, h2, h3⟩ := tokens_toks src
  obtain ⟨ts, e, h4, he, hno, _, _⟩ := source_spec (fun k => k) 0 src
  rw [h2] at h4
  cases h4
  have hm := h3.map
  have hz : zs ≠ [] := h1.ne_nil
  obtain ⟨ys, y, rfl⟩ : ∃ ys y, zs = ys ++ [y] := ⟨_, _, (List.dropLast_concat_getLast hz).symm⟩
  rw [List.map_append, List.map_append] at hm
  have hl := List.append_inj_left' hm rfl
  have hr := List.append_inj_right' hm rfl
  simp only [List.map_cons, List.map_nil, List.cons.injEq, and_true, Prod.mk.injEq] at hr
  obtain ⟨sk, t, lit⟩ := y
  simp only at hr
  have hlast : ∀ (rem : Str) (zs : List (Str × Nat × Str)), Toks rem zs → ∀ y, zs.getLast? = some y → y.2.1 = 1 → y.2.2 = [] := by
    intro rem zs h
    induction h with
    | eof _ => intro y hy _; simp at hy; subst hy; rfl
    | @cons rem sk lit rest t ys h hne ht ih =>
      intro y hy h1
      obtain ⟨z, zs, rfl⟩ : ∃ z zs, ys = z :: zs := by
        cases ys with
        | nil => exact absurd rfl ht.ne_nil
        | cons z zs => exact ⟨z, zs, rfl⟩
      rw [List.getLast?_cons_cons] at hy
      exact ih y hy h1
  have h1' : t = 1 := by rw [← hr.1, he]
  have hlit : lit = [] := hlast _ _ h1 (sk, t, lit) (by simp) h1'
  subst h1' hlit
  refine ⟨ys, sk, ts, e, h1, h2, hl, ?_⟩
  intro y hy
  have : (y.2.1, y.2.2) ∈ ts.map fun t => (t.typ, t.lit) := by rw [hl]; exact List.mem_map.2 ⟨y, hy, rfl⟩
  obtain ⟨t, ht, heq⟩ := List.mem_map.1 this
  simp only [Prod.mk.injEq] at heq
  rw [← heq.1]; exact hno t ht

/-- The text up to the final brace, and the layout after it. -/
structure Parts (src body gap : Str) (pre : List (Str × Nat × Str)) (sk : Str) : Prop where
  text : src = body ++ 125 :: gap
  body_eq : body = Lex.flat pre ++ sk
  layout : Layout gap
  toks : Toks src (pre ++ (sk, 4, [125]) :: [(gap, 1, [])])
  braces : ∀ l, afterBraces 0 (pre.map (fun y => y.2.1) ++ 4 :: l) = some l
  no1 : ∀ y ∈ pre, y.2.1 ≠ 1

theorem parts {rnd : Nat → Nat} {cnt : Nat} {src : Str} (h : Accepts rnd cnt src) : ∃ body gap pre sk, Parts src body gap pre sk := by
  obtain ⟨ys, sk, ts, e, h1, h2, h3, h4⟩ := scans_of src
  have hs := (C35_source_accepts rnd cnt src h2).1 h
  obtain ⟨ha, us, u, rfl, hu⟩ := sentence_ends hs
  have htyp : ∀ l : List Token, ∀ zs : List (Str × Nat × Str), l.map lexeme = zs.map (fun y => (y.2.1, y.2.2)) →
      l.map Token.typ = zs.map (fun y => y.2.1) := by
    intro l zs hl
    have := congrArg (List.map Prod.fst) hl
    simpa [List.map_map, lexeme, Function.comp_def] using this
  have ht := htyp _ _ h3
  rw [List.map_append] at h3
  obtain ⟨pre, w, rfl, hp, hw⟩ := List.append_eq_map_iff.1 h3
  obtain ⟨y, rfl⟩ : ∃ y, w = [y] := by
    have := congrArg List.length hw
    simp at this
    exact List.length_eq_one_iff.1 this
  obtain ⟨sk', t, lit⟩ := y
  simp only [List.map_cons, List.map_nil, List.cons.injEq, and_true, lexeme, Prod.mk.injEq] at hw
  rw [hu] at hw
  obtain ⟨rfl, rfl⟩ : t = 4 ∧ lit = [125] := ⟨hw.1, h1.rbrace (sk := sk') (by rw [← hw.1]; simp)⟩
  have hfl := h1.flat
  simp only [Lex.flat, List.flatMap_append, List.flatMap_cons, List.flatMap_nil, List.append_nil, List.append_assoc, List.cons_append,
    List.nil_append] at hfl
  have hlay : Layout sk := by
    have : ∀ (rem : Str) (zs : List (Str × Nat × Str)), Toks rem zs → ∀ y ∈ zs, Layout y.1 := by
      intro rem zs h
      induction h with
      | eof h => intro y hy; simp at hy; subst hy; exact h.sound.1
      | cons h _ _ ih =>
        intro y hy
        rcases List.mem_cons.1 hy with rfl | hy
        · exact h.sound.1
        · exact ih y hy
    exact this _ _ h1 (sk, 1, []) (by simp)
  refine ⟨Lex.flat pre ++ sk', sk, pre, sk', ?_, rfl, hlay, ?_, ?_, fun y hy => h4 y (List.mem_append_left _ hy)⟩
  · rw [hfl]; simp [Lex.flat]
  · simpa using h1
  · intro l
    have := ha l
    rw [ht] at this
    simpa using this

/-- What follows the final brace decides. -/
theorem Parts.follow {src body gap sk : Str} {pre : List (Str × Nat × Str)} (h : Parts src body gap pre sk) (x : Str) :
    (Layout x → Toks (body ++ 125 :: x) (pre ++ (sk, 4, [125]) :: [(x, 1, [])])) ∧
    (∀ rnd cnt, Accepts rnd cnt (body ++ 125 :: x) → Layout x) := by
  refine ⟨fun hx => ?_, ?_⟩
  · rw [h.body_eq]
    exact h.toks.resume (toks_layout.2 ⟨rfl, hx⟩)
  · intro rnd cnt ha
    obtain ⟨zs, hz⟩ := Toks.total x
    have hr := h.toks.resume hz
    rw [← h.body_eq] at hr
    obtain ⟨body', gap', pre', sk', hp⟩ := parts ha
    have hd := hr.det hp.toks
    have hb := hp.braces []
    have e : pre.map (fun y => y.2.1) ++ 4 :: zs.map (fun y => y.2.1) = (pre'.map (fun y => y.2.1) ++ [4]) ++ [1] := by
      have := congrArg (List.map fun y : Str × Nat × Str => y.2.1) hd
      simpa using this
    have hzl : zs.map (fun y => y.2.1) ≠ [] := by simp [hz.ne_nil]
    obtain ⟨l, b, hl⟩ : ∃ l b, zs.map (fun y => y.2.1) = l ++ [b] := ⟨_, _, (List.dropLast_concat_getLast hzl).symm⟩
    rw [hl] at e
    have e' : (pre.map (fun y => y.2.1) ++ 4 :: l) ++ [b] = (pre'.map (fun y => y.2.1) ++ [4]) ++ [1] := by simpa using e
    have e1 := List.append_inj_left' e' rfl
    have e2 := List.append_inj_right' e' rfl
    rw [← e1, h.braces l] at hb
    cases hb
    have hlen : zs.length = 1 := by
      have := congrArg List.length hl
      simpa using this
    obtain ⟨y, rfl⟩ := List.length_eq_one_iff.1 hlen
    obtain ⟨s, t, lit⟩ := y
    cases hz with
    | eof hz => exact (toks_layout.1 (.eof hz)).2
    | cons _ _ hz => exact absurd rfl hz.ne_nil

end Truncate
open Truncate

theorem parse_of_toks {a b : Str} {ya yb : List (Str × Nat × Str)} {sa sb : Str} (ha : Toks a (ya ++ [(sa, 1, [])])) (hb : Toks b (yb ++ [(sb, 1, [])]))
    (h : ya.map (fun y => (y.2.1, y.2.2)) = yb.map (fun y => (y.2.1, y.2.2))) (rnd : Nat → Nat) (cnt : Nat) (t : Ast.Graph) (n : Nat) :
    parseBytes rnd cnt a = .ok t n ↔ parseBytes rnd cnt b = .ok t n := by
  obtain ⟨y1, s1, t1, e1, h1, h2, h3, _⟩ := scans_of a
  obtain ⟨y2, s2, t2, e2, h4, h5, h6, _⟩ := scans_of b
  rw [C35_source rnd cnt a h2, C35_source rnd cnt b h5, h3, h6]
  have e1 := List.append_inj_left' (h1.det ha) rfl
  have e2 := List.append_inj_left' (h4.det hb) rfl
  rw [e1, e2, h]

/-- C88. A document ends with its final brace. Whatever text `Parse` accepts consists of a body, a closing brace and layout (white space
and complete comments); with other layout after that brace the tree is the same; with anything else after it there is a syntax error; and a
text cut off before the brace is a syntax error too. None of this depends on the generated names. -/
theorem C88_shape {rnd : Nat → Nat} {cnt : Nat} {src : Str} {t : Ast.Graph} {n : Nat} (h : parseBytes rnd cnt src = .ok t n) :
    ∃ body gap, src = body ++ b!"}" ++ gap ∧ Layout gap ∧
      (∀ x, Layout x → parseBytes rnd cnt (body ++ b!"}" ++ x) = .ok t n) ∧
      (∀ x, ¬ Layout x → ∀ rnd' cnt', ∃ tok ex, parseBytes rnd' cnt' (body ++ b!"}" ++ x) = .syntaxErr tok ex) ∧
      (∀ k, k ≤ body.length → ∀ rnd' cnt', ∃ tok ex, parseBytes rnd' cnt' (src.take k) = .syntaxErr tok ex) := by
  obtain ⟨body, gap, pre, sk, hp⟩ := parts ⟨t, n, h⟩
  have hno : ∀ rnd' cnt' s, ¬ Accepts rnd' cnt' s → ∃ tok ex, parseBytes rnd' cnt' s = .syntaxErr tok ex := by
    intro rnd' cnt' s hs
    rcases C34_total rnd' cnt' s with h' | ⟨tok, ex, _, h', _⟩
    · exact absurd h' hs
    · exact ⟨tok, ex, h'⟩
  refine ⟨body, gap, by simpa using hp.text, hp.layout, ?_, ?_, ?_⟩
  · intro x hx
    have h1 := (hp.follow x).1 hx
    have h2 := hp.toks
    rw [show ∀ g : Str, pre ++ (sk, 4, [125]) :: [(g, 1, [])] = (pre ++ [(sk, 4, [125])]) ++ [(g, 1, [])] by simp] at h1 h2
    have := (parse_of_toks h2 h1 rfl rnd cnt t n).1 h
    simpa using this
  · intro x hx rnd' cnt'
    refine hno rnd' cnt' _ fun ha => hx ((hp.follow x).2 rnd' cnt' ?_)
    simpa using ha
  · intro k hk rnd' cnt'
    refine hno rnd' cnt' _ fun ha => ?_
    obtain ⟨body', gap', pre', sk', hp'⟩ := parts ha
    have hsrc : src = body' ++ 125 :: (gap' ++ src.drop k) := by
      conv => lhs; rw [← List.take_append_drop k src, hp'.text]
      simp
    have hl := (hp'.follow (gap' ++ src.drop k)).2 rnd cnt ⟨t, n, by rw [← hsrc]; exact h⟩
    have h1 := (hp'.follow (gap' ++ src.drop k)).1 hl
    rw [← hsrc] at h1
    have hd := hp.toks.det h1
    have h2 : pre ++ [(sk, 4, [125])] = pre' ++ [(sk', 4, [125])] := by
      have : (pre ++ [(sk, 4, [125])]) ++ [(gap, 1, [])] = (pre' ++ [(sk', 4, [125])]) ++ [(gap' ++ src.drop k, 1, [])] := by simpa using hd
      exact List.append_inj_left' this rfl
    have h3 := List.append_inj_left' h2 rfl
    have h4 := List.append_inj_right' h2 rfl
    simp only [List.cons.injEq, Prod.mk.injEq, and_true] at h4
    have hb : body = body' := by rw [hp.body_eq, hp'.body_eq, h3, h4]
    have hlen := congrArg List.length hp'.text
    rw [← hb] at hlen
    simp only [List.length_append, List.length_cons, List.length_take] at hlen
    omega

/-- C88. A truncated document is rejected or is the same document: when `Parse` accepts a text and the first `k` bytes of it, only
white space and complete comments were cut off and the tree is the same. -/
theorem C88_truncated {rnd : Nat → Nat} {cnt : Nat} {src : Str} {t : Ast.Graph} {n : Nat} (h : parseBytes rnd cnt src = .ok t n) (k : Nat)
    {rnd' : Nat → Nat} {cnt' : Nat} {t' : Ast.Graph} {n' : Nat} (hk : parseBytes rnd' cnt' (src.take k) = .ok t' n') :
    Layout (src.drop k) ∧ parseBytes rnd cnt (src.take k) = .ok t n := by
  obtain ⟨body, gap, pre, sk, hp⟩ := parts ⟨t', n', hk⟩
  have hsrc : src = body ++ 125 :: (gap ++ src.drop k) := by
    conv => lhs; rw [← List.take_append_drop k src, hp.text]
    simp
  have hl := (hp.follow (gap ++ src.drop k)).2 rnd cnt ⟨t, n, by rw [← hsrc]; exact h⟩
  have h1 := (hp.follow (gap ++ src.drop k)).1 hl
  rw [← hsrc] at h1
  have h2 := hp.toks
  constructor
  · obtain ⟨s, ty, lit, rest, hs⟩ := Scans.total (src.drop k)
    have h3 := hs.layout hp.layout
    have h4 := Scans.eof.layout hl
    rw [List.append_nil] at h4
    obtain ⟨_, rfl, rfl, rfl⟩ := h3.det h4
    have ha := hs.append
    simp only [List.append_nil] at ha
    rw [ha]; exact hs.sound.1
  · rw [show ∀ g : Str, pre ++ (sk, 4, [125]) :: [(g, 1, [])] = (pre ++ [(sk, 4, [125])]) ++ [(g, 1, [])] by simp] at h1 h2
    exact (parse_of_toks h1 h2 rfl rnd cnt t n).1 h

/-- C88. Two documents one after the other are not a document. -/
theorem C88_two_documents {rnd₁ rnd₂ : Nat → Nat} {cnt₁ cnt₂ : Nat} {a b : Str} {ta tb : Ast.Graph} {na nb : Nat}
    (ha : parseBytes rnd₁ cnt₁ a = .ok ta na) (hb : parseBytes rnd₂ cnt₂ b = .ok tb nb) (rnd : Nat → Nat) (cnt : Nat) :
    ∃ tok ex, parseBytes rnd cnt (a ++ b) = .syntaxErr tok ex := by
  rcases C34_total rnd cnt (a ++ b) with ⟨t, n, h⟩ | ⟨tok, ex, _, h, _⟩
  · exfalso
    have hk : parseBytes rnd₁ cnt₁ ((a ++ b).take a.length) = .ok ta na := by rw [List.take_left]; exact ha
    have hl := (C88_truncated h a.length hk).1
    rw [List.drop_left] at hl
    obtain ⟨body, gap, pre, sk, hp⟩ := parts ⟨tb, nb, hb⟩
    have := hp.toks.det (toks_layout.2 ⟨rfl, hl⟩)
    have := congrArg List.length this
    simp at this
  · exact ⟨tok, ex, h⟩

theorem layout_last {w : Str} (h : Layout w) : ∀ x, w ≠ x ++ [125] := by
  induction h with
  | nil => intro x h; simp at h
  | @cons p w hp _ ih =>
    intro x h
    cases w with
    | nil =>
      rw [List.append_nil] at h
      have := congrArg List.getLast? h
      rw [List.getLast?_concat] at this
      cases hp with
      | blank hc => simp only [List.getLast?_singleton, Option.some.injEq] at this; omega
      | @hash b _ => rw [← List.cons_append, List.getLast?_concat] at this; cases this
      | @slashes b _ => rw [← List.cons_append, ← List.cons_append, List.getLast?_concat] at this; cases this
      | @block b _ =>
        have e : 47 :: 42 :: (b ++ [42, 47]) = (47 :: 42 :: (b ++ [42])) ++ [47] := by simp
        rw [e, List.getLast?_concat] at this; cases this
    | cons c w =>
      have := congrArg List.getLast? h
      rw [List.getLast?_concat, List.getLast?_append, List.getLast?_eq_some_getLast (by simp : c :: w ≠ []), Option.some_or,
        ← List.getLast?_eq_some_getLast] at this
      obtain ⟨y, hy⟩ := List.getLast?_eq_some_iff.1 this
      exact ih y hy

/-- C88. What `String` prints for a printable tree, cut off anywhere before the final brace (which is followed by one line break), is
rejected. -/
theorem C88_printed {t : Ast.Graph} (h : Spec.Printable t) (k : Nat) (hk : k + 2 ≤ (Ast.graphStr t).length) (rnd : Nat → Nat) (cnt : Nat) :
    ∃ tok ex, parseBytes rnd cnt ((Ast.graphStr t).take k) = .syntaxErr tok ex := by
  rcases C34_total rnd cnt ((Ast.graphStr t).take k) with ⟨t', n', h'⟩ | ⟨tok, ex, _, h', _⟩
  · exfalso
    obtain ⟨s, ls, hs, hT, hM⟩ := Print.graph_toked_brace h
    obtain ⟨ys', h3, h4⟩ := hT [] [([], 1, [])] trivial (.eof .eof)
    rw [List.append_nil] at h3
    obtain ⟨ys, sk, ts, e, h5, h6, h7, _⟩ := scans_of (s ++ [125])
    rw [h5.det h3 |>.symm, List.map_append] at h4
    have e1 := List.append_inj_left' h4 rfl
    have hp := (C35_source rnd cnt _ h6 (norm t) cnt).2 (by rw [h7]; rw [← e1] at hM; exact hM _ _)
    rw [hs] at h' hk
    simp only [List.length_append, List.length_cons, List.length_nil] at hk
    have e2 : (s ++ [125, 10]).take k = (s ++ [125]).take k := by
      rw [List.take_append_of_le_length (by omega), List.take_append_of_le_length (by omega)]
    rw [e2] at h'
    have hl := (C88_truncated hp k h').1
    rw [List.drop_append_of_le_length (by omega)] at hl
    exact layout_last hl _ rfl
  · exact ⟨tok, ex, h'⟩

/-- C88. A graph whose writing was interrupted is not read back as a different graph: the text of a graph (with the conditions under which
the full text can be read, C37), cut off anywhere before the final brace, makes `Read` return an error of the parser. -/
theorem C88_written {g : Graph} (h : Reachable g) (hv : ValidGraph g) {sortE : List Edge → List Edge} (hs : SortContract sortE) {f : Nat}
    {t : Ast.Graph} (ht : writeAst sortE f g = .ok t) (rnd : Nat → Nat) (cnt : Nat) :
    ∃ text, graphString sortE f g = .ok text ∧ ∀ k, k + 2 ≤ text.length → Parse.read rnd cnt (text.take k) = .parseErr := by
  refine ⟨Ast.graphStr t, by unfold graphString; rw [ht], fun k hk => ?_⟩
  rw [← graphStr_map splitName_str] at hk ⊢
  obtain ⟨tok, ex, he⟩ := C88_printed (written_printable h hv hs ht) k hk rnd cnt
  unfold Parse.read
  rw [he]

/-- C88. The same for any document that `Read` accepts: a truncated document is read as the same graph or is not read. -/
theorem C88_read {rnd : Nat → Nat} {cnt : Nat} {src : Str} {g : Graph} (h : Parse.read rnd cnt src = .ok g) (k : Nat) :
    Parse.read rnd cnt (src.take k) = .ok g ∨ Parse.read rnd cnt (src.take k) = .parseErr := by
  unfold Parse.read at h ⊢
  rcases C34_total rnd cnt src with ⟨t, n, h1⟩ | ⟨_, _, _, h1, _⟩
  · rcases C34_total rnd cnt (src.take k) with ⟨t', n', h2⟩ | ⟨_, _, _, h2, _⟩
    · obtain ⟨_, h3⟩ := C88_truncated h1 k h2
      left
      rw [h3]
      rw [h1] at h
      exact h
    · right; rw [h2]
  · rw [h1] at h; cases h

/-! ### concrete cases -/

/-- `Parse` returns a tree / a syntax error. -/
def outcome (src : Str) : Nat :=
  match parseBytes (fun k => k) 0 src with
  | .ok _ _ => 1
  | .syntaxErr _ _ => 2
  | _ => 0

theorem outcome_ok {src : Str} (h : outcome src = 1) : ∃ t n, parseBytes (fun k => k) 0 src = .ok t n := by
  unfold outcome at h
  split at h
  · exact ⟨_, _, by assumption⟩
  · cases h
  · cases h

theorem outcome_err {src : Str} (h : outcome src = 2) : ∃ tok ex, parseBytes (fun k => k) 0 src = .syntaxErr tok ex := by
  unfold outcome at h
  split at h
  · cases h
  · exact ⟨_, _, by assumption⟩
  · cases h

/-- The hypotheses are met: a document with a nested block and, after the end, a comment with a brace; cut after the comment, in the
comment, and inside the block. -/
theorem example_truncated : (∃ t n, parseBytes (fun k => k) 0 (b!"graph G { {a} } /* } */ \n") = .ok t n) ∧
    (∃ t n, parseBytes (fun k => k) 0 ((b!"graph G { {a} } /* } */ \n").take 23) = .ok t n) ∧
    (∃ tok ex, parseBytes (fun k => k) 0 ((b!"graph G { {a} } /* } */ \n").take 20) = .syntaxErr tok ex) ∧
    (∃ tok ex, parseBytes (fun k => k) 0 ((b!"graph G { {a} } /* } */ \n").take 13) = .syntaxErr tok ex) :=
  ⟨outcome_ok (by decide +kernel), outcome_ok (by decide +kernel), outcome_err (by decide +kernel), outcome_err (by decide +kernel)⟩

/-- A comment needs its line break: with `// end` and no line break after the final brace, a document is rejected. -/
theorem C88_open_comment : (∃ tok ex, parseBytes (fun k => k) 0 (b!"graph G {} // end") = .syntaxErr tok ex) ∧
    ∃ t n, parseBytes (fun k => k) 0 (b!"graph G {} // end\n") = .ok t n :=
  ⟨outcome_err (by decide +kernel), outcome_ok (by decide +kernel)⟩

/-- The hypotheses of `C88_written` are met by a graph with an edge: see `C37_round_trip`; here the printed text of a tree and a cut. -/
example : (∃ t n, parseBytes (fun k => k) 0 (Ast.graphStr ⟨true, false, b!"G", [.node ⟨b!"a", ⟨[], []⟩⟩ []]⟩) = .ok t n) ∧
    ∃ tok ex, parseBytes (fun k => k) 0 ((Ast.graphStr ⟨true, false, b!"G", [.node ⟨b!"a", ⟨[], []⟩⟩ []]⟩).take 15) = .syntaxErr tok ex :=
  ⟨outcome_ok (by decide +kernel), outcome_err (by decide +kernel)⟩

end Gographviz.Props
