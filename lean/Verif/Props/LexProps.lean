import Verif.Proofs.LexTokens
/-!
Properties C33, C39, C40 (tokens), C43 and C48: the scanner.
-/
namespace Gographviz.Props

open Gographviz Spec Lex

/-! ### C33 -/

theorem toks_tokensOf {rem : Str} {ys : List (Str × Nat × Str)} (h : Toks rem ys) :
    ∀ {off : Nat} {lc : Nat × Nat} {ts : List Token}, TokRel off lc ys ts → TokensOf off rem ts ∧ ts.length ≤ rem.length + 1 := by
  induction h with
  | eof hs =>
    intro off lc ts ht
    cases ht with
    | cons _ ht =>
      cases ht
      have := hs.append
      simp only [List.append_nil] at this
      subst this
      exact ⟨.eof hs.sound.1 rfl rfl rfl, by simp⟩
  | @cons rem sk lit rest t ys hs hne _ ih =>
    intro off lc ts ht
    cases ht with
    | cons _ ht =>
      obtain ⟨h1, h2⟩ := ih ht
      have hlit : lit ≠ [] := by
        rcases hs.sound.2.2.2 with h' | h' | h'
        · exact absurd h'.1 hne
        · exact h'.2.2.1
        · exact h'.2
      have hll : lit.length ≠ 0 := by simpa using hlit
      have happ := hs.append
      subst happ
      obtain ⟨a, b, c, _⟩ := hs.sound
      refine ⟨.cons (t := ⟨t, lit, off + sk.length, (advR lc (runes sk)).1, (advR lc (runes sk)).2⟩) a hne hlit rfl hs.tail.noLayout
        (hs.tail.longest hne) ?_ h1, ?_⟩
      · simp only; rw [b.runes, c.runes]
      · simp only [List.length_cons, List.length_append]; omega

/-- C33. On every byte sequence, scanning gives a token sequence in the sense of Spec/Tokenizing.lean: the source is the
concatenation of gaps (white space and comments only) and non-empty token texts, each token carries its offset, and the last token
is the end of input; there is at most one token per byte and one for the end. -/
theorem C33_total (src : Str) : ∃ ts, tokens src = some ts ∧ TokensOf 0 src ts ∧ ts.length ≤ src.length + 1 := by
  obtain ⟨ys, ts, h, h1, h2⟩ := tokens_toks src
  exact ⟨ts, h1, toks_tokensOf h h2⟩

/-- C33. A single call of `Scan` from any position inside the source returns a token and moves on. -/
theorem C33_scan_total (l : Lexer) (hp : l.pos ≤ l.src.length) : ∃ t l', scan l = some (t, l') ∧ l'.src = l.src ∧ l'.pos ≤ l.src.length ∧
    (t.typ = 1 ∧ t.lit = [] ∨ l.pos < l'.pos ∧ l'.pos = t.offset + t.lit.length ∧ t.lit = (l.src.drop t.offset).take t.lit.length) := by
  obtain ⟨sk, t, lit, rest, h⟩ := Scans.total (l.src.drop l.pos)
  obtain ⟨line, column, h1, _⟩ := scan_scans hp h
  have happ := h.append
  have hl := congrArg List.length happ
  simp only [List.length_append, List.length_drop] at hl
  refine ⟨_, _, h1, rfl, by simp only; omega, ?_⟩
  rcases h.sound.2.2.2 with h' | h' | h'
  · exact .inl ⟨h'.1, h'.2.1⟩
  · refine .inr ⟨?_, rfl, ?_⟩
    · have : lit.length ≠ 0 := by simpa using h'.2.2.1
      simp only; omega
    · simp only
      rw [← List.drop_drop, happ, List.drop_left, List.take_left]
  · refine .inr ⟨?_, rfl, ?_⟩
    · have : lit.length ≠ 0 := by simpa using h'.2
      simp only; omega
    · simp only
      rw [← List.drop_drop, happ, List.drop_left, List.take_left]

theorem tokensOf_slice {src : Str} : ∀ {off : Nat} {rem : Str} {ts : List Token}, TokensOf off rem ts → src.drop off = rem → off ≤ src.length →
    ∀ t ∈ ts, (src.drop t.offset).take t.lit.length = t.lit ∧ off ≤ t.offset ∧ t.offset + t.lit.length ≤ src.length := by
  intro off rem ts h
  induction h with
  | @eof off gap t _ _ hl ho =>
    intro hd hle t' ht'
    rw [List.mem_singleton.1 ht', hl, ho]
    have := length_of_drop hle hd
    simp; omega
  | @cons off gap rest t ts _ _ _ ho _ _ _ _ ih =>
    intro hd hle t' ht'
    have hlen := length_of_drop hle hd
    simp only [List.length_append] at hlen
    rcases List.mem_cons.1 ht' with rfl | hm
    · refine ⟨?_, by omega, by omega⟩
      rw [ho, drop_drop_eq hd, List.drop_left, List.take_left]
    · have := ih (by rw [ho, Nat.add_assoc, drop_drop_eq hd, ← List.append_assoc, ← List.length_append, List.drop_left]) (by omega) t' hm
      exact ⟨this.1, by omega, this.2.2⟩

theorem tokensOf_ordered : ∀ {off : Nat} {rem : Str} {ts : List Token}, TokensOf off rem ts →
    ts.Pairwise (fun a b => a.offset + a.lit.length ≤ b.offset) ∧ (∀ t ∈ ts, off ≤ t.offset) := by
  intro off rem ts h
  induction h with
  | eof _ _ _ ho => simp [ho]
  | cons _ _ _ ho _ _ _ _ ih =>
    refine ⟨List.pairwise_cons.2 ⟨fun b hb => ih.2 b hb, ih.1⟩, ?_⟩
    intro t ht
    rcases List.mem_cons.1 ht with rfl | hm
    · omega
    · have := ih.2 t hm; omega

/-- C33. Each token text is the slice of the source at the token's offset; tokens are in order and do not overlap. -/
theorem C33_slices (src : Str) {ts : List Token} (h : tokens src = some ts) :
    (∀ t ∈ ts, (src.drop t.offset).take t.lit.length = t.lit ∧ t.offset + t.lit.length ≤ src.length) ∧
    ts.Pairwise (fun a b => a.offset + a.lit.length ≤ b.offset) := by
  obtain ⟨ts', h1, h2, _⟩ := C33_total src
  rw [h] at h1; cases h1
  exact ⟨fun t ht => ⟨(tokensOf_slice (src := src) h2 rfl (Nat.zero_le _) t ht).1, (tokensOf_slice (src := src) h2 rfl (Nat.zero_le _) t ht).2.2⟩,
    (tokensOf_ordered h2).1⟩

/-! ### C48 -/

theorem decodeRune_valid (x y : Str) (hx : x ≠ []) (h : (decodeRune x).1 ≠ 0xFFFD) : decodeRune (x ++ y) = decodeRune x := by
  cases x with
  | nil => exact absurd rfl hx
  | cons b0 x =>
    simp only [List.cons_append]
    simp only [decodeRune] at h ⊢
    split
    · rfl
    · rename_i h0
      rw [if_neg h0] at h
      split
      · rename_i h1
        rw [if_pos h1] at h
        cases x with
        | nil => exact absurd rfl h
        | cons b1 x => rfl
      · rename_i h1
        rw [if_neg h1] at h
        split
        · rename_i h2
          rw [if_pos h2] at h
          rcases x with _ | ⟨b1, _ | ⟨b2, x⟩⟩
          · exact absurd rfl h
          · exact absurd rfl h
          · rfl
        · rename_i h2
          rw [if_neg h2] at h
          split
          · rename_i h3
            rw [if_pos h3] at h
            rcases x with _ | ⟨b1, _ | ⟨b2, _ | ⟨b3, x⟩⟩⟩
            · exact absurd rfl h
            · exact absurd rfl h
            · exact absurd rfl h
            · rfl
          · rfl

/-- Valid text is never cut, whatever follows. -/
theorem cut_valid (x y : Str) (h : 0xFFFD ∉ runes x) : Cut x y := by
  generalize hn : x.length = n
  induction n using Nat.strongRecOn generalizing x with
  | _ n ih =>
    by_cases hx : x = []
    · subst hx; exact .nil _
    · rw [runes_step hx] at h
      have hw := width_pos hx
      have e := decodeRune_valid x y hx (fun he => h (by rw [he]; simp))
      refine .step hx (by rw [e]; exact hw.2) ?_
      rw [e]
      refine ih _ (by rw [← hn, List.length_drop]; omega) _ (fun hm => h (List.mem_cons_of_mem _ hm)) rfl

theorem strBody_valid {b : List Nat} (h : StrBody b) : 0xFFFD ∉ b := by
  induction h with
  | nil => simp
  | char h _ ih =>
    intro hm
    rcases List.mem_cons.1 hm with h' | h'
    · exact h.2.2.2.2 h'.symm
    · exact ih h'
  | esc h _ ih =>
    intro hm
    simp only [List.mem_cons] at hm
    rcases hm with h' | h' | h'
    · omega
    · rcases h with h | h | h
      · exact h.2.2.2.2 h'.symm
      · omega
      · omega
    · exact ih h'

theorem htmlBody_valid {b : List Nat} (h : HtmlBody b) : 0xFFFD ∉ b := by
  induction h with
  | nil => simp
  | char h _ ih =>
    intro hm
    rcases List.mem_cons.1 hm with h' | h'
    · have := h.2.1; omega
    · exact ih h'
  | tag _ ht _ ih =>
    intro hm
    simp only [List.mem_cons, List.mem_append] at hm
    rcases hm with h' | h' | h' | h'
    · omega
    · have := (ht _ h').2.1; omega
    · omega
    · exact ih h'

theorem tokenText_valid {t : Nat} {w : List Nat} (h : TokenText t w) : 0xFFFD ∉ w := by
  rcases h with h | h | ⟨_, h⟩
  · have : ∀ e ∈ keywords, 0xFFFD ∉ e.1 := by decide
    exact this _ h
  · have : ∀ e ∈ puncts, 0xFFFD ∉ e.1 := by decide
    exact this _ h
  · rcases h with ⟨⟨c, cs, rfl, hc, hcs⟩, _⟩ | h | ⟨b, hb, rfl⟩ | ⟨b, hb, rfl⟩
    · have hl : ∀ x, letter x ∨ digit x → x ≠ 0xFFFD := by
        intro x hx; unfold letter digit at hx; omega
      intro hm
      rcases List.mem_cons.1 hm with h' | h'
      · exact hl c (.inl hc) h'.symm
      · exact hl _ (hcs _ h') rfl
    · obtain ⟨m, ds, fs, hm, hd, hf, h⟩ := h
      have hd' : ∀ l : List Nat, (∀ x ∈ l, digit x) → 0xFFFD ∉ l := by
        intro l hl hm; have := (hl _ hm).2; omega
      have hm' : 0xFFFD ∉ m := by rcases hm with rfl | rfl <;> simp
      have h1 := hd' _ hd
      have h2 := hd' _ hf
      rcases h with ⟨_, rfl⟩ | ⟨_, rfl⟩ | ⟨_, rfl⟩ <;> simp [hm', h1, h2]
    · have := strBody_valid hb
      simp [this]
    · have := htmlBody_valid hb
      simp [this]

theorem tokensOf_toks : ∀ {off : Nat} {rem : Str} {ts : List Token}, TokensOf off rem ts → (∀ t ∈ ts, t.typ ≠ 0) →
    ∃ ys, Toks rem ys ∧ ∀ {lc : Nat × Nat} {ts' : List Token}, TokRel off lc ys ts' →
      ts'.map (fun t => (t.typ, t.lit, t.offset)) = ts.map (fun t => (t.typ, t.lit, t.offset)) := by
  intro off rem ts h
  induction h with
  | @eof off gap t hg ht hl ho =>
    intro _
    have := Scans.eof.layout hg
    simp only [List.append_nil] at this
    refine ⟨_, .eof this, ?_⟩
    intro lc ts' hts'
    cases hts' with
    | cons _ h => cases h; simp [ht, hl, ho]
  | @cons off gap rest t ts hg h1 hne ho hno hlong _ _ ih =>
    intro h0
    obtain ⟨ys, hys, hmap⟩ := ih fun t' ht' => h0 t' (by simp [ht'])
    have ht0 := h0 t (by simp)
    unfold Longest at hlong
    rw [if_neg ht0] at hlong
    have hcut := cut_valid t.lit rest (tokenText_valid hlong.1)
    obtain ⟨s, hs, htyp, _, _, hk⟩ := tokenText_path hlong.1
    have hign : kIgn (kindOf s) = false := by
      rcases hk with hk | hk | hk | ⟨t, hk⟩
      · cases h' : kindOf s <;> rw [h'] at hk <;> simp [K.open] at hk <;> rfl
      all_goals rw [hk]; rfl
    have hrun := run_of_trs hcut (by decide) hs hign
    have hslt := trs_lt (s := 0) (by decide) hs
    have hstuck : Stuck s rest := by
      by_cases hr : rest = []
      · exact .inl hr
      · refine .inr ?_
        cases htr : tr s (decodeRune rest).1 with
        | none => rfl
        | some s1 =>
          exfalso
          -- the text could be longer
          have hp : Lex.trs 0 (runes t.lit ++ [(decodeRune rest).1]) = some s1 := by
            rw [trs_append, hs]; simp [Lex.trs, htr]
          have hacc := tr_acc hslt (by rw [htyp]; exact ht0) htr
          have := hlong.2 _ _ (by
            rw [hcut.runes, runes_step hr]
            exact ⟨runes (rest.drop (decodeRune rest).2), by simp⟩) (typ_tokenText hp hacc)
          simp at this
          omega
    have hscan : Scans (t.lit ++ rest) [] t.typ t.lit rest := by
      rw [← htyp]
      exact .tok (by simp [hne]) hrun hstuck (by rw [htyp]; exact ht0) rfl
    have hscan := hscan.layout hg
    rw [List.append_nil] at hscan
    refine ⟨_, .cons hscan h1 hys, ?_⟩
    intro lc ts' hts'
    cases hts' with
    | cons _ h =>
      rw [ho] at hmap
      simp [ho, hmap h]

/-- C48. If a text has a tokenization by longest match with the token classes of dot.bnf (Spec/Tokenizing.lean, Spec/Lexical.lean),
the scanner returns exactly it. -/
theorem C48_unique (src : Str) {ts : List Token} (h : TokensOf 0 src ts) (h0 : ∀ t ∈ ts, t.typ ≠ 0) :
    ∃ ts', tokens src = some ts' ∧ ts'.map (fun t => (t.typ, t.lit, t.offset)) = ts.map (fun t => (t.typ, t.lit, t.offset)) := by
  obtain ⟨ys, hys, hmap⟩ := tokensOf_toks h h0
  obtain ⟨ys', ts', h1, h2, h3⟩ := tokens_toks src
  rw [hys.det h1] at hmap
  exact ⟨ts', h2, hmap h3⟩

/-- A text that is one token. -/
theorem toks_single {t : Nat} {lit : Str} (h : TokenText t (runes lit)) : Toks lit [([], t, lit), ([], 1, [])] := by
  have hs := scans_token h (cut_nil_right lit) (.inr (.inl rfl))
  rw [List.append_nil] at hs
  obtain ⟨_, _, _, _, h1, _⟩ := tokenText_path h
  exact .cons hs h1 (.eof .eof)

/-- C48. The classes of tokens: a text is scanned as one token of type `t` (and the end of input) exactly if it is in the class `t`
of dot.bnf. -/
theorem C48_classes_partial (lit : Str) (t : Nat) (h0 : t ≠ 0) (h1 : t ≠ 1) :
    (∃ a b, tokens lit = some [a, b] ∧ a.typ = t ∧ a.lit = lit ∧ b.typ = 1) ↔ TokenText t (runes lit) := by
  constructor
  · rintro ⟨a, b, h, ha, hl, hb⟩
    obtain ⟨ts, h2, h3, _⟩ := C33_total lit
    rw [h] at h2; cases h2
    generalize hts : [a, b] = ts at h3
    cases h3 with
    | eof => cases hts
    | cons _ _ _ _ _ hlong _ _ =>
      cases hts
      unfold Longest at hlong
      rw [if_neg (by rw [ha]; exact h0), ha, hl] at hlong
      exact hlong.1
  · intro h
    obtain ⟨ys, ts, h2, h3, h4⟩ := tokens_toks lit
    have := (toks_single h).det h2
    subst this
    cases h4 with
    | cons _ h4 => cases h4 with
      | cons _ h4 => cases h4; exact ⟨_, _, h3, rfl, rfl, rfl⟩

/-- What is missing in C48: dot.bnf (line 144) allows the empty tag `<>` inside an HTML string, the scanner does not: it rejects `<<>>`. -/
theorem C48_empty_tag_rejected : HtmlBodyBnf (b!"<>") ∧ ∃ a ts, tokens (b!"<<>>") = some (a :: ts) ∧ a.typ = 0 := by
  refine ⟨.tag (t := []) (by simp) .nil, ?_⟩
  have : (tokens (b!"<<>>")).map (fun ts => ts.head?.map (·.typ)) = some (some 0) := by decide +kernel
  cases h : tokens (b!"<<>>") with
  | none => rw [h] at this; cases this
  | some ts =>
    rw [h] at this
    cases ts with
    | nil => cases this
    | cons a ts => exact ⟨a, ts, rfl, by simpa using this⟩

/-- C48. Empty tags are the only deviation from dot.bnf. -/
theorem C48_html_otherwise {b : List Nat} (h : HtmlBodyBnf b) (hne : ∀ x y, b ≠ x ++ [60, 62] ++ y) : HtmlBody b := by
  induction h with
  | nil => exact .nil
  | char hr _ ih => exact .char hr (ih fun x y he => hne (_ :: x) y (by rw [he]; rfl))
  | @tag t b ht _ ih =>
    refine .tag ?_ ht (ih fun x y he => hne (60 :: (t ++ 62 :: x)) y (by rw [he]; simp))
    intro h0; subst h0
    exact hne [] b (by simp)

/-! ### C39 -/

/-- The token types of the keywords. -/
def isKeywordType (t : Nat) : Prop := t = 2 ∨ t = 5 ∨ t = 6 ∨ t = 9 ∨ t = 10 ∨ t = 15

/-- C39. A word (letter, then letters and digits) that is followed by neither a letter nor a digit is scanned as one token. Its type is the
type listed for its spelling in dot.bnf, or `id` if the spelling is not listed. -/
theorem C39_words (lit rest : Str) (hw : Word (runes lit)) (hend : ∀ r, (runes rest).head? = some r → ¬ letter r ∧ ¬ digit r) :
    ∃ typ ts, tokens (lit ++ rest) = some (⟨typ, lit, 0, 1, 1⟩ :: ts) ∧
      ((runes lit, typ) ∈ keywords ∨ ((∀ t, (runes lit, t) ∉ keywords) ∧ typ = 18)) := by
  obtain ⟨s, hs, hlt, hk⟩ := kpath_trs0 (kpath_word hw)
  have htyp := typ_ident hs hk
  have hcase : (runes lit, typOf s) ∈ keywords ∨ ((∀ t, (runes lit, t) ∉ keywords) ∧ typOf s = 18) := by
    rw [htyp]
    rcases kwType_cases (runes lit) with h | ⟨h, h'⟩
    · exact .inl h
    · exact .inr ⟨fun t ht => h (List.mem_map.2 ⟨_, ht, rfl⟩), h'⟩
  have ht0 : typOf s ≠ 0 ∧ typOf s ≠ 1 := by
    rcases hcase with h | ⟨_, h⟩
    · exact (keywords_words _ h).2
    · rw [h]; decide
  have hcut := cut_valid lit rest (tokenText_valid (typ_tokenText hs ht0.1))
  have hstuck : Stuck s rest := by
    by_cases hr : rest = []
    · exact .inl hr
    · refine .inr (tr_none_of_kstep hlt ?_)
      have := hend _ (by rw [runes_step hr]; rfl)
      rw [hk]
      generalize (decodeRune rest).1 = r at this
      unfold letter digit at this
      simp only [kstep, kRow, pw]
      repeat rw [if_neg (by omega)]
  have hne : lit ≠ [] := by
    intro h0; subst h0
    obtain ⟨c, cs, h, _⟩ := hw; cases h
  have hsc : Scans (lit ++ rest) [] (typOf s) lit rest :=
    .tok (by simp [hne]) (run_of_trs hcut (by decide) hs (by rw [hk]; rfl)) hstuck ht0.1 rfl
  obtain ⟨ys, ts, h1, h2, h3⟩ := tokens_toks (lit ++ rest)
  obtain ⟨ys', hys'⟩ := Toks.total rest
  have := (Toks.cons hsc ht0.2 hys').det h1
  subst this
  cases h3 with
  | cons _ h3 => exact ⟨typOf s, _, h2, hcase⟩

/-- Every token comes from a scan. -/
theorem tokens_scans (src : Str) {ts : List Token} (h : tokens src = some ts) :
    ∀ t ∈ ts, ∃ rest, Scans (t.lit ++ rest) [] t.typ t.lit rest := by
  obtain ⟨ys, ts', h1, h2, h3⟩ := tokens_toks src
  rw [h] at h2; cases h2
  clear h
  generalize 0 = off at h3
  generalize (1, 1) = lc at h3
  induction h1 generalizing off lc ts with
  | eof hs =>
    cases h3 with
    | cons _ h3 =>
      cases h3
      intro t ht
      rw [List.mem_singleton.1 ht]
      exact ⟨[], hs.tail⟩
  | cons hs _ _ ih =>
    cases h3 with
    | cons _ h3 =>
      intro t ht
      rcases List.mem_cons.1 ht with rfl | hm
      · exact ⟨_, hs.tail⟩
      · exact ih _ _ h3 t hm

theorem tokenText_unique {t t' : Nat} {w : List Nat} (h : TokenText t w) (h' : TokenText t' w) : t = t' := by
  obtain ⟨s, hs, rfl, _⟩ := tokenText_path h
  obtain ⟨s', hs', rfl, _⟩ := tokenText_path h'
  rw [hs] at hs'; cases hs'; rfl

/-- C39. In every token sequence, the tokens with a keyword type are exactly those whose text is a listed spelling. -/
theorem C39_exactly (src : Str) {ts : List Token} (h : tokens src = some ts) : ∀ t ∈ ts,
    (isKeywordType t.typ → (runes t.lit, t.typ) ∈ keywords) ∧ (∀ k, (runes t.lit, k) ∈ keywords → t.typ = k) := by
  have hpn : ∀ e ∈ puncts, ¬ isKeywordType e.2 := by unfold isKeywordType; decide
  intro t ht
  obtain ⟨rest, hs⟩ := tokens_scans src h t ht
  obtain ⟨_, _, hcut, hcase⟩ := hs.sound
  rcases hcase with ⟨h1, h2, _⟩ | ⟨h0, h1, _, htt⟩ | ⟨h0, _⟩
  · refine ⟨fun hk => ?_, fun k hk => ?_⟩
    · rw [h1] at hk; exact absurd hk (by unfold isKeywordType; decide)
    · rw [h2] at hk
      have : ∀ e ∈ keywords, e.1 ≠ [] := by decide
      exact absurd rfl (this _ hk)
  · refine ⟨fun hk => ?_, fun k hk => tokenText_unique htt (.inl hk)⟩
    rcases htt with h | h | ⟨h, _⟩
    · exact h
    · exact absurd hk (hpn _ h)
    · rw [h] at hk; exact absurd hk (by unfold isKeywordType; decide)
  · refine ⟨fun hk => ?_, fun k hk => ?_⟩
    · rw [h0] at hk; exact absurd hk (by unfold isKeywordType; decide)
    · have := hs.longest (by rw [h0]; decide)
      unfold Longest at this
      rw [if_pos h0] at this
      exact absurd (.inl hk) (this k _ (by rw [hcut.runes]; exact ⟨_, rfl⟩))

example : Word (runes (b!"graphs")) ∧ (∀ r, (runes (b!" {")).head? = some r → ¬ letter r ∧ ¬ digit r) := by
  refine ⟨⟨103, [114, 97, 112, 104, 115], by decide, by decide, by decide⟩, ?_⟩
  intro r hr
  have : r = 32 := by
    have : (runes (b!" {")).head? = some 32 := by decide
    rw [this] at hr; exact (Option.some.inj hr).symm
  subst this
  decide

example : (tokens (b!"graphs graph GrAph")).map (·.map (·.typ)) = some [18, 2, 18, 1] := by decide +kernel

/-! ### C43 -/

theorem advR_line (lc : Nat × Nat) (rs : List Nat) : (advR lc rs).1 = lc.1 + rs.count 10 := by
  induction rs generalizing lc with
  | nil => simp [advR]
  | cons r rs ih =>
    have : advR lc (r :: rs) = advR (advance r lc.1 lc.2) rs := rfl
    rw [this, ih, List.count_cons]
    unfold advance
    by_cases h1 : r = 10
    · subst h1; simp; omega
    · rw [if_neg h1]
      have : (r == 10) = false := by simpa using h1
      rw [this]
      split
      · simp
      · split <;> simp

theorem advR_column (rs : List Nat) (l : Nat) : (advR (l, 1) rs).2 =
    1 + ((rs.reverse.takeWhile fun r => r != 10 && r != 13).map fun r => if r = 9 then 4 else 1).sum := by
  generalize hn : rs.length = n
  induction n generalizing rs with
  | zero =>
    have : rs = [] := List.eq_nil_of_length_eq_zero hn
    subst this; rfl
  | succ n ih =>
    have hne : rs ≠ [] := by intro h0; rw [h0] at hn; cases hn
    obtain ⟨u, r, rfl⟩ : ∃ u r, rs = u ++ [r] := ⟨rs.dropLast, rs.getLast hne, (List.dropLast_concat_getLast hne).symm⟩
    have e : advR (l, 1) (u ++ [r]) = advance r (advR (l, 1) u).1 (advR (l, 1) u).2 := by rw [advR_append]; rfl
    rw [e, List.reverse_append]
    have ihu := ih u (by simp at hn; exact hn)
    simp only [List.reverse_cons, List.reverse_nil, List.nil_append, List.singleton_append, List.takeWhile_cons]
    unfold advance
    by_cases h1 : r = 10
    · subst h1; simp
    · rw [if_neg h1]
      by_cases h2 : r = 13
      · subst h2; simp
      · rw [if_neg h2]
        have : (r != 10 && r != 13) = true := by simp [h1, h2]
        rw [this]
        simp only [if_true, List.map_cons, List.sum_cons]
        rw [ihu]
        by_cases h3 : r = 9
        · rw [if_pos h3, if_pos h3]; simp only; omega
        · rw [if_neg h3, if_neg h3]; simp only; omega

theorem count_runes {c : Nat} (hc : c < 128) (s : Str) : (runes s).count c = s.count c := by
  induction s using runes_induct with
  | nil => rfl
  | ascii b s hb ih => rw [runes_ascii hb, List.count_cons, List.count_cons, ih]
  | high l s r _ hl hr he ih =>
    rw [he, List.count_append, List.count_cons, ih]
    have h1 : l.count c = 0 := List.count_eq_zero.2 fun hm => by have := hl c hm; omega
    have h2 : (r == c) = false := by simp; omega
    rw [h1, h2]; simp

theorem position_eq (s : Str) : advR (1, 1) (runes s) = (lineAfter s, columnAfter s) := by
  apply Prod.ext
  · rw [advR_line, count_runes (by omega)]; rfl
  · rw [advR_column]; rfl

theorem tokRel_pos {rem : Str} {ys : List (Str × Nat × Str)} (h : Toks rem ys) (pre : Str) (hcut : Cut pre rem) :
    ∀ {ts : List Token} {as bs : List Token} {t : Token}, TokRel pre.length (advR (1, 1) (runes pre)) ys ts →
      ts = as ++ t :: bs → (∀ a ∈ as, a.typ ≠ 0) →
      (t.line, t.column) = advR (1, 1) (runes ((pre ++ rem).take t.offset)) := by
  induction h generalizing pre with
  | @eof rem sk hs =>
    intro ts as bs t hts heq _
    cases hts with
    | cons _ hts =>
      cases hts
      cases as with
      | cons a as => cases as <;> cases heq
      | nil =>
        cases heq
        have := hs.append
        simp only [List.append_nil] at this
        subst this
        simp only
        rw [← List.length_append, List.take_length, hcut.runes, advR_append]
  | @cons rem sk lit rest tt ys hs hne _ ih =>
    intro ts as bs t hts heq hinv
    cases hts with
    | @cons _ _ _ lc' _ _ _ ts' hlc hts =>
      have happ := hs.append
      obtain ⟨_, hc1, hc2, _⟩ := hs.sound
      subst happ
      cases as with
      | nil =>
        simp only [List.nil_append, List.cons.injEq] at heq
        obtain ⟨rfl, rfl⟩ := heq
        simp only
        rw [← List.length_append, ← List.append_assoc, List.take_left, hcut.left.runes, advR_append]
      | cons a as =>
        simp only [List.cons_append, List.cons.injEq] at heq
        obtain ⟨rfl, rfl⟩ := heq
        have h0 := hinv _ (List.mem_cons_self ..)
        have hcut' : Cut (pre ++ sk ++ lit) rest := by
          refine Cut.append (Cut.append ?_ ?_) hc2
          · exact hcut
          · exact hc1
        have hpos : advR (1, 1) (runes (pre ++ sk ++ lit)) = lc' := by
          rw [hlc h0, List.append_assoc, ← advR_append, ← Cut.runes]
          rw [← List.append_assoc] at hcut
          exact hcut.left
        rw [← hpos, Nat.add_assoc, ← List.length_append, ← List.length_append, ← List.append_assoc] at hts
        have := ih (pre ++ sk ++ lit) hcut' hts rfl fun a ha => hinv a (by simp [ha])
        rw [this]
        simp [List.append_assoc]

/-- C43. The line and the column of every token up to and including the first invalid one are those of the position where the token
starts in the source. -/
theorem C43_positions (src : Str) {as bs : List Token} {t : Token} (h : tokens src = some (as ++ t :: bs))
    (hinv : ∀ a ∈ as, a.typ ≠ 0) :
    t.line = lineAfter (src.take t.offset) ∧ t.column = columnAfter (src.take t.offset) := by
  obtain ⟨ys, ts, h1, h2, h3⟩ := tokens_toks src
  rw [h] at h2; cases h2
  have := tokRel_pos h1 [] (.nil _) h3 rfl hinv
  rw [List.nil_append, position_eq] at this
  exact ⟨congrArg Prod.fst this, congrArg Prod.snd this⟩

example : (tokens (b!"graph {\n\ta;\r b }")).map (·.map fun t => (t.typ, t.line, t.column)) =
    some [(2, 1, 1), (3, 1, 7), (18, 2, 5), (7, 2, 6), (18, 2, 2), (4, 2, 4), (1, 2, 5)] := by decide +kernel

/-- Why C43 stops at the first invalid token: the offending character `@` is not counted, the tokens after it are one column off. -/
theorem C43_wrong_after_invalid : ∃ t, (tokens (b!"@a")).map (·.drop 1 |>.head?) = some (some t) ∧ t.offset = 1 ∧ t.column = 1 := by
  exact ⟨⟨18, [97], 1, 1, 1⟩, by decide +kernel, rfl, rfl⟩

/-! ### C40 (tokens) -/

theorem tokRel_split {off : Nat} {lc : Nat × Nat} {ys : List (Str × Nat × Str)} {ts as bs : List Token} {t : Token}
    (h : TokRel off lc ys ts) (heq : ts = as ++ t :: bs) :
    ∃ pre sk post, ys = pre ++ (sk, t.typ, t.lit) :: post ∧ pre.map (fun y => (y.2.1, y.2.2)) = as.map (fun t => (t.typ, t.lit)) ∧
      t.offset = off + (flat pre).length + sk.length := by
  induction h generalizing as with
  | nil => cases as <;> cases heq
  | @cons off t0 lc lc' sk lit ys ts hlc hts ih =>
    cases as with
    | nil =>
      simp only [List.nil_append, List.cons.injEq] at heq
      obtain ⟨rfl, rfl⟩ := heq
      exact ⟨[], sk, ys, rfl, rfl, by simp [flat]⟩
    | cons a as =>
      simp only [List.cons_append, List.cons.injEq] at heq
      obtain ⟨rfl, rfl⟩ := heq
      obtain ⟨pre, sk', post, h1, h2, h3⟩ := ih rfl
      refine ⟨(sk, t0, lit) :: pre, sk', post, by rw [h1]; rfl, by simp [h2], ?_⟩
      rw [h3]; simp [flat]; omega

/-- C40. White space and comments inserted directly before a token do not change the token types and texts. At the end of input this needs
that the last token is not an invalid one (such as an unterminated string). -/
theorem C40_tokens (src w : Str) (hw : Layout w) {as bs : List Token} {t : Token} (h : tokens src = some (as ++ t :: bs))
    (hinv : t.typ = 1 → ∀ a, as.getLast? = some a → a.typ ≠ 0) :
    ∃ ts', tokens (src.take t.offset ++ w ++ src.drop t.offset) = some ts' ∧
      ts'.map (fun t => (t.typ, t.lit)) = (as ++ t :: bs).map (fun t => (t.typ, t.lit)) := by
  obtain ⟨ys, ts, h1, h2, h3⟩ := tokens_toks src
  rw [h] at h2; cases h2
  obtain ⟨pre, sk, post, rfl, hmap, hoff⟩ := tokRel_split h3 rfl
  have hins := Toks.insert hw h1 (by
    intro ht1 y hy
    have : (as.map (fun t => (t.typ, t.lit))).getLast? = some (y.2.1, y.2.2) := by
      rw [← hmap, List.getLast?_map, hy]; rfl
    rw [List.getLast?_map] at this
    cases ha : as.getLast? with
    | none => rw [ha] at this; cases this
    | some a =>
      rw [ha] at this
      have hne := hinv ht1 a ha
      simp only [Option.map_some, Option.some.injEq, Prod.mk.injEq] at this
      rw [← this.1]; exact hne)
  have hsrc := h1.flat
  have e : flat (pre ++ (sk, t.typ, t.lit) :: post) = (flat pre ++ sk) ++ (t.lit ++ flat post) := by simp [flat]
  rw [e] at hsrc
  have ho : t.offset = (flat pre ++ sk).length := by rw [hoff, List.length_append]; omega
  obtain ⟨ys', ts', g1, g2, g3⟩ := tokens_toks (src.take t.offset ++ w ++ src.drop t.offset)
  refine ⟨ts', g2, ?_⟩
  have e2 : src.take t.offset ++ w ++ src.drop t.offset = flat pre ++ sk ++ w ++ (t.lit ++ flat post) := by
    rw [hsrc, ho, List.take_left, List.drop_left]
  rw [e2] at g1
  have := hins.det g1
  subst this
  rw [g3.map, h3.map]
  simp

example : Layout (b!" /* a * b */# c\n") := by
  refine Layout.cons (p := [32]) (.blank (.inl rfl)) ?_
  refine Layout.cons (p := 47 :: 42 :: (b!" a * b " ++ [42, 47])) (.block ?_) ?_
  · simp [NoStarSlash]
  · exact Layout.cons (p := 35 :: (b!" c" ++ [10])) (.hash (by decide)) .nil

/-- Why C40 excludes the end of input after an invalid token. -/
theorem C40_unterminated : (tokens (b!"/*")).map (·.map (·.typ)) = some [0, 1] ∧
    (tokens (b!"/*" ++ b!"/**/")).map (·.map (·.typ)) = some [1] := by
  refine ⟨by decide +kernel, by decide +kernel⟩

end Gographviz.Props
