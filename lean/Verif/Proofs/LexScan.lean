import Verif.Proofs.LexClasses
/-!
One call of `Scan` in terms of layout and token texts.
-/
namespace Gographviz.Lex

open Gographviz Spec

/-! ### bytes and runes -/

theorem runes_head_ascii {c : Str} {r : Nat} {rs : List Nat} (hr : r < 128) (h : runes c = r :: rs) :
    ∃ c', c = r :: c' ∧ runes c' = rs := by
  cases c with
  | nil => cases h
  | cons b s =>
    by_cases hb : b < 128
    · rw [runes_ascii hb] at h
      cases h; exact ⟨s, rfl, rfl⟩
    · rw [runes_cons] at h
      have := (decodeRune_high (by omega : 128 ≤ b) s).1
      injection h with h1 h2
      omega

theorem runes_split {c : Str} {a b : List Nat} (h : runes c = a ++ b) : ∃ x y, c = x ++ y ∧ Cut x y ∧ runes x = a ∧ runes y = b := by
  induction a generalizing c with
  | nil => exact ⟨[], c, rfl, .nil _, rfl, h⟩
  | cons r a ih =>
    have hne : c ≠ [] := by intro h0; subst h0; cases h
    rw [runes_step hne] at h
    injection h with h1 h2
    obtain ⟨x, y, hxy, hcut, hx, hy⟩ := ih h2
    obtain ⟨hc1, hc2⟩ := cut_of_cut_step hne hxy hcut
    refine ⟨_, y, ?_, hc1, ?_, hy⟩
    · rw [List.append_assoc, ← hxy, List.take_append_drop]
    · rw [hc2, h1, hx]

theorem runes_last_ascii {c : Str} {r : Nat} {rs : List Nat} (hr : r < 128) (h : runes c = rs ++ [r]) :
    ∃ c', c = c' ++ [r] ∧ runes c' = rs := by
  obtain ⟨x, y, rfl, _, hx, hy⟩ := runes_split h
  obtain ⟨y', rfl, hy'⟩ := runes_head_ascii hr hy
  rw [runes_eq_nil] at hy'
  subst hy'
  exact ⟨x, rfl, hx⟩

theorem runes_snoc_ascii (x : Str) {r : Nat} (hr : r < 128) : runes (x ++ [r]) = runes x ++ [r] := by
  rw [(cut_ascii_right x hr []).runes, runes_ascii hr]; rfl

theorem noStarSlash_high {l : Str} (hl : ∀ x ∈ l, 128 ≤ x) (s : Str) : NoStarSlash (l ++ s) ↔ NoStarSlash s := by
  induction l with
  | nil => rfl
  | cons a l ih =>
    have ha := hl a (by simp)
    rw [← ih fun x hx => hl x (by simp [hx]), List.cons_append]
    cases h : l ++ s with
    | nil => simp [NoStarSlash]
    | cons b t => simp only [NoStarSlash]; exact ⟨fun h => h.2, fun h => ⟨by omega, h⟩⟩

theorem noStarSlash_runes (s : Str) : NoStarSlash (runes s) ↔ NoStarSlash s := by
  induction s using runes_induct with
  | nil => rfl
  | ascii b s hb ih =>
    rw [runes_ascii hb]
    cases s with
    | nil => simp [NoStarSlash, runes, runesN]
    | cons c t =>
      by_cases hc : c < 128
      · rw [runes_ascii hc] at ih ⊢
        simp only [NoStarSlash]
        rw [ih]
      · rw [runes_cons] at ih ⊢
        have h1 := (decodeRune_high (by omega : 128 ≤ c) t).1
        simp only [NoStarSlash]
        rw [ih]
        constructor
        · rintro ⟨_, h⟩; exact ⟨by omega, h⟩
        · rintro ⟨_, h⟩; exact ⟨by omega, h⟩
  | high l s r hne hl hr he ih =>
    rw [he, noStarSlash_high hl s, ← ih]
    exact noStarSlash_high (l := [r]) (by simpa using hr) _

/-! ### paths over bytes -/

theorem Run.trs {s s' : Nat} {inp rest : Str} (h : Run s inp s' rest) :
    ∃ x, inp = x ++ rest ∧ Cut x rest ∧ Lex.trs s (runes x) = some s' ∧ (x = [] → s = s') := by
  induction h with
  | refl s inp => exact ⟨[], rfl, .nil _, rfl, fun _ => rfl⟩
  | @step s s1 s' t inp rest hne htr _ _ ih =>
    obtain ⟨x, hx, hc, ht, _⟩ := ih
    obtain ⟨h1, h2⟩ := cut_of_cut_step hne hx hc
    refine ⟨_, ?_, h1, ?_, ?_⟩
    · rw [List.append_assoc, ← hx, List.take_append_drop]
    · rw [h2]; simp only [Lex.trs, htr, Option.bind_some]; exact ht
    · intro h0
      have hw := width_pos hne
      have := congrArg List.length h0
      simp only [List.length_append, List.length_take, List.length_nil] at this
      omega

theorem kstep_ign {k : K} (h : kIgn k = true) (r : Nat) : kstep k r = none := by
  cases k <;> simp [kIgn] at h <;> rfl

theorem trs_ign {s : Nat} (hs : s < nStates) (h : kIgn (kindOf s) = true) {r : Nat} {rs : List Nat} : Lex.trs s (r :: rs) = none := by
  have := tr_kstep hs r
  rw [kstep_ign h] at this
  simp only [Lex.trs]
  cases h' : tr s r with
  | none => rfl
  | some s1 => rw [h'] at this; cases this

theorem act_not_ign {s : Nat} (hs : s < nStates) (h : kIgn (kindOf s) = false) : ∃ t, actTab[s]? = some (some t) := by
  obtain ⟨a, ha⟩ := actTab_get hs
  cases a with
  | none => rw [(typOf_kind s hs).2.1 ha] at h; cases h
  | some t => exact ⟨t, ha⟩

theorem run_of_trs {x rest : Str} (hc : Cut x rest) : ∀ {s s' : Nat}, s < nStates → Lex.trs s (runes x) = some s' → kIgn (kindOf s') = false →
    Run s (x ++ rest) s' rest := by
  induction hc with
  | nil y =>
    intro s s' _ h _
    cases h; exact .refl _ _
  | @step x y hne hw hc ih =>
    intro s s' hs h hk
    have e := decodeRune_append x y hne hw
    rw [runes_step hne, e] at h
    simp only [Lex.trs] at h
    cases h1 : tr s (decodeRune (x ++ y)).1 with
    | none => rw [h1] at h; cases h
    | some s1 =>
      rw [h1] at h
      simp only [Option.bind_some] at h
      have hs1 := tr_lt h1
      have hk1 : kIgn (kindOf s1) = false := by
        cases hk1 : kIgn (kindOf s1) with
        | false => rfl
        | true =>
          cases hr : runes (x.drop (decodeRune (x ++ y)).2) with
          | nil => rw [hr] at h; cases h; rw [hk1] at hk; cases hk
          | cons r rs => rw [hr, trs_ign hs1 hk1] at h; cases h
      obtain ⟨t, ht⟩ := act_not_ign hs1 hk1
      refine .step (by simp [hne]) h1 ht ?_
      rw [List.drop_append_of_le_length hw]
      exact ih hs1 h hk

theorem kindOf_zero : kindOf 0 = .start := by decide

theorem trs0_kpath {w : List Nat} {s : Nat} (h : Lex.trs 0 w = some s) : kpath .start w = some (kindOf s) := by
  have := trs_kpath (s := 0) (by decide) w
  rw [h, kindOf_zero] at this
  exact this.symm

theorem kpath_trs0 {w : List Nat} {k : K} (h : kpath .start w = some k) : ∃ s, Lex.trs 0 w = some s ∧ s < nStates ∧ kindOf s = k := by
  have := trs_kpath (s := 0) (by decide) w
  rw [kindOf_zero, h] at this
  cases hs : Lex.trs 0 w with
  | none => rw [hs] at this; cases this
  | some s =>
    rw [hs] at this
    simp only [Option.map_some, Option.some.injEq] at this
    exact ⟨s, rfl, trs_lt (by decide) hs, this⟩

/-! ### layout -/

/-- An ignored chunk is a piece of layout. -/
theorem chunk_layout {inp chunk mid rest : Str} {s : Nat} (hr : Run 0 inp s mid) (hig : Ign s mid rest) (hc : inp = chunk ++ rest) :
    LayoutPiece chunk ∧ Cut chunk rest := by
  obtain ⟨x, hx, hcut, ht, _⟩ := hr.trs
  obtain ⟨hm, s1, htr, hact, hrest⟩ := hig
  have hchunk : chunk = x ++ mid.take (decodeRune mid).2 := by
    have : chunk ++ rest = (x ++ mid.take (decodeRune mid).2) ++ rest := by
      rw [← hc, List.append_assoc, hrest, List.take_append_drop, hx]
    exact List.append_cancel_right this
  have hcut1 : Cut x (mid.take (decodeRune mid).2 ++ rest) := by rw [hrest, List.take_append_drop]; exact hcut
  have hcc : Cut chunk rest := by
    rw [hchunk]
    refine Cut.append hcut1 ?_
    rw [hrest]; exact cut_step hm
  refine ⟨?_, hcc⟩
  have hrc : runes chunk = runes x ++ [(decodeRune mid).1] := by
    rw [hchunk, hcut1.left.runes, runes_take hm]
  have hs1 := tr_lt htr
  have hk : kIgn (kindOf s1) = true := (typOf_kind s1 hs1).2.1 hact
  have hpath : Lex.trs 0 (runes chunk) = some s1 := by
    rw [hrc, trs_append, ht]; simp [Lex.trs, htr]
  have hinv := kpath_inv (trs0_kpath hpath)
  generalize kindOf s1 = k at hk hinv
  cases k <;> simp [kIgn] at hk
  · obtain ⟨c, hb, he⟩ := hinv
    obtain ⟨c', rfl, hc'⟩ := runes_head_ascii (by omega) he
    rw [runes_eq_nil] at hc'; subst hc'
    exact .blank hb
  · obtain ⟨b, hb, he | he⟩ := hinv
    · obtain ⟨c', rfl, hc'⟩ := runes_head_ascii (by omega) he
      obtain ⟨c'', rfl, hc''⟩ := runes_last_ascii (by omega) hc'
      refine .hash ?_
      rw [← mem_runes (by omega), hc'']; exact hb
    · obtain ⟨c', rfl, hc'⟩ := runes_head_ascii (by omega) he
      obtain ⟨c1, rfl, hc1⟩ := runes_head_ascii (r := 47) (by omega) hc'
      obtain ⟨c'', rfl, hc''⟩ := runes_last_ascii (by omega) hc1
      refine .slashes ?_
      rw [← mem_runes (by omega), hc'']; exact hb
  · obtain ⟨b, hb, he⟩ := hinv
    obtain ⟨c', rfl, hc'⟩ := runes_head_ascii (by omega) he
    obtain ⟨c1, rfl, hc1⟩ := runes_head_ascii (r := 42) (by omega) hc'
    rw [show b ++ [42, 47] = (b ++ [42]) ++ [47] by simp] at hc1
    obtain ⟨c'', rfl, hc''⟩ := runes_last_ascii (by omega) hc1
    obtain ⟨d, rfl, hd⟩ := runes_last_ascii (by omega) hc''
    have : NoStarSlash (d ++ [42]) := by
      rw [← noStarSlash_runes, runes_snoc_ascii d (by omega), hd]; exact hb
    simpa using LayoutPiece.block this

theorem layoutPiece_path {p : Str} (h : LayoutPiece p) : ∃ k, kIgn k = true ∧ kpath .start (runes p) = some k ∧
    (∃ c, c < 128 ∧ p.getLast? = some c) := by
  cases h with
  | @blank c hc =>
    refine ⟨.ws, rfl, ?_, c, by omega, rfl⟩
    rw [runes_ascii (by omega)]
    rcases hc with rfl | rfl | rfl | rfl <;> decide
  | @hash b hb =>
    refine ⟨.lineEnd, rfl, ?_, 10, by omega, ?_⟩
    · rw [runes_ascii (by omega), runes_snoc_ascii b (by omega)]
      refine kpath_cons (k' := .line) (by decide) (kpath_line ?_)
      rw [mem_runes (by omega)]; exact hb
    · rw [← List.cons_append, List.getLast?_concat]
  | @slashes b hb =>
    refine ⟨.lineEnd, rfl, ?_, 10, by omega, ?_⟩
    · rw [runes_ascii (by omega), runes_ascii (by omega), runes_snoc_ascii b (by omega)]
      refine kpath_cons (k' := .slash) (by decide) (kpath_cons (k' := .line) (by decide) (kpath_line ?_))
      rw [mem_runes (by omega)]; exact hb
    · rw [← List.cons_append, ← List.cons_append, List.getLast?_concat]
  | @block b hb =>
    refine ⟨.blockEnd, rfl, ?_, 47, by omega, ?_⟩
    · rw [runes_ascii (by omega), runes_ascii (by omega), show b ++ [42, 47] = (b ++ [42]) ++ [47] by simp,
        runes_snoc_ascii _ (by omega), runes_snoc_ascii _ (by omega)]
      have : NoStarSlash (runes b ++ [42]) := by
        rw [← runes_snoc_ascii b (by omega), noStarSlash_runes]; exact hb
      simpa using kpath_block this
    · rw [show 47 :: 42 :: (b ++ [42, 47]) = (47 :: 42 :: (b ++ [42])) ++ [47] by simp, List.getLast?_concat]

/-- A piece of layout is skipped. -/
theorem Scans.piece {p rest sk lit rest' : Str} {t : Nat} (h : LayoutPiece p) (hs : Scans rest sk t lit rest') :
    Scans (p ++ rest) (p ++ sk) t lit rest' := by
  obtain ⟨k, hk, hp, c, hc, hl⟩ := layoutPiece_path h
  obtain ⟨p', rfl⟩ : ∃ p', p = p' ++ [c] := by
    have hne : p ≠ [] := by intro h0; subst h0; cases hl
    rw [List.getLast?_eq_some_getLast hne, Option.some.injEq] at hl
    exact ⟨p.dropLast, by rw [← hl, List.dropLast_concat_getLast]⟩
  obtain ⟨s1, hs1, hlt, hks⟩ := kpath_trs0 hp
  rw [runes_snoc_ascii p' hc, trs_append] at hs1
  cases hs0 : Lex.trs 0 (runes p') with
  | none => rw [hs0] at hs1; cases hs1
  | some s =>
    rw [hs0] at hs1
    simp only [Option.bind_some, Lex.trs] at hs1
    cases htr : tr s c with
    | none => rw [htr] at hs1; cases hs1
    | some s2 =>
      rw [htr] at hs1
      cases hs1
      have hlt0 : s < nStates := trs_lt (by decide) hs0
      have hks0 : kIgn (kindOf s) = false := by
        cases h0 : kIgn (kindOf s) with
        | false => rfl
        | true =>
          have := trs_ign hlt0 h0 (r := c) (rs := [])
          simp [Lex.trs, htr] at this
      have hrun := run_of_trs (cut_ascii_right p' hc rest) (by decide) hs0 hks0
      refine .skip (mid := c :: rest) (rest := rest) (s := s) ?_ ?_ rfl hs
      · simpa using hrun
      · refine ⟨by simp, s1, ?_, (typOf_kind s1 hlt).2.2 (by rw [hks]; exact hk), ?_⟩
        · rw [decodeRune_ascii hc]; exact htr
        · rw [decodeRune_ascii hc]; rfl

theorem Scans.layout {w rest sk lit rest' : Str} {t : Nat} (h : Layout w) (hs : Scans rest sk t lit rest') :
    Scans (w ++ rest) (w ++ sk) t lit rest' := by
  induction h with
  | nil => exact hs
  | cons hp _ ih => rw [List.append_assoc, List.append_assoc]; exact ih.piece hp

/-! ### tokens -/

/-- The type of a state reached by a word. -/
theorem typ_tokenText {w : List Nat} {s : Nat} (h : Lex.trs 0 w = some s) (h0 : typOf s ≠ 0) : TokenText (typOf s) w := by
  have hlt := trs_lt (by decide) h
  have hinv := kpath_inv (trs0_kpath h)
  have htyp := (typOf_kind s hlt).1
  generalize hk : kindOf s = k at hinv htyp
  cases k
  case ident =>
    rw [typ_ident h hk]
    rcases kwType_cases w with hm | ⟨hn, h18⟩
    · exact .inl hm
    · rw [h18]; exact .inr (.inr ⟨rfl, .inl ⟨hinv, hn⟩⟩)
  case punct t => rw [htyp (by simp)]; exact .inr (.inl hinv)
  case strEnd => rw [htyp (by simp)]; exact .inr (.inr ⟨rfl, .inr (.inr (.inl hinv))⟩)
  case htmlEnd => rw [htyp (by simp)]; exact .inr (.inr ⟨rfl, .inr (.inr (.inr hinv))⟩)
  case frac => rw [htyp (by simp)]; exact .inr (.inr ⟨rfl, .inr (.inl (numeral_iff.2 ⟨_, rfl, hk ▸ trs0_kpath h⟩))⟩)
  case int => rw [htyp (by simp)]; exact .inr (.inr ⟨rfl, .inr (.inl (numeral_iff.2 ⟨_, rfl, hk ▸ trs0_kpath h⟩))⟩)
  case intDot => rw [htyp (by simp)]; exact .inr (.inr ⟨rfl, .inr (.inl (numeral_iff.2 ⟨_, rfl, hk ▸ trs0_kpath h⟩))⟩)
  all_goals exact absurd (htyp (by simp)) h0

theorem keywords_words : ∀ e ∈ keywords, kpath .start e.1 = some .ident ∧ e.2 ≠ 0 ∧ e.2 ≠ 1 := by decide +kernel

/-- Kinds of states that accept a token and may go on. -/
def K.open : K → Bool
  | .int | .frac | .intDot | .ident => true
  | _ => false

theorem tokenText_path {t : Nat} {w : List Nat} (h : TokenText t w) :
    ∃ s, Lex.trs 0 w = some s ∧ typOf s = t ∧ t ≠ 0 ∧ t ≠ 1 ∧
      ((kindOf s).open = true ∨ kindOf s = .strEnd ∨ kindOf s = .htmlEnd ∨ ∃ t, kindOf s = .punct t) := by
  rcases h with h | h | ⟨rfl, h⟩
  · obtain ⟨hp, h0, h1⟩ := keywords_words _ h
    obtain ⟨s, hs, hlt, hk⟩ := kpath_trs0 hp
    exact ⟨s, hs, by rw [typ_ident hs hk, kwType_mem h], h0, h1, .inl (by rw [hk]; rfl)⟩
  · have : ∀ e ∈ puncts, e.2 ≠ 0 ∧ e.2 ≠ 1 := by decide
    obtain ⟨h0, h1⟩ := this _ h
    obtain ⟨s, hs, hlt, hk⟩ := kpath_trs0 (kpath_punct _ h)
    exact ⟨s, hs, by rw [(typOf_kind s hlt).1 (by rw [hk]; simp), hk]; rfl, h0, h1, .inr (.inr (.inr ⟨_, hk⟩))⟩
  · rcases h with ⟨hw, hn⟩ | h | h | h
    · obtain ⟨s, hs, hlt, hk⟩ := kpath_trs0 (kpath_word hw)
      refine ⟨s, hs, ?_, by decide, by decide, .inl (by rw [hk]; rfl)⟩
      rw [typ_ident hs hk]
      rcases kwType_cases w with hm | hm
      · exact absurd (List.mem_map.2 ⟨_, hm, rfl⟩) hn
      · exact hm.2
    · obtain ⟨k, hn, hp⟩ := numeral_iff.1 h
      obtain ⟨s, hs, hlt, hk⟩ := kpath_trs0 hp
      refine ⟨s, hs, ?_, by decide, by decide, .inl ?_⟩
      · rw [(typOf_kind s hlt).1 (by rw [hk]; intro h; subst h; cases hn), hk]
        cases k <;> simp [K.isNum] at hn <;> rfl
      · rw [hk]; cases k <;> simp [K.isNum] at hn <;> rfl
    · obtain ⟨s, hs, hlt, hk⟩ := kpath_trs0 (kpath_quoted h)
      exact ⟨s, hs, by rw [(typOf_kind s hlt).1 (by rw [hk]; simp), hk]; rfl, by decide, by decide, .inr (.inl hk)⟩
    · obtain ⟨s, hs, hlt, hk⟩ := kpath_trs0 (kpath_html h)
      exact ⟨s, hs, by rw [(typOf_kind s hlt).1 (by rw [hk]; simp), hk]; rfl, by decide, by decide, .inr (.inr (.inl hk))⟩

/-- A rune that ends words and numerals. -/
def EndRune (r : Nat) : Prop := ¬ letter r ∧ ¬ digit r ∧ r ≠ 46

theorem kstep_open {k : K} (hk : k.open = true) {r : Nat} (h : EndRune r) : kstep k r = none := by
  obtain ⟨h1, h2, h3⟩ := h
  unfold letter at h1
  unfold digit at h2
  cases k <;> simp only [K.open, Bool.false_eq_true] at hk
  all_goals
    simp only [kstep, kRow, pw]
    repeat rw [if_neg (by omega)]

theorem tr_none_of_kstep {s : Nat} (hs : s < nStates) {r : Nat} (h : kstep (kindOf s) r = none) : tr s r = none := by
  have := tr_kstep hs r
  rw [h] at this
  cases h' : tr s r with
  | none => rfl
  | some s1 => rw [h'] at this; cases this

/-- Does not need a delimiter. -/
def Closed (w : List Nat) : Prop := Quoted w ∨ Html w ∨ ∃ t, (w, t) ∈ puncts

/-- What may follow a token text. -/
def Delim (w : List Nat) (rest : Str) : Prop := Closed w ∨ rest = [] ∨ EndRune (decodeRune rest).1

theorem delim_stuck {w : List Nat} {s : Nat} (h : Lex.trs 0 w = some s) (h0 : typOf s ≠ 0) {rest : Str} (hd : Delim w rest) :
    Stuck s rest := by
  have hlt := trs_lt (by decide) h
  rcases hd with hc | hr | he
  · by_cases hr : rest = []
    · exact .inl hr
    · refine .inr (tr_none_of_kstep hlt ?_)
      have hp := trs0_kpath h
      rcases hc with hc | hc | ⟨t, hc⟩
      · rw [kpath_quoted hc] at hp; injection hp with hp; rw [← hp]; rfl
      · rw [kpath_html hc] at hp; injection hp with hp; rw [← hp]; rfl
      · rw [kpath_punct _ hc] at hp; injection hp with hp; rw [← hp]; rfl
  · exact .inl hr
  · refine .inr (tr_none_of_kstep hlt ?_)
    obtain ⟨s', hs', _, _, _, hk⟩ := tokenText_path (typ_tokenText h h0)
    rw [h] at hs'; cases hs'
    rcases hk with hk | hk | hk | ⟨t, hk⟩
    · exact kstep_open hk he
    · rw [hk]; rfl
    · rw [hk]; rfl
    · rw [hk]; rfl

/-- A token text followed by a delimiter is scanned as that token. -/
theorem scans_token {t : Nat} {lit rest : Str} (h : TokenText t (runes lit)) (hc : Cut lit rest) (hd : Delim (runes lit) rest) :
    Scans (lit ++ rest) [] t lit rest := by
  obtain ⟨s, hs, rfl, h0, _, hk⟩ := tokenText_path h
  have hign : kIgn (kindOf s) = false := by
    rcases hk with hk | hk | hk | ⟨t, hk⟩
    · cases h' : kindOf s <;> rw [h'] at hk <;> simp [K.open] at hk <;> rfl
    all_goals rw [hk]; rfl
  have hne : lit ≠ [] := by
    intro h0'; subst h0'
    cases hs
    exact h0 (by decide +kernel)
  exact .tok (by simp [hne]) (run_of_trs hc (by decide) hs hign) (delim_stuck hs h0 hd) h0 rfl

/-- Soundness of a call of `Scan`. -/
theorem Scans.sound {inp sk lit rest : Str} {t : Nat} (h : Scans inp sk t lit rest) :
    Layout sk ∧ Cut sk (lit ++ rest) ∧ Cut lit rest ∧
      ((t = 1 ∧ lit = [] ∧ rest = []) ∨ (t ≠ 0 ∧ t ≠ 1 ∧ lit ≠ [] ∧ TokenText t (runes lit)) ∨ (t = 0 ∧ lit ≠ [])) := by
  induction h with
  | eof => exact ⟨.nil, .nil _, .nil _, .inl ⟨rfl, rfl, rfl⟩⟩
  | @skip inp chunk mid rest sk lit rest' s t hr hig hc hs ih =>
    obtain ⟨h1, h2, h3, h4⟩ := ih
    obtain ⟨hl, hcut⟩ := chunk_layout hr hig hc
    refine ⟨.cons hl h1, ?_, h3, h4⟩
    rw [hs.append] at hcut
    exact hcut.append h2
  | @tok inp lit rest s hne hr hst h0 he =>
    obtain ⟨x, hx, hcut, ht, _⟩ := hr.trs
    have hxl : lit = x := List.append_cancel_right (he.symm.trans hx)
    subst hxl
    have htt := typ_tokenText ht h0
    obtain ⟨s', hs', ht', h0', h1', _⟩ := tokenText_path htt
    rw [ht] at hs'; cases hs'
    have hlne : lit ≠ [] := by
      intro h0'; subst h0'
      cases ht
      exact h0 (by decide +kernel)
    exact ⟨.nil, .nil _, hcut, .inr (.inl ⟨h0, h1', hlne, htt⟩)⟩
  | @bad inp lit mid s hne hr hst h0 he =>
    obtain ⟨x, hx, hcut, ht, _⟩ := hr.trs
    have hlit : lit = x ++ mid.take (decodeRune mid).2 := by
      have : lit ++ mid.drop (decodeRune mid).2 = (x ++ mid.take (decodeRune mid).2) ++ mid.drop (decodeRune mid).2 := by
        rw [← he, List.append_assoc, List.take_append_drop, hx]
      exact List.append_cancel_right this
    refine ⟨.nil, .nil _, ?_, .inr (.inr ⟨rfl, ?_⟩)⟩
    · by_cases hm : mid = []
      · subst hm
        simp only [List.take_nil, List.append_nil] at hlit
        rw [hlit]; simpa using hcut
      · rw [hlit]
        refine Cut.append ?_ (cut_step hm)
        rw [List.take_append_drop]; exact hcut
    · intro h0'
      rw [h0'] at he hlit
      by_cases hm : mid = []
      · subst hm; simp at he; exact hne he
      · have hw := width_pos hm
        have := congrArg List.length hlit
        simp only [List.length_append, List.length_take, List.length_nil] at this
        omega

end Gographviz.Lex
