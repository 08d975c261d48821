import Verif.Props.EscapeProps
import Verif.Spec.EscapeText
/-!
Property C63: what escaping does to each text, exactly.
-/
namespace Gographviz.Props

open Gographviz Spec

theorem mem_whiteSpace (r : Nat) : r ∈ whiteSpace ↔ isSpaceRune r = true := by
  simp only [whiteSpace, isSpaceRune, List.mem_cons, List.not_mem_nil, or_false, Bool.or_eq_true, Bool.and_eq_true, decide_eq_true_eq, beq_iff_eq]
  omega

theorem spaceEnc_runes {e : Str} (h : SpaceEnc e) : ∃ c, isSpaceRune c = true ∧ runes e = [c] := by
  have h0 := h []
  rw [List.append_nil] at h0
  obtain ⟨_, c, _, _, hc, hr, _⟩ := stripSpacePrefix_runes h0
  exact ⟨c, hc, by rw [hr]; rfl⟩

theorem spaceEnc_count {e : Str} (h : SpaceEnc e) {c : Nat} (hc : c = 60 ∨ c = 62) : e.count c = 0 := by
  rw [List.count_eq_zero]
  intro hm
  obtain ⟨r, hr, hrs⟩ := spaceEnc_runes h
  rw [← mem_runes (by omega), hrs, List.mem_singleton] at hm
  subst hm
  rcases hc with rfl | rfl <;> exact absurd hr (by decide)

theorem trimLeftN_split (n : Nat) (s : Str) :
    ∃ es : List Str, (∀ e ∈ es, SpaceEnc e) ∧ s = es.flatten ++ trimLeftN n s ∧
      ∃ blanks, (∀ r ∈ blanks, isSpaceRune r = true) ∧ runes s = blanks ++ runes (trimLeftN n s) := by
  induction n generalizing s with
  | zero => exact ⟨[], by simp, by simp [trimLeftN], [], by simp, by simp [trimLeftN]⟩
  | succ n ih =>
    cases hs : stripSpacePrefix s with
    | none => exact ⟨[], by simp, by simp [trimLeftN, hs], [], by simp, by simp [trimLeftN, hs]⟩
    | some r =>
      obtain ⟨e, c, he, _, hc, hr, hall⟩ := stripSpacePrefix_runes hs
      obtain ⟨es, h1, h2, bl, h3, h4⟩ := ih r
      refine ⟨e :: es, ?_, ?_, c :: bl, ?_, ?_⟩
      · intro x hx
        rcases List.mem_cons.1 hx with rfl | hx
        · exact hall
        · exact h1 x hx
      · simp only [trimLeftN, hs, List.flatten_cons, List.append_assoc]
        rw [← h2]; exact he
      · intro x hx
        rcases List.mem_cons.1 hx with rfl | hx
        · exact hc
        · exact h3 x hx
      · simp only [trimLeftN, hs]
        rw [hr, h4]; rfl

theorem count_flatten_space {es : List Str} (h : ∀ e ∈ es, SpaceEnc e) {c : Nat} (hc : c = 60 ∨ c = 62) : es.flatten.count c = 0 := by
  rw [List.count_eq_zero, List.mem_flatten]
  rintro ⟨e, he, hm⟩
  have := spaceEnc_count (h e he) hc
  rw [List.count_eq_zero] at this
  exact this hm

/-- Trimming takes no angle brackets away. -/
theorem count_trimSpace (s : Str) {c : Nat} (hc : c = 60 ∨ c = 62) : (trimSpace s).count c = s.count c := by
  obtain ⟨es, h1, h2, -⟩ := trimLeftN_split s.length s
  obtain ⟨fs, h3, h4⟩ := trimRevN_spec (trimLeftN s.length s).length (trimLeftN s.length s).reverse
  rw [List.reverse_reverse] at h4
  have e1 : s.count c = (trimLeftN s.length s).count c := by
    conv => lhs; rw [h2, List.count_append, count_flatten_space h1 hc, Nat.zero_add]
  have e2 : (trimLeftN s.length s).count c = (trimSpace s).count c := by
    conv => lhs; rw [h4, List.count_append, count_flatten_space h3 hc, Nat.add_zero]
    rfl
  rw [e1, e2]

theorem runes_count (s : Str) {c : Nat} (hc : c < 128) : (runes s).count c = s.count c := by
  induction s using runes_induct with
  | nil => rfl
  | ascii b s hb ih => rw [runes_ascii hb, List.count_cons, List.count_cons, ih]
  | high l s r _ hl hr hru ih =>
    rw [hru, List.count_cons, List.count_append, ih]
    have h1 : l.count c = 0 := by
      rw [List.count_eq_zero]; intro hm; have := hl c hm; omega
    rw [h1, if_neg (by simp; omega)]; omega

theorem angleCount_eq (rs : List Nat) : angleCount rs = (rs.count 60 : Int) - rs.count 62 := by
  have key : ∀ (l : List Nat) (n : Int),
      l.foldl (fun n c => let n := if c = 60 then n + 1 else n; if c = 62 then n - 1 else n) n = n + l.count 60 - l.count 62 := by
    intro l
    induction l with
    | nil => intro n; simp
    | cons c l ih =>
      intro n
      rw [List.foldl_cons, ih]
      simp only [List.count_cons]
      by_cases h1 : c = 60
      · subst h1; simp; omega
      · by_cases h2 : c = 62
        · subst h2; simp; omega
        · simp [h1, h2]
  unfold angleCount
  rw [key]; omega

/-- The first byte that trimming leaves is `<` exactly if the first character that is not white space is `<`. -/
theorem trimSpace_angle (s : Str) : (∃ cs, trimSpace s = 60 :: cs) ↔ StartsWithAngle s := by
  obtain ⟨-, -, -, bl, h3, h4⟩ := trimLeftN_split s.length s
  obtain ⟨h5, -⟩ := trimLeftN_spec s.length s (Nat.le_refl _)
  obtain ⟨fs, -, h7⟩ := trimRevN_spec (trimLeftN s.length s).length (trimLeftN s.length s).reverse
  rw [List.reverse_reverse] at h7
  have e : (trimRevN (trimLeftN s.length s).length (trimLeftN s.length s).reverse).reverse = trimSpace s := rfl
  rw [e] at h7
  generalize hl : trimLeftN s.length s = l at *
  constructor
  · rintro ⟨cs, h⟩
    rw [h] at h7
    refine ⟨bl, runes (cs ++ fs.flatten), ?_, fun r hr => (mem_whiteSpace r).2 (h3 r hr)⟩
    rw [h4, h7, List.cons_append, runes_ascii (by omega)]
  · rintro ⟨bl', rest, h, hbl⟩
    have hbl : ∀ r ∈ bl', isSpaceRune r = true := fun r hr => (mem_whiteSpace r).1 (hbl r hr)
    -- the first character of `l` is not white space
    have hl0 : ∀ c cs, runes l = c :: cs → isSpaceRune c = false := by
      intro c cs hc
      cases hlc : l with
      | nil => rw [hlc] at hc; cases hc
      | cons b t =>
        rw [hlc, runes_cons] at hc
        cases hd : isSpaceRune c with
        | false => rfl
        | true =>
          exfalso
          rw [← (List.cons.inj hc).1] at hd
          exact stripSpacePrefix_of_rune hd (hlc ▸ h5)
    -- so both ways to split off white space agree
    have key : ∀ (a b : List Nat) (xs ys : List Nat), (∀ r ∈ a, isSpaceRune r = true) → (∀ r ∈ b, isSpaceRune r = true) →
        (∀ c cs, xs = c :: cs → isSpaceRune c = false) → a ++ xs = b ++ 60 :: ys → xs = 60 :: ys := by
      intro a
      induction a with
      | nil =>
        intro b xs ys _ hb hx hab
        cases b with
        | nil => exact hab
        | cons r b =>
          have := hx r (b ++ 60 :: ys) hab
          rw [hb r (by simp)] at this; cases this
      | cons x a ih =>
        intro b xs ys ha hb hx hab
        cases b with
        | nil =>
          have h1 := (List.cons.inj hab).1
          have := ha x (by simp)
          rw [h1] at this; exact absurd this (by decide)
        | cons r b =>
          exact ih b xs ys (fun r hr => ha r (by simp [hr])) (fun r hr => hb r (by simp [hr])) hx (List.cons.inj hab).2
    have hrl : runes l = 60 :: rest := key bl bl' _ _ h3 hbl hl0 (by rw [← h4, h])
    have hlh : ∃ t, l = 60 :: t := by
      cases hlc : l with
      | nil => rw [hlc] at hrl; cases hrl
      | cons b t =>
        rw [hlc, runes_cons] at hrl
        have h1 := (List.cons.inj hrl).1
        by_cases hb : b < 128
        · rw [decodeRune_ascii hb] at h1; exact ⟨t, by rw [← h1]⟩
        · have := (decodeRune_high (by omega : 128 ≤ b) t).1
          omega
    obtain ⟨t, ht⟩ := hlh
    cases hts : trimSpace s with
    | nil =>
      have := (trimSpace_eq_nil s).1 hts
      rw [List.all_eq_true] at this
      exact absurd (this 60 (by rw [h]; simp)) (by decide)
    | cons c cs =>
      rw [hts, ht] at h7
      exact ⟨cs, by rw [← (List.cons.inj h7).1]⟩

theorem isHTML_iff {s : Str} (h : ∃ r ∈ runes s, r ∉ whiteSpace) :
    (isHTML s = some true ↔ HtmlText s) ∧ (isHTML s = some false ↔ ¬ HtmlText s) := by
  have hne : trimSpace s ≠ [] := by
    intro h0
    have := (trimSpace_eq_nil s).1 h0
    rw [List.all_eq_true] at this
    obtain ⟨r, hr, hw⟩ := h
    exact hw ((mem_whiteSpace r).2 (this r hr))
  have hlen : ¬ s.length = 0 := by
    intro h0
    have : s = [] := by simpa using h0
    subst this; exact hne rfl
  unfold isHTML HtmlText
  rw [if_neg hlen, ← trimSpace_angle, ← count_trimSpace s (.inl rfl), ← count_trimSpace s (.inr rfl)]
  cases ht : trimSpace s with
  | nil => exact absurd ht hne
  | cons c cs =>
    dsimp only
    by_cases hc : c = 60
    · subst hc
      rw [if_neg (by simp), angleCount_eq, runes_count _ (by omega), runes_count _ (by omega)]
      have e : ((List.count 60 (60 :: cs) : Int) - (List.count 62 (60 :: cs) : Nat) = 0) ↔ List.count 60 (60 :: cs) = List.count 62 (60 :: cs) := by omega
      by_cases hq : List.count 60 (60 :: cs) = List.count 62 (60 :: cs)
      · rw [decide_eq_true (e.2 hq)]; simp [hq]
      · rw [decide_eq_false (fun h => hq (e.1 h))]; generalize (60 :: cs).count 60 = m at *; generalize (60 :: cs).count 62 = n at *; simp [hq]
    · rw [if_pos hc]
      simp [hc]

theorem isLetter_iff (U : Unicode) (c : Nat) : isLetter U c = true ↔ LetterChar U c := by
  simp only [isLetter, LetterChar, Bool.or_eq_true, Bool.and_eq_true, decide_eq_true_eq, beq_iff_eq, bne_iff_ne, ne_eq]
  grind

theorem isID_iff (U : Unicode) (s : Str) : isID U s = true ↔ WordText U s := by
  have hr : ∀ r, idRuneOk r = true ↔ (r ∉ whiteSpace ∧ r ≠ 45 ∧ r ≠ 46 ∧ r ≠ 47) := by
    intro r
    rw [mem_whiteSpace]
    simp only [idRuneOk, Bool.and_eq_true, Bool.not_eq_true', bne_iff_ne, ne_eq, Bool.not_eq_true]
    grind
  unfold isID WordText
  cases h : runes s with
  | nil => simp
  | cons c cs =>
    dsimp only
    rw [Bool.and_eq_true, isLetter_iff, List.all_eq_true]
    constructor
    · rintro ⟨h1, h2⟩
      exact ⟨⟨c, cs, rfl, h1⟩, fun r hm => (hr r).1 (h2 r hm)⟩
    · rintro ⟨⟨c', cs', hcc, h1⟩, h2⟩
      cases hcc
      exact ⟨h1, fun r hm => (hr r).2 (h2 r hm)⟩

theorem isNumeral_iff (U : Unicode) (c : Nat) : (isDigit U c || c == 46) = true ↔ NumeralChar U c := by
  simp only [isDigit, NumeralChar, Bool.or_eq_true, Bool.and_eq_true, decide_eq_true_eq, beq_iff_eq]
  grind

theorem isNumberFrom2 (U : Unicode) (cs : List Nat) : isNumberFrom U 2 cs = true ↔ ∀ c ∈ cs, NumeralChar U c := by
  induction cs with
  | nil => simp [isNumberFrom]
  | cons c cs ih =>
    have hn := isNumeral_iff U c
    simp only [isNumberFrom]
    rw [if_neg (by omega), if_neg (by omega)]
    by_cases hc : NumeralChar U c
    · have := hn.2 hc
      have e : ¬ ((decide (c ≠ 46) && !isDigit U c) = true) := by
        simp only [Bool.or_eq_true, beq_iff_eq] at this
        simp; rcases this with h | h <;> simp [h]
      rw [if_neg e, ih]
      simp [hc]
    · have e : (decide (c ≠ 46) && !isDigit U c) = true := by
        have : ¬ ((isDigit U c || c == 46) = true) := fun h => hc (hn.1 h)
        simp only [Bool.or_eq_true, beq_iff_eq, not_or, Bool.not_eq_true] at this
        simp [this.1, this.2]
      rw [if_pos e]
      simp [hc]

theorem isNumberFrom1 (U : Unicode) (cs : List Nat) : isNumberFrom U 1 cs = true ↔
    ∃ other ds, cs = other ++ ds ∧ ds ≠ [] ∧ (∀ c ∈ ds, NumeralChar U c) ∧ ∀ c ∈ other, ¬ NumeralChar U c := by
  induction cs with
  | nil =>
    simp only [isNumberFrom]
    constructor
    · intro h; cases h
    · rintro ⟨o, ds, h, hne, -⟩
      exact absurd (List.append_eq_nil_iff.1 h.symm).2 hne
  | cons c cs ih =>
    have hn := isNumeral_iff U c
    simp only [isNumberFrom]
    rw [if_neg (by omega), if_pos trivial]
    by_cases hc : NumeralChar U c
    · rw [if_pos (hn.2 hc), isNumberFrom2]
      constructor
      · intro h
        exact ⟨[], c :: cs, rfl, by simp, by simpa [hc] using h, by simp⟩
      · rintro ⟨o, ds, h, hne, hd, ho⟩ x hx
        cases o with
        | nil => rw [List.nil_append] at h; rw [← h] at hd; exact hd x (by simp [hx])
        | cons y o => cases h; exact absurd hc (ho c (by simp))
    · rw [if_neg (fun h => hc (hn.1 h)), ih]
      constructor
      · rintro ⟨o, ds, rfl, hne, hd, ho⟩
        exact ⟨c :: o, ds, rfl, hne, hd, by simpa [hc] using ho⟩
      · rintro ⟨o, ds, h, hne, hd, ho⟩
        cases o with
        | nil => rw [List.nil_append] at h; rw [← h] at hd; exact absurd (hd c (by simp)) hc
        | cons y o => cases h; exact ⟨o, ds, rfl, hne, hd, fun c hc => ho c (by simp [hc])⟩

theorem isNumber_iff (U : Unicode) (s : Str) : isNumber U s = true ↔ NumeralText U s := by
  unfold isNumber NumeralText
  have h45 : ¬ NumeralChar U 45 := by unfold NumeralChar; omega
  cases h : runes s with
  | nil =>
    simp only [isNumberFrom]
    constructor
    · intro h; cases h
    · rintro ⟨o, ds, h, hne, -⟩
      exact absurd (List.append_eq_nil_iff.1 h.symm).2 hne
  | cons c cs =>
    have hn := isNumeral_iff U c
    simp only [isNumberFrom]
    rw [if_pos trivial]
    by_cases hc : NumeralChar U c
    · rw [if_pos (hn.2 hc), isNumberFrom2]
      constructor
      · intro h
        exact ⟨[], c :: cs, rfl, by simp, by simpa [hc] using h, .inl rfl⟩
      · rintro ⟨o, ds, h, hne, hd, ho⟩ x hx
        rcases ho with rfl | ⟨o, rfl, ho⟩
        · rw [List.nil_append] at h; rw [← h] at hd; exact hd x (by simp [hx])
        · cases h; exact absurd hc h45
    · rw [if_neg (fun h => hc (hn.1 h))]
      by_cases hm : c = 45
      · subst hm
        rw [if_pos rfl, isNumberFrom1]
        constructor
        · rintro ⟨o, ds, rfl, hne, hd, ho⟩
          exact ⟨45 :: o, ds, rfl, hne, hd, .inr ⟨o, rfl, ho⟩⟩
        · rintro ⟨o, ds, h, hne, hd, ho⟩
          rcases ho with rfl | ⟨o, rfl, ho⟩
          · rw [List.nil_append] at h; rw [← h] at hd; exact absurd (hd 45 (by simp)) hc
          · cases h; exact ⟨o, ds, rfl, hne, hd, ho⟩
      · rw [if_neg hm]
        constructor
        · intro h; cases h
        · rintro ⟨o, ds, h, hne, hd, ho⟩
          exfalso
          rcases ho with rfl | ⟨o, rfl, ho⟩
          · rw [List.nil_append] at h; rw [← h] at hd; exact hc (hd c (by simp))
          · cases h; exact hm rfl

theorem noBareQuote_iff (rs : List Nat) (p : Nat) : noBareQuote p rs = true ↔
    ∀ pre post, rs = pre ++ 34 :: post → (p :: pre).getLast? = some 92 := by
  induction rs generalizing p with
  | nil => simp [noBareQuote]
  | cons r rs ih =>
    simp only [noBareQuote]
    by_cases hb : (r = 34 && p ≠ 92) = true
    · rw [if_pos hb]
      simp only [Bool.and_eq_true, decide_eq_true_eq] at hb
      constructor
      · intro h; cases h
      · intro h
        have := h [] rs (by rw [hb.1]; rfl)
        simp at this; exact absurd this hb.2
    · rw [if_neg hb, ih]
      simp only [Bool.and_eq_true, decide_eq_true_eq, not_and, Classical.not_not] at hb
      constructor
      · intro h pre post he
        cases pre with
        | nil => cases he; simp [hb rfl]
        | cons x pre =>
          cases he
          rw [List.getLast?_cons_cons]; exact h pre post rfl
      · intro h pre post he
        have := h (r :: pre) post (by rw [he]; rfl)
        rwa [List.getLast?_cons_cons] at this

theorem isStringLit_iff {s : Str} (h34 : s ≠ [34]) : 
    (isStringLit s = some true ↔ QuotedText s) ∧ (isStringLit s = some false ↔ ¬ QuotedText s) := by
  have hq : ∀ body, noBareQuote 0 (runes body) = true ↔ ∀ pre post, runes body = pre ++ 34 :: post → pre.getLast? = some 92 := by
    intro body
    rw [noBareQuote_iff]
    constructor
    · intro h pre post he
      have := h pre post he
      cases pre with
      | nil => simp at this
      | cons x pre => rwa [List.getLast?_cons_cons] at this
    · intro h pre post he
      have := h pre post he
      cases pre with
      | nil => simp at this
      | cons x pre => rwa [List.getLast?_cons_cons]
  by_cases hf : ∃ body, s = [34] ++ body ++ [34]
  · obtain ⟨body, rfl⟩ := hf
    have hi : isStringLit ([34] ++ body ++ [34]) = some (noBareQuote 0 (runes body)) := by
      unfold isStringLit
      have h1 : hasPrefix ([34] ++ body ++ [34]) [34] = true := by simp [hasPrefix, List.isPrefixOf]
      have h2 : hasSuffix ([34] ++ body ++ [34]) [34] = true := by
        simp [hasSuffix, List.isSuffixOf, List.isPrefixOf]
      rw [h1, h2]
      simp
    have hb : QuotedText ([34] ++ body ++ [34]) ↔ noBareQuote 0 (runes body) = true := by
      rw [hq]
      constructor
      · rintro ⟨b, he, h⟩
        have he : body = b := (List.cons.inj (List.append_cancel_right he)).2
        rwa [he]
      · intro h; exact ⟨body, rfl, h⟩
    rw [hi, hb]
    cases noBareQuote 0 (runes body) <;> simp
  · have hn : ¬ QuotedText s := fun ⟨b, h, _⟩ => hf ⟨b, h⟩
    have hi : isStringLit s = some false := by
      unfold isStringLit
      split
      · rfl
      · rename_i h1
        exfalso
        simp only [Bool.or_eq_true, Bool.not_eq_true', not_or, Bool.not_eq_false] at h1
        obtain ⟨h1, h2⟩ := h1
        rw [hasPrefix, List.isPrefixOf_iff_prefix] at h1
        rw [hasSuffix, List.isSuffixOf_iff_suffix] at h2
        obtain ⟨t, rfl⟩ := h1
        obtain ⟨u, hu⟩ := h2
        cases u with
        | nil => exact h34 hu.symm
        | cons x u =>
          have := (List.cons.inj hu).1
          subst this
          exact hf ⟨u, by rw [← hu]; rfl⟩
    rw [hi]; simp [hn]

theorem htmlEscaped_eq (s : Str) : htmlEscape s = htmlEscaped s := by
  unfold htmlEscape htmlEscaped
  congr 1
  funext c
  simp only [htmlEscapeByte, htmlEntities, List.lookup]
  repeat' split
  all_goals simp_all

/-- The texts left alone for another reason than being HTML do not start with `<`. -/
theorem not_angle {U : Unicode} {s : Str} (h : WordText U s ∨ NumeralText U s ∨ QuotedText s) : ¬ StartsWithAngle s := by
  rintro ⟨bl, rest, hr, hbl⟩
  rcases h with ⟨⟨c, cs, hc, hl⟩, ha⟩ | ⟨sg, ds, h, hne, hd, ho⟩ | ⟨b, rfl, -⟩
  · cases bl with
    | nil =>
      rw [hc] at hr
      have := (List.cons.inj hr).1
      unfold LetterChar at hl; omega
    | cons x bl => exact (ha x (by rw [hr]; simp)).1 (hbl x (by simp))
  · rcases ho with rfl | ⟨o, rfl, -⟩
    · have := hd 60 (by rw [List.nil_append] at h; rw [← h, hr]; simp)
      unfold NumeralChar at this; omega
    · rw [h] at hr
      cases bl with
      | nil => exact absurd (List.cons.inj hr).1 (by decide)
      | cons x bl =>
        have := hbl x (by simp)
        rw [← (List.cons.inj hr).1] at this
        exact absurd this (by decide)
  · rw [List.append_assoc, List.singleton_append, runes_ascii (by omega)] at hr
    cases bl with
    | nil => exact absurd (List.cons.inj hr).1 (by decide)
    | cons x bl =>
      have := hbl x (by simp)
      rw [← (List.cons.inj hr).1] at this
      exact absurd this (by decide)

/-- C63. For every text, what escaping returns is what the specification says, and it returns nothing (panics) for the blank texts and
the text `"` only. -/
theorem C63_escape_text (U : Unicode) (s s' : Str) : esc U s = some s' ↔ EscapedText U s s' := by
  by_cases hs : s = []
  · subst hs
    have h1 : ¬ ∃ r ∈ runes [], r ∉ whiteSpace := by rintro ⟨r, hr, -⟩; cases hr
    simp only [esc, EscapedText, List.length_nil, if_true, Option.some.injEq, true_and]
    constructor
    · intro h; exact .inl h.symm
    · rintro (h | ⟨h, -⟩)
      · exact h.symm
      · exact absurd h h1
  · by_cases hbad : s = [34] ∨ (s ≠ [] ∧ (runes s).all isSpaceRune = true)
    · rw [(C29_esc_panics_iff U s).2 hbad]
      constructor
      · intro h; cases h
      · rintro (⟨h, -⟩ | ⟨⟨r, hr, hw⟩, h34, -⟩)
        · exact absurd h hs
        · rcases hbad with h | ⟨-, h⟩
          · exact absurd h h34
          · rw [List.all_eq_true] at h
            exact absurd ((mem_whiteSpace r).2 (h r hr)) hw
    · simp only [not_or, not_and] at hbad
      obtain ⟨h34, hb⟩ := hbad
      have hb := hb hs
      have hnb : ∃ r ∈ runes s, r ∉ whiteSpace := by
        apply Classical.byContradiction
        intro hn
        apply hb
        rw [List.all_eq_true]
        intro r hr
        apply Classical.byContradiction
        intro hw
        exact hn ⟨r, hr, fun h => hw ((mem_whiteSpace r).1 h)⟩
      have hlen : ¬ s.length = 0 := by simpa using hs
      have hh := isHTML_iff hnb
      have hsl := isStringLit_iff h34
      have hid := isID_iff U s
      have hnum := isNumber_iff U s
      have hang := trimSpace_angle s
      -- the specification under the standing assumptions
      have hspec : EscapedText U s s' ↔ ((LeftAlone U s ∧ s' = s) ∨
          (¬ LeftAlone U s ∧ StartsWithAngle s ∧ s' = [34] ++ quoteEscaped s ++ [34]) ∨
          (¬ LeftAlone U s ∧ ¬ StartsWithAngle s ∧ s' = [34] ++ htmlEscaped s ++ [34])) := by
        unfold EscapedText
        constructor
        · rintro (⟨h, -⟩ | ⟨-, -, h⟩)
          · exact absurd h hs
          · exact h
        · intro h; exact .inr ⟨hnb, h34, h⟩
      rw [hspec]
      unfold esc
      rw [if_neg hlen]
      have alone : LeftAlone U s → (some s = some s' ↔ ((LeftAlone U s ∧ s' = s) ∨
          (¬ LeftAlone U s ∧ StartsWithAngle s ∧ s' = [34] ++ quoteEscaped s ++ [34]) ∨
          (¬ LeftAlone U s ∧ ¬ StartsWithAngle s ∧ s' = [34] ++ htmlEscaped s ++ [34]))) := by
        intro h
        simp only [h, not_true, false_and, or_false, true_and, Option.some.injEq]
        exact eq_comm
      by_cases hH : HtmlText s
      · rw [hh.1.2 hH]; exact alone (.inl hH)
      · rw [hh.2.2 hH]
        dsimp only
        cases ht : trimSpace s with
        | nil => exact absurd ((trimSpace_eq_nil s).1 ht) hb
        | cons c cs =>
          dsimp only
          by_cases hc : c = 60
          · subst hc
            have hA : StartsWithAngle s := hang.1 ⟨cs, ht⟩
            have hL : ¬ LeftAlone U s := by
              rintro (h | h)
              · exact hH h
              · exact not_angle h hA
            rw [if_pos rfl]
            simp only [hL, hA, not_true, not_false_eq_true, false_and, false_or, or_false, true_and, Option.some.injEq]
            exact eq_comm
          · have hA : ¬ StartsWithAngle s := by
              intro h
              obtain ⟨cs', h'⟩ := hang.2 h
              rw [ht] at h'; exact hc (List.cons.inj h').1
            rw [if_neg hc]
            by_cases hW : WordText U s
            · rw [if_pos (hid.2 hW)]; exact alone (.inr (.inl hW))
            · rw [if_neg (fun h => hW (hid.1 h))]
              by_cases hN : NumeralText U s
              · rw [if_pos (hnum.2 hN)]; exact alone (.inr (.inr (.inl hN)))
              · rw [if_neg (fun h => hN (hnum.1 h))]
                by_cases hQ : QuotedText s
                · rw [hsl.1.2 hQ]; exact alone (.inr (.inr (.inr hQ)))
                · rw [hsl.2.2 hQ]
                  have hL : ¬ LeftAlone U s := by
                    rintro (h | h | h | h)
                    · exact hH h
                    · exact hW h
                    · exact hN h
                    · exact hQ h
                  simp only [hL, hA, not_false_eq_true, false_and, false_or, true_and, Option.some.injEq, htmlEscaped_eq]
                  exact eq_comm

/-- All four reasons to leave a text alone occur, and both ways to quote. -/
example : EscapedText noUni (b!"<b>x</b>") (b!"<b>x</b>") ∧ EscapedText noUni (b!"a_1") (b!"a_1") ∧ EscapedText noUni (b!"-1.5") (b!"-1.5") ∧
    EscapedText noUni (b!"\"a b\"") (b!"\"a b\"") ∧ EscapedText noUni (b!"<\"a") (b!"\"<\\\"a\"") ∧
    EscapedText noUni (b!"a-b & c") (b!"\"a-b &amp; c\"") := by
  simp only [← C63_escape_text]
  decide +kernel

/-- Observed: a text that begins with a minus sign and ends in a digit counts as a number, whatever stands between. -/
example : esc noUni (b!"-a b;9") = some (b!"-a b;9") := by decide +kernel

end Gographviz.Props
