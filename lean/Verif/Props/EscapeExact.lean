import Verif.Props.EscapeLex
/-!
Properties C30 and C55: exactly which texts are escaped to one identifier token.
-/
namespace Gographviz.Props

open Gographviz Spec Lex

/-- A text transformation that works byte by byte, keeps bytes ≥ 0x80 and writes for the others ASCII text or U+FFFD. -/
structure Transp (f : Nat → Str) : Prop where
  high : ∀ x, 128 ≤ x → f x = [x]
  low : ∀ x, x < 128 → (f x ≠ [] ∧ ∀ y ∈ f x, y < 128) ∨ f x = [0xEF, 0xBF, 0xBD]

theorem Transp.cont {f : Nat → Str} (hf : Transp f) {s : Str} {c : Nat} {t : Str} (h : s.flatMap f = c :: t) (hc : 128 ≤ c ∧ c ≤ 191) :
    ∃ s', s = c :: s' ∧ t = s'.flatMap f := by
  cases s with
  | nil => cases h
  | cons a s =>
    rw [List.flatMap_cons] at h
    by_cases ha : a < 128
    · rcases hf.low a ha with ⟨h0, h1⟩ | h1
      · cases hfa : f a with
        | nil => exact absurd hfa h0
        | cons y ys =>
          have := h1 y (by rw [hfa]; simp)
          rw [hfa] at h
          cases h; omega
      · rw [h1] at h
        cases h; omega
    · rw [hf.high a (by omega)] at h
      cases h
      exact ⟨s, rfl, rfl⟩

theorem decodeRune_transp {f : Nat → Str} (hf : Transp f) (b : Nat) (hb : 128 ≤ b) (s : Str)
    (h : (decodeRune (b :: s.flatMap f)).1 ≠ 0xFFFD) : decodeRune (b :: s) = decodeRune (b :: s.flatMap f) := by
  generalize ht : s.flatMap f = t at h
  generalize hd : decodeRune (b :: t) = d at h
  have base : (runeError, 1) = d → decodeRune (b :: s) = d := by rintro rfl; exact absurd rfl h
  simp only [decodeRune] at hd
  rw [if_neg (by omega)] at hd
  split at hd
  · rename_i h1
    split at hd
    · rename_i b1 _
      split at hd
      · rename_i h2
        have h2' := h2
        simp only [isCont, Bool.and_eq_true, decide_eq_true_eq] at h2'
        obtain ⟨s1, rfl, -⟩ := hf.cont ht (by omega)
        simp only [decodeRune]
        rw [if_neg (by omega), if_pos h1, if_pos h2, hd]
      · exact base hd
    · exact base hd
  · rename_i h1
    split at hd
    · rename_i h1'
      split at hd
      · rename_i b1 b2 _
        generalize hlo : (if b = 0xE0 then 0xA0 else 0x80) = lo at hd
        generalize hhi : (if b = 0xED then 0x9F else 0xBF) = hi at hd
        split at hd
        · rename_i h2
          have h2' := h2
          simp only [isCont, Bool.and_eq_true, decide_eq_true_eq] at h2'
          have hb1 : 128 ≤ b1 ∧ b1 ≤ 191 := by
            refine ⟨Nat.le_trans ?_ h2'.1.1, Nat.le_trans h2'.1.2 ?_⟩
            · rw [← hlo]; split <;> omega
            · rw [← hhi]; split <;> omega
          obtain ⟨s1, rfl, ht1⟩ := hf.cont ht hb1
          obtain ⟨s2, rfl, -⟩ := hf.cont ht1.symm (by omega)
          simp only [decodeRune]
          rw [if_neg (by omega), if_neg h1, if_pos h1', hlo, hhi, if_pos h2, hd]
        · exact base hd
      · exact base hd
    · rename_i h1'
      split at hd
      · rename_i h1''
        split at hd
        · rename_i b1 b2 b3 _
          generalize hlo : (if b = 0xF0 then 0x90 else 0x80) = lo at hd
          generalize hhi : (if b = 0xF4 then 0x8F else 0xBF) = hi at hd
          split at hd
          · rename_i h2
            have h2' := h2
            simp only [isCont, Bool.and_eq_true, decide_eq_true_eq] at h2'
            have hb1 : 128 ≤ b1 ∧ b1 ≤ 191 := by
              refine ⟨Nat.le_trans ?_ h2'.1.1.1, Nat.le_trans h2'.1.1.2 ?_⟩
              · rw [← hlo]; split <;> omega
              · rw [← hhi]; split <;> omega
            obtain ⟨s1, rfl, ht1⟩ := hf.cont ht hb1
            obtain ⟨s2, rfl, ht2⟩ := hf.cont ht1.symm (by omega)
            obtain ⟨s3, rfl, -⟩ := hf.cont ht2.symm (by omega)
            simp only [decodeRune]
            rw [if_neg (by omega), if_neg h1, if_neg h1', if_pos h1'', hlo, hhi, if_pos h2, hd]
          · exact base hd
        · exact base hd
      · exact base hd

theorem runes_ascii_append {l : Str} (hl : ∀ x ∈ l, x < 128) (s : Str) : runes (l ++ s) = l ++ runes s := by
  induction l with
  | nil => rfl
  | cons a l ih => rw [List.cons_append, runes_ascii (hl a (by simp)), ih fun x hx => hl x (by simp [hx])]; rfl

/-- If the transformed text is valid UTF-8 (without U+FFFD), so is the text itself, and no byte was replaced by U+FFFD. -/
theorem valid_of_transp {f : Nat → Str} (hf : Transp f) (s : Str) (h : 0xFFFD ∉ runes (s.flatMap f)) :
    0xFFFD ∉ runes s ∧ ∀ x ∈ s, f x ≠ [0xEF, 0xBF, 0xBD] := by
  generalize hn : s.length = n
  induction n using Nat.strongRecOn generalizing s with
  | _ n ih =>
    cases s with
    | nil => simp
    | cons b s =>
      by_cases hb : b < 128
      · rw [List.flatMap_cons] at h
        rcases hf.low b hb with ⟨h0, h1⟩ | h1
        · rw [runes_ascii_append h1] at h
          have := ih s.length (by simp at hn; omega) s (fun hm => h (List.mem_append_right _ hm)) rfl
          rw [runes_ascii hb]
          refine ⟨fun hm => ?_, fun x hx => ?_⟩
          · rcases List.mem_cons.1 hm with h' | h'
            · omega
            · exact this.1 h'
          · rcases List.mem_cons.1 hx with h' | h'
            · rw [h']; intro hfb
              have := h1 0xEF (by rw [hfb]; simp)
              omega
            · exact this.2 x h'
        · rw [h1] at h
          refine absurd ?_ h
          rw [List.cons_append, runes_cons]
          exact List.mem_cons_self
      · have hb' : 128 ≤ b := by omega
        have he : (b :: s).flatMap f = b :: s.flatMap f := by rw [List.flatMap_cons, hf.high b hb']; rfl
        rw [he] at h
        have hr : (decodeRune (b :: s.flatMap f)).1 ≠ 0xFFFD := by
          intro h0; apply h; rw [runes_cons, h0]; exact List.mem_cons_self
        have hd := decodeRune_transp hf b hb' s hr
        have hhigh := (decodeRune_high hb' s).2.2.2
        have hw := decodeRune_high hb' s
        have hsplit := List.take_append_drop (decodeRune (b :: s)).2 (b :: s)
        have hrun : runes (b :: s) = (decodeRune (b :: s)).1 :: runes ((b :: s).drop (decodeRune (b :: s)).2) := runes_cons b s
        have hrunT : runes (b :: s.flatMap f) = (decodeRune (b :: s)).1 :: runes (((b :: s).drop (decodeRune (b :: s)).2).flatMap f) := by
          rw [runes_cons, ← hd]
          refine congrArg (fun z => (decodeRune (b :: s)).1 :: runes z) ?_
          rw [← he]
          conv => lhs; rw [← hsplit]
          rw [List.flatMap_append, flatMap_high hf.high hhigh]
          have hlen : ((b :: s).take (decodeRune (b :: s)).2).length = (decodeRune (b :: s)).2 := by
            rw [List.length_take]; omega
          rw [hsplit]
          conv => lhs; arg 1; rw [← hlen]
          rw [List.drop_left]
        rw [hrunT] at h
        have := ih _ (by simp only [List.length_drop]; simp only [List.length_cons] at hn ⊢; omega) _
          (fun hm => h (List.mem_cons_of_mem _ hm)) rfl
        rw [hrun]
        refine ⟨fun hm => ?_, fun x hx => ?_⟩
        · rcases List.mem_cons.1 hm with h' | h'
          · exact hr (by rw [← hd]; exact h'.symm)
          · exact this.1 h'
        · rw [← hsplit] at hx
          rcases List.mem_append.1 hx with h' | h'
          · rw [hf.high x (hhigh x h')]; simp
          · exact this.2 x h'

theorem transp_html : Transp htmlEscapeByte where
  high x hx := by
    unfold htmlEscapeByte
    rw [if_neg (by omega), if_neg (by omega), if_neg (by omega), if_neg (by omega), if_neg (by omega), if_neg (by omega)]
  low x hx := by
    unfold htmlEscapeByte
    split
    · exact .inr rfl
    · left
      repeat' split
      all_goals first | decide | exact ⟨by simp, by simpa using hx⟩

theorem transp_quotes : Transp (fun c => if c = 34 then [92, 34] else [c]) where
  high x hx := by rw [if_neg (by omega)]
  low x hx := by
    left
    split
    · decide
    · exact ⟨by simp, by simpa using hx⟩

/-- The automaton of quoted strings: `q` means that a backslash is pending. -/
def strOk : Bool → List Nat → Bool
  | q, [] => !q
  | false, r :: b => if r = 92 then strOk true b else decide (strChar r) && strOk false b
  | true, r :: b => decide (strChar r ∨ r = 34 ∨ r = 92) && strOk false b

theorem strBody_ok {b : List Nat} (h : StrBody b) : strOk false b = true := by
  induction h with
  | nil => rfl
  | @char r b hr _ ih =>
    have : r ≠ 92 := hr.2.2.2.1
    simp [strOk, this, hr, ih]
  | @esc r b hr _ ih => simp only [strOk, if_true]; simp [ih, hr]

theorem ok_strBody (b : List Nat) : (strOk false b = true → StrBody b) ∧ (strOk true b = true → StrBody (92 :: b)) := by
  induction b with
  | nil => exact ⟨fun _ => .nil, fun h => by simp [strOk] at h⟩
  | cons r b ih =>
    refine ⟨fun h => ?_, fun h => ?_⟩
    · simp only [strOk] at h
      split at h
      · rename_i hr; subst hr; exact ih.2 h
      · rw [Bool.and_eq_true, decide_eq_true_eq] at h
        exact .char h.1 (ih.1 h.2)
    · simp only [strOk] at h
      rw [Bool.and_eq_true, decide_eq_true_eq] at h
      exact .esc h.1 (ih.1 h.2)

theorem strBody_iff (b : List Nat) : StrBody b ↔ strOk false b = true := ⟨strBody_ok, (ok_strBody b).1⟩

theorem strBody_chars {b : List Nat} (h : StrBody b) : 0 ∉ b ∧ 0xFFFD ∉ b := by
  induction h with
  | nil => simp
  | @char r b hr _ ih =>
    have h1 := hr.1; have h2 := hr.2.2.2.2
    simp only [List.mem_cons, not_or]
    exact ⟨⟨by omega, ih.1⟩, ⟨by omega, ih.2⟩⟩
  | @esc r b hr _ ih =>
    have h1 : 1 ≤ r ∧ r ≠ 0xFFFD := by
      rcases hr with h | h | h
      · exact ⟨h.1, h.2.2.2.2⟩
      · omega
      · omega
    simp only [List.mem_cons, not_or]
    exact ⟨⟨by omega, by omega, ih.1⟩, ⟨by omega, by omega, ih.2⟩⟩

theorem strOk_char {q : Bool} {r : Nat} {b : List Nat} (h : strChar r) : strOk q (r :: b) = strOk false b := by
  have : r ≠ 92 := h.2.2.2.1
  cases q <;> simp [strOk, this, h]

theorem strOk_chars {q : Bool} {l b : List Nat} (h0 : l ≠ []) (h : ∀ x ∈ l, strChar x) : strOk q (l ++ b) = strOk false b := by
  induction l generalizing q with
  | nil => exact absurd rfl h0
  | cons a l ih =>
    rw [List.cons_append, strOk_char (h a (by simp))]
    cases l with
    | nil => rfl
    | cons a' l' => exact ih (by simp) fun x hx => h x (by simp [hx])

theorem endBackslashes_snoc (x : Str) (c : Nat) : endBackslashes (x ++ [c]) = if c = 92 then endBackslashes x + 1 else 0 := by
  unfold endBackslashes
  rw [List.reverse_append]
  simp only [List.reverse_cons, List.reverse_nil, List.nil_append, List.cons_append, List.takeWhile_cons]
  by_cases h : c = 92 <;> simp [h]

/-- Only the text after the last byte that is no backslash counts. -/
theorem endBackslashes_after (x : Str) {c : Nat} (hc : c ≠ 92) (y : Str) : endBackslashes (x ++ c :: y) = endBackslashes y := by
  unfold endBackslashes
  rw [List.reverse_append, List.reverse_cons, List.append_assoc, List.takeWhile_append]
  split
  · rename_i h; simp [hc, h]
  · rfl

theorem endBackslashes_pair (y : Str) : endBackslashes (92 :: 92 :: y) % 2 = endBackslashes y % 2 := by
  unfold endBackslashes
  rw [List.reverse_cons, List.reverse_cons, List.append_assoc, List.takeWhile_append]
  split
  · rename_i h; simp [h]
  · rfl

/-- A pending backslash. -/
def pend (q : Bool) : Str := if q then [92] else []

theorem endBackslashes_pend_cons (q : Bool) (b : Nat) (s : Str) :
    endBackslashes (pend q ++ b :: s) % 2 = endBackslashes (pend (if b = 92 then !q else false) ++ s) % 2 := by
  by_cases h : b = 92
  · subst h
    cases q
    · rfl
    · exact endBackslashes_pair s
  · rw [if_neg h, endBackslashes_after _ h]; rfl

theorem high_pend (q : Bool) {l : Str} (hl : ∀ x ∈ l, 128 ≤ x) (h0 : l ≠ []) (s : Str) : endBackslashes (pend q ++ (l ++ s)) = endBackslashes s := by
  rcases List.eq_nil_or_concat l with h | ⟨l', c, h⟩
  · exact absurd h h0
  · rw [h]
    have hc : c ≠ 92 := by have := hl c (by rw [h]; simp); omega
    rw [List.concat_eq_append, List.append_assoc, ← List.append_assoc, List.singleton_append, endBackslashes_after _ hc]

theorem nonempty_of_runes {l : Str} {r : Nat} (h : ∀ y, runes (l ++ y) = r :: runes y) : l ≠ [] := by
  intro h0; have := h []; rw [h0] at this; simp at this

theorem strOk_htmlEscape (s : Str) (hv : 0xFFFD ∉ runes s) :
    0 ∉ s → ∀ q, (strOk q (runes (htmlEscape s)) = true ↔ endBackslashes (pend q ++ s) % 2 = 0) := by
  refine valid_induct (P := fun s => 0 ∉ s → ∀ q, (strOk q (runes (htmlEscape s)) = true ↔ endBackslashes (pend q ++ s) % 2 = 0))
    ?_ ?_ ?_ s hv
  · intro _ q; cases q <;> decide
  · intro b s hb ih h0 q
    have ih := ih fun h => h0 (List.mem_cons_of_mem _ h)
    have hb0 : b ≠ 0 := fun h => h0 (by simp [h])
    rw [endBackslashes_pend_cons]
    have e : htmlEscape (b :: s) = htmlEscapeByte b ++ htmlEscape s := rfl
    rw [e]
    by_cases h92 : b = 92
    · subst h92
      have e : htmlEscapeByte 92 = [92] := rfl
      rw [if_pos rfl, ← ih, e, List.singleton_append, runes_ascii (by omega)]
      cases q
      · simp [strOk]
      · simp [strOk]
    · rw [if_neg h92, ← ih false]
      have h1 : htmlEscapeByte b ≠ [] ∧ ∀ x ∈ htmlEscapeByte b, x < 128 ∧ strChar x := by
        unfold htmlEscapeByte
        rw [if_neg hb0]
        repeat' split
        all_goals first | decide | skip
        refine ⟨by simp, fun x hx => ?_⟩
        rw [List.mem_singleton.1 hx]
        exact ⟨hb, by omega, by omega, by omega, by omega, by omega⟩
      rw [runes_ascii_append fun x hx => (h1.2 x hx).1, strOk_chars h1.1 fun x hx => (h1.2 x hx).2]
  · intro l s r hl hr hr1 hr2 hru ih h0 q
    have e : htmlEscape (l ++ s) = l ++ htmlEscape s := by
      unfold htmlEscape; rw [List.flatMap_append, flatMap_high transp_html.high hl]
    rw [e, hru, strOk_char (strChar_high hr hr1 hr2), high_pend q hl (nonempty_of_runes hru), ih fun h => h0 (List.mem_append_right _ h)]
    rfl

/-- No backslash run of odd length before a quote or at the end. -/
def QuotesSafe (q : Bool) (s : Str) : Prop :=
  endBackslashes (pend q ++ s) % 2 = 0 ∧ ∀ pre post, s = pre ++ 34 :: post → endBackslashes (pend q ++ pre) % 2 = 0

theorem quotesSafe_cons (q : Bool) (b : Nat) (s : Str) :
    QuotesSafe q (b :: s) ↔ (b = 34 → q = false) ∧ QuotesSafe (if b = 92 then !q else false) s := by
  unfold QuotesSafe
  rw [endBackslashes_pend_cons]
  constructor
  · rintro ⟨h1, h2⟩
    refine ⟨fun hb => ?_, h1, fun pre post e => ?_⟩
    · have := h2 [] s (by rw [hb]; rfl)
      cases q
      · rfl
      · exact absurd this (by decide)
    · have := h2 (b :: pre) post (by rw [e]; rfl)
      rwa [endBackslashes_pend_cons] at this
  · rintro ⟨h0, h1, h2⟩
    refine ⟨h1, fun pre post e => ?_⟩
    cases pre with
    | nil =>
      cases e
      rw [h0 rfl]; decide
    | cons a pre =>
      cases e
      rw [endBackslashes_pend_cons]
      exact h2 pre post rfl

theorem quotesSafe_high (q : Bool) {l : Str} (hl : ∀ x ∈ l, 128 ≤ x) (h0 : l ≠ []) (s : Str) : QuotesSafe q (l ++ s) ↔ QuotesSafe false s := by
  induction l generalizing q with
  | nil => exact absurd rfl h0
  | cons a l ih =>
    have ha := hl a (by simp)
    rw [List.cons_append, quotesSafe_cons, if_neg (by omega)]
    cases l with
    | nil => simp only [List.nil_append]; exact ⟨fun h => h.2, fun h => ⟨fun _ => by omega, h⟩⟩
    | cons a' l' =>
      rw [ih false (fun x hx => hl x (by simp [hx])) (by simp)]
      exact ⟨fun h => h.2, fun h => ⟨fun _ => by omega, h⟩⟩

theorem strOk_escapeQuotes (s : Str) (hv : 0xFFFD ∉ runes s) :
    0 ∉ s → ∀ q, (strOk q (runes (escapeQuotes s)) = true ↔ QuotesSafe q s) := by
  refine valid_induct (P := fun s => 0 ∉ s → ∀ q, (strOk q (runes (escapeQuotes s)) = true ↔ QuotesSafe q s)) ?_ ?_ ?_ s hv
  · intro _ q
    unfold QuotesSafe
    cases q
    · exact ⟨fun _ => ⟨by decide, fun pre post h => by simp at h⟩, fun _ => rfl⟩
    · exact ⟨fun h => by simp [strOk, escapeQuotes] at h, fun h => absurd h.1 (by decide)⟩
  · intro b s hb ih h0 q
    have ih := ih fun h => h0 (List.mem_cons_of_mem _ h)
    have hb0 : b ≠ 0 := fun h => h0 (by simp [h])
    rw [quotesSafe_cons]
    have e : escapeQuotes (b :: s) = (if b = 34 then [92, 34] else [b]) ++ escapeQuotes s := rfl
    rw [e]
    by_cases h34 : b = 34
    · subst h34
      rw [if_pos rfl, if_neg (by omega), ← ih]
      simp only [List.cons_append, List.nil_append]
      rw [runes_ascii (by omega), runes_ascii (by omega)]
      have hn : ¬ strChar 34 := by decide
      cases q
      · simp [strOk]
      · simp [strOk, hn]
    · rw [if_neg h34, ← ih, List.singleton_append, runes_ascii hb]
      by_cases h92 : b = 92
      · subst h92
        rw [if_pos rfl]
        cases q
        · simp [strOk]
        · simp [strOk]
      · rw [if_neg h92, strOk_char ⟨by omega, by omega, h34, h92, by omega⟩]
        simp [h34]
  · intro l s r hl hr hr1 hr2 hru ih h0 q
    have e : escapeQuotes (l ++ s) = l ++ escapeQuotes s := by
      unfold escapeQuotes; rw [List.flatMap_append, flatMap_high transp_quotes.high hl]
    rw [e, hru, strOk_char (strChar_high hr hr1 hr2), quotesSafe_high q hl (nonempty_of_runes hru), ih fun h => h0 (List.mem_append_right _ h)]

theorem idLexeme_quoted (x : Str) : IdLexeme (runes ([34] ++ x ++ [34])) ↔ StrBody (runes x) := by
  have e : [34] ++ x ++ [34] = 34 :: (x ++ [34]) := by simp
  rw [e, runes_ascii (by omega), runes_snoc_ascii _ (by omega)]
  constructor
  · rintro (⟨⟨c, cs, h, hc, -⟩, -⟩ | ⟨m, ds, fs, hm, hds, hfs, h⟩ | ⟨b, hb, h⟩ | ⟨b, hb, h⟩)
    · cases h; exact absurd hc (by decide)
    · exfalso
      have hdig : ∀ {a : Nat} {l : List Nat}, (∀ x ∈ a :: l, digit x) → a ≠ 34 := by
        intro a l h0 h1; have := h0 a (by simp); unfold digit at this; omega
      rcases hm with rfl | rfl
      · rcases h with ⟨_, h⟩ | ⟨h0, h⟩ | ⟨h0, h⟩
        · cases h
        · cases ds with
          | nil => exact h0 rfl
          | cons a ds => exact hdig hds (List.cons.inj h).1.symm
        · cases ds with
          | nil => exact h0 rfl
          | cons a ds => exact hdig hds (List.cons.inj h).1.symm
      · rcases h with ⟨_, h⟩ | ⟨h0, h⟩ | ⟨h0, h⟩ <;> exact absurd (List.cons.inj h).1 (by decide)
    · have h := (List.cons.inj h).2
      rw [List.append_cancel_right h]; exact hb
    · cases h
  · intro h; exact .inr (.inr (.inl ⟨_, h, rfl⟩))

/-- C30/C55: for every text that `Escape` accepts, the escaped form is one identifier token exactly if either escaping left the text
alone and it is an identifier of dot.bnf, or escaping quoted it and the text has no NUL, is valid UTF-8 (without U+FFFD), does not end
in an odd number of backslashes and, if its first character other than white space is `<`, has no quote after an odd number of backslashes. -/
theorem C55_exactly (U : Unicode) {s s' : Str} (h : esc U s = some s') :
    LexesAsID s' ↔
      (s' = s ∧ IdLexeme (runes s)) ∨
      (s' ≠ s ∧ 0 ∉ s ∧ 0xFFFD ∉ runes s ∧ endBackslashes s % 2 = 0 ∧
        ((∃ cs, trimSpace s = 60 :: cs) → ∀ pre post, s = pre ++ 34 :: post → endBackslashes pre % 2 = 0)) := by
  rw [lexesAsID_iff]
  rcases esc_cases h with rfl | ⟨rfl, ht⟩ | ⟨rfl, ht⟩
  · simp
  · have hne : [34] ++ escapeQuotes s ++ [34] ≠ s := by
      intro h0
      have := length_escapeQuotes s
      have := congrArg List.length h0
      simp at this; omega
    rw [idLexeme_quoted]
    constructor
    · intro hb
      have hc := strBody_chars hb
      have hv := (valid_of_transp transp_quotes s hc.2).1
      have h0 : 0 ∉ s := by
        intro hm
        apply hc.1
        rw [mem_runes (by omega)]
        exact List.mem_flatMap.2 ⟨0, hm, by simp⟩
      have := (strOk_escapeQuotes s hv h0 false).1 ((strBody_iff _).1 hb)
      exact .inr ⟨hne, h0, hv, this.1, fun _ => this.2⟩
    · rintro (⟨h1, _⟩ | ⟨_, h0, hv, h1, h2⟩)
      · exact absurd h1 hne
      · exact (strBody_iff _).2 ((strOk_escapeQuotes s hv h0 false).2 ⟨h1, h2 ht⟩)
  · have hne : [34] ++ htmlEscape s ++ [34] ≠ s := by
      intro h0
      have := length_htmlEscape s
      have := congrArg List.length h0
      simp at this; omega
    rw [idLexeme_quoted]
    constructor
    · intro hb
      have hc := strBody_chars hb
      have hv := valid_of_transp transp_html s hc.2
      have h0 : 0 ∉ s := fun hm => hv.2 0 hm rfl
      have := (strOk_htmlEscape s hv.1 h0 false).1 ((strBody_iff _).1 hb)
      exact .inr ⟨hne, h0, hv.1, this, fun ⟨cs, h⟩ => absurd h (ht cs)⟩
    · rintro (⟨h1, _⟩ | ⟨_, h0, hv, h1, _⟩)
      · exact absurd h1 hne
      · exact (strBody_iff _).2 ((strOk_htmlEscape s hv h0 false).2 h1)

/-- Backslashes that are themselves escaped do no harm: the conditions hold for the text `a\\\\ "b"`. -/
example : esc noUni (b!"a\\\\ \"b\"") = some (b!"\"a\\\\ &#34;b&#34;\"") ∧ endBackslashes (b!"a\\\\ \"b\"") % 2 = 0 ∧
    LexesAsID (b!"\"a\\\\ &#34;b&#34;\"") := by
  have h : esc noUni (b!"a\\\\ \"b\"") = some (b!"\"a\\\\ &#34;b&#34;\"") := by decide +kernel
  refine ⟨h, by decide +kernel, (C55_exactly noUni h).2 (.inr ⟨by decide, by decide, by decide +kernel, by decide, ?_⟩)⟩
  rintro ⟨cs, hc⟩
  have h1 : (trimSpace (b!"a\\\\ \"b\"")).head? = some 97 := by decide +kernel
  rw [hc] at h1; cases h1

/-- The condition on quotes is needed: the text `<\"` is quoted, has no NUL, is valid and does not end in a backslash, but is no identifier. -/
example : esc noUni (b!"<\\\"") = some (b!"\"<\\\\\"\"") ∧ ¬ LexesAsID (b!"\"<\\\\\"\"") := by
  have h : esc noUni (b!"<\\\"") = some (b!"\"<\\\\\"\"") := by decide +kernel
  refine ⟨h, fun hl => ?_⟩
  rcases (C55_exactly noUni h).1 hl with ⟨h1, _⟩ | ⟨_, _, _, _, h2⟩
  · exact absurd h1 (by decide)
  · exact absurd (h2 ⟨_, rfl⟩ (b!"<\\") [] rfl) (by decide)

end Gographviz.Props
