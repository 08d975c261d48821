import Verif.Props.EscapeProps
import Verif.Props.LexProps
/-!
Property C30: escaped strings and the scanner.
-/
namespace Gographviz.Props

open Gographviz Spec Lex

theorem decodeRune_le (s : Str) : (decodeRune s).1 ≤ 0x10FFFF := by
  cases s with
  | nil => decide
  | cons b s =>
    generalize hd : decodeRune (b :: s) = d
    have base : (runeError, 1) = d → d.1 ≤ 0x10FFFF := by rintro rfl; decide
    simp only [decodeRune] at hd
    split at hd
    · subst hd; simp only; omega
    split at hd
    · rename_i h1; simp only [Bool.and_eq_true, decide_eq_true_eq] at h1
      split at hd
      · rename_i b1 _
        split at hd
        · rename_i h2; simp only [isCont, Bool.and_eq_true, decide_eq_true_eq] at h2
          subst hd; simp only; omega
        · exact base hd
      · exact base hd
    · split at hd
      · rename_i h1; simp only [Bool.and_eq_true, decide_eq_true_eq] at h1
        split at hd
        · rename_i b1 b2 _
          generalize hlo : (if b = 0xE0 then 0xA0 else 0x80) = lo at hd
          generalize hhi : (if b = 0xED then 0x9F else 0xBF) = hi at hd
          split at hd
          · rename_i h2; simp only [isCont, Bool.and_eq_true, decide_eq_true_eq] at h2
            have hhi' : hi ≤ 0xBF := by split at hhi <;> omega
            subst hd; simp only; omega
          · exact base hd
        · exact base hd
      · split at hd
        · rename_i h1; simp only [Bool.and_eq_true, decide_eq_true_eq] at h1
          split at hd
          · rename_i b1 b2 b3 _
            generalize hlo : (if b = 0xF0 then 0x90 else 0x80) = lo at hd
            generalize hhi : (if b = 0xF4 then 0x8F else 0xBF) = hi at hd
            split at hd
            · rename_i h2; simp only [isCont, Bool.and_eq_true, decide_eq_true_eq] at h2
              have hhi' : hi ≤ 0xBF ∧ (b = 0xF4 → hi = 0x8F) := by split at hhi <;> omega
              subst hd; simp only; omega
            · exact base hd
          · exact base hd
        · exact base hd

/-- Induction along the characters of valid text. -/
theorem valid_induct {P : Str → Prop} (nil : P []) (ascii : ∀ b s, b < 128 → P s → P (b :: s))
    (high : ∀ (l s : Str) (r : Nat), (∀ x ∈ l, 128 ≤ x) → 128 ≤ r → r ≤ 0x10FFFF → r ≠ 0xFFFD →
      (∀ y, runes (l ++ y) = r :: runes y) → P s → P (l ++ s)) :
    ∀ s, 0xFFFD ∉ runes s → P s := by
  intro s
  generalize hn : s.length = n
  induction n using Nat.strongRecOn generalizing s with
  | _ n ih =>
    intro hv
    cases s with
    | nil => exact nil
    | cons b s =>
      by_cases hb : b < 128
      · rw [runes_ascii hb] at hv
        exact ascii b s hb (ih s.length (by simp at hn; omega) s rfl fun h => hv (List.mem_cons_of_mem _ h))
      · have h := decodeRune_high (by omega : 128 ≤ b) s
        have hne : b :: s ≠ [] := by simp
        have he := List.take_append_drop (decodeRune (b :: s)).2 (b :: s)
        rw [runes_step hne] at hv
        have hr : (decodeRune (b :: s)).1 ≠ 0xFFFD := fun h => hv (by rw [h]; simp)
        have hrt := runes_take hne
        have hw := width_pos hne
        have := high ((b :: s).take (decodeRune (b :: s)).2) ((b :: s).drop (decodeRune (b :: s)).2) (decodeRune (b :: s)).1
          h.2.2.2 h.1 (decodeRune_le _) hr
          (fun y => by
            rw [(cut_valid _ y (by rw [hrt]; simpa using hr.symm)).runes, hrt]; rfl)
          (ih _ (by simp only [List.length_drop]; simp only [List.length_cons] at hn ⊢; omega) _ rfl
            fun h => hv (List.mem_cons_of_mem _ h))
        rwa [he] at this

/-- Text without NUL, without backslash, and valid UTF-8 (without U+FFFD). -/
def Clean (s : Str) : Prop := 0 ∉ s ∧ 92 ∉ s ∧ 0xFFFD ∉ runes s

theorem strChar_high {r : Nat} (h : 128 ≤ r) (h1 : r ≤ 0x10FFFF) (h2 : r ≠ 0xFFFD) : strChar r :=
  ⟨by omega, h1, by omega, by omega, h2⟩

theorem flatMap_high {f : Nat → Str} (hf : ∀ x, 128 ≤ x → f x = [x]) {l : Str} (hl : ∀ x ∈ l, 128 ≤ x) : l.flatMap f = l := by
  induction l with
  | nil => rfl
  | cons a l ih => rw [List.flatMap_cons, hf a (hl a (by simp)), ih fun x hx => hl x (by simp [hx])]; rfl

theorem strBody_escapeQuotes (s : Str) (h : Clean s) : StrBody (runes (escapeQuotes s)) := by
  obtain ⟨h0, h92, hv⟩ := h
  revert h0 h92
  refine valid_induct (P := fun s => 0 ∉ s → 92 ∉ s → StrBody (runes (escapeQuotes s))) ?_ ?_ ?_ s hv
  · intros; exact .nil
  · intro b s hb ih h0 h92
    have ih := ih (fun h => h0 (List.mem_cons_of_mem _ h)) (fun h => h92 (List.mem_cons_of_mem _ h))
    have e : escapeQuotes (b :: s) = (if b = 34 then [92, 34] else [b]) ++ escapeQuotes s := rfl
    rw [e]
    by_cases h34 : b = 34
    · rw [if_pos h34]
      simp only [List.cons_append, List.nil_append]
      rw [runes_ascii (by omega), runes_ascii (by omega)]
      exact .esc (.inr (.inl rfl)) ih
    · rw [if_neg h34]
      simp only [List.cons_append, List.nil_append]
      rw [runes_ascii hb]
      refine .char ⟨?_, by omega, h34, ?_, by omega⟩ ih
      · have : b ≠ 0 := fun h => h0 (by simp [h])
        omega
      · exact fun h => h92 (by simp [h])
  · intro l s r hl hr hr1 hr2 hru ih h0 h92
    have e : escapeQuotes (l ++ s) = l ++ escapeQuotes s := by
      unfold escapeQuotes
      rw [List.flatMap_append, flatMap_high (fun x hx => by rw [if_neg (by omega)]) hl]
    rw [e, hru]
    exact .char (strChar_high hr hr1 hr2) (ih (fun h => h0 (List.mem_append_right _ h)) (fun h => h92 (List.mem_append_right _ h)))

theorem strBody_ascii_append {l : Str} (hl : ∀ x ∈ l, x < 128 ∧ strChar x) {s : Str} (h : StrBody (runes s)) :
    StrBody (runes (l ++ s)) := by
  induction l with
  | nil => exact h
  | cons a l ih =>
    rw [List.cons_append, runes_ascii (hl a (by simp)).1]
    exact .char (hl a (by simp)).2 (ih fun x hx => hl x (by simp [hx]))

theorem strBody_htmlEscape (s : Str) (h : Clean s) : StrBody (runes (htmlEscape s)) := by
  obtain ⟨h0, h92, hv⟩ := h
  revert h0 h92
  refine valid_induct (P := fun s => 0 ∉ s → 92 ∉ s → StrBody (runes (htmlEscape s))) ?_ ?_ ?_ s hv
  · intros; exact .nil
  · intro b s hb ih h0 h92
    have ih := ih (fun h => h0 (List.mem_cons_of_mem _ h)) (fun h => h92 (List.mem_cons_of_mem _ h))
    have e : htmlEscape (b :: s) = htmlEscapeByte b ++ htmlEscape s := rfl
    rw [e]
    refine strBody_ascii_append ?_ ih
    have hb0 : b ≠ 0 := fun h => h0 (by simp [h])
    have hb92 : b ≠ 92 := fun h => h92 (by simp [h])
    unfold htmlEscapeByte
    rw [if_neg hb0]
    split
    · decide
    · split
      · decide
      · split
        · decide
        · split
          · decide
          · split
            · decide
            · intro x hx
              rw [List.mem_singleton.1 hx]
              refine ⟨hb, by omega, by omega, by omega, by omega, by omega⟩
  · intro l s r hl hr hr1 hr2 hru ih h0 h92
    have e : htmlEscape (l ++ s) = l ++ htmlEscape s := by
      unfold htmlEscape
      rw [List.flatMap_append, flatMap_high (fun x hx => by
        unfold htmlEscapeByte
        rw [if_neg (by omega), if_neg (by omega), if_neg (by omega), if_neg (by omega), if_neg (by omega), if_neg (by omega)]) hl]
    rw [e, hru]
    exact .char (strChar_high hr hr1 hr2) (ih (fun h => h0 (List.mem_append_right _ h)) (fun h => h92 (List.mem_append_right _ h)))

/-- The text is scanned as exactly one identifier token. -/
def LexesAsID (x : Str) : Prop := ∃ a b, tokens x = some [a, b] ∧ a.typ = 18 ∧ a.lit = x ∧ b.typ = 1

theorem lexesAsID_iff (x : Str) : LexesAsID x ↔ IdLexeme (runes x) := by
  unfold LexesAsID
  rw [C48_classes_partial x 18 (by decide) (by decide)]
  have h1 : ∀ e ∈ keywords, e.2 ≠ 18 := by decide
  have h2 : ∀ e ∈ puncts, e.2 ≠ 18 := by decide
  constructor
  · rintro (h | h | ⟨_, h⟩)
    · exact absurd rfl (h1 _ h)
    · exact absurd rfl (h2 _ h)
    · exact h
  · intro h; exact .inr (.inr ⟨rfl, h⟩)

theorem length_escapeQuotes (s : Str) : s.length ≤ (escapeQuotes s).length := by
  induction s with
  | nil => simp
  | cons a s ih =>
    have e : escapeQuotes (a :: s) = (if a = 34 then [92, 34] else [a]) ++ escapeQuotes s := rfl
    rw [e, List.length_append, List.length_cons]
    have : 1 ≤ (if a = 34 then [92, 34] else [a]).length := by split <;> simp
    omega

theorem length_htmlEscape (s : Str) : s.length ≤ (htmlEscape s).length := by
  induction s with
  | nil => simp
  | cons a s ih =>
    have e : htmlEscape (a :: s) = htmlEscapeByte a ++ htmlEscape s := rfl
    have hne := htmlEscapeByte_ne_nil a
    have : (htmlEscapeByte a).length ≠ 0 := by simpa using hne
    rw [e, List.length_append, List.length_cons]; omega

/-- C30, part: for text without NUL, backslash and invalid UTF-8, the escaped form is one identifier token exactly if escaping has quoted the
text or the text is itself an identifier of dot.bnf. -/
theorem C30_partial (U : Unicode) {s s' : Str} (h : esc U s = some s') (hc : Clean s) :
    LexesAsID s' ↔ (s' ≠ s ∨ IdLexeme (runes s)) := by
  rw [lexesAsID_iff]
  rcases esc_cases h with rfl | ⟨rfl, _⟩ | ⟨rfl, _⟩
  · simp
  · refine ⟨fun _ => .inl ?_, fun _ => .inr (.inr (.inl ⟨_, strBody_escapeQuotes s hc, ?_⟩))⟩
    · intro h0
      have := length_escapeQuotes s
      have := congrArg List.length h0
      simp at this; omega
    · have e : [34] ++ escapeQuotes s ++ [34] = 34 :: (escapeQuotes s ++ [34]) := by simp
      rw [e, runes_ascii (by omega), runes_snoc_ascii _ (by omega)]
  · refine ⟨fun _ => .inl ?_, fun _ => .inr (.inr (.inl ⟨_, strBody_htmlEscape s hc, ?_⟩))⟩
    · intro h0
      have := length_htmlEscape s
      have := congrArg List.length h0
      simp at this; omega
    · have e : [34] ++ htmlEscape s ++ [34] = 34 :: (htmlEscape s ++ [34]) := by simp
      rw [e, runes_ascii (by omega), runes_snoc_ascii _ (by omega)]

example : esc noUni (b!"two words & more") = some (b!"\"two words &amp; more\"") ∧ Clean (b!"two words & more") := by
  refine ⟨by decide +kernel, by unfold Clean; decide +kernel⟩

/-- C30 fails: text that escaping leaves alone although it is not one identifier: a separator, a keyword, a malformed number. -/
theorem C30_left_alone (U : Unicode) :
    esc U (b!"a;b") = some (b!"a;b") ∧ (tokens (b!"a;b")).map (·.map (·.typ)) = some [18, 7, 18, 1] ∧
    esc U (b!"graph") = some (b!"graph") ∧ (tokens (b!"graph")).map (·.map (·.typ)) = some [2, 1] ∧
    esc U (b!"1.2.3") = some (b!"1.2.3") ∧ (tokens (b!"1.2.3")).map (·.map (·.typ)) = some [18, 18, 1] ∧
    esc U (b!"-a1") = some (b!"-a1") ∧ (tokens (b!"-a1")).map (·.map (·.typ)) = some [0, 18, 1] := by
  refine ⟨?_, by decide +kernel, ?_, by decide +kernel, ?_, by decide +kernel, ?_, by decide +kernel⟩
  all_goals rfl

/-- C30 fails: a backslash at the end of a name makes the escaped form an unterminated string, and after a backslash the quote that
escaping protects is bare again, so that a name can inject statements. -/
theorem C30_backslash (U : Unicode) :
    esc U (b!"a b\\") = some (b!"\"a b\\\"") ∧ (tokens (b!"\"a b\\\"")).map (·.map (·.typ)) = some [0, 1] ∧
    esc U (b!"<\\\";a--b;//") = some (b!"\"<\\\\\";a--b;//\"") ∧
    (tokens (b!"\"<\\\\\";a--b;//\"\n")).map (·.map (·.typ)) = some [18, 7, 18, 17, 18, 7, 1] := by
  refine ⟨?_, by decide +kernel, ?_, by decide +kernel⟩
  all_goals rfl

end Gographviz.Props
