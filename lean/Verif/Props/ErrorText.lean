import Verif.Props.ErrorProps
import Verif.Spec.ErrorText
import Verif.Props.EscapeLex
import Verif.Props.Utf8Props
import Verif.Proofs.Numerals
/-!
Property C52, continued: the wording of the message of a syntax error.
-/
namespace Gographviz.Props

open Gographviz Spec Lex Parse
open Gographviz.Spec.ErrorText

/-! ### The names of the expected tokens -/

theorem possible_range : (possibleExpected.all fun x => x.all fun k => decide (1 ≤ k ∧ k ≤ 18)) = true := by decide +kernel

theorem expectedName_spec (up : Nat → Bool) {k : Nat} (h1 : 1 ≤ k) (h2 : k ≤ 18) : TokenName k (expectedName up k) := by
  match k, h1, h2 with
  | 1, _, _ => exact .eof
  | 2, _, _ => exact .graph
  | 3, _, _ => exact .punct (w := b!"{") (by decide)
  | 4, _, _ => exact .punct (w := b!"}") (by decide)
  | 5, _, _ => exact .keyword (w := b!"strict") (by decide) (by unfold LowerCase; decide) (by decide)
  | 6, _, _ => exact .keyword (w := b!"digraph") (by decide) (by unfold LowerCase; decide) (by decide)
  | 7, _, _ => exact .punct (w := b!";") (by decide)
  | 8, _, _ => exact .punct (w := b!"=") (by decide)
  | 9, _, _ => exact .keyword (w := b!"node") (by decide) (by unfold LowerCase; decide) (by decide)
  | 10, _, _ => exact .keyword (w := b!"edge") (by decide) (by unfold LowerCase; decide) (by decide)
  | 11, _, _ => exact .punct (w := b!"[") (by decide)
  | 12, _, _ => exact .punct (w := b!"]") (by decide)
  | 13, _, _ => exact .punct (w := b!",") (by decide)
  | 14, _, _ => exact .punct (w := b!":") (by decide)
  | 15, _, _ => exact .keyword (w := b!"subgraph") (by decide) (by unfold LowerCase; decide) (by decide)
  | 16, _, _ => exact .punct (w := b!"->") (by decide)
  | 17, _, _ => exact .punct (w := b!"--") (by decide)
  | 18, _, _ => exact .ident
  | n + 19, _, h => omega

theorem expectedNames_spec (up : Nat → Bool) {x : List Nat} (h : ∀ k ∈ x, 1 ≤ k ∧ k ≤ 18) : TokenNames x (x.map (expectedName up)) := by
  induction x with
  | nil => exact .nil
  | cons k x ih => exact .cons (expectedName_spec up (h k (by simp)).1 (h k (by simp)).2) (ih fun j hj => h j (by simp [hj]))

/-! ### The list -/

theorem sjoin_flatMap (sep : Str) (as : List Str) (z : Str) : sjoin sep (as ++ [z]) = as.flatMap (fun a => a ++ sep) ++ z := by
  induction as with
  | nil => simp [sjoin]
  | cons a as ih =>
    cases as with
    | nil => simp [sjoin]
    | cons a' as => simp only [List.cons_append, sjoin] at ih ⊢; rw [ih]; simp

theorem describeExpected_spec {ns : List Str} (h : ns ≠ []) : Expected ns (describeExpected ns) := by
  match ns, h with
  | [a], _ => exact .one a
  | [a, b], _ => exact .two a b
  | [a, b, c], _ => exact .three a b c
  | a :: b :: c :: d :: rest, _ =>
    have hne : a :: b :: c :: d :: rest ≠ [] := by simp
    have hd := List.dropLast_concat_getLast hne
    have hl : (a :: b :: c :: d :: rest).getLastD [] = (a :: b :: c :: d :: rest).getLast hne := by
      rw [List.getLastD_eq_getLast?, List.getLast?_eq_some_getLast hne]; rfl
    have hlen : 3 ≤ (a :: b :: c :: d :: rest).dropLast.length := by simp
    have h1 : describeExpected (a :: b :: c :: d :: rest) = b!"expected one of " ++
        sjoin (b!", ") ((a :: b :: c :: d :: rest).dropLast ++ [b!"or " ++ (a :: b :: c :: d :: rest).getLastD []]) := rfl
    rw [h1, hl, sjoin_flatMap]
    generalize (a :: b :: c :: d :: rest).getLast hne = z at *
    generalize (a :: b :: c :: d :: rest).dropLast = as at *
    rw [← hd]
    have := Expected.more as z hlen
    simpa only [List.append_assoc] using this

/-! ### Quoting -/

theorem quoteLoop_plain (up : Nat → Bool) {s : Str} (h : Plain s) : quoteLoop up s.length s = s := by
  induction s with
  | nil => rfl
  | cons c s ih =>
    obtain ⟨h1, h2, h3, h4⟩ := h c (by simp)
    have hp : isPrint up c = true := by
      unfold isPrint
      rw [if_pos (by omega)]
      simp only [Bool.or_eq_true, Bool.and_eq_true, decide_eq_true_eq]
      omega
    simp only [List.length_cons, quoteLoop, decodeRune_ascii (by omega : c < 128)]
    rw [if_neg (by simp [runeError]; omega), escapeRune, if_neg (by omega), if_pos hp]
    simp [ih fun d hd => h d (by simp [hd])]

theorem quote_plain (up : Nat → Bool) {s : Str} (h : Plain s) : quote up s = [34] ++ s ++ [34] := by
  rw [quote, quoteLoop_plain up h]

/-- UTF-8 encoding of a rune. -/
def encodeRune (r : Nat) : Str :=
  if r < 0x80 then [r]
  else if r < 0x800 then [0xC0 + r / 64, 0x80 + r % 64]
  else if r < 0x10000 then [0xE0 + r / 4096, 0x80 + r / 64 % 64, 0x80 + r % 64]
  else [0xF0 + r / 262144, 0x80 + r / 4096 % 64, 0x80 + r / 64 % 64, 0x80 + r % 64]

theorem encode_decode {b : Nat} {s : Str} (h : ¬ ((decodeRune (b :: s)).2 = 1 ∧ (decodeRune (b :: s)).1 = runeError)) :
    encodeRune (decodeRune (b :: s)).1 = (b :: s).take (decodeRune (b :: s)).2 := by
  revert h
  unfold decodeRune
  split
  · rename_i hn; cases hn
  · rename_i b0 rest hh
    cases hh
    repeat' split
    all_goals simp only [Bool.and_eq_true, decide_eq_true_eq, isCont] at *
    all_goals repeat' split
    all_goals first | (intro h; exfalso; simp at h; done) | intro _
    all_goals simp only [encodeRune, List.take]
    all_goals repeat' split
    all_goals first | with_reducible rfl | ((try dsimp only [List.take] at *); first | (exfalso; omega) | (simp only [List.cons.injEq, and_true]; omega)) | skip

theorem decode_ok_append {b : Nat} {x : Str} (y : Str) (h : decodeRune (b :: x) ≠ (runeError, 1)) :
    decodeRune (b :: x ++ y) = decodeRune (b :: x) := by
  generalize hd : decodeRune (b :: x) = d at h ⊢
  simp only [decodeRune] at hd
  have bad : (runeError, 1) = d → False := fun e => h e.symm
  split at hd
  · rename_i h1
    rw [← hd]; exact decodeRune_ascii h1 _
  · rename_i h1
    rw [List.cons_append]
    simp only [decodeRune]
    rw [if_neg h1]
    split at hd
    · rename_i h2
      rw [if_pos h2]
      split at hd
      · simpa using hd
      · exact (bad hd).elim
    · rename_i h2
      rw [if_neg h2]
      split at hd
      · rename_i h3
        rw [if_pos h3]
        split at hd
        · simpa using hd
        · exact (bad hd).elim
      · rename_i h3
        rw [if_neg h3]
        split at hd
        · rename_i h4
          rw [if_pos h4]
          split at hd
          · simpa using hd
          · exact (bad hd).elim
        · exact (bad hd).elim

/-! ### Reading a quoted text back -/

def hexVal (c : Nat) : Nat := if c < 58 then c - 48 else c - 87

def hexValue (s : Str) : Nat := s.foldl (fun n c => 16 * n + hexVal c) 0

theorem hexDigits_length (k n : Nat) : (hexDigits k n).length = k := by
  induction k generalizing n with
  | zero => rfl
  | succ k ih => simp [hexDigits, ih]

theorem hexVal_digit {n : Nat} (h : n < 16) : hexVal (hexDigit n) = n := by
  unfold hexVal hexDigit
  repeat' split
  all_goals omega

theorem hexValue_digits {k n : Nat} (h : n < 16 ^ k) : hexValue (hexDigits k n) = n := by
  induction k generalizing n with
  | zero => simp at h; subst h; rfl
  | succ k ih =>
    have h1 : n / 16 < 16 ^ k := by rw [Nat.pow_succ] at h; omega
    have h2 := ih h1
    unfold hexValue at h2 ⊢
    simp only [hexDigits, List.foldl_append, List.foldl_cons, List.foldl_nil]
    rw [h2, hexVal_digit (by omega)]
    omega

def simpleEsc : Nat → Nat
  | 97 => 7 | 98 => 8 | 102 => 12 | 110 => 10 | 114 => 13 | 116 => 9 | 118 => 11 | c => c

/-- The first character of a text in quoted form, and the rest. -/
def unpiece : Str → Str × Str
  | [] => ([], [])
  | b :: s =>
    if b = 92 then match s with
      | [] => ([], [])
      | c :: s =>
        if c = 120 then ([hexValue (s.take 2)], s.drop 2)
        else if c = 117 then (encodeRune (hexValue (s.take 4)), s.drop 4)
        else if c = 85 then (encodeRune (hexValue (s.take 8)), s.drop 8)
        else ([simpleEsc c], s)
    else ((b :: s).take (decodeRune (b :: s)).2, (b :: s).drop (decodeRune (b :: s)).2)

theorem unpiece_x {n : Nat} (h : n < 256) (R : Str) : unpiece (b!"\\x" ++ hexDigits 2 n ++ R) = ([n], R) := by
  have e : b!"\\x" ++ hexDigits 2 n ++ R = 92 :: 120 :: (hexDigits 2 n ++ R) := rfl
  have hl := hexDigits_length 2 n
  rw [e]
  simp only [unpiece, if_true]
  rw [List.take_append_of_le_length (by omega), List.drop_append_of_le_length (by omega), List.take_of_length_le (by omega),
    List.drop_of_length_le (by omega), hexValue_digits (by omega)]
  rfl

theorem unpiece_u {n : Nat} (h : n < 0x10000) (R : Str) : unpiece (b!"\\u" ++ hexDigits 4 n ++ R) = (encodeRune n, R) := by
  have e : b!"\\u" ++ hexDigits 4 n ++ R = 92 :: 117 :: (hexDigits 4 n ++ R) := rfl
  have hl := hexDigits_length 4 n
  rw [e]
  simp only [unpiece, if_true]
  rw [if_neg (by decide)]
  rw [List.take_append_of_le_length (by omega), List.drop_append_of_le_length (by omega), List.take_of_length_le (by omega),
    List.drop_of_length_le (by omega), hexValue_digits (by omega)]
  rfl

theorem unpiece_U {n : Nat} (h : n < 0x110000) (R : Str) : unpiece (b!"\\U" ++ hexDigits 8 n ++ R) = (encodeRune n, R) := by
  have e : b!"\\U" ++ hexDigits 8 n ++ R = 92 :: 85 :: (hexDigits 8 n ++ R) := rfl
  have hl := hexDigits_length 8 n
  rw [e]
  simp only [unpiece, if_true]
  rw [if_neg (by decide), if_neg (by decide)]
  rw [List.take_append_of_le_length (by omega), List.drop_append_of_le_length (by omega), List.take_of_length_le (by omega),
    List.drop_of_length_le (by omega), hexValue_digits (by omega)]
  rfl

theorem unpiece_ne {b : Nat} (h : b ≠ 92) (s : Str) :
    unpiece (b :: s) = ((b :: s).take (decodeRune (b :: s)).2, (b :: s).drop (decodeRune (b :: s)).2) := by
  simp only [unpiece, if_neg h]

/-- The quoted form of the first character. -/
def piece (up : Nat → Bool) (b : Nat) (s : Str) : Str :=
  if (decodeRune (b :: s)).2 = 1 ∧ (decodeRune (b :: s)).1 = runeError then b!"\\x" ++ hexDigits 2 b
  else escapeRune up (decodeRune (b :: s)).1 ((b :: s).take (decodeRune (b :: s)).2)

theorem unpiece_piece (up : Nat → Bool) {b : Nat} (hb : b < 256) (s R : Str) :
    unpiece (piece up b s ++ R) = ((b :: s).take (decodeRune (b :: s)).2, R) := by
  unfold piece
  split
  · rename_i h
    rw [unpiece_x hb, h.1]
    rfl
  · rename_i h
    have henc := encode_decode h
    have hne : decodeRune (b :: s) ≠ (runeError, 1) := fun e => h (by rw [e]; exact ⟨rfl, rfl⟩)
    have hw := @decodeRune_width b s
    have hle := decodeRune_le (b :: s)
    have hlow : ∀ r, r < 128 → (decodeRune (b :: s)).1 = r → (b :: s).take (decodeRune (b :: s)).2 = [r] := by
      intro r hr e
      rw [← henc, e, encodeRune, if_pos hr]
    have h92 : b = 92 → (decodeRune (b :: s)).1 = 92 := by rintro rfl; rw [decodeRune_ascii (by decide)]
    have hdec : ∀ y, decodeRune ((b :: s).take (decodeRune (b :: s)).2 ++ y) = decodeRune (b :: s) := by
      intro y
      have e : decodeRune ((b :: s).take (decodeRune (b :: s)).2) = decodeRune (b :: s) := by
        have := decodeRune_append ((b :: s).take (decodeRune (b :: s)).2) ((b :: s).drop (decodeRune (b :: s)).2)
          (by intro e; have := congrArg List.length e; simp only [List.length_take, List.length_nil, List.length_cons] at this; simp only [List.length_cons] at hw; omega)
          (by rw [List.take_append_drop, List.length_take]; simp only [List.length_cons] at hw ⊢; omega)
        rw [List.take_append_drop] at this
        exact this
      obtain ⟨m, hm⟩ : ∃ m, (decodeRune (b :: s)).2 = m + 1 := ⟨(decodeRune (b :: s)).2 - 1, by omega⟩
      rw [hm, List.take_succ_cons] at e ⊢
      rw [decode_ok_append y (by rw [e]; exact hne), e]
    generalize hr : (decodeRune (b :: s)).1 = r at *
    generalize hc : (b :: s).take (decodeRune (b :: s)).2 = enc at *
    unfold escapeRune
    split
    · rename_i h1
      rcases h1 with rfl | rfl
      · rw [hlow 34 (by omega) rfl]; rfl
      · rw [hlow 92 (by omega) rfl]; rfl
    · rename_i h1
      split
      · have hd := hdec R
        obtain ⟨m, hm⟩ : ∃ m, (decodeRune (b :: s)).2 = m + 1 := ⟨(decodeRune (b :: s)).2 - 1, by omega⟩
        rw [hm, List.take_succ_cons] at hc
        rw [← hc] at hd ⊢
        rw [List.cons_append] at hd ⊢
        rw [unpiece_ne (fun e => h1 (.inr (h92 e))), hd, hm, ← List.cons_append]
        have hl : (b :: s.take m).length = m + 1 := by
          simp only [List.length_cons, List.length_take] at hw ⊢; omega
        rw [← hl, List.take_left, List.drop_left]
      · rename_i hp
        by_cases e : r = 7
        · rw [if_pos e, hlow 7 (by omega) e]; rfl
        rw [if_neg e]; clear e
        by_cases e : r = 8
        · rw [if_pos e, hlow 8 (by omega) e]; rfl
        rw [if_neg e]; clear e
        by_cases e : r = 12
        · rw [if_pos e, hlow 12 (by omega) e]; rfl
        rw [if_neg e]; clear e
        by_cases e : r = 10
        · rw [if_pos e, hlow 10 (by omega) e]; rfl
        rw [if_neg e]; clear e
        by_cases e : r = 13
        · rw [if_pos e, hlow 13 (by omega) e]; rfl
        rw [if_neg e]; clear e
        by_cases e : r = 9
        · rw [if_pos e, hlow 9 (by omega) e]; rfl
        rw [if_neg e]; clear e
        by_cases e : r = 11
        · rw [if_pos e, hlow 11 (by omega) e]; rfl
        rw [if_neg e]; clear e
        by_cases e : r < 32 ∨ r = 127
        · rw [if_pos e, unpiece_x (by omega), hlow r (by omega) rfl]
        rw [if_neg e]; clear e
        by_cases e : r < 0x10000
        · rw [if_pos e, unpiece_u e, henc]
        · rw [if_neg e, unpiece_U (by omega), henc]

theorem quoteLoop_inj (up : Nat → Bool) {n m : Nat} {s t : Str} (hn : s.length ≤ n) (hm : t.length ≤ m) (hs : ∀ c ∈ s, c < 256)
    (ht : ∀ c ∈ t, c < 256) (h : quoteLoop up n s = quoteLoop up m t) : s = t := by
  have hp : ∀ (k b : Nat) (u : Str), quoteLoop up (k + 1) (b :: u) = piece up b u ++ quoteLoop up k ((b :: u).drop (decodeRune (b :: u)).2) :=
    fun _ _ _ => rfl
  have hnil : ∀ k, quoteLoop up k [] = [] := by intro k; cases k <;> rfl
  have hpne : ∀ (b : Nat) (u R : Str), b < 256 → piece up b u ++ R ≠ [] := by
    intro b u R hb e
    have h1 := unpiece_piece up hb u R
    rw [e] at h1
    have h2 := congrArg (fun p => p.1.length) h1
    have hw := @decodeRune_width b u
    simp only [unpiece, List.length_nil, List.length_take] at h2
    omega
  induction n generalizing m s t with
  | zero =>
    cases s with
    | cons => simp at hn
    | nil =>
      cases t with
      | nil => rfl
      | cons b t =>
        cases m with
        | zero => simp at hm
        | succ m => rw [hnil, hp] at h; exact absurd h.symm (hpne b t _ (ht b (by simp)))
  | succ n ih =>
    cases s with
    | nil =>
      cases t with
      | nil => rfl
      | cons b t =>
        cases m with
        | zero => simp at hm
        | succ m => rw [hnil, hp] at h; exact absurd h.symm (hpne b t _ (ht b (by simp)))
    | cons a s =>
      cases t with
      | nil => rw [hnil, hp] at h; exact absurd h (hpne a s _ (hs a (by simp)))
      | cons b t =>
        cases m with
        | zero => simp at hm
        | succ m =>
          rw [hp, hp] at h
          have h1 := unpiece_piece up (hs a (by simp)) s (quoteLoop up n ((a :: s).drop (decodeRune (a :: s)).2))
          have h2 := unpiece_piece up (ht b (by simp)) t (quoteLoop up m ((b :: t).drop (decodeRune (b :: t)).2))
          rw [h, h2] at h1
          obtain ⟨h3, h4⟩ := Prod.mk.inj h1
          have hw1 := @decodeRune_width a s
          have hw2 := @decodeRune_width b t
          simp only [List.length_cons] at hn hm hw1 hw2
          have h5 := ih (m := m) (s := (a :: s).drop (decodeRune (a :: s)).2) (t := (b :: t).drop (decodeRune (b :: t)).2)
            (by simp only [List.length_drop, List.length_cons]; omega) (by simp only [List.length_drop, List.length_cons]; omega)
            (fun c hc => hs c (List.mem_of_mem_drop hc)) (fun c hc => ht c (List.mem_of_mem_drop hc)) h4.symm
          rw [← List.take_append_drop (decodeRune (a :: s)).2 (a :: s), ← List.take_append_drop (decodeRune (b :: t)).2 (b :: t), h3, h5]

/-! ### Quoting -/

theorem encodes_lt {r : Nat} {bs : Str} (h : Encodes r bs) : r < 0x110000 := by
  cases h <;> omega

theorem escapeRune_spec (up : Nat → Bool) {r : Nat} {bs : Str} (h : Encodes r bs) : QuotedChar up r bs (escapeRune up r bs) := by
  have hlt := encodes_lt h
  have hp : isPrint up r = true ↔ ShownAsIs up r := by
    unfold isPrint ShownAsIs
    split
    · simp only [Bool.or_eq_true, Bool.and_eq_true, decide_eq_true_eq, bne_iff_ne, ne_eq]
      constructor
      · rintro (⟨a, b⟩ | ⟨a, b⟩)
        · exact .inl ⟨a, by omega⟩
        · exact .inr (.inl ⟨a, by omega, b⟩)
      · rintro (⟨a, b⟩ | ⟨a, b, c⟩ | ⟨a, b⟩)
        · exact .inl ⟨a, by omega⟩
        · exact .inr ⟨a, c⟩
        · omega
    · constructor
      · intro h; exact .inr (.inr ⟨by omega, h⟩)
      · rintro (⟨a, b⟩ | ⟨a, b, c⟩ | ⟨a, b⟩)
        · omega
        · omega
        · exact b
  unfold escapeRune
  split
  · rename_i h1; exact .mark h1
  rename_i h1
  split
  · rename_i h2; exact .shown (hp.1 h2) (fun e => h1 (.inl e)) (fun e => h1 (.inr e))
  rename_i h2
  have h2' : ¬ ShownAsIs up r := fun e => h2 (hp.2 e)
  split
  · rename_i h3; subst h3; exact .letter (by decide)
  split
  · rename_i h3; subst h3; exact .letter (by decide)
  split
  · rename_i h3; subst h3; exact .letter (by decide)
  split
  · rename_i h3; subst h3; exact .letter (by decide)
  split
  · rename_i h3; subst h3; exact .letter (by decide)
  split
  · rename_i h3; subst h3; exact .letter (by decide)
  split
  · rename_i h3; subst h3; exact .letter (by decide)
  split
  · rename_i h3
    refine .hex2 h3 ?_ (hexDigits_hexadecimal 2 r (by omega))
    intro l hl
    simp only [letterEscapes, List.mem_cons, Prod.mk.injEq, List.not_mem_nil, or_false] at hl
    omega
  rename_i h3
  have h4 : 128 ≤ r := by
    apply Classical.byContradiction
    intro h4
    exact h2' (.inl ⟨by omega, by omega⟩)
  split
  · rename_i h5; exact .hex4 h2' h4 h5 (hexDigits_hexadecimal 4 r (by omega))
  · rename_i h5; exact .hex8 h2' (by omega) (hexDigits_hexadecimal 8 r (by omega))

theorem quoteLoop_spec (up : Nat → Bool) : ∀ (n : Nat) {s : Str}, s.length ≤ n → (∀ c ∈ s, c < 256) → QuotedText up s (quoteLoop up n s)
  | 0, [], _, _ => .nil
  | _ + 1, [], _, _ => .nil
  | n + 1, b :: s, hn, hb => by
    by_cases h : ∃ r bs rest, b :: s = bs ++ rest ∧ Encodes r bs
    · obtain ⟨r, bs, rest, he, henc⟩ := h
      have hd := utf8_decode henc rest
      have hpos : 0 < bs.length := by cases henc <;> exact Nat.zero_lt_succ _
      have hne : ¬ (bs.length = 1 ∧ r = runeError) := by
        rintro ⟨a, b⟩
        subst b
        generalize hr : runeError = r at henc
        cases henc with
        | one h => rw [← hr] at h; revert h; decide
        | _ => simp at a
      have hlen : rest.length ≤ n := by
        have := congrArg List.length he
        simp only [List.length_cons, List.length_append] at this hn
        omega
      have ih := quoteLoop_spec up n hlen (fun c hc => hb c (by rw [he]; exact List.mem_append_right _ hc))
      simp only [quoteLoop]
      rw [he, hd]
      simp only [if_neg hne, List.take_left, List.drop_left]
      exact .char henc (escapeRune_spec up henc) ih
    · have hd := utf8_invalid (List.cons_ne_nil b s) h
      have ih := quoteLoop_spec up n (s := s) (by simpa using hn) (fun c hc => hb c (List.mem_cons_of_mem _ hc))
      simp only [quoteLoop]
      rw [hd]
      simp only [runeError, and_self, if_true, List.drop_succ_cons, List.drop_zero]
      exact .invalid h (hexDigits_hexadecimal 2 b (hb b (List.mem_cons_self ..))) ih

/-- C52. The quoted text, character by character. -/
theorem C52_quote (up : Nat → Bool) {s : Str} (h : ∀ c ∈ s, c < 256) : ∃ q, quote up s = [34] ++ q ++ [34] ∧ QuotedText up s q :=
  ⟨_, rfl, quoteLoop_spec up _ (Nat.le_refl _) h⟩

/-! ### The message -/

/-- C52. Every part of the message of a syntax error: the position, in decimal; the names of exactly the expected kinds of tokens, in the order of their
numbers, in an English list; and the token that was found: the end of the file, or its text in quotes (marked when no token starts like it).
The text is shown as it is when it is printable ASCII without quotes and backslashes, and escaped as in Go otherwise. -/
theorem C52_message (up : Nat → Bool) (rnd : Nat → Nat) (cnt : Nat) (src : Str) {t : Token} {x : List Nat}
    (h : parseBytes rnd cnt src = .syntaxErr t x) : ∃ line column names list got q,
      Decimal (lineAfter (src.take t.offset)) line ∧ Decimal (columnAfter (src.take t.offset)) column ∧ TokenNames x names ∧ Expected names list ∧
      errorText up t x = line ++ b!":" ++ column ++ b!": error: " ++ list ++ b!"; got: " ++ got ∧
      (t.typ = 1 → got = b!"end-of-file") ∧
      (t.typ = 0 → got = b!"unknown/invalid token " ++ ([34] ++ q ++ [34])) ∧
      (t.typ ≠ 0 → t.typ ≠ 1 → got = [34] ++ q ++ [34]) ∧
      ((∀ c ∈ t.lit, c < 256) → QuotedText up t.lit q) ∧
      (Plain t.lit → q = t.lit) := by
  obtain ⟨h1, h2⟩ := C52_position rnd cnt src h
  have hx : ∀ k ∈ x, 1 ≤ k ∧ k ≤ 18 := fun k hk =>
    of_decide_eq_true (List.all_eq_true.mp (List.all_eq_true.mp possible_range x (error_row h)) k hk)
  have hne : x.map (expectedName up) ≠ [] := by simpa using C51_expected_ne rnd cnt src h
  refine ⟨_, _, _, _, describeToken up t, quoteLoop up t.lit.length t.lit, decDigits_decimal _, decDigits_decimal _, expectedNames_spec up hx, describeExpected_spec hne, ?_, ?_, ?_, ?_,
    quoteLoop_spec up _ (Nat.le_refl _), quoteLoop_plain up⟩
  · rw [← h1, ← h2]; rfl
  · intro e; rw [describeToken, if_neg (by omega), if_pos e]
  · intro e; rw [describeToken, if_pos e]; rfl
  · intro e e'; rw [describeToken, if_neg e, if_neg e']; rfl

theorem tokId_symbol {k : Nat} (h1 : 1 ≤ k) (h2 : k ≤ 18) : SymbolName k (tokId k) := by
  match k, h1, h2 with
  | 1, _, _ => exact .eof
  | 2, _, _ => exact .graph
  | 3, _, _ => exact .punct (w := b!"{") (by decide)
  | 4, _, _ => exact .punct (w := b!"}") (by decide)
  | 5, _, _ => exact .keyword (w := b!"strict") (by decide) (by unfold LowerCase; decide) (by decide)
  | 6, _, _ => exact .keyword (w := b!"digraph") (by decide) (by unfold LowerCase; decide) (by decide)
  | 7, _, _ => exact .punct (w := b!";") (by decide)
  | 8, _, _ => exact .punct (w := b!"=") (by decide)
  | 9, _, _ => exact .keyword (w := b!"node") (by decide) (by unfold LowerCase; decide) (by decide)
  | 10, _, _ => exact .keyword (w := b!"edge") (by decide) (by unfold LowerCase; decide) (by decide)
  | 11, _, _ => exact .punct (w := b!"[") (by decide)
  | 12, _, _ => exact .punct (w := b!"]") (by decide)
  | 13, _, _ => exact .punct (w := b!",") (by decide)
  | 14, _, _ => exact .punct (w := b!":") (by decide)
  | 15, _, _ => exact .keyword (w := b!"subgraph") (by decide) (by unfold LowerCase; decide) (by decide)
  | 16, _, _ => exact .punct (w := b!"->") (by decide)
  | 17, _, _ => exact .punct (w := b!"--") (by decide)
  | 18, _, _ => exact .ident
  | n + 19, _, h => omega

theorem symbolList_spec {x : List Nat} (h : ∀ k ∈ x, 1 ≤ k ∧ k ≤ 18) : SymbolList x (x.flatMap fun k => tokId k ++ b!" ") := by
  induction x with
  | nil => exact .nil
  | cons k x ih => exact .cons (tokId_symbol (h k (by simp)).1 (h k (by simp)).2) (ih fun j hj => h j (by simp [hj]))

/-- C52. The long form of a syntax error (`String`): the kind and text of the token, its position, and the symbols of the expected kinds. -/
theorem C52_string (rnd : Nat → Nat) (cnt : Nat) (src : Str) {t : Token} {x : List Nat} (h : parseBytes rnd cnt src = .syntaxErr t x) :
    ∃ kind offset line column list, Decimal t.typ kind ∧ Decimal t.offset offset ∧ Decimal (lineAfter (src.take t.offset)) line ∧
      Decimal (columnAfter (src.take t.offset)) column ∧ SymbolList x list ∧
      errorString t x = b!"Error\nToken: type=" ++ kind ++ b!", lit=" ++ t.lit ++ b!"\nPos: offset=" ++ offset ++ b!", line=" ++ line ++ b!", column=" ++ column ++
        b!"\nExpected one of: " ++ list ++ b!"ErrorSymbol:\n" := by
  obtain ⟨h1, h2⟩ := C52_position rnd cnt src h
  have hx : ∀ k ∈ x, 1 ≤ k ∧ k ≤ 18 := fun k hk =>
    of_decide_eq_true (List.all_eq_true.mp (List.all_eq_true.mp possible_range x (error_row h)) k hk)
  refine ⟨_, _, _, _, _, decDigits_decimal _, decDigits_decimal _, decDigits_decimal _, decDigits_decimal _, symbolList_spec hx, ?_⟩
  rw [← h1, ← h2]
  rfl

/-- C52. Quoting loses nothing: different texts (of bytes) are quoted differently. -/
theorem C52_quote_injective (up : Nat → Bool) {s t : Str} (hs : ∀ c ∈ s, c < 256) (ht : ∀ c ∈ t, c < 256) (h : quote up s = quote up t) :
    s = t := by
  unfold quote at h
  simp only [List.cons_append, List.nil_append, List.cons.injEq, true_and] at h
  exact quoteLoop_inj up (Nat.le_refl _) (Nat.le_refl _) hs ht (List.append_cancel_right h)

/-- A kind of token has one name only, and the name tells the kind. -/
theorem C52_names_injective {k l : Nat} {w v : Str} (h : TokenName k w) (h' : TokenName l v) : w = v ↔ k = l := by
  have key : ∀ {k : Nat} {w : Str}, TokenName k w → 1 ≤ k ∧ k ≤ 18 ∧ w = expectedName (fun _ => false) k := by
    intro k w h
    cases h with
    | punct h =>
      simp only [puncts, List.mem_cons, Prod.mk.injEq, List.not_mem_nil, or_false] at h
      rcases h with ⟨rfl, rfl⟩ | ⟨rfl, rfl⟩ | ⟨rfl, rfl⟩ | ⟨rfl, rfl⟩ | ⟨rfl, rfl⟩ | ⟨rfl, rfl⟩ | ⟨rfl, rfl⟩ | ⟨rfl, rfl⟩ | ⟨rfl, rfl⟩ | ⟨rfl, rfl⟩ <;>
        exact ⟨by decide, by decide, by decide +kernel⟩
    | keyword h hl hg =>
      simp only [keywords, List.mem_cons, Prod.mk.injEq, List.not_mem_nil, or_false] at h
      unfold LowerCase at hl
      rcases h with ⟨rfl, rfl⟩ | ⟨rfl, rfl⟩ | ⟨rfl, rfl⟩ | ⟨rfl, rfl⟩ | ⟨rfl, rfl⟩ | ⟨rfl, rfl⟩ | ⟨rfl, rfl⟩ | ⟨rfl, rfl⟩ | ⟨rfl, rfl⟩ | ⟨rfl, rfl⟩ |
        ⟨rfl, rfl⟩ | ⟨rfl, rfl⟩ | ⟨rfl, rfl⟩ | ⟨rfl, rfl⟩ | ⟨rfl, rfl⟩ | ⟨rfl, rfl⟩ | ⟨rfl, rfl⟩ | ⟨rfl, rfl⟩ | ⟨rfl, rfl⟩ | ⟨rfl, rfl⟩ | ⟨rfl, rfl⟩ | ⟨rfl, rfl⟩ <;>
        first | exact ⟨by decide, by decide, by decide +kernel⟩ | exact absurd rfl hg | exact absurd hl (by decide)
    | graph => exact ⟨by decide, by decide, by decide +kernel⟩
    | ident => exact ⟨by decide, by decide, by decide +kernel⟩
    | eof => exact ⟨by decide, by decide, by decide +kernel⟩
  obtain ⟨a1, a2, rfl⟩ := key h
  obtain ⟨b1, b2, rfl⟩ := key h'
  refine ⟨fun e => ?_, fun e => by rw [e]⟩
  have hinj : ((List.range 19).all fun i => (List.range 19).all fun j =>
      i == j || expectedName (fun _ => false) i != expectedName (fun _ => false) j) = true := by decide +kernel
  have h1 := List.all_eq_true.mp (List.all_eq_true.mp hinj k (by simp; omega)) l (by simp; omega)
  simp only [Bool.or_eq_true, beq_iff_eq, bne_iff_ne] at h1
  exact h1.resolve_right fun hn => hn e

/-- The text of a node statement that ends in a control character: it is quoted and visible. -/
theorem example_quote : quote (fun _ => true) [97, 34, 7, 0xC3, 0xA9, 0xFF] = b!"\"a\\\"\\a" ++ [0xC3, 0xA9] ++ b!"\\xff\"" := by decide +kernel

end Gographviz.Props
