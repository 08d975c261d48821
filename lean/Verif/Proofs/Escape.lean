import Verif.Model.Escape
import Verif.Proofs.GoMap
/-!
Lemmas about runes, white space and `esc`.
-/
namespace Gographviz

/-! ### UTF-8 decoding -/

theorem decodeRune_ascii {b : Nat} (h : b < 128) (s : Str) : decodeRune (b :: s) = (b, 1) := by
  simp only [decodeRune]; rw [if_pos h]

/-- A byte ≥ 0x80 starts a rune ≥ 0x80; the rune takes at least one byte, not more than there are, all ≥ 0x80. -/
theorem decodeRune_high {b : Nat} (h : 128 ≤ b) (s : Str) :
    128 ≤ (decodeRune (b :: s)).1 ∧ 1 ≤ (decodeRune (b :: s)).2 ∧ (decodeRune (b :: s)).2 ≤ (b :: s).length ∧
    ∀ x ∈ (b :: s).take (decodeRune (b :: s)).2, 128 ≤ x := by
  generalize hd : decodeRune (b :: s) = d
  have base : (runeError, 1) = d → (128 ≤ d.1 ∧ 1 ≤ d.2 ∧ d.2 ≤ (b :: s).length ∧ ∀ x ∈ (b :: s).take d.2, 128 ≤ x) := by
    rintro rfl
    refine ⟨by simp [runeError], by simp, by simp, ?_⟩
    intro x hx; simp at hx; omega
  simp only [decodeRune] at hd
  rw [if_neg (by omega)] at hd
  split at hd
  · rename_i h1; simp only [Bool.and_eq_true, decide_eq_true_eq] at h1
    split at hd
    · rename_i b1 _
      split at hd
      · rename_i h2; simp only [isCont, Bool.and_eq_true, decide_eq_true_eq] at h2
        subst hd
        refine ⟨by show _ ≤ _ * _ + _; omega, by simp, by simp, ?_⟩
        intro x hx; simp at hx; omega
      · exact base hd
    · exact base hd
  · split at hd
    · rename_i h1; simp only [Bool.and_eq_true, decide_eq_true_eq] at h1
      split at hd
      · rename_i b1 b2 _
        generalize hlo : (if b = 0xE0 then 0xA0 else 0x80) = lo at hd
        generalize hhi : (if b = 0xED then 0x9F else 0xBF) = hi at hd
        split at hd
        · rename_i h2; simp only [isCont, Bool.and_eq_true, decide_eq_true_eq] at h2
          have hlo' : lo ≥ 128 ∧ (b = 0xE0 → lo = 0xA0) := by split at hlo <;> omega
          subst hd
          refine ⟨by show _ ≤ _ * _ + _ * _ + _; omega, by simp, by simp, ?_⟩
          intro x hx; simp at hx; omega
        · exact base hd
      · exact base hd
    · split at hd
      · rename_i h1; simp only [Bool.and_eq_true, decide_eq_true_eq] at h1
        split at hd
        · rename_i b1 b2 b3 _
          generalize hlo : (if b = 0xF0 then 0x90 else 0x80) = lo at hd
          generalize hhi : (if b = 0xF4 then 0x8F else 0xBF) = hi at hd
          split at hd
          · rename_i h2; simp only [isCont, Bool.and_eq_true, decide_eq_true_eq] at h2
            have hlo' : lo ≥ 128 ∧ (b = 0xF0 → lo = 0x90) := by split at hlo <;> omega
            subst hd
            refine ⟨by show _ ≤ _ * _ + _ * _ + _ * _ + _; omega, by simp, by simp, ?_⟩
            intro x hx; simp at hx; omega
          · exact base hd
        · exact base hd
      · exact base hd

theorem decodeRune_width {b : Nat} (s : Str) :
    1 ≤ (decodeRune (b :: s)).2 ∧ (decodeRune (b :: s)).2 ≤ (b :: s).length := by
  by_cases h : b < 128
  · rw [decodeRune_ascii h]; simp
  · have := decodeRune_high (by omega : 128 ≤ b) s; exact ⟨this.2.1, this.2.2.1⟩

theorem runesN_fuel (n m : Nat) (s : Str) (hn : s.length ≤ n) (hm : s.length ≤ m) : runesN n s = runesN m s := by
  induction n generalizing m s with
  | zero =>
    have : s = [] := by cases s <;> simp_all
    subst this; cases m <;> rfl
  | succ n ih =>
    cases s with
    | nil => cases m <;> rfl
    | cons b s =>
      cases m with
      | zero => simp at hm
      | succ m =>
        simp only [runesN]
        have hw := @decodeRune_width b s
        simp only [List.length_cons] at hn hm hw
        congr 1
        apply ih <;> simp only [List.length_drop, List.length_cons] <;> omega

@[simp] theorem runes_nil : runes [] = [] := rfl

theorem runes_cons (b : Nat) (s : Str) :
    runes (b :: s) = (decodeRune (b :: s)).1 :: runes ((b :: s).drop (decodeRune (b :: s)).2) := by
  show runesN (s.length + 1) (b :: s) = _
  simp only [runesN]
  have hw := @decodeRune_width b s
  simp only [List.length_cons] at hw
  congr 1
  apply runesN_fuel <;> simp only [List.length_drop, List.length_cons] <;> omega

theorem runes_ascii {b : Nat} (h : b < 128) (s : Str) : runes (b :: s) = b :: runes s := by
  rw [runes_cons, decodeRune_ascii h]; rfl

/-- Induction along the runes of a string: an ASCII byte, or a group of bytes ≥ 0x80. -/
theorem runes_induct {P : Str → Prop} (nil : P []) (ascii : ∀ b s, b < 128 → P s → P (b :: s))
    (high : ∀ (l s : Str) (r : Nat), l ≠ [] → (∀ x ∈ l, 128 ≤ x) → 128 ≤ r → runes (l ++ s) = r :: runes s → P s → P (l ++ s)) :
    ∀ s, P s := by
  intro s
  generalize hn : s.length = n
  induction n using Nat.strongRecOn generalizing s with
  | _ n ih =>
    cases s with
    | nil => exact nil
    | cons b s =>
      by_cases hb : b < 128
      · exact ascii b s hb (ih s.length (by simp at hn; omega) s rfl)
      · have h := decodeRune_high (by omega : 128 ≤ b) s
        have he := List.take_append_drop (decodeRune (b :: s)).2 (b :: s)
        have := high ((b :: s).take (decodeRune (b :: s)).2) ((b :: s).drop (decodeRune (b :: s)).2) (decodeRune (b :: s)).1
          (by intro h0; have := congrArg List.length h0; simp only [List.length_take, List.length_nil] at this; omega) h.2.2.2 h.1
          (by rw [he]; exact runes_cons b s)
          (ih _ (by simp only [List.length_drop]; simp only [List.length_cons] at hn ⊢; omega) _ rfl)
        rwa [he] at this

/-- ASCII runes are ASCII bytes. -/
theorem mem_runes {c : Nat} (hc : c < 128) (s : Str) : c ∈ runes s ↔ c ∈ s := by
  induction s using runes_induct with
  | nil => simp
  | ascii b s hb ih => rw [runes_ascii hb]; simp [ih]
  | high l s r _ hl hr he ih =>
    rw [he, List.mem_cons, List.mem_append, ih]
    constructor
    · rintro (h | h)
      · omega
      · exact .inr h
    · rintro (h | h)
      · have := hl c h; omega
      · exact .inr h

theorem runes_eq_nil {s : Str} : runes s = [] ↔ s = [] := by
  cases s with
  | nil => simp
  | cons b s => rw [runes_cons]; simp

/-! ### quotes -/

theorem noBareQuote_high {l : Str} (hl : ∀ x ∈ l, 128 ≤ x) (hne : l ≠ []) {q : Nat} (hq : q ≠ 92) (p : Nat) (s : Str) :
    noBareQuote p (l ++ s) = noBareQuote q s := by
  have key : ∀ p q : Nat, p ≠ 92 → q ≠ 92 → noBareQuote p s = noBareQuote q s := by
    intro p q hp hq
    cases s with
    | nil => rfl
    | cons a s => simp [noBareQuote, hp, hq]
  induction l generalizing p with
  | nil => exact absurd rfl hne
  | cons a l ih =>
    have ha := hl a (by simp)
    have : noBareQuote p (a :: l ++ s) = noBareQuote a (l ++ s) := by
      simp only [List.cons_append, noBareQuote]
      rw [if_neg (by simp; omega)]
    rw [this]
    cases l with
    | nil => exact key a q (by omega) hq
    | cons c l => exact ih (fun x hx => hl x (by simp [hx])) (by simp) a

/-- Checking quotes rune by rune is the same as byte by byte. -/
theorem noBareQuote_runes (s : Str) : ∀ p, noBareQuote p (runes s) = noBareQuote p s := by
  induction s using runes_induct with
  | nil => intro p; rfl
  | ascii b s hb ih => intro p; rw [runes_ascii hb]; simp [noBareQuote, ih]
  | high l s r hne hl hr he ih =>
    intro p
    rw [he, noBareQuote_high hl hne (by omega : r ≠ 92)]
    simp only [noBareQuote]
    rw [if_neg (by simp; omega), ih]

theorem noBareQuote_escapeQuotes (s : Str) (p : Nat) : noBareQuote p (escapeQuotes s) = true := by
  induction s generalizing p with
  | nil => rfl
  | cons c s ih =>
    simp only [escapeQuotes, List.flatMap_cons]
    split
    · simp only [List.cons_append, List.nil_append, noBareQuote]
      simp; exact ih 34
    · rename_i h
      simp only [List.cons_append, List.nil_append, noBareQuote]
      simp [h]; exact ih c

theorem noBareQuote_of_not_mem {s : Str} (h : 34 ∉ s) (p : Nat) : noBareQuote p s = true := by
  induction s generalizing p with
  | nil => rfl
  | cons c s ih =>
    simp only [List.mem_cons, not_or] at h
    simp only [noBareQuote]
    rw [if_neg (by simp; omega)]
    exact ih h.2 c

theorem quote_not_mem_htmlEscape (s : Str) : 34 ∉ htmlEscape s := by
  unfold htmlEscape
  rw [List.mem_flatMap]
  rintro ⟨c, _, hm⟩
  unfold htmlEscapeByte at hm
  repeat' split at hm
  all_goals simp_all

/-! ### trimSpace -/

theorem trimLeftN_none {s : Str} (h : stripSpacePrefix s = none) (n : Nat) : trimLeftN n s = s := by
  cases n with
  | zero => rfl
  | succ n => simp [trimLeftN, h]

theorem trimRevN_none {s : Str} (h : stripSpaceRev s = none) (n : Nat) : trimRevN n s = s := by
  cases n with
  | zero => rfl
  | succ n => simp [trimRevN, h]

/-- A quoted string has no outer white space. -/
theorem trimSpace_quoted (s : Str) : trimSpace (34 :: (s ++ [34])) = 34 :: (s ++ [34]) := by
  unfold trimSpace
  rw [trimLeftN_none (by rfl)]
  dsimp only
  rw [trimRevN_none, List.reverse_reverse]
  rw [List.reverse_cons, List.reverse_append]
  simp only [List.reverse_cons, List.reverse_nil, List.nil_append, List.cons_append]
  generalize s.reverse ++ [34] = t
  rcases t with _ | ⟨a, _ | ⟨b, t⟩⟩ <;> simp [stripSpaceRev]

theorem stripSpacePrefix_runes {s r : Str} (h : stripSpacePrefix s = some r) :
    ∃ e c, s = e ++ r ∧ e ≠ [] ∧ isSpaceRune c = true ∧ runes s = c :: runes r ∧
      ∀ t, stripSpacePrefix (e ++ t) = some t := by
  cases s with
  | nil => simp [stripSpacePrefix] at h
  | cons b0 s =>
    simp only [stripSpacePrefix] at h
    split at h
    · rename_i h0; cases h
      have hb : b0 < 128 := by simp at h0; omega
      refine ⟨[b0], b0, rfl, by simp, ?_, runes_ascii hb _, ?_⟩
      · simp only [isSpaceRune]; simp at h0 ⊢; omega
      · intro t; simp only [List.cons_append, List.nil_append, stripSpacePrefix]; rw [if_pos h0]
    · rename_i h0
      split at h
      · rename_i hb; subst hb
        split at h
        · rename_i b1 r'
          split at h
          · rename_i h1; cases h
            have h1' : b1 = 0x85 ∨ b1 = 0xA0 := by simpa using h1
            refine ⟨[0xC2, b1], b1, rfl, by simp, ?_, ?_, ?_⟩
            · rcases h1' with rfl | rfl <;> rfl
            · rw [runes_cons]; rcases h1' with rfl | rfl <;> simp [decodeRune, isCont]
            · intro t; rcases h1' with rfl | rfl <;> rfl
          · cases h
        · cases h
      · split at h
        · rename_i hb; subst hb
          split at h
          · rename_i b1 b2 r'
            split at h
            · rename_i h1; cases h
              have h1' : b1 = 0x9A ∧ b2 = 0x80 := by simpa using h1
              obtain ⟨rfl, rfl⟩ := h1'
              refine ⟨[0xE1, 0x9A, 0x80], 0x1680, rfl, by simp, rfl, ?_, fun t => rfl⟩
              rw [runes_cons]; simp [decodeRune, isCont]
            · cases h
          · cases h
        · split at h
          · rename_i hb; subst hb
            split at h
            · rename_i b1 b2 r'
              split at h
              · rename_i h1; cases h
                have h1' : (b1 = 0x80 ∧ ((0x80 ≤ b2 ∧ b2 ≤ 0x8A) ∨ b2 = 0xA8 ∨ b2 = 0xA9 ∨ b2 = 0xAF)) ∨
                    (b1 = 0x81 ∧ b2 = 0x9F) := by
                  simp at h1; omega
                refine ⟨[0xE2, b1, b2], 0x2000 + (b1 - 0x80) * 64 + (b2 - 0x80), rfl, by simp, ?_, ?_, ?_⟩
                · simp [isSpaceRune]; omega
                · have hb1 : 0x80 ≤ b1 ∧ b1 ≤ 0xBF ∧ 0x80 ≤ b2 ∧ b2 ≤ 0xBF := by omega
                  rw [runes_cons]
                  have : decodeRune (0xE2 :: b1 :: b2 :: r) = (0x2000 + (b1 - 0x80) * 64 + (b2 - 0x80), 3) := by
                    simp only [decodeRune]
                    simp [isCont]
                    omega
                  rw [this]; rfl
                · intro t
                  simp only [List.cons_append, List.nil_append, stripSpacePrefix]
                  rw [if_neg h0]; simp
                  omega
              · cases h
            · cases h
          · split at h
            · rename_i hb; subst hb
              split at h
              · rename_i b1 b2 r'
                split at h
                · rename_i h1; cases h
                  have h1' : b1 = 0x80 ∧ b2 = 0x80 := by simpa using h1
                  obtain ⟨rfl, rfl⟩ := h1'
                  refine ⟨[0xE3, 0x80, 0x80], 0x3000, rfl, by simp, rfl, ?_, fun t => rfl⟩
                  rw [runes_cons]; simp [decodeRune, isCont]
                · cases h
              · cases h
            · cases h

theorem stripSpacePrefix_of_rune {b : Nat} {s : Str} (h : isSpaceRune (decodeRune (b :: s)).1 = true) :
    stripSpacePrefix (b :: s) ≠ none := by
  generalize hd : decodeRune (b :: s) = d at h
  have base : (runeError, 1) = d → False := by
    rintro rfl; revert h; decide
  simp only [decodeRune] at hd
  simp only [isSpaceRune, Bool.or_eq_true, Bool.and_eq_true, decide_eq_true_eq, beq_iff_eq] at h
  split at hd
  · subst hd
    dsimp only at h
    have : (decide (9 ≤ b) && decide (b ≤ 13) || b == 32) = true := by simp; omega
    simp only [stripSpacePrefix]; rw [if_pos this]; simp
  · rename_i h0
    have hn : ¬ ((decide (9 ≤ b) && decide (b ≤ 13) || b == 32) = true) := by simp; omega
    simp only [stripSpacePrefix]
    rw [if_neg hn]
    split at hd
    · rename_i h1; simp only [Bool.and_eq_true, decide_eq_true_eq] at h1
      split at hd
      · rename_i b1 r
        split at hd
        · rename_i h2; simp only [isCont, Bool.and_eq_true, decide_eq_true_eq] at h2
          subst hd; dsimp only at h
          have hb : b = 0xC2 ∧ (b1 = 0x85 ∨ b1 = 0xA0) := by omega
          obtain ⟨rfl, h3⟩ := hb
          simp only [if_true]
          rw [if_pos (by simpa using h3)]; simp
        · exact (base hd).elim
      · exact (base hd).elim
    · split at hd
      · rename_i h1; simp only [Bool.and_eq_true, decide_eq_true_eq] at h1
        split at hd
        · rename_i b1 b2 r
          generalize hlo : (if b = 0xE0 then 0xA0 else 0x80) = lo at hd
          generalize hhi : (if b = 0xED then 0x9F else 0xBF) = hi at hd
          split at hd
          · rename_i h2; simp only [isCont, Bool.and_eq_true, decide_eq_true_eq] at h2
            have hlo' : lo ≥ 128 ∧ (b = 0xE0 → lo = 0xA0) := by split at hlo <;> omega
            have hhi' : hi ≤ 0xBF := by split at hhi <;> omega
            subst hd; dsimp only at h
            have hb : (b = 0xE1 ∧ b1 = 0x9A ∧ b2 = 0x80) ∨ (b = 0xE3 ∧ b1 = 0x80 ∧ b2 = 0x80) ∨
                (b = 0xE2 ∧ ((b1 = 0x80 ∧ ((0x80 ≤ b2 ∧ b2 ≤ 0x8A) ∨ b2 = 0xA8 ∨ b2 = 0xA9 ∨ b2 = 0xAF)) ∨
                    (b1 = 0x81 ∧ b2 = 0x9F))) := by
              have hle : (b - 0xE0) * 4096 + (b1 - 0x80) * 64 + (b2 - 0x80) ≤ 0x3000 := by
                generalize (b - 0xE0) * 4096 + (b1 - 0x80) * 64 + (b2 - 0x80) = v at h
                omega
              have hb3 : b = 0xE0 ∨ b = 0xE1 ∨ b = 0xE2 ∨ b = 0xE3 := by omega
              obtain ⟨y, hy⟩ : ∃ y, y = b1 - 0x80 := ⟨_, rfl⟩
              obtain ⟨z, hz⟩ : ∃ z, z = b2 - 0x80 := ⟨_, rfl⟩
              have e1 : b1 = y + 0x80 := by omega
              have e2 : b2 = z + 0x80 := by omega
              clear hle hhi hlo hn h0 base
              rw [← hy, ← hz] at h
              rcases hb3 with rfl | rfl | rfl | rfl
              · omega
              · left; omega
              · right; right; omega
              · right; left; omega
            rcases hb with ⟨rfl, rfl, rfl⟩ | ⟨rfl, rfl, rfl⟩ | ⟨rfl, h3⟩
            · simp
            · simp
            · simp; omega
          · exact (base hd).elim
        · exact (base hd).elim
      · split at hd
        · rename_i h1; simp only [Bool.and_eq_true, decide_eq_true_eq] at h1
          split at hd
          · rename_i b1 b2 b3 r
            generalize hlo : (if b = 0xF0 then 0x90 else 0x80) = lo at hd
            generalize hhi : (if b = 0xF4 then 0x8F else 0xBF) = hi at hd
            split at hd
            · rename_i h2; simp only [isCont, Bool.and_eq_true, decide_eq_true_eq] at h2
              have hlo' : lo ≥ 128 ∧ (b = 0xF0 → lo = 0x90) := by split at hlo <;> omega
              subst hd; dsimp only at h
              have hge : 0x10000 ≤ (b - 0xF0) * 262144 + (b1 - 0x80) * 4096 + (b2 - 0x80) * 64 + (b3 - 0x80) := by
                clear h; omega
              generalize (b - 0xF0) * 262144 + (b1 - 0x80) * 4096 + (b2 - 0x80) * 64 + (b3 - 0x80) = v at h hge
              clear hlo hlo' hhi h2 h1 hn h0
              omega
            · exact (base hd).elim
          · exact (base hd).elim
        · exact (base hd).elim

theorem trimLeftN_all (n : Nat) (s : Str) (hn : s.length ≤ n) (h : (runes s).all isSpaceRune = true) : trimLeftN n s = [] := by
  induction n generalizing s with
  | zero => cases s with
    | nil => rfl
    | cons _ _ => simp at hn
  | succ n ih =>
    cases s with
    | nil => rfl
    | cons b s =>
      have h' := h
      rw [runes_cons, List.all_cons, Bool.and_eq_true] at h'
      have hne := stripSpacePrefix_of_rune h'.1
      cases hs : stripSpacePrefix (b :: s) with
      | none => exact absurd hs hne
      | some r =>
        obtain ⟨e, c, he, hne, _, hr, _⟩ := stripSpacePrefix_runes hs
        simp only [trimLeftN, hs]
        apply ih
        · have := congrArg List.length he
          have h1 : e.length ≠ 0 := by simpa using hne
          simp only [List.length_cons, List.length_append] at this hn; omega
        · rw [hr, List.all_cons, Bool.and_eq_true] at h; exact h.2

/-- What `trimLeftN` leaves is not empty unless all runes are white space, and does not start with white space. -/
theorem trimLeftN_spec (n : Nat) (s : Str) (hn : s.length ≤ n) :
    stripSpacePrefix (trimLeftN n s) = none ∧ (trimLeftN n s = [] → (runes s).all isSpaceRune = true) := by
  induction n generalizing s with
  | zero => cases s with
    | nil => exact ⟨rfl, fun _ => rfl⟩
    | cons _ _ => simp at hn
  | succ n ih =>
    cases hs : stripSpacePrefix s with
    | none =>
      simp only [trimLeftN, hs]
      exact ⟨trivial, fun h => by subst h; rfl⟩
    | some r =>
      obtain ⟨e, c, he, hne, hc, hr, _⟩ := stripSpacePrefix_runes hs
      simp only [trimLeftN, hs]
      have := ih r (by
        have := congrArg List.length he
        have h1 : e.length ≠ 0 := by simpa using hne
        simp only [List.length_append] at this; omega)
      refine ⟨this.1, fun h => ?_⟩
      rw [hr, List.all_cons, hc, this.2 h]; rfl

/-- The encoding of one white space rune. -/
def SpaceEnc (e : Str) : Prop := ∀ t, stripSpacePrefix (e ++ t) = some t

theorem stripSpaceRev_spec {s r : Str} (h : stripSpaceRev s = some r) : ∃ e, s = e ++ r ∧ SpaceEnc e.reverse := by
  cases s with
  | nil => simp [stripSpaceRev] at h
  | cons b0 s =>
    simp only [stripSpaceRev] at h
    split at h
    · rename_i h0; cases h
      refine ⟨[b0], rfl, fun t => ?_⟩
      simp only [List.reverse_cons, List.reverse_nil, List.nil_append, List.cons_append, stripSpacePrefix]
      rw [if_pos h0]
    · rename_i h0
      cases s with
      | nil => simp at h
      | cons b1 s =>
        dsimp only at h
        split at h
        · rename_i h1; cases h
          refine ⟨[b0, b1], rfl, fun t => ?_⟩
          simp only [Bool.and_eq_true, Bool.or_eq_true, beq_iff_eq] at h1
          obtain ⟨rfl, h1⟩ := h1
          rcases h1 with rfl | rfl <;> rfl
        · cases s with
          | nil => simp at h
          | cons b2 s =>
            dsimp only at h
            split at h
            · rename_i h1; cases h
              refine ⟨[b0, b1, b2], rfl, fun t => ?_⟩
              simp only [Bool.and_eq_true, Bool.or_eq_true, beq_iff_eq, decide_eq_true_eq] at h1
              simp only [List.reverse_cons, List.reverse_nil, List.nil_append, List.cons_append]
              rcases h1 with ((⟨⟨rfl, rfl⟩, rfl⟩ | ⟨⟨rfl, rfl⟩, h1⟩) | ⟨⟨rfl, rfl⟩, rfl⟩) | ⟨⟨rfl, rfl⟩, rfl⟩
              · rfl
              · simp [stripSpacePrefix]; omega
              · rfl
              · rfl
            · cases h

theorem trimRevN_spec (n : Nat) (s : Str) :
    ∃ es : List Str, (∀ e ∈ es, SpaceEnc e) ∧ s.reverse = (trimRevN n s).reverse ++ es.flatten := by
  induction n generalizing s with
  | zero => exact ⟨[], by simp, by simp [trimRevN]⟩
  | succ n ih =>
    cases hs : stripSpaceRev s with
    | none => exact ⟨[], by simp, by simp [trimRevN, hs]⟩
    | some r =>
      obtain ⟨e, rfl, he⟩ := stripSpaceRev_spec hs
      obtain ⟨es, h1, h2⟩ := ih r
      refine ⟨es ++ [e.reverse], ?_, ?_⟩
      · intro x hx
        rcases List.mem_append.1 hx with hx | hx
        · exact h1 x hx
        · simp at hx; subst hx; exact he
      · simp only [trimRevN, hs, List.reverse_append, h2, List.flatten_append, List.flatten_cons, List.flatten_nil,
          List.append_nil, List.append_assoc]

/-- `TrimSpace` gives the empty string exactly for strings of white space runes. -/
theorem trimSpace_eq_nil (s : Str) : trimSpace s = [] ↔ (runes s).all isSpaceRune = true := by
  constructor
  · intro h
    obtain ⟨h1, h2⟩ := trimLeftN_spec s.length s (Nat.le_refl _)
    apply h2
    unfold trimSpace at h
    generalize hl : trimLeftN s.length s = l at *
    dsimp only at h
    rw [List.reverse_eq_nil_iff] at h
    obtain ⟨es, he, hf⟩ := trimRevN_spec l.length l.reverse
    rw [h, List.reverse_reverse, List.reverse_nil, List.nil_append] at hf
    cases es with
    | nil => exact hf
    | cons e es =>
      rw [hf, List.flatten_cons, he e (by simp)] at h1
      cases h1
  · intro h
    unfold trimSpace
    rw [trimLeftN_all _ _ (Nat.le_refl _) h]
    rfl

theorem trimSpace_head {s : Str} {c : Nat} {cs : Str} (h : trimSpace s = c :: cs) : c ∈ s := by
  have h1 : ∀ n (t : Str), ∀ x ∈ trimLeftN n t, x ∈ t := by
    intro n
    induction n with
    | zero => intro t x hx; exact hx
    | succ n ih =>
      intro t x hx
      simp only [trimLeftN] at hx
      split at hx
      · rename_i r hr
        obtain ⟨e, _, he, _⟩ := stripSpacePrefix_runes hr
        rw [he]; exact List.mem_append.2 (.inr (ih r x hx))
      · exact hx
  obtain ⟨es, _, hf⟩ := trimRevN_spec (trimLeftN s.length s).length (trimLeftN s.length s).reverse
  apply h1 s.length s
  rw [List.reverse_reverse] at hf
  rw [hf]
  apply List.mem_append.2 (.inl _)
  show c ∈ trimSpace s
  rw [h]; simp

end Gographviz
