import Verif.Model.Literals
import Verif.Spec.Literals
import Verif.Spec.ErrorText
import Verif.Proofs.Numerals
import Verif.Props.Utf8Props
/-!
C76: literals and tokens outside the parser (internal/util, internal/token, `NewLexerFile`).
-/
namespace Gographviz.Props

open Gographviz Spec Lex Parse Lit

/-! ### digits -/

theorem digitVal_digit {c d : Nat} (h : Digit c d) : digitVal c = d ∧ c < 128 := by
  unfold digitVal
  cases h with
  | num h1 h2 => simp only [h1, h2, and_self, if_true]; exact ⟨trivial, by omega⟩
  | lower h1 h2 =>
    rw [if_neg (by omega), if_pos ⟨h1, h2⟩]; omega
  | upper h1 h2 =>
    rw [if_neg (by omega), if_neg (by omega), if_pos ⟨h1, h2⟩]; omega

theorem digits_fold {base k v : Nat} {s : Str} (h : Digits base k s v) :
    s.length = k ∧ (∀ c ∈ s, digitVal c < base ∧ c < 128) ∧ s.foldl (fun x c => x * base + digitVal c) 0 = v := by
  induction h with
  | nil => exact ⟨rfl, (fun _ h => nomatch h), rfl⟩
  | @snoc k v c d s _ hd hb ih =>
    obtain ⟨h1, h2, h3⟩ := ih
    obtain ⟨e, hc⟩ := digitVal_digit hd
    refine ⟨by simp [h1], ?_, ?_⟩
    · intro x hx
      rcases List.mem_append.1 hx with hx | hx
      · exact h2 x hx
      · cases List.mem_singleton.1 hx; exact ⟨by omega, hc⟩
    · rw [List.foldl_append, h3]
      simp only [List.foldl_cons, List.foldl_nil, e]
      rw [Nat.mul_comm]

theorem escLoop_digits {base : Nat} (hb : base ≤ 16) (hb1 : 1 ≤ base) : ∀ (s pre : Str) (q x j : Nat), (∀ c ∈ s, digitVal c < base ∧ c < 128) → x < base ^ j →
    j + s.length ≤ 8 → escLoop (pre ++ s ++ [q]) base s.length pre.length x = some (s.foldl (fun x c => x * base + digitVal c) x)
  | [], _, _, _, _, _, _, _ => rfl
  | c :: s, pre, q, x, j, hs, hx, hj => by
    obtain ⟨hd, hc⟩ := hs c List.mem_cons_self
    have hdec : decodeRune ((pre ++ c :: s ++ [q]).drop pre.length) = (c, 1) := by
      rw [List.append_assoc, List.drop_left]
      exact utf8_decode (Encodes.one hc) (s ++ [q])
    have hlt : x * base + digitVal c < base ^ (j + 1) := by
      have h1 : (x + 1) * base ≤ base ^ j * base := Nat.mul_le_mul_right _ hx
      rw [Nat.pow_succ]
      rw [Nat.succ_mul] at h1
      omega
    have hle : base ^ (j + 1) ≤ 2 ^ 32 := by
      simp only [List.length_cons] at hj
      calc base ^ (j + 1) ≤ base ^ 8 := Nat.pow_le_pow_right hb1 (by omega)
        _ ≤ 16 ^ 8 := Nat.pow_le_pow_left hb 8
        _ = 2 ^ 32 := by decide
    have ih := escLoop_digits hb hb1 s (pre ++ [c]) q (x * base + digitVal c) (j + 1) (fun c hc => hs c (List.mem_cons_of_mem _ hc)) hlt
      (by simp only [List.length_cons] at hj; omega)
    simp only [List.length_cons, escLoop, hdec]
    rw [if_pos (by simp only [List.length_append, List.length_cons, List.length_nil]; omega), if_neg (by omega), Nat.mod_eq_of_lt (by omega)]
    simpa using ih

theorem escNumber_digits {base k v : Nat} (hb : base ≤ 16) (hb1 : 1 ≤ base) (hk : k ≤ 8) {s : Str} (h : Digits base k s v) (pre : Str) (q max : Nat) (hm : v ≤ max)
    (hc : ¬ (0xD800 ≤ v ∧ v ≤ 0xDFFF)) : escNumber (pre ++ s ++ [q]) k base max pre.length = some v := by
  obtain ⟨h1, h2, h3⟩ := digits_fold h
  have := escLoop_digits hb hb1 s pre q 0 0 h2 (by simp) (by omega)
  rw [h1] at this
  unfold escNumber
  rw [this, h3]
  simp only []
  rw [if_neg (by omega)]

theorem digits_bound {base k v : Nat} {s : Str} (h : Digits base k s v) : v < base ^ k ∨ base = 0 ∧ k = 0 := by
  induction h with
  | nil => left; simp
  | @snoc k v c d s _ hd hb ih =>
    rcases ih with ih | ⟨h, -⟩
    · left
      have h1 : base * (v + 1) ≤ base * base ^ k := Nat.mul_le_mul_left _ ih
      rw [Nat.pow_succ, Nat.mul_comm (base ^ k)]
      rw [Nat.mul_succ] at h1
      omega
    · omega

/-! ### rune literals -/

/-- C76. A rune literal of Go has the value it has in Go. -/
theorem C76_rune_value {s : Str} {r : Nat} (h : RuneLit s r) : runeValue s = some r := by
  cases h with
  | @plain r bs hr h92 =>
    have hne : bs ≠ [] := by cases hr <;> simp
    obtain ⟨b, bs', rfl⟩ := List.exists_cons_of_ne_nil hne
    have hb : b ≠ 92 := by
      rintro rfl
      have := (utf8_prefix_free hr (Encodes.one (show 92 < 0x80 by decide)) (rest := []) (rest' := bs') (by simp)).1
      exact h92 this
    have hd := utf8_decode hr [39]
    unfold runeValue
    simp only [List.cons_append, List.nil_append, List.getElem?_cons_succ, List.getElem?_cons_zero, if_neg hb, List.drop_succ_cons, List.drop_zero]
    rw [List.cons_append] at hd
    rw [hd]
    simp
  | @letter l r hl =>
    simp only [runeEscapes, List.mem_cons, Prod.mk.injEq, List.not_mem_nil, or_false] at hl
    rcases hl with ⟨rfl, rfl⟩ | ⟨rfl, rfl⟩ | ⟨rfl, rfl⟩ | ⟨rfl, rfl⟩ | ⟨rfl, rfl⟩ | ⟨rfl, rfl⟩ | ⟨rfl, rfl⟩ | ⟨rfl, rfl⟩ | ⟨rfl, rfl⟩ <;> rfl
  | @octal s r hd hr =>
    have hn := escNumber_digits (by decide) (by decide) (by decide) hd [39, 92] 39 255 hr (by omega)
    obtain ⟨h1, h2, -⟩ := digits_fold hd
    obtain ⟨c, s', rfl⟩ : ∃ c s', s = c :: s' := List.exists_cons_of_ne_nil (by rintro rfl; cases h1)
    have hc : 48 ≤ c ∧ c ≤ 55 := by
      have := (h2 c List.mem_cons_self).1
      unfold digitVal at this
      split at this
      · omega
      · split at this
        · omega
        · split at this <;> omega
    have : runeValue ([39, 92] ++ c :: s' ++ [39]) = escapeCharVal ([39, 92] ++ c :: s' ++ [39]) := rfl
    rw [this]
    unfold escapeCharVal
    simp only [List.cons_append, List.nil_append, List.getElem?_cons_succ, List.getElem?_cons_zero]
    rw [if_neg (by omega), if_neg (by omega), if_neg (by omega), if_neg (by omega), if_neg (by omega), if_neg (by omega), if_neg (by omega), if_neg (by omega),
      if_neg (by omega), if_pos hc]
    exact hn
  | @hex2 s r hd =>
    have hb := digits_bound hd
    exact escNumber_digits (by decide) (by decide) (by decide) hd [39, 92, 120] 39 255 (by omega) (by omega)
  | hex4 hd hr => exact escNumber_digits (by decide) (by decide) (by decide) hd [39, 92, 117] 39 0x10FFFF hr.1 hr.2
  | hex8 hd hr => exact escNumber_digits (by decide) (by decide) (by decide) hd [39, 92, 85] 39 0x10FFFF hr.1 hr.2

theorem escNumber_char {lit : Str} {i base max off r : Nat} (hm : max ≤ 0x10FFFF) (h : escNumber lit i base max off = some r) : IsChar r := by
  unfold escNumber at h
  split at h
  · simp at h
  · split at h
    · simp at h
    · cases h; exact ⟨by omega, by omega⟩

/-- C76. What `RuneValue` returns is always a character. -/
theorem C76_rune_char {s : Str} {r : Nat} (h : runeValue s = some r) : IsChar r := by
  unfold runeValue at h
  split at h
  · simp at h
  · rename_i c hc
    split at h
    · unfold escapeCharVal at h
      split at h
      · simp at h
      · have hlit : ∀ n : Nat, n < 128 → some n = some r → IsChar r := by
          intro n hn e
          cases e
          exact ⟨by omega, by omega⟩
        rename_i c' _
        by_cases h97 : c' = 97
        · rw [if_pos h97] at h; exact hlit 7 (by decide) h
        rw [if_neg h97] at h
        by_cases h98 : c' = 98
        · rw [if_pos h98] at h; exact hlit 8 (by decide) h
        rw [if_neg h98] at h
        by_cases h102 : c' = 102
        · rw [if_pos h102] at h; exact hlit 12 (by decide) h
        rw [if_neg h102] at h
        by_cases h110 : c' = 110
        · rw [if_pos h110] at h; exact hlit 10 (by decide) h
        rw [if_neg h110] at h
        by_cases h114 : c' = 114
        · rw [if_pos h114] at h; exact hlit 13 (by decide) h
        rw [if_neg h114] at h
        by_cases h116 : c' = 116
        · rw [if_pos h116] at h; exact hlit 9 (by decide) h
        rw [if_neg h116] at h
        by_cases h118 : c' = 118
        · rw [if_pos h118] at h; exact hlit 11 (by decide) h
        rw [if_neg h118] at h
        by_cases h92 : c' = 92
        · rw [if_pos h92] at h; exact hlit 92 (by decide) h
        rw [if_neg h92] at h
        by_cases h39 : c' = 39
        · rw [if_pos h39] at h; exact hlit 39 (by decide) h
        rw [if_neg h39] at h
        by_cases k0 : 48 ≤ c' ∧ c' ≤ 55
        · rw [if_pos k0] at h; exact escNumber_char (by decide) h
        rw [if_neg k0] at h
        by_cases k1 : c' = 120
        · rw [if_pos k1] at h; exact escNumber_char (by decide) h
        rw [if_neg k1] at h
        by_cases k2 : c' = 117
        · rw [if_pos k2] at h; exact escNumber_char (by decide) h
        rw [if_neg k2] at h
        by_cases k3 : c' = 85
        · rw [if_pos k3] at h; exact escNumber_char (by decide) h
        rw [if_neg k3] at h
        cases h
    · simp only [] at h
      generalize hq : decodeRune (s.drop 1) = q at h
      obtain ⟨r', size⟩ := q
      simp only [] at h
      split at h
      · cases h
      · cases h
        have hq1 : (decodeRune (s.drop 1)).1 = r := by rw [hq]
        subst hq1
        clear hq
        cases hs : s.drop 1 with
        | nil =>
          have := List.getElem?_eq_some_iff.1 hc
          obtain ⟨h1, -⟩ := this
          have h2 := congrArg List.length hs
          simp only [List.length_drop, List.length_nil] at h2
          omega
        | cons b t =>
          rcases decodeRune_encodes (b := b) (s := t) with h | ⟨r, bs, rest, e, he⟩
          · rw [h]; exact ⟨by decide, by decide⟩
          · rw [e, utf8_decode he]
            cases he <;> exact ⟨by omega, by omega⟩

/-- C76 (false of the code). `RuneValue` also accepts texts that are no rune literals: escapes with missing digits or with text behind them. -/
theorem C76_lenient : runeValue (b!"'\\x4'") = some 4 ∧ runeValue (b!"'\\nope'") = some 10 ∧ ¬ RuneLit (b!"'\\x4'") 4 := by
  refine ⟨by decide +kernel, by decide +kernel, ?_⟩
  intro h
  generalize hs : b!"'\\x4'" = s at h
  generalize hr : (4 : Nat) = r at h
  cases h with
  | @plain _ bs he h92 =>
    have hl := congrArg (fun s => s[1]?) hs
    cases he <;> simp at hl <;> omega
  | letter hm => simp at hs
  | octal hd _ =>
    have hl := congrArg List.length hs
    have := (digits_fold hd).1
    obtain ⟨-, h2, -⟩ := digits_fold hd
    rename_i s _
    have : s = [120, 52] := by
      have h3 : [39, 92] ++ [120, 52] ++ [39] = [39, 92] ++ s ++ [39] := hs
      exact (List.append_cancel_left (List.append_cancel_right h3)).symm
    subst this
    cases (digits_fold hd).1
  | hex2 hd =>
    have hl := congrArg List.length hs
    have := (digits_fold hd).1
    simp [this] at hl
  | hex4 hd =>
    have hl := congrArg List.length hs
    have := (digits_fold hd).1
    simp [this] at hl
  | hex8 hd =>
    have hl := congrArg List.length hs
    have := (digits_fold hd).1
    simp [this] at hl

/-- C76. Exactly these characters survive `RuneToString` and `RuneValue`: printable ASCII without the backslash, and the control characters with a letter. -/
theorem C76_rune_round_trip_partial (r : Int) :
    runeValue (runeToString r) = some r.toNat ∧ 0 ≤ r ↔ (32 ≤ r ∧ r ≤ 126 ∧ r ≠ 92) ∨ (7 ≤ r ∧ r ≤ 13) := by
  have hex : ∀ (c k : Nat), c = 117 ∨ c = 85 → 4 ≤ k → runeValue (92 :: c :: hexPad k r) = none := by
    intro c k hc hk
    have hl : 4 ≤ (hexPad k r).length := by
      unfold hexPad
      simp only []
      split <;> simp only [List.length_append, List.length_replicate, List.length_cons, List.length_nil] <;> omega
    have hd : decodeRune (c :: hexPad k r) = (c, 1) := utf8_decode (Encodes.one (by omega)) (hexPad k r)
    unfold runeValue
    simp only [List.getElem?_cons_succ, List.getElem?_cons_zero, List.drop_succ_cons, List.drop_zero, hd, List.length_cons]
    rw [if_neg (by omega), if_pos (by omega)]
  by_cases h1 : 32 ≤ r ∧ r < 127
  · have e : runeToString r = [39, r.toNat, 39] := by unfold runeToString; rw [if_pos h1]
    rw [e]
    by_cases h2 : r = 92
    · subst h2; exact ⟨fun h => absurd h.1 (by decide), fun h => by omega⟩
    · have : runeValue [39, r.toNat, 39] = some r.toNat := C76_rune_value (RuneLit.plain (Encodes.one (by omega)) (by omega))
      rw [this]
      exact ⟨fun h => by omega, fun h => ⟨rfl, by omega⟩⟩
  · by_cases h2 : 7 ≤ r ∧ r ≤ 13
    · refine ⟨fun _ => .inr h2, fun _ => ⟨?_, by omega⟩⟩
      obtain rfl | rfl | rfl | rfl | rfl | rfl | rfl : r = 7 ∨ r = 8 ∨ r = 9 ∨ r = 10 ∨ r = 11 ∨ r = 12 ∨ r = 13 := by omega
      all_goals decide +kernel
    · refine ⟨fun ⟨h, _⟩ => ?_, fun h => by omega⟩
      exfalso
      unfold runeToString at h
      rw [if_neg (by omega), if_neg (by omega), if_neg (by omega), if_neg (by omega), if_neg (by omega), if_neg (by omega), if_neg (by omega), if_neg (by omega),
        if_neg (by omega), if_neg (by omega), if_neg (by omega)] at h
      split at h
      · rw [show b!"\\u" ++ hexPad 4 r = 92 :: 117 :: hexPad 4 r from rfl, hex _ _ (.inl rfl) (by decide)] at h
        simp at h
      · rw [show b!"\\U" ++ hexPad 8 r = 92 :: 85 :: hexPad 8 r from rfl, hex _ _ (.inr rfl) (by decide)] at h
        simp at h

/-- C76 (false of the code). The backslash is written unescaped and read as a quote. -/
theorem C76_backslash : runeToString 92 = b!"'\\'" ∧ runeValue (runeToString 92) = some 39 := by decide +kernel

/-! ### integers -/

theorem natText_cons_inv {s : Str} {v : Nat} {k : Nat} (h : Digits 10 k s v) : ∀ c ∈ s, 48 ≤ c ∧ c ≤ 57 := by
  intro c hc
  have := ((digits_fold h).2.1 c hc).1
  unfold digitVal at this
  split at this
  · assumption
  · split at this
    · omega
    · split at this <;> omega

theorem digits_of_all : ∀ (s : Str), (∀ c ∈ s, 48 ≤ c ∧ c ≤ 57) → ∃ v, Digits 10 s.length s v := by
  intro s
  generalize hn : s.length = n
  induction n generalizing s with
  | zero => intro _; cases List.length_eq_zero_iff.1 hn; exact ⟨0, .nil⟩
  | succ n ih =>
    intro h
    have hne : s ≠ [] := by rintro rfl; cases hn
    obtain ⟨v, hv⟩ := ih s.dropLast (by simp [hn]) fun c hc => h c (List.dropLast_subset _ hc)
    have hl := h _ (List.getLast_mem hne)
    refine ⟨10 * v + (s.getLast hne - 48), ?_⟩
    · have := Digits.snoc hv (Digit.num hl.1 hl.2) (by omega)
      rwa [List.dropLast_concat_getLast] at this

/-- Horner's rule with the model's digits. -/
theorem natText_value {s : Str} {v : Nat} : NatText s v ↔ s ≠ [] ∧ (∀ c ∈ s, 48 ≤ c ∧ c ≤ 57) ∧ s.foldl (fun x c => x * 10 + (c - 48)) 0 = v := by
  have key : ∀ (s : Str) (x : Nat), (∀ c ∈ s, 48 ≤ c ∧ c ≤ 57) → s.foldl (fun x c => x * 10 + digitVal c) x = s.foldl (fun x c => x * 10 + (c - 48)) x := by
    intro s
    induction s with
    | nil => intro x _; rfl
    | cons c s ih =>
      intro x h
      have hc := h c List.mem_cons_self
      have : digitVal c = c - 48 := by unfold digitVal; rw [if_pos hc]
      simp only [List.foldl_cons, this]
      exact ih _ fun c hc => h c (List.mem_cons_of_mem _ hc)
  constructor
  · rintro ⟨k, hd, hne⟩
    have ha := natText_cons_inv hd
    refine ⟨hne, ha, ?_⟩
    rw [← key _ _ ha]
    exact (digits_fold hd).2.2
  · rintro ⟨hne, ha, hv⟩
    obtain ⟨v', hd⟩ := digits_of_all s ha
    have : v' = v := by rw [← hv, ← key _ _ ha]; exact (digits_fold hd).2.2.symm
    exact this ▸ ⟨_, hd, hne⟩

theorem fold_mono : ∀ (s : Str) (x : Nat), x ≤ s.foldl (fun x c => x * 10 + (c - 48)) x
  | [], _ => Nat.le_refl _
  | c :: s, x => Nat.le_trans (by omega) (fold_mono s (x * 10 + (c - 48)))

theorem parseUintLoop_spec : ∀ (s : Str) (n : Nat), n < 2 ^ 64 →
    (∀ v, parseUintLoop n s = .ok v ↔ (∀ c ∈ s, 48 ≤ c ∧ c ≤ 57) ∧ s.foldl (fun x c => x * 10 + (c - 48)) n = v ∧ v < 2 ^ 64) ∧
    ((∀ c ∈ s, 48 ≤ c ∧ c ≤ 57) → 2 ^ 64 ≤ s.foldl (fun x c => x * 10 + (c - 48)) n → parseUintLoop n s = .rangeErr (2 ^ 64 - 1))
  | [], n, hn => by
    refine ⟨fun v => ?_, fun _ h => ?_⟩
    · simp only [parseUintLoop, NumRes.ok.injEq, List.foldl_nil]
      exact ⟨fun h => ⟨(fun _ h => nomatch h), h, h ▸ hn⟩, fun h => h.2.1⟩
    · simp only [List.foldl_nil] at h; omega
  | c :: s, n, hn => by
    simp only [parseUintLoop]
    by_cases hc : 48 ≤ c ∧ c ≤ 57
    · rw [if_pos hc]
      have hmono := fold_mono s (n * 10 + (c - 48))
      by_cases hr : n ≥ 2 ^ 64 / 10 + 1 ∨ n * 10 + (c - 48) ≥ 2 ^ 64
      · have hbig : 2 ^ 64 ≤ n * 10 + (c - 48) := by rcases hr with hr | hr <;> omega
        have e : (if n ≥ 2 ^ 64 / 10 + 1 then NumRes.rangeErr (2 ^ 64 - 1) else if n * 10 + (c - 48) ≥ 2 ^ 64 then .rangeErr (2 ^ 64 - 1)
            else parseUintLoop (n * 10 + (c - 48)) s) = NumRes.rangeErr (2 ^ 64 - 1) := by
          split
          · rfl
          · first | rfl | rw [if_pos hbig]
        rw [e]
        refine ⟨fun v => ⟨(fun h => nomatch h), fun h => ?_⟩, fun _ _ => rfl⟩
        simp only [List.foldl_cons] at h
        omega
      · rw [if_neg (fun h => hr (.inl h)), if_neg (fun h => hr (.inr h))]
        obtain ⟨h1, h2⟩ := parseUintLoop_spec s (n * 10 + (c - 48)) (by omega)
        refine ⟨fun v => ?_, fun ha hb => h2 (fun c hc => ha c (List.mem_cons_of_mem _ hc)) hb⟩
        rw [h1 v]
        simp only [List.mem_cons, forall_eq_or_imp, List.foldl_cons]
        exact ⟨fun h => ⟨⟨hc, h.1⟩, h.2⟩, fun h => ⟨h.1.2, h.2⟩⟩
    · rw [if_neg hc]
      refine ⟨fun v => ⟨(fun h => nomatch h), fun h => absurd (h.1 c List.mem_cons_self) hc⟩, fun h => absurd (h c List.mem_cons_self) hc⟩

/-- C76. `UintValue` accepts exactly the decimal numbers below 2^64. -/
theorem C76_uint (s : Str) : (∀ v, uintValue s = .ok v ↔ NatText s v ∧ v < 2 ^ 64) ∧
    (∀ v, NatText s v → 2 ^ 64 ≤ v → uintValue s = .rangeErr (2 ^ 64 - 1)) := by
  obtain ⟨h1, h2⟩ := parseUintLoop_spec s 0 (by decide)
  unfold uintValue parseUint
  refine ⟨fun v => ?_, fun v hv hb => ?_⟩
  · rw [natText_value]
    split
    · rename_i h; exact ⟨(fun h => nomatch h), fun h' => absurd h h'.1.1⟩
    · rename_i h
      rw [h1 v]
      exact ⟨fun h' => ⟨⟨h, h'.1, h'.2.1⟩, h'.2.2⟩, fun h' => ⟨h'.1.2.1, h'.1.2.2, h'.2⟩⟩
  · rw [natText_value] at hv
    rw [if_neg hv.1]
    exact h2 hv.2.1 (hv.2.2 ▸ hb)

theorem natText_unique {s : Str} {v w : Nat} (h : NatText s v) (h' : NatText s w) : v = w := by
  rw [natText_value] at h h'
  rw [← h.2.2, ← h'.2.2]

theorem natText_head {c : Nat} {s : Str} {v : Nat} (h : NatText (c :: s) v) : c ≠ 43 ∧ c ≠ 45 := by
  rw [natText_value] at h
  have := h.2.1 c List.mem_cons_self
  omega

theorem parseIntTail_spec (neg : Bool) (s : Str) :
    (∀ v, parseIntTail neg s = .ok v ↔ ∃ n, NatText s n ∧ v = (if neg then -(n : Int) else n) ∧ -2 ^ 63 ≤ v ∧ v < 2 ^ 63) ∧
    (∀ n, NatText s n → (neg = false → 2 ^ 63 ≤ n) → (neg = true → 2 ^ 63 < n) →
      parseIntTail neg s = .rangeErr (if neg then -2 ^ 63 else 2 ^ 63 - 1)) := by
  obtain ⟨h1, h2⟩ := C76_uint s
  have hu : uintValue s = parseUint s := rfl
  rw [hu] at h1 h2
  unfold parseIntTail
  cases hp : parseUint s with
  | syntaxErr =>
    rw [hp] at h1 h2
    have hno : ∀ n, ¬ NatText s n := by
      intro n hn
      by_cases hb : n < 2 ^ 64
      · exact absurd ((h1 n).2 ⟨hn, hb⟩) (fun h => nomatch h)
      · exact absurd (h2 n hn (by omega)) (fun h => nomatch h)
    exact ⟨fun v => ⟨(fun h => nomatch h), fun ⟨n, hn, _⟩ => absurd hn (hno n)⟩, fun n hn => absurd hn (hno n)⟩
  | rangeErr w =>
    rw [hp] at h1 h2
    have hno : ∀ n, NatText s n → 2 ^ 64 ≤ n := by
      intro n hn
      refine Classical.byContradiction fun hb => ?_
      exact absurd ((h1 n).2 ⟨hn, by omega⟩) (fun h => nomatch h)
    refine ⟨fun v => ⟨fun h => ?_, fun ⟨n, hn, hv, hlo, hhi⟩ => ?_⟩, fun n hn _ _ => ?_⟩
    · cases neg <;> cases h
    · have := hno n hn
      cases neg <;> simp only [Bool.false_eq_true, if_true, if_false] at hv <;> omega
    · cases neg <;> rfl
  | ok un =>
    have hun := (h1 un).1 hp
    refine ⟨fun v => ⟨fun h => ?_, fun ⟨n, hn, hv, hlo, hhi⟩ => ?_⟩, fun n hn hf ht => ?_⟩
    · refine ⟨un, hun.1, ?_⟩
      cases neg
      · simp only [true_and, Bool.false_eq_true, false_and, if_false] at h ⊢
        split at h
        · cases h
        · cases h; exact ⟨rfl, by omega, by omega⟩
      · simp only [Bool.true_eq_false, false_and, true_and, if_false, if_true] at h ⊢
        split at h
        · cases h
        · cases h; exact ⟨rfl, by omega, by omega⟩
    · cases natText_unique hn hun.1
      subst hv
      cases neg
      · simp only [true_and, Bool.false_eq_true, false_and, if_false] at hlo hhi ⊢
        rw [if_neg (by omega)]
      · simp only [Bool.true_eq_false, false_and, true_and, if_false, if_true] at hlo hhi ⊢
        rw [if_neg (by omega)]
    · cases natText_unique hn hun.1
      cases neg
      · have := hf rfl
        simp only [true_and, Bool.false_eq_true, false_and, if_false]
        rw [if_pos (by omega)]
      · have := ht rfl
        simp only [Bool.true_eq_false, false_and, true_and, if_false, if_true]
        rw [if_pos (by omega)]

/-- C76. `IntValue` and `Int64Value` accept exactly the decimal integers from -2^63 to 2^63 - 1, with their value. -/
theorem C76_int (s : Str) : int64Value s = intValue s ∧ (∀ v, intValue s = .ok v ↔ IntText s v ∧ -2 ^ 63 ≤ v ∧ v < 2 ^ 63) ∧
    (∀ v, IntText s v → 2 ^ 63 ≤ v → intValue s = .rangeErr (2 ^ 63 - 1)) ∧ (∀ v, IntText s v → v < -2 ^ 63 → intValue s = .rangeErr (-2 ^ 63)) := by
  refine ⟨rfl, ?_⟩
  unfold intValue parseInt
  cases s with
  | nil =>
    have hno : ∀ v, ¬ IntText [] v := by
      intro v h
      generalize hs : ([] : Str) = s at h
      cases h with
      | bare h => obtain ⟨_, _, h⟩ := h; exact h hs.symm
      | plus h => cases hs
      | minus h => cases hs
    exact ⟨fun v => ⟨(fun h => nomatch h), fun h => absurd h.1 (hno v)⟩, fun v h => absurd h (hno v), fun v h => absurd h (hno v)⟩
  | cons c rest =>
    simp only []
    by_cases h43 : c = 43
    · subst h43
      rw [if_pos rfl]
      obtain ⟨h1, h2⟩ := parseIntTail_spec false rest
      have hinv : ∀ v, IntText (43 :: rest) v ↔ ∃ n, NatText rest n ∧ v = (n : Int) := by
        intro v
        constructor
        · intro h
          generalize hs : 43 :: rest = s at h
          cases h with
          | bare h => subst hs; exact absurd rfl (natText_head h).1
          | plus h => cases hs; exact ⟨_, h, rfl⟩
          | minus h => cases hs
        · rintro ⟨n, hn, rfl⟩; exact .plus hn
      refine ⟨fun v => ?_, fun v hv hb => ?_, fun v hv hb => ?_⟩
      · rw [h1 v, hinv v]
        simp only [Bool.false_eq_true, if_false]
        exact ⟨fun ⟨n, a, b, c⟩ => ⟨⟨n, a, b⟩, c⟩, fun ⟨⟨n, a, b⟩, c⟩ => ⟨n, a, b, c⟩⟩
      · obtain ⟨n, hn, rfl⟩ := (hinv v).1 hv
        exact h2 n hn (fun _ => by omega) (fun h => nomatch h)
      · obtain ⟨n, hn, rfl⟩ := (hinv v).1 hv
        omega
    · rw [if_neg h43]
      by_cases h45 : c = 45
      · subst h45
        rw [if_pos rfl]
        obtain ⟨h1, h2⟩ := parseIntTail_spec true rest
        have hinv : ∀ v, IntText (45 :: rest) v ↔ ∃ n, NatText rest n ∧ v = -(n : Int) := by
          intro v
          constructor
          · intro h
            generalize hs : 45 :: rest = s at h
            cases h with
            | bare h => subst hs; exact absurd rfl (natText_head h).2
            | plus h => cases hs
            | minus h => cases hs; exact ⟨_, h, rfl⟩
          · rintro ⟨n, hn, rfl⟩; exact .minus hn
        refine ⟨fun v => ?_, fun v hv hb => ?_, fun v hv hb => ?_⟩
        · rw [h1 v, hinv v]
          simp only [if_true]
          exact ⟨fun ⟨n, a, b, c⟩ => ⟨⟨n, a, b⟩, c⟩, fun ⟨⟨n, a, b⟩, c⟩ => ⟨n, a, b, c⟩⟩
        · obtain ⟨n, hn, rfl⟩ := (hinv v).1 hv
          omega
        · obtain ⟨n, hn, rfl⟩ := (hinv v).1 hv
          exact h2 n hn (fun h => nomatch h) (fun _ => by omega)
      · rw [if_neg h45]
        obtain ⟨h1, h2⟩ := parseIntTail_spec false (c :: rest)
        have hinv : ∀ v, IntText (c :: rest) v ↔ ∃ n, NatText (c :: rest) n ∧ v = (n : Int) := by
          intro v
          constructor
          · intro h
            generalize hs : c :: rest = s at h
            cases h with
            | bare h => exact ⟨_, h, rfl⟩
            | plus h => cases hs; exact absurd rfl h43
            | minus h => cases hs; exact absurd rfl h45
          · rintro ⟨n, hn, rfl⟩; exact .bare hn
        refine ⟨fun v => ?_, fun v hv hb => ?_, fun v hv hb => ?_⟩
        · rw [h1 v, hinv v]
          simp only [Bool.false_eq_true, if_false]
          exact ⟨fun ⟨n, a, b, c⟩ => ⟨⟨n, a, b⟩, c⟩, fun ⟨⟨n, a, b⟩, c⟩ => ⟨n, a, b, c⟩⟩
        · obtain ⟨n, hn, rfl⟩ := (hinv v).1 hv
          exact h2 n hn (fun _ => by omega) (fun h => nomatch h)
        · obtain ⟨n, hn, rfl⟩ := (hinv v).1 hv
          omega

/-- C76 (partial). `Int32Value` of a number that fits in 32 bits is that number; what is no number from -2^63 to 2^63 - 1 is an error. -/
theorem C76_int32_partial (s : Str) : (∀ v, IntText s v → -2 ^ 31 ≤ v → v < 2 ^ 31 → int32Value s = .ok v) ∧
    ((∀ v, IntText s v → v < -2 ^ 63 ∨ 2 ^ 63 ≤ v) → ∀ v, int32Value s ≠ .ok v) := by
  obtain ⟨-, h1, -⟩ := C76_int s
  have hi : intValue s = parseInt s := rfl
  rw [hi] at h1
  unfold int32Value
  refine ⟨fun v hv hlo hhi => ?_, fun h v => ?_⟩
  · rw [(h1 v).2 ⟨hv, by omega, by omega⟩]
    simp only [NumRes.ok.injEq, toInt32]
    omega
  · split
    · rename_i w hw
      have := (h1 w).1 hw
      have := h w this.1
      omega
    · exact (fun h => nomatch h)
    · exact (fun h => nomatch h)

/-- C76 (false of the code). A larger number is cut to its low 32 bits without an error. -/
theorem C76_int32_wraps : int32Value (b!"4294967297") = .ok 1 ∧ int32Value (b!"2147483648") = .ok (-2147483648) := by decide +kernel

/-! ### tokens -/

/-- C76. A text in quotes: the part between the first and the last byte; shorter texts panic. -/
theorem C76_inner (lit : Str) : (∀ v, inner lit = some v ↔ ∃ a b, lit = [a] ++ v ++ [b]) ∧ (inner lit = none ↔ lit.length < 2) := by
  unfold inner
  refine ⟨fun v => ?_, ?_⟩
  · constructor
    · intro h
      split at h
      · cases h
      · cases h
        cases lit with
        | nil => simp at *
        | cons a t =>
          have hne : t ≠ [] := by rintro rfl; simp at *
          refine ⟨a, t.getLast hne, ?_⟩
          simp only [List.drop_succ_cons, List.drop_zero, List.length_cons, Nat.add_sub_cancel]
          rw [← List.dropLast_eq_take, List.append_assoc, List.dropLast_concat_getLast]
          rfl
    · rintro ⟨a, b, rfl⟩
      rw [if_neg (by simp)]
      simp
  · split <;> simp_all

/-- C76. `UTF8Rune` of a text that begins with a character other than U+FFFD is that character; of a text that begins with none it is U+FFFD and an error. -/
theorem C76_utf8_partial (lit : Str) : (∀ r bs rest, lit = bs ++ rest → Encodes r bs → r ≠ 0xFFFD → utf8Rune lit = (r, false)) ∧
    ((¬ ∃ r bs rest, lit = bs ++ rest ∧ Encodes r bs) → utf8Rune lit = (0xFFFD, true)) := by
  unfold utf8Rune
  refine ⟨fun r bs rest e hr hne => ?_, fun h => ?_⟩
  · subst e
    rw [utf8_decode hr]
    exact if_neg hne
  · cases lit with
    | nil => rfl
    | cons b s => rw [utf8_invalid (by simp) h]; rfl

/-- C76 (false of the code). U+FFFD itself is reported as an error although its encoding is valid. -/
theorem C76_utf8_replacement : Encodes 0xFFFD [0xEF, 0xBF, 0xBD] ∧ utf8Rune [0xEF, 0xBF, 0xBD] = (0xFFFD, true) :=
  ⟨Encodes.three (x := 15) (y := 63) (z := 61) (by decide) (by decide) (by decide) (by decide) (by decide), by decide +kernel⟩

/-- C76. Token types and their names: the names of the grammar, one for each type; other numbers are called unknown, other names have the type INVALID. -/
theorem C76_names : (∀ k w, ErrorText.SymbolName k w → tokType w = k ∧ idOf k = some w) ∧
    (∀ k : Nat, 2 ≤ k → (∀ w, ¬ ErrorText.SymbolName k w) → idOf k = some (b!"unknown")) ∧
    (∀ w, (∀ k, ¬ ErrorText.SymbolName k w) → tokType w = 0) := by
  have hfwd : ∀ k w, ErrorText.SymbolName k w → (w, k) ∈ idMap ∧ typeMap[k]? = some w := by
    intro k w h
    cases h with
    | punct h =>
      simp only [puncts, List.mem_cons, Prod.mk.injEq, List.not_mem_nil, or_false] at h
      rcases h with ⟨rfl, rfl⟩ | ⟨rfl, rfl⟩ | ⟨rfl, rfl⟩ | ⟨rfl, rfl⟩ | ⟨rfl, rfl⟩ | ⟨rfl, rfl⟩ | ⟨rfl, rfl⟩ | ⟨rfl, rfl⟩ | ⟨rfl, rfl⟩ | ⟨rfl, rfl⟩ <;> decide
    | keyword h hl hg =>
      simp only [keywords, List.mem_cons, Prod.mk.injEq, List.not_mem_nil, or_false] at h
      have hl' : w.all (fun c => decide (97 ≤ c ∧ c ≤ 122)) = true := List.all_eq_true.2 fun c hc => decide_eq_true (hl c hc)
      rcases h with h | h | h | h | h | h | h | h | h | h | h | h | h | h | h | h | h | h | h | h | h | h <;> obtain ⟨rfl, rfl⟩ := h <;>
        first | decide | exact absurd rfl hg | exact absurd hl' (by decide)
    | graph => decide
    | ident => decide
    | eof => decide
  have htab : ∀ e ∈ idMap, ErrorText.SymbolName e.2 e.1 ∨ e.2 = 0 := by
    intro e he
    simp only [idMap, List.mem_cons, List.not_mem_nil, or_false] at he
    rcases he with rfl | rfl | rfl | rfl | rfl | rfl | rfl | rfl | rfl | rfl | rfl | rfl | rfl | rfl | rfl | rfl | rfl | rfl | rfl
    · exact .inr rfl
    · exact .inl .eof
    · exact .inl .graph
    all_goals first
      | exact .inl (.punct (by decide))
      | exact .inl (.keyword (by decide) (by unfold ErrorText.LowerCase; decide) (by decide))
      | exact .inl .ident
  refine ⟨fun k w h => ?_, fun k hk h => ?_, fun w h => ?_⟩
  · obtain ⟨h1, h2⟩ := hfwd k w h
    refine ⟨?_, ?_⟩
    · have hu : ∀ e ∈ idMap, tokType e.1 = e.2 := by decide +kernel
      exact hu _ h1
    · unfold idOf tokId
      rw [if_neg (by omega)]
      simp only [Int.toNat_natCast, h2]
  · unfold idOf tokId
    rw [if_neg (by omega)]
    simp only [Int.toNat_natCast]
    cases hq : typeMap[k]? with
    | none => rfl
    | some w =>
      exfalso
      have hlt := (List.getElem?_eq_some_iff.1 hq).1
      have hz : ∀ j : Nat, j < typeMap.length → 2 ≤ j → ∃ e ∈ idMap, e.2 = j := by decide +kernel
      obtain ⟨e, he, rfl⟩ := hz k hlt hk
      rcases htab e he with h' | h'
      · exact h _ h'
      · omega
  · unfold tokType
    cases hf : idMap.find? fun e => e.1 == w with
    | none => rfl
    | some e =>
      have hm := List.mem_of_find?_eq_some hf
      have hw := List.find?_some hf
      simp only [beq_iff_eq] at hw
      subst hw
      rcases htab e hm with h' | h'
      · exact absurd h' (h _)
      · exact h'

/-- C76. `Equals` compares type and text, not the position; a token equals itself; it panics exactly for a nil token. -/
theorem C76_equals (a : Nat) (t : Token) : (∀ b u, (a = b → t = u) → (equals a t (.tok b u) = some true ↔ t.typ = u.typ ∧ t.lit = u.lit)) ∧
    equals a t .other = some false ∧ ∀ x, equals a t x = none ↔ x = .nil := by
  refine ⟨fun b u hab => ?_, rfl, fun x => ?_⟩
  · simp only [equals, Option.some.injEq, Bool.or_eq_true, beq_iff_eq, Bool.and_eq_true]
    refine ⟨?_, .inr⟩
    rintro (h | h)
    · cases hab h; exact ⟨rfl, rfl⟩
    · exact h
  · cases x <;> simp [equals]

/-- C76. Positions as text: the name of the source, line and column; or offset, line and column. -/
theorem C76_position (offset line column : Nat) (path : Str) : ∃ o l c, Spec.Decimal offset o ∧ Spec.Decimal line l ∧ Spec.Decimal column c ∧
    posString (.source path) offset line column = path ++ b!":" ++ l ++ b!":" ++ c ∧
    posString .plain offset line column = b!"Pos(offset=" ++ o ++ b!", line=" ++ l ++ b!", column=" ++ c ++ b!")" :=
  ⟨_, _, _, decDigits_decimal _, decDigits_decimal _, decDigits_decimal _, rfl, rfl⟩

/-- C76. Types and tokens as text: name, number and (for a token) its text. -/
theorem C76_token_string {k : Nat} {w : Str} (h : ErrorText.SymbolName k w) (lit : Str) : ∃ d, Spec.Decimal k d ∧
    stringType k = some (w ++ b!"(" ++ d ++ b!")") ∧ tokenString k lit = some (w ++ b!"(" ++ d ++ b!"," ++ lit ++ b!")") := by
  have hid := (C76_names.1 k w h).2
  have hd : decInt k = decDigits k := by unfold decInt; rw [if_neg (by omega), Int.natAbs_natCast]
  refine ⟨decDigits k, decDigits_decimal k, ?_, ?_⟩
  · unfold stringType; rw [hid, hd]; rfl
  · unfold tokenString; rw [hid, hd]; rfl

/-- All tokens of a scanner with a context. -/
inductive Scans : Lexer × Context → List (Token × Context) → Prop where
  | nil {l : Lexer × Context} : Scans l []
  | cons {l l' : Lexer × Context} {t : Token × Context} {ts : List (Token × Context)} : scanCtx l = some (t, l') → Scans l' ts → Scans l (t :: ts)

/-- The same without a context. -/
inductive ScansPlain : Lexer → List Token → Prop where
  | nil {l : Lexer} : ScansPlain l []
  | cons {l l' : Lexer} {t : Token} {ts : List Token} : scan l = some (t, l') → ScansPlain l' ts → ScansPlain l (t :: ts)

/-- C76. A scanner of a file returns the tokens of the bytes of the file, and each of them knows the path; if the file cannot be read, the error is returned. -/
theorem C76_lexer_file (path : Str) : (∀ e, newLexerFile path (.error e) = .error e) ∧ ∀ src, ∃ l, newLexerFile path (.ok src) = .ok l ∧
    ∀ ts, Scans l ts ↔ ∃ us, ScansPlain (newLexer src) us ∧ ts = us.map fun t => (t, Context.source path) := by
  refine ⟨fun _ => rfl, fun src => ⟨_, rfl, ?_⟩⟩
  generalize newLexer src = l
  intro ts
  induction ts generalizing l with
  | nil =>
    refine ⟨fun _ => ⟨[], .nil, rfl⟩, fun _ => .nil⟩
  | cons t ts ih =>
    constructor
    · intro h
      generalize hl : (l, Context.source path) = p at h
      cases h with
      | cons h1 h2 =>
        subst hl
        unfold scanCtx at h1
        cases hs : scan l with
        | none => rw [hs] at h1; cases h1
        | some r =>
          rw [hs] at h1
          cases h1
          obtain ⟨us, hu, rfl⟩ := (ih r.2).1 h2
          exact ⟨r.1 :: us, .cons hs hu, rfl⟩
    · rintro ⟨us, hu, e⟩
      cases us with
      | nil => cases e
      | cons u us =>
        cases hu with
        | cons h1 h2 =>
          simp only [List.map_cons, List.cons.injEq] at e
          obtain ⟨rfl, rfl⟩ := e
          refine .cons ?_ ((ih _).2 ⟨us, h2, rfl⟩)
          unfold scanCtx
          simp only [h1]
          rfl

/-! ### concrete cases -/

/-- `'\u00e9'`, `'é'`, `'\351'` and `'\''` are rune literals, of é and the quote. -/
theorem example_literals : RuneLit (b!"'\\u00e9'") 0xE9 ∧ RuneLit ([39] ++ [0xC3, 0xA9] ++ [39]) 0xE9 ∧ RuneLit (b!"'\\351'") 0xE9 ∧ RuneLit (b!"'\\''") 39 ∧
    IntText (b!"-042") (-42) ∧ (∃ r, runeValue (b!"'\\u00e9'") = some r) := by
  have d48 : Digit 48 0 := .num (c := 48) (by decide) (by decide)
  have n : ∀ c, 48 ≤ c → c ≤ 57 → Digit c (c - 48) := fun c a b => .num a b
  refine ⟨?_, ?_, ?_, ?_, ?_, ?_⟩
  · have := (((Digits.nil (base := 16)).snoc d48 (by decide)).snoc d48 (by decide)).snoc (Digit.lower (c := 101) (by decide) (by decide)) (by decide)
      |>.snoc (n 57 (by decide) (by decide)) (by decide)
    exact RuneLit.hex4 this ⟨by decide, by decide⟩
  · exact RuneLit.plain (Encodes.two (x := 3) (y := 41) (by decide) (by decide) (by decide)) (by decide)
  · have := ((Digits.nil (base := 8)).snoc (n 51 (by decide) (by decide)) (by decide)).snoc (n 53 (by decide) (by decide)) (by decide)
      |>.snoc (n 49 (by decide) (by decide)) (by decide)
    exact RuneLit.octal this (by decide)
  · exact RuneLit.letter (l := 39) (by decide)
  · have := ((Digits.nil (base := 10)).snoc d48 (by decide)).snoc (n 52 (by decide) (by decide)) (by decide) |>.snoc (n 50 (by decide) (by decide)) (by decide)
    exact IntText.minus (v := 42) ⟨_, this, by simp⟩
  · exact ⟨0xE9, by decide +kernel⟩

end Gographviz.Props
