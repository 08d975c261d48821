import Verif.Model.Base
import Verif.Spec.Utf8
/-!
The model of `utf8.DecodeRune` decodes UTF-8. This is about Go's standard library, not the package; it takes the decoder of the model out of what has to be trusted.
-/
namespace Gographviz.Props
open Gographviz Gographviz.Spec

/-- A text that begins with an encoded character: that character, and the number of its bytes. -/
theorem utf8_decode {r : Nat} {bs : Str} (h : Encodes r bs) (rest : Str) : decodeRune (bs ++ rest) = (r, bs.length) := by
  cases h with
  | one h => simp [decodeRune, h]
  | @two x y hx hy hr =>
    simp only [List.cons_append, List.nil_append, decodeRune]
    rw [if_neg (by omega), if_pos (by simp; omega), if_pos (by simp [isCont]; omega)]
    simp
  | @three x y z hx hy hz h1 h2 =>
    simp only [List.cons_append, List.nil_append, decodeRune]
    rw [if_neg (by omega), if_neg (by simp; omega), if_pos (by simp; omega), if_pos]
    · simp
    · simp only [isCont, Bool.and_eq_true, decide_eq_true_eq]
      split <;> split <;> omega
  | @four w x y z hw hx hy hz h1 h2 =>
    simp only [List.cons_append, List.nil_append, decodeRune]
    rw [if_neg (by omega), if_neg (by simp; omega), if_neg (by simp; omega), if_pos (by simp; omega), if_pos]
    · simp
    · simp only [isCont, Bool.and_eq_true, decide_eq_true_eq]
      split <;> split <;> omega

theorem decodeRune_encodes {b : Nat} {s : Str} : decodeRune (b :: s) = (runeError, 1) ∨ ∃ r bs rest, b :: s = bs ++ rest ∧ Encodes r bs := by
  simp only [decodeRune]
  split
  · rename_i h
    exact .inr ⟨b, [b], s, rfl, .one h⟩
  · split
    · rename_i h0 h
      simp only [Bool.and_eq_true, decide_eq_true_eq] at h
      split
      · rename_i b1 r
        split
        · rename_i h1
          simp only [isCont, Bool.and_eq_true, decide_eq_true_eq] at h1
          refine .inr ⟨(b - 0xC0) * 64 + (b1 - 0x80), [b, b1], r, rfl, ?_⟩
          have := Encodes.two (x := b - 0xC0) (y := b1 - 0x80) (by omega) (by omega) (by omega)
          rwa [show 0xC0 + (b - 0xC0) = b by omega, show 0x80 + (b1 - 0x80) = b1 by omega] at this
        · exact .inl rfl
      · exact .inl rfl
    · split
      · rename_i h0 h1 h
        simp only [Bool.and_eq_true, decide_eq_true_eq] at h
        split
        · rename_i b1 b2 r
          generalize hlo : (if b = 0xE0 then 0xA0 else 0x80) = lo
          generalize hhi : (if b = 0xED then 0x9F else 0xBF) = hi
          split
          · rename_i h2
            simp only [isCont, Bool.and_eq_true, decide_eq_true_eq] at h2
            refine .inr ⟨(b - 0xE0) * 4096 + (b1 - 0x80) * 64 + (b2 - 0x80), [b, b1, b2], r, rfl, ?_⟩
            have := Encodes.three (x := b - 0xE0) (y := b1 - 0x80) (z := b2 - 0x80) (by omega) (by subst hlo hhi; revert h2; split <;> split <;> omega) (by omega)
              (by subst hlo hhi; revert h2; split <;> split <;> omega) (by subst hlo hhi; revert h2; split <;> split <;> omega)
            have hb1 : 0x80 ≤ b1 := by subst hlo hhi; revert h2; split <;> split <;> omega
            rwa [show 0xE0 + (b - 0xE0) = b by omega, show 0x80 + (b1 - 0x80) = b1 by omega, show 0x80 + (b2 - 0x80) = b2 by omega] at this
          · exact .inl rfl
        · exact .inl rfl
      · split
        · rename_i h0 h1 h2 h
          simp only [Bool.and_eq_true, decide_eq_true_eq] at h
          split
          · rename_i b1 b2 b3 r
            generalize hlo : (if b = 0xF0 then 0x90 else 0x80) = lo
            generalize hhi : (if b = 0xF4 then 0x8F else 0xBF) = hi
            split
            · rename_i h2
              simp only [isCont, Bool.and_eq_true, decide_eq_true_eq] at h2
              refine .inr ⟨(b - 0xF0) * 262144 + (b1 - 0x80) * 4096 + (b2 - 0x80) * 64 + (b3 - 0x80), [b, b1, b2, b3], r, rfl, ?_⟩
              have := Encodes.four (w := b - 0xF0) (x := b1 - 0x80) (y := b2 - 0x80) (z := b3 - 0x80) (by omega) (by subst hlo hhi; revert h2; split <;> split <;> omega) (by omega) (by omega)
                (by subst hlo hhi; revert h2; split <;> split <;> omega) (by subst hlo hhi; revert h2; split <;> split <;> omega)
              have hb1 : 0x80 ≤ b1 := by subst hlo hhi; revert h2; split <;> split <;> omega
              rwa [show 0xF0 + (b - 0xF0) = b by omega, show 0x80 + (b1 - 0x80) = b1 by omega, show 0x80 + (b2 - 0x80) = b2 by omega,
                show 0x80 + (b3 - 0x80) = b3 by omega] at this
            · exact .inl rfl
          · exact .inl rfl
        · exact .inl rfl

/-- A text that does not begin with an encoded character: U+FFFD, one byte. -/
theorem utf8_invalid {s : Str} (hs : s ≠ []) (h : ¬ ∃ r bs rest, s = bs ++ rest ∧ Encodes r bs) : decodeRune s = (0xFFFD, 1) := by
  cases s with
  | nil => exact absurd rfl hs
  | cons b s => exact decodeRune_encodes.resolve_right h

/-- Different characters have different encodings, none of which begins with another. -/
theorem utf8_prefix_free {r r' : Nat} {bs bs' rest rest' : Str} (h : Encodes r bs) (h' : Encodes r' bs') (e : bs ++ rest = bs' ++ rest') : r = r' ∧ bs = bs' := by
  have h1 := utf8_decode h rest
  have h2 := utf8_decode h' rest'
  rw [e, h2] at h1
  simp only [Prod.mk.injEq] at h1
  exact ⟨h1.1.symm, (List.append_inj e h1.2.symm).1⟩

/-- `ä`, `€`, a character beyond U+FFFF; an overlong form, a surrogate, a truncated text. -/
example : Encodes 0xE4 [0xC3, 0xA4] ∧ Encodes 0x20AC [0xE2, 0x82, 0xAC] ∧ Encodes 0x1F600 [0xF0, 0x9F, 0x98, 0x80] ∧
    decodeRune [0xC0, 0x80] = (0xFFFD, 1) ∧ decodeRune [0xED, 0xA0, 0x80] = (0xFFFD, 1) ∧ decodeRune [0xE2, 0x82] = (0xFFFD, 1) :=
  ⟨.two (x := 3) (y := 0x24) (by decide) (by decide) (by decide), .three (x := 2) (y := 2) (z := 0x2C) (by decide) (by decide) (by decide) (by decide) (by decide),
    .four (w := 0) (x := 0x1F) (y := 0x18) (z := 0) (by decide) (by decide) (by decide) (by decide) (by decide) (by decide), rfl, rfl, rfl⟩

end Gographviz.Props
