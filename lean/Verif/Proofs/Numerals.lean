import Verif.Spec.Numerals
import Verif.Model.Errors
/-!
The numerals of the model are numerals.
-/
namespace Gographviz

open Gographviz Spec Parse

theorem decN_digits (f : Nat) : ∀ (n : Nat) (acc : Str), (∀ c ∈ acc, 48 ≤ c ∧ c ≤ 57) → ∀ c ∈ decDigitsN f n acc, 48 ≤ c ∧ c ≤ 57 := by
  induction f with
  | zero => intro n acc h; exact h
  | succ f ih =>
    intro n acc h
    have hd : ∀ c ∈ (48 + n % 10) :: acc, 48 ≤ c ∧ c ≤ 57 := by
      intro c hc
      rcases List.mem_cons.1 hc with rfl | hc
      · omega
      · exact h c hc
    simp only [decDigitsN]
    split
    · exact hd
    · exact ih _ _ hd

/-- Horner's rule, from a value on. -/
def horner (v : Nat) (s : Str) : Nat := s.foldl (fun v c => 10 * v + (c - 48)) v

theorem decN_value (f : Nat) : ∀ (n : Nat) (acc : Str), n < f → horner 0 (decDigitsN f n acc) = horner n acc := by
  induction f with
  | zero => intro n acc h; omega
  | succ f ih =>
    intro n acc h
    simp only [decDigitsN]
    split
    · rename_i h0
      have : 10 * 0 + (48 + n % 10 - 48) = n := by omega
      show horner (10 * 0 + (48 + n % 10 - 48)) acc = _
      rw [this]
    · rename_i h0
      rw [ih _ _ (by omega)]
      have : 10 * (n / 10) + (48 + n % 10 - 48) = n := by omega
      show horner (10 * (n / 10) + (48 + n % 10 - 48)) acc = _
      rw [this]

theorem decN_head (f : Nat) : ∀ (n : Nat) (acc : Str), n < f → (n ≠ 0 → (decDigitsN f n acc).head? ≠ some 48) ∧ decDigitsN f n acc ≠ [] := by
  induction f with
  | zero => intro n acc h; omega
  | succ f ih =>
    intro n acc h
    simp only [decDigitsN]
    split
    · rename_i h0
      refine ⟨fun hn => ?_, List.cons_ne_nil _ _⟩
      simp only [List.head?_cons, ne_eq, Option.some.injEq]
      omega
    · rename_i h0
      obtain ⟨a, b⟩ := ih (n / 10) ((48 + n % 10) :: acc) (by omega)
      exact ⟨fun _ => a h0, b⟩

theorem decDigits_decimal (n : Nat) : Decimal n (decDigits n) where
  digits := decN_digits _ _ _ (fun _ h => nomatch h)
  some_digit := (decN_head (n + 1) n [] (by omega)).2
  no_zero h := by
    by_cases hn : n = 0
    · subst hn; rfl
    · exact absurd h ((decN_head (n + 1) n [] (by omega)).1 hn)
  value := decN_value (n + 1) n [] (by omega)

theorem hexDigits_hexadecimal : ∀ (k n : Nat), n < 16 ^ k → Hexadecimal k n (hexDigits k n)
  | 0, n, h => ⟨(fun _ h => nomatch h), rfl, by
    have : n = 0 := by simpa using h
    subst this; rfl⟩
  | k + 1, n, h => by
    have ih := hexDigits_hexadecimal k (n / 16) (by rw [Nat.pow_succ] at h; omega)
    have hd : (48 ≤ hexDigit (n % 16) ∧ hexDigit (n % 16) ≤ 57) ∨ (97 ≤ hexDigit (n % 16) ∧ hexDigit (n % 16) ≤ 102) := by
      unfold hexDigit
      split <;> omega
    have hv : hexValue (hexDigit (n % 16)) = n % 16 := by
      unfold hexValue hexDigit
      split <;> split <;> omega
    refine ⟨?_, ?_, ?_⟩
    · intro c hc
      rcases List.mem_append.1 hc with hc | hc
      · exact ih.digits c hc
      · cases List.mem_singleton.1 hc; exact hd
    · simp only [hexDigits, List.length_append, ih.length, List.length_singleton]
    · simp only [hexDigits, List.foldl_append, ih.value, List.foldl_cons, List.foldl_nil, hv]
      omega

end Gographviz
