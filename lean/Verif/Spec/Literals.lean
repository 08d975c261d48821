import Verif.Spec.Numerals
import Verif.Spec.Utf8
/-!
Literals of Go (The Go Programming Language Specification, "Rune literals", "Integer literals"), for C76. Independent of the model.
-/
namespace Gographviz.Spec

/-- A digit and its value: 0-9, a-f, A-F. -/
inductive Digit : Nat → Nat → Prop where
  | num {c : Nat} : 48 ≤ c → c ≤ 57 → Digit c (c - 48)
  | lower {c : Nat} : 97 ≤ c → c ≤ 102 → Digit c (c - 87)
  | upper {c : Nat} : 65 ≤ c → c ≤ 70 → Digit c (c - 55)

/-- `s` is a string of `k` digits of a base, with value `v`. -/
inductive Digits (base : Nat) : Nat → Str → Nat → Prop where
  | nil : Digits base 0 [] 0
  | snoc {k v c d : Nat} {s : Str} : Digits base k s v → Digit c d → d < base → Digits base (k + 1) (s ++ [c]) (base * v + d)

/-- A character: a number up to 10FFFF that is no surrogate. -/
def IsChar (r : Nat) : Prop := r ≤ 0x10FFFF ∧ ¬ (0xD800 ≤ r ∧ r ≤ 0xDFFF)

/-- The letters after a backslash in a rune literal. -/
def runeEscapes : List (Nat × Nat) := [(97, 7), (98, 8), (102, 12), (110, 10), (114, 13), (116, 9), (118, 11), (92, 92), (39, 39)]

/-- A rune literal and the character it stands for. (Go also excludes the quote and the newline as plain characters; the code does not.) -/
inductive RuneLit : Str → Nat → Prop where
  | plain {r : Nat} {bs : Str} : Encodes r bs → r ≠ 92 → RuneLit ([39] ++ bs ++ [39]) r
  | letter {l r : Nat} : (l, r) ∈ runeEscapes → RuneLit [39, 92, l, 39] r
  | octal {s : Str} {r : Nat} : Digits 8 3 s r → r ≤ 255 → RuneLit ([39, 92] ++ s ++ [39]) r
  | hex2 {s : Str} {r : Nat} : Digits 16 2 s r → RuneLit ([39, 92, 120] ++ s ++ [39]) r
  | hex4 {s : Str} {r : Nat} : Digits 16 4 s r → IsChar r → RuneLit ([39, 92, 117] ++ s ++ [39]) r
  | hex8 {s : Str} {r : Nat} : Digits 16 8 s r → IsChar r → RuneLit ([39, 92, 85] ++ s ++ [39]) r

/-- A natural number in decimal, leading zeros allowed. -/
def NatText (s : Str) (v : Nat) : Prop := ∃ k, Digits 10 k s v ∧ s ≠ []

/-- An integer in decimal with an optional sign. -/
inductive IntText : Str → Int → Prop where
  | bare {s : Str} {v : Nat} : NatText s v → IntText s v
  | plus {s : Str} {v : Nat} : NatText s v → IntText (43 :: s) v
  | minus {s : Str} {v : Nat} : NatText s v → IntText (45 :: s) (-(v : Int))

end Gographviz.Spec
