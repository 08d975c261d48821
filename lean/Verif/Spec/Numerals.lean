import Verif.Model.Base
/-!
Numbers as text. Independent of the model (which supplies only `Str`, lists of bytes).
-/
namespace Gographviz.Spec

/-- `s` is the decimal numeral of `n`: digits, at least one, no superfluous zero in front, and Horner's rule gives `n`. -/
structure Decimal (n : Nat) (s : Str) : Prop where
  digits : ∀ c ∈ s, 48 ≤ c ∧ c ≤ 57
  some_digit : s ≠ []
  no_zero : s.head? = some 48 → s = [48]
  value : s.foldl (fun v c => 10 * v + (c - 48)) 0 = n

/-- The value of a hexadecimal digit in lower case. -/
def hexValue (c : Nat) : Nat := if c ≤ 57 then c - 48 else c - 97 + 10

/-- `s` is the numeral of `n` with `k` hexadecimal digits in lower case. -/
structure Hexadecimal (k n : Nat) (s : Str) : Prop where
  digits : ∀ c ∈ s, (48 ≤ c ∧ c ≤ 57) ∨ (97 ≤ c ∧ c ≤ 102)
  length : s.length = k
  value : s.foldl (fun v c => 16 * v + hexValue c) 0 = n

end Gographviz.Spec
