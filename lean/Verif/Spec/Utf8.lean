/-!
UTF-8 (RFC 3629, section 3): which bytes encode a character. Written without the decoder of the model.
-/
namespace Gographviz.Spec

/-- `Encodes r bs`: the bytes `bs` are the UTF-8 encoding of the character number `r`. The bits of `r` are in the low bits of the bytes (6 in every byte but the first); the
shortest form is used; surrogates and numbers above 10FFFF have none. -/
inductive Encodes : Nat → List Nat → Prop where
  | one {r : Nat} : r < 0x80 → Encodes r [r]
  | two {x y : Nat} : x < 32 → y < 64 → 0x80 ≤ x * 64 + y → Encodes (x * 64 + y) [0xC0 + x, 0x80 + y]
  | three {x y z : Nat} : x < 16 → y < 64 → z < 64 → 0x800 ≤ x * 4096 + y * 64 + z → ¬ (0xD800 ≤ x * 4096 + y * 64 + z ∧ x * 4096 + y * 64 + z ≤ 0xDFFF) →
      Encodes (x * 4096 + y * 64 + z) [0xE0 + x, 0x80 + y, 0x80 + z]
  | four {w x y z : Nat} : w < 8 → x < 64 → y < 64 → z < 64 → 0x10000 ≤ w * 262144 + x * 4096 + y * 64 + z → w * 262144 + x * 4096 + y * 64 + z ≤ 0x10FFFF →
      Encodes (w * 262144 + x * 4096 + y * 64 + z) [0xF0 + w, 0x80 + x, 0x80 + y, 0x80 + z]

end Gographviz.Spec
