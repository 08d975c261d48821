/-!
The part of Go's standard library that `internal/parser` uses when it is initialised: `compress/gzip` (RFC 1952 and 1951). Bytes are natural numbers.
-/
namespace Gographviz.Gzip

/-- The bits of a byte, least significant first (RFC 1951, 3.1.1). -/
def byteBits (b : Nat) : List Bool :=
  [b.testBit 0, b.testBit 1, b.testBit 2, b.testBit 3, b.testBit 4, b.testBit 5, b.testBit 6, b.testBit 7]

/-- Reading from a stream of bits. -/
abbrev Rd (α : Type) := List Bool → Option (α × List Bool)

/-- A number of `n` bits, least significant bit first. -/
def number : Nat → Rd Nat
  | 0, bs => some (0, bs)
  | _ + 1, [] => none
  | n + 1, b :: bs => match number n bs with
    | none => none
    | some (v, r) => some (2 * v + b.toNat, r)

/-- A prefix code as a tree: 0 is left, 1 is right. -/
inductive Code where
  | empty
  | leaf (symbol : Nat)
  | node (zero one : Code)

/-- Adding a code word for a symbol. -/
def Code.insert (s : Nat) : List Bool → Code → Code
  | [], _ => .leaf s
  | b :: bs, .node l r => if b then .node l (Code.insert s bs r) else .node (Code.insert s bs l) r
  | b :: bs, _ => if b then .node .empty (Code.insert s bs .empty) else .node (Code.insert s bs .empty) .empty

/-- Reading one symbol. -/
def Code.read : Code → Rd Nat
  | .empty, _ => none
  | .leaf s, bs => some (s, bs)
  | .node _ _, [] => none
  | .node l r, b :: bs => if b then r.read bs else l.read bs

/-- The `n` low bits of a code word, most significant first. -/
def wordBits : Nat → Nat → List Bool
  | 0, _ => []
  | n + 1, w => w.testBit n :: wordBits n w

/-- Code words for the symbols of length `len` among `lens` (numbered from `s`), beginning with the word `w`. -/
def assign (len : Nat) : List Nat → Nat → Nat → Code → Nat × Code
  | [], _, w, c => (w, c)
  | l :: ls, s, w, c => if l = len then assign len ls (s + 1) (w + 1) (c.insert s (wordBits len w)) else assign len ls (s + 1) w c

/-- The canonical code with the given lengths (RFC 1951, 3.2.2); `n` lengths from `len` on remain. -/
def canonical (lens : List Nat) : Nat → Nat → Nat → Code → Code
  | 0, _, _, c => c
  | n + 1, len, w, c =>
    let (w', c') := assign len lens 0 w c
    canonical lens n (len + 1) (2 * w') c'

/-- The code for symbols of the given code lengths (0: not used). -/
def codeOf (lens : List Nat) : Code := canonical lens 15 1 0 .empty

/-- RFC 1951, 3.2.5: first length and number of extra bits of the symbols 257 to 285. -/
def lengthTable : List (Nat × Nat) := [(3, 0), (4, 0), (5, 0), (6, 0), (7, 0), (8, 0), (9, 0), (10, 0), (11, 1), (13, 1), (15, 1), (17, 1), (19, 2), (23, 2),
  (27, 2), (31, 2), (35, 3), (43, 3), (51, 3), (59, 3), (67, 4), (83, 4), (99, 4), (115, 4), (131, 5), (163, 5), (195, 5), (227, 5), (258, 0)]

/-- RFC 1951, 3.2.5: first distance and number of extra bits. -/
def distTable : List (Nat × Nat) := [(1, 0), (2, 0), (3, 0), (4, 0), (5, 1), (7, 1), (9, 2), (13, 2), (17, 3), (25, 3), (33, 4), (49, 4), (65, 5), (97, 5),
  (129, 6), (193, 6), (257, 7), (385, 7), (513, 8), (769, 8), (1025, 9), (1537, 9), (2049, 10), (3073, 10), (4097, 11), (6145, 11), (8193, 12), (12289, 12),
  (16385, 13), (24577, 13)]

/-- A value of a table: base plus extra bits. -/
def fromTable (t : List (Nat × Nat)) (i : Nat) : Rd Nat := fun bs =>
  match t[i]? with
  | none => none
  | some (base, extra) => match number extra bs with
    | none => none
    | some (x, r) => some (base + x, r)

/-- Appending `n` bytes that repeat `whole` to the (reversed) output. -/
def cycle (whole : List Nat) : Nat → List Nat → List Nat → List Nat
  | 0, _, out => out
  | n + 1, x :: xs, out => cycle whole n xs (x :: out)
  | n + 1, [], out => match whole with
    | [] => out
    | x :: xs => cycle whole n xs (x :: out)

/-- Appending a copy of `len` bytes that starts `dist` bytes back (RFC 1951, 3.2.3). -/
def copyBack (len dist : Nat) (out : List Nat) : Option (List Nat) :=
  let w := out.take dist
  if w.length = dist then let w' := w.reverse; some (cycle w' len w' out) else none

/-- The symbols of a compressed block up to the end-of-block symbol 256. -/
def symbols (lit dist : Code) : Nat → List Nat → Rd (List Nat)
  | 0, _, _ => none
  | fuel + 1, out, bs => match lit.read bs with
    | none => none
    | some (s, bs) =>
      if s < 256 then symbols lit dist fuel (s :: out) bs
      else if s = 256 then some (out, bs)
      else match fromTable lengthTable (s - 257) bs with
        | none => none
        | some (len, bs) => match dist.read bs with
          | none => none
          | some (d, bs) => match fromTable distTable d bs with
            | none => none
            | some (d, bs) => match copyBack len d out with
              | none => none
              | some out => symbols lit dist fuel out bs

/-- RFC 1951, 3.2.6: the fixed codes. -/
def fixedLit : Code := codeOf (List.replicate 144 8 ++ List.replicate 112 9 ++ List.replicate 24 7 ++ List.replicate 8 8)
def fixedDist : Code := codeOf (List.replicate 30 5)

/-- Numbers of 3 bits. -/
def threeBits : Nat → Rd (List Nat)
  | 0, bs => some ([], bs)
  | n + 1, bs => match number 3 bs with
    | none => none
    | some (x, bs) => match threeBits n bs with
      | none => none
      | some (xs, bs) => some (x :: xs, bs)

/-- RFC 1951, 3.2.7: the order of the lengths of the code for code lengths. -/
def lengthOrder : List Nat := [16, 17, 18, 0, 8, 7, 9, 6, 10, 5, 11, 4, 12, 3, 13, 2, 14, 1, 15]

/-- `n` code lengths (collected in reverse) with the repetition codes 16, 17 and 18. -/
def codeLengths (c : Code) (n : Nat) : Nat → List Nat → Rd (List Nat)
  | 0, _, _ => none
  | fuel + 1, acc, bs =>
    if acc.length = n then some (acc.reverse, bs)
    else if n < acc.length then none
    else match c.read bs with
      | none => none
      | some (s, bs) =>
        if s < 16 then codeLengths c n fuel (s :: acc) bs
        else if s = 16 then match acc with
          | [] => none
          | x :: _ => match number 2 bs with
            | none => none
            | some (k, bs) => codeLengths c n fuel (List.replicate (3 + k) x ++ acc) bs
        else if s = 17 then match number 3 bs with
          | none => none
          | some (k, bs) => codeLengths c n fuel (List.replicate (3 + k) 0 ++ acc) bs
        else match number 7 bs with
          | none => none
          | some (k, bs) => codeLengths c n fuel (List.replicate (11 + k) 0 ++ acc) bs

/-- RFC 1951, 3.2.7: the codes of a block with dynamic codes. -/
def dynamicCodes : Rd (Code × Code) := fun bs =>
  match number 5 bs with
  | none => none
  | some (hlit, bs) => match number 5 bs with
    | none => none
    | some (hdist, bs) => match number 4 bs with
      | none => none
      | some (hclen, bs) => match threeBits (hclen + 4) bs with
        | none => none
        | some (ls, bs) =>
          let lens := (List.range 19).map fun s => ((lengthOrder.zip ls).lookup s).getD 0
          match codeLengths (codeOf lens) (hlit + 257 + (hdist + 1)) 400 [] bs with
          | none => none
          | some (all, bs) => some ((codeOf (all.take (hlit + 257)), codeOf (all.drop (hlit + 257))), bs)

/-- Bytes of a stored block. -/
def storedBytes : Nat → List Nat → Rd (List Nat)
  | 0, out, bs => some (out, bs)
  | n + 1, out, bs => match number 8 bs with
    | none => none
    | some (x, bs) => storedBytes n (x :: out) bs

/-- Skipping to a byte boundary. -/
def align (bs : List Bool) : List Bool := bs.drop (bs.length % 8)

/-- The blocks (RFC 1951, 3.2.3); the output is collected in reverse. -/
def blocks : Nat → List Nat → Rd (List Nat)
  | 0, _, _ => none
  | fuel + 1, out, bs => match number 1 bs with
    | none => none
    | some (final, bs) => match number 2 bs with
      | none => none
      | some (kind, bs) =>
        let r : Option (List Nat × List Bool) :=
          if kind = 0 then match number 16 (align bs) with
            | none => none
            | some (len, bs) => match number 16 bs with
              | none => none
              | some (nlen, bs) => if len + nlen = 65535 then storedBytes len out bs else none
          else if kind = 1 then symbols fixedLit fixedDist (bs.length + 1) out bs
          else if kind = 2 then match dynamicCodes bs with
            | none => none
            | some ((l, d), bs) => symbols l d (bs.length + 1) out bs
          else none
        match r with
        | none => none
        | some (out, bs) => if final = 1 then some (out, bs) else blocks fuel out bs

/-- One bit of the CRC (RFC 1952, 8). -/
def crcBit (c : Nat) : Nat := if c % 2 = 1 then 0xEDB88320 ^^^ (c / 2) else c / 2

/-- One byte of the CRC. -/
def crcByte (c b : Nat) : Nat :=
  let c := crcBit (crcBit (crcBit (crcBit (c ^^^ b))))
  crcBit (crcBit (crcBit (crcBit c)))

/-- The CRC-32 of some bytes. -/
def crc32 (bs : List Nat) : Nat := (bs.foldl crcByte 0xFFFFFFFF) ^^^ 0xFFFFFFFF

/-- A gzip member without optional header fields, and nothing after it (RFC 1952, 2.3): the uncompressed bytes, if the check sum and the length
are right. `gzip.Reader` also allows optional header fields and several members, which the tables of this project do not have. -/
def gunzip : List Nat → Option (List Nat)
  | 0x1f :: 0x8b :: 8 :: 0 :: _ :: _ :: _ :: _ :: _ :: _ :: body =>
    let bs := body.flatMap byteBits
    match blocks (bs.length + 1) [] bs with
    | none => none
    | some (out, bs) => match number 32 (align bs) with
      | none => none
      | some (crc, bs) => match number 32 bs with
        | none => none
        | some (size, bs) =>
          let data := out.reverse
          if bs = [] ∧ crc = crc32 data ∧ size = data.length % 4294967296 then some data else none
  | _ => none

end Gographviz.Gzip
