import Verif.Model.Base
/-!
The part of Go's standard library that `internal/parser` uses when it is initialised: decoding with `encoding/gob`, for the kinds of types that occur
(booleans, integers, strings, slices, structs). Bytes are natural numbers.
-/
namespace Gographviz.Gob

/-- Reading from a stream of bytes. -/
abbrev R (α : Type) := List Nat → Option (α × List Nat)

/-- A big-endian number of `n` bytes. -/
def bigEndian : Nat → Nat → R Nat
  | 0, v, bs => some (v, bs)
  | _ + 1, _, [] => none
  | n + 1, v, b :: bs => bigEndian n (256 * v + b) bs

/-- An unsigned integer: one byte below 128, or the negated number of bytes that follow. -/
def uint : R Nat
  | [] => none
  | b :: bs => if b < 128 then some (b, bs) else if 256 - b ≤ 8 then bigEndian (256 - b) 0 bs else none

/-- A signed integer: the low bit of an unsigned one tells whether the others are complemented. -/
def int : R Int := fun bs => match uint bs with
  | none => none
  | some (u, bs) => some (if u % 2 = 1 then -(u / 2 : Nat) - 1 else (u / 2 : Nat), bs)

/-- `n` bytes. -/
def bytes (n : Nat) : R (List Nat) := fun bs => let x := bs.take n; if x.length = n then some (x, bs.drop n) else none

/-- A type as transmitted: fields and elements are given by type numbers. -/
inductive Wire where
  | slice (elem : Nat)
  | struct (fields : List (Str × Nat))

/-- The values. Of a struct, the fields that are transmitted, that is, that are not zero. -/
inductive Val where
  | bool (b : Bool)
  | int (i : Int)
  | uint (n : Nat)
  | str (s : Str)
  | slice (xs : List Val)
  | struct (fields : List (Str × Val))

/-- `n` values. -/
def times (r : R Val) : Nat → R (List Val)
  | 0, bs => some ([], bs)
  | n + 1, bs => match r bs with
    | none => none
    | some (v, bs) => match times r n bs with
      | none => none
      | some (vs, bs) => some (v :: vs, bs)

/-- The fields of a struct: each is preceded by the difference of its number to the last one's, 0 ends the struct. -/
def fieldsOf (r : Nat → R Val) : Nat → List (Str × Nat) → R (List (Str × Val))
  | 0, _, _ => none
  | fuel + 1, fs, bs => match uint bs with
    | none => none
    | some (0, bs) => some ([], bs)
    | some (d + 1, bs) => match fs.drop d with
      | [] => none
      | (name, t) :: fs => match r t bs with
        | none => none
        | some (v, bs) => match fieldsOf r fuel fs bs with
          | none => none
          | some (vs, bs) => some ((name, v) :: vs, bs)

/-- A value of the type with the given number: 1 `bool`, 2 `int`, 3 `uint`, 6 `string`, others as defined by `types`. -/
def value (types : List (Nat × Wire)) : Nat → Nat → R Val
  | 0, _, _ => none
  | fuel + 1, t, bs =>
    if t = 1 then match uint bs with
      | none => none
      | some (u, bs) => some (.bool (u != 0), bs)
    else if t = 2 then match int bs with
      | none => none
      | some (i, bs) => some (.int i, bs)
    else if t = 3 then match uint bs with
      | none => none
      | some (u, bs) => some (.uint u, bs)
    else if t = 6 then match uint bs with
      | none => none
      | some (n, bs) => match bytes n bs with
        | none => none
        | some (s, bs) => some (.str s, bs)
    else match types.lookup t with
      | none => none
      | some (.slice e) => match uint bs with
        | none => none
        | some (n, bs) => match times (value types fuel e) n bs with
          | none => none
          | some (vs, bs) => some (.slice vs, bs)
      | some (.struct fs) => match fieldsOf (value types fuel) (fs.length + 1) fs bs with
        | none => none
        | some (vs, bs) => some (.struct vs, bs)

/-- encoding/gob/type.go: the types that type definitions are made of (`wireType` is number 16). -/
def bootstrap : List (Nat × Wire) := [
  (16, .struct [(b!"ArrayT", 17), (b!"SliceT", 19), (b!"StructT", 20), (b!"MapT", 23)]),
  (17, .struct [(b!"CommonType", 18), (b!"Elem", 2), (b!"Len", 2)]),
  (18, .struct [(b!"Name", 6), (b!"Id", 2)]),
  (19, .struct [(b!"CommonType", 18), (b!"Elem", 2)]),
  (20, .struct [(b!"CommonType", 18), (b!"Field", 22)]),
  (21, .struct [(b!"Name", 6), (b!"Id", 2)]),
  (22, .slice 21),
  (23, .struct [(b!"CommonType", 18), (b!"Key", 2), (b!"Elem", 2)])]

/-- A field of a struct value. -/
def Val.field (v : Val) (name : Str) : Option Val := match v with
  | .struct fs => fs.lookup name
  | _ => none

/-- An integer field, 0 if it is not transmitted. -/
def Val.intField (v : Val) (name : Str) : Option Int := match v.field name with
  | none => some 0
  | some (.int i) => some i
  | some _ => none

/-- A field of a struct definition. -/
def fieldDef (v : Val) : Option (Str × Nat) :=
  match v.field (b!"Name"), v.field (b!"Id") with
  | some (.str s), some (.int i) => some (s, i.toNat)
  | _, _ => none

/-- All or nothing. -/
def sequence {α : Type} : List (Option α) → Option (List α)
  | [] => some []
  | none :: _ => none
  | some x :: xs => (sequence xs).map (x :: ·)

/-- The type that a type definition defines (slices and structs only). -/
def wireOf (v : Val) : Option Wire :=
  match v.field (b!"SliceT"), v.field (b!"StructT") with
  | some s, none => (s.intField (b!"Elem")).map fun e => .slice e.toNat
  | none, some s => match s.field (b!"Field") with
    | some (.slice fs) => (sequence (fs.map fieldDef)).map .struct
    | _ => none
  | _, _ => none

/-- `Decoder.Decode`: messages are read, each with its length, until one is a value; those with a negative number define the type with that number. A value that
is not a struct is preceded by a 0 byte. Messages after the value are not read. -/
def decode : Nat → List (Nat × Wire) → List Nat → Option Val
  | 0, _, _ => none
  | fuel + 1, types, bs => match uint bs with
    | none => none
    | some (n, bs) => match bytes n bs with
      | none => none
      | some (msg, bs) => match int msg with
        | none => none
        | some (id, msg) =>
          if id < 0 then match value bootstrap 8 16 msg with
            | some (v, []) => match wireOf v with
              | none => none
              | some w => decode fuel (((-id).toNat, w) :: types) bs
            | _ => none
          else match types.lookup id.toNat with
            | some (.slice _) => match msg with
              | 0 :: msg => match value types 8 id.toNat msg with
                | some (v, []) => some v
                | _ => none
              | _ => none
            | some (.struct _) => match value types 8 id.toNat msg with
              | some (v, []) => some v
              | _ => none
            | none => none

end Gographviz.Gob
