import Verif.Model.Gzip
import Verif.Model.Gob
import Verif.Model.TableData
import Verif.Model.ParseTables
/-!
Initialisation of package `internal/parser`: the two `init` functions, which unpack the action and the goto table. `none` is a panic.
-/
namespace Gographviz.Parse
open Gographviz.Gob (Val sequence)

/-- internal/parser/parser.go:13-17 and gototable.go:11. -/
def numStates : Nat := 128
def numSymbols : Nat := 36
def numNTSymbols : Nat := 17

/-- internal/parser/actiontable.go:13-16 `actionRow`. A nil action is `none`. -/
structure ActionRow where
  canRecover : Bool
  actions : List (Option Action)

/-- internal/parser/actiontable.go:12,19 `actionTab` before initialisation: an array of zero values. -/
def zeroTable : List ActionRow := List.replicate numStates ⟨false, List.replicate numSymbols none⟩

/-- Storing at an index of an array; the panic of an index out of range. -/
def store {α : Type} (a : List α) (i : Nat) (x : α) : Option (List α) := if i < a.length then some (a.set i x) else none

/-- internal/parser/actiontable.go:24-28: an element of `Actions`. -/
structure RawAction where
  index : Int
  action : Int
  amount : Int

/-- internal/parser/actiontable.go:22-29: an element of `tab`. -/
structure RawRow where
  canRecover : Bool
  actions : List RawAction

/-- What `Decode` stores for an element of `Actions`: fields that are not transmitted keep the zero value. -/
def rawAction (v : Val) : Option RawAction :=
  match v.intField (b!"Index"), v.intField (b!"Action"), v.intField (b!"Amount") with
  | some i, some a, some n => some ⟨i, a, n⟩
  | _, _, _ => none

/-- What `Decode` stores for an element of `tab`. -/
def rawRow (v : Val) : Option RawRow :=
  let can : Option Bool := match v.field (b!"CanRecover") with
    | none => some false
    | some (.bool b) => some b
    | some _ => none
  let acts : Option (List RawAction) := match v.field (b!"Actions") with
    | none => some []
    | some (.slice xs) => sequence (xs.map rawAction)
    | some _ => none
  match can, acts with
  | some c, some as => some ⟨c, as⟩
  | _, _ => none

/-- internal/parser/actiontable.go:130-137: `tab` after `Decode`. -/
def decodeActions (data : List Nat) : Option (List RawRow) :=
  match Gzip.gunzip data with
  | none => none
  | some bs => match Gob.decode (bs.length + 1) [] bs with
    | some (.slice rows) => sequence (rows.map rawRow)
    | _ => none

/-- internal/parser/actiontable.go:141-149: the loop over `row.Actions`. A negative amount is refused here (Go stores it). -/
def storeActions : List RawAction → List (Option Action) → Option (List (Option Action))
  | [], acts => some acts
  | a :: as, acts =>
    if a.index < 0 ∨ a.amount < 0 then none
    else
      let r : Option (List (Option Action)) :=
        if a.action = 0 then store acts a.index.toNat (some .accept)
        else if a.action = 1 then store acts a.index.toNat (some (.reduce a.amount.toNat))
        else if a.action = 2 then store acts a.index.toNat (some (.shift a.amount.toNat))
        else some acts
      match r with
      | none => none
      | some acts => storeActions as acts

/-- internal/parser/actiontable.go:139-151: the loop over `tab`; `i` is the index of its next row. -/
def storeRows : List RawRow → Nat → List ActionRow → Option (List ActionRow)
  | [], _, tab => some tab
  | row :: rows, i, tab => match tab[i]? with
    | none => none
    | some old => match storeActions row.actions old.actions with
      | none => none
      | some acts => match store tab i ⟨row.canRecover, acts⟩ with
        | none => none
        | some tab => storeRows rows (i + 1) tab

/-- internal/parser/actiontable.go:21-152 `init`. -/
def initActionTab (data : List Nat) : Option (List ActionRow) :=
  match decodeActions data with
  | none => none
  | some rows => storeRows rows 0 zeroTable

/-- An element of a slice of integers. -/
def rawInt : Val → Option Int
  | .int i => some i
  | _ => none

/-- A slice of integers. -/
def rawInts : Val → Option (List Int)
  | .slice xs => sequence (xs.map rawInt)
  | _ => none

/-- internal/parser/gototable.go:43-50: `tab` after `Decode`. -/
def decodeGotos (data : List Nat) : Option (List (List Int)) :=
  match Gzip.gunzip data with
  | none => none
  | some bs => match Gob.decode (bs.length + 1) [] bs with
    | some (.slice rows) => sequence (rows.map rawInts)
    | _ => none

/-- internal/parser/gototable.go:51-55: the loops; an index out of range of `tab` or one of its rows panics. -/
def storeGotos (tab : List (List Int)) : Option (List (List Int)) :=
  sequence ((List.range numStates).map fun i => match tab[i]? with
    | none => none
    | some row => sequence ((List.range numNTSymbols).map fun j => row[j]?))

/-- internal/parser/gototable.go:20-56 `init`. -/
def initGotoTab (data : List Nat) : Option (List (List Int)) :=
  match decodeGotos data with
  | none => none
  | some tab => storeGotos tab

end Gographviz.Parse
