import Verif.Model.Base
/-!
Go maps with string keys. Nothing here models code of /repo; it models the Go built-in type used throughout.
-/
namespace Gographviz

/-- A Go `map[string]α`: its entries in ascending key order. The representation is canonical: two well-formed maps
with the same lookups are equal (`Proofs/GoMap.lean`, `Map.ext`). -/
abbrev Map (α : Type) := List (Str × α)

variable {α : Type}

/-- `v, ok := m[k]`. -/
def mget : Map α → Str → Option α
  | [], _ => none
  | (k, v) :: m, x => if k = x then some v else mget m x

/-- `_, ok := m[k]; ok`. -/
def mhas (m : Map α) (k : Str) : Bool := (mget m k).isSome

/-- `m[k] = v`. -/
def mset : Map α → Str → α → Map α
  | [], k, v => [(k, v)]
  | (k', v') :: m, k, v =>
    if slt k k' then (k, v) :: (k', v') :: m
    else if k' = k then (k, v) :: m
    else (k', v') :: mset m k v

/-- `delete(m, k)`. -/
def mdel (m : Map α) (k : Str) : Map α := m.filter fun e => !decide (e.1 = k)

/-- The keys, in the canonical order. -/
def mkeys (m : Map α) : List Str := m.map Prod.fst

/-- `m[k]` for a map to strings: missing keys give the zero value `""`. -/
def mgetS (m : Map Str) (k : Str) : Str := (mget m k).getD []

/-- Assigning the entries of `kvs`, in order, into `m`: `for k, v := range more { m[k] = v }`
where `kvs` lists the entries of `more` in the order the range visits them. -/
def msetAll (m : Map α) (kvs : List (Str × α)) : Map α := kvs.foldl (fun m e => mset m e.1 e.2) m

/-- Entries are in strictly ascending key order (hence keys are unique). -/
def MapWF (m : Map α) : Prop := m.Pairwise fun a b => slt a.1 b.1 = true

end Gographviz
