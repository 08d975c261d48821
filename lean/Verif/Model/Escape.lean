import Verif.Model.Graph
/-!
escape.go. A Go run-time panic is the result `none`.
-/
namespace Gographviz

/-- escape.go:42-50: the counter of `<` minus `>`. -/
def angleCount (rs : List Nat) : Int :=
  rs.foldl (fun n c => let n := if c = 60 then n + 1 else n; if c = 62 then n - 1 else n) 0

/-- escape.go:34-55 `isHTML`. `none`: line 39 indexes the empty string (run-time panic). -/
def isHTML (s : Str) : Option Bool :=
  if s.length = 0 then some false
  else match trimSpace s with
    | [] => none
    | c :: cs => if c ≠ 60 then some false else some (decide (angleCount (runes (c :: cs)) = 0))

/-- escape.go:57-60 `isLetter` (949 is ε). -/
def isLetter (U : Unicode) (ch : Nat) : Bool :=
  (97 ≤ ch && ch ≤ 122) || (65 ≤ ch && ch ≤ 90) || ch == 95 || (0x80 ≤ ch && U.isLetter ch && ch != 949)

/-- escape.go:72-83: the checks applied to every rune. -/
def idRuneOk (c : Nat) : Bool := !isSpaceRune c && c != 45 && c != 47 && c != 46

/-- escape.go:62-87 `isID`: the first rune is a letter and no rune is white space, `-`, `/` or `.`. -/
def isID (U : Unicode) (s : Str) : Bool :=
  match runes s with
  | [] => false
  | c :: cs => isLetter U c && (c :: cs).all idRuneOk

/-- escape.go:89-91 `isDigit`. -/
def isDigit (U : Unicode) (ch : Nat) : Bool := (48 ≤ ch && ch ≤ 57) || (0x80 ≤ ch && U.isDigit ch)

/-- escape.go:93-113 `isNumber`: the loop with its `state` variable. -/
def isNumberFrom (U : Unicode) (state : Nat) : List Nat → Bool
  | [] => state == 2
  | c :: cs =>
    if state = 0 then
      if isDigit U c || c == 46 then isNumberFrom U 2 cs
      else if c = 45 then isNumberFrom U 1 cs
      else false
    else if state = 1 then
      if isDigit U c || c == 46 then isNumberFrom U 2 cs else isNumberFrom U 1 cs
    else if c ≠ 46 && !isDigit U c then false
    else isNumberFrom U state cs

/-- escape.go:93-113 `isNumber`. -/
def isNumber (U : Unicode) (s : Str) : Bool := isNumberFrom U 0 (runes s)

/-- escape.go:119-126: no `"` that is not directly preceded by `\`. -/
def noBareQuote (prev : Nat) : List Nat → Bool
  | [] => true
  | r :: rs => if r = 34 && prev ≠ 92 then false else noBareQuote r rs

/-- escape.go:115-127 `isStringLit`. `none`: for the one-character string `"` line 120 slices `s[1:0]` (run-time panic). -/
def isStringLit (s : Str) : Option Bool :=
  if !hasPrefix s [34] || !hasSuffix s [34] then some false
  else if s.length < 2 then none
  else some (noBareQuote 0 (runes ((s.drop 1).dropLast)))

/-- escape.go:129-150 `esc`. -/
def esc (U : Unicode) (s : Str) : Option Str :=
  if s.length = 0 then some s
  else match isHTML s with
    | none => none
    | some true => some s
    | some false => match trimSpace s with
      | [] => none
      | c :: _ =>
        if c = 60 then some ([34] ++ escapeQuotes s ++ [34])
        else if isID U s then some s
        else if isNumber U s then some s
        else match isStringLit s with
          | none => none
          | some true => some s
          | some false => some ([34] ++ htmlEscape s ++ [34])

/-- escape.go:152-158 `escAttrs`: escaped keys and values are assigned into a new map, in `range` order. -/
def escAttrsFrom (U : Unicode) (m : Map Str) : List (Str × Str) → Option (Map Str)
  | [] => some m
  | (k, v) :: rest => do
    let k' ← esc U k
    let v' ← esc U v
    escAttrsFrom U (mset m k' v') rest

/-- escape.go:152-158 `escAttrs`. -/
def escAttrs (U : Unicode) (kvs : List (Str × Str)) : Option (Map Str) := escAttrsFrom U [] kvs

/-- escape.go:161-163. -/
def escSetName (U : Unicode) (g : Graph) (name : Str) : Option (Graph × Option Err) := do
  return g.setName (← esc U name)

/-- escape.go:166-168. The map built by `escAttrs` is ranged over again inside; the model visits it in key order
(the order is unobservable, C10). -/
def escAddPortEdge (U : Unicode) (g : Graph) (src srcPort dst dstPort : Str) (directed : Bool)
    (attrs : List (Str × Str)) : Option (Graph × Option Err) := do
  return g.addPortEdge (← esc U src) srcPort (← esc U dst) dstPort directed (← escAttrs U attrs)

/-- escape.go:171-173. -/
def escAddEdge (U : Unicode) (g : Graph) (src dst : Str) (directed : Bool) (attrs : List (Str × Str)) :
    Option (Graph × Option Err) := escAddPortEdge U g src [] dst [] directed attrs

/-- escape.go:176-178. -/
def escAddNode (U : Unicode) (g : Graph) (parent name : Str) (attrs : List (Str × Str)) :
    Option (Graph × Option Err) := do
  return g.addNode (← esc U parent) (← esc U name) (← escAttrs U attrs)

/-- escape.go:181-183. -/
def escAddAttr (U : Unicode) (g : Graph) (parent field value : Str) : Option (Graph × Option Err) := do
  return g.addAttr (← esc U parent) (← esc U field) (← esc U value)

/-- escape.go:186-188. -/
def escAddSubGraph (U : Unicode) (g : Graph) (parent name : Str) (attrs : List (Str × Str)) :
    Option (Graph × Option Err) := do
  return g.addSubGraph (← esc U parent) (← esc U name) (← escAttrs U attrs)

/-- escape.go:191-193. -/
def escIsNode (U : Unicode) (g : Graph) (name : Str) : Option Bool := do return g.isNode (← esc U name)

/-- escape.go:196-198. -/
def escIsSubGraph (U : Unicode) (g : Graph) (name : Str) : Option Bool := do return g.isSubGraph (← esc U name)

/-- One call on an `Escape`. `SetStrict`, `SetDir`, `RemoveNode` and `RemoveSubGraph` are not redefined by escape.go: they
are the promoted methods of the embedded `*Graph` (escape.go:25-27) and receive their arguments unescaped. -/
def escStep (U : Unicode) (g : Graph) : Op → Option (Graph × Option Err)
  | .setStrict b => some (g.setStrict b)
  | .setDir b => some (g.setDir b)
  | .setName n => escSetName U g n
  | .addPortEdge s sp d dp dir as => escAddPortEdge U g s sp d dp dir as
  | .addEdge s d dir as => escAddEdge U g s d dir as
  | .addNode p n as => escAddNode U g p n as
  | .addAttr p f v => escAddAttr U g p f v
  | .addSubGraph p n as => escAddSubGraph U g p n as
  | .removeNode p n => some (g.removeNode p n)
  | .removeSubGraph p n o => some (g.removeSubGraph p n o)

/-- A history of calls on an `Escape`: the graph and the errors of all calls (`none`: one of the calls panics). -/
def escRun (U : Unicode) (g : Graph) : List Op → Option (Graph × List (Option Err))
  | [] => some (g, [])
  | op :: ops => match escStep U g op with
    | none => none
    | some (g', e) => (escRun U g' ops).map fun r => (r.1, e :: r.2)

end Gographviz
