/- Generated by tools/gen_tables.py from the text of /repo. Do not edit. -/
namespace Gographviz.Parse

/-- internal/parser/actiontable.go:20-152 `actionTab[s].canRecover`, decoded from the gzip+gob blob. -/
def canRecoverTab : List Bool := [
  false, false, false, false, false, false, false, false, false, false, false, false, false, false, false, false, false, false, false, false, false, false, false, false, false, false, false, false, false, false, false, false, false, false, false, false, false, false, false, false, false, false, false, false, false, false, false, false, false, false, false, false, false, false, false, false, false, false, false, false, false, false, false, false, false, false, false, false, false, false, false, false, false, false, false, false, false, false, false, false, false, false, false, false, false, false, false, false, false, false, false, false, false, false, false, false, false, false, false, false, false, false, false, false, false, false, false, false, false, false, false, false, false, false, false, false, false, false, false, false, false, false, false, false, false, false, false, false]

/-- internal/token/token.go:138-158 `TokMap.typeMap`. -/
def typeMap : List (List Nat) := [
  [73, 78, 86, 65, 76, 73, 68] /- INVALID -/,
  [226, 144, 154] /- ␚ -/,
  [103, 114, 97, 112, 104, 120] /- graphx -/,
  [123] /- { -/,
  [125] /- } -/,
  [115, 116, 114, 105, 99, 116] /- strict -/,
  [100, 105, 103, 114, 97, 112, 104] /- digraph -/,
  [59] /- ; -/,
  [61] /- = -/,
  [110, 111, 100, 101] /- node -/,
  [101, 100, 103, 101] /- edge -/,
  [91] /- [ -/,
  [93] /- ] -/,
  [44] /- , -/,
  [58] /- : -/,
  [115, 117, 98, 103, 114, 97, 112, 104] /- subgraph -/,
  [45, 62] /- -> -/,
  [45, 45] /- -- -/,
  [105, 100] /- id -/]

/-- internal/token/token.go:160-180 `TokMap.idMap`. -/
def idMap : List (List Nat × Nat) := [
  ([73, 78, 86, 65, 76, 73, 68], 0) /- INVALID -/,
  ([226, 144, 154], 1) /- ␚ -/,
  ([103, 114, 97, 112, 104, 120], 2) /- graphx -/,
  ([123], 3) /- { -/,
  ([125], 4) /- } -/,
  ([115, 116, 114, 105, 99, 116], 5) /- strict -/,
  ([100, 105, 103, 114, 97, 112, 104], 6) /- digraph -/,
  ([59], 7) /- ; -/,
  ([61], 8) /- = -/,
  ([110, 111, 100, 101], 9) /- node -/,
  ([101, 100, 103, 101], 10) /- edge -/,
  ([91], 11) /- [ -/,
  ([93], 12) /- ] -/,
  ([44], 13) /- , -/,
  ([58], 14) /- : -/,
  ([115, 117, 98, 103, 114, 97, 112, 104], 15) /- subgraph -/,
  ([45, 62], 16) /- -> -/,
  ([45, 45], 17) /- -- -/,
  ([105, 100], 18) /- id -/]

end Gographviz.Parse
