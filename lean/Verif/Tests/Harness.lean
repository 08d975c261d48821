import Verif.Model.Parser
import Verif.Model.EscapeIface
import Verif.Model.Write
/-!
The helper functions of the test suite of /repo, on the model. The tests themselves are in `Tests/Repo*.lean`. They are tests, not proofs of properties: they check, on the
inputs that the authors of the code chose, that the model computes what the test suite demands of the code.
-/
namespace Gographviz.Tests

open Gographviz Gographviz.Parse

/-- The Unicode tables, as far as the tests need them: letters of the Latin blocks, no digits beyond ASCII. -/
def latin : Unicode where
  isLetter c := decide (0xC0 ≤ c ∧ c ≤ 0x24F ∧ c ≠ 0xD7 ∧ c ≠ 0xF7)
  isDigit _ := false

/-- `String` of a graph, if it succeeds. -/
def str (g : Graph) : Option Str := match graphString edgeInsertionSort 100 g with
  | .ok s => some s
  | _ => none

/-- A generator of random numbers for the names of anonymous subgraphs. -/
def rnd (n : Nat) : Nat := 1000 + n

/-- analysewrite_test.go:43-72 `anal`: the text that is written by the `Graph`, if the test succeeds. The second parse goes on with the generator where the first left it. -/
def anal (input : Str) : Option Str := match parseBytes rnd 0 input with
  | .ok t n => match analyse graphIface t newGraph with
    | (g, none) => match str g with
      | none => none
      | some s => match parseBytes rnd n s with
        | .ok t2 _ => match analyse (escIface latin) t2 (some newGraph) with
          | (some g2, none) => if str g2 = some s then some s else none
          | _ => none
        | _ => none
    | _ => none
  | _ => none

/-- internal/parser/parser_test.go:48-61 `parseStringTest`. -/
def parseStringTest (input : Str) : Bool := match parseBytes rnd 0 input with
  | .ok t n => match parseBytes rnd n (Ast.graphStr t) with
    | .ok t2 _ => decide (Ast.graphStr t2 = Ast.graphStr t)
    | _ => false
  | _ => false

/-- The graph that `Read` gives. -/
def readGraph (input : Str) : Option Graph := match Parse.read rnd 0 input with
  | .ok g => some g
  | _ => none

end Gographviz.Tests
