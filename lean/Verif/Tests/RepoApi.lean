import Verif.Tests.Harness
/-!
The tests of /repo that call the API: escape_test.go, example_test.go, issue21_test.go, issue26_test.go, issue32_test.go, remove_test.go, edges_test.go and ast/ast_test.go.

Generated by tools/gen_tests_api.py.
-/
namespace Gographviz.Tests

open Gographviz

set_option maxRecDepth 10000000

/-- escape_test.go:22-74 `TestEscape`: the calls. -/
def testEscape : Option (Graph × List (Option Err)) := escRun latin newGraph
  [.setName (b!"asdf adsf"),
   .setDir true,
   .addNode (b!"asdf asdf") (b!"kasdf99 99") [(b!"URL", b!"<a")],
   .addNode (b!"asdf asdf") (b!"7") [(b!"URL", b!"<a")],
   .addNode (b!"asdf asdf") (b!"a << b") [],
   .addEdge (b!"kasdf99 99") (b!"7") true [],
   .addNode (b!"asdf asdf") (b!"a/b") [],
   .addNode (b!"asdf asdf") (b!"c.d") [],
   .addNode (b!"asdf asdf") (b!"e-f") [],
   .addNode (b!"asdf asdf") (b!"12_34") []]

example : (testEscape.map fun r => r.2.all Option.isNone) = some true := by decide +kernel

example : (testEscape.bind fun r => str r.1) = some (b!"digraph \"asdf adsf\" {\n\t\"kasdf99 99\"->7;\n\t\"12_34\";\n\t\"a &lt;&lt; b\";\n\t\"a/b\";\n\t\"c.d\";\n\t\"e-f\";\n\t\"kasdf99 99\" [ URL=\"<a\" ];\n\t7 [ URL=\"<a\" ];\n}\n") := by decide +kernel

example : (testEscape.bind fun r => escIsNode latin r.1 (b!"a << b")) = some true := by decide +kernel

/-- escape_test.go:76-123 `TestClusterSubgraphs`: the calls. -/
def testClusterSubgraphs : Option (Graph × List (Option Err)) := escRun latin newGraph
  [.setName (b!"G"),
   .setDir false,
   .addSubGraph (b!"G") (b!"cluster0") [],
   .addSubGraph (b!"cluster0") (b!"cluster_1") [],
   .addSubGraph (b!"cluster0") (b!"cluster_2") [],
   .addNode (b!"G") (b!"Code deployment") [],
   .addPortEdge (b!"cluster_2") [] (b!"cluster_1") [] false []]

example : (testClusterSubgraphs.map fun r => r.2.all Option.isNone) = some true := by decide +kernel

example : (testClusterSubgraphs.bind fun r => str r.1) = some (b!"graph G {\n\tcluster_2--cluster_1;\n\tsubgraph cluster0 {\n\t\tsubgraph cluster_1 {\n\n\t\t};\n\t\tsubgraph cluster_2 {\n\n\t\t};\n\t};\n\t\"Code deployment\";\n}\n") := by decide +kernel

/-- The text is parsed and printed again. -/
example : (match Parse.parseBytes rnd 0 (b!"graph G {\n\tcluster_2--cluster_1;\n\tsubgraph cluster0 {\n\t\tsubgraph cluster_1 {\n\n\t\t};\n\t\tsubgraph cluster_2 {\n\n\t\t};\n\t};\n\t\"Code deployment\";\n}\n") with | .ok t _ => some (Ast.graphStr t) | _ => none) = some (b!"graph G {\n\tcluster_2--cluster_1;\n\tsubgraph cluster0 {\n\t\tsubgraph cluster_1 {\n\n\t\t};\n\t\tsubgraph cluster_2 {\n\n\t\t};\n\t};\n\t\"Code deployment\";\n}\n") := by decide +kernel

/-- example_test.go:22-34 `ExampleRead`. -/
example : ((readGraph (b!"digraph G {Hello->World}")).bind str) = some (b!"digraph G {\n\tHello->World;\n\tHello;\n\tWorld;\n}\n") := by decide +kernel

/-- example_test.go:36-60 `ExampleNewGraph`. -/
example : str (newGraph.run
  [.setName (b!"G"),
   .setDir true,
   .addNode (b!"G") (b!"Hello") [],
   .addNode (b!"G") (b!"World") [],
   .addEdge (b!"Hello") (b!"World") true []]) = some (b!"digraph G {\n\tHello->World;\n\tHello;\n\tWorld;\n}\n") := by decide +kernel

/-- example_test.go:62-114 `MyOwnGraphStructure`: the calls of `AddPortEdge` with their labels (the conversions to numbers are done in the test below). -/
def ownIface : Iface (List (Str × Str × Str)) where
  setStrict s _ := (s, none)
  setDir s _ := (s, none)
  setName s _ := (s, none)
  addPortEdge s src _ dst _ _ attrs := (s ++ [(src, dst, mgetS attrs (b!"label"))], none)
  addNode s _ _ _ := (s, none)
  addAttr s _ _ _ := (s, none)
  addSubGraph s _ _ _ := (s, none)

/-- example_test.go:118-182 `ExampleMyOwnGraphStructure`: what the user's structure gets. -/
example : (match Parse.parseBytes rnd 0 (b!"\n\t\tdigraph G {\n\t\t\t1 -> 2 [ label = 5 ];\n\t\t\t4 -> 2 [ label = 1 ];\n\t\t\t4 -> 1 [ label = 2 ];\n\t\t\t1 -> 1 [ label = 0 ];\n\t\t}\n\n\t") with
    | .ok t _ => analyse ownIface t []
    | _ => ([], none)) =
  ([(b!"1", b!"2", b!"5"), (b!"4", b!"2", b!"1"), (b!"4", b!"1", b!"2"), (b!"1", b!"1", b!"0")], none) := by decide +kernel

/-- The label of the edge from `i` to `j` in the matrix. -/
def weight (i j : Nat) : Str := if i = 1 ∧ j = 2 then b!"5" else if i = 4 ∧ j = 2 then b!"1" else if i = 4 ∧ j = 1 then b!"2" else b!"0"

/-- The matrix that the example writes. -/
example : str (newGraph.run ([.setName (b!"matrix"), .setDir true] ++ [1, 2, 3, 4].map (fun i => .addNode (b!"matrix") [48 + i] []) ++
    [1, 2, 3, 4].flatMap fun i => [1, 2, 3, 4].map fun j => .addEdge [48 + i] [48 + j] true [(b!"label", weight i j)])) =
  some (b!"digraph matrix {\n\t1->1 [ label=0 ];\n\t1->2 [ label=5 ];\n\t1->3 [ label=0 ];\n\t1->4 [ label=0 ];\n\t2->1 [ label=0 ];\n\t2->2 [ label=0 ];\n\t2->3 [ label=0 ];\n\t2->4 [ label=0 ];\n\t3->1 [ label=0 ];\n\t3->2 [ label=0 ];\n\t3->3 [ label=0 ];\n\t3->4 [ label=0 ];\n\t4->1 [ label=2 ];\n\t4->2 [ label=1 ];\n\t4->3 [ label=0 ];\n\t4->4 [ label=0 ];\n\t1;\n\t2;\n\t3;\n\t4;\n}\n") := by decide +kernel

/-- issue21_test.go: the four relations that the test looks up. -/
def related (g : Graph) : Bool :=
  mhas (g.relations.children (b!"G")) (b!"clusterone") && mhas (g.relations.children (b!"clusterone")) (b!"clustertwo") &&
  mhas (g.relations.parents (b!"clusterone")) (b!"G") && mhas (g.relations.parents (b!"clustertwo")) (b!"clusterone")

/-- issue21_test.go:21-128 `TestIssue21Subgraph`. -/
example : (readGraph (b!"\n\tdigraph G {\n    Ga->Gb;\n    sA->sB;\n    ssA->ssB;\n    \n     subgraph clusterone {\n        fillcolor=red;\n        style=filled;\n        sA;\n        sB;\n        \n        subgraph clustertwo {\n            fillcolor=blue;\n            style=filled;\n            ssA;\n        \tssB;\n       }\n    }\n    \n    Ga;\n    Gb;\n}\n")).map related = some true := by decide +kernel

example : related (newGraph.run
  [.setName (b!"G"),
   .setDir true,
   .addNode (b!"G") (b!"Ga") [],
   .addNode (b!"G") (b!"Gb") [],
   .addEdge (b!"Ga") (b!"Gb") true [],
   .addSubGraph (b!"G") (b!"clusterone") [(b!"fillcolor", b!"red"), (b!"style", b!"filled")],
   .addNode (b!"clusterone") (b!"sA") [],
   .addNode (b!"clusterone") (b!"sB") [],
   .addEdge (b!"sA") (b!"sB") true [],
   .addSubGraph (b!"clusterone") (b!"clustertwo") [(b!"fillcolor", b!"blue"), (b!"style", b!"filled")],
   .addNode (b!"clustertwo") (b!"ssA") [],
   .addNode (b!"clustertwo") (b!"ssB") [],
   .addEdge (b!"ssA") (b!"ssB") true []]) = true := by decide +kernel

/-- The value of an attribute of a node that was read. -/
def nodeAttr (g : Graph) (name attr : Str) : Option Str := (g.nodes.find name).map fun n => mgetS n.attrs attr

/-- The values of an attribute of the edges from `src` to `dst`. -/
def edgeAttr (g : Graph) (src dst attr : Str) : List Str := (g.edges.edges.filter fun e => e.src == src && e.dst == dst).map fun e => mgetS e.attrs attr

/-- issue26_test.go:22-126 `TestIssue26DefaultAttrs`. -/
example : ((readGraph (b!"\n\tdigraph G {\n\t\tnode [shape=record];\n\t\tedge [style=dashed];\n\t\tsubgraph cluster_key {\n\t\t\tgraph [label=KEY];\n\t\t\tuser;\n\t\t\tnode [style=dashed];\n\t\t\tedge [color=blue];\n\t\t\tdep;\n\t\t\tuser -> dep;\n\t\t}\n\t\tA;\n\t\tnode [color=red];\n\t\tB;\n\t\tA -> B;\n\t\tnode [shape=diamond];\n\t\tedge [arrowhead=open];\n\t\tC;\n\t\tA -> C;\n\t\tedge [style=bold];\n\t\tB -> C;\n\t}\n\t")).map fun g =>
    [(b!"user", b!"shape", b!"record"), (b!"dep", b!"shape", b!"record"), (b!"user", b!"style", []), (b!"dep", b!"style", b!"dashed"), (b!"A", b!"style", []), (b!"B", b!"style", []), (b!"C", b!"style", []), (b!"A", b!"color", []), (b!"B", b!"color", b!"red"), (b!"C", b!"color", b!"red"), (b!"C", b!"shape", b!"diamond"), (b!"A", b!"shape", b!"record"), (b!"B", b!"shape", b!"record")].all (fun c => nodeAttr g c.1 c.2.1 == some c.2.2) &&
    [(b!"user", b!"dep", b!"style", b!"dashed"), (b!"user", b!"dep", b!"color", b!"blue"), (b!"A", b!"B", b!"color", []), (b!"A", b!"C", b!"color", []), (b!"B", b!"C", b!"color", []), (b!"A", b!"B", b!"style", b!"dashed"), (b!"A", b!"C", b!"style", b!"dashed"), (b!"B", b!"C", b!"style", b!"bold"), (b!"A", b!"B", b!"arrowhead", []), (b!"user", b!"dep", b!"arrowhead", []), (b!"A", b!"C", b!"arrowhead", b!"open"), (b!"B", b!"C", b!"arrowhead", b!"open")].all (fun c => edgeAttr g c.1 c.2.1 c.2.2.1 == [c.2.2.2]) &&
    mhas (g.relations.children (b!"cluster_key")) (b!"user") && mhas (g.relations.children (b!"cluster_key")) (b!"dep")) = some true := by decide +kernel

/-- issue32_test.go:22-73 `TestIssue32DefaultAttrs`. -/
example : ((readGraph (b!"\n\tdigraph G {\n\t\tnode [shape=record, fillcolor=red, style=filled];\n\t\tA [shape=circle];\n\t\tA -> B -> C;\n\t\tB [fillcolor=blue];\n\t\tnode [shape=ellipse, fillcolor=yellow, color=brown];\n\t\tA -> C;\n\t\tC [fillcolor=green, color=gray];\n\t\tnode [shape=triangle];\n\t\tC [fillcolor=orange];\n\t\tC -> D;\n\t}\n\t")).map fun g =>
    [(b!"A", b!"shape", b!"circle"), (b!"A", b!"fillcolor", b!"red"), (b!"B", b!"shape", b!"record"), (b!"C", b!"fillcolor", b!"orange"), (b!"A", b!"color", []), (b!"B", b!"fillcolor", b!"blue"), (b!"C", b!"shape", b!"record"), (b!"D", b!"style", b!"filled"), (b!"C", b!"color", b!"gray")].all (fun c => nodeAttr g c.1 c.2.1 == some c.2.2)) = some true := by decide +kernel

/-- A call of the remove tests; `RemoveSubGraph` ranges over a map, here in the order of the keys (unobservable, C10). -/
def removeSub (g : Graph) (name : Str) : Graph := g.run [.removeSubGraph (b!"G") name (mkeys (g.relations.children name))]

/-- remove_test.go:21-179 `TestRemoveNode`, step 1. -/
def testRemoveNode0 : Graph := newGraph.run
  [.setName (b!"G"),
   .setDir true,
   .addNode (b!"G") (b!"Hello") [],
   .addNode (b!"G") (b!"World") [],
   .addEdge (b!"Hello") (b!"World") true [],
   .addSubGraph (b!"G") (b!"cluster_Core") [],
   .addNode (b!"cluster_Core") (b!"CoreFunction") [],
   .addSubGraph (b!"G") (b!"cluster_Supporting") [],
   .addNode (b!"cluster_Supporting") (b!"SupportingFunction") [],
   .addSubGraph (b!"G") (b!"cluster_Development") [],
   .addNode (b!"cluster_Development") (b!"DevelopmentFunction") [],
   .addPortEdge (b!"DevelopmentFunction") (b!"cluster_Development") (b!"CoreFunction") (b!"cluster_Core") true [],
   .addPortEdge (b!"SupportingFunction") (b!"cluster_Supporting") (b!"CoreFunction") (b!"cluster_Core") true [],
   .addPortEdge (b!"Hello") [] (b!"CoreFunction") (b!"cluster_Core") true []]

example : str testRemoveNode0 = some (b!"digraph G {\n\tDevelopmentFunction:cluster_Development->CoreFunction:cluster_Core;\n\tHello->CoreFunction:cluster_Core;\n\tHello->World;\n\tSupportingFunction:cluster_Supporting->CoreFunction:cluster_Core;\n\tsubgraph cluster_Core {\n\t\tCoreFunction;\n\t};\n\tsubgraph cluster_Development {\n\t\tDevelopmentFunction;\n\t};\n\tsubgraph cluster_Supporting {\n\t\tSupportingFunction;\n\t};\n\tHello;\n\tWorld;\n}\n") := by decide +kernel

/-- remove_test.go:21-179 `TestRemoveNode`, step 2. -/
def testRemoveNode1 : Graph := testRemoveNode0.run
  [.removeNode (b!"cluster_Development") (b!"DevelopmentFunction")]

example : str testRemoveNode1 = some (b!"digraph G {\n\tHello->CoreFunction:cluster_Core;\n\tHello->World;\n\tSupportingFunction:cluster_Supporting->CoreFunction:cluster_Core;\n\tsubgraph cluster_Core {\n\t\tCoreFunction;\n\t};\n\tsubgraph cluster_Development {\n\n\t};\n\tsubgraph cluster_Supporting {\n\t\tSupportingFunction;\n\t};\n\tHello;\n\tWorld;\n}\n") := by decide +kernel

/-- remove_test.go:21-179 `TestRemoveNode`, step 3. -/
def testRemoveNode2 : Graph := testRemoveNode1.run
  [.removeNode (b!"G") (b!"Hello"),
   .removeNode (b!"G") (b!"World")]

example : str testRemoveNode2 = some (b!"digraph G {\n\tSupportingFunction:cluster_Supporting->CoreFunction:cluster_Core;\n\tsubgraph cluster_Core {\n\t\tCoreFunction;\n\t};\n\tsubgraph cluster_Development {\n\n\t};\n\tsubgraph cluster_Supporting {\n\t\tSupportingFunction;\n\t};\n}\n") := by decide +kernel

/-- remove_test.go:21-179 `TestRemoveNode`, step 4. -/
def testRemoveNode3 : Graph := testRemoveNode2.run
  [.removeNode (b!"cluster_Supporting") (b!"SupportingFunction")]

example : str testRemoveNode3 = some (b!"digraph G {\n\tsubgraph cluster_Core {\n\t\tCoreFunction;\n\t};\n\tsubgraph cluster_Development {\n\n\t};\n\tsubgraph cluster_Supporting {\n\n\t};\n}\n") := by decide +kernel

/-- remove_test.go:21-179 `TestRemoveNode`, step 5. -/
def testRemoveNode4 : Graph := testRemoveNode3.run
  [.removeNode (b!"cluster_Core") (b!"CoreFunction")]

example : str testRemoveNode4 = some (b!"digraph G {\n\tsubgraph cluster_Core {\n\n\t};\n\tsubgraph cluster_Development {\n\n\t};\n\tsubgraph cluster_Supporting {\n\n\t};\n}\n") := by decide +kernel

/-- remove_test.go:181-349 `TestRemoveSubGraph`, step 1. -/
def testRemoveSubGraph0 : Graph := newGraph.run
  [.setName (b!"G"),
   .setDir true,
   .addNode (b!"G") (b!"Hello") [],
   .addNode (b!"G") (b!"World") [],
   .addEdge (b!"Hello") (b!"World") true [],
   .addSubGraph (b!"G") (b!"cluster_Core") [(b!"label", b!"Core")],
   .addNode (b!"cluster_Core") (b!"CoreFunction") [],
   .addSubGraph (b!"G") (b!"cluster_Supporting") [(b!"label", b!"Supporting")],
   .addNode (b!"cluster_Supporting") (b!"SupportingFunction") [],
   .addSubGraph (b!"G") (b!"cluster_Development") [(b!"label", b!"Development")],
   .addNode (b!"cluster_Development") (b!"DevelopmentFunction") [],
   .addPortEdge (b!"DevelopmentFunction") (b!"cluster_Development") (b!"CoreFunction") (b!"cluster_Core") true [],
   .addPortEdge (b!"SupportingFunction") (b!"cluster_Supporting") (b!"CoreFunction") (b!"cluster_Core") true [],
   .addPortEdge (b!"Hello") [] (b!"CoreFunction") (b!"cluster_Core") true [],
   .addSubGraph (b!"G") (b!"cluster_FooBar") [],
   .addEdge (b!"Hello") (b!"cluster_FooBar") true []]

example : str testRemoveSubGraph0 = some (b!"digraph G {\n\tDevelopmentFunction:cluster_Development->CoreFunction:cluster_Core;\n\tHello->CoreFunction:cluster_Core;\n\tHello->World;\n\tHello->cluster_FooBar;\n\tSupportingFunction:cluster_Supporting->CoreFunction:cluster_Core;\n\tsubgraph cluster_Core {\n\t\tlabel=Core;\n\t\tCoreFunction;\n\t};\n\tsubgraph cluster_Development {\n\t\tlabel=Development;\n\t\tDevelopmentFunction;\n\t};\n\tsubgraph cluster_FooBar {\n\n\t};\n\tsubgraph cluster_Supporting {\n\t\tlabel=Supporting;\n\t\tSupportingFunction;\n\t};\n\tHello;\n\tWorld;\n}\n") := by decide +kernel

/-- remove_test.go:181-349 `TestRemoveSubGraph`, step 2. -/
def testRemoveSubGraph1 : Graph := removeSub testRemoveSubGraph0 (b!"cluster_Development")

example : str testRemoveSubGraph1 = some (b!"digraph G {\n\tHello->CoreFunction:cluster_Core;\n\tHello->World;\n\tHello->cluster_FooBar;\n\tSupportingFunction:cluster_Supporting->CoreFunction:cluster_Core;\n\tsubgraph cluster_Core {\n\t\tlabel=Core;\n\t\tCoreFunction;\n\t};\n\tsubgraph cluster_FooBar {\n\n\t};\n\tsubgraph cluster_Supporting {\n\t\tlabel=Supporting;\n\t\tSupportingFunction;\n\t};\n\tHello;\n\tWorld;\n}\n") := by decide +kernel

/-- remove_test.go:181-349 `TestRemoveSubGraph`, step 3. -/
def testRemoveSubGraph2 : Graph := removeSub testRemoveSubGraph1 (b!"cluster_Supporting")

example : str testRemoveSubGraph2 = some (b!"digraph G {\n\tHello->CoreFunction:cluster_Core;\n\tHello->World;\n\tHello->cluster_FooBar;\n\tsubgraph cluster_Core {\n\t\tlabel=Core;\n\t\tCoreFunction;\n\t};\n\tsubgraph cluster_FooBar {\n\n\t};\n\tHello;\n\tWorld;\n}\n") := by decide +kernel

/-- remove_test.go:181-349 `TestRemoveSubGraph`, step 4. -/
def testRemoveSubGraph3 : Graph := removeSub testRemoveSubGraph2 (b!"cluster_Core")

example : str testRemoveSubGraph3 = some (b!"digraph G {\n\tHello->World;\n\tHello->cluster_FooBar;\n\tsubgraph cluster_FooBar {\n\n\t};\n\tHello;\n\tWorld;\n}\n") := by decide +kernel

/-- remove_test.go:181-349 `TestRemoveSubGraph`, step 5. -/
def testRemoveSubGraph4 : Graph := removeSub testRemoveSubGraph3 (b!"cluster_FooBar")

example : str testRemoveSubGraph4 = some (b!"digraph G {\n\tHello->World;\n\tHello;\n\tWorld;\n}\n") := by decide +kernel

/-- The slices after adding edges to `NewEdges()`, and sorted. -/
def sortedEdges (es : List Edge) : List Edge × List Edge :=
  let r := es.foldl Edges.add newEdges
  (edgeInsertionSort r.edges, r.edges)

/-- edges_test.go:22 `TestEdges_Sorted`: empty. -/
example : sortedEdges
  [] =
  ([],
   []) := by decide +kernel

/-- edges_test.go:22 `TestEdges_Sorted`: one edge. -/
example : sortedEdges
  [⟨b!"0", [], b!"1", [], false, [(b!"label", b!"abc")]⟩] =
  ([⟨b!"0", [], b!"1", [], false, [(b!"label", b!"abc")]⟩],
   [⟨b!"0", [], b!"1", [], false, [(b!"label", b!"abc")]⟩]) := by decide +kernel

/-- edges_test.go:22 `TestEdges_Sorted`: two non parallel edges. -/
example : sortedEdges
  [⟨b!"0", [], b!"2", [], false, [(b!"label", b!"hello")]⟩,
   ⟨b!"0", [], b!"1", [], false, [(b!"label", b!"abc")]⟩] =
  ([⟨b!"0", [], b!"1", [], false, [(b!"label", b!"abc")]⟩,
   ⟨b!"0", [], b!"2", [], false, [(b!"label", b!"hello")]⟩],
   [⟨b!"0", [], b!"2", [], false, [(b!"label", b!"hello")]⟩,
   ⟨b!"0", [], b!"1", [], false, [(b!"label", b!"abc")]⟩]) := by decide +kernel

/-- edges_test.go:22 `TestEdges_Sorted`: two parallel edges. -/
example : sortedEdges
  [⟨b!"0", [], b!"1", [], false, [(b!"label", b!"hello")]⟩,
   ⟨b!"0", [], b!"1", [], false, [(b!"label", b!"abc")]⟩] =
  ([⟨b!"0", [], b!"1", [], false, [(b!"label", b!"abc")]⟩,
   ⟨b!"0", [], b!"1", [], false, [(b!"label", b!"hello")]⟩],
   [⟨b!"0", [], b!"1", [], false, [(b!"label", b!"hello")]⟩,
   ⟨b!"0", [], b!"1", [], false, [(b!"label", b!"abc")]⟩]) := by decide +kernel

/-- edges_test.go:22 `TestEdges_Sorted`: two parallel edges - one without label. -/
example : sortedEdges
  [⟨b!"0", [], b!"1", [], false, [(b!"label", b!"abc")]⟩,
   ⟨b!"0", [], b!"1", [], false, []⟩] =
  ([⟨b!"0", [], b!"1", [], false, []⟩,
   ⟨b!"0", [], b!"1", [], false, [(b!"label", b!"abc")]⟩],
   [⟨b!"0", [], b!"1", [], false, [(b!"label", b!"abc")]⟩,
   ⟨b!"0", [], b!"1", [], false, []⟩]) := by decide +kernel

/-- edges_test.go:22 `TestEdges_Sorted`: several non parallel edges. -/
example : sortedEdges
  [⟨b!"0", [], b!"2", [], false, [(b!"label", b!"hello")]⟩,
   ⟨b!"1", [], b!"1", [], false, [(b!"label", b!"world")]⟩,
   ⟨b!"0", [], b!"1", [], false, [(b!"label", b!"abc")]⟩,
   ⟨b!"1", [], b!"0", [], false, [(b!"label", b!"golang")]⟩] =
  ([⟨b!"0", [], b!"1", [], false, [(b!"label", b!"abc")]⟩,
   ⟨b!"0", [], b!"2", [], false, [(b!"label", b!"hello")]⟩,
   ⟨b!"1", [], b!"0", [], false, [(b!"label", b!"golang")]⟩,
   ⟨b!"1", [], b!"1", [], false, [(b!"label", b!"world")]⟩],
   [⟨b!"0", [], b!"2", [], false, [(b!"label", b!"hello")]⟩,
   ⟨b!"1", [], b!"1", [], false, [(b!"label", b!"world")]⟩,
   ⟨b!"0", [], b!"1", [], false, [(b!"label", b!"abc")]⟩,
   ⟨b!"1", [], b!"0", [], false, [(b!"label", b!"golang")]⟩]) := by decide +kernel

/-- edges_test.go:22 `TestEdges_Sorted`: several with parallel edges. -/
example : sortedEdges
  [⟨b!"0", [], b!"2", [], false, [(b!"label", b!"hello")]⟩,
   ⟨b!"0", [], b!"1", [], false, [(b!"label", b!"cba")]⟩,
   ⟨b!"1", [], b!"1", [], false, [(b!"label", b!"world")]⟩,
   ⟨b!"0", [], b!"1", [], false, [(b!"label", b!"abc")]⟩,
   ⟨b!"1", [], b!"0", [], false, [(b!"label", b!"gopher")]⟩,
   ⟨b!"1", [], b!"0", [], false, [(b!"label", b!"golang")]⟩] =
  ([⟨b!"0", [], b!"1", [], false, [(b!"label", b!"abc")]⟩,
   ⟨b!"0", [], b!"1", [], false, [(b!"label", b!"cba")]⟩,
   ⟨b!"0", [], b!"2", [], false, [(b!"label", b!"hello")]⟩,
   ⟨b!"1", [], b!"0", [], false, [(b!"label", b!"golang")]⟩,
   ⟨b!"1", [], b!"0", [], false, [(b!"label", b!"gopher")]⟩,
   ⟨b!"1", [], b!"1", [], false, [(b!"label", b!"world")]⟩],
   [⟨b!"0", [], b!"2", [], false, [(b!"label", b!"hello")]⟩,
   ⟨b!"0", [], b!"1", [], false, [(b!"label", b!"cba")]⟩,
   ⟨b!"1", [], b!"1", [], false, [(b!"label", b!"world")]⟩,
   ⟨b!"0", [], b!"1", [], false, [(b!"label", b!"abc")]⟩,
   ⟨b!"1", [], b!"0", [], false, [(b!"label", b!"gopher")]⟩,
   ⟨b!"1", [], b!"0", [], false, [(b!"label", b!"golang")]⟩]) := by decide +kernel

/-- edges_test.go:22 `TestEdges_Sorted`: edges with ports. -/
example : sortedEdges
  [⟨b!"0", b!"a", b!"1", b!"b", false, []⟩,
   ⟨b!"0", b!"a", b!"1", b!"a", false, []⟩,
   ⟨b!"0", b!"b", b!"1", b!"a", false, []⟩] =
  ([⟨b!"0", b!"a", b!"1", b!"a", false, []⟩,
   ⟨b!"0", b!"a", b!"1", b!"b", false, []⟩,
   ⟨b!"0", b!"b", b!"1", b!"a", false, []⟩],
   [⟨b!"0", b!"a", b!"1", b!"b", false, []⟩,
   ⟨b!"0", b!"a", b!"1", b!"a", false, []⟩,
   ⟨b!"0", b!"b", b!"1", b!"a", false, []⟩]) := by decide +kernel

/-- edges_test.go:22 `TestEdges_Sorted`: directed edges before non directed edges. -/
example : sortedEdges
  [⟨b!"0", [], b!"1", [], false, []⟩,
   ⟨b!"0", [], b!"1", [], true, []⟩] =
  ([⟨b!"0", [], b!"1", [], true, []⟩,
   ⟨b!"0", [], b!"1", [], false, []⟩],
   [⟨b!"0", [], b!"1", [], false, []⟩,
   ⟨b!"0", [], b!"1", [], true, []⟩]) := by decide +kernel

/-- edges_test.go:22 `TestEdges_Sorted`: the theory of everything. -/
example : sortedEdges
  [⟨b!"0", [], b!"1", [], false, [(b!"label", b!"cba")]⟩,
   ⟨b!"1", b!"a", b!"0", [], false, [(b!"label", b!"gopher")]⟩,
   ⟨b!"0", [], b!"1", [], false, [(b!"label", b!"abc")]⟩,
   ⟨b!"0", [], b!"2", [], false, [(b!"label", b!"hello")]⟩,
   ⟨b!"1", [], b!"0", [], false, [(b!"label", b!"gopher")]⟩,
   ⟨b!"1", [], b!"0", [], false, [(b!"label", b!"golang")]⟩,
   ⟨b!"1", b!"b", b!"0", [], false, [(b!"label", b!"gopher")]⟩,
   ⟨b!"1", b!"a", b!"0", b!"b", false, [(b!"label", b!"golang")]⟩,
   ⟨b!"1", [], b!"1", [], false, [(b!"comment", b!"test"), (b!"label", b!"world")]⟩,
   ⟨b!"1", b!"a", b!"0", b!"a", false, [(b!"label", b!"golang")]⟩,
   ⟨b!"1", b!"a", b!"0", [], false, [(b!"label", b!"golang")]⟩,
   ⟨b!"1", b!"b", b!"0", [], false, [(b!"label", b!"gopher")]⟩,
   ⟨b!"1", [], b!"1", [], false, [(b!"label", b!"world")]⟩,
   ⟨b!"1", b!"a", b!"0", b!"b", true, [(b!"label", b!"golang")]⟩,
   ⟨b!"1", [], b!"1", [], false, [(b!"comment", b!"test"), (b!"label", b!"hello")]⟩,
   ⟨b!"1", b!"a", b!"0", [], true, [(b!"label", b!"golang")]⟩,
   ⟨b!"1", b!"a", b!"0", b!"b", true, [(b!"label", b!"graphviz")]⟩] =
  ([⟨b!"0", [], b!"1", [], false, [(b!"label", b!"abc")]⟩,
   ⟨b!"0", [], b!"1", [], false, [(b!"label", b!"cba")]⟩,
   ⟨b!"0", [], b!"2", [], false, [(b!"label", b!"hello")]⟩,
   ⟨b!"1", [], b!"0", [], false, [(b!"label", b!"golang")]⟩,
   ⟨b!"1", [], b!"0", [], false, [(b!"label", b!"gopher")]⟩,
   ⟨b!"1", b!"a", b!"0", [], true, [(b!"label", b!"golang")]⟩,
   ⟨b!"1", b!"a", b!"0", [], false, [(b!"label", b!"golang")]⟩,
   ⟨b!"1", b!"a", b!"0", [], false, [(b!"label", b!"gopher")]⟩,
   ⟨b!"1", b!"a", b!"0", b!"a", false, [(b!"label", b!"golang")]⟩,
   ⟨b!"1", b!"a", b!"0", b!"b", true, [(b!"label", b!"golang")]⟩,
   ⟨b!"1", b!"a", b!"0", b!"b", true, [(b!"label", b!"graphviz")]⟩,
   ⟨b!"1", b!"a", b!"0", b!"b", false, [(b!"label", b!"golang")]⟩,
   ⟨b!"1", b!"b", b!"0", [], false, [(b!"label", b!"gopher")]⟩,
   ⟨b!"1", b!"b", b!"0", [], false, [(b!"label", b!"gopher")]⟩,
   ⟨b!"1", [], b!"1", [], false, [(b!"label", b!"world")]⟩,
   ⟨b!"1", [], b!"1", [], false, [(b!"comment", b!"test"), (b!"label", b!"hello")]⟩,
   ⟨b!"1", [], b!"1", [], false, [(b!"comment", b!"test"), (b!"label", b!"world")]⟩],
   [⟨b!"0", [], b!"1", [], false, [(b!"label", b!"cba")]⟩,
   ⟨b!"1", b!"a", b!"0", [], false, [(b!"label", b!"gopher")]⟩,
   ⟨b!"0", [], b!"1", [], false, [(b!"label", b!"abc")]⟩,
   ⟨b!"0", [], b!"2", [], false, [(b!"label", b!"hello")]⟩,
   ⟨b!"1", [], b!"0", [], false, [(b!"label", b!"gopher")]⟩,
   ⟨b!"1", [], b!"0", [], false, [(b!"label", b!"golang")]⟩,
   ⟨b!"1", b!"b", b!"0", [], false, [(b!"label", b!"gopher")]⟩,
   ⟨b!"1", b!"a", b!"0", b!"b", false, [(b!"label", b!"golang")]⟩,
   ⟨b!"1", [], b!"1", [], false, [(b!"comment", b!"test"), (b!"label", b!"world")]⟩,
   ⟨b!"1", b!"a", b!"0", b!"a", false, [(b!"label", b!"golang")]⟩,
   ⟨b!"1", b!"a", b!"0", [], false, [(b!"label", b!"golang")]⟩,
   ⟨b!"1", b!"b", b!"0", [], false, [(b!"label", b!"gopher")]⟩,
   ⟨b!"1", [], b!"1", [], false, [(b!"label", b!"world")]⟩,
   ⟨b!"1", b!"a", b!"0", b!"b", true, [(b!"label", b!"golang")]⟩,
   ⟨b!"1", [], b!"1", [], false, [(b!"comment", b!"test"), (b!"label", b!"hello")]⟩,
   ⟨b!"1", b!"a", b!"0", [], true, [(b!"label", b!"golang")]⟩,
   ⟨b!"1", b!"a", b!"0", b!"b", true, [(b!"label", b!"graphviz")]⟩]) := by decide +kernel

/-- ast/ast_test.go:7-46 `TestMakeNodeID`. -/
example : [Ast.makeNodeID [] [], Ast.makeNodeID (b!"id") (b!"p1"), Ast.makeNodeID (b!"_id") (b!"p1:p2"), Ast.makeNodeID (b!"1id") (b!"p1:p2:p3"), Ast.makeNodeID (b!"?id") (b!":p2:p3")] =
  [⟨[], ⟨[], []⟩⟩, ⟨b!"id", ⟨b!"p1", []⟩⟩, ⟨b!"_id", ⟨b!"p1", b!"p2"⟩⟩, ⟨b!"1id", ⟨b!"p1", b!"p2"⟩⟩, ⟨b!"?id", ⟨[], b!"p2"⟩⟩] := by decide +kernel

end Gographviz.Tests
