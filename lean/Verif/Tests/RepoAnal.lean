import Verif.Tests.Harness
/-!
The tests of analysewrite_test.go with inputs of at most 410 bytes: parse, analyse, write, parse again, analyse with `Escape`, write, compare.

Generated by tools/gen_tests.py.
-/
namespace Gographviz.Tests

set_option maxRecDepth 10000000

/-- analysewrite_test.go:90 `TestHelloWorldString`. -/
example : (anal (b!"digraph G {Hello->World}")).isSome = true := by decide +kernel

/-- analysewrite_test.go:95 `TestHelloWorldFile (helloworld.gv.txt)`. -/
example : (anal (b!"digraph G {Hello->World}\n")).isSome = true := by decide +kernel

/-- analysewrite_test.go:99 `TestAttr`. -/
example : (anal (b!"digraph finite_state { rankdir = LR }")).isSome = true := by decide +kernel

/-- analysewrite_test.go:104 `TestString`. -/
example : (anal (b!"digraph finite_state { rankdir = \"LR\" }")).isSome = true := by decide +kernel

/-- analysewrite_test.go:109 `TestAttrImgPos`. -/
example : (anal (b!"digraph finite_state { imagepos = tc }")).isSome = true := by decide +kernel

/-- analysewrite_test.go:114 `TestAttrList`. -/
example : (anal (b!"\ndigraph { node [ shape = doublecircle ] }")).isSome = true := by decide +kernel

/-- analysewrite_test.go:119 `TestStringLit`. -/
example : (anal (b!"digraph finite_state_machine {\n\tsize= \"8\" ; }")).isSome = true := by decide +kernel

/-- analysewrite_test.go:124 `TestHashComments`. -/
example : (anal (b!"## bla \\n\n  digraph G {Hello->World}")).isSome = true := by decide +kernel

/-- analysewrite_test.go:129 `TestIntLit`. -/
example : (anal (b!"graph G {\n\t1 -- 30 [dim=1];}")).isSome = true := by decide +kernel

/-- analysewrite_test.go:134 `TestFloat1`. -/
example : (anal (b!"digraph { Damping = 2.0 }")).isSome = true := by decide +kernel

/-- analysewrite_test.go:138 `TestFloat2`. -/
example : (anal (b!"digraph { Damping = .1 }")).isSome = true := by decide +kernel

/-- analysewrite_test.go:142 `TestNegative`. -/
example : (anal (b!"digraph { -2 -> -1 }")).isSome = true := by decide +kernel

/-- analysewrite_test.go:146 `TestUnderscore`. -/
example : (anal (b!"digraph { dim = 1 }")).isSome = true := by decide +kernel

/-- analysewrite_test.go:150 `TestNonAscii`. -/
example : (anal [100, 105, 103, 114, 97, 112, 104, 32, 123, 9, 108, 97, 98, 101, 108, 61, 84, 195, 179, 116, 104, 32, 125]).isSome = true := by decide +kernel

/-- analysewrite_test.go:154 `TestPorts`. -/
example : (anal (b!"digraph { \"node6\":f0 -> \"node9\":f1 }")).isSome = true := by decide +kernel

/-- analysewrite_test.go:158 `TestHtml`. -/
example : (anal (b!"digraph { tooltip = <<table></table>> }")).isSome = true := by decide +kernel

/-- analysewrite_test.go:162 `TestIdWithKeyword`. -/
example : (anal (b!"digraph { edgeURL = \"a\" }")).isSome = true := by decide +kernel

/-- analysewrite_test.go:166 `TestSubGraph`. -/
example : (anal (b!"digraph { subgraph { a -> b } }")).isSome = true := by decide +kernel

/-- analysewrite_test.go:170 `TestImplicitSubGraph`. -/
example : (anal (b!"digraph { { a -> b } }")).isSome = true := by decide +kernel

/-- analysewrite_test.go:174 `TestEdges`. -/
example : (anal (b!"digraph { a0 -> a1 -> a2 -> a3 }")).isSome = true := by decide +kernel

/-- analysewrite_test.go:251 `TestEmptyAttrList`. -/
example : (anal (b!"digraph g { edge [ ] }")).isSome = true := by decide +kernel

/-- analysewrite_test.go:255 `TestHelloWorld (helloworld.gv.txt)`. -/
example : (anal (b!"digraph G {Hello->World}\n")).isSome = true := by decide +kernel

/-- analysewrite_test.go:259 `TestCluster (cluster.gv.txt)`. -/
example : (anal (b!"digraph G {\n\n\tsubgraph cluster_0 {\n\t\tstyle=filled;\n\t\tcolor=lightgrey;\n\t\tnode [style=filled,color=white];\n\t\ta0 -> a1 -> a2 -> a3;\n\t\tlabel = \"process #1\";\n\t}\n\n\tsubgraph cluster_1 {\n\t\tnode [style=filled];\n\t\tb0 -> b1 -> b2 -> b3;\n\t\tlabel = \"process #2\";\n\t\tcolor=blue\n\t}\n\tstart -> a0;\n\tstart -> b0;\n\ta1 -> b3;\n\tb2 -> a3;\n\ta3 -> a0;\n\ta3 -> end;\n\tb3 -> end;\n\n\tstart [shape=Mdiamond];\n\tend [shape=Msquare];\n}\n")).isSome = true := by decide +kernel

/-- analysewrite_test.go:319 `TestFdpclust (fdpclust.gv.txt)`. -/
example : (anal (b!"graph G {\n  e\n  subgraph clusterA {\n    a -- b;\n    subgraph clusterC {\n      C -- D;\n    }\n  }\n  subgraph clusterB {\n    d -- f\n  }\n  d -- D\n  e -- clusterB\n  clusterC -- clusterB\n}\n")).isSome = true := by decide +kernel

/-- analysewrite_test.go:335 `TestProcess (process.gv.txt)`. -/
example : (anal (b!"graph G {\n\trun -- intr;\n\tintr -- runbl;\n\trunbl -- run;\n\trun -- kernel;\n\tkernel -- zombie;\n\tkernel -- sleep;\n\tkernel -- runmem;\n\tsleep -- swap;\n\tswap -- runswap;\n\trunswap -- new;\n\trunswap -- runmem;\n\tnew -- runmem;\n\tsleep -- runmem;\n}\n")).isSome = true := by decide +kernel

end Gographviz.Tests
