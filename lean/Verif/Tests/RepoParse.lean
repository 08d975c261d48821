import Verif.Tests.Harness
/-!
The tests of internal/parser/parser_test.go with inputs of at most 410 bytes: parse, print, parse again, print, compare.

Generated by tools/gen_tests.py.
-/
namespace Gographviz.Tests

set_option maxRecDepth 10000000

/-- internal/parser/parser_test.go:66 `TestHelloWorldString`. -/
example : parseStringTest (b!"digraph G {Hello->World}") = true := by decide +kernel

/-- internal/parser/parser_test.go:79 `TestAttr`. -/
example : parseStringTest (b!"digraph finite_state { rankdir = LR }") = true := by decide +kernel

/-- internal/parser/parser_test.go:84 `TestString`. -/
example : parseStringTest (b!"digraph finite_state { rankdir = \"LR\" }") = true := by decide +kernel

/-- internal/parser/parser_test.go:89 `TestAttrList`. -/
example : parseStringTest (b!"\ndigraph { node [ shape = doublecircle ] }") = true := by decide +kernel

/-- internal/parser/parser_test.go:94 `TestStringLit`. -/
example : parseStringTest (b!"digraph finite_state_machine {\n\tsize= \"8\" ; }") = true := by decide +kernel

/-- internal/parser/parser_test.go:99 `TestHashComments`. -/
example : parseStringTest (b!"## bla \\n\n  digraph G {Hello->World}") = true := by decide +kernel

/-- internal/parser/parser_test.go:104 `TestIntLit`. -/
example : parseStringTest (b!"graph G {\n\t1 -- 30 [f=1];}") = true := by decide +kernel

/-- internal/parser/parser_test.go:109 `TestFloat1`. -/
example : parseStringTest (b!"digraph { bla = 2.0 }") = true := by decide +kernel

/-- internal/parser/parser_test.go:113 `TestFloat2`. -/
example : parseStringTest (b!"digraph { bla = .1 }") = true := by decide +kernel

/-- internal/parser/parser_test.go:117 `TestNegative`. -/
example : parseStringTest (b!"digraph { -2 -> -1 }") = true := by decide +kernel

/-- internal/parser/parser_test.go:121 `TestUnderscore`. -/
example : parseStringTest (b!"digraph { a_b = 1 }") = true := by decide +kernel

/-- internal/parser/parser_test.go:125 `TestNonAscii`. -/
example : parseStringTest [100, 105, 103, 114, 97, 112, 104, 32, 123, 9, 108, 97, 98, 101, 108, 61, 84, 195, 179, 116, 104, 32, 125] = true := by decide +kernel

/-- internal/parser/parser_test.go:129 `TestPorts`. -/
example : parseStringTest (b!"digraph { \"node6\":f0 -> \"node9\":f1 }") = true := by decide +kernel

/-- internal/parser/parser_test.go:133 `TestHtml`. -/
example : parseStringTest (b!"digraph { a = <<table></table>> }") = true := by decide +kernel

/-- internal/parser/parser_test.go:137 `TestIdWithKeyword`. -/
example : parseStringTest (b!"digraph { edgeURL = \"a\" }") = true := by decide +kernel

/-- internal/parser/parser_test.go:141 `TestSubGraph`. -/
example : parseStringTest (b!"digraph { subgraph { a -> b } }") = true := by decide +kernel

/-- internal/parser/parser_test.go:145 `TestImplicitSubGraph`. -/
example : parseStringTest (b!"digraph { { a -> b } }") = true := by decide +kernel

/-- internal/parser/parser_test.go:149 `TestEdges`. -/
example : parseStringTest (b!"digraph { a0 -> a1 -> a2 -> a3 }") = true := by decide +kernel

/-- internal/parser/parser_test.go:153 `TestNodes`. -/
example : parseStringTest (b!"digraph { a0 a1 }") = true := by decide +kernel

/-- internal/parser/parser_test.go:192 `TestEmptyAttrList`. -/
example : parseStringTest (b!"digraph g { edge [ ] }") = true := by decide +kernel

/-- internal/parser/parser_test.go:196 `TestHelloWorld (helloworld.gv.txt)`. -/
example : parseStringTest (b!"digraph G {Hello->World}\n") = true := by decide +kernel

/-- internal/parser/parser_test.go:200 `TestCluster (cluster.gv.txt)`. -/
example : parseStringTest (b!"digraph G {\n\n\tsubgraph cluster_0 {\n\t\tstyle=filled;\n\t\tcolor=lightgrey;\n\t\tnode [style=filled,color=white];\n\t\ta0 -> a1 -> a2 -> a3;\n\t\tlabel = \"process #1\";\n\t}\n\n\tsubgraph cluster_1 {\n\t\tnode [style=filled];\n\t\tb0 -> b1 -> b2 -> b3;\n\t\tlabel = \"process #2\";\n\t\tcolor=blue\n\t}\n\tstart -> a0;\n\tstart -> b0;\n\ta1 -> b3;\n\tb2 -> a3;\n\ta3 -> a0;\n\ta3 -> end;\n\tb3 -> end;\n\n\tstart [shape=Mdiamond];\n\tend [shape=Msquare];\n}\n") = true := by decide +kernel

/-- internal/parser/parser_test.go:260 `TestFdpclust (fdpclust.gv.txt)`. -/
example : parseStringTest (b!"graph G {\n  e\n  subgraph clusterA {\n    a -- b;\n    subgraph clusterC {\n      C -- D;\n    }\n  }\n  subgraph clusterB {\n    d -- f\n  }\n  d -- D\n  e -- clusterB\n  clusterC -- clusterB\n}\n") = true := by decide +kernel

/-- internal/parser/parser_test.go:276 `TestProcess (process.gv.txt)`. -/
example : parseStringTest (b!"graph G {\n\trun -- intr;\n\tintr -- runbl;\n\trunbl -- run;\n\trun -- kernel;\n\tkernel -- zombie;\n\tkernel -- sleep;\n\tkernel -- runmem;\n\tsleep -- swap;\n\tswap -- runswap;\n\trunswap -- new;\n\trunswap -- runmem;\n\tnew -- runmem;\n\tsleep -- runmem;\n}\n") = true := by decide +kernel

end Gographviz.Tests
