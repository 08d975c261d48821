{"id": "C01", "title": "Node name index and node list always agree", "statement": "After any history, Nodes.Lookup and Nodes.Nodes describe the same set of nodes: every listed node is reachable by its own name in Lookup and is the very same object, every Lookup entry is listed, and no name is listed twice.", "quantifier": "every finite history of Graph API calls (SetName/SetDir/SetStrict/AddNode/AddEdge/AddPortEdge/AddSubGraph/AddAttr/RemoveNode/RemoveSubGraph) with arbitrary string arguments, starting from NewGraph()", "why_tests_cant": "A test checks a few call sequences; the index can only go stale on sequences (remove/re-add, duplicate add) nobody wrote down.", "anchors": ["nodes.go:Nodes.Add", "nodes.go:Nodes.Remove", "graph.go:AddNode", "graph.go:RemoveNode", "graph.go:RemoveSubGraph"]}
{"id": "C02", "title": "Edge indexes always agree with the edge list", "statement": "After any history, Edges.SrcToDsts[s][d] and Edges.DstToSrcs[d][s] both contain exactly the edges of Edges.Edges whose Src is s and Dst is d, in the same relative order; no other entries exist.", "quantifier": "every finite history of Graph API calls (SetName/SetDir/SetStrict/AddNode/AddEdge/AddPortEdge/AddSubGraph/AddAttr/RemoveNode/RemoveSubGraph) with arbitrary string arguments, starting from NewGraph()", "why_tests_cant": "RemoveNode/RemoveSubGraph rebuild the set; only an invariant over all histories shows that no stale bucket survives.", "anchors": ["edges.go:Edges.Add", "graph.go:RemoveNode", "graph.go:RemoveSubGraph"]}
{"id": "C03", "title": "Parent/child relation maps are mutual inverses", "statement": "After any history, c is recorded as a child of p exactly when p is recorded as a parent of c.", "quantifier": "every finite history of Graph API calls (SetName/SetDir/SetStrict/AddNode/AddEdge/AddPortEdge/AddSubGraph/AddAttr/RemoveNode/RemoveSubGraph) with arbitrary string arguments, starting from NewGraph()", "why_tests_cant": "The two maps are updated separately; divergence needs a specific interleaving of Add and Remove calls.", "anchors": ["relations.go:Relations.Add", "relations.go:Relations.Remove"]}
{"id": "C04", "title": "Rejected calls leave the graph unchanged", "statement": "AddNode, AddEdge, AddPortEdge and AddAttr return an error exactly when an attribute name is not a registered Graphviz attribute (or, for AddAttr, when the target graph does not exist), and when they return an error the graph is exactly what it was before.", "quantifier": "every graph, every argument, every iteration order of the attribute map", "why_tests_cant": "Atomicity must hold for every graph and for every position of the bad attribute in Go's random map order.", "anchors": ["graph.go:AddNode", "graph.go:AddPortEdge", "graph.go:AddAttr", "attrs.go:NewAttrs"]}
{"id": "C05", "title": "Repeated AddNode merges attributes, last value wins", "statement": "After any history the attribute value of an existing node under a key is the value given by the most recent successful AddNode for that node since it was last removed that mentioned the key; keys never mentioned are absent.", "quantifier": "every finite history of Graph API calls (SetName/SetDir/SetStrict/AddNode/AddEdge/AddPortEdge/AddSubGraph/AddAttr/RemoveNode/RemoveSubGraph) with arbitrary string arguments, starting from NewGraph()", "why_tests_cant": "It is a statement about all histories, including remove/re-add.", "anchors": ["nodes.go:Nodes.Add", "attrs.go:Attrs.Extend"]}
{"id": "C06", "title": "RemoveNode removes exactly the node and its incident edges", "statement": "If the node exists RemoveNode returns no error, afterwards IsNode is false, no edge has it as source or destination, and every other node (with its attributes) and every other edge (in order), all graph attributes and all subgraphs are unchanged; if it does not exist an error is returned and nothing changes.", "quantifier": "every reachable graph, every parent and node name", "why_tests_cant": "Frame conditions (nothing else changed) cannot be sampled.", "anchors": ["graph.go:RemoveNode", "nodes.go:Nodes.Remove"]}
{"id": "C07", "title": "RemoveSubGraph removes the subgraph, its nodes and their edges", "statement": "RemoveSubGraph succeeds exactly when each recorded child of the subgraph is a node; then the subgraph is gone, each child node is gone, no edge touches the subgraph name (as endpoint or port) or a removed child, and everything else is unchanged, independently of the map iteration order. A later re-creation of the same subgraph starts empty.", "quantifier": "every reachable graph, every map iteration order", "why_tests_cant": "Depends on Go's randomised map order and on all graphs; the failure (a leftover child relation, a half-done removal) needs particular structures.", "anchors": ["graph.go:RemoveSubGraph"]}
{"id": "C08", "title": "AddAttr changes exactly one attribute of exactly the addressed graph", "statement": "AddAttr(g,k,v) sets k to v on the root graph if g is the root's name, otherwise on the subgraph named g if it exists, and changes nothing else; in every other case it fails.", "quantifier": "every graph and all arguments", "why_tests_cant": "Frame condition over all graphs.", "anchors": ["graph.go:AddAttr", "graph.go:getAttrs"]}
{"id": "C09", "title": "AddSubGraph is idempotent and never loses data", "statement": "AddSubGraph records the relation, creates the subgraph if missing, keeps the attributes of an existing one (overwriting only the given keys), and repeating the same call changes nothing.", "quantifier": "every graph, all arguments, every map iteration order", "why_tests_cant": "Idempotence and frame over all graphs.", "anchors": ["graph.go:AddSubGraph", "subgraphs.go:SubGraphs.Add"]}
{"id": "C10", "title": "Go's random map iteration order is unobservable in successful mutations", "statement": "For any two iteration orders of the same attribute map, AddNode, AddPortEdge and AddSubGraph agree on whether they fail, and when they succeed the resulting graphs are identical.", "quantifier": "every graph, every attribute map, all pairs of iteration orders", "why_tests_cant": "A test run sees one random order.", "anchors": ["attrs.go:NewAttrs", "attrs.go:Attrs.Extend", "graph.go:AddSubGraph"]}
{"id": "C11", "title": "The graph behaves like a simple abstract graph", "statement": "Every history of API calls gives the same answers (errors, IsNode, IsSubGraph, node attributes, edge list, containment) as the obvious abstract machine over a finite map of nodes, a list of edges, a set of containment pairs and a map of subgraphs.", "quantifier": "every finite history of Graph API calls (SetName/SetDir/SetStrict/AddNode/AddEdge/AddPortEdge/AddSubGraph/AddAttr/RemoveNode/RemoveSubGraph) with arbitrary string arguments, starting from NewGraph()", "why_tests_cant": "Refinement quantifies over all histories.", "anchors": ["graph.go", "nodes.go", "edges.go", "relations.go", "subgraphs.go"]}
{"id": "C12", "title": "Only registered attributes are ever stored", "statement": "After any history, each attribute key stored on the graph, a subgraph, a node or an edge is one of the registered Graphviz attribute names.", "quantifier": "every finite history of Graph API calls (SetName/SetDir/SetStrict/AddNode/AddEdge/AddPortEdge/AddSubGraph/AddAttr/RemoveNode/RemoveSubGraph) with arbitrary string arguments, starting from NewGraph()", "why_tests_cant": "Invariant over all histories.", "anchors": ["attr.go:NewAttr", "attrs.go:Attrs.Add"]}
{"id": "C13", "title": "Edge ordering is a strict weak order", "statement": "The comparison used by Edges.Sorted is irreflexive, asymmetric and transitive and its incomparability is transitive, so sort.Sort is well defined; two edges are incomparable exactly when they agree on endpoints, ports, direction and on every attribute value (absent counts as empty).", "quantifier": "all triples of edges with arbitrary attribute maps", "why_tests_cant": "A comparison bug (non-transitivity) shows on particular triples only.", "anchors": ["edges.go:edgeSorter.Less"]}
{"id": "C14", "title": "Sorted views are sorted permutations", "statement": "Edges.Sorted, Nodes.Sorted, SubGraphs.Sorted and Relations.SortedChildren return exactly the stored elements, each once, in ascending order, and do not depend on map iteration order.", "quantifier": "every reachable graph, every iteration order", "why_tests_cant": "Depends on map order and all contents.", "anchors": ["edges.go:Edges.Sorted", "nodes.go:Nodes.Sorted", "subgraphs.go:SubGraphs.Sorted", "relations.go:SortedChildren"]}
{"id": "C15", "title": "String() is canonical", "statement": "Two graphs with the same name, flags, attributes, nodes, subgraphs, containment and the same multiset of edges print the same text, regardless of the order in which the calls were made and of the unspecified behaviour of the unstable sort (when no stored attribute value is empty).", "quantifier": "all pairs of graphs with equal contents; every sorting algorithm meeting sort.Sort's contract", "why_tests_cant": "Quantifies over orders of construction and over sort implementations.", "anchors": ["write.go:Write", "edges.go:Sorted"]}
{"id": "C16", "title": "WriteAst/String terminates exactly when containment is acyclic", "statement": "WriteAst terminates (normally or with an error) on every graph whose subgraph containment has no cycle. When a subgraph it has to write contains itself directly or indirectly (no name being both a node and a subgraph) it never succeeds: it recurses without bound, unless a dangling name stops it with an error first.", "quantifier": "all graphs", "why_tests_cant": "Non-termination cannot be tested; cycles may be arbitrarily long.", "anchors": ["write.go:newSubGraph"]}
{"id": "C17", "title": "No node is lost when writing", "statement": "If WriteAst succeeds and no name is used for both a node and a subgraph, each node of the graph occurs in at least one node statement carrying exactly its attributes, every node statement is about a node of the graph, and a node not contained in any written subgraph occurs exactly once, at top level.", "quantifier": "all graphs reachable by API calls, every sorting algorithm", "why_tests_cant": "For all graph shapes.", "anchors": ["write.go:Write", "write.go:newNodeStmt"]}
{"id": "C18", "title": "Each edge is written exactly once, faithfully", "statement": "If WriteAst succeeds, the edge statements at top level are, in order, exactly the sorted edges: same endpoints, same direction, same attributes.", "quantifier": "all graphs", "why_tests_cant": "For all graphs and sort implementations.", "anchors": ["write.go:newEdgeStmt", "write.go:Write"]}
{"id": "C19", "title": "WriteAst fails only for dangling names or ports on subgraphs", "statement": "On acyclic graphs in which no name is used for both a node and a subgraph, WriteAst returns an error exactly when some edge endpoint is neither node nor subgraph, or is a non-node subgraph with a non-empty port, or some written subgraph has a child that is neither node nor subgraph.", "quantifier": "all acyclic graphs", "why_tests_cant": "Exact error condition over all graphs.", "anchors": ["write.go:newLocation", "write.go:newSubGraph"]}
{"id": "C20", "title": "Subgraphs of the root are written with their full contents", "statement": "If WriteAst succeeds and no name is used for both a node and a subgraph, each subgraph recorded as child of the root graph occurs in the output, with exactly its attributes and one statement per recorded child.", "quantifier": "all graphs", "why_tests_cant": "For all containment structures.", "anchors": ["write.go:Write", "write.go:newSubGraph"]}
{"id": "C21", "title": "Attribute maps survive the conversion to attribute lists", "statement": "Converting an attribute map to an AST attribute list and back yields the same map, and the list is in ascending key order; when a list mentions a key repeatedly, the last value counts.", "quantifier": "all maps / all attribute lists", "why_tests_cant": "All maps, every iteration order.", "anchors": ["ast/ast.go:PutMap", "ast/ast.go:AttrList.GetMap"]}
{"id": "C22", "title": "Edges between cluster subgraphs survive writing and reading back", "statement": "An edge whose endpoint is a cluster subgraph is written by name, and after writing and reading back the cluster is still a subgraph with its contents and is not a node.", "quantifier": "all graphs with cluster endpoints", "why_tests_cant": "Needs the composition of writer, printer, lexer, parser and analyser on all graphs.", "anchors": ["write.go:newLocation", "graph.go:isClusterSubGraph", "analyse.go:edgeStmt"]}
{"id": "C23", "title": "Analyse reports every error and processes every statement", "statement": "Analyse makes the same sequence of calls on any implementation of Interface no matter which of them fail, and returns an error exactly when at least one call failed; the message lists all of the failures in call order.", "quantifier": "every syntax tree, every implementation of Interface", "why_tests_cant": "Quantifies over implementations and failure patterns.", "anchors": ["analyse.go:Analyse", "catch.go:errCatcher"]}
{"id": "C24", "title": "Default attributes are scoped like DOT", "statement": "node [..] and edge [..] defaults apply to nodes first mentioned / edges created later in the same or a nested scope, never to earlier ones and never outside the subgraph; later defaults override earlier ones key by key; attributes given on the statement itself win.", "quantifier": "every statement list (arbitrary nesting)", "why_tests_cant": "Scoping over arbitrary nesting and interleaving.", "anchors": ["analyse.go:newStmtVisitor", "analyse.go:nodeStmt", "analyse.go:edgeStmt", "analyse.go:nodeAttrs", "analyse.go:edgeAttrs"]}
{"id": "C25", "title": "Edge chains expand to consecutive edges", "statement": "a -> b -> ... -> z [attrs] makes exactly one edge per operator between consecutive endpoints, with the operator's direction, the endpoints' ports, all with the same attributes (the statement's over the defaults), and creates each node endpoint that was not yet mentioned in the scope.", "quantifier": "all chains of any length", "why_tests_cant": "Arbitrary chain length.", "anchors": ["analyse.go:edgeStmt", "analyse.go:addNodeFromEdge"]}
{"id": "C26", "title": "Subgraphs inherit the enclosing graph attributes declared so far", "statement": "graph [k=v] sets k on the current (sub)graph and each subgraph opened later directly in this scope is created with these attributes; k=v statements set k on the current (sub)graph only.", "quantifier": "all statement lists", "why_tests_cant": "Arbitrary statement lists.", "anchors": ["analyse.go:graphAttrs", "analyse.go:subGraph", "analyse.go:attr"]}
{"id": "C27", "title": "A graph obtained by reading can always be written", "statement": "If Analyse (hence Read) succeeds on a syntax tree and the resulting containment is acyclic, WriteAst succeeds.", "quantifier": "every syntax tree", "why_tests_cant": "All syntax trees.", "anchors": ["analyse.go", "write.go"]}
{"id": "C28", "title": "Escaping is idempotent", "statement": "Escaping an already escaped name or value does not change it, so names can be passed back into Escape methods.", "quantifier": "every byte string on which escaping is defined", "why_tests_cant": "All strings.", "anchors": ["escape.go:esc"]}
{"id": "C29", "title": "Escape methods never panic", "statement": "Every Escape method returns normally for all string arguments.", "quantifier": "all byte strings", "why_tests_cant": "Panics hide on odd inputs (blank strings, a single quote).", "anchors": ["escape.go:esc", "escape.go:isHTML", "escape.go:isStringLit"]}
{"id": "C30", "title": "Escaped strings are single valid DOT identifiers", "statement": "For every non-empty string the escaped form is lexed as exactly one DOT ID token, so no name or value can inject DOT syntax.", "quantifier": "all byte strings", "why_tests_cant": "An injection needs an unusual string.", "anchors": ["escape.go:esc", "internal/lexer"]}
{"id": "C31", "title": "Escaping keeps distinct names distinct", "statement": "Two different names that both need quoting are escaped to different identifiers.", "quantifier": "all pairs of byte strings", "why_tests_cant": "All pairs.", "anchors": ["escape.go:esc"]}
{"id": "C32", "title": "Escape is Graph on escaped names", "statement": "A history of calls on Escape produces exactly the Graph produced by the same calls with escaped names and attributes; after a successful AddNode (AddSubGraph) for a name, IsNode (IsSubGraph) of the same unescaped name is true.", "quantifier": "all histories of Escape calls", "why_tests_cant": "All histories.", "anchors": ["escape.go"]}
{"id": "C33", "title": "Lexing is total and loses nothing", "statement": "On every byte sequence scanning terminates: each token except EOF is non-empty, tokens are disjoint, in order, equal to the source slice at their offset, and only whitespace and comments lie between them; EOF is reached after at most one token per byte.", "quantifier": "all byte sequences, including invalid UTF-8", "why_tests_cant": "All inputs.", "anchors": ["internal/lexer/lexer.go:Scan"]}
{"id": "C34", "title": "Parsing is total: it never panics or hangs", "statement": "Parse terminates and returns a syntax tree or an error for every byte sequence; no type assertion or table lookup in the parser can fail.", "quantifier": "all byte sequences", "why_tests_cant": "Fuzzing samples; the LR automaton's stack is unbounded.", "anchors": ["internal/parser/parser.go:Parse", "internal/parser/productionstable.go", "internal/parser/main.go:ParseBytes"]}
{"id": "C35", "title": "The parser accepts exactly the published grammar", "statement": "A token sequence is accepted exactly when it is derivable from the grammar in dot.bnf, and the result is the syntax tree computed by the grammar's actions; the grammar is unambiguous. The parser's tables, which are unpacked from compressed bytes when the package is initialised, are unpacked without a panic and are the tables this is about.", "quantifier": "all token sequences", "why_tests_cant": "Equivalence of a generated table and a grammar over all inputs.", "anchors": ["dot.bnf", "internal/parser/actiontable.go", "internal/parser/gototable.go", "internal/parser/productionstable.go"]}
{"id": "C36", "title": "Printing a syntax tree and parsing it gives it back", "statement": "For every syntax tree built from valid identifiers (node names and ports without outer Unicode white space, edges with at least one right-hand side), Parse(tree.String()) succeeds and yields the same tree (up to dropping empty attribute lists and empty default statements); in particular for every tree returned by Parse. Print, parse, print is stable.", "quantifier": "all syntax trees over valid identifiers, arbitrary nesting", "why_tests_cant": "All trees, through printer, lexer DFA and LR automaton.", "anchors": ["ast/ast.go", "internal/lexer", "internal/parser"]}
{"id": "C37", "title": "Writing a graph and reading it back preserves it", "statement": "For every graph that WriteAst can write, whose names and values are valid DOT identifiers, in which no name is used twice (as node and subgraph, or as graph and subgraph), Read(g.String()) succeeds; the result has the same name, flags, graph attributes, nodes with attributes, edges with attributes, and exactly the written subgraphs, with their attributes and members; ports come back with a leading colon (those that have one are lost), and a cluster at the end of an edge is also a node without attributes. Without ports and without clusters at the ends of edges, String() of the result is the same text byte for byte.", "quantifier": "all such graphs", "why_tests_cant": "All graphs; end-to-end.", "anchors": ["gographviz.go:Read", "write.go", "analyse.go"]}
{"id": "C38", "title": "Edge ports survive reading and writing", "statement": "An edge statement a:p -> b:q read with Read is written back with the same ports. (False of the code: a graph that comes from Read never writes a port.)", "quantifier": "all ports", "why_tests_cant": "All ports.", "anchors": ["ast/ast.go:MakeNodeID", "ast/ast.go:Port.String", "analyse.go:edgeStmt", "write.go:newNodeID"]}
{"id": "C39", "title": "Keywords are recognised exactly as documented", "statement": "A word is lexed as one of the six keywords exactly for the spellings listed in the grammar, every other identifier-shaped word is an ID, in particular words that merely start with a keyword.", "quantifier": "all words", "why_tests_cant": "All words.", "anchors": ["internal/lexer/transitiontable.go", "dot.bnf"]}
{"id": "C40", "title": "Layout is insignificant", "statement": "Inserting whitespace or comments directly before a token, or at the end of input after a valid token, does not change the sequence of token types and literals, hence not the parse result. Two texts with the same tokens have the same tree, and the tokens of an accepted text, each followed by one space, have its tree.", "quantifier": "all byte sequences", "why_tests_cant": "All inputs and insertion points.", "anchors": ["internal/lexer/lexer.go:Scan"]}
{"id": "C41", "title": "Anonymous subgraphs get distinct generated names even under concurrency", "statement": "Under any interleaving of concurrent parses, each anonymous subgraph draws a different position of the generator's sequence, and named subgraphs keep their name.", "quantifier": "all interleavings of any number of goroutines", "why_tests_cant": "All schedules.", "anchors": ["ast/ast.go:NewSubGraph", "ast/ast.go:randInt63"]}
{"id": "C42", "title": "MakeNodeID splits ports and printing restores them", "statement": "MakeNodeID(id, p) and MakeNodeID(id, p:q) print as id:p and id:p:q for port parts without colon; an empty port prints id alone.", "quantifier": "all strings", "why_tests_cant": "All strings.", "anchors": ["ast/ast.go:MakeNodeID", "ast/ast.go:NodeID.String"]}
{"id": "C43", "title": "Token positions are the true source positions", "statement": "For every input, each token up to and including the first invalid one carries line = 1 + number of newlines before it and the column defined by the documented tab/newline rule, so error messages point at the offending token.", "quantifier": "all byte sequences", "why_tests_cant": "All inputs (multi-line tokens, comments, tabs).", "anchors": ["internal/lexer/lexer.go:Scan", "internal/errors/errors.go:Error"]}
{"id": "C44", "title": "The attribute whitelist is exact and case sensitive", "statement": "NewAttr(k) succeeds exactly for the registered names and returns k itself.", "quantifier": "all strings", "why_tests_cant": "All strings outside the list.", "anchors": ["attr.go:NewAttr", "attr.go:validAttrs"]}
{"id": "C45", "title": "Identifiers are kept verbatim", "statement": "Each identifier in the syntax tree returned by Parse is byte for byte a slice of the input (except generated anonymous names and the implicit value true), hence quoted strings and HTML are not altered.", "quantifier": "all inputs", "why_tests_cant": "All inputs.", "anchors": ["ast/ast.go:NewID", "internal/parser"]}
{"id": "C46", "title": "Explicit node attributes beat defaults", "statement": "An attribute given explicitly on a node statement is not overwritten by a node [..] default, whatever the scopes in which the node is mentioned later.", "quantifier": "all documents", "why_tests_cant": "Needs particular nesting.", "anchors": ["analyse.go:nodeStmt", "nodes.go:Nodes.Add"]}
{"id": "C47", "title": "Removing keeps the graph writable", "statement": "If a graph can be written and a node is removed with its only recorded parent as argument (no name being both a node and a subgraph), the graph can still be written.", "quantifier": "all graphs", "why_tests_cant": "All graphs and removal sequences.", "anchors": ["graph.go:RemoveNode", "write.go:newSubGraph"]}
{"id": "C48", "title": "Token classes are those of the lexical grammar, by longest match", "statement": "The scanner splits every text by longest match into the token classes and layout of dot.bnf: each token is the longest prefix of the remaining text that the grammar derives for its class, INVALID is returned exactly when no prefix is a token, and a text is scanned as a single token of a class exactly when dot.bnf derives it from that class.", "quantifier": "all byte sequences", "why_tests_cant": "The generated automaton has 141 states over all of Unicode; tests sample a few strings.", "anchors": ["internal/lexer/transitiontable.go", "internal/lexer/acttab.go", "dot.bnf"]}
{"id": "C49", "title": "Only unregistered attribute names make reading a parsed file fail", "statement": "NewAnalysedGraph (Analyse on a new graph) succeeds for every syntax tree in which all attribute names are registered, and fails for every tree with an unregistered attribute name in a node, edge (with at least one edge operator), graph-attribute or name=value statement; unregistered names in node [..] and edge [..] matter exactly if something follows that they apply to. Nothing else is an error.", "quantifier": "all syntax trees", "why_tests_cant": "All trees, at any nesting depth.", "anchors": ["analyse.go:NewAnalysedGraph", "analyse.go:Analyse", "catch.go"]}
{"id": "C50", "title": "Concurrent parses are isolated and none is blocked for ever", "statement": "Any number of goroutines may parse at the same time: each call returns what it would return alone (up to the values behind generated names), at most one goroutine is inside the critical section of the name generator, there is no deadlock, and with finitely many goroutines every schedule ends with all calls returned.", "quantifier": "all interleavings of any number of goroutines, all input texts", "why_tests_cant": "All schedules and all inputs; a race or deadlock shows only under particular timing.", "anchors": ["ast/ast.go:randInt63", "ast/ast.go:NewSubGraph", "internal/parser/main.go:ParseBytes", "internal/parser/parser.go:Parse"]}
{"id": "C51", "title": "Syntax errors are exact", "statement": "When Parse rejects a text, the tokens before the reported token are the beginning of some document of the grammar and no document begins with them followed by a token of the reported type (so the error is reported at the first token that cannot be right, never later), and the list of expected token types contains exactly the types that can follow, each once. The error is determined by the tokens up to the reported one.", "quantifier": "all source texts", "why_tests_cant": "Ranges over all texts, and both directions quantify over all possible continuations of a text.", "anchors": ["internal/parser/parser.go:Parse", "internal/parser/parser.go:newError", "internal/parser/actiontable.go:actionTab", "dot.bnf"]}
{"id": "C52", "title": "The message of a syntax error has the right position and is one line", "statement": "The message of a syntax error starts with the line and column at which the reported token starts in the source (also in texts with invalid characters), it is a single line whatever bytes the source contains, it names exactly the expected tokens, unambiguously, in an English list, and it shows the token found in quotes without losing information. The error-recovery code of the parser is never effective: no tokens are skipped.", "quantifier": "all source texts (all byte sequences)", "why_tests_cant": "All byte sequences, including invalid UTF-8 and control characters inside tokens.", "anchors": ["internal/errors/errors.go:Error", "internal/errors/errors.go:DescribeExpected", "internal/errors/errors.go:DescribeToken", "internal/parser/parser.go:Error", "internal/token/token.go:TokMap"]}
{"id": "C53", "title": "Reading is deterministic whatever order Go iterates maps in", "statement": "NewAnalysedGraph and Read give, for the same tree (the same bytes and the same generated names), the same outcome whatever orders Go's range loops over attribute maps use: they succeed for all orders or for none, a success gives the same graph, and the number of collected errors is the same. Analyse never panics, on any implementation of Interface. Only the text of the combined error may vary.", "quantifier": "all syntax trees, all source texts, all choices of iteration orders (one per loop)", "why_tests_cant": "Go randomises map iteration; a test sees one order per run, the claim is about all of them in every loop.", "anchors": ["analyse.go:Analyse", "analyse.go:graphAttrs", "analyse.go:Visit", "catch.go:errCatcher", "attrs.go:NewAttrs", "graph.go:AddSubGraph", "gographviz.go:Read"]}
{"id": "C54", "title": "Walk visits every element once, in document order, and nil prunes", "statement": "Walk on a syntax tree shows every element to the visitor exactly once, an element before its parts and the parts in document order, each part to the visitor that was returned for the whole; when a visitor returns nil, the parts of that element are skipped and the walk goes on.", "quantifier": "all syntax trees and all visitors (including stateful ones)", "why_tests_cant": "Ranges over all trees and all visitor behaviours.", "anchors": ["ast/ast.go:Walk", "ast/ast.go:Visitor", "ast/ast.go:Elem"]}
{"id": "C55", "title": "Exactly which texts are safe to pass to Escape", "statement": "For every byte string that Escape accepts, the escaped form is one DOT identifier token exactly if either escaping leaves the text alone and it is an identifier of the grammar, or escaping quotes it and the text has no NUL, is valid UTF-8 without U+FFFD, does not end in an odd number of backslashes and, if its first non-blank character is '<', has no double quote directly after an odd number of backslashes.", "quantifier": "all byte strings", "why_tests_cant": "An exact criterion over all byte strings; a test shows one string at a time.", "anchors": ["escape.go:esc", "internal/lexer/lexer.go:Scan"]}
{"id": "C56", "title": "A graph contains nothing the caller did not put there", "statement": "After any history of calls, the graph's name, nodes, subgraphs, containment, edges (ends, ports, direction and exactly the attributes) and every attribute value of the graph, a node or a subgraph were given in some call of the history for that very element.", "quantifier": "all histories of Graph calls", "why_tests_cant": "Ranges over all histories, including failing calls, removals and renamings.", "anchors": ["graph.go:AddNode", "graph.go:AddPortEdge", "graph.go:AddSubGraph", "graph.go:AddAttr", "graph.go:RemoveNode", "graph.go:RemoveSubGraph", "nodes.go:Add", "attrs.go:Extend"]}
{"id": "C57", "title": "Graphs built through Escape survive writing and reading", "statement": "If the names and attribute values given to Escape are texts whose escaped forms are identifiers (see C55), the ports are one or two identifiers, no name is used for two kinds of elements and the graph can be written, then the text that is written is DOT text that Read parses back into the same graph: same name, flags, attributes, nodes, written subgraphs and edges (ports as in C37), and the same unescaped names are found in it (a cluster at the end of an edge excepted, C22).", "quantifier": "all histories of Escape calls, all such texts, all sort implementations, all seeds of the name generator", "why_tests_cant": "Ranges over all histories and texts; goes through escaping, writing, scanning, parsing and analysing.", "anchors": ["escape.go:esc", "write.go:WriteAst", "ast/ast.go:String", "gographviz.go:Read", "analyse.go:Analyse"]}
{"id": "C58", "title": "Slices behave like lists, and slices of edges handed out never change", "statement": "Whatever capacity append chooses, the slices of nodes and edges and the slices in the two edge indexes show exactly the elements added and not removed, in order; a slice of edges that a caller took from the graph (the list of edges or an entry of an index) shows the same edges after any later calls, and Edges.Sorted returns its own slice and does not reorder the graph's.", "quantifier": "all histories of calls, all growth policies of append, all slices of edges, all sort implementations", "why_tests_cant": "Aliasing of backing arrays depends on capacities, on the history and on the Go version; all of them are quantified.", "anchors": ["edges.go:Add", "edges.go:Sorted", "nodes.go:Add", "nodes.go:Remove", "graph.go:RemoveNode", "graph.go:RemoveSubGraph"]}
{"id": "C59", "title": "A slice of nodes handed out stays valid", "statement": "A slice g.Nodes.Nodes that a caller took from the graph shows the same nodes after any later calls; in particular ranging over it and removing every node it shows empties the graph.", "quantifier": "all histories of calls before and after, all growth policies of append", "why_tests_cant": "Aliasing of backing arrays depends on capacities and on the history. (The claim holds for calls that remove nothing and is false for removals.)", "anchors": ["nodes.go:Remove", "nodes.go:Add", "graph.go:RemoveNode"]}
{"id": "C60", "title": "Formatting is idempotent", "statement": "Reading a DOT text and writing the graph, and then reading and writing what was written, gives the same bytes as the first writing.", "quantifier": "all texts that are read without error, all sort implementations, all seeds of the generated names", "why_tests_cant": "All texts; goes through scanning, parsing, analysing, sorting and printing twice. (False for texts with ports, and for edges that end at nested clusters.)", "anchors": ["gographviz.go:Read", "analyse.go:Analyse", "write.go:String", "edges.go:Sorted"]}
{"id": "C61", "title": "Elements own their attributes; graphs, elements and arguments share nothing", "statement": "No two elements (graphs, nodes, edges, subgraphs; of one graph or of several; still in a graph or removed) share an attribute map, and no graph keeps a map that was passed as an argument. So a call changes only its own graph, and that as a function of its contents and of the arguments at the time of the call; writing x.Attrs[k] = v through a pointer changes x only; and changing a map after it was passed changes no graph.", "quantifier": "all histories of calls on any number of graphs, interleaved with direct writes to attributes and with changes of the argument maps", "why_tests_cant": "Aliasing shows only in particular histories; all histories with any number of graphs and pointers are quantified.", "anchors": ["attrs.go:NewAttrs", "attrs.go:Extend", "graph.go:AddNode", "graph.go:AddPortEdge", "graph.go:AddSubGraph", "graph.go:AddAttr", "nodes.go:Add", "subgraphs.go:NewSubGraph"]}
{"id": "C62", "title": "Pointers to elements stay current", "statement": "As long as a node or subgraph stays in its graph, the graph knows it by the same pointer, so what is read or written through a pointer taken early is what the graph has now; the nodes and edges that stay keep their identity and their order; an object never changes its name, its ends, ports or direction; calls never change the attributes of an existing edge; and an object that was removed is never changed by a call and never becomes part of a graph again.", "quantifier": "all histories of calls on any number of graphs, direct writes included, all objects", "why_tests_cant": "All histories; the claim is about the identity of objects over arbitrary many calls.", "anchors": ["nodes.go:Add", "nodes.go:Remove", "edges.go:Add", "graph.go:RemoveNode", "graph.go:RemoveSubGraph", "subgraphs.go:Add"]}
{"id": "C63", "title": "What Escape does to each text, exactly", "statement": "Escape leaves exactly these texts alone: the empty text, texts whose first non-blank character is '<' and that have as many '<' as '>', texts that begin with a letter or underscore and have no white space, '-', '/' or '.', texts of digits and dots (also after a minus sign and further characters), and texts between double quotes in which every double quote follows a backslash. It panics on the blank texts and on a single double quote. Every other text is put between double quotes: if it starts with '<' with a backslash before each double quote, otherwise HTML-escaped.", "quantifier": "all byte strings", "why_tests_cant": "An exact description of a function on all byte strings; a wrong boundary shows on one string in millions.", "anchors": ["escape.go:esc", "escape.go:isHTML", "escape.go:isID", "escape.go:isNumber", "escape.go:isStringLit"]}
{"id": "C64", "title": "Maps that Analyse hands to an implementation of Interface are the implementation's own", "statement": "Analyse works with any implementation of Interface. An implementation that only looks at an attribute map during the call gets the same calls with the same contents as if every call passed a fresh copy, and maps the caller had before are not touched. An implementation may also keep the map it is given: its contents stay what they were during the call, no two calls share a map, and changing it does not influence later calls.", "quantifier": "all syntax trees, all implementations of Interface", "why_tests_cant": "All trees and all implementations; aliasing shows only with foreign implementations that keep or change maps. (False for keeping and changing.)", "anchors": ["analyse.go:Analyse", "analyse.go:addNodeFromEdge", "analyse.go:subGraph", "analyse.go:overwrite"]}
{"id": "C65", "title": "The exported containers used directly stay consistent", "statement": "Nodes, Edges, Relations, SubGraphs and Attrs are exported and can be used without a Graph, with the same *Node, *Edge or Attrs object in several containers and with nil attribute maps. After any history of calls, Lookup has exactly the nodes of the slice under their names and the slice has no name twice; the two edge indexes have exactly the edges of the slice by their ends, in order; the two maps of Relations are inverse to each other and the last call about a pair decides; SubGraphs has a name exactly when the last call about it was Add; Sorted shows each node once, by name. The slices are what the calls on that container alone say: calls on other containers never interfere. Adding a node under a name that exists changes only the map of the node that is there. A call panics exactly when it would assign to a nil map, and fails exactly for an unregistered attribute or the removal of a node that is not there.", "quantifier": "all histories of calls on any number of containers and objects, all sharing between them", "why_tests_cant": "All histories and all patterns of sharing; an index that goes stale shows only after a particular order of calls.", "anchors": ["nodes.go:Add", "nodes.go:Remove", "nodes.go:Sorted", "edges.go:Add", "relations.go:Add", "relations.go:Remove", "subgraphs.go:Add", "subgraphs.go:Remove", "attrs.go:Add", "attrs.go:Extend", "attrs.go:Ammend", "attrs.go:Copy"]}
{"id": "C66", "title": "Reading gives exactly the graph that the document describes", "statement": "If Read accepts a text, the text is a sentence of the DOT grammar and the graph is exactly what its statements say, counting subgraphs at the ends of edges as subgraph statements: its nodes are the names mentioned by node and edge statements, listed in the order of first mention; its subgraphs are the subgraph statements; a name is a child of a (sub)graph exactly if a statement directly in it mentions it; there is one edge per edge operator, in document order; the value of each attribute of each node, edge, subgraph and of the graph is the last one given by the entries that apply to it (its own entries after the node [..] or edge [..] entries in force where it is first mentioned in the (sub)graph, which are inherited when a subgraph is opened). Read accepts exactly the sentences in which all the entries that apply to something have registered names.", "quantifier": "all texts", "why_tests_cant": "All texts with arbitrarily nested and repeated statements; nothing may be missing or too much.", "anchors": ["gographviz.go:Read", "analyse.go:Analyse", "analyse.go:stmtVisitor", "graph.go:AddNode", "graph.go:AddSubGraph", "graph.go:AddPortEdge"]}
{"id": "C67", "title": "Parsing is not disturbed by shared memory", "statement": "The parser keeps its stack in arrays that it uses again, passes parts of them to the actions, extends the lists of the tree in place, and its tokens are parts of the caller's buffer. Still, the tree that Parse returns is the tree of the text, it does not refer to the buffer, and trees returned by earlier calls never change, whatever is parsed later and however Go's append grows arrays. A parser that was used before behaves like a new one.", "quantifier": "all texts, all sequences of parses, all growth policies of append, all earlier contents of memory", "why_tests_cant": "Which arrays are shared depends on the sizes and on the growth policy of the runtime; a test sees one of them.", "anchors": ["internal/parser/parser.go:stack.push", "internal/parser/parser.go:stack.popN", "internal/parser/parser.go:Parse", "ast/ast.go:AppendStmtList", "ast/ast.go:AppendAttrList", "ast/ast.go:AppendAList", "ast/ast.go:AppendEdgeRHS", "ast/ast.go:NewID", "internal/lexer/lexer.go:Scan"]}
{"id": "C68", "title": "An error keeps its message", "statement": "The message of an error that Parse or Read returned is the same whenever it is asked for, also after the caller has used its buffer for something else.", "quantifier": "all texts, all later contents of the buffer", "why_tests_cant": "All texts and all contents; a test asks for the message at once. (False.)", "anchors": ["internal/lexer/lexer.go:Scan", "internal/parser/parser.go:newError", "internal/errors/errors.go:Error", "internal/errors/errors.go:DescribeToken"]}
{"id": "C69", "title": "Lists of package ast are values", "statement": "NewStmtList, AppendStmtList, NewAttrList, AppendAttrList, NewAList, AppendAList, NewEdgeRHS and AppendEdgeRHS return lists; a list that was returned keeps its elements, whatever lists are made from it later.", "quantifier": "all histories of calls, all growth policies of append", "why_tests_cant": "Depends on the capacity of arrays after a particular number of calls. (False if a list is extended twice.)", "anchors": ["ast/ast.go:AppendStmtList", "ast/ast.go:AppendAttrList", "ast/ast.go:AppendAList", "ast/ast.go:AppendEdgeRHS"]}
{"id": "C70", "title": "Printed parts of trees can be put together to a document", "statement": "The String methods of statement lists and of single statements give text that can be pasted between the braces of a document: for statements over valid identifiers (as in C36: without outer Unicode white space in node names and ports, edges with at least one right-hand side), printed lists joined by line breaks, printed statements each followed by a semicolon, or one statement alone, give a document that Parse accepts and that has exactly these statements in this order (up to dropping empty attribute lists and empty default statements). In particular two parsed documents can be merged by their printed statement lists.", "quantifier": "all sequences of statement lists over valid identifiers, any nesting, any kind of document", "why_tests_cant": "All trees and all ways to put them together, through printer, lexer and parser.", "anchors": ["ast/ast.go:StmtList.String", "ast/ast.go:SubGraph.String", "ast/ast.go:EdgeStmt.String", "ast/ast.go:NodeStmt.String"]}
{"id": "C71", "title": "Goroutines may read shared graphs at the same time", "statement": "Any number of goroutines may call WriteAst, String, IsNode, IsSubGraph, SortedChildren and the Sorted methods of Edges, Nodes and SubGraphs on the same graphs at the same time, as long as nobody changes the graphs: each call returns what it would return alone (for all calls with the same order of edges that Less cannot distinguish), there is no data race (no two goroutines touch the same memory unless both only read it), nothing that existed is changed at any time, no goroutine gets stuck, and with finitely many goroutines every schedule ends (WriteAst and String on a graph whose subgraphs form a cycle aside: there they do not return alone either, C16).", "quantifier": "all histories of API calls and direct attribute writes that made the graphs, any number of goroutines, all interleavings of their single memory accesses, all sorting algorithms that meet the contract of sort.Sort, all iteration orders of maps, all choices of new addresses", "why_tests_cant": "All schedules; the race detector only sees the schedules it runs, and an in-place sort or a lazily filled cache shows only under particular timing.", "anchors": ["write.go:WriteAst", "write.go:Graph.String", "edges.go:Edges.Sorted", "edges.go:edgeSorter.Less", "nodes.go:Nodes.Sorted", "subgraphs.go:SubGraphs.Sorted", "relations.go:SortedChildren", "attrs.go:Copy", "attrs.go:toMap", "attrs.go:sortedNames", "graph.go:IsNode", "graph.go:IsSubGraph"]}
{"id": "C72", "title": "Goroutines with graphs of their own do not disturb each other", "statement": "Any number of goroutines may at the same time create graphs, change their own graphs with every method of the API (SetStrict, SetDir, SetName, AddPortEdge, AddEdge, AddNode, AddAttr, AddSubGraph, RemoveNode, RemoveSubGraph), read them (WriteAst, String, IsNode, ...), read graphs that all of them know and use the same maps as arguments: each goroutine gets the replies, errors and output it would get alone, each of its graphs in the end has the contents that its own calls give to an empty graph, there is no data race, shared graphs and argument maps are unchanged at any time, no goroutine gets stuck, and each ends (unless it writes a graph whose subgraphs form a cycle, C16).", "quantifier": "all histories that made the shared graphs and maps, any number of goroutines with any finite lists of commands, all interleavings of their single memory accesses, all iteration orders of maps, all choices of new addresses, all sorting algorithms that meet the contract of sort.Sort", "why_tests_cant": "All schedules and all programs of commands; sharing through a package variable, a cached object or the caller's map shows only under particular timing.", "anchors": ["graph.go:NewGraph", "graph.go:AddPortEdge", "graph.go:AddNode", "graph.go:RemoveNode", "graph.go:AddAttr", "graph.go:AddSubGraph", "graph.go:RemoveSubGraph", "attrs.go:NewAttrs", "nodes.go:Nodes.Add", "nodes.go:Nodes.Remove", "edges.go:Edges.Add", "subgraphs.go:SubGraphs.Add", "write.go:WriteAst"]}
{"id": "C73", "title": "Graphs shared under a lock behave as if calls were made one after another", "statement": "If goroutines share graphs and guard every call with one lock, sync.Mutex or sync.RWMutex (Lock for any method, RLock at most for the methods that only read: WriteAst, String, IsNode, IsSubGraph, the Sorted methods), then at any time the finished calls have exactly the replies, errors and output they get when they are made one after the other in the order in which they finished, and whenever no writer has the lock the graphs have the contents they have then; several readers may be in their calls at the same time; there is no data race (between conflicting accesses of two goroutines the lock is handed over), no deadlock, and every call ends after finitely many accesses. Without the lock, updates get lost.", "quantifier": "all histories that made the graphs and maps, any number of goroutines, all strategies by which a goroutine chooses its next call from the replies it got, all schedules of lock operations and single memory accesses, all map iteration orders, all choices of new addresses, all sorting algorithms that meet the contract of sort.Sort", "why_tests_cant": "All schedules and all client programs; a reading method that writes a little (a cache, sorting in place, inserting a missing map entry) makes RLock insufficient and shows only under particular timing.", "anchors": ["graph.go:AddNode", "graph.go:AddPortEdge", "graph.go:AddSubGraph", "graph.go:AddAttr", "graph.go:RemoveNode", "graph.go:RemoveSubGraph", "graph.go:IsNode", "graph.go:IsSubGraph", "write.go:WriteAst", "graph.go:String", "edges.go:Edges.Sorted", "nodes.go:Nodes.Sorted", "relations.go:SortedChildren", "subgraphs.go:SubGraphs.Sorted"]}
{"id": "C74", "title": "Parsing takes a number of steps linear in the length of the input", "statement": "On every input, Parse (and so Read and ParseString) decodes at most two characters for each byte of the input and one more, and goes at most nine times through its shift/reduce loop for each token, of which there are at most one more than bytes; so no input makes it take quadratic time in scanning or in reductions.", "quantifier": "all byte strings, well-formed or not, and all bounds on the iterations", "why_tests_cant": "All inputs; backtracking of the scanner (a long prefix scanned again and again) and long runs of empty reductions show only on adversarial inputs.", "anchors": ["internal/lexer/lexer.go:Scan", "internal/parser/parser.go:Parse", "internal/lexer/transitiontable.go:TransTab", "internal/lexer/acttab.go:ActTab", "internal/parser/actiontable.go", "internal/parser/productionstable.go"]}
{"id": "C75", "title": "Parsing a reader or a file is parsing the bytes it holds", "statement": "Parse of an io.Reader returns what ParseBytes returns on all bytes the reader delivers, however it delivers them (pieces of any size, empty pieces, the end with the last piece or alone); an error of the reader other than io.EOF is returned and no tree; the reader is never asked to fill an empty buffer. ParseFile returns the error of opening without doing anything else; otherwise it closes the file exactly once, after all reads and before it returns, also when reading or parsing fails, and returns the error of closing if there is one, otherwise that of reading, otherwise the result of parsing.", "quantifier": "all contents, all sequences of answers of a reader that keeps to the contract of io.Reader, all growth policies of the buffer, all errors of opening, reading and closing", "why_tests_cant": "All ways of splitting the input and all failure points.", "anchors": ["internal/parser/main.go:Parse", "internal/parser/main.go:ParseFile", "internal/parser/main.go:ParseBytes"]}
{"id": "C76", "title": "Literals and tokens mean what Go says, and tokens of a file know the file", "statement": "The helpers of the generated packages: RuneValue gives a rune literal of Go the character it stands for and never returns a number that is no character; RuneToString and RuneValue are inverse; IntValue, Int64Value and UintValue accept exactly the decimal integers in range and return their value, out of range the nearest value and a range error; Int32Value does the same for 32 bits; UTF8Rune returns the first character of the text and an error only if there is none; StringValue and CharLiteralValue drop the first and last byte; token types and their names are inverse to each other; Equals compares type and text only; positions, types and tokens are printed with decimal numerals; a scanner of a file returns the tokens of its bytes, each with the path.", "quantifier": "all texts, all int32 runes, all token types, all tokens, all file contents and paths", "why_tests_cant": "All literals, all characters and all numbers.", "anchors": ["internal/util/litconv.go:RuneValue", "internal/util/litconv.go:IntValue", "internal/util/litconv.go:UintValue", "internal/util/rune.go:RuneToString", "internal/token/token.go:Token", "internal/token/token.go:TokenMap", "internal/token/token.go:Pos", "internal/lexer/lexer.go:NewLexerFile"]}
{"id": "C77", "title": "Writing a graph writes each subgraph once", "statement": "In the document that WriteAst or String produces, each subgraph is written at most once, and the number of statements is at most the number of parts of the graph (attributes, edges, nodes, subgraphs, containments). So reading a document and writing it does not blow it up.", "quantifier": "all reachable graphs; all documents for the last sentence", "why_tests_cant": "All nestings of subgraphs; growth is a statement about inputs of every size.", "anchors": ["write.go:newSubGraph", "write.go:Write", "write.go:newLocation", "relations.go:SortedChildren"]}
{"id": "C78", "title": "A scanner that is reset scans its text again", "statement": "After Reset a scanner, whatever it has scanned before, returns the same tokens as a new scanner of the text: the same types, the same texts and the same positions.", "quantifier": "all texts, all states of the scanner", "why_tests_cant": "All texts and all points at which Reset can be called.", "anchors": ["internal/lexer/lexer.go:Reset", "internal/lexer/lexer.go:Scan"]}
{"id": "C79", "title": "Readers of the document show an escaped text as it was given", "statement": "For every text given to Escape as a name or value, the identifier that is written means that text in the DOT language: after removing the quotes and replacing the character references, readers such as Graphviz show the text that was given.", "quantifier": "all byte strings; all tables of character references that have the five that HTML escaping uses", "why_tests_cant": "All texts, with all combinations of quotes, backslashes, ampersands and line ends.", "anchors": ["escape.go:esc", "escape.go:isStringLit", "escape.go:isHTML"]}
{"id": "C80", "title": "Different spellings of an identifier name the same thing", "statement": "In the DOT language a and \"a\" are the same identifier. Reading a document, or building a graph with Graph or Escape, gives one node for each identifier, and attribute names are recognised in every spelling.", "quantifier": "all documents, all histories of calls, all pairs of texts", "why_tests_cant": "All spellings of all identifiers.", "anchors": ["escape.go:esc", "analyse.go:Analyse", "nodes.go:Add", "attr.go:NewAttr"]}
{"id": "C81", "title": "Edge operators fit the kind of graph", "statement": "A directed graph is written as a digraph with -> for every edge and an undirected one as a graph with -- (Graphviz rejects anything else), and reading rejects documents with other operators.", "quantifier": "all reachable graphs that can be written; all documents", "why_tests_cant": "All histories of AddEdge and SetDir calls, all documents.", "anchors": ["write.go:Write", "write.go:newEdgeStmt", "ast/ast.go:EdgeOp", "graph.go:AddEdge"]}
{"id": "C82", "title": "The order of independent calls is invisible", "statement": "Histories of calls that differ only in the order of calls that concern different things (or give the same thing the same values) build graphs with the same content, every call returns the same error or nil in both, and, if no edge has an attribute with an empty value, both graphs print the same text.", "quantifier": "all histories, all reorderings of independent neighbours repeated any number of times, all orders in which sort.Sort leaves equivalent edges", "why_tests_cant": "All histories and all their permutations.", "anchors": ["graph.go:AddNode", "graph.go:AddPortEdge", "graph.go:AddSubGraph", "graph.go:AddAttr", "graph.go:RemoveNode", "write.go:String"]}
{"id": "C83", "title": "Analysing a document adds exactly what it says to a graph", "statement": "Analyse on a graph that has contents already keeps them, except for the values the document gives, and adds exactly the nodes, edges, subgraphs, containment and attributes of the document, after the old ones. Whether it succeeds does not depend on the contents of the graph. Analysing the same document again only adds its edges a second time.", "quantifier": "all reachable graphs, all documents", "why_tests_cant": "All graphs to start with and all documents.", "anchors": ["analyse.go:Analyse", "graph.go:AddNode", "graph.go:AddSubGraph", "graph.go:AddAttr", "graph.go:SetName"]}
{"id": "C84", "title": "The order of independent statements in a document is invisible", "statement": "Documents that differ only in the order of statements that give nothing two different values (node [..], edge [..] and graph [..] keep their places, since they concern what follows), at the top or in subgraphs or in subgraphs at the ends of edges, are both accepted or both rejected, describe graphs with the same content, and are written back as the same text (if no edge has an attribute with an empty value).", "quantifier": "all documents, all rearrangements obtained by any number of exchanges of independent neighbours at any depth, all orders in which sort.Sort leaves equivalent edges", "why_tests_cant": "All documents and all their permutations.", "anchors": ["analyse.go:Analyse", "graph.go:AddNode", "graph.go:AddPortEdge", "graph.go:AddSubGraph", "graph.go:AddAttr", "write.go:String"]}
{"id": "C85", "title": "A document can be analysed into an Escape as into a Graph", "statement": "Analyse on an *Escape makes the calls that it makes on a *Graph, each with its texts escaped. Since every identifier of a document is already in a form that the language accepts, the result is the graph and the error that a *Graph gives, and what one wrote is written again by the other, byte for byte.", "quantifier": "all documents, all source texts, all graphs to start with, all Unicode tables", "why_tests_cant": "The test suite does this with its sample documents; all documents and all identifiers are meant.", "anchors": ["analyse.go:Analyse", "escape.go:AddNode", "escape.go:AddPortEdge", "escape.go:AddSubGraph", "escape.go:AddAttr", "escape.go:SetName", "escape.go:esc", "analysewrite_test.go:anal"]}
{"id": "C86", "title": "Names are not interpreted", "statement": "The graph does not look into names: if all names of graphs, subgraphs, nodes and ports in a history of calls are replaced by other names, different ones by different ones and the empty one by itself, every call fails or succeeds as before, with the same error up to the names in it, and the graph is the old one under the new names, with the same attributes.", "quantifier": "all histories of calls, all injective renamings that keep the empty name", "why_tests_cant": "All histories and all renamings.", "anchors": ["graph.go:AddNode", "graph.go:AddPortEdge", "graph.go:AddSubGraph", "graph.go:AddAttr", "graph.go:RemoveNode", "graph.go:RemoveSubGraph", "relations.go"]}
{"id": "C87", "title": "Additions can be taken back", "statement": "If nodes that the graph knows nothing of are added, each under one parent, with edges at them, and then the nodes are removed in any order, no removal fails and the graph has its old content, its edges are in the old order, and it is written as the old text (if no edge has an attribute with an empty value). The content and the edges are the same also after adding and removing a subgraph that the graph knows nothing of (not even as the port of an edge).", "quantifier": "all reachable graphs, all sets of new nodes, all histories of additions, all orders of removal", "why_tests_cant": "All graphs, histories and orders.", "anchors": ["graph.go:AddNode", "graph.go:AddPortEdge", "graph.go:AddEdge", "graph.go:RemoveNode", "graph.go:AddSubGraph", "graph.go:RemoveSubGraph", "edges.go", "nodes.go", "relations.go"]}
{"id": "C88", "title": "A truncated document is never taken for another document", "statement": "If a document was cut off anywhere (an interrupted write or copy), parsing it either fails with a syntax error or gives the tree of the whole document, and then only white space and complete comments behind the final brace were cut off. In particular the text of a graph cut off before its final brace cannot be read; other text behind the final brace is a syntax error, also a second document.", "quantifier": "all documents that are accepted, all places to cut, all texts behind the final brace, all readable graphs", "why_tests_cant": "All documents and every crash point of the writer.", "anchors": ["gographviz.go:Parse", "gographviz.go:Read", "graph.go:String", "internal/lexer/lexer.go:Scan", "internal/parser/parser.go:Parse", "dot.bnf"]}
{"id": "C89", "title": "A document can be analysed piece by piece", "statement": "Analysing two documents with the same header one after the other on the same graph leaves exactly the graph, and the error, that analysing one document with the statements of both leaves, provided the first has no node [..], edge [..] or graph [..] entries of its own and the second gives no node [..] entries before it first mentions a node of the first. The same holds for any number of pieces without such entries. Accepted together exactly if accepted one after the other. Without the conditions it is false.", "quantifier": "all graphs built by calls, all documents, any number of pieces", "why_tests_cant": "All documents, all ways to cut them into pieces and all graphs that they are added to.", "anchors": ["analyse.go:Analyse", "analyse.go:stmtVisitor.Visit", "analyse.go:graphVisitor.Visit", "graph.go:AddNode", "graph.go:SetName", "nodes.go:Add", "relations.go:Add"]}
{"id": "C90", "title": "The text of an error is never taken for a document", "statement": "String begins with 'error: ' exactly if WriteAst fails for the graph, and then goes on with the message of that error; otherwise it is the text of the tree. A text that begins with 'error: ' is a syntax error for Parse and is not read by Read, whatever names are in the message. So for a graph with valid names and values, what String returns can be parsed exactly if the graph can be written.", "quantifier": "all graphs, all errors with any names in them, all sorting algorithms", "why_tests_cant": "The message contains names that the caller chose: any text can follow the prefix.", "anchors": ["write.go:String", "write.go:WriteAst", "gographviz.go:Read", "internal/parser/parser.go:Parse", "internal/lexer/lexer.go:Scan"]}
{"id": "C91", "title": "Whether a graph is directed or strict changes nothing else", "statement": "Every call other than SetDir and SetStrict does the same and returns the same error for a graph of any kind. So SetDir and SetStrict may be called at any time: the graph is that of the other calls with the kind that was set last, and they never fail. The tree and text of a graph of another kind have the same name and statements, and a document of another kind with the same name and statements is read as the same graph of the other kind. In particular strict does not keep a graph from having an edge twice.", "quantifier": "all graphs, all histories of calls with SetDir and SetStrict anywhere, all documents, all sorting algorithms", "why_tests_cant": "A non-interference property: two runs of every history are compared.", "anchors": ["graph.go:SetDir", "graph.go:SetStrict", "graph.go:AddPortEdge", "graph.go:AddSubGraph", "write.go:WriteAst", "analyse.go:graphVisitor.Visit"]}
{"id": "C92", "title": "A graph is never larger than the calls or the document it was made from", "statement": "A graph has no more nodes, edges and subgraphs together, and no more containments of something in a (sub)graph, than there were calls of AddNode, AddEdge, AddPortEdge and AddSubGraph, and no more attributes per element than there are registered names. Analyse makes no more calls on an implementation of Interface than the document has tokens, and a document has no more tokens than bytes. So the numbers of elements and containments of a graph that was read are bounded by the number of bytes of the document, and the number of its attributes by a constant times it; Analyse into an existing graph adds no more, even if it fails.", "quantifier": "all histories of calls, failing ones included, all documents, all implementations of Interface, all graphs that Analyse is given", "why_tests_cant": "A resource bound over all inputs; sharing, nesting and chains of edges might multiply elements.", "anchors": ["graph.go:AddNode", "graph.go:AddPortEdge", "graph.go:AddSubGraph", "nodes.go:Add", "relations.go:Add", "analyse.go:Analyse", "gographviz.go:Read"]}
{"id": "C93", "title": "A small change of a graph is a small change of its text", "statement": "After an accepted call of AddNode with a new name, the syntax tree that WriteAst makes differs from the one before by exactly one node statement: added to the statements of the (sub)graph it was added to, at the same place wherever that subgraph is written, or at the top level if that subgraph is not written. AddNode with more attributes for a node already there changes only the attribute lists of the statements of that node. AddAttr adds or changes exactly one attribute statement of the (sub)graph. AddEdge and AddPortEdge between nodes or clusters add exactly one edge statement at the top level. AddSubGraph of a new name adds exactly one subgraph statement to its parent. Nothing else is reordered, moved or rewritten, and at the top level of a graph whose text has a statement the change of the text is one new line.", "quantifier": "all reachable graphs that can be written, all accepted calls, all names and attributes (edges without empty attribute values), all correct sort algorithms", "why_tests_cant": "A relation between the outputs before and after a change for every graph; subgraphs are written in several places and what is written in one place decides what is written in another.", "anchors": ["write.go:Write", "write.go:newSubGraph", "write.go:newEdgeStmt", "write.go:newLocation", "graph.go:AddNode", "graph.go:AddAttr", "graph.go:AddPortEdge", "graph.go:AddSubGraph", "ast/ast.go:StmtList.indentString"]}
{"id": "C94", "title": "Graphs with the same text are the same", "statement": "If String() of two graphs is the same text (not an error), then the two graphs agree on everything that is written: the name, whether they are directed and strict, the attributes, the nodes and their attributes, which subgraphs are written, their attributes and their members, and the edges with their direction, ports and attributes as a multiset (ports that start with a colon excepted, which are not written). So comparing texts compares graphs.", "quantifier": "all pairs of reachable graphs whose names and values are identifiers and which use no name for two kinds of things, all correct sort algorithms", "why_tests_cant": "Injectivity over all pairs of graphs, histories and names; two different graphs might be written the same.", "anchors": ["write.go:String", "write.go:WriteAst", "ast/ast.go:Graph.String", "gographviz.go:Read"]}
{"id": "C95", "title": "Exactly the published DOT grammar, without two forms", "statement": "Every text whose tokens form a sentence of the DOT grammar as Graphviz publishes it (in the version that dot.bnf quotes) is accepted by Parse, and nothing else is. What holds: the accepted texts are exactly the sentences of the published grammar in which no comma stands directly before a ] and every { } has graph, digraph or subgraph (and perhaps an ID) before it. Whether a text is accepted depends on the types of its tokens only. Every published text is accepted after leaving out the commas directly before a ] and writing subgraph before the bare { }.", "quantifier": "every source text, every sequence of generated names", "why_tests_cant": "There are infinitely many texts on both sides of the equivalence; test data can only show that some published sentences are accepted, never that nothing else is and that the two rejected forms are the only ones.", "anchors": ["dot.bnf: the grammar rules and the quoted rules in the comments", "internal/parser/parser.go: Parse", "gographviz.go: Parse, Read"]}
{"id": "C96", "title": "Valid UTF-8 in, valid UTF-8 out", "statement": "If the names, ports and attribute values given to a graph are UTF-8, so is what String() returns for it, also after any other calls, also when it returns an error text, and also through Escape. What Parse accepts has bytes that are no UTF-8, NUL or U+FFFD in comments only, so the identifiers in a syntax tree are UTF-8; printing a parsed text, and writing a graph read from any text, gives UTF-8.", "quantifier": "all histories of calls with UTF-8 arguments, all source texts (any bytes), all syntax trees with UTF-8 identifiers, all correct sort algorithms", "why_tests_cant": "The code works on bytes in places (trimming, splitting ports at colons, HTML escaping, the scanner's lookahead) and on characters in others; whether some combination of bytes is cut in the middle of a character is a question about all texts.", "anchors": ["write.go:String", "ast/ast.go:MakeNodeID, Graph.String, StmtList.String", "escape.go:esc", "dot.bnf:_unicode_byte, _html_char", "internal/lexer/lexer.go:Scan", "gographviz.go:Parse, Read"]}
{"id": "C97", "title": "A graph can be copied through its syntax tree", "statement": "For every graph, whatever its names and values are (also if they are no DOT identifiers, so that String() gives no readable text), NewAnalysedGraph(g.WriteAst()) succeeds and gives a graph with the same name, flags, attributes, nodes, edges and written subgraphs, if no name is both a node and a subgraph (or graph and subgraph) and ports have at most two parts. Without ports and clusters at the ends of edges the copy is written as the same tree and the same text. Repeated copying settles after the second copy.", "quantifier": "all graphs in which names are not used twice, with arbitrary bytes as names and values; all correct sort algorithms", "why_tests_cant": "Names and values range over all byte sequences; the writer sorts and de-duplicates by name and the analyser inserts defaults, so a clash could appear for any combination.", "anchors": ["write.go:WriteAst", "analyse.go:NewAnalysedGraph", "ast/ast.go:MakeNodeID, PutMap"]}
{"id": "C98", "title": "Parsing needs stack only for nested braces", "statement": "While Parse reads a text (accepted or not), its stack has at most 7 entries for each level of nested braces of the text, and 8 more, however many statements, attributes and edges of a chain the text has; so every text without nested braces is parsed with at most 15 entries. For an accepted text it has, at some time, more entries than braces are nested. The subgraphs of the resulting tree are nested exactly as deep as the braces of the text, so deep recursion in printing, walking and analysing comes from deep braces only.", "quantifier": "all byte sequences, all states of the parser's loop", "why_tests_cant": "A bound for texts of every length; a right-recursive rule or a missing reduction would let the stack grow with the length of the text and would show only in memory use.", "anchors": ["internal/parser/parser.go:Parse", "internal/parser/actiontable.go", "internal/parser/gototable.go", "dot.bnf"]}
{"id": "C99", "title": "The edge list may be edited directly", "statement": "A caller may assign to the exported field g.Edges.Edges (a filtered, reordered or extended list of edges with valid attributes) between calls of the API. After any such history the graph has the same fields as a graph that calls of the API alone can make, except for the maps SrcToDsts and DstToSrcs, and WriteAst and String give for it what they give for that graph; every later call returns the same error (or none) and has the same effect. A RemoveNode or RemoveSubGraph that returns no error puts the two maps right again.", "quantifier": "all histories of calls and assignments, all lists of edges with valid attribute names", "why_tests_cant": "Any number of assignments of any lists may be interleaved with any calls; one place that reads a map instead of the slice would be enough to write a removed edge.", "anchors": ["edges.go:Edges", "graph.go:RemoveNode", "graph.go:RemoveSubGraph", "write.go:Write"]}
{"id": "C100", "title": "An anonymous subgraph is never another subgraph", "statement": "Which names are drawn for anonymous subgraphs makes no difference to what is read: with a generator in another state, or with another generator, the same text is read with the same success, and the graph is the same except that each anonymous subgraph has the other name; in particular an anonymous subgraph is never merged with another subgraph.", "quantifier": "all texts, all states of the name generator, all generators", "why_tests_cant": "A test sees the names of one generator in one state; the claim compares all generators in all states on all texts, and a collision between a generated name and a name of the text needs a text written by another process.", "anchors": ["ast/ast.go:r", "ast/ast.go:NewSubGraph", "analyse.go:NewAnalysedGraph", "read.go:Read"]}
{"id": "C101", "title": "Removing takes away the statements about what is removed and nothing else", "statement": "If a graph can be written and RemoveNode(p, n) returns no error, then either the new tree is the old one without the statements about n (its node statement wherever it is written, and the edges that end at it), every other statement being unchanged and in the same place; or a subgraph other than p has a statement of n, and then the graph can no longer be written, the error naming n. The same for RemoveSubGraph with the subgraph, its nodes and their edges. This holds for nodes that are not also subgraphs, edges whose other end is written by name and that have no empty attribute value, and for a subgraph whose name is not a port.", "quantifier": "all reachable graphs that can be written, all names, all depths of nesting, all orders in which Go ranges over the children, every correct sort", "why_tests_cant": "The removed names can be written at any number of places at any depth; whether something else moves (a subgraph written elsewhere because an edge went away) depends on the whole graph.", "anchors": ["graph.go:RemoveNode", "graph.go:RemoveSubGraph", "write.go:Write"]}
{"id": "C102", "title": "Exactly which contents a graph can have", "statement": "A name, flags, attributes of the graph, nodes and subgraphs with attributes, a list of edges with attributes and a set of containments are the contents of some graph made by calls exactly if they are finite, all attribute names are registered, and every name that is both a node and a subgraph is a child of something. If the caller also calls Add and Remove on the exported fields (g.Nodes, g.Edges, g.Relations, g.SubGraphs, g.Attrs), exactly the finite contents with registered attribute names can be made. So what direct calls do could have been done by the calls of the graph, with the same text and the same results of all later calls, except that only direct calls can make a name a node and a subgraph that is a child of nothing.", "quantifier": "all contents; all histories of calls on a graph and on its exported fields; all later histories; every sort of the edges", "why_tests_cant": "An equivalence over all contents and all histories: that nothing else can be made ranges over all histories, that everything can be made over all contents.", "anchors": ["graph.go:AddNode", "graph.go:AddSubGraph", "graph.go:RemoveNode", "graph.go:RemoveSubGraph", "nodes.go:Nodes.Add", "nodes.go:Nodes.Remove", "edges.go:Edges.Add", "relations.go:Relations.Add", "relations.go:Relations.Remove", "subgraphs.go:SubGraphs.Add", "subgraphs.go:SubGraphs.Remove"]}
{"id": "C103", "title": "What was written can be read and written again", "statement": "The text that a graph of valid names writes is always read without error, and a text that can be read and written once can be formatted (read and written) any number of times: no later step fails or runs out of stack, whatever names nodes, subgraphs and the graph share.", "quantifier": "all graphs made by API calls with valid names; all texts that are read without error and whose graph is written; any number of repetitions, any sort implementation and generated names at each step", "why_tests_cant": "All texts and an unbounded number of repetitions; trouble needs a rare combination of names used twice. (False when a subgraph is called like the graph.)", "anchors": ["gographviz.go:Read", "write.go:String", "write.go:newSubGraph", "write.go:newLocation", "analyse.go:Analyse"]}
{"id": "C104", "title": "Formatting keeps everything that is named apart", "statement": "If no subgraph is called like the graph, reading what a graph wrote gives a graph with the same name, kind and attributes, the same edges with their attributes (ports apart), every node that is not called like a subgraph with its attributes, every node at the end of an edge, and every written subgraph that is not called like a node, with its attributes and members; no node or subgraph is new, except that a cluster at the end of an edge becomes a node. This holds also when other names are used for both a node and a subgraph.", "quantifier": "all graphs made by API calls with valid names, all texts that are read without error, all sort implementations, all seeds of the generated names", "why_tests_cant": "All graphs, including those with names used twice in any combination and nesting; a loss shows only for particular sorting positions of the names.", "anchors": ["gographviz.go:Read", "write.go:Write", "write.go:newSubGraph", "write.go:newLocation", "analyse.go:Analyse"]}
