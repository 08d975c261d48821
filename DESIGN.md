# A Lean 4 model of gographviz and what is proved about it

## Layout

* `lean/Verif/Model/*`  – the executable model, roughly one Lean file per Go file or generated table; every
  definition cites file and lines in `/repo` and says where it simplifies (`tools/cites.py` lists the citations).
* `lean/Verif/Spec/*`   – small independent specifications (DOT identifiers, the abstract graph, the grammar, the meaning of a
  tree, default scoping, traversal, ...) that do not use the model's helpers.
* `lean/Verif/Proofs/*` – helper lemmas.
* `lean/Verif/Props/*`  – the property theorems `Cnn_...`, each with a concrete case that meets its hypotheses.
* `tools/`              – generators of the table modules and of the table certificates, the manifest, the mutation tests.
* `seeded/LOG.jsonl`    – what happened to the theorems when the model was changed the way a bug would change it.

Conventions: `_partial` marks a theorem that covers only part of the English claim. In most of those cases the full claim is
*false of the code*; then there is also a theorem that exhibits the failure, and the partial theorem is about everything else.

## Trusted base

1. **Lean 4.33's kernel.** No axiom of our own, no `native_decide`, no `bv_decide`, no unfinished proof. No Mathlib module is imported.
   Finite table checks use `decide`/`decide +kernel`, which the kernel evaluates itself.
2. **Axioms.** The theorems of the manifest depend on the following standard axioms of Lean and on nothing else (`tools/axioms.py`
   regenerates this list from `#print axioms`):
<!-- axioms -->
* **propext** (71): `C30_backslash`, `C30_left_alone`, `C35_action_table`, `C35_goto_table`, `C35_tables`, `C35_tables_damaged`, `C36_norm_same_text`, `C38_ports_lost`, `C40_unterminated`, `C43_wrong_after_invalid`, `C46_default_overrides_explicit`, `C48_html_otherwise`, `C49_unused_default_unnoticed`, `C53_error_text_varies`, `C54_nil_panics`, `C60_cluster_lost`, `C60_ports_not_idempotent`, `C61_argument`, `C64_chain_shares`, `C64_node_map_changes`, `C64_subgraph_map_changes`, `C64_writing_spreads`, `C65_nil_attrs_panics`, `C65_rename_breaks`, `C66_port_node`, `C68_violated`, `C69_appendAList`, `C69_violated`, `C75_closed`, `C75_open_error`, `C76_backslash`, `C76_inner`, `C76_lexer_file`, `C76_utf8_replacement`, `C78_positions_kept`, `C80_attribute_rejected`, `C80_escape`, `C80_two_nodes`, `C81_wrong_operator`, `C82_order_matters`, `C83_renamed_not_written`, `C85_epsilon_renamed`, `C85_port_renamed`, `C85_space_panics`, `C86_empty_special`, `C87_port_like_subgraph`, `C87_two_parents`, `C88_open_comment`, `C89_conditions`, `C90_prefix`, `C91_calls`, `C91_strict_edge_twice`, `C96_latin1`, `one_two`, `edited_of_reachable`, `example_aDoc`, `example_cost`, `example_direct`, `example_errorText`, `example_kind`, `example_merge_two`, `example_nesting`, `example_operators`, `example_reset`, `example_slices`, `example_space`, `example_spaced`, `example_string_err`, `example_syntaxErr`, `example_trailing`, `example_truncated`
* **no axioms** (6): `C10_failing_addSubGraph_order_dependent`, `C54_nil`, `C76_int32_wraps`, `bare_published`, `comma_published`, `example_entities`
* **Quot.sound, propext** (69): `C08_addAttr`, `C13_incomparable`, `C13_lexicographic`, `C13_strict_weak_order`, `C14_key_order_irrelevant`, `C14_sort_exists`, `C21_last_value_counts`, `C21_putMap_getMap`, `C23_all_errors`, `C23_same_calls`, `C24_edge_defaults`, `C24_edge_endpoint_defaults`, `C24_never_earlier`, `C24_never_outside`, `C24_node_defaults`, `C25_chain`, `C26_graph_attributes`, `C26_subgraph_inherits`, `C32_escape_is_graph`, `C32_isNode`, `C32_isSubGraph`, `C32_reachable`, `C35_accepts_exactly`, `C35_result`, `C35_unambiguous`, `C42_makeNodeID`, `C44_whitelist`, `C48_empty_tag_rejected`, `C52_names_injective`, `C52_no_recovery`, `C53_walk`, `C64_kept_partial`, `C64_kept_without_defaults`, `C65_edges_history`, `C66_names`, `C71_never_stuck`, `C71_sorter_exists`, `C72_never_stuck`, `C73_lock_needed`, `C74_same`, `C75_file`, `C75_file_error`, `C75_reader`, `C75_reader_error`, `C75_room`, `C76_equals`, `C76_names`, `C79_quotes_lost`, `C79_references`, `C85_calls`, `C91_histories`, `C91_read`, `C91_written`, `C93_text`, `C94_edges`, `C99_calls`, `C99_edited`, `C99_repaired`, `example_anonymous`, `example_direct_sensible`, `example_literals`, `example_names`, `example_pieces`, `example_reader`, `example_spelling`, `example_stable`, `heapActs_detached`, `heapActs_example`, `utf8_invalid`
* **Classical.choice, Quot.sound, propext** (342): `C01_nodes_agree`, `C02_edge_indexes_agree`, `C03_relations_inverse`, `C04_rejected_unchanged`, `C05_last_value_wins`, `C05_since_removed`, `C06_removeNode`, `C07_failed`, `C07_failed_half`, `C07_recreate_not_empty`, `C07_recreated`, `C07_removeSubGraph_partial`, `C09_addSubGraph`, `C100_irrelevant_partial`, `C100_violated`, `C101_node`, `C101_subgraph`, `C102_exact`, `C102_no_twin`, `C102_twin`, `C102_used_exact`, `C103_again_partial`, `C103_read_again`, `C103_violated`, `C104_format`, `C104_kept`, `C10_order_independent`, `C11_refines_abstract`, `C12_only_registered`, `C14_children_sorted`, `C14_edges_sorted`, `C14_nodes_sorted`, `C14_subgraphs_sorted`, `C15_empty_value_order_visible`, `C15_string_canonical`, `C16_cycle_diverges`, `C16_cycle_never_succeeds`, `C16_terminates`, `C16_terminates_acyclic`, `C17_name_clash_loses_node`, `C17_no_node_lost`, `C17_node_statements_faithful`, `C17_once`, `C18_edges_faithful`, `C19_error_cause`, `C19_error_iff`, `C20_name_clash_loses_subgraph`, `C20_root_subgraphs_written`, `C20_subgraphs_faithful`, `C22_after_reading_partial`, `C22_cluster_becomes_node`, `C22_cluster_written_by_name_partial`, `C27_exactly`, `C27_read_then_write`, `C28_idempotent`, `C29_esc_panics_iff`, `C29_no_panic_partial`, `C29_panics`, `C30_exactly`, `C30_partial`, `C31_collision`, `C31_distinct_partial`, `C31_exactly`, `C31_nul_collides`, `C31_only_own_form`, `C33_scan_total`, `C33_slices`, `C33_total`, `C34_no_bound`, `C34_read_total`, `C34_total`, `C35_generated_name`, `C35_source`, `C35_source_accepts`, `C36_parsed_printable`, `C36_print_parse`, `C36_source`, `C36_space_lost`, `C36_stable`, `C37_round_trip`, `C37_same_text`, `C37_same_text_clusters`, `C37_same_text_names`, `C37_same_text_settled`, `C38_port_stored_partial`, `C38_ports_never_written`, `C39_exactly`, `C39_words`, `C40_parse`, `C40_same_tokens`, `C40_spaced`, `C40_spaced_tokens`, `C40_tokens`, `C41_all_return`, `C41_bounded`, `C41_completes`, `C41_distinct`, `C41_distinct_names`, `C41_isolated`, `C41_mutual_exclusion`, `C41_names`, `C41_no_deadlock`, `C43_positions`, `C45_verbatim`, `C46_exactly`, `C46_explicit_wins_partial`, `C47_remove_keeps_writable`, `C47_wrong_parent_breaks`, `C48_classes_partial`, `C48_unique`, `C49_exactly`, `C49_read`, `C49_registered_suffices`, `C49_unregistered_fails`, `C51_exact`, `C51_expected_ne`, `C51_iff`, `C51_not_viable`, `C52_expected`, `C52_message`, `C52_message_position`, `C52_one_line`, `C52_position`, `C52_quote`, `C52_quote_injective`, `C52_string`, `C53_analyse`, `C53_newAnalysedGraph`, `C53_read`, `C54_all_once`, `C54_protocol_partial`, `C54_prune`, `C55_exactly`, `C56_provenance`, `C57_escape_round_trip`, `C58_edge_slices_stay`, `C58_lists`, `C58_sorted`, `C59_loop_leaves_nodes`, `C59_node_slice_stays_partial`, `C59_removal_shifts`, `C59_remove_while_ranging`, `C60_clusters_partial`, `C60_clusters_second_partial`, `C60_format_idempotent_partial`, `C60_names_partial`, `C60_root_name_clash`, `C60_stable_from_second_partial`, `C60_stable_partial`, `C61_call`, `C61_errors`, `C61_pointers`, `C61_refines`, `C61_unshared`, `C61_write`, `C62_detached`, `C62_edge_attributes`, `C62_node`, `C62_objects`, `C62_order`, `C62_subgraph`, `C63_escape_text`, `C64_copying`, `C65_attrs`, `C65_copy`, `C65_edges`, `C65_nodes`, `C65_nodes_add_again`, `C65_nodes_history`, `C65_nodes_sorted`, `C65_outcomes`, `C65_registered`, `C65_relations`, `C65_relations_history`, `C65_subgraphs`, `C65_subgraphs_history`, `C66_accepted`, `C66_document`, `C66_read`, `C66_read_accepted`, `C67_error`, `C67_reset`, `C67_sequence`, `C67_tree`, `C68_message`, `C68_stable_partial`, `C69_lists_partial`, `C70_lists`, `C70_merge`, `C70_statement`, `C70_statements`, `C71_finishes`, `C71_no_infinite_schedule`, `C71_no_race`, `C71_result`, `C71_result_history`, `C71_unchanged`, `C72_contents`, `C72_finishes`, `C72_no_race`, `C72_result`, `C72_shared_unchanged`, `C73_calls_end`, `C73_contents`, `C73_no_deadlock`, `C73_no_livelock`, `C73_no_race`, `C73_one_by_one`, `C74_linear`, `C76_int`, `C76_int32_partial`, `C76_lenient`, `C76_position`, `C76_rune_char`, `C76_rune_round_trip_partial`, `C76_rune_value`, `C76_token_string`, `C76_uint`, `C76_utf8_partial`, `C77_alphabet`, `C77_count`, `C77_exponential`, `C77_linear_partial`, `C77_node_count`, `C77_once_partial`, `C78_reset_partial`, `C79_angle`, `C79_decoded`, `C79_exactly`, `C79_lines_joined`, `C79_quoted`, `C79_shown_partial`, `C80_api_partial`, `C80_escape_partial`, `C80_one_node_partial`, `C81_read`, `C81_read_fit`, `C81_write`, `C81_write_fit_partial`, `C82_same_content`, `C82_same_text`, `C83_accepted`, `C83_adds`, `C83_again`, `C84_order_matters`, `C84_same_content`, `C84_same_text`, `C85_ascii_names`, `C85_ascii_partial`, `C85_ident`, `C85_reformat_partial`, `C85_same_partial`, `C85_source_names`, `C85_source_partial`, `C86_renaming`, `C87_text`, `C87_undo`, `C87_undo_subgraph`, `C88_printed`, `C88_read`, `C88_shape`, `C88_truncated`, `C88_two_documents`, `C88_written`, `C89_accepted`, `C89_many`, `C89_pieces`, `C90_error_text`, `C90_parse`, `C90_read`, `C92_analyse`, `C92_calls`, `C92_history`, `C92_read`, `C93_edge`, `C93_edge_text`, `C93_node`, `C93_node_attrs`, `C93_node_text`, `C93_root_attr`, `C93_sub_attr`, `C93_subgraph`, `C94_colon_invisible`, `C94_text_tells`, `C95_mended`, `C95_published_partial`, `C95_read`, `C95_types`, `C95_violated`, `C96_escaped`, `C96_formatted`, `C96_parsed`, `C96_printed`, `C96_read`, `C96_written`, `C97_copy`, `C97_name_clash`, `C97_same_tree`, `C97_settles`, `C97_third_part`, `C98_flat`, `C98_needed`, `C98_stack`, `C98_tree`, `example_again`, `example_cluster_end`, `example_clusters`, `example_clusters_second`, `example_concurrent`, `example_copy`, `example_document`, `example_edited`, `example_erase`, `example_erase_applies`, `example_escape_analyse`, `example_escape_kinds`, `example_escape_round_trip`, `example_format`, `example_format_ports`, `example_kept`, `example_locked`, `example_makeable`, `example_mended`, `example_merge`, `example_own`, `example_published`, `example_renaming`, `example_root_clusters`, `example_round_trip`, `example_same_text`, `example_sharing`, `example_shown`, `example_size`, `example_small`, `example_stmt_order`, `example_telling`, `example_undo`, `example_undo_subgraph`, `example_utf8`, `heapActs_ok`, `utf8_decode`, `utf8_prefix_free`
<!-- /axioms -->
3. **The reading of the Go code** recorded in `Model/*`: the theorems are about the model. The code was not run.
4. **Go's library and language semantics**, as far as used:
   * strings are byte sequences, compared bytewise; `strings.TrimSpace/HasPrefix/HasSuffix/Replace/Split/Join`, `utf8.DecodeRune`,
     `range` over strings, `unicode.IsSpace`, `template.HTMLEscapeString`, `fmt` verbs `%s %d %q` (for error messages) are modelled
     explicitly, by their documentation (the UTF-8 decoder is proved to be exactly RFC 3629: `utf8_decode`, `utf8_invalid`);
   * `unicode.IsLetter/IsDigit` above U+007F and `strconv.IsPrint` above U+00FF are *parameters* (theorems hold for all of them; C57 assumes
     that no digit is white space);
   * `sort.Strings` is "the sorted list"; `sort.Sort` is any function that returns a permutation in which no later element is less
     than an earlier one (`SortContract`) – the unstable algorithm is not fixed;
   * `rand.Int63` is any stream of numbers, together with a position in it; for C41/C50 the generator and its mutex are explicit state;
   * `range` over a map visits every key exactly once in any order; deleting the visited key meanwhile is harmless;
   * `append` may grow a slice to any capacity (C58).
5. **The generated tables.** Lexer tables are transcribed from `transitiontable.go`/`acttab.go` (`tools/gen_tables.py`). The parser tables are
   stored in /repo as gzip+gob blobs; the bytes are transcribed, and unpacking them is modelled (`Gzip`: RFC 1951/1952, `Gob`: `encoding/gob` for the
   kinds of types that occur, `TableInit`: the two `init` functions). `C35_tables` proves that initialisation does not panic and yields the tables
   used by the rest of the model (the kernel runs the decompression), and C35/C51 that these implement the grammar and report errors exactly.

## What is modelled

| Go file | model | not modelled |
|---|---|---|
| `attr.go`, `attrs.go` | `AttrTable`, `Containers`: `NewAttr`, the table of names, `NewAttrs`, `Add`, `Extend`, `Ammend`, `Copy`, `sortedNames` | – |
| `nodes.go`, `edges.go`, `relations.go`, `subgraphs.go` | `Containers` (nodes with a heap of `*Node`), `Slices` (backing arrays of the node and edge slices), `Heap` (all pointers and maps in one memory), `Direct` (the exported methods called by the user, on any objects) | – |
| `graph.go` | `Graph`: all methods; `Op`, histories, reachability; `Heap`: the same on a memory shared by several graphs and a caller who writes to attributes | direct writes of the caller to exported fields other than attributes and `Edges.Edges` (C99); calls on the exported containers are modelled (C65, C102) |
| `escape.go` | `Escape`: `esc` and helpers byte by byte, all methods, panics as `none` | – |
| `write.go` | `Write`: `NewWriter`, `WriteAst`, every helper; fuel for the recursion, errors, nil-map panics | – |
| `analyse.go`, `catch.go` | `Analyse` (unrolled), `AnalyseVisit` (visitor objects and maps on a heap, open map orders); proved equal | – |
| `ast/ast.go` | `Ast` (constructors, `String`, `GetMap`/`PutMap`, `MakeNodeID`), `Walk` (all `Walk` methods, any visitor) | – |
| `gographviz.go`, `internal/parser/main.go` | `Parse.read`, `parseBytes`, `newAnalysedGraph`; `Reader`: `Parse(io.Reader)`, `ParseFile` | – |
| `internal/lexer` | `LexTables`, `Lexer`: `Scan` with positions; `Literals`: `NewLexerFile` and the context of tokens | – |
| `internal/parser` | `TableData`, `Gzip`, `Gob`, `TableInit`: unpacking the tables; `ParseTables`, `Parser`: LR loop, actions, error recovery (`Errors`); `ParserMem`: the same with the caller's buffer, the arrays of the stack and of the lists of the tree | gzip with optional header fields or several members; gob types other than booleans, integers, strings, slices, structs |
| `internal/errors`, `internal/token` | `Errors`, `TokTables`: messages byte by byte; `Literals`: the other methods of tokens | `Float32Value`, `Float64Value` (calls of `strconv.ParseFloat`; unused); `String` and `Equal` of table entries and of the stack (unused) |
| `internal/util` | `Literals`: all functions; `strconv.ParseInt`/`ParseUint` for base 10 as implemented | – |
| random generator of `ast.go` | `Concurrent`: lock, load, store, unlock as separate atomic steps of any number of goroutines | weak memory (the mutex orders the accesses) |
| write.go and the reading methods, a second time, with every memory access | `WriteMem` over `Threads`: reads, stores, allocations (at any free address) and `range` orders as single steps of any number of goroutines; `sort.Sort` as any algorithm that only calls `Less` and `Swap` (`SortTree`) and meets its contract (`Sorts`) | weak memory (no data races: C71_no_race, so the Go memory model gives sequential consistency); sorting of strings and the slices of strings and statements, which are local, are values |
| graph.go, nodes.go, edges.go, subgraphs.go, attrs.go, a third time, with every memory access | `GraphMem` over `Threads`: the methods that change graphs, and goroutines that execute lists of commands | the variable `validAttrs` (attr.go), written only during initialisation; direct assignments to fields by the caller |
| `internal/parser/main.go` | `Parse.parseBytes`; `Reader`: `Parse` of a reader and `ParseFile`, with the answers of the reader and the file system as a script; `ioutil.ReadAll` as implemented | – |
| lexer.go and parser.go, again, with counters | `Cost`: decoded characters and iterations of the parser | the time one iteration takes |
| (no code of /repo: the program that uses the package) | `Locked`: goroutines that share graphs and guard every call with a lock, and choose their next call from the replies | fairness of the lock; what goroutines do outside the lock |

Out of reach: memory and stack limits, running time other than C74's counts, data races outside the locked generator (the package documents no goroutine
safety for `Graph`).

## Does the model do what the code does?

The code cannot be run here, but the model can. `lean/Verif/Tests` has the test suite of /repo, transcribed by `tools/gen_tests.py` and `tools/gen_tests_api.py`, as
examples that the kernel evaluates on the model: all of escape_test.go, example_test.go, issue21/26/32_test.go, remove_test.go, edges_test.go and ast_test.go, and of
analysewrite_test.go and parser_test.go the tests with inputs of up to 410 bytes. The larger inputs were run with Lean's evaluator outside the build (`Tests/Harness.lean`:
`anal` and `parseStringTest` on the files of testdata); the model passes them too. These are tests and count as nothing more: they are evidence
that the model, transcribed by hand, agrees with the code where the authors of the code wrote down what it does.

## Modelling decisions

* A `string`/`[]byte` is `List Nat` (byte values; larger values never occur in Go).
* A `map[string]T` is a list of pairs sorted by key, so that map equality is `=`. An argument map is passed as the list of its
  entries in the order in which `range` visits them; theorems quantify over all orders (C10, C53).
* `Model/Graph.lean` has values where the code has pointers to edges, subgraphs and attribute maps. This loses nothing: `Model/Heap.lean` has
  the pointers, and `C61_refines`/`C61_errors` prove that both give every graph the same contents and every call the same error.
* `Model/Analyse.lean` passes the contents of attribute maps to the implementation of `Interface`. `Model/AnalyseMaps.lean` passes references, and
  `C64_copying` proves that this is the same for implementations that neither keep nor change maps (`Graph` by C61).
* A failing call returns the (possibly changed) state and the error. Panics and divergence are separate outcomes, never totalised away.
* The writer's recursion over a possibly cyclic containment uses fuel; termination is the theorem that the number of subgraphs is enough
  fuel, divergence that no fuel is.
* The loops of lexer and parser use fuel too; C33/C34 prove that the fuel used is always enough, so it is unobservable.

## Per property

| id | model part | how it is proved |
|----|------------|-----------|
| C01–C03, C12 | `Graph` state machine | invariant `GInv` by induction over histories |
| C11, C56 | the same | refinement to the abstract machine `AGraph`; provenance invariant on `AGraph` |
| C04–C10 | mutators with explicit iteration order | per call, all reachable states; permutation lemmas |
| C13–C15 | `Less`, sort contract, writer, printer | order theory; two sorted permutations differ only by indistinguishable edges |
| C16–C20, C22, C47 | writer | fuel/measure arguments, "written" sets as invariants; counterexamples |
| C21, C42, C44 | `PutMap`/`GetMap`, `MakeNodeID`, `NewAttr` | direct; whole table by the kernel |
| C23–C27, C46, C49 | analyser over an arbitrary `Interface` | equality with the calls that the tree *means* (`Spec/Meaning`, `Spec/Scoping`), then replay on `AGraph` |
| C28–C32, C55, C57 | `Escape` | case analysis over UTF-8 decoding; automaton of quoted strings; composition with C37 |
| C33, C39, C40, C43, C45, C48 | scanner + DFA | the DFA is related to the lexical grammar state by state (kernel-checked over the whole table), lifted by induction over the input |
| C34, C35, C51, C52 | LR loop + tables + messages | LR certificate (items, prefixes, viable suffixes) checked over the whole table; soundness, completeness and exact errors by induction over runs |
| C36, C37, C38, C60 | composition | the printed text is tokenised and derived; analysing what was written replays the graph |
| C41, C50 | interleaving semantics of parses sharing the generator | invariants over executions; ranking for termination |
| C76 | `Literals`: litconv.go, rune.go, token.go, `NewLexerFile` | literals of Go as relations (`Spec/Literals.lean`); induction over the digits |
| C77 | the writer and the reader as they are | counting equations over the written tree by structural induction; the tree case by induction on the size of what is around; the negation by a family of documents (`aDoc`), read with C36 and C66, written with C27 and C20 |
| C78 | `Lit.reset`: lexer.go `Reset` | a relation between the runs of two scanners whose lines differ by a constant (induction over the steps and over the tokens); the negation on a witness |
| C79 | `Escape` as it is; what readers do with identifiers is the specification (`Spec/Denote.lean`, after the DOT language reference) | the exact form of C63; induction over the text |
| C80 | the reader, the API, `Escape` | from C66, C56 and C79; negations on witnesses |
| C81 | the reader and the writer | operators and edges in document order: from C66 and C18 |
| C82 | all calls except RemoveSubGraph, Write | each pair of independent calls commutes on the abstract graph (edges as a multiset); induction over the reordering with C11, the text by C15 |
| C83 | `Analyse` on any reachable graph | the proof of C66 with the effect of the calls on any graph instead of the empty one; twice: `a.or (a.or b) = a.or b` |
| C84 | documents, as lists of items (C66), and exchanges of neighbouring statements | exchanged statements give the same entries up to the order of entries that do not clash (the `node [..]` entries go to whichever mentions a node first); later statements see the same defaults and mentioned nodes; C66 says the graph is a function of the items; C15 for the text |
| C85 | `Analyse` on an `*Escape` (`Model/EscapeIface.lean`) | the calls are those of C54 with escaped arguments (C32); the texts in them are the names of the document, whose identifiers have one of the four forms of the language (C45), which escaping leaves alone (C63); for what is written, the names of a graph come from the calls (C56) |
| C86 | histories of calls | a relation between the abstract graphs (C11) of the two histories that every call preserves |
| C87 | histories of additions and removals | the abstract graph (C11) with the new nodes left out is the old one at every moment; equal abstract graphs have equal content (C82) and text (C15) |
| C88 | prefixes of source texts and of printed texts | in a sentence the braces close with the last token (induction on parse trees), so no sentence is a proper prefix of another; what follows a `}` does not change the tokens before it; C35, C36 |
| C89 | `Analyse` of several documents on one graph, and of their statements in one document | the calls of the second document differ from those of its part of the whole only by `AddNode` calls without attributes for nodes that are there already, and these change nothing (literal equality of graphs); induction on the number of pieces |
| C90 | the text that `String` returns | the first token of `error: ...` is an identifier, the first token of a sentence is `graph`, `digraph` or `strict`; C35, C36 |
| C91 | graphs that differ in `Directed` and `Strict` only | every call and every part of the writer commutes with changing these two fields; induction on histories |
| C92 | numbers of elements, containments, attributes, calls, tokens and bytes | each call adds at most one element and one containment (invariant of the containers); induction on the meaning relation of documents: the calls of a phrase are at most its tokens |
| C93 | the tree before and after each call, and the text of a tree with one more statement | an edit of trees (statements of the subgraphs named p, attribute lists of the nodes named n); the writer commutes with the edit, by induction on its depth; what the writer has marked as written is unchanged for known names |
| C94 | two graphs, their trees, texts and the graph read from the common text | C37 for both graphs; a cluster that an edge ends at is told from a node by the node statements (equal because printing is injective up to `norm`, C36) |
| C95 | the published grammar (the comments of dot.bnf) as an inductive definition over token types | against the relation of C35 by induction in both directions, with a left-to-right scan for the two forms; `C95_mended`: leaving out the commas before `]` and writing `subgraph` before the bare braces makes every published text acceptable, by induction over the published grammar and relexing |
| C96 | UTF-8 as an inductive relation (RFC 3629); the texts in calls, trees and tokens | induction over the printer, over the provenance of what a graph holds (C56), over the tokens of an accepted text (C33) and over the bytes that escaping replaces |
| C97 | the syntax tree passed in memory from the writer to the analyser, no text in between; arbitrary bytes as names | the proof of C37 without the printer and the parser: what the calls made for the written tree do (`written_analysed`, `analysed_back`, `write_back`); nothing about names is used except that they are apart |
| C98 | the states of the parser's loop; nesting of braces in the tokens and of subgraphs in the tree | the stack spells a path of the automaton (C35); a potential for its 128 states, checked by the kernel on all transitions, bounds the path by the braces on it; right-hand sides are balanced, so these are open in the text; conversely (`C98_needed`) the parser stops behind every token of an accepted text, and the braces that are open there are on the stack; the tree by induction over its meaning (`GraphM`) |
| C99 | histories of calls mixed with assignments of the caller to `g.Edges.Edges` (`Edited`) | the writer and every call read only the slice (induction over the writer's loops, case by case over the calls); the graph with any list of edges is made by calls: by induction over the history without its edge calls, followed by one `AddPortEdge` for each edge |
| C100 | two generators, each at any position, as arguments of `Read` | a renaming of strings that carries one list of drawn names to the other (composed of exchanges) is applied to tokens, tree and calls: induction over the relation of C35 and over the tree; then C86. The violation: the written text of a small graph with one more anonymous subgraph, for every generator |
| C101 | `RemoveNode`, `RemoveSubGraph`, `WriteAst` | both calls in closed form give a graph without a set of names; the writer on it is followed case by case (bodies by induction over the depth, edges, subgraphs and nodes of the graph by induction over the lists), with the set of names already written compared outside the removed ones; the edges by uniqueness of sorting |
| C102 | all calls of `Graph` and the exported containers of a graph used directly (`Model/GraphDirect`) | any contents are built step by step under a fresh name of the graph: nodes without a parent (`RemoveSubGraph` takes the relation away), relations (`RemoveNode` leaves those of other parents), subgraphs, nodes with a parent, attributes, edges; conversely the graph invariant bounds everything and that such a name has a parent is an invariant; direct calls keep the graph invariant, so the abstract graph decides all later results and the text |
| C103 | reading and writing, repeated | every attribute of a written tree is one of the graph, so the analysis accepts it (C49); nesting in the graph read back is nesting in the written tree, where bodies get smaller (descent on the size of the tree), unless a subgraph has the name of the graph; induction over the repetitions |
| C104 | writing and reading, with names used twice | each statement of the written tree makes its call, and each call comes from a statement (as C37, without the condition on names); a name is marked as written by a statement of that name, which is a node statement if there is no such subgraph; `Kept` in Spec/Kept.lean |
| C53 | visitor objects, open map orders | simulation between the two forms of the analyser; order independence of the replay |
| C54 | `Walk` for any visitor | structural induction; the nil bug of `AList.Walk` as a theorem |
| C61, C62 | `Heap`: memory of objects and maps, several graphs, caller's writes | ownership invariant (no map has two owners), frames per call; refinement to `Graph` by contents |
| C63 | `Escape` | exact: escaping as a relation on bytes and characters (`Spec/EscapeText.lean`) ⇔ `esc`; each classifying loop ⇔ its description |
| C64 | `AnalyseMaps`: maps as addresses in a memory, implementations may keep and change them | simulation with `Analyse` for implementations that copy; frame invariant over the traversal for one that keeps; counterexamples |
| C65 | `Direct`: memories of maps, nodes, edges, subgraphs and of all four containers; every exported method as a step | invariant over all histories; the slices and maps by induction over the history against a small specification; panics and errors characterised exactly |
| C66 | composition of scanner, parser, analyser and `Graph` | what each statement says (`Spec/Document.lean`) against the calls it stands for, statement by statement; node order by induction over the calls |
| C67 | parser with its memory: buffer slices, stack arrays, list arrays | simulation with the parser of values; invariant: no written cell changes, lists on the stack cover their arrays and are pairwise apart |
| C68 | tokens as parts of the buffer; message read from the buffer as it is later | exact condition for the message to stay; false in general |
| C69 | the list functions of ast on shared arrays, any growth policy | invariant over histories in which no list is extended twice; false otherwise |
| C70 | `String` of statement lists and statements (`Ast`) | each printed statement has known tokens whatever follows; concatenation of derivations |
| C71 | write.go, `Sorted`, `Less`, `Copy`, `toMap`, ... as programs of single memory accesses (`Model/WriteMem.lean`), interleaved by any schedule (`Model/Threads.lean`) | ghost ownership of addresses, stable under what the other goroutines may do; each program keeps to what it allocated and refines the function of `Model/Write.lean`; induction over the schedule, and over programs for termination |
| C72 | graph.go and the containers as programs of single memory accesses (`Model/GraphMem.lean`); goroutines that execute lists of commands on graphs of their own and read shared ones | each program, whatever the others do, refines the method of `Model/Heap.lean` for objects at other addresses (`Places`), with the ghost ownership of C71; reading one's own graph: what one owns is frozen for the time of the call, then C71's refinement applies; induction over commands and schedule; contents by C61 |
| C73 | the methods as for C71 and C72; a lock that is held by one or shared by readers; goroutines with any strategy (`Model/Locked.lean`) | invariant over schedules: the finished calls are a sequential history (`OneByOne`) whose state is represented in memory, owned by the writer (then C72's refinement of each method applies) or frozen (then C71's applies); phases between lock operations give the order of conflicting accesses; progress by cases on the lock, termination of calls because programs are well-founded trees |
| C74 | `Scan` and the loop of `Parse` with counters (`Model/Cost.lean`) | the results are those without counters; no accepting state of the lexer leads to a non-accepting one, so a token is re-read by at most one character; the iterations by the potential of C34 |
| C75 | `Parse(io.Reader)`, `ParseFile` (`Model/Reader.lean`) | induction over the answers of the reader |
| C58, C59 | slices with backing arrays | refinement to lists; exact effect on saved slices |

## Where the code violates the claim

| claim | what happens | theorem |
|---|---|---|
| C07 | `RemoveSubGraph` keeps the relation from the removed subgraph to its children; a new subgraph of that name is not empty (it has exactly the old children). If a child is not a node, the call fails half way, after removing an order-dependent part of the nodes | `C07_recreate_not_empty`, `C07_recreated`, `C07_failed_half` |
| C22 | after reading back, a cluster used as an edge end has become a node (for every graph: `C22_after_reading_partial`) | `C22_cluster_becomes_node` |
| C29 | `esc` panics on blank strings and on a single `"` | `C29_panics` |
| C30 | `esc` leaves `a;b`, `graph`, `1.2.3`, `-a1` alone, and does not escape backslashes: injection | `C30_left_alone`, `C30_backslash` |
| C31 | NUL and U+FFFD are identified | `C31_nul_collides` |
| C38 | ports are stored with a leading colon and never written again | `C38_ports_never_written` |
| C46 | a later mention of a node under a default overrides its explicit attribute | `C46_default_overrides_explicit` |
| C48 | an empty tag `<>` inside an HTML string is rejected, against dot.bnf | `C48_empty_tag_rejected` |
| C54 | `AList.Walk` does not test for a nil visitor: panic | `C54_nil_panics` |
| C59 | `Nodes.Remove` shifts the shared backing array: `for _, n := range g.Nodes.Nodes { g.RemoveNode(.., n.Name) }` keeps every second node | `C59_removal_shifts`, `C59_remove_while_ranging` |
| C60 | (from the second formatting on nothing changes, `C60_stable_partial`; but the first two may differ) an edge that ends at a nested cluster: formatting twice drops the cluster and moves its nodes; formatting is not idempotent with ports: they order the edges but are not written; a subgraph with the name of the graph is read but makes the writer recurse for ever | `C60_ports_not_idempotent`, `C60_root_name_clash`, `C60_cluster_lost` |
| C64 | `Analyse` hands out its live default maps: a map kept by a foreign `Interface` changes later, and writing into it changes the attributes of later nodes | `C64_node_map_changes`, `C64_subgraph_map_changes`, `C64_chain_shares`, `C64_writing_spreads` |
| C68 | the error of a failed `Parse` or `Read` quotes the caller's buffer: when the buffer is used again, the message of the old error changes | `C68_violated` |
| C69 | extending a list of package ast twice (`AppendAList` etc.) overwrites the first result, because both share an array | `C69_violated` |
| C76 | `RuneToString` writes the backslash as `'\'`, which `RuneValue` reads as a quote, and characters outside ASCII without quotes; `RuneValue` accepts incomplete escapes; `Int32Value` cuts to 32 bits without an error; `UTF8Rune` rejects a valid U+FFFD | `C76_backslash`, `C76_lenient`, `C76_int32_wraps`, `C76_utf8_replacement` |
| C77 | a subgraph contained in several subgraphs is written once for every way in which it is nested: documents of O(n³) bytes are written with 2ⁿ subgraphs; a subgraph in the graph and in another subgraph is written once or twice, depending on the alphabetic order of the names | `C77_exponential`, `C77_alphabet` |
| C78 | `Reset` sets the position back but not line and column: the tokens of the second scan have wrong positions | `C78_positions_kept` |
| C79 | a text in quotes is taken for escaped already, so its quotes are lost; a text that starts with `<` and is no HTML is quoted but not HTML-escaped, so character references in it are replaced; a backslash at the end of a line joins lines | `C79_quotes_lost`, `C79_references`, `C79_lines_joined` |
| C80 | names are compared as bytes: `a` and `"a"` become two nodes, and `"color"` is no attribute | `C80_two_nodes`, `C80_escape`, `C80_attribute_rejected` |
| C81 | `graph { a -> b }` is read and written without complaint; Graphviz rejects it | `C81_wrong_operator` |
| C85 | analysed into an Escape, `graph { "a b":p }` has a node `"&#34;a b&#34;:p"`; the identifier U+00A0 makes it panic; an identifier that starts with ε gets quotes | `C85_port_renamed`, `C85_space_panics`, `C85_epsilon_renamed` |
| C95 | two forms of the grammar that dot.bnf quotes are rejected: bare empty braces (`a -> { }`) and a comma before `]` (`[b=c,]`) | `C95_violated` |
| C100 | the generator of names has a constant seed; a file written by one process and extended by an anonymous subgraph is read by the next so that the new subgraph is merged with an old one | `C100_violated` |
| C103 | `digraph R { y; subgraph y { subgraph R {} -> d } }` is read and written; what was written is read; writing that recurses without end (a stack overflow, which Go cannot recover from): the subgraph `R`, written at the end of the edge directly in the graph, is now recorded as a child of the name `R` | `C103_violated`; proved if no subgraph is called like the graph |

Also found: a port of three parts loses the third when a graph is copied through its syntax tree (`C97_third_part`), names in Latin-1 (which the comment of dot.bnf allows) and HTML strings with characters above U+00FF are rejected (`C96_latin1`), a line comment behind the final brace without a line break makes a document a syntax error (`C88_open_comment`), a `strict` graph can have the same edge twice and writes both (`C91_strict_edge_twice`), `RemoveSubGraph` also removes the edges that have a port called like the subgraph (`C87_port_like_subgraph`), a node added to two subgraphs cannot be taken out of both (`C87_two_parents`), identifiers with outer Unicode white space do not survive printing (`C36_space_lost`), names used for a node and a subgraph
lose the node (`C17_name_clash_loses_node`), positions after an invalid token are not advanced (`C43_wrong_after_invalid`),
`AddSubGraph` with an invalid attribute is only partly undone (`C10_failing_addSubGraph_order_dependent`), the text of the combined
error of `Analyse` depends on map order (`C53_error_text_varies`), `Escape` does not escape the arguments of `RemoveNode`/`RemoveSubGraph` (C32),
a syntax error that expects the word `graph` calls it `graphx` and the end of the input `␚` without quotes (`C52_message`, `TokenName`),
`Nodes.Add` panics if the node that is there has a nil map and the new one has attributes (`C65_nil_attrs_panics`; `AddNode` never does that), and a
node renamed by the caller while in a container can no longer be removed from both of its tables (`C65_rename_breaks`); a node statement with a port (`a:p [color=red]`) makes a node named `a:p` and says nothing about `a` (`C66_port_node`); `Analyse` on a graph with another name renames it, and the subgraphs it had are no longer written (`C83_renamed_not_written`).
