P='Gographviz.Props.'
def c(p,s,t,n=''):
    return dict(property=p,status=s,theorems=[P+x for x in t],note=n)
claims=[
c('C01','proved',['C01_nodes_agree']),
c('C02','proved',['C02_edge_indexes_agree']),
c('C03','proved',['C03_relations_inverse']),
c('C04','proved',['C04_rejected_unchanged']),
c('C05','proved',['C05_last_value_wins','C05_since_removed'],''),
c('C06','proved',['C06_removeNode']),
c('C07','partial',['C07_removeSubGraph_partial','C07_recreate_not_empty','C07_recreated','C07_failed','C07_failed_half'],'All but the last sentence is proved; the last sentence is false of the code (relation from the removed subgraph to its children is kept), shown by C07_recreate_not_empty. C07_recreated: a re-created subgraph has exactly its old children; C07_failed: the exact state after a failure.'),
c('C08','proved',['C08_addAttr']),
c('C09','proved',['C09_addSubGraph']),
c('C10','proved',['C10_order_independent','C10_failing_addSubGraph_order_dependent'],'The second theorem shows why the claim is about successful calls.'),
c('C11','proved',['C11_refines_abstract']),
c('C12','proved',['C12_only_registered']),
c('C13','proved',['C13_strict_weak_order','C13_incomparable','C13_lexicographic']),
c('C14','proved',['C14_edges_sorted','C14_sort_exists','C14_key_order_irrelevant','C14_nodes_sorted','C14_subgraphs_sorted','C14_children_sorted']),
c('C15','proved',['C15_string_canonical','C15_empty_value_order_visible']),
c('C16','proved',['C16_terminates','C16_terminates_acyclic','C16_cycle_never_succeeds','C16_cycle_diverges']),
c('C17','proved',['C17_node_statements_faithful','C17_no_node_lost','C17_once','C17_name_clash_loses_node'],'The last theorem shows why names of nodes and subgraphs must be disjoint.'),
c('C18','proved',['C18_edges_faithful']),
c('C19','proved',['C19_error_cause','C19_error_iff']),
c('C20','proved',['C20_subgraphs_faithful','C20_root_subgraphs_written','C20_name_clash_loses_subgraph']),
c('C21','proved',['C21_putMap_getMap','C21_last_value_counts']),
c('C42','proved',['C42_makeNodeID']),
c('C47','proved',['C47_remove_keeps_writable','C47_wrong_parent_breaks']),
c('C44','proved',['C44_whitelist']),
c('C22','partial',['C22_after_reading_partial','C22_cluster_written_by_name_partial','C22_cluster_becomes_node','example_cluster_end'],'The writer names the cluster in the edge statement, but the reader adds a node for every plain edge end. C22_after_reading_partial proves what holds of every graph: the cluster survives with attributes and members, and is always also a node, so the last part of the claim is false of the code.'),
c('C23','proved',['C23_same_calls','C23_all_errors']),
c('C24','proved',['C24_node_defaults','C24_edge_endpoint_defaults','C24_edge_defaults','C24_never_earlier','C24_never_outside']),
c('C25','proved',['C25_chain']),
c('C26','proved',['C26_graph_attributes','C26_subgraph_inherits']),
c('C27','proved',['C27_read_then_write','C27_exactly']),
c('C46','partial',['C46_explicit_wins_partial','C46_default_overrides_explicit','C46_exactly'],'Proved for an explicit attribute not followed by a later mention of the node under a default; the unrestricted claim is false of the code (a later mention re-applies the defaults), shown by C46_default_overrides_explicit.'),
c('C28','proved',['C28_idempotent']),
c('C29','partial',['C29_esc_panics_iff','C29_no_panic_partial','C29_panics'],'The full claim is false of the code: esc panics exactly on the blank (non-empty, white-space only) strings and on a single double quote (C29_esc_panics_iff, C29_panics). Proved: no Escape method panics when none of its string arguments is of that form.'),
c('C31','partial',['C31_collision','C31_distinct_partial','C31_only_own_form','C31_nul_collides','C31_exactly'],'The full claim is false of the code for names with NUL bytes (C31_nul_collides); C31_exactly: two names that are both changed by escaping collide exactly if neither begins with < and they agree up to NUL/U+FFFD.'),
c('C32','proved',['C32_escape_is_graph','C32_reachable','C32_isNode','C32_isSubGraph']),
c('C30','partial',['C30_exactly','C30_partial','C55_exactly','C30_left_alone','C30_backslash'],'The full claim is false of the code: isID and isNumber leave texts such as a;b, graph and -a1 alone (C30_left_alone), and backslashes are not escaped, which even allows injection (C30_backslash). Proved for text without NUL, backslash and invalid UTF-8: the escaped form is one identifier exactly if escaping quoted it or it already was an identifier. The exact condition for all byte strings, in terms of the text alone, is C30_exactly.'),
c('C33','proved',['C33_total','C33_scan_total','C33_slices','utf8_decode','utf8_invalid','utf8_prefix_free'],'utf8_*: the decoder used by the lexer model is exactly RFC 3629, given separately in Spec/Utf8.lean.'),
c('C39','proved',['C39_words','C39_exactly']),
c('C40','proved',['C40_tokens','C40_parse','C40_unterminated','C40_same_tokens','C40_spaced_tokens','C40_spaced','example_spaced']),
c('C34','proved',['C34_total','C34_no_bound','C34_read_total']),
c('C35','proved',['C35_accepts_exactly','C35_result','C35_source','C35_source_accepts','C35_unambiguous','C35_generated_name','C35_tables','C35_action_table','C35_goto_table','C35_tables_damaged']),
c('C36','proved',['C36_print_parse','C36_norm_same_text','C36_stable','C36_parsed_printable','C36_source','C36_space_lost'],'C36_space_lost shows that the restriction on outer white space is necessary.'),
c('C45','proved',['C45_verbatim']),
c('C43','proved',['C43_positions','C43_wrong_after_invalid']),
c('C48','partial',['C48_unique','C48_classes_partial','C48_empty_tag_rejected','C48_html_otherwise','C33_total'],'The scanner implements dot.bnf except that an empty tag inside an HTML string is rejected (C48_empty_tag_rejected); proved for the grammar with non-empty tags, and empty tags are shown to be the only difference.'),
c('C37','proved',['C37_round_trip','C37_same_text','C37_same_text_clusters','C37_same_text_settled','C37_same_text_names','example_round_trip','example_same_text','example_root_clusters'],'The examples show graphs that meet the hypotheses. C37_same_text_clusters and C37_same_text_settled extend the second part to edges that end at clusters and to names used for both a node and a subgraph; C37_same_text_names to any use of names, if no subgraph is called like the graph.'),
c('C38','partial',['C38_ports_never_written','C38_ports_lost','C38_port_stored_partial'],'False of the code, in the strongest sense: no graph that comes from Read ever writes a port (C38_ports_never_written). Proved instead: the port is stored in the graph with a leading colon.'),
c('C49','proved',['C49_registered_suffices','C49_unregistered_fails','C49_exactly','C49_read','C49_unused_default_unnoticed']),
c('C41','proved',['C41_distinct','C41_names','C41_distinct_names','C41_isolated','example_concurrent'],'Distinct positions, unconditionally; distinct names as far as the generator does not repeat a value. The last theorem shows executions that meet the hypotheses.'),
c('C50','proved',['C41_isolated','C41_mutual_exclusion','C41_no_deadlock','C41_bounded','C41_all_return','C41_completes','example_concurrent']),
c('C51','proved',['C51_exact','C51_not_viable','C51_expected_ne','C51_iff','example_syntaxErr','example_trailing']),
c('C52','proved',['C52_position','C52_message_position','C52_one_line','C52_expected','C52_message','C52_quote','C52_string','C52_names_injective','C52_quote_injective','C52_no_recovery','example_errorText'],'strconv.IsPrint above U+00FF is a parameter; the theorems hold for every value of it.'),
c('C53','proved',['C53_walk','C53_analyse','C53_newAnalysedGraph','C53_read','C53_error_text_varies']),
c('C54','partial',['C54_protocol_partial','C54_prune','C54_all_once','C54_nil','C54_nil_panics'],'False of the code in one case: AList.Walk lacks the nil test of the other Walk methods, so a visitor that returns nil for a non-empty list of attribute lists makes Walk panic (C54_nil_panics). Proved: exactly then it panics, and in all other cases it follows the protocol.'),
c('C55','proved',['C55_exactly']),
c('C56','proved',['C56_provenance']),
c('C57','proved',['C57_escape_round_trip','example_escape_round_trip'],'Assumes that no name is used for two kinds of elements (as C37: C17_name_clash_loses_node), and that no Unicode digit is white space (the Unicode tables are parameters).'),
c('C58','proved',['C58_lists','C58_edge_slices_stay','C58_sorted','example_slices']),
c('C59','partial',['C59_node_slice_stays_partial','C59_removal_shifts','C59_remove_while_ranging','C59_loop_leaves_nodes'],'Proved for calls that remove nothing. False of the code for removals: Nodes.Remove shifts the shared backing array in place; the exact effect on a saved slice and on a loop that removes while ranging is proved.'),
c('C60','partial',['C60_format_idempotent_partial','C60_clusters_partial','C60_stable_from_second_partial','C60_clusters_second_partial','C60_names_partial','C60_stable_partial','C60_ports_not_idempotent','C60_cluster_lost','C60_root_name_clash','example_format','example_format_ports','example_clusters','example_clusters_second','example_names','example_stable'],'Proved for every text that can be formatted and in which no subgraph is called like the graph: from the second formatting on nothing changes any more (C60_stable_partial); and already after the first one if no edge has a port or ends at a cluster (C60_names_partial), or only at clusters that are directly in the graph (C60_clusters_partial). False of the code with ports at the ends of edges (C60_ports_not_idempotent), and with edges that end at nested clusters (C60_cluster_lost: data is lost).'),
c('C61','proved',['C61_unshared','C61_call','C61_write','C61_argument','C61_pointers','C61_refines','C61_errors','heapActs_ok','heapActs_example'],'C61_refines also justifies that Model/Graph.lean has values where the code has pointers.'),
c('C62','proved',['C62_objects','C62_node','C62_subgraph','C62_order','C62_edge_attributes','C62_detached','heapActs_detached']),
c('C63','proved',['C63_escape_text'],'Also records what the code takes for a number: anything that starts with a minus sign and ends in digits.'),
c('C64','partial',['C64_copying','C64_kept_partial','C64_kept_without_defaults','C64_node_map_changes','C64_subgraph_map_changes','C64_chain_shares','C64_writing_spreads'],'Proved for implementations that look at maps during the call only (the package\'s own do), which also justifies that Model/Analyse.lean passes contents. For implementations that keep maps: those of edges stay, those of nodes and subgraphs change at most by later defaults. False of the code otherwise: the maps of nodes that edges create and of subgraphs are the live default maps of the analyser (C64_node_map_changes, C64_subgraph_map_changes), edges of a chain share a map (C64_chain_shares), and writing into a map changes later nodes (C64_writing_spreads).'),
c('C65','proved',['C65_nodes','C65_edges','C65_relations','C65_subgraphs','C65_registered','C65_nodes_sorted','C65_nodes_history','C65_edges_history','C65_relations_history','C65_subgraphs_history','C65_outcomes','C65_attrs','C65_copy','C65_nodes_add_again','example_direct','example_direct_sensible','C65_nil_attrs_panics','C65_rename_breaks'],'For callers that do not assign to Name, Src or Dst of an object that is in a container (C65_rename_breaks shows why not).'),
c('C66','proved',['C66_document','C35_generated_name','C66_names','C66_accepted','C66_read','C66_read_accepted','example_document','C66_port_node'],'A node statement with a port makes a node whose name is the text with the port (C66_port_node): that is what nodeIDStr in the specification says, and a deviation from Graphviz.'),
c('C67','proved',['C67_tree','C67_error','C67_reset','C67_sequence'],'The structs behind pointers are values in the model, because nothing changes them after they are made; the lists are slices in shared arrays.'),
c('C68','partial',['C68_message','C68_stable_partial','C68_violated'],'Proved: what the message is for any later contents of the buffer, and that it stays exactly if the token is the end of the input or its bytes are unchanged. False of the code in general: the error refers to the caller\'s buffer (C68_violated).'),
c('C69','partial',['C69_lists_partial','C69_violated','C69_appendAList'],'Proved for uses that extend no list twice. False otherwise (C69_violated).'),
c('C70','proved',['C70_lists','C70_statements','C70_statement','C70_merge','example_merge'],''),
c('C71','proved',['C71_result','C71_result_history','C71_no_race','C71_unchanged','C71_never_stuck','C71_finishes','C71_no_infinite_schedule','C71_sorter_exists','example_sharing'],'Memory is sequentially consistent in the model; the Go memory model guarantees that for programs without data races, and their absence is what C71_no_race proves. An access concerns a whole object, which can only make more pairs of accesses conflict.'),
c('C72','proved',['C72_result','C72_contents','C72_no_race','C72_shared_unchanged','C72_never_stuck','C72_finishes','example_own'],'The memory as for C71. The variable with the registered attribute names is not part of the memory (it is never changed after initialisation).'),
c('C73','proved',['C73_one_by_one','C73_contents','C73_no_race','C73_no_deadlock','C73_calls_end','C73_no_livelock','C73_lock_needed','example_locked'],'The memory as for C71. The lock is the caller\'s and is modelled by its contract, without a promise that a waiting goroutine gets it (that depends on the scheduler). A call that does not return (String on a graph whose subgraphs form a cycle, C16) keeps the lock: C73_no_deadlock says so.'),
c('C74','proved',['C74_same','C74_linear','example_cost'],'Counts decoded characters and iterations of the parser; that one iteration takes bounded time (map and slice operations, append in the actions) is not modelled.'),
c('C75','proved',['C75_reader','C75_reader_error','C75_room','C75_open_error','C75_file','C75_file_error','C75_closed','example_reader'],'ioutil.ReadAll is modelled after its implementation in the standard library.'),
c('C76','partial',['C76_rune_value','C76_rune_char','C76_lenient','C76_rune_round_trip_partial','C76_backslash','C76_int','C76_uint','C76_int32_partial','C76_int32_wraps','C76_inner','C76_utf8_partial','C76_utf8_replacement','C76_names','C76_equals','C76_position','C76_token_string','C76_lexer_file','example_literals'],'False of the code in four places, each with a witness: RuneToString writes the backslash unescaped and characters outside ASCII without quotes (C76_backslash; C76_rune_round_trip_partial says exactly which characters survive), RuneValue accepts incomplete escapes and text behind an escape (C76_lenient), Int32Value cuts numbers to 32 bits without an error (C76_int32_wraps), UTF8Rune reports a valid U+FFFD as an error (C76_utf8_replacement). Float values are not modelled.'),
c('C77','partial',['C77_count','C77_node_count','C77_once_partial','C77_linear_partial','C77_exponential','C77_alphabet','example_size','example_aDoc'],'False of the code: a subgraph contained in several subgraphs is written once for every way in which it is nested, so documents of O(n^3) bytes are written with 2^n subgraphs (C77_exponential); and a subgraph that is in the graph and in another subgraph is written once or twice, depending on the alphabetic order of the names (C77_alphabet). C77_count and C77_node_count say exactly how often each is written; once and linear hold if the subgraphs form a tree (C77_once_partial, C77_linear_partial).'),
c('C78','partial',['C78_reset_partial','C78_positions_kept','example_reset'],'Proved: types, texts and offsets are those of a new scanner, and lines are those of a new scanner plus the lines before. False of the code for lines and columns: Reset does not start them again (C78_positions_kept).'),
c('C79','partial',['C79_quoted','C79_shown_partial','C79_exactly','C79_angle','C79_decoded','C79_quotes_lost','C79_references','C79_lines_joined','example_shown','example_entities'],'Proved: what is shown, exactly, for every text whose escaped form is an identifier and that neither is in quotes nor starts with <. False of the code for texts in quotes (shown without them), texts that start with < (character references are replaced, C79_references) and texts with lines that end in a backslash (joined).'),
c('C80','partial',['C80_one_node_partial','C80_api_partial','C80_escape_partial','C80_two_nodes','C80_escape','C80_attribute_rejected','example_spelling'],'Proved for documents and histories that spell every identifier in one way, and for Escape on texts that are not in quotes. False of the code otherwise: names are compared as bytes.'),
c('C81','partial',['C81_read','C81_read_fit','C81_write','C81_write_fit_partial','C81_wrong_operator','example_operators'],'Proved: operators are kept by reading and writing, so a written document fits exactly if the calls or the document did. False of the code: a wrong operator is accepted and written (C81_wrong_operator).'),
c('C82','proved',['C82_same_content','C82_same_text','C82_order_matters','Order.one_two'],'Which calls are independent is said in Spec/Independence.lean; RemoveSubGraph is independent of nothing there. C82_order_matters: some pairs that are not independent do give different graphs. The text is the same unless an edge stores an empty value (C15_empty_value_order_visible).'),
c('C83','proved',['C83_adds','C83_accepted','C83_again','C83_renamed_not_written','example_merge_two'],'The graph is renamed to the name of the document, so that subgraphs it had under another name are kept but no longer written (C83_renamed_not_written).'),
c('C84','proved',['C84_same_content','C84_same_text','C84_order_matters','example_stmt_order'],'Which statements are independent is said in Spec/StmtOrder.lean in terms of the entries of C66. The text is the same unless an edge has an empty value (C15_empty_value_order_visible).'),
c('C85','partial',['C85_calls','C85_same_partial','C85_source_partial','C85_ascii_partial','C85_source_names','C85_ascii_names','C85_ident','C85_reformat_partial','C85_port_renamed','C85_space_panics','C85_epsilon_renamed','example_escape_analyse','example_escape_kinds'],'C85_calls holds for every document. The rest of the claim is false for node statements with a port after a name that is not a word (C85_port_renamed), for identifiers that are white space to strings.TrimSpace (C85_space_panics) and for identifiers that do not start with what isLetter accepts (C85_epsilon_renamed); proved for all other documents. C85_reformat_partial also has the conditions of C60_format_idempotent_partial.'),
c('C86','proved',['C86_renaming','C86_empty_special','example_renaming'],'The renaming and what it does to calls, errors and graphs is in Spec/Renaming.lean. Writing does look at names (their order, the prefix cluster) and is not part of the claim.'),
c('C87','proved',['C87_undo','C87_text','C87_undo_subgraph','C87_two_parents','C87_port_like_subgraph','example_undo','example_undo_subgraph'],'One parent for each node is needed (C87_two_parents). For subgraphs the graph must also have no edge with a port of that name (C87_port_like_subgraph), and the name must not be that of the graph.'),
c('C88','proved',['C88_shape','C88_truncated','C88_two_documents','C88_printed','C88_written','C88_read','C88_open_comment','example_truncated'],'A line comment behind the final brace needs its line break (C88_open_comment).'),
c('C89','proved',['C89_pieces','C89_accepted','C89_many','C89_conditions','example_pieces'],'The two conditions on default statements are needed (C89_conditions).'),
c('C90','proved',['C90_prefix','C90_error_text','C90_parse','C90_read','example_string_err'],'The theorems about the prefix and about errors hold for every graph; that a document is returned otherwise is C36/C37.'),
c('C91','proved',['C91_calls','C91_histories','C91_written','C91_read','C91_strict_edge_twice','example_kind'],'In particular strict does not keep an edge from being there twice (C91_strict_edge_twice).'),
c('C92','proved',['C92_history','C92_calls','C92_analyse','C92_read','example_space'],'Counts elements, containments, attributes, calls and tokens; the lengths of names and values are not counted.'),
c('C93','proved',['C93_node','C93_node_attrs','C93_sub_attr','C93_root_attr','C93_edge','C93_subgraph','C93_text','C93_edge_text','C93_node_text','example_small'],'A new subgraph without recorded parents or children; the text of an end of an edge that is a subgraph is one statement.'),
c('C94','proved',['C94_text_tells','C94_edges','C94_colon_invisible','example_telling'],'The hypotheses on names are those of C37; without them a node is lost (C17_name_clash_loses_node).'),
c('C95','partial',['C95_published_partial','C95_read','C95_types','C95_violated','bare_published','comma_published','example_published','C95_mended','example_mended'],'The full claim is false of the code (C95_violated): digraph { a -> { } } and graph { a [b=c,] } are sentences of the grammar that dot.bnf quotes and are rejected. C95_published_partial is the exact characterisation: these are the only two forms; C95_mended: every published text is accepted once they are mended.'),
c('C96','proved',['C96_printed','C96_parsed','C96_formatted','C96_written','C96_read','C96_escaped','C96_latin1','example_utf8'],'Names in Latin-1 and HTML strings with characters above U+00FF are rejected (C96_latin1); the assumption on the arguments is needed (example_utf8).'),
c('C97','proved',['C97_copy','C97_same_tree','C97_settles','C97_third_part','C97_name_clash','example_copy'],'Needs that no name is both a node and a subgraph (C97_name_clash) and ports of at most two parts (C97_third_part).'),
c('C98','proved',['C98_stack','C98_flat','C98_tree','C98_needed','example_nesting'],'The bound 7 * nesting + 8 is reached (example_nesting).'),
c('C99','proved',['C99_edited','C99_calls','C99_repaired','edited_of_reachable','example_edited'],'The maps SrcToDsts and DstToSrcs go stale by such an assignment (example_edited); no call and no writer reads them.'),
c('C100','partial',['C100_irrelevant_partial','C100_violated','example_anonymous'],'The generator starts with the constant seed 1234 in every process (ast.go:30), so generated names recur. A file that contains a generated name (String writes it as an ordinary subgraph name) and an anonymous subgraph is read so that the two subgraphs become one (C100_violated, for every generator). Proved in full for texts in which no identifier equals one of the names drawn, and the names drawn differ.'),
c('C101','proved',['C101_node','C101_subgraph','example_erase','example_erase_applies'],'An edge with a port that is called like the removed subgraph is removed too (example_erase), as C07 says. The second alternative is met (example_erase): RemoveNode leaves the relation to other subgraphs.'),
c('C102','proved',['C102_exact','C102_used_exact','C102_twin','C102_no_twin','example_makeable'],'Objects handed over to the exported containers are not used by the caller any more and their Attrs are not nil (C65 covers sharing and nil maps). The order of Nodes.Nodes is not part of the contents.'),
c('C103','partial',['C103_read_again','C103_again_partial','C103_violated','example_again'],'C103_read_again (what a graph writes is read) holds whatever names are used for. False of the code for repeated formatting when a subgraph is called like the graph (C103_violated: writing what was read back overflows the stack); proved for all other texts.'),
c('C104','proved',['C104_kept','C104_format','C17_name_clash_loses_node','C20_name_clash_loses_subgraph','example_kept'],'Kept (Spec/Kept.lean) lists what is kept. The two clash theorems show that the exception (names used for both a node and a subgraph) is needed; the example meets the hypotheses.')
]
