{
 "claims": [
  {
   "property": "C01",
   "status": "proved",
   "theorems": [
    "Gographviz.Props.C01_nodes_agree"
   ],
   "note": ""
  },
  {
   "property": "C02",
   "status": "proved",
   "theorems": [
    "Gographviz.Props.C02_edge_indexes_agree"
   ],
   "note": ""
  },
  {
   "property": "C03",
   "status": "proved",
   "theorems": [
    "Gographviz.Props.C03_relations_inverse"
   ],
   "note": ""
  },
  {
   "property": "C04",
   "status": "proved",
   "theorems": [
    "Gographviz.Props.C04_rejected_unchanged"
   ],
   "note": ""
  },
  {
   "property": "C05",
   "status": "proved",
   "theorems": [
    "Gographviz.Props.C05_last_value_wins",
    "Gographviz.Props.C05_since_removed"
   ],
   "note": ""
  },
  {
   "property": "C06",
   "status": "proved",
   "theorems": [
    "Gographviz.Props.C06_removeNode"
   ],
   "note": ""
  },
  {
   "property": "C07",
   "status": "partial",
   "theorems": [
    "Gographviz.Props.C07_removeSubGraph_partial",
    "Gographviz.Props.C07_recreate_not_empty",
    "Gographviz.Props.C07_recreated",
    "Gographviz.Props.C07_failed",
    "Gographviz.Props.C07_failed_half"
   ],
   "note": "All but the last sentence is proved; the last sentence is false of the code (relation from the removed subgraph to its children is kept), shown by C07_recreate_not_empty. C07_recreated: a re-created subgraph has exactly its old children; C07_failed: the exact state after a failure."
  },
  {
   "property": "C08",
   "status": "proved",
   "theorems": [
    "Gographviz.Props.C08_addAttr"
   ],
   "note": ""
  },
  {
   "property": "C09",
   "status": "proved",
   "theorems": [
    "Gographviz.Props.C09_addSubGraph"
   ],
   "note": ""
  },
  {
   "property": "C10",
   "status": "proved",
   "theorems": [
    "Gographviz.Props.C10_order_independent",
    "Gographviz.Props.C10_failing_addSubGraph_order_dependent"
   ],
   "note": "The second theorem shows why the claim is about successful calls."
  },
  {
   "property": "C11",
   "status": "proved",
   "theorems": [
    "Gographviz.Props.C11_refines_abstract"
   ],
   "note": ""
  },
  {
   "property": "C12",
   "status": "proved",
   "theorems": [
    "Gographviz.Props.C12_only_registered"
   ],
   "note": ""
  },
  {
   "property": "C13",
   "status": "proved",
   "theorems": [
    "Gographviz.Props.C13_strict_weak_order",
    "Gographviz.Props.C13_incomparable",
    "Gographviz.Props.C13_lexicographic"
   ],
   "note": ""
  },
  {
   "property": "C14",
   "status": "proved",
   "theorems": [
    "Gographviz.Props.C14_edges_sorted",
    "Gographviz.Props.C14_sort_exists",
    "Gographviz.Props.C14_key_order_irrelevant",
    "Gographviz.Props.C14_nodes_sorted",
    "Gographviz.Props.C14_subgraphs_sorted",
    "Gographviz.Props.C14_children_sorted"
   ],
   "note": ""
  },
  {
   "property": "C15",
   "status": "proved",
   "theorems": [
    "Gographviz.Props.C15_string_canonical",
    "Gographviz.Props.C15_empty_value_order_visible"
   ],
   "note": ""
  },
  {
   "property": "C16",
   "status": "proved",
   "theorems": [
    "Gographviz.Props.C16_terminates",
    "Gographviz.Props.C16_terminates_acyclic",
    "Gographviz.Props.C16_cycle_never_succeeds",
    "Gographviz.Props.C16_cycle_diverges"
   ],
   "note": ""
  },
  {
   "property": "C17",
   "status": "proved",
   "theorems": [
    "Gographviz.Props.C17_node_statements_faithful",
    "Gographviz.Props.C17_no_node_lost",
    "Gographviz.Props.C17_once",
    "Gographviz.Props.C17_name_clash_loses_node"
   ],
   "note": "The last theorem shows why names of nodes and subgraphs must be disjoint."
  },
  {
   "property": "C18",
   "status": "proved",
   "theorems": [
    "Gographviz.Props.C18_edges_faithful"
   ],
   "note": ""
  },
  {
   "property": "C19",
   "status": "proved",
   "theorems": [
    "Gographviz.Props.C19_error_cause",
    "Gographviz.Props.C19_error_iff"
   ],
   "note": ""
  },
  {
   "property": "C20",
   "status": "proved",
   "theorems": [
    "Gographviz.Props.C20_subgraphs_faithful",
    "Gographviz.Props.C20_root_subgraphs_written",
    "Gographviz.Props.C20_name_clash_loses_subgraph"
   ],
   "note": ""
  },
  {
   "property": "C21",
   "status": "proved",
   "theorems": [
    "Gographviz.Props.C21_putMap_getMap",
    "Gographviz.Props.C21_last_value_counts"
   ],
   "note": ""
  },
  {
   "property": "C42",
   "status": "proved",
   "theorems": [
    "Gographviz.Props.C42_makeNodeID"
   ],
   "note": ""
  },
  {
   "property": "C47",
   "status": "proved",
   "theorems": [
    "Gographviz.Props.C47_remove_keeps_writable",
    "Gographviz.Props.C47_wrong_parent_breaks"
   ],
   "note": ""
  },
  {
   "property": "C44",
   "status": "proved",
   "theorems": [
    "Gographviz.Props.C44_whitelist"
   ],
   "note": ""
  },
  {
   "property": "C22",
   "status": "partial",
   "theorems": [
    "Gographviz.Props.C22_after_reading_partial",
    "Gographviz.Props.C22_cluster_written_by_name_partial",
    "Gographviz.Props.C22_cluster_becomes_node",
    "Gographviz.Props.example_cluster_end"
   ],
   "note": "The writer names the cluster in the edge statement, but the reader adds a node for every plain edge end. C22_after_reading_partial proves what holds of every graph: the cluster survives with attributes and members, and is always also a node, so the last part of the claim is false of the code."
  },
  {
   "property": "C23",
   "status": "proved",
   "theorems": [
    "Gographviz.Props.C23_same_calls",
    "Gographviz.Props.C23_all_errors"
   ],
   "note": ""
  },
  {
   "property": "C24",
   "status": "proved",
   "theorems": [
    "Gographviz.Props.C24_node_defaults",
    "Gographviz.Props.C24_edge_endpoint_defaults",
    "Gographviz.Props.C24_edge_defaults",
    "Gographviz.Props.C24_never_earlier",
    "Gographviz.Props.C24_never_outside"
   ],
   "note": ""
  },
  {
   "property": "C25",
   "status": "proved",
   "theorems": [
    "Gographviz.Props.C25_chain"
   ],
   "note": ""
  },
  {
   "property": "C26",
   "status": "proved",
   "theorems": [
    "Gographviz.Props.C26_graph_attributes",
    "Gographviz.Props.C26_subgraph_inherits"
   ],
   "note": ""
  },
  {
   "property": "C27",
   "status": "proved",
   "theorems": [
    "Gographviz.Props.C27_read_then_write",
    "Gographviz.Props.C27_exactly"
   ],
   "note": ""
  },
  {
   "property": "C46",
   "status": "partial",
   "theorems": [
    "Gographviz.Props.C46_explicit_wins_partial",
    "Gographviz.Props.C46_default_overrides_explicit",
    "Gographviz.Props.C46_exactly"
   ],
   "note": "Proved for an explicit attribute not followed by a later mention of the node under a default; the unrestricted claim is false of the code (a later mention re-applies the defaults), shown by C46_default_overrides_explicit."
  },
  {
   "property": "C28",
   "status": "proved",
   "theorems": [
    "Gographviz.Props.C28_idempotent"
   ],
   "note": ""
  },
  {
   "property": "C29",
   "status": "partial",
   "theorems": [
    "Gographviz.Props.C29_esc_panics_iff",
    "Gographviz.Props.C29_no_panic_partial",
    "Gographviz.Props.C29_panics"
   ],
   "note": "The full claim is false of the code: esc panics exactly on the blank (non-empty, white-space only) strings and on a single double quote (C29_esc_panics_iff, C29_panics). Proved: no Escape method panics when none of its string arguments is of that form."
  },
  {
   "property": "C31",
   "status": "partial",
   "theorems": [
    "Gographviz.Props.C31_collision",
    "Gographviz.Props.C31_distinct_partial",
    "Gographviz.Props.C31_only_own_form",
    "Gographviz.Props.C31_nul_collides",
    "Gographviz.Props.C31_exactly"
   ],
   "note": "The full claim is false of the code for names with NUL bytes (C31_nul_collides); C31_exactly: two names that are both changed by escaping collide exactly if neither begins with < and they agree up to NUL/U+FFFD."
  },
  {
   "property": "C32",
   "status": "proved",
   "theorems": [
    "Gographviz.Props.C32_escape_is_graph",
    "Gographviz.Props.C32_reachable",
    "Gographviz.Props.C32_isNode",
    "Gographviz.Props.C32_isSubGraph"
   ],
   "note": ""
  },
  {
   "property": "C30",
   "status": "partial",
   "theorems": [
    "Gographviz.Props.C30_exactly",
    "Gographviz.Props.C30_partial",
    "Gographviz.Props.C55_exactly",
    "Gographviz.Props.C30_left_alone",
    "Gographviz.Props.C30_backslash"
   ],
   "note": "The full claim is false of the code: isID and isNumber leave texts such as a;b, graph and -a1 alone (C30_left_alone), and backslashes are not escaped, which even allows injection (C30_backslash). Proved for text without NUL, backslash and invalid UTF-8: the escaped form is one identifier exactly if escaping quoted it or it already was an identifier. The exact condition for all byte strings, in terms of the text alone, is C30_exactly."
  },
  {
   "property": "C33",
   "status": "proved",
   "theorems": [
    "Gographviz.Props.C33_total",
    "Gographviz.Props.C33_scan_total",
    "Gographviz.Props.C33_slices",
    "Gographviz.Props.utf8_decode",
    "Gographviz.Props.utf8_invalid",
    "Gographviz.Props.utf8_prefix_free"
   ],
   "note": "utf8_*: the decoder used by the lexer model is exactly RFC 3629, given separately in Spec/Utf8.lean."
  },
  {
   "property": "C39",
   "status": "proved",
   "theorems": [
    "Gographviz.Props.C39_words",
    "Gographviz.Props.C39_exactly"
   ],
   "note": ""
  },
  {
   "property": "C40",
   "status": "proved",
   "theorems": [
    "Gographviz.Props.C40_tokens",
    "Gographviz.Props.C40_parse",
    "Gographviz.Props.C40_unterminated",
    "Gographviz.Props.C40_same_tokens",
    "Gographviz.Props.C40_spaced_tokens",
    "Gographviz.Props.C40_spaced",
    "Gographviz.Props.example_spaced"
   ],
   "note": ""
  },
  {
   "property": "C34",
   "status": "proved",
   "theorems": [
    "Gographviz.Props.C34_total",
    "Gographviz.Props.C34_no_bound",
    "Gographviz.Props.C34_read_total"
   ],
   "note": ""
  },
  {
   "property": "C35",
   "status": "proved",
   "theorems": [
    "Gographviz.Props.C35_accepts_exactly",
    "Gographviz.Props.C35_result",
    "Gographviz.Props.C35_source",
    "Gographviz.Props.C35_source_accepts",
    "Gographviz.Props.C35_unambiguous",
    "Gographviz.Props.C35_generated_name",
    "Gographviz.Props.C35_tables",
    "Gographviz.Props.C35_action_table",
    "Gographviz.Props.C35_goto_table",
    "Gographviz.Props.C35_tables_damaged"
   ],
   "note": ""
  },
  {
   "property": "C36",
   "status": "proved",
   "theorems": [
    "Gographviz.Props.C36_print_parse",
    "Gographviz.Props.C36_norm_same_text",
    "Gographviz.Props.C36_stable",
    "Gographviz.Props.C36_parsed_printable",
    "Gographviz.Props.C36_source",
    "Gographviz.Props.C36_space_lost"
   ],
   "note": "C36_space_lost shows that the restriction on outer white space is necessary."
  },
  {
   "property": "C45",
   "status": "proved",
   "theorems": [
    "Gographviz.Props.C45_verbatim"
   ],
   "note": ""
  },
  {
   "property": "C43",
   "status": "proved",
   "theorems": [
    "Gographviz.Props.C43_positions",
    "Gographviz.Props.C43_wrong_after_invalid"
   ],
   "note": ""
  },
  {
   "property": "C48",
   "status": "partial",
   "theorems": [
    "Gographviz.Props.C48_unique",
    "Gographviz.Props.C48_classes_partial",
    "Gographviz.Props.C48_empty_tag_rejected",
    "Gographviz.Props.C48_html_otherwise",
    "Gographviz.Props.C33_total"
   ],
   "note": "The scanner implements dot.bnf except that an empty tag inside an HTML string is rejected (C48_empty_tag_rejected); proved for the grammar with non-empty tags, and empty tags are shown to be the only difference."
  },
  {
   "property": "C37",
   "status": "proved",
   "theorems": [
    "Gographviz.Props.C37_round_trip",
    "Gographviz.Props.C37_same_text",
    "Gographviz.Props.C37_same_text_clusters",
    "Gographviz.Props.C37_same_text_settled",
    "Gographviz.Props.C37_same_text_names",
    "Gographviz.Props.example_round_trip",
    "Gographviz.Props.example_same_text",
    "Gographviz.Props.example_root_clusters"
   ],
   "note": "The examples show graphs that meet the hypotheses. C37_same_text_clusters and C37_same_text_settled extend the second part to edges that end at clusters and to names used for both a node and a subgraph; C37_same_text_names to any use of names, if no subgraph is called like the graph."
  },
  {
   "property": "C38",
   "status": "partial",
   "theorems": [
    "Gographviz.Props.C38_ports_never_written",
    "Gographviz.Props.C38_ports_lost",
    "Gographviz.Props.C38_port_stored_partial"
   ],
   "note": "False of the code, in the strongest sense: no graph that comes from Read ever writes a port (C38_ports_never_written). Proved instead: the port is stored in the graph with a leading colon."
  },
  {
   "property": "C49",
   "status": "proved",
   "theorems": [
    "Gographviz.Props.C49_registered_suffices",
    "Gographviz.Props.C49_unregistered_fails",
    "Gographviz.Props.C49_exactly",
    "Gographviz.Props.C49_read",
    "Gographviz.Props.C49_unused_default_unnoticed"
   ],
   "note": ""
  },
  {
   "property": "C41",
   "status": "proved",
   "theorems": [
    "Gographviz.Props.C41_distinct",
    "Gographviz.Props.C41_names",
    "Gographviz.Props.C41_distinct_names",
    "Gographviz.Props.C41_isolated",
    "Gographviz.Props.example_concurrent"
   ],
   "note": "Distinct positions, unconditionally; distinct names as far as the generator does not repeat a value. The last theorem shows executions that meet the hypotheses."
  },
  {
   "property": "C50",
   "status": "proved",
   "theorems": [
    "Gographviz.Props.C41_isolated",
    "Gographviz.Props.C41_mutual_exclusion",
    "Gographviz.Props.C41_no_deadlock",
    "Gographviz.Props.C41_bounded",
    "Gographviz.Props.C41_all_return",
    "Gographviz.Props.C41_completes",
    "Gographviz.Props.example_concurrent"
   ],
   "note": ""
  },
  {
   "property": "C51",
   "status": "proved",
   "theorems": [
    "Gographviz.Props.C51_exact",
    "Gographviz.Props.C51_not_viable",
    "Gographviz.Props.C51_expected_ne",
    "Gographviz.Props.C51_iff",
    "Gographviz.Props.example_syntaxErr",
    "Gographviz.Props.example_trailing"
   ],
   "note": ""
  },
  {
   "property": "C52",
   "status": "proved",
   "theorems": [
    "Gographviz.Props.C52_position",
    "Gographviz.Props.C52_message_position",
    "Gographviz.Props.C52_one_line",
    "Gographviz.Props.C52_expected",
    "Gographviz.Props.C52_message",
    "Gographviz.Props.C52_quote",
    "Gographviz.Props.C52_string",
    "Gographviz.Props.C52_names_injective",
    "Gographviz.Props.C52_quote_injective",
    "Gographviz.Props.C52_no_recovery",
    "Gographviz.Props.example_errorText"
   ],
   "note": "strconv.IsPrint above U+00FF is a parameter; the theorems hold for every value of it."
  },
  {
   "property": "C53",
   "status": "proved",
   "theorems": [
    "Gographviz.Props.C53_walk",
    "Gographviz.Props.C53_analyse",
    "Gographviz.Props.C53_newAnalysedGraph",
    "Gographviz.Props.C53_read",
    "Gographviz.Props.C53_error_text_varies"
   ],
   "note": ""
  },
  {
   "property": "C54",
   "status": "partial",
   "theorems": [
    "Gographviz.Props.C54_protocol_partial",
    "Gographviz.Props.C54_prune",
    "Gographviz.Props.C54_all_once",
    "Gographviz.Props.C54_nil",
    "Gographviz.Props.C54_nil_panics"
   ],
   "note": "False of the code in one case: AList.Walk lacks the nil test of the other Walk methods, so a visitor that returns nil for a non-empty list of attribute lists makes Walk panic (C54_nil_panics). Proved: exactly then it panics, and in all other cases it follows the protocol."
  },
  {
   "property": "C55",
   "status": "proved",
   "theorems": [
    "Gographviz.Props.C55_exactly"
   ],
   "note": ""
  },
  {
   "property": "C56",
   "status": "proved",
   "theorems": [
    "Gographviz.Props.C56_provenance"
   ],
   "note": ""
  },
  {
   "property": "C57",
   "status": "proved",
   "theorems": [
    "Gographviz.Props.C57_escape_round_trip",
    "Gographviz.Props.example_escape_round_trip"
   ],
   "note": "Assumes that no name is used for two kinds of elements (as C37: C17_name_clash_loses_node), and that no Unicode digit is white space (the Unicode tables are parameters)."
  },
  {
   "property": "C58",
   "status": "proved",
   "theorems": [
    "Gographviz.Props.C58_lists",
    "Gographviz.Props.C58_edge_slices_stay",
    "Gographviz.Props.C58_sorted",
    "Gographviz.Props.example_slices"
   ],
   "note": ""
  },
  {
   "property": "C59",
   "status": "partial",
   "theorems": [
    "Gographviz.Props.C59_node_slice_stays_partial",
    "Gographviz.Props.C59_removal_shifts",
    "Gographviz.Props.C59_remove_while_ranging",
    "Gographviz.Props.C59_loop_leaves_nodes"
   ],
   "note": "Proved for calls that remove nothing. False of the code for removals: Nodes.Remove shifts the shared backing array in place; the exact effect on a saved slice and on a loop that removes while ranging is proved."
  },
  {
   "property": "C60",
   "status": "partial",
   "theorems": [
    "Gographviz.Props.C60_format_idempotent_partial",
    "Gographviz.Props.C60_clusters_partial",
    "Gographviz.Props.C60_stable_from_second_partial",
    "Gographviz.Props.C60_clusters_second_partial",
    "Gographviz.Props.C60_names_partial",
    "Gographviz.Props.C60_stable_partial",
    "Gographviz.Props.C60_ports_not_idempotent",
    "Gographviz.Props.C60_cluster_lost",
    "Gographviz.Props.C60_root_name_clash",
    "Gographviz.Props.example_format",
    "Gographviz.Props.example_format_ports",
    "Gographviz.Props.example_clusters",
    "Gographviz.Props.example_clusters_second",
    "Gographviz.Props.example_names",
    "Gographviz.Props.example_stable"
   ],
   "note": "Proved for every text that can be formatted and in which no subgraph is called like the graph: from the second formatting on nothing changes any more (C60_stable_partial); and already after the first one if no edge has a port or ends at a cluster (C60_names_partial), or only at clusters that are directly in the graph (C60_clusters_partial). False of the code with ports at the ends of edges (C60_ports_not_idempotent), and with edges that end at nested clusters (C60_cluster_lost: data is lost)."
  },
  {
   "property": "C61",
   "status": "proved",
   "theorems": [
    "Gographviz.Props.C61_unshared",
    "Gographviz.Props.C61_call",
    "Gographviz.Props.C61_write",
    "Gographviz.Props.C61_argument",
    "Gographviz.Props.C61_pointers",
    "Gographviz.Props.C61_refines",
    "Gographviz.Props.C61_errors",
    "Gographviz.Props.heapActs_ok",
    "Gographviz.Props.heapActs_example"
   ],
   "note": "C61_refines also justifies that Model/Graph.lean has values where the code has pointers."
  },
  {
   "property": "C62",
   "status": "proved",
   "theorems": [
    "Gographviz.Props.C62_objects",
    "Gographviz.Props.C62_node",
    "Gographviz.Props.C62_subgraph",
    "Gographviz.Props.C62_order",
    "Gographviz.Props.C62_edge_attributes",
    "Gographviz.Props.C62_detached",
    "Gographviz.Props.heapActs_detached"
   ],
   "note": ""
  },
  {
   "property": "C63",
   "status": "proved",
   "theorems": [
    "Gographviz.Props.C63_escape_text"
   ],
   "note": "Also records what the code takes for a number: anything that starts with a minus sign and ends in digits."
  },
  {
   "property": "C64",
   "status": "partial",
   "theorems": [
    "Gographviz.Props.C64_copying",
    "Gographviz.Props.C64_kept_partial",
    "Gographviz.Props.C64_kept_without_defaults",
    "Gographviz.Props.C64_node_map_changes",
    "Gographviz.Props.C64_subgraph_map_changes",
    "Gographviz.Props.C64_chain_shares",
    "Gographviz.Props.C64_writing_spreads"
   ],
   "note": "Proved for implementations that look at maps during the call only (the package's own do), which also justifies that Model/Analyse.lean passes contents. For implementations that keep maps: those of edges stay, those of nodes and subgraphs change at most by later defaults. False of the code otherwise: the maps of nodes that edges create and of subgraphs are the live default maps of the analyser (C64_node_map_changes, C64_subgraph_map_changes), edges of a chain share a map (C64_chain_shares), and writing into a map changes later nodes (C64_writing_spreads)."
  },
  {
   "property": "C65",
   "status": "proved",
   "theorems": [
    "Gographviz.Props.C65_nodes",
    "Gographviz.Props.C65_edges",
    "Gographviz.Props.C65_relations",
    "Gographviz.Props.C65_subgraphs",
    "Gographviz.Props.C65_registered",
    "Gographviz.Props.C65_nodes_sorted",
    "Gographviz.Props.C65_nodes_history",
    "Gographviz.Props.C65_edges_history",
    "Gographviz.Props.C65_relations_history",
    "Gographviz.Props.C65_subgraphs_history",
    "Gographviz.Props.C65_outcomes",
    "Gographviz.Props.C65_attrs",
    "Gographviz.Props.C65_copy",
    "Gographviz.Props.C65_nodes_add_again",
    "Gographviz.Props.example_direct",
    "Gographviz.Props.example_direct_sensible",
    "Gographviz.Props.C65_nil_attrs_panics",
    "Gographviz.Props.C65_rename_breaks"
   ],
   "note": "For callers that do not assign to Name, Src or Dst of an object that is in a container (C65_rename_breaks shows why not)."
  },
  {
   "property": "C66",
   "status": "proved",
   "theorems": [
    "Gographviz.Props.C66_document",
    "Gographviz.Props.C35_generated_name",
    "Gographviz.Props.C66_names",
    "Gographviz.Props.C66_accepted",
    "Gographviz.Props.C66_read",
    "Gographviz.Props.C66_read_accepted",
    "Gographviz.Props.example_document",
    "Gographviz.Props.C66_port_node"
   ],
   "note": "A node statement with a port makes a node whose name is the text with the port (C66_port_node): that is what nodeIDStr in the specification says, and a deviation from Graphviz."
  },
  {
   "property": "C67",
   "status": "proved",
   "theorems": [
    "Gographviz.Props.C67_tree",
    "Gographviz.Props.C67_error",
    "Gographviz.Props.C67_reset",
    "Gographviz.Props.C67_sequence"
   ],
   "note": "The structs behind pointers are values in the model, because nothing changes them after they are made; the lists are slices in shared arrays."
  },
  {
   "property": "C68",
   "status": "partial",
   "theorems": [
    "Gographviz.Props.C68_message",
    "Gographviz.Props.C68_stable_partial",
    "Gographviz.Props.C68_violated"
   ],
   "note": "Proved: what the message is for any later contents of the buffer, and that it stays exactly if the token is the end of the input or its bytes are unchanged. False of the code in general: the error refers to the caller's buffer (C68_violated)."
  },
  {
   "property": "C69",
   "status": "partial",
   "theorems": [
    "Gographviz.Props.C69_lists_partial",
    "Gographviz.Props.C69_violated",
    "Gographviz.Props.C69_appendAList"
   ],
   "note": "Proved for uses that extend no list twice. False otherwise (C69_violated)."
  },
  {
   "property": "C70",
   "status": "proved",
   "theorems": [
    "Gographviz.Props.C70_lists",
    "Gographviz.Props.C70_statements",
    "Gographviz.Props.C70_statement",
    "Gographviz.Props.C70_merge",
    "Gographviz.Props.example_merge"
   ],
   "note": ""
  },
  {
   "property": "C71",
   "status": "proved",
   "theorems": [
    "Gographviz.Props.C71_result",
    "Gographviz.Props.C71_result_history",
    "Gographviz.Props.C71_no_race",
    "Gographviz.Props.C71_unchanged",
    "Gographviz.Props.C71_never_stuck",
    "Gographviz.Props.C71_finishes",
    "Gographviz.Props.C71_no_infinite_schedule",
    "Gographviz.Props.C71_sorter_exists",
    "Gographviz.Props.example_sharing"
   ],
   "note": "Memory is sequentially consistent in the model; the Go memory model guarantees that for programs without data races, and their absence is what C71_no_race proves. An access concerns a whole object, which can only make more pairs of accesses conflict."
  },
  {
   "property": "C72",
   "status": "proved",
   "theorems": [
    "Gographviz.Props.C72_result",
    "Gographviz.Props.C72_contents",
    "Gographviz.Props.C72_no_race",
    "Gographviz.Props.C72_shared_unchanged",
    "Gographviz.Props.C72_never_stuck",
    "Gographviz.Props.C72_finishes",
    "Gographviz.Props.example_own"
   ],
   "note": "The memory as for C71. The variable with the registered attribute names is not part of the memory (it is never changed after initialisation)."
  },
  {
   "property": "C73",
   "status": "proved",
   "theorems": [
    "Gographviz.Props.C73_one_by_one",
    "Gographviz.Props.C73_contents",
    "Gographviz.Props.C73_no_race",
    "Gographviz.Props.C73_no_deadlock",
    "Gographviz.Props.C73_calls_end",
    "Gographviz.Props.C73_no_livelock",
    "Gographviz.Props.C73_lock_needed",
    "Gographviz.Props.example_locked"
   ],
   "note": "The memory as for C71. The lock is the caller's and is modelled by its contract, without a promise that a waiting goroutine gets it (that depends on the scheduler). A call that does not return (String on a graph whose subgraphs form a cycle, C16) keeps the lock: C73_no_deadlock says so."
  },
  {
   "property": "C74",
   "status": "proved",
   "theorems": [
    "Gographviz.Props.C74_same",
    "Gographviz.Props.C74_linear",
    "Gographviz.Props.example_cost"
   ],
   "note": "Counts decoded characters and iterations of the parser; that one iteration takes bounded time (map and slice operations, append in the actions) is not modelled."
  },
  {
   "property": "C75",
   "status": "proved",
   "theorems": [
    "Gographviz.Props.C75_reader",
    "Gographviz.Props.C75_reader_error",
    "Gographviz.Props.C75_room",
    "Gographviz.Props.C75_open_error",
    "Gographviz.Props.C75_file",
    "Gographviz.Props.C75_file_error",
    "Gographviz.Props.C75_closed",
    "Gographviz.Props.example_reader"
   ],
   "note": "ioutil.ReadAll is modelled after its implementation in the standard library."
  },
  {
   "property": "C76",
   "status": "partial",
   "theorems": [
    "Gographviz.Props.C76_rune_value",
    "Gographviz.Props.C76_rune_char",
    "Gographviz.Props.C76_lenient",
    "Gographviz.Props.C76_rune_round_trip_partial",
    "Gographviz.Props.C76_backslash",
    "Gographviz.Props.C76_int",
    "Gographviz.Props.C76_uint",
    "Gographviz.Props.C76_int32_partial",
    "Gographviz.Props.C76_int32_wraps",
    "Gographviz.Props.C76_inner",
    "Gographviz.Props.C76_utf8_partial",
    "Gographviz.Props.C76_utf8_replacement",
    "Gographviz.Props.C76_names",
    "Gographviz.Props.C76_equals",
    "Gographviz.Props.C76_position",
    "Gographviz.Props.C76_token_string",
    "Gographviz.Props.C76_lexer_file",
    "Gographviz.Props.example_literals"
   ],
   "note": "False of the code in four places, each with a witness: RuneToString writes the backslash unescaped and characters outside ASCII without quotes (C76_backslash; C76_rune_round_trip_partial says exactly which characters survive), RuneValue accepts incomplete escapes and text behind an escape (C76_lenient), Int32Value cuts numbers to 32 bits without an error (C76_int32_wraps), UTF8Rune reports a valid U+FFFD as an error (C76_utf8_replacement). Float values are not modelled."
  },
  {
   "property": "C77",
   "status": "partial",
   "theorems": [
    "Gographviz.Props.C77_count",
    "Gographviz.Props.C77_node_count",
    "Gographviz.Props.C77_once_partial",
    "Gographviz.Props.C77_linear_partial",
    "Gographviz.Props.C77_exponential",
    "Gographviz.Props.C77_alphabet",
    "Gographviz.Props.example_size",
    "Gographviz.Props.example_aDoc"
   ],
   "note": "False of the code: a subgraph contained in several subgraphs is written once for every way in which it is nested, so documents of O(n^3) bytes are written with 2^n subgraphs (C77_exponential); and a subgraph that is in the graph and in another subgraph is written once or twice, depending on the alphabetic order of the names (C77_alphabet). C77_count and C77_node_count say exactly how often each is written; once and linear hold if the subgraphs form a tree (C77_once_partial, C77_linear_partial)."
  },
  {
   "property": "C78",
   "status": "partial",
   "theorems": [
    "Gographviz.Props.C78_reset_partial",
    "Gographviz.Props.C78_positions_kept",
    "Gographviz.Props.example_reset"
   ],
   "note": "Proved: types, texts and offsets are those of a new scanner, and lines are those of a new scanner plus the lines before. False of the code for lines and columns: Reset does not start them again (C78_positions_kept)."
  },
  {
   "property": "C79",
   "status": "partial",
   "theorems": [
    "Gographviz.Props.C79_quoted",
    "Gographviz.Props.C79_shown_partial",
    "Gographviz.Props.C79_exactly",
    "Gographviz.Props.C79_angle",
    "Gographviz.Props.C79_decoded",
    "Gographviz.Props.C79_quotes_lost",
    "Gographviz.Props.C79_references",
    "Gographviz.Props.C79_lines_joined",
    "Gographviz.Props.example_shown",
    "Gographviz.Props.example_entities"
   ],
   "note": "Proved: what is shown, exactly, for every text whose escaped form is an identifier and that neither is in quotes nor starts with <. False of the code for texts in quotes (shown without them), texts that start with < (character references are replaced, C79_references) and texts with lines that end in a backslash (joined)."
  },
  {
   "property": "C80",
   "status": "partial",
   "theorems": [
    "Gographviz.Props.C80_one_node_partial",
    "Gographviz.Props.C80_api_partial",
    "Gographviz.Props.C80_escape_partial",
    "Gographviz.Props.C80_two_nodes",
    "Gographviz.Props.C80_escape",
    "Gographviz.Props.C80_attribute_rejected",
    "Gographviz.Props.example_spelling"
   ],
   "note": "Proved for documents and histories that spell every identifier in one way, and for Escape on texts that are not in quotes. False of the code otherwise: names are compared as bytes."
  },
  {
   "property": "C81",
   "status": "partial",
   "theorems": [
    "Gographviz.Props.C81_read",
    "Gographviz.Props.C81_read_fit",
    "Gographviz.Props.C81_write",
    "Gographviz.Props.C81_write_fit_partial",
    "Gographviz.Props.C81_wrong_operator",
    "Gographviz.Props.example_operators"
   ],
   "note": "Proved: operators are kept by reading and writing, so a written document fits exactly if the calls or the document did. False of the code: a wrong operator is accepted and written (C81_wrong_operator)."
  },
  {
   "property": "C82",
   "status": "proved",
   "theorems": [
    "Gographviz.Props.C82_same_content",
    "Gographviz.Props.C82_same_text",
    "Gographviz.Props.C82_order_matters",
    "Gographviz.Props.Order.one_two"
   ],
   "note": "Which calls are independent is said in Spec/Independence.lean; RemoveSubGraph is independent of nothing there. C82_order_matters: some pairs that are not independent do give different graphs. The text is the same unless an edge stores an empty value (C15_empty_value_order_visible)."
  },
  {
   "property": "C83",
   "status": "proved",
   "theorems": [
    "Gographviz.Props.C83_adds",
    "Gographviz.Props.C83_accepted",
    "Gographviz.Props.C83_again",
    "Gographviz.Props.C83_renamed_not_written",
    "Gographviz.Props.example_merge_two"
   ],
   "note": "The graph is renamed to the name of the document, so that subgraphs it had under another name are kept but no longer written (C83_renamed_not_written)."
  },
  {
   "property": "C84",
   "status": "proved",
   "theorems": [
    "Gographviz.Props.C84_same_content",
    "Gographviz.Props.C84_same_text",
    "Gographviz.Props.C84_order_matters",
    "Gographviz.Props.example_stmt_order"
   ],
   "note": "Which statements are independent is said in Spec/StmtOrder.lean in terms of the entries of C66. The text is the same unless an edge has an empty value (C15_empty_value_order_visible)."
  },
  {
   "property": "C85",
   "status": "partial",
   "theorems": [
    "Gographviz.Props.C85_calls",
    "Gographviz.Props.C85_same_partial",
    "Gographviz.Props.C85_source_partial",
    "Gographviz.Props.C85_ascii_partial",
    "Gographviz.Props.C85_source_names",
    "Gographviz.Props.C85_ascii_names",
    "Gographviz.Props.C85_ident",
    "Gographviz.Props.C85_reformat_partial",
    "Gographviz.Props.C85_port_renamed",
    "Gographviz.Props.C85_space_panics",
    "Gographviz.Props.C85_epsilon_renamed",
    "Gographviz.Props.example_escape_analyse",
    "Gographviz.Props.example_escape_kinds"
   ],
   "note": "C85_calls holds for every document. The rest of the claim is false for node statements with a port after a name that is not a word (C85_port_renamed), for identifiers that are white space to strings.TrimSpace (C85_space_panics) and for identifiers that do not start with what isLetter accepts (C85_epsilon_renamed); proved for all other documents. C85_reformat_partial also has the conditions of C60_format_idempotent_partial."
  },
  {
   "property": "C86",
   "status": "proved",
   "theorems": [
    "Gographviz.Props.C86_renaming",
    "Gographviz.Props.C86_empty_special",
    "Gographviz.Props.example_renaming"
   ],
   "note": "The renaming and what it does to calls, errors and graphs is in Spec/Renaming.lean. Writing does look at names (their order, the prefix cluster) and is not part of the claim."
  },
  {
   "property": "C87",
   "status": "proved",
   "theorems": [
    "Gographviz.Props.C87_undo",
    "Gographviz.Props.C87_text",
    "Gographviz.Props.C87_undo_subgraph",
    "Gographviz.Props.C87_two_parents",
    "Gographviz.Props.C87_port_like_subgraph",
    "Gographviz.Props.example_undo",
    "Gographviz.Props.example_undo_subgraph"
   ],
   "note": "One parent for each node is needed (C87_two_parents). For subgraphs the graph must also have no edge with a port of that name (C87_port_like_subgraph), and the name must not be that of the graph."
  },
  {
   "property": "C88",
   "status": "proved",
   "theorems": [
    "Gographviz.Props.C88_shape",
    "Gographviz.Props.C88_truncated",
    "Gographviz.Props.C88_two_documents",
    "Gographviz.Props.C88_printed",
    "Gographviz.Props.C88_written",
    "Gographviz.Props.C88_read",
    "Gographviz.Props.C88_open_comment",
    "Gographviz.Props.example_truncated"
   ],
   "note": "A line comment behind the final brace needs its line break (C88_open_comment)."
  },
  {
   "property": "C89",
   "status": "proved",
   "theorems": [
    "Gographviz.Props.C89_pieces",
    "Gographviz.Props.C89_accepted",
    "Gographviz.Props.C89_many",
    "Gographviz.Props.C89_conditions",
    "Gographviz.Props.example_pieces"
   ],
   "note": "The two conditions on default statements are needed (C89_conditions)."
  },
  {
   "property": "C90",
   "status": "proved",
   "theorems": [
    "Gographviz.Props.C90_prefix",
    "Gographviz.Props.C90_error_text",
    "Gographviz.Props.C90_parse",
    "Gographviz.Props.C90_read",
    "Gographviz.Props.example_string_err"
   ],
   "note": "The theorems about the prefix and about errors hold for every graph; that a document is returned otherwise is C36/C37."
  },
  {
   "property": "C91",
   "status": "proved",
   "theorems": [
    "Gographviz.Props.C91_calls",
    "Gographviz.Props.C91_histories",
    "Gographviz.Props.C91_written",
    "Gographviz.Props.C91_read",
    "Gographviz.Props.C91_strict_edge_twice",
    "Gographviz.Props.example_kind"
   ],
   "note": "In particular strict does not keep an edge from being there twice (C91_strict_edge_twice)."
  },
  {
   "property": "C92",
   "status": "proved",
   "theorems": [
    "Gographviz.Props.C92_history",
    "Gographviz.Props.C92_calls",
    "Gographviz.Props.C92_analyse",
    "Gographviz.Props.C92_read",
    "Gographviz.Props.example_space"
   ],
   "note": "Counts elements, containments, attributes, calls and tokens; the lengths of names and values are not counted."
  },
  {
   "property": "C93",
   "status": "proved",
   "theorems": [
    "Gographviz.Props.C93_node",
    "Gographviz.Props.C93_node_attrs",
    "Gographviz.Props.C93_sub_attr",
    "Gographviz.Props.C93_root_attr",
    "Gographviz.Props.C93_edge",
    "Gographviz.Props.C93_subgraph",
    "Gographviz.Props.C93_text",
    "Gographviz.Props.C93_edge_text",
    "Gographviz.Props.C93_node_text",
    "Gographviz.Props.example_small"
   ],
   "note": "A new subgraph without recorded parents or children; the text of an end of an edge that is a subgraph is one statement."
  },
  {
   "property": "C94",
   "status": "proved",
   "theorems": [
    "Gographviz.Props.C94_text_tells",
    "Gographviz.Props.C94_edges",
    "Gographviz.Props.C94_colon_invisible",
    "Gographviz.Props.example_telling"
   ],
   "note": "The hypotheses on names are those of C37; without them a node is lost (C17_name_clash_loses_node)."
  },
  {
   "property": "C95",
   "status": "partial",
   "theorems": [
    "Gographviz.Props.C95_published_partial",
    "Gographviz.Props.C95_read",
    "Gographviz.Props.C95_types",
    "Gographviz.Props.C95_violated",
    "Gographviz.Props.bare_published",
    "Gographviz.Props.comma_published",
    "Gographviz.Props.example_published",
    "Gographviz.Props.C95_mended",
    "Gographviz.Props.example_mended"
   ],
   "note": "The full claim is false of the code (C95_violated): digraph { a -> { } } and graph { a [b=c,] } are sentences of the grammar that dot.bnf quotes and are rejected. C95_published_partial is the exact characterisation: these are the only two forms; C95_mended: every published text is accepted once they are mended."
  },
  {
   "property": "C96",
   "status": "proved",
   "theorems": [
    "Gographviz.Props.C96_printed",
    "Gographviz.Props.C96_parsed",
    "Gographviz.Props.C96_formatted",
    "Gographviz.Props.C96_written",
    "Gographviz.Props.C96_read",
    "Gographviz.Props.C96_escaped",
    "Gographviz.Props.C96_latin1",
    "Gographviz.Props.example_utf8"
   ],
   "note": "Names in Latin-1 and HTML strings with characters above U+00FF are rejected (C96_latin1); the assumption on the arguments is needed (example_utf8)."
  },
  {
   "property": "C97",
   "status": "proved",
   "theorems": [
    "Gographviz.Props.C97_copy",
    "Gographviz.Props.C97_same_tree",
    "Gographviz.Props.C97_settles",
    "Gographviz.Props.C97_third_part",
    "Gographviz.Props.C97_name_clash",
    "Gographviz.Props.example_copy"
   ],
   "note": "Needs that no name is both a node and a subgraph (C97_name_clash) and ports of at most two parts (C97_third_part)."
  },
  {
   "property": "C98",
   "status": "proved",
   "theorems": [
    "Gographviz.Props.C98_stack",
    "Gographviz.Props.C98_flat",
    "Gographviz.Props.C98_tree",
    "Gographviz.Props.C98_needed",
    "Gographviz.Props.example_nesting"
   ],
   "note": "The bound 7 * nesting + 8 is reached (example_nesting)."
  },
  {
   "property": "C99",
   "status": "proved",
   "theorems": [
    "Gographviz.Props.C99_edited",
    "Gographviz.Props.C99_calls",
    "Gographviz.Props.C99_repaired",
    "Gographviz.Props.edited_of_reachable",
    "Gographviz.Props.example_edited"
   ],
   "note": "The maps SrcToDsts and DstToSrcs go stale by such an assignment (example_edited); no call and no writer reads them."
  },
  {
   "property": "C100",
   "status": "partial",
   "theorems": [
    "Gographviz.Props.C100_irrelevant_partial",
    "Gographviz.Props.C100_violated",
    "Gographviz.Props.example_anonymous"
   ],
   "note": "The generator starts with the constant seed 1234 in every process (ast.go:30), so generated names recur. A file that contains a generated name (String writes it as an ordinary subgraph name) and an anonymous subgraph is read so that the two subgraphs become one (C100_violated, for every generator). Proved in full for texts in which no identifier equals one of the names drawn, and the names drawn differ."
  },
  {
   "property": "C101",
   "status": "proved",
   "theorems": [
    "Gographviz.Props.C101_node",
    "Gographviz.Props.C101_subgraph",
    "Gographviz.Props.example_erase",
    "Gographviz.Props.example_erase_applies"
   ],
   "note": "An edge with a port that is called like the removed subgraph is removed too (example_erase), as C07 says. The second alternative is met (example_erase): RemoveNode leaves the relation to other subgraphs."
  },
  {
   "property": "C102",
   "status": "proved",
   "theorems": [
    "Gographviz.Props.C102_exact",
    "Gographviz.Props.C102_used_exact",
    "Gographviz.Props.C102_twin",
    "Gographviz.Props.C102_no_twin",
    "Gographviz.Props.example_makeable"
   ],
   "note": "Objects handed over to the exported containers are not used by the caller any more and their Attrs are not nil (C65 covers sharing and nil maps). The order of Nodes.Nodes is not part of the contents."
  },
  {
   "property": "C103",
   "status": "partial",
   "theorems": [
    "Gographviz.Props.C103_read_again",
    "Gographviz.Props.C103_again_partial",
    "Gographviz.Props.C103_violated",
    "Gographviz.Props.example_again"
   ],
   "note": "C103_read_again (what a graph writes is read) holds whatever names are used for. False of the code for repeated formatting when a subgraph is called like the graph (C103_violated: writing what was read back overflows the stack); proved for all other texts."
  },
  {
   "property": "C104",
   "status": "proved",
   "theorems": [
    "Gographviz.Props.C104_kept",
    "Gographviz.Props.C104_format",
    "Gographviz.Props.C17_name_clash_loses_node",
    "Gographviz.Props.C20_name_clash_loses_subgraph",
    "Gographviz.Props.example_kept"
   ],
   "note": "Kept (Spec/Kept.lean) lists what is kept. The two clash theorems show that the exception (names used for both a node and a subgraph) is needed; the example meets the hypotheses."
  }
 ]
}