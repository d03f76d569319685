{
 "claims": [
  {
   "property": "C01",
   "status": "proved",
   "theorems": [
    "TTGraph.C01_threads",
    "TTGraph.C01_counter",
    "TTGraph.C01_issued",
    "TTGraph.C01_fresh"
   ],
   "note": "Threads: all interleavings of fetch_add on the 64-bit counter with fewer than 2^64 calls. World: all programs."
  },
  {
   "property": "C02",
   "status": "proved",
   "theorems": [
    "TTGraph.C02_new_indices",
    "TTGraph.C02_kept",
    "TTGraph.C02_kept_apart"
   ],
   "note": "For every graph and transaction of one context that a program can have."
  },
  {
   "property": "C14",
   "status": "partial",
   "theorems": [
    "TTGraph.C14_fill_back_partial",
    "TTGraph.C14_unfilled",
    "TTGraph.C14_filled_partial",
    "TTGraph.Demo.C14_release_merge_fails"
   ],
   "note": "The state of an index is read off the trace of calls. fill_back is exact when graphs are merged with debug assertions on; C14_release_merge_fails shows the exception: in release builds a merged graph can carry a leftover allocated index."
  },
  {
   "property": "C15",
   "status": "partial",
   "theorems": [
    "TTGraph.C15_partial",
    "TTGraph.Demo.C15_fails",
    "TTGraph.Demo.C15_graph_fails"
   ],
   "note": "The property fails: fill_back_untyped accepts an index occupied by a node of another variant, or by a node of the graph (two counterexamples). Proved: it panics for the same variant, and stores the node at an index from alloc_untyped."
  },
  {
   "property": "C16",
   "status": "partial",
   "theorems": [
    "TTGraph.C16_withdraw",
    "TTGraph.C16_twice",
    "TTGraph.C16_commit_partial",
    "TTGraph.Demo.C16_commit_fails"
   ],
   "note": "The pending operations are the same for all declarations; the commits are shown to agree when a field has at most one opposite and no annotated Vec holds a node twice during the commit. C16_commit_fails: with several possible opposites the commit with the withdrawn node can panic where the one without it returns, because swap_remove reorders the pending nodes."
  },
  {
   "property": "C17",
   "status": "proved",
   "theorems": [
    "TTGraph.C17_insert_change"
   ],
   "note": "Pending operations are the same; the transaction is literally the same if the closure keeps the variant."
  },
  {
   "property": "C35",
   "status": "proved",
   "theorems": [
    "TTGraph.C35_is_empty",
    "TTGraph.C35_commit_empty"
   ],
   "note": ""
  },
  {
   "property": "C42",
   "status": "proved",
   "theorems": [
    "TTGraph.C42_commute"
   ],
   "note": "Also with calls that build new nodes interleaved; the transactions are literally equal."
  },
  {
   "property": "C45",
   "status": "proved",
   "theorems": [
    "TTGraph.C45_effect",
    "TTGraph.C45_panics"
   ],
   "note": ""
  },
  {
   "property": "C03",
   "status": "proved",
   "theorems": [
    "TTGraph.C03_operations",
    "TTGraph.C03_order",
    "TTGraph.C03_determined"
   ],
   "note": "C03_operations holds for all declarations. C03_order (which includes the completion of bidirectional links; no bidirectional Vec holds a node twice on the way, as in all theorems with SteadyBidir, see C73): the result is related to the graph by Committed, the documented order. C03_determined: Committed leaves only the iteration order of sets open (distinct redirect sources, closures that do not look at set order)."
  },
  {
   "property": "C06",
   "status": "proved",
   "theorems": [
    "TTGraph.C06_removed",
    "TTGraph.C06_rest"
   ],
   "note": "Fields mentioned in bidirectional! are subject to completion (C23)."
  },
  {
   "property": "C07",
   "status": "proved",
   "theorems": [
    "TTGraph.C07_redirects",
    "TTGraph.C07_none_left",
    "TTGraph.C07_order",
    "TTGraph.C07_order_ok"
   ],
   "note": "C07_order: results agree whenever both commits return, any declarations. C07_order_ok: also success does not depend on the order (DeclaredOnce, OneOpposite, no annotated Vec holds a node twice during the commit)."
  },
  {
   "property": "C08",
   "status": "proved",
   "theorems": [
    "TTGraph.C08_loop",
    "TTGraph.C08_loop_all",
    "TTGraph.C08_only",
    "TTGraph.C08_never",
    "TTGraph.C08_loop_last",
    "TTGraph.C08_terminates",
    "TTGraph.Demo.C08_duplicates"
   ],
   "note": "Demo.C08_duplicates shows that distinct sources are needed."
  },
  {
   "property": "C09",
   "status": "partial",
   "theorems": [
    "TTGraph.C09_first_partial",
    "TTGraph.Demo.C09_chain_fails"
   ],
   "note": "The links of a node follow its first request. Missing, because false: a later request for a node does move links that reach the node along a chain (Demo.C09_chain_fails)."
  },
  {
   "property": "C10",
   "status": "proved",
   "theorems": [
    "TTGraph.C10_new_nodes",
    "TTGraph.C10_spared"
   ],
   "note": ""
  },
  {
   "property": "C11",
   "status": "proved",
   "theorems": [
    "TTGraph.C11_values",
    "TTGraph.C11_others"
   ],
   "note": "Commits in which a bidirectional Vec holds a node twice on the way are outside (SteadyBidir; see C73)."
  },
  {
   "property": "C13",
   "status": "proved",
   "theorems": [
    "TTGraph.C13_commit_succeeds",
    "TTGraph.C13_needed"
   ],
   "note": "A transaction meeting the listed conditions commits; each condition is needed. Commits in which a bidirectional Vec holds a node twice on the way are outside (SteadyBidir; see C73)."
  },
  {
   "property": "C34",
   "status": "proved",
   "theorems": [
    "TTGraph.C34_pending",
    "TTGraph.C34_meets",
    "TTGraph.C34_commit",
    "TTGraph.C34_intact",
    "TTGraph.C34_returns",
    "TTGraph.C34_refused"
   ],
   "note": "For graphs that are complete in themselves, merge and commit return (C34_returns). Merging graphs of different contexts is refused in both build modes, for contexts made by Context::new."
  },
  {
   "property": "C36",
   "status": "partial",
   "theorems": [
    "TTGraph.C36_partial",
    "TTGraph.Demo.C36_release_fails",
    "TTGraph.Demo.C36_default_fails",
    "TTGraph.Demo.C36_reread_fails"
   ],
   "note": "Proved with debug assertions for contexts made by Context::new. Missing, because false: release builds, default contexts, deserialized contexts."
  },
  {
   "property": "C37",
   "status": "proved",
   "theorems": [
    "TTGraph.C37_frame",
    "TTGraph.C37_building",
    "TTGraph.C37_commit"
   ],
   "note": ""
  },
  {
   "property": "C38",
   "status": "partial",
   "theorems": [
    "TTGraph.C38_partial",
    "TTGraph.C38_returns",
    "TTGraph.Demo.C38_linkType_fails",
    "TTGraph.Demo.C38_symmetry_fails"
   ],
   "note": "Proved for the panics that precede all changes. Missing, because false: later panics leave a changed graph."
  },
  {
   "property": "C05",
   "status": "partial",
   "theorems": [
    "TTGraph.C05_clears_partial",
    "TTGraph.Demo.C05_trace_fails",
    "TTGraph.Demo.C05_panic_fails"
   ],
   "note": "Proved: redirecting to the empty index clears exactly the links concerned. Missing, because false: it leaves traces, through which a later redirect from the empty index changes other links or panics."
  },
  {
   "property": "C12",
   "status": "partial",
   "theorems": [
    "TTGraph.C12_internal_partial",
    "TTGraph.C12_commit_partial",
    "TTGraph.C12_closures_partial",
    "TTGraph.C12_panics_partial",
    "TTGraph.C12_integrity_partial",
    "TTGraph.C12_check",
    "TTGraph.Demo.C12_leftover_fails"
   ],
   "note": "Proved for programs all of whose transactions are sound. Missing, because false: the statement for a graph whose past held dangling links (Demo.C12_leftover_fails)."
  },
  {
   "property": "C04",
   "status": "partial",
   "theorems": [
    "TTGraph.C04_exact",
    "TTGraph.C04_recorded",
    "TTGraph.C04_check_iff",
    "TTGraph.C04_check_partial",
    "TTGraph.C04_all_partial",
    "TTGraph.Demo.C04_check_fails"
   ],
   "note": "Proved: the record of every index but the empty one is exact, and check_backlinks does not panic if no set holds the empty index, or if nothing is ever redirected to it. Missing, because false: check_backlinks panics if a set holds the empty index and something was redirected to it."
  },
  {
   "property": "C18",
   "status": "proved",
   "theorems": [
    "TTGraph.C18_iter",
    "TTGraph.C18_size",
    "TTGraph.C18_ends"
   ],
   "note": ""
  },
  {
   "property": "C19",
   "status": "partial",
   "theorems": [
    "TTGraph.C19_partial",
    "TTGraph.C19_ascending_partial",
    "TTGraph.Demo.C19_fails"
   ],
   "note": "Proved: nodes come grouped by variant, in the order in which the variants are declared, and within a variant in increasing order as long as nothing is removed or updated and indices are filled in order; after switch_context iter follows the order of NodeIndex (C52_switch). Missing, because false: the order of NodeIndex in general."
  },
  {
   "property": "C20",
   "status": "partial",
   "theorems": [
    "TTGraph.C20_partial",
    "TTGraph.C20_once",
    "TTGraph.Demo.C20_fails"
   ],
   "note": "Proved if closures keep the variants of nodes. Missing, because false: the statement for closures that change the variant."
  },
  {
   "property": "C21",
   "status": "proved",
   "theorems": [
    "TTGraph.C21_group",
    "TTGraph.C21_unknown"
   ],
   "note": ""
  },
  {
   "property": "C22",
   "status": "proved",
   "theorems": [
    "TTGraph.C22_symmetric",
    "TTGraph.C22_sound",
    "TTGraph.Demo.C22_dangling_fails",
    "TTGraph.Demo.C22_variant_fails"
   ],
   "note": "Proved for the stated histories (closures keep variants, no dangling links). The two Demo theorems show that both conditions are needed. Commits in which a bidirectional Vec holds a node twice on the way are outside (SteadyBidir; see C73)."
  },
  {
   "property": "C23",
   "status": "proved",
   "theorems": [
    "TTGraph.C23_exact",
    "TTGraph.C23_opposites"
   ],
   "note": "Commits in which a bidirectional Vec holds a node twice on the way are outside (SteadyBidir; see C73)."
  },
  {
   "property": "C24",
   "status": "partial",
   "theorems": [
    "TTGraph.C24_iff_partial",
    "TTGraph.C24_returns_partial",
    "TTGraph.C24_reasons",
    "TTGraph.C24_panics_partial",
    "TTGraph.Demo.C24_fails"
   ],
   "note": "Proved if no pair of opposite fields is declared twice. Missing, because false: the statement with a pair declared twice (directly and through a link group), where every commit that adds such a link without its opposite panics. C24_returns_partial and C24_reasons (why completion panics) hold for every declaration."
  },
  {
   "property": "C25",
   "status": "partial",
   "theorems": [
    "TTGraph.C25_added_partial",
    "TTGraph.C25_kept_partial",
    "TTGraph.C25_loaded",
    "TTGraph.Demo.C25_fails"
   ],
   "note": "Proved: added links find or get an opposite; commits that remove no links, and loaded graphs, leave every link with an opposite. Missing, because false: the same for commits that remove links. Commits in which a bidirectional Vec holds a node twice on the way are outside (SteadyBidir; see C73)."
  },
  {
   "property": "C26",
   "status": "partial",
   "theorems": [
    "TTGraph.C26_table",
    "TTGraph.C26_symm",
    "TTGraph.C26_opposites",
    "TTGraph.C26_types_partial",
    "TTGraph.C26_commit_partial",
    "TTGraph.Demo.C26_fails",
    "TTGraph.Demo.C26_types_fails"
   ],
   "note": "The expansion of group declarations is proved, and a commit under a grouped declaration equals a commit under its expansion if no pair of fields is connected twice and no field is annotated twice. Without these conditions the property is false of the code: witnesses C26_fails and C26_types_fails."
  },
  {
   "property": "C27",
   "status": "partial",
   "theorems": [
    "TTGraph.C27_added_partial",
    "TTGraph.C27_reachable_partial",
    "TTGraph.Demo.C27_completed_fails",
    "TTGraph.Demo.C27_vec_fails"
   ],
   "note": "Proved for links added by operations, except those of Vec fields that hold their target twice at some stage of the commit, and for all reachable graphs when the annotations fit the opposite fields and annotated Vec fields never hold a node twice. In general it is false: links made by bidirectional completion are not checked (C27_completed_fails), nor are some links of Vec fields that hold a node twice (C27_vec_fails)."
  },
  {
   "property": "C28",
   "status": "partial",
   "theorems": [
    "TTGraph.C28_accepted",
    "TTGraph.C28_iff_partial",
    "TTGraph.C28_decided",
    "TTGraph.C28_permitted",
    "TTGraph.C28_enforced",
    "TTGraph.C28_rejected_partial",
    "TTGraph.Demo.C28_fails"
   ],
   "note": "For all declarations C28_decided says exactly which annotations count. Proved: commits that violate no annotation are accepted; violating ones panic, for fields that are not annotated twice under one name and are not Vecs that hold a node twice at some stage. False otherwise: C28_fails (twice under one name), C27_vec_fails (Vec fields)."
  },
  {
   "property": "C29",
   "status": "partial",
   "theorems": [
    "TTGraph.C29_registered",
    "TTGraph.C29_commit",
    "TTGraph.C29_added_partial",
    "TTGraph.C29_rejected_partial",
    "TTGraph.Demo.C29_completed_fails",
    "TTGraph.Demo.C29_vec_fails"
   ],
   "note": "Proved for links that the operations of the transaction add, except in Vec fields that hold their target twice at some stage of the commit. False for links that bidirectional completion adds (C29_completed_fails) and for some links of Vec fields (C29_vec_fails)."
  },
  {
   "property": "C30",
   "status": "partial",
   "theorems": [
    "TTGraph.C30_moved_partial",
    "TTGraph.C30_ignored_fails",
    "TTGraph.Demo.C30_removed_fails",
    "TTGraph.Demo.C30_added_fails"
   ],
   "note": "The code runs link-remove checks on the added links, so both halves of the property are false: C30_removed_fails, C30_added_fails, and for all transactions that only remove links C30_ignored_fails. What remains true is proved as C30_moved_partial."
  },
  {
   "property": "C31",
   "status": "partial",
   "theorems": [
    "TTGraph.C31_changed_partial",
    "TTGraph.C31_returns_partial",
    "TTGraph.C31_removal_fails",
    "TTGraph.Demo.C31_data_fails",
    "TTGraph.Demo.C31_new_fails",
    "TTGraph.Demo.C31_removed_fails"
   ],
   "note": "Proved for nodes that have lost or gained links. False for changes of data only, for new nodes without links, and commit_checked panics whenever a node with links is removed and a node check is registered."
  },
  {
   "property": "C32",
   "status": "partial",
   "theorems": [
    "TTGraph.C32_nodes",
    "TTGraph.C32_disjoint",
    "TTGraph.C32_iso_partial",
    "TTGraph.C32_returns_partial",
    "TTGraph.C32_same_context_partial",
    "TTGraph.C32_detour",
    "TTGraph.C32_collision_fails",
    "TTGraph.Demo.C32_fails"
   ],
   "note": "switch_context always maps the nodes one to one to fresh indices and keeps variants, data and lengths (C32_nodes). It is an isomorphism when no old index equals a new index given out earlier inside one set of links (C32_iso_partial), in particular when the target context has issued all indices of the graph (C32_same_context_partial); without such collisions it also returns. The property is false without that condition: Demo.C32_fails moves a graph of two nodes to a new context and loses a link; C32_collision_fails shows that every collision breaks it. C32_detour: a program can avoid it, by switching a graph to its own context twice first if that context has issued more indices than the new one."
  },
  {
   "property": "C33",
   "status": "partial",
   "theorems": [
    "TTGraph.C33_nodes",
    "TTGraph.C33_roundtrip_partial",
    "TTGraph.C33_programs_partial",
    "TTGraph.Demo.C33_fails",
    "TTGraph.Demo.C33_external_fails"
   ],
   "note": "For every reachable graph a successful round trip keeps context id, indices, variants and data, has consistent back-links and a counter above all nodes. It returns and keeps all links for graphs with internal links in which every link has its opposite, in particular for programs with sound transactions and closures that keep variants. The round trip is proved for all declarations; the statement about programs assumes that no bidirectional Vec holds a node twice on the way (SteadyBidirCalls). False in general: reading back adds opposites that a dangling link missed (C33_fails), and the new counter ignores external links (C33_external_fails)."
  },
  {
   "property": "C39",
   "status": "partial",
   "theorems": [
    "TTGraph.C39_name_partial",
    "TTGraph.C39_name_nonempty",
    "TTGraph.C39_name_unknown",
    "TTGraph.C39_group_partial",
    "TTGraph.C39_group_nonempty",
    "TTGraph.C39_group_unknown",
    "TTGraph.Demo.C39_name_fails",
    "TTGraph.Demo.C39_group_fails"
   ],
   "note": "Exact up to the empty index: a query by name or group can yield the empty index from a set or vector slot (shown by Demo.C39_*_fails); the theorems state exactly what is returned, and the _nonempty ones that nothing but non-empty links is missing."
  },
  {
   "property": "C40",
   "status": "partial",
   "theorems": [
    "TTGraph.C40_query_partial",
    "TTGraph.C40_bidirectional_partial",
    "TTGraph.C40_link_type_partial",
    "TTGraph.Demo.C40_query_fails",
    "TTGraph.Demo.C40_bidirectional_fails",
    "TTGraph.Demo.C40_link_type_fails"
   ],
   "note": "Proved for node types in which no field carries two group attributes; with two, the zip of links and groups is misaligned and the claim fails (Demo.C40_*_fails)."
  },
  {
   "property": "C41",
   "status": "partial",
   "theorems": [
    "TTGraph.C41_sound",
    "TTGraph.C41_complete_partial",
    "TTGraph.C41_none",
    "TTGraph.C41_no_path_fails",
    "TTGraph.Demo.C41_fails"
   ],
   "note": "Sound for every node; complete only for data fields whose type is written as a path, since the macro generates no arm for the others (C41_no_path_fails)."
  },
  {
   "property": "C43",
   "status": "proved",
   "theorems": [
    "TTGraph.C43_get",
    "TTGraph.C43_own",
    "TTGraph.C43_recorded",
    "TTGraph.C43_commit",
    "TTGraph.C43_panics",
    "TTGraph.C43_message",
    "TTGraph.C43_alloc"
   ],
   "note": "The node macros read and write only the chosen variant; on another variant the commit panics with the macro's message."
  },
  {
   "property": "C44",
   "status": "partial",
   "theorems": [
    "TTGraph.C44_modify",
    "TTGraph.C44_modify_reports_partial",
    "TTGraph.C44_add",
    "TTGraph.C44_remove",
    "TTGraph.C44_vec",
    "TTGraph.C44_contains",
    "TTGraph.Demo.C44_modify_fails"
   ],
   "note": "The stored links are exact; the reported booleans are exact except for replacing an element of a set by itself (Demo.C44_modify_fails)."
  },
  {
   "property": "C46",
   "status": "proved",
   "theorems": [
    "TTGraph.C46_removed",
    "TTGraph.C46_gone",
    "TTGraph.Demo.C46_release_fails"
   ],
   "note": "Removed nodes in either build profile; every vanished index in debug builds. In a release build an index that was allocated, never filled and committed can be filled again later, which C46_release_fails exhibits; the property does not claim otherwise."
  },
  {
   "property": "C47",
   "status": "proved",
   "theorems": [
    "TTGraph.C47_len"
   ],
   "note": "Exact count for every successful commit."
  },
  {
   "property": "C48",
   "status": "proved",
   "theorems": [
    "TTGraph.C48_commit",
    "TTGraph.C48_call",
    "TTGraph.C48_program"
   ],
   "note": "Commit by commit, call by call and for whole programs."
  },
  {
   "property": "C49",
   "status": "partial",
   "theorems": [
    "TTGraph.C49_consistent_partial",
    "TTGraph.C49_goes_on",
    "TTGraph.C49_covers",
    "TTGraph.C49_wreck",
    "TTGraph.Demo.C49_closure_fails",
    "TTGraph.Demo.C49_update_fails",
    "TTGraph.Demo.C49_dangling_fails"
   ],
   "note": "Holds for every panic except those inside a mutate or update closure and those on a closure that leaves a link to an unknown index (C49_covers: no others are left out); what those two leave behind is stated exactly by C49_wreck. For panicking closures the property is false of the code, with witnesses. C49_dangling_fails shows that the absence of dangling links (C12) is not kept by a caught panic."
  },
  {
   "property": "C50",
   "status": "proved",
   "theorems": [
    "TTGraph.C50_op",
    "TTGraph.C50_commit",
    "TTGraph.C50_returns",
    "TTGraph.C50_program"
   ],
   "note": "C50_returns asks that the transaction makes sense for its graph, each field has one opposite and no annotated Vec holds a node twice during the commits. C50_program asks that no Vec field of a bidirectional! line holds a node twice during a commit. Compared graphs may move to other contexts without collisions (`MovesWell`) and may be read from corresponding files; panics are caught on other objects, not on the compared ones."
  },
  {
   "property": "C51",
   "status": "partial",
   "theorems": [
    "TTGraph.C51_unchanged_partial",
    "TTGraph.C51_extent",
    "TTGraph.C51_goes_on",
    "TTGraph.C51_update_removes",
    "TTGraph.Demo.C51_fill_fails",
    "TTGraph.Demo.C51_mutate_fails",
    "TTGraph.Demo.C51_update_fails"
   ],
   "note": "Holds when the index named in the call has no pending node. Otherwise false of the code, with witnesses; C51_extent says exactly what changes, C51_goes_on that the transaction is one a program could have built without the panic unless an update closure panicked, C51_update_removes that then the node is withdrawn."
  },
  {
   "property": "C52",
   "status": "proved",
   "theorems": [
    "TTGraph.C52_commit",
    "TTGraph.C52_start",
    "TTGraph.C52_call",
    "TTGraph.C52_merge",
    "TTGraph.C52_stable",
    "TTGraph.C52_switch",
    "TTGraph.C52_reload"
   ],
   "note": "The exact order after every call that returns. C52_switch and C52_reload ask that closures keep the variants of nodes."
  },
  {
   "property": "C53",
   "status": "proved",
   "theorems": [
    "TTGraph.C53_registered",
    "TTGraph.C53_order",
    "TTGraph.C53_fewer",
    "TTGraph.C53_none"
   ],
   "note": "Check functions may panic (C60 says when commit_checked then panics); those with side effects are C78."
  },
  {
   "property": "C54",
   "status": "proved",
   "theorems": [
    "TTGraph.C54_entries",
    "TTGraph.C54_symmetric",
    "TTGraph.C54_reachable"
   ],
   "note": ""
  },
  {
   "property": "C55",
   "status": "proved",
   "theorems": [
    "TTGraph.C55_schedule",
    "TTGraph.C55_commit",
    "TTGraph.C55_determined"
   ],
   "note": "A method call is one step of the schedule (extend included). C55_commit asks that the graph holds no index that had not been given out when the threads start, that the commits return with both schedules, and that no Vec field of a bidirectional! line holds a node twice during them."
  },
  {
   "property": "C56",
   "status": "proved",
   "theorems": [
    "TTGraph.C56_map",
    "TTGraph.C56_iter",
    "TTGraph.C56_new",
    "TTGraph.C56_fill",
    "TTGraph.C56_fillUntyped",
    "TTGraph.C56_change",
    "TTGraph.C56_fromIter"
   ],
   "note": "The conditions on the use (no fill_back_untyped on an occupied index, changes keep the variant, merged arenas share no index) are part of Built; Demo.C56_merge_overlap_fails and Demo.C56_fillUntyped_occupied_fails show what happens without them."
  },
  {
   "property": "C57",
   "status": "proved",
   "theorems": [
    "TTGraph.C57_tables",
    "TTGraph.C57_read",
    "TTGraph.C57_sources",
    "TTGraph.C57_source",
    "TTGraph.C57_convert",
    "TTGraph.C57_contains",
    "TTGraph.C57_groups",
    "TTGraph.C57_variants"
   ],
   "note": "C57_contains is for non-empty indices; Demo.C57_contains_empty_fails shows that contains_link and iter_links disagree on the empty index in a Vec field."
  },
  {
   "property": "C58",
   "status": "proved",
   "theorems": [
    "TTGraph.C58_commit_iff"
   ],
   "note": "For programs without dangling links (as C12), declarations with one opposite per field and variant (as C24), annotated Vec fields that hold no node twice, each node redirected at most once per kind, closures that do not look at the order of sets and leave no empty index in a set. Outside these conditions the exact condition is different: see C12, C24 and their counterexamples."
  },
  {
   "property": "C59",
   "status": "proved",
   "theorems": [
    "TTGraph.C59_commute",
    "TTGraph.C59_second_returns",
    "TTGraph.C59_any_order",
    "TTGraph.C59_parts",
    "TTGraph.C59_all_return",
    "TTGraph.C59_any_permutation",
    "TTGraph.Demo.C59_cross_differ"
   ],
   "note": "Regular transactions: each node is redirected at most once per kind, closures do not look at the order of sets, and no Vec with an annotation or an opposite holds a node twice during the commits. Two transactions, and any number of them. That all orders return is proved under the conditions of C58; that the results agree when both return holds for all declarations and programs."
  },
  {
   "property": "C60",
   "status": "proved",
   "theorems": [
    "TTGraph.C60_report",
    "TTGraph.C60_reasons"
   ],
   "note": "For transactions at no stage of which a Vec field holds a node twice; otherwise the recorded changes are not exact, see C29."
  },
  {
   "property": "C61",
   "status": "proved",
   "theorems": [
    "TTGraph.C61_simulates",
    "TTGraph.C61_refines",
    "TTGraph.C61_exclusive",
    "TTGraph.C61_observers"
   ],
   "note": "Programs do not go on with a graph whose commit panicked (NoCatch), and merge is used with debug assertions only. Which commits panic is not determined completely by the machine: it says which must return and what those that return do. Commits during which a bidirectional Vec holds a node twice are described less precisely."
  },
  {
   "property": "C62",
   "status": "partial",
   "theorems": [
    "TTGraph.C62_alone",
    "TTGraph.C62_nodes",
    "TTGraph.C62_iso_partial",
    "TTGraph.C62_threads_partial",
    "TTGraph.Demo.C62_schedule_fails"
   ],
   "note": "False in general: links are lost if a new index equals an old one that is processed later, and whether this happens depends on the schedule (C62_schedule_fails). Proved if the indices do not collide, in particular for moves into a context that has issued all indices of the graph."
  },
  {
   "property": "C63",
   "status": "proved",
   "theorems": [
    "TTGraph.C63_display",
    "TTGraph.C63_display_determines",
    "TTGraph.C63_debug",
    "TTGraph.C63_debug_determines"
   ],
   "note": "Writers do not fail; the texts of nodes and sources are arbitrary parameters."
  },
  {
   "property": "C64",
   "status": "proved",
   "theorems": [
    "TTGraph.C64_calls",
    "TTGraph.C64_calls_checked",
    "TTGraph.C64_waits",
    "TTGraph.C64_now",
    "TTGraph.C64_programs",
    "TTGraph.C64_graphs",
    "TTGraph.C64_commits",
    "TTGraph.C64_commits_checked",
    "TTGraph.C64_restrictions"
   ],
   "note": "Closures that call this crate's API on other objects are covered by C77; caught panics are not covered."
  },
  {
   "property": "C65",
   "status": "partial",
   "theorems": [
    "TTGraph.C65_compiles_partial",
    "TTGraph.C65_wellNamed",
    "TTGraph.Demo.C65_typo_fails",
    "TTGraph.Demo.C65_case_fails",
    "TTGraph.Demo.C65_reserved_fails",
    "TTGraph.Demo.C65_twice_fails",
    "TTGraph.Demo.C65_shadow_fails",
    "TTGraph.Demo.C65_attributes_fails",
    "TTGraph.Demo.C65_list_fails"
   ],
   "note": "False as stated: an annotation about an unknown variant compiles and is ignored (C65_typo_fails); a link may be misspelt in its case (C65_case_fails); a variant such as If does not compile because its snake case is reserved (C65_reserved_fails); group! may declare a name twice or use the name of a variant, and a field may have two #[group] attributes or list a group twice, with surprising meanings (the other _fails). Proved: for names used once whose change of case does no harm, compiling is equivalent to all other names being declared, and C65_wellNamed lists what has to be added to compiling to get the hypothesis WellNamed of the other theorems."
  },
  {
   "property": "C66",
   "status": "proved",
   "theorems": [
    "TTGraph.C66_reads",
    "TTGraph.C66_writable",
    "TTGraph.C66_struct"
   ],
   "note": "The items of a block, the fields of a struct and its attributes are taken as syn presents them."
  },
  {
   "property": "C67",
   "status": "partial",
   "theorems": [
    "TTGraph.C67_links_partial",
    "TTGraph.C67_kind",
    "TTGraph.Demo.C67_spelling_fails"
   ],
   "note": "False as stated: Vec::<ttgraph::NodeIndex> (an example of the documentation), ::ttgraph::NodeIndex, ::std::vec::Vec<NodeIndex> and set::OrderSet<NodeIndex> are data fields (C67_spelling_fails). Proved for types written without :: at the front or before <, not through a module `set`, if names are not renamed by use .. as .."
  },
  {
   "property": "C68",
   "status": "partial",
   "theorems": [
    "TTGraph.C68_panics",
    "TTGraph.C68_off",
    "TTGraph.C68_commit",
    "TTGraph.C68_commit_partial",
    "TTGraph.C68_types_partial",
    "TTGraph.C68_switch_partial",
    "TTGraph.C68_load_partial",
    "TTGraph.Demo.C68_bidirectional_fails",
    "TTGraph.Demo.C68_types_fails"
   ],
   "note": "False as stated: what add_link and remove_link record is also what bidirectional completion and the link type check work on, so without the feature opposite links are not maintained (C68_bidirectional_fails) and link types not enforced (C68_types_fails). Proved: commits without the feature perform exactly the operations (C68_off), panics carry over (C68_panics), results agree up to bidirectional links (C68_commit), and are equal for declarations without bidirectional! unless the commit panics because of an annotation (C68_types_partial), always for those without bidirectional! and link_type! (C68_*_partial). At this commit the crate does not build without the feature; the model takes the cfg(not(feature)) branches as written"
  },
  {
   "property": "C69",
   "status": "partial",
   "theorems": [
    "TTGraph.C69_duplicates",
    "TTGraph.C69_graph_partial",
    "TTGraph.C69_iff_partial",
    "TTGraph.Demo.C69_empty_fails",
    "TTGraph.Demo.C69_types_fails",
    "TTGraph.Demo.C69_external_fails"
   ],
   "note": "False as stated: a node under the empty index is accepted (C69_empty_fails), link types are not checked (C69_types_fails), and a link to an index that is not in the file is accepted, whose index is then given to the next node (C69_external_fails). Proved: files that use an index twice are refused (C69_duplicates); contents, order, counter and back-links of what is read from files with well-typed nodes, none under the empty index (C69_graph_partial); when such a file is read and which links are added (C69_iff_partial)"
  },
  {
   "property": "C70",
   "status": "proved",
   "theorems": [
    "TTGraph.C70_stable",
    "TTGraph.C70_once"
   ],
   "note": "For all declarations, also with bidirectional Vec fields."
  },
  {
   "property": "C71",
   "status": "partial",
   "theorems": [
    "TTGraph.C71_off",
    "TTGraph.C71_cut_partial",
    "TTGraph.C71_types_partial",
    "TTGraph.C71_whole_partial",
    "TTGraph.Demo.C71_bidirectional_fails",
    "TTGraph.Demo.C71_types_fails"
   ],
   "note": "False as stated: opposite links are completed and link types checked at the end of each commit, so a piece can panic although the whole transaction does not (C71_bidirectional_fails, C71_types_fails). Proved for declarations without bidirectional! in which no link_type! refuses anything, for all graphs and transactions, as an equation including the panics (C71_cut_partial); for all declarations without the feature debug (C71_off); for all declarations without bidirectional! if no commit panics because of a link type (C71_types_partial), and there, pieces that can be committed with a well typed result can be committed at once (C71_whole_partial)"
  },
  {
   "property": "C72",
   "status": "proved",
   "theorems": [
    "TTGraph.C72_replace",
    "TTGraph.C72_opposites",
    "TTGraph.C72_returns"
   ],
   "note": "C72_replace: with insertions, up to fields of bidirectional! lines. C72_opposites: without insertions, every field exactly. C72_returns: sufficient conditions for the commit to return (OneOpposite, DeclaredOnce, room in the direct fields of the new node, and its bidirectional Vecs already hold what they have to)."
  },
  {
   "property": "C73",
   "status": "partial",
   "theorems": [
    "TTGraph.C73_untouched",
    "TTGraph.C73_commit_partial",
    "TTGraph.C73_refused_partial",
    "TTGraph.C73_returns_partial",
    "TTGraph.C73_needed_partial",
    "TTGraph.C73_panics_partial",
    "TTGraph.C73_symmetric_partial",
    "TTGraph.Demo.C73_twice_fails"
   ],
   "note": "Proved if no such Vec holds a node twice on the way (SteadyBidir); that completion changes no Vec is proved without it. False otherwise: a Vec that holds a node twice and then once loses the opposite (C73_twice_fails)."
  },
  {
   "property": "C74",
   "status": "proved",
   "theorems": [
    "TTGraph.C74_untouched",
    "TTGraph.C74_local"
   ],
   "note": "C74_untouched: one node, any transaction. C74_local: two graphs that agree on the part that a transaction concerns (Footprint); Regular transactions."
  },
  {
   "property": "C75",
   "status": "proved",
   "theorems": [
    "TTGraph.C75_removal",
    "TTGraph.C75_removal_returns",
    "TTGraph.C75_undo",
    "TTGraph.C75_undo_returns",
    "TTGraph.Demo.C75_linked_differ"
   ],
   "note": "C75_linked_differ: if the graph had links to the inserted nodes (allocated earlier), removing the nodes clears them."
  },
  {
   "property": "C76",
   "status": "proved",
   "theorems": [
    "TTGraph.C76_regrouped",
    "TTGraph.C76_calls",
    "TTGraph.C76_identity",
    "TTGraph.Demo.C76_order_differ"
   ],
   "note": "Annotated Vec fields must not hold a node twice on the way (SteadyAnnos). C76_order_differ: the order of the closures of one node matters, and a later mutate comes before an earlier update."
  },
  {
   "property": "C77",
   "status": "proved",
   "theorems": [
    "TTGraph.C77_held",
    "TTGraph.C77_flat",
    "TTGraph.C77_flat_checked",
    "TTGraph.C77_programs",
    "TTGraph.C77_graphs",
    "TTGraph.C77_commits",
    "TTGraph.C77_commits_checked",
    "TTGraph.C77_restrictions",
    "TTGraph.C77_special"
   ],
   "note": "Programs are a relation (Spec/Nested.lean): a call may contain a run of the program that does not use the objects the call holds. The order in which the closures of one commit run is C64_calls with the whole program as their state. Not covered: programs that catch the panic of a commit whose closures have effects."
  },
  {
   "property": "C78",
   "status": "proved",
   "theorems": [
    "TTGraph.C78_silent",
    "TTGraph.C78_calls",
    "TTGraph.C78_quiet",
    "TTGraph.C78_closures",
    "TTGraph.C78_programs"
   ],
   "note": "As for C28-C31 and C60, each Vec field is assumed not to hold a node twice (Steady). In the order of calls, which nodes come first is not specified (they come in the order of the recorded changes). The third case of C78_calls is the panic of C31: a node check and a removed node."
  },
  {
   "property": "C79",
   "status": "proved",
   "theorems": [
    "TTGraph.C79_state",
    "TTGraph.C79_state_returns",
    "TTGraph.C79_restore",
    "TTGraph.Demo.C79_variant_differ"
   ],
   "note": "C79_variant_differ: if the variant of a node has changed in between, a link can be lost as the opposite of a link that the node had in between. Removed nodes cannot come back under their old index (C46)."
  },
  {
   "property": "C80",
   "status": "proved",
   "theorems": [
    "TTGraph.C80_wellformed",
    "TTGraph.C80_inserted",
    "TTGraph.C80_built",
    "TTGraph.C80_exactly"
   ],
   "note": "All histories, all states. `Spec/Form.lean` defines well-formed states and careful calls. The conditions on histories and declarations are necessary: see C12, C22, C26 and C27 for programs that violate them."
  },
  {
   "property": "C81",
   "status": "proved",
   "theorems": [
    "TTGraph.C81_compiles",
    "TTGraph.C81_queries",
    "TTGraph.C81_iter",
    "TTGraph.C81_exact",
    "TTGraph.C81_commit",
    "TTGraph.C81_both",
    "TTGraph.C81_returns",
    "TTGraph.C81_program",
    "TTGraph.Demo.C81_choice_differ"
   ],
   "note": "All declarations, graphs, transactions and histories. `Spec/Declare.lean` says when two declarations differ only in order. `Demo.C81_choice_differ`: the condition on opposites in `C81_returns` is necessary."
  },
  {
   "property": "C82",
   "status": "partial",
   "theorems": [
    "TTGraph.C82_faithful",
    "TTGraph.C82_opposites",
    "TTGraph.C82_opposites_partial",
    "TTGraph.C82_respelled_partial",
    "TTGraph.C82_types",
    "TTGraph.C82_exists",
    "TTGraph.Demo.C82_two_spellings_fails",
    "TTGraph.Demo.C82_placeholder_fails"
   ],
   "note": "All declarations and namings. That opposites do not depend on the spelling is false of the code if bidirectional! uses two spellings of a name: `Demo.C82_two_spellings_fails`; `C82_opposites` says what happens then, and the _partial theorems assume one spelling. Missing: programs whose declaration uses two spellings."
  },
  {
   "property": "C83",
   "status": "partial",
   "theorems": [
    "TTGraph.C83_no_new_worlds_partial",
    "TTGraph.C83_ids",
    "TTGraph.C83_apart",
    "TTGraph.C83_backlinks",
    "TTGraph.C83_methods",
    "TTGraph.C83_commit",
    "TTGraph.Demo.C83_update_fails"
   ],
   "note": "All programs. That catching panics leads to no new state is false of the code for `update` closures (`Demo.C83_update_fails`); `C83_no_new_worlds_partial` is for all other panics, and the remaining theorems hold for every caught panic. Missing: panics in the middle of a commit's closures (see C49)."
  },
  {
   "property": "C84",
   "status": "partial",
   "theorems": [
    "TTGraph.C84_intact",
    "TTGraph.C84_reserved",
    "TTGraph.C84_nodes",
    "TTGraph.C84_iso_partial",
    "TTGraph.C84_above",
    "TTGraph.C84_atomic",
    "TTGraph.C84_extend",
    "TTGraph.Demo.C84_iso_fails"
   ],
   "note": "All programs and interleavings. The isomorphism is false of the code if a new index is equal to an old one (`Demo.C84_iso_fails`); `C84_iso_partial` is for draws that do not collide with old indices, in particular (`C84_above`) for draws above all old indices. The other theorems have no condition. Panics caught in between: C86."
  },
  {
   "property": "C85",
   "status": "proved",
   "theorems": [
    "TTGraph.C85_same",
    "TTGraph.C85_returns",
    "TTGraph.C85_nothing",
    "TTGraph.C85_checked",
    "TTGraph.C85_refused",
    "TTGraph.C85_nothing_checked",
    "TTGraph.Demo.C85_order_differ"
   ],
   "note": "All pairs of programs. With checks: they may be different closures in the two programs that give the same verdicts on nodes that differ in the order of sets only; C85_refused is for checks that do not panic, and if there are node checks no node with links is removed (C31); no Vec field holds a node twice on the way. `Demo.C85_order_differ` shows why the part about panics assumes one opposite: with several, the order in which links are added decides whether the commit panics. Transactions in which a bidirectional Vec holds a node twice on the way are left out (SteadyBidir, see C73)."
  },
  {
   "property": "C86",
   "status": "proved",
   "theorems": [
    "TTGraph.C86_intact",
    "TTGraph.C86_reserved",
    "TTGraph.C86_nodes",
    "TTGraph.C86_caught",
    "TTGraph.C86_survives",
    "TTGraph.C86_interleaves"
   ],
   "note": "All programs and interleavings. Not covered: closures that call this crate on other objects (C77) and whose panics are caught."
  },
  {
   "property": "C87",
   "status": "partial",
   "theorems": [
    "TTGraph.C87_same_partial",
    "TTGraph.C87_call_partial",
    "TTGraph.C87_threads_partial",
    "TTGraph.C87_threads_all_partial",
    "TTGraph.C87_threads_intact_partial",
    "TTGraph.C87_caught_partial",
    "TTGraph.C87_caught_all_partial",
    "TTGraph.C87_caught_intact_partial",
    "TTGraph.C87_draws",
    "TTGraph.C87_end",
    "TTGraph.C87_word",
    "TTGraph.Demo.C87_loaded_fails",
    "TTGraph.Demo.C87_debug_fails"
   ],
   "note": "False as stated for programs that read files with huge indices (C87_loaded_fails, C87_debug_fails). Proved if the largest index in the files and the number of indices drawn are together below the number of values of usize, for every word size and both build profiles; then programs reach exactly the worlds of the unbounded model, so all other claims carry over. The same for programs whose threads go on during a switch_context (C87_threads_partial, C87_threads_all_partial): they reach exactly what they reach with unbounded counters; also if the threads catch panics (C87_caught_partial, C87_caught_all_partial)."
  },
  {
   "property": "C88",
   "status": "partial",
   "theorems": [
    "TTGraph.C88_program",
    "TTGraph.C88_switch_partial",
    "TTGraph.Demo.C88_switch_fails"
   ],
   "note": "The sentence on switch_context is false if indices collide (`Demo.C88_switch_fails`: the same program loses a link under one numbering and keeps it under another). `C88_program` covers whole programs whose moves do not collide, `C88_switch_partial` a single move."
  },
  {
   "property": "C89",
   "status": "proved",
   "theorems": [
    "TTGraph.C89_loaded",
    "TTGraph.C89_program",
    "TTGraph.C89_order"
   ],
   "note": "`TwinsFrom` (Spec/Rename.lean) runs the two programs side by side from the moment the file has been loaded; the correspondence of indices is the identity on the saved nodes. For graphs with dangling links or missing opposites, reading adds links: C33, C70."
  },
  {
   "property": "C90",
   "status": "proved",
   "theorems": [
    "TTGraph.C90_reason",
    "TTGraph.C90_returns",
    "TTGraph.C90_complains",
    "TTGraph.C90_quiet",
    "TTGraph.C90_checked",
    "TTGraph.C90_iff"
   ],
   "note": "`Reason` (Spec/Reasons.lean) lists the mistakes, one constructor each, with the panic that reports it. C90_complains (which panics exist) holds for all declarations; C90_reason (that they are true) for transactions at no stage of which a Vec of a bidirectional! line holds a node twice. That no mistake is overlooked is C90_iff, under the conditions of C58 (no dangling links, one opposite per field and variant, each node redirected at most once per kind, closures that do not look at the order of sets)."
  },
  {
   "property": "C91",
   "status": "proved",
   "theorems": [
    "TTGraph.C91_program",
    "TTGraph.C91_commit",
    "TTGraph.C91_returns",
    "TTGraph.C91_checked",
    "TTGraph.C91_refused",
    "TTGraph.C91_replay"
   ],
   "note": "Orders of sets: `NSet` carries its elements in some order and hidden state, `SetImpl` is any implementation that is correct as a set; equal sets may be iterated differently in the two runs and at different moments. The calls are assumed to return in both runs in C91_program; C91_returns settles this for every call but commits, if every line of bidirectional! gives a link one opposite; C91_commit settles it for commits without dangling links, C91_checked for commit_checked if the checks do not look at the order of sets and no Vec field holds a node twice on the way. C91_refused: if checks refuse, the panic names the same checks (checks that do not panic themselves; with node checks no node with links is removed, see C31). C91_replay puts them together for whole programs. Not covered: commits whose panic is caught, whose wreck depends on the order of sets."
  },
  {
   "property": "C92",
   "status": "proved",
   "theorems": [
    "TTGraph.C92_alone",
    "TTGraph.C92_returns",
    "TTGraph.C92_order",
    "TTGraph.C92_events",
    "TTGraph.C92_threads",
    "TTGraph.C92_switch"
   ],
   "note": "Equality of the objects is exact, not up to the order of sets. Calls may panic and panicking commits may be caught. Threads are modelled as interleaved calls; in C92_threads and C92_switch, a switch_context is interleaved draw by draw, in the executions of C84 (C92_events)."
  },
  {
   "property": "C93",
   "status": "partial",
   "theorems": [
    "TTGraph.C93_moved_partial",
    "TTGraph.C93_programs_partial",
    "TTGraph.C93_detour",
    "TTGraph.Demo.C93_fails"
   ],
   "note": "Proved when no old index of the other graph equals a new index given out earlier inside one set of links (the condition of C32), in particular when the target context has issued all indices of the other graph (C93_programs_partial, for programs with sound transactions, closures that keep variants and no bidirectional Vec). False without that condition: Demo.C93_fails moves a graph of two nodes into an empty graph of a new context and loses a link. C93_detour: every graph that is complete in itself can be moved into every other one without a loss, if it is first switched to its own context twice whenever its context has issued more indices than the target's."
  }
 ]
}