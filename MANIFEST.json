{
 "claims": [
  {
   "property": "C01",
   "status": "proved",
   "theorems": [
    "Verif.Props.C01_u64_roundtrip",
    "Verif.Props.C01_ulid_roundtrip",
    "Verif.Props.C01_u64_tryFrom",
    "Verif.Props.C01_ulid_tryFrom"
   ],
   "note": ""
  },
  {
   "property": "C02",
   "status": "proved",
   "theorems": [
    "Verif.Props.C02_u64_decode_encode",
    "Verif.Props.C02_u64_encode_decode",
    "Verif.Props.C02_ulid_decode_encode",
    "Verif.Props.C02_ulid_encode_decode",
    "Verif.Props.C02_u64_layout",
    "Verif.Props.C02_ulid_layout"
   ],
   "note": ""
  },
  {
   "property": "C03",
   "status": "proved",
   "theorems": [
    "Verif.Props.C03_u64_id_order",
    "Verif.Props.C03_ulid_id_order",
    "Verif.Props.C03_u64_key_order",
    "Verif.Props.C03_ulid_key_order"
   ],
   "note": ""
  },
  {
   "property": "C04",
   "status": "proved",
   "theorems": [
    "Verif.Props.C04_u64_bounds1",
    "Verif.Props.C04_u64_bounds2",
    "Verif.Props.C04_ulid_bounds1",
    "Verif.Props.C04_ulid_bounds2",
    "Verif.Props.C04_no_panic"
   ],
   "note": ""
  },
  {
   "property": "C05",
   "status": "proved",
   "theorems": [
    "Verif.Props.C05_partialCmp",
    "Verif.Props.C05_total",
    "Verif.Props.C05_swap",
    "Verif.Props.C05_trans",
    "Verif.Props.C05_u64_key_order",
    "Verif.Props.C05_ulid_key_order"
   ],
   "note": ""
  },
  {
   "property": "C06",
   "status": "proved",
   "theorems": [
    "Verif.Props.C06_history",
    "Verif.Props.C06_from_reachable",
    "Verif.Props.C06_shows_unique"
   ],
   "note": ""
  },
  {
   "property": "C07",
   "status": "proved",
   "theorems": [
    "Verif.Props.C07_iterEdges",
    "Verif.Props.C07_iterEdgesWithProps"
   ],
   "note": ""
  },
  {
   "property": "C08",
   "status": "proved",
   "theorems": [
    "Verif.Props.C08_sorted",
    "Verif.Props.C08_complete"
   ],
   "note": ""
  },
  {
   "property": "C09",
   "status": "proved",
   "theorems": [
    "Verif.Props.C09_exact",
    "Verif.Props.C09_reappears"
   ],
   "note": ""
  },
  {
   "property": "C10",
   "status": "proved",
   "theorems": [
    "Verif.Props.C10_insertNode",
    "Verif.Props.C10_insertEdge"
   ],
   "note": ""
  },
  {
   "property": "C11",
   "status": "proved",
   "theorems": [
    "Verif.Props.C11_removeNode",
    "Verif.Props.C11_idempotent"
   ],
   "note": ""
  },
  {
   "property": "C12",
   "status": "proved",
   "theorems": [
    "Verif.Props.C12_removeEdge",
    "Verif.Props.C12_absent",
    "Verif.Props.C12_idempotent"
   ],
   "note": ""
  },
  {
   "property": "C13",
   "status": "proved",
   "theorems": [
    "Verif.Props.C13_records",
    "Verif.Props.C13_count"
   ],
   "note": ""
  },
  {
   "property": "C14",
   "status": "proved",
   "theorems": [
    "Verif.Props.C14_mem",
    "Verif.Props.C14_mem_order",
    "Verif.Props.C14_sled",
    "Verif.Props.C14_sled_order"
   ],
   "note": ""
  },
  {
   "property": "C15",
   "status": "proved",
   "theorems": [
    "Verif.Props.C15_extend",
    "Verif.Props.C15_empty",
    "Verif.Props.C15_idempotent",
    "Verif.Props.C15_associative"
   ],
   "note": ""
  },
  {
   "property": "C16",
   "status": "proved",
   "theorems": [
    "Verif.Props.C16_extend_nodes",
    "Verif.Props.C16_extend_edges",
    "Verif.Props.C16_merge_nodes",
    "Verif.Props.C16_merge_edges",
    "Verif.Props.C16_state"
   ],
   "note": ""
  },
  {
   "property": "C17",
   "status": "proved",
   "theorems": [
    "Verif.Props.C17_merge",
    "Verif.Props.C17_mergeNode",
    "Verif.Props.C17_mergeEdge"
   ],
   "note": ""
  },
  {
   "property": "C18",
   "status": "proved",
   "theorems": [
    "Verif.Props.C18_union"
   ],
   "note": ""
  },
  {
   "property": "C19",
   "status": "proved",
   "theorems": [
    "Verif.Props.C19_intersection"
   ],
   "note": ""
  },
  {
   "property": "C20",
   "status": "partial",
   "theorems": [
    "Verif.Props.C20_computed",
    "Verif.Props.C20_difference_partial",
    "Verif.Props.C20_violated",
    "Verif.Props.C20_exact",
    "Verif.Props.C20_exact_intact"
   ],
   "note": "The code violates the property (C20_violated). C20_computed is the exact result for all inputs; C20_difference_partial proves the property when self has no orphaned edge and every edge with a removed endpoint lies below some edge of other. C20_exact says when exactly the result is right, for all inputs: no edge above every edge of other has a removed endpoint, and no edge below one is left out for a node of other that self does not hold. C20_exact_intact: for a store without orphaned edges only the first matters."
  },
  {
   "property": "C21",
   "status": "proved",
   "theorems": [
    "Verif.Props.C21_tryEq",
    "Verif.Props.C21_mem",
    "Verif.Props.C21_left_error",
    "Verif.Props.C21_right_error"
   ],
   "note": ""
  },
  {
   "property": "C22",
   "status": "partial",
   "theorems": [
    "Verif.Props.C22_computed",
    "Verif.Props.C22_complete",
    "Verif.Props.C22_eq_partial",
    "Verif.Props.C22_violated",
    "Verif.Props.C22_exact",
    "Verif.Props.C22_every_store"
   ],
   "note": "The code violates the property (C22_violated): the two edge maps are zipped without comparing lengths. C22_computed is the exact meaning of ==; C22_eq_partial proves the property for stores with equally many edges; C22_complete proves one direction in full. C22_exact: == takes two graphs for equal if and only if one is the other with further edges, all of them after its own; C22_every_store: so every store is == to a different one."
  },
  {
   "property": "C23",
   "status": "proved",
   "theorems": [
    "Verif.Props.C23_mem",
    "Verif.Props.C23_sled"
   ],
   "note": ""
  },
  {
   "property": "C24",
   "status": "proved",
   "theorems": [
    "Verif.Props.C24_kth",
    "Verif.Props.C24_distinct",
    "Verif.Props.C24_repeats"
   ],
   "note": ""
  },
  {
   "property": "C25",
   "status": "proved",
   "theorems": [
    "Verif.Props.C25_mem_damage",
    "Verif.Props.C25_mem_no_damage",
    "Verif.Props.C25_sled_damage",
    "Verif.Props.C25_sled_no_damage",
    "Verif.Props.C25_sled_reopen_witness"
   ],
   "note": ""
  },
  {
   "property": "C26",
   "status": "proved",
   "theorems": [
    "Verif.Props.C26_history",
    "Verif.Props.C26_total",
    "Verif.Props.C26_call",
    "Verif.Props.C26_from_reachable",
    "Verif.Props.C26_shows_unique"
   ],
   "note": ""
  },
  {
   "property": "C27",
   "status": "proved",
   "theorems": [
    "Verif.Props.C27_iter",
    "Verif.Props.C27_query"
   ],
   "note": ""
  },
  {
   "property": "C28",
   "status": "proved",
   "theorems": [
    "Verif.Props.C28_atomic",
    "Verif.Props.C28_shows"
   ],
   "note": ""
  },
  {
   "property": "C29",
   "status": "proved",
   "theorems": [
    "Verif.Props.C29_crash",
    "Verif.Props.C29_spo",
    "Verif.Props.C29_disagree_witness"
   ],
   "note": ""
  },
  {
   "property": "C30",
   "status": "proved",
   "theorems": [
    "Verif.Props.C30_consistent",
    "Verif.Props.C30_start"
   ],
   "note": ""
  },
  {
   "property": "C31",
   "status": "partial",
   "theorems": [
    "Verif.Props.C31_violated",
    "Verif.Props.C31_consistent_partial",
    "Verif.Props.C31_edge_partial",
    "Verif.Props.C31_every_race",
    "Verif.Props.C31_exact"
   ],
   "note": "The code violates the property (C31_violated): the removals that follow the transaction of remove_edge hit an edge inserted in the meantime. C31_consistent_partial proves consistency at every moment when no thread removes an edge that another thread writes; C31_edge_partial the same for each edge separately, whatever races there are on other edges and with extends of other edges. C72 says what each ordering by itself looks like after the races. C31_every_race: every such race can be lost: whatever the threads do, if one removes an edge that another one writes, some schedule leaves the edge in SPO only, with no call under way. C31_exact: for threads without extend the condition is therefore necessary and sufficient."
  },
  {
   "property": "C32",
   "status": "partial",
   "theorems": [
    "Verif.Props.C32_mem_partial",
    "Verif.Props.C32_sled_computed",
    "Verif.Props.C32_sled_partial",
    "Verif.Props.C32_violated_sled",
    "Verif.Props.C32_violated_edges"
   ],
   "note": "The code violates the property (C32_violated_sled, C32_violated_edges): sled's iter_edges_with_props yields MissingPropertyData for orphaned edges, and iter_edges yields them on both back-ends. C32_mem_partial proves the property for the in-memory iter_edges_with_props, C32_sled_computed is the exact result of the sled one, C32_sled_partial proves the property for sled stores without orphaned edges."
  },
  {
   "property": "C33",
   "status": "partial",
   "theorems": [
    "Verif.Props.C33_exact",
    "Verif.Props.C33_count",
    "Verif.Props.C33_noOverwrite_partial",
    "Verif.Props.C33_violated",
    "Verif.Props.C33_unbounded"
   ],
   "note": "The code violates the property (C33_violated, C33_unbounded): insert_edge leaves the record of the value it replaces. C33_exact and C33_count say exactly what is left for all histories over any number of runs; C33_noOverwrite_partial proves the property when no insert_edge replaces an edge."
  },
  {
   "property": "C34",
   "status": "proved",
   "theorems": [
    "Verif.Props.C34_vertices",
    "Verif.Props.C34_edges",
    "Verif.Props.C34_edges_with_props",
    "Verif.Props.C34_deterministic",
    "Verif.Props.C34_vertices_set",
    "Verif.Props.C34_query"
   ],
   "note": ""
  },
  {
   "property": "C35",
   "status": "proved",
   "theorems": [
    "Verif.Props.C35_same",
    "Verif.Props.C35_runs",
    "Verif.Props.C35_split",
    "Verif.Props.C35_reachable"
   ],
   "note": ""
  },
  {
   "property": "C36",
   "status": "proved",
   "theorems": [
    "Verif.Props.C36_mem",
    "Verif.Props.C36_sled",
    "Verif.Props.C36_lawful_mem",
    "Verif.Props.C36_lawful_sled"
   ],
   "note": ""
  },
  {
   "property": "C37",
   "status": "partial",
   "theorems": [
    "Verif.Props.C37_sled",
    "Verif.Props.C37_mem_computed",
    "Verif.Props.C37_mem_partial",
    "Verif.Props.C37_mem_violated"
   ],
   "note": "The code violates the property for MemHashIndex (C37_mem_violated): set inserts the name before it finds the id taken. C37_sled proves the property for SledHashIndex on any contents; C37_mem_computed says exactly what a failed set leaves; C37_mem_partial proves the property for failures reported as DuplicateRight."
  },
  {
   "property": "C38",
   "status": "proved",
   "theorems": [
    "Verif.Props.C38_stable",
    "Verif.Props.C38_used",
    "Verif.Props.C38_sled"
   ],
   "note": ""
  },
  {
   "property": "C39",
   "status": "proved",
   "theorems": [
    "Verif.Props.C39_graph",
    "Verif.Props.C39_mem",
    "Verif.Props.C39_sled",
    "Verif.Props.C39_alias"
   ],
   "note": ""
  },
  {
   "property": "C40",
   "status": "proved",
   "theorems": [
    "Verif.Props.C40_removeNode",
    "Verif.Props.C40_removeEdge",
    "Verif.Props.C40_run"
   ],
   "note": ""
  },
  {
   "property": "C41",
   "status": "partial",
   "theorems": [
    "Verif.Props.C41_computed",
    "Verif.Props.C41_computed_mem",
    "Verif.Props.C41_computed_sled",
    "Verif.Props.C41_partial",
    "Verif.Props.C41_violated"
   ],
   "note": "The code violates the property (C41_violated): run fails when a name occurs twice among the edges of the result. C41_computed (with _mem and _sled instances) is the exact outcome for all histories and queries; C41_partial proves the property for node queries and for results in which no name occurs twice."
  },
  {
   "property": "C42",
   "status": "proved",
   "theorems": [
    "Verif.Props.C42_map",
    "Verif.Props.C42_map_comp",
    "Verif.Props.C42_tryMap_ok",
    "Verif.Props.C42_tryMap_error",
    "Verif.Props.C42_tryMap_iff",
    "Verif.Props.C42_ofTriples",
    "Verif.Props.C42_triple_tryMap",
    "Verif.Props.C42_triple_tryMap_error",
    "Verif.Props.C42_triple_map",
    "Verif.Props.C42_propsTriple_tryMap",
    "Verif.Props.C42_propsTriple_map"
   ],
   "note": ""
  },
  {
   "property": "C43",
   "status": "proved",
   "theorems": [
    "Verif.Props.C43_expand"
   ],
   "note": ""
  },
  {
   "property": "C44",
   "status": "proved",
   "theorems": [
    "Verif.Props.C44_union",
    "Verif.Props.C44_union_idempotent",
    "Verif.Props.C44_union_associative",
    "Verif.Props.C44_intersection",
    "Verif.Props.C44_intersection_idempotent",
    "Verif.Props.C44_intersection_associative"
   ],
   "note": ""
  },
  {
   "property": "C45",
   "status": "proved",
   "theorems": [
    "Verif.Props.C45_debug"
   ],
   "note": ""
  },
  {
   "property": "C46",
   "status": "proved",
   "theorems": [
    "Verif.Props.C46_errors",
    "Verif.Props.C46_succeed",
    "Verif.Props.C46_union_error"
   ],
   "note": ""
  },
  {
   "property": "C47",
   "status": "proved",
   "theorems": [
    "Verif.Props.C47_repeat",
    "Verif.Props.C47_then",
    "Verif.Props.C47_result"
   ],
   "note": ""
  },
  {
   "property": "C48",
   "status": "proved",
   "theorems": [
    "Verif.Props.C48_crash"
   ],
   "note": ""
  },
  {
   "property": "C49",
   "status": "proved",
   "theorems": [
    "Verif.Props.C49_noDangling",
    "Verif.Props.C49_shows",
    "Verif.Props.C49_then"
   ],
   "note": ""
  },
  {
   "property": "C50",
   "status": "proved",
   "theorems": [
    "Verif.Props.C50_moment",
    "Verif.Props.C50_final",
    "Verif.Props.C50_removeNode_violated"
   ],
   "note": ""
  },
  {
   "property": "C51",
   "status": "partial",
   "theorems": [
    "Verif.Props.C51_violated",
    "Verif.Props.C51_partial",
    "Verif.Props.C51_noDangling_partial",
    "Verif.Props.C51_violated_others",
    "Verif.Props.C51_every_race",
    "Verif.Props.C51_exact"
   ],
   "note": "The code violates the property (C51_violated): two extends writing the same edge leave dangling ids (C51_violated_others: so does one extend next to a remove_edge or merge_edge of the same edge). C51_noDangling_partial: if the edges written by an extend are not touched by other threads, iteration yields no error at any moment, whatever the other calls do to other edges. C51_partial: if every edge and node is touched by at most one thread, any calls (extends included) end in the graph of running the threads one after the other. C51_every_race: if another thread writes an edge by which one extends the store, some schedule leaves different ids in the orderings. C51_exact: as long as no node of an extended edge is removed, the orderings agree in every schedule if and only if no thread writes an edge which another one removes or extends the store by."
  },
  {
   "property": "C52",
   "status": "partial",
   "theorems": [
    "Verif.Props.C52_partial",
    "Verif.Props.C52_violated",
    "Verif.Props.C52_exact",
    "Verif.Props.C52_lookups"
   ],
   "note": "The code violates the property (C52_violated): the two values of an error come in opposite orders, and after a failed set the indices differ. C52_partial proves that they agree, conflicts included, up to and including the first failure. C52_exact: the outcomes of any series of set calls agree if and only if no name is set again after its id was refused as taken; C52_lookups: then all look-ups agree but those of such names."
  },
  {
   "property": "C53",
   "status": "proved",
   "theorems": [
    "Verif.Props.C53_concurrent"
   ],
   "note": ""
  },
  {
   "property": "C54",
   "status": "proved",
   "theorems": [
    "Verif.Props.C54_edge",
    "Verif.Props.C54_node",
    "Verif.Props.C54_oneThread",
    "Verif.Props.C54_oneThreadNode"
   ],
   "note": ""
  },
  {
   "property": "C55",
   "status": "partial",
   "theorems": [
    "Verif.Props.C55_still_props",
    "Verif.Props.C55_withProps",
    "Verif.Props.C55_every_touch",
    "Verif.Props.C55_exact",
    "Verif.Props.C55_every_merge",
    "Verif.Props.C55_nodes_exact",
    "Verif.Props.C55_still",
    "Verif.Props.C55_still_nodes",
    "Verif.Props.C55_values",
    "Verif.Props.C55_listed",
    "Verif.Props.C55_kept",
    "Verif.Props.C55_untouched",
    "Verif.Props.C55_noErrors_partial",
    "Verif.Props.C55_nodes",
    "Verif.Props.C55_scans",
    "Verif.Props.C55_violated"
   ],
   "note": "The code violates the property (C55_violated): one merge_edge of another handle between reading an entry and its record makes iter_edges return MissingPropertyData for an edge that exists all the time. C55_values, C55_listed, C55_kept, C55_untouched and C55_nodes prove the rest for all schedules and races: order, values, completeness, no error for edges that are only inserted again, nodes without errors. C55_noErrors_partial proves the whole property when the other handles change edges by insert_edge only. C55_withProps and C55_still_props are the same for iter_edges_with_props. C55_exact and C55_nodes_exact say when exactly: whatever the store and the threads, an edge (node) is sure to be returned if and only if no thread touches it otherwise than by insert_edge (removes it); C55_every_touch and C55_every_merge give the schedule that loses it."
  },
  {
   "property": "C56",
   "status": "partial",
   "theorems": [
    "Verif.Props.C56_still",
    "Verif.Props.C56_answer",
    "Verif.Props.C56_untouched",
    "Verif.Props.C56_violated",
    "Verif.Props.C56_reads",
    "Verif.Props.C56_answer_bounded",
    "Verif.Props.C56_every_touch",
    "Verif.Props.C56_exact",
    "Verif.Props.C56_nodes_exact"
   ],
   "note": "The code violates the property (C56_violated): one merge_edge of another handle between reading an entry and its record makes run leave out an edge that exists all the time, without an error. C56_answer and C56_untouched prove the rest for all queries, schedules and races: no failure, only edges and nodes asked for with properties they had, completeness for edges that are only inserted again, for nodes that are not removed, and exactness for what nobody touches. C56_still: while nobody writes this is the query modelled in C14. C56_exact and C56_nodes_exact: an edge (node) asked for is sure to be in the result if and only if no thread touches it otherwise than by insert_edge (removes it); C56_every_touch gives the schedule. C56_reads and C56_answer_bounded bound the number of edges a query comes across in advance."
  },
  {
   "property": "C57",
   "status": "proved",
   "theorems": [
    "Verif.Props.C57_moments",
    "Verif.Props.C57_results",
    "Verif.Props.C57_crash",
    "Verif.Props.C57_history",
    "Verif.Props.C57_reads",
    "Verif.Props.C57_lazy"
   ],
   "note": ""
  },
  {
   "property": "C58",
   "status": "partial",
   "theorems": [
    "Verif.Props.C58_fails",
    "Verif.Props.C58_moments",
    "Verif.Props.C58_output",
    "Verif.Props.C58_sameGraph",
    "Verif.Props.C58_sameGraph_partial",
    "Verif.Props.C58_blind",
    "Verif.Props.C58_violated",
    "Verif.Props.C58_nodesBlind"
   ],
   "note": "The code violates the property (C58_violated): an unreferenced record left by insert_edge is printed. C58_sameGraph proves that nothing but that line can differ, C58_sameGraph_partial that stores without such records print the same; C58_output says exactly what is printed, C58_fails and C58_moments when formatting fails: never on contents the library has written, not even while others write. C58_blind and C58_nodesBlind: node properties are not printed at all, so stores with different graphs can print the same."
  },
  {
   "property": "C59",
   "status": "partial",
   "theorems": [
    "Verif.Props.C59_sound",
    "Verif.Props.C59_computed",
    "Verif.Props.C59_partial",
    "Verif.Props.C59_violated"
   ],
   "note": "The code violates the property (C59_violated): the same two nodes inserted in different orders compare as different. C59_computed is the exact outcome for all pairs of histories: true iff the graphs are equal and the ids put their nodes and edges in the same order; C59_sound: true is returned only for equal graphs, and never an error; C59_partial: the property under the condition on the order."
  },
  {
   "property": "C60",
   "status": "proved",
   "theorems": [
    "Verif.Props.C60_alone",
    "Verif.Props.C60_holds",
    "Verif.Props.C60_call",
    "Verif.Props.C60_crash",
    "Verif.Props.C60_again",
    "Verif.Props.C60_names_witness",
    "Verif.Props.C60_merge_witness"
   ],
   "note": ""
  },
  {
   "property": "C61",
   "status": "partial",
   "theorems": [
    "Verif.Props.C61_every_race",
    "Verif.Props.C61_holds",
    "Verif.Props.C61_call",
    "Verif.Props.C61_moment",
    "Verif.Props.C61_final_partial",
    "Verif.Props.C61_names",
    "Verif.Props.C61_nameRace_violated",
    "Verif.Props.C61_nameRace_error"
   ],
   "note": "C61_holds, C61_call, C61_moment, C61_names hold as stated. C61_final_partial (all calls done, so all operations have taken effect) needs that no two threads create the same new name: without that the code violates the property (C61_nameRace_violated): lookup_or_create_entity looks the name up and sets it in two separate steps, so a call can fail with DuplicateRight (C61_nameRace_error) though every operation alone would succeed, and its edge is missing. C61_every_race: the restriction is needed for every such pair of calls, not only the witness: whenever two calls make the same new name known, there is a moment in the first at which the whole second can run so that the first fails with DuplicateRight, having done only what came before the name."
  },
  {
   "property": "C62",
   "status": "partial",
   "theorems": [
    "Verif.Props.C62_increasing",
    "Verif.Props.C62_overflowing",
    "Verif.Props.C62_distinct_iff",
    "Verif.Props.C62_distinct_partial",
    "Verif.Props.C62_overflow",
    "Verif.Props.C62_later",
    "Verif.Props.C62_new",
    "Verif.Props.C62_mem",
    "Verif.Props.C62_sled",
    "Verif.Props.C62_violated",
    "Verif.Props.C62_violated_store"
   ],
   "note": "The code violates the property (C62_violated, C62_violated_store): when the random bits of the generator overflow, fresh falls back on Ulid::new(), which may return an id given before. C62_distinct_iff: the ids are distinct if and only if those made after an overflow happen to be; C62_distinct_partial: without overflow they are; C62_overflow: in n calls none can, unless a random number drawn is among the n largest of 2^80. C62_sled excludes extend, which takes its ids from Ulid::new() rather than from the generator (C62_new)."
  },
  {
   "property": "C63",
   "status": "partial",
   "theorems": [
    "Verif.Props.C63_every_middle",
    "Verif.Props.C63_tryEq",
    "Verif.Props.C63_mem",
    "Verif.Props.C63_mem_sled",
    "Verif.Props.C63_sled",
    "Verif.Props.C63_refl",
    "Verif.Props.C63_symm",
    "Verif.Props.C63_trans",
    "Verif.Props.C63_left_error",
    "Verif.Props.C63_right_error",
    "Verif.Props.C63_eq",
    "Verif.Props.C63_eq_refl",
    "Verif.Props.C63_eq_symm",
    "Verif.Props.C63_eq_trans_partial",
    "Verif.Props.C63_eq_trans_violated"
   ],
   "note": "The code violates the property for == on MemTripleStore (C63_eq_trans_violated): it is not transitive, because the edge maps are zipped without comparing lengths. C63_eq_trans_partial: it is, over a store in the middle that does not have fewer edges than both others. Everything else is proved in full: C63_tryEq, C63_mem, C63_mem_sled, C63_sled, C63_refl, C63_symm, C63_trans, the errors (C63_left_error, C63_right_error), and C63_eq, C63_eq_refl, C63_eq_symm for ==. C63_every_middle: any store can be the one in the middle over which == is not transitive."
  },
  {
   "property": "C64",
   "status": "proved",
   "theorems": [
    "Verif.Props.C64_meaning",
    "Verif.Props.C64_lawful",
    "Verif.Props.C64_lawful_merge",
    "Verif.Props.C64_mem",
    "Verif.Props.C64_sled",
    "Verif.Props.C64_set",
    "Verif.Props.C64_mem_merge",
    "Verif.Props.C64_sled_merge",
    "Verif.Props.C64_rdf",
    "Verif.Props.C64_iter_ids",
    "Verif.Props.C64_query_ids",
    "Verif.Props.C64_merge_ids"
   ],
   "note": ""
  },
  {
   "property": "C65",
   "status": "partial",
   "theorems": [
    "Verif.Props.C65_holds",
    "Verif.Props.C65_call",
    "Verif.Props.C65_moment",
    "Verif.Props.C65_namesLast_partial",
    "Verif.Props.C65_namesFirst",
    "Verif.Props.C65_violated"
   ],
   "note": "The code violates the property when the index loses calls that the data have kept (C65_violated): a node then has lost its name, and repeating the calls makes a second one. C65_namesLast_partial: the property holds when the index keeps at least the calls up to the moment of the data; C65_namesFirst is the exact outcome otherwise: the graph of the moment of the data, with lost names replaced by ids. In all cases, after any number of such crashes, the store holds exactly one graph over entities (C65_holds), later calls do what they should (C65_call), and at each moment the databases together hold what has been done of the calls (C65_moment)."
  },
  {
   "property": "C66",
   "status": "proved",
   "theorems": [
    "Verif.Props.C66_extend",
    "Verif.Props.C66_merge",
    "Verif.Props.C66_extend_same",
    "Verif.Props.C66_merge_twice"
   ],
   "note": ""
  },
  {
   "property": "C67",
   "status": "proved",
   "theorems": [
    "Verif.Props.C67_programs",
    "Verif.Props.C67_errors",
    "Verif.Props.C67_counters",
    "Verif.Props.C67_two_counters"
   ],
   "note": ""
  },
  {
   "property": "C68",
   "status": "proved",
   "theorems": [
    "Verif.Props.C68_triple",
    "Verif.Props.C68_triple_map",
    "Verif.Props.C68_query",
    "Verif.Props.C68_log",
    "Verif.Props.C68_pure",
    "Verif.Props.C68_rdf"
   ],
   "note": ""
  },
  {
   "property": "C69",
   "status": "proved",
   "theorems": [
    "Verif.Props.C69_roundtrip",
    "Verif.Props.C69_prefixFree",
    "Verif.Props.C69_truncated",
    "Verif.Props.C69_codecs",
    "Verif.Props.C69_store",
    "Verif.Props.C69_names"
   ],
   "note": ""
  },
  {
   "property": "C70",
   "status": "proved",
   "theorems": [
    "Verif.Props.C70_lawful",
    "Verif.Props.C70_mem",
    "Verif.Props.C70_sled",
    "Verif.Props.C70_bincode",
    "Verif.Props.C70_conformance",
    "Verif.Props.C70_macro"
   ],
   "note": ""
  },
  {
   "property": "C71",
   "status": "proved",
   "theorems": [
    "Verif.Props.C71_query",
    "Verif.Props.C71_damage",
    "Verif.Props.C71_mem",
    "Verif.Props.C71_call",
    "Verif.Props.C71_calls",
    "Verif.Props.C71_removeNode",
    "Verif.Props.C71_apart",
    "Verif.Props.C71_threads",
    "Verif.Props.C71_moment"
   ],
   "note": ""
  },
  {
   "property": "C72",
   "status": "proved",
   "theorems": [
    "Verif.Props.C72_serial",
    "Verif.Props.C72_no_common_order",
    "Verif.Props.C72_written",
    "Verif.Props.C72_removed",
    "Verif.Props.C72_alone"
   ],
   "note": ""
  },
  {
   "property": "C73",
   "status": "proved",
   "theorems": [
    "Verif.Props.C73_shows",
    "Verif.Props.C73_insertEdge",
    "Verif.Props.C73_mergeEdge",
    "Verif.Props.C73_removeEdge",
    "Verif.Props.C73_removeNode",
    "Verif.Props.C73_extend",
    "Verif.Props.C73_merge",
    "Verif.Props.C73_unused",
    "Verif.Props.C73_redo_extend",
    "Verif.Props.C73_redo_merge",
    "Verif.Props.C73_removeNode_leaves"
   ],
   "note": ""
  },
  {
   "property": "C74",
   "status": "proved",
   "theorems": [
    "Verif.Props.C74_still",
    "Verif.Props.C74_moment",
    "Verif.Props.C74_final",
    "Verif.Props.C74_moment_scans",
    "Verif.Props.C74_final_scans"
   ],
   "note": ""
  },
  {
   "property": "C75",
   "status": "proved",
   "theorems": [
    "Verif.Props.C75_moment",
    "Verif.Props.C75_final",
    "Verif.Props.C75_moment_scans",
    "Verif.Props.C75_final_scans",
    "Verif.Props.C75_alone_needed"
   ],
   "note": ""
  },
  {
   "property": "C76",
   "status": "proved",
   "theorems": [
    "Verif.Props.C76_moment",
    "Verif.Props.C76_final",
    "Verif.Props.C76_moment_scans",
    "Verif.Props.C76_final_scans",
    "Verif.Props.C76_strict",
    "Verif.Props.C76_removeNode",
    "Verif.Props.C76_copy",
    "Verif.Props.C76_left_from",
    "Verif.Props.C76_left_to"
   ],
   "note": ""
  },
  {
   "property": "C77",
   "status": "proved",
   "theorems": [
    "Verif.Props.C77_sessions",
    "Verif.Props.C77_strict",
    "Verif.Props.C77_left"
   ],
   "note": ""
  },
  {
   "property": "C78",
   "status": "proved",
   "theorems": [
    "Verif.Props.C78_insertNode",
    "Verif.Props.C78_insertEdge",
    "Verif.Props.C78_queryNode",
    "Verif.Props.C78_queryEdge",
    "Verif.Props.C78_twice"
   ],
   "note": ""
  },
  {
   "property": "C79",
   "status": "proved",
   "theorems": [
    "Verif.Props.C79_sessions",
    "Verif.Props.C79_noNameRace",
    "Verif.Props.C79_left"
   ],
   "note": ""
  },
  {
   "property": "C80",
   "status": "proved",
   "theorems": [
    "Verif.Props.C80_still",
    "Verif.Props.C80_names",
    "Verif.Props.C80_edges",
    "Verif.Props.C80_kept",
    "Verif.Props.C80_still_nodes",
    "Verif.Props.C80_nodes",
    "Verif.Props.C80_withProps",
    "Verif.Props.C80_names_witness",
    "Verif.Props.C80_violated"
   ],
   "note": ""
  },
  {
   "property": "C81",
   "status": "proved",
   "theorems": [
    "Verif.Props.C81_still",
    "Verif.Props.C81_names",
    "Verif.Props.C81_answer",
    "Verif.Props.C81_entities",
    "Verif.Props.C81_violated"
   ],
   "note": ""
  },
  {
   "property": "C82",
   "status": "proved",
   "theorems": [
    "Verif.Props.C82_programs",
    "Verif.Props.C82_errors",
    "Verif.Props.C82_alias"
   ],
   "note": ""
  },
  {
   "property": "C83",
   "status": "proved",
   "theorems": [
    "Verif.Props.C83_extend",
    "Verif.Props.C83_merge"
   ],
   "note": ""
  },
  {
   "property": "C84",
   "status": "proved",
   "theorems": [
    "Verif.Props.C84_results",
    "Verif.Props.C84_rdf",
    "Verif.Props.C84_quiet",
    "Verif.Props.C84_unknown"
   ],
   "note": ""
  },
  {
   "property": "C85",
   "status": "proved",
   "theorems": [
    "Verif.Props.C85_before",
    "Verif.Props.C85_store",
    "Verif.Props.C85_bulk",
    "Verif.Props.C85_rdf"
   ],
   "note": ""
  },
  {
   "property": "C86",
   "status": "proved",
   "theorems": [
    "Verif.Props.C86_steps",
    "Verif.Props.C86_closures",
    "Verif.Props.C86_batches",
    "Verif.Props.C86_course",
    "Verif.Props.C86_moment",
    "Verif.Props.C86_final",
    "Verif.Props.C86_conflict",
    "Verif.Props.C86_rdf_steps",
    "Verif.Props.C86_set",
    "Verif.Props.C86_rdf_course",
    "Verif.Props.C86_rdf"
   ],
   "note": ""
  },
  {
   "property": "C87",
   "status": "proved",
   "theorems": [
    "Verif.Props.C87_store",
    "Verif.Props.C87_scans",
    "Verif.Props.C87_strict",
    "Verif.Props.C87_once_violated"
   ],
   "note": ""
  },
  {
   "property": "C88",
   "status": "proved",
   "theorems": [
    "Verif.Props.C88_rdf",
    "Verif.Props.C88_strict"
   ],
   "note": ""
  },
  {
   "property": "C89",
   "status": "proved",
   "theorems": [
    "Verif.Props.C89_calls",
    "Verif.Props.C89_steps",
    "Verif.Props.C89_own",
    "Verif.Props.C89_least",
    "Verif.Props.C89_reruns",
    "Verif.Props.C89_no_livelock",
    "Verif.Props.C89_goes_on",
    "Verif.Props.C89_changes",
    "Verif.Props.C89_rdf_calls",
    "Verif.Props.C89_rdf_steps",
    "Verif.Props.C89_rdf_own",
    "Verif.Props.C89_rdf_reruns",
    "Verif.Props.C89_rdf_no_livelock",
    "Verif.Props.C89_rdf_goes_on"
   ],
   "note": ""
  },
  {
   "property": "C90",
   "status": "proved",
   "theorems": [
    "Verif.Props.C90_keys",
    "Verif.Props.C90_scan",
    "Verif.Props.C90_no_endless",
    "Verif.Props.C90_fine",
    "Verif.Props.C90_sessions",
    "Verif.Props.C90_rdf_keys",
    "Verif.Props.C90_rdf_scan",
    "Verif.Props.C90_rdf_sessions"
   ],
   "note": ""
  },
  {
   "property": "C91",
   "status": "proved",
   "theorems": [
    "Verif.Props.C91_store",
    "Verif.Props.C91_fine",
    "Verif.Props.C91_order",
    "Verif.Props.C91_later",
    "Verif.Props.C91_moment_violated"
   ],
   "note": ""
  },
  {
   "property": "C92",
   "status": "proved",
   "theorems": [
    "Verif.Props.C92_rdf",
    "Verif.Props.C92_fine",
    "Verif.Props.C92_moment_violated"
   ],
   "note": ""
  },
  {
   "property": "C93",
   "status": "proved",
   "theorems": [
    "Verif.Props.C93_programs",
    "Verif.Props.C93_unique",
    "Verif.Props.C93_converge",
    "Verif.Props.C93_exact",
    "Verif.Props.C93_rdf",
    "Verif.Props.C93_crate",
    "Verif.Props.C93_sessions",
    "Verif.Props.C93_again",
    "Verif.Props.C93_extend"
   ],
   "note": ""
  },
  {
   "property": "C94",
   "status": "proved",
   "theorems": [
    "Verif.Props.C94_before",
    "Verif.Props.C94_ids",
    "Verif.Props.C94_store",
    "Verif.Props.C94_again",
    "Verif.Props.C94_rdf",
    "Verif.Props.C94_rdf_ids",
    "Verif.Props.C94_durable_violated"
   ],
   "note": ""
  },
  {
   "property": "C95",
   "status": "proved",
   "theorems": [
    "Verif.Props.C95_two",
    "Verif.Props.C95_one",
    "Verif.Props.C95_told",
    "Verif.Props.C95_still",
    "Verif.Props.C95_size",
    "Verif.Props.C95_moment",
    "Verif.Props.C95_final",
    "Verif.Props.C95_own",
    "Verif.Props.C95_final_one",
    "Verif.Props.C95_moment_one",
    "Verif.Props.C95_backup",
    "Verif.Props.C95_backup_new",
    "Verif.Props.C95_backup_extend",
    "Verif.Props.C95_violated",
    "Verif.Props.C95_violated_edges"
   ],
   "note": ""
  }
 ]
}