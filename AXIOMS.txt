Verif.Props.C01_u64_roundtrip: propext, Classical.choice, Quot.sound
Verif.Props.C01_ulid_roundtrip: propext, Classical.choice, Quot.sound
Verif.Props.C01_u64_tryFrom: propext, Classical.choice, Quot.sound
Verif.Props.C01_ulid_tryFrom: propext, Classical.choice, Quot.sound
Verif.Props.C02_u64_decode_encode: propext, Classical.choice, Quot.sound
Verif.Props.C02_u64_encode_decode: propext, Classical.choice, Quot.sound
Verif.Props.C02_ulid_decode_encode: propext, Classical.choice, Quot.sound
Verif.Props.C02_ulid_encode_decode: propext, Classical.choice, Quot.sound
Verif.Props.C02_u64_layout: propext, Quot.sound
Verif.Props.C02_ulid_layout: propext, Quot.sound
Verif.Props.C03_u64_id_order: propext, Classical.choice, Quot.sound
Verif.Props.C03_ulid_id_order: propext, Classical.choice, Quot.sound
Verif.Props.C03_u64_key_order: propext, Classical.choice, Quot.sound
Verif.Props.C03_ulid_key_order: propext, Classical.choice, Quot.sound
Verif.Props.C04_u64_bounds1: propext, Classical.choice, Quot.sound
Verif.Props.C04_u64_bounds2: propext, Classical.choice, Quot.sound
Verif.Props.C04_ulid_bounds1: propext, Classical.choice, Quot.sound
Verif.Props.C04_ulid_bounds2: propext, Classical.choice, Quot.sound
Verif.Props.C04_no_panic: propext, Classical.choice, Quot.sound
Verif.Props.C05_partialCmp: propext
Verif.Props.C05_total: propext
Verif.Props.C05_swap: propext
Verif.Props.C05_trans: propext
Verif.Props.C05_u64_key_order: propext, Classical.choice, Quot.sound
Verif.Props.C05_ulid_key_order: propext, Classical.choice, Quot.sound
Verif.Props.C06_history: propext, Classical.choice, Quot.sound
Verif.Props.C06_from_reachable: propext, Classical.choice, Quot.sound
Verif.Props.C06_shows_unique: propext, Classical.choice, Quot.sound
Verif.Props.C07_iterEdges: propext, Classical.choice, Quot.sound
Verif.Props.C07_iterEdgesWithProps: propext, Classical.choice, Quot.sound
Verif.Props.C08_sorted: propext, Classical.choice, Quot.sound
Verif.Props.C08_complete: propext, Classical.choice, Quot.sound
Verif.Props.C09_exact: propext, Classical.choice, Quot.sound
Verif.Props.C09_reappears: propext, Classical.choice, Quot.sound
Verif.Props.C10_insertNode: propext, Classical.choice, Quot.sound
Verif.Props.C10_insertEdge: propext, Classical.choice, Quot.sound
Verif.Props.C11_removeNode: propext, Classical.choice, Quot.sound
Verif.Props.C11_idempotent: propext, Classical.choice, Quot.sound
Verif.Props.C12_removeEdge: propext, Classical.choice, Quot.sound
Verif.Props.C12_absent: propext, Classical.choice, Quot.sound
Verif.Props.C12_idempotent: propext, Classical.choice, Quot.sound
Verif.Props.C13_records: propext, Classical.choice, Quot.sound
Verif.Props.C13_count: propext, Classical.choice, Quot.sound
Verif.Props.C14_mem: propext, Classical.choice, Quot.sound
Verif.Props.C14_mem_order: propext, Classical.choice, Quot.sound
Verif.Props.C14_sled: propext, Classical.choice, Quot.sound
Verif.Props.C14_sled_order: propext, Classical.choice, Quot.sound
Verif.Props.C15_extend: propext, Classical.choice, Quot.sound
Verif.Props.C15_empty: propext, Classical.choice, Quot.sound
Verif.Props.C15_idempotent: propext, Classical.choice, Quot.sound
Verif.Props.C15_associative: propext, Classical.choice, Quot.sound
Verif.Props.C16_extend_nodes: propext, Classical.choice, Quot.sound
Verif.Props.C16_extend_edges: propext, Classical.choice, Quot.sound
Verif.Props.C16_merge_nodes: propext, Classical.choice, Quot.sound
Verif.Props.C16_merge_edges: propext, Classical.choice, Quot.sound
Verif.Props.C16_state: propext, Classical.choice, Quot.sound
Verif.Props.C17_merge: propext, Classical.choice, Quot.sound
Verif.Props.C17_mergeNode: propext, Classical.choice, Quot.sound
Verif.Props.C17_mergeEdge: propext, Classical.choice, Quot.sound
Verif.Props.C18_union: propext, Classical.choice, Quot.sound
Verif.Props.C19_intersection: propext, Classical.choice, Quot.sound
Verif.Props.C20_computed: propext, Classical.choice, Quot.sound
Verif.Props.C20_difference_partial: propext, Classical.choice, Quot.sound
Verif.Props.C20_violated: propext, Classical.choice, Quot.sound
Verif.Props.C20_exact: propext, Classical.choice, Quot.sound
Verif.Props.C20_exact_intact: propext, Classical.choice, Quot.sound
Verif.Props.C21_tryEq: propext, Classical.choice, Quot.sound
Verif.Props.C21_mem: propext, Classical.choice, Quot.sound
Verif.Props.C21_left_error: propext, Classical.choice, Quot.sound
Verif.Props.C21_right_error: propext, Classical.choice, Quot.sound
Verif.Props.C22_computed: propext, Classical.choice, Quot.sound
Verif.Props.C22_complete: propext, Classical.choice, Quot.sound
Verif.Props.C22_eq_partial: propext, Classical.choice, Quot.sound
Verif.Props.C22_violated: propext, Classical.choice, Quot.sound
Verif.Props.C22_exact: propext, Classical.choice, Quot.sound
Verif.Props.C22_every_store: propext, Classical.choice, Quot.sound
Verif.Props.C23_mem: propext, Classical.choice, Quot.sound
Verif.Props.C23_sled: propext, Classical.choice, Quot.sound
Verif.Props.C24_kth: propext, Classical.choice, Quot.sound
Verif.Props.C24_distinct: propext, Classical.choice, Quot.sound
Verif.Props.C24_repeats: propext, Classical.choice, Quot.sound
Verif.Props.C25_mem_damage: propext, Classical.choice, Quot.sound
Verif.Props.C25_mem_no_damage: propext, Classical.choice, Quot.sound
Verif.Props.C25_sled_damage: propext, Classical.choice, Quot.sound
Verif.Props.C25_sled_no_damage: propext, Classical.choice, Quot.sound
Verif.Props.C25_sled_reopen_witness: propext, Classical.choice, Quot.sound
Verif.Props.C26_history: propext, Classical.choice, Quot.sound
Verif.Props.C26_total: propext, Classical.choice, Quot.sound
Verif.Props.C26_call: propext, Classical.choice, Quot.sound
Verif.Props.C26_from_reachable: propext, Classical.choice, Quot.sound
Verif.Props.C26_shows_unique: propext, Classical.choice, Quot.sound
Verif.Props.C27_iter: propext, Classical.choice, Quot.sound
Verif.Props.C27_query: propext, Classical.choice, Quot.sound
Verif.Props.C28_atomic: propext, Classical.choice, Quot.sound
Verif.Props.C28_shows: propext, Classical.choice, Quot.sound
Verif.Props.C29_crash: propext, Classical.choice, Quot.sound
Verif.Props.C29_spo: propext, Classical.choice, Quot.sound
Verif.Props.C29_disagree_witness: propext, Classical.choice, Quot.sound
Verif.Props.C30_consistent: propext, Classical.choice, Quot.sound
Verif.Props.C30_start: propext, Classical.choice, Quot.sound
Verif.Props.C31_violated: propext, Classical.choice, Quot.sound
Verif.Props.C31_consistent_partial: propext, Classical.choice, Quot.sound
Verif.Props.C31_edge_partial: propext, Classical.choice, Quot.sound
Verif.Props.C31_every_race: propext, Classical.choice, Quot.sound
Verif.Props.C31_exact: propext, Classical.choice, Quot.sound
Verif.Props.C32_mem_partial: propext, Classical.choice, Quot.sound
Verif.Props.C32_sled_computed: propext, Classical.choice, Quot.sound
Verif.Props.C32_sled_partial: propext, Classical.choice, Quot.sound
Verif.Props.C32_violated_sled: propext, Classical.choice, Quot.sound
Verif.Props.C32_violated_edges: propext, Classical.choice, Quot.sound
Verif.Props.C33_exact: propext, Classical.choice, Quot.sound
Verif.Props.C33_count: propext, Classical.choice, Quot.sound
Verif.Props.C33_noOverwrite_partial: propext, Classical.choice, Quot.sound
Verif.Props.C33_violated: propext, Classical.choice, Quot.sound
Verif.Props.C33_unbounded: propext, Classical.choice, Quot.sound
Verif.Props.C34_vertices: propext, Classical.choice, Quot.sound
Verif.Props.C34_edges: propext, Classical.choice, Quot.sound
Verif.Props.C34_edges_with_props: propext, Classical.choice, Quot.sound
Verif.Props.C34_deterministic: propext, Classical.choice, Quot.sound
Verif.Props.C34_vertices_set: propext, Classical.choice, Quot.sound
Verif.Props.C34_query: propext, Classical.choice, Quot.sound
Verif.Props.C35_same: propext, Classical.choice, Quot.sound
Verif.Props.C35_runs: propext, Classical.choice, Quot.sound
Verif.Props.C35_split: propext, Classical.choice, Quot.sound
Verif.Props.C35_reachable: propext, Classical.choice, Quot.sound
Verif.Props.C36_mem: propext, Classical.choice, Quot.sound
Verif.Props.C36_sled: propext, Classical.choice, Quot.sound
Verif.Props.C36_lawful_mem: propext, Quot.sound
Verif.Props.C36_lawful_sled: propext, Classical.choice, Quot.sound
Verif.Props.C37_sled: propext, Classical.choice, Quot.sound
Verif.Props.C37_mem_computed: none
Verif.Props.C37_mem_partial: propext, Quot.sound
Verif.Props.C37_mem_violated: none
Verif.Props.C38_stable: propext, Quot.sound
Verif.Props.C38_used: propext, Quot.sound
Verif.Props.C38_sled: propext, Classical.choice, Quot.sound
Verif.Props.C39_graph: propext, Classical.choice, Quot.sound
Verif.Props.C39_mem: propext, Classical.choice, Quot.sound
Verif.Props.C39_sled: propext, Classical.choice, Quot.sound
Verif.Props.C39_alias: propext, Classical.choice, Quot.sound
Verif.Props.C40_removeNode: none
Verif.Props.C40_removeEdge: propext, Quot.sound
Verif.Props.C40_run: propext, Quot.sound
Verif.Props.C41_computed: propext, Classical.choice, Quot.sound
Verif.Props.C41_computed_mem: propext, Classical.choice, Quot.sound
Verif.Props.C41_computed_sled: propext, Classical.choice, Quot.sound
Verif.Props.C41_partial: propext, Classical.choice, Quot.sound
Verif.Props.C41_violated: propext, Classical.choice, Quot.sound
Verif.Props.C42_map: propext, Quot.sound
Verif.Props.C42_map_comp: propext, Quot.sound
Verif.Props.C42_tryMap_ok: propext, Quot.sound
Verif.Props.C42_tryMap_error: propext, Quot.sound
Verif.Props.C42_tryMap_iff: propext, Quot.sound
Verif.Props.C42_ofTriples: propext, Quot.sound
Verif.Props.C42_triple_tryMap: propext
Verif.Props.C42_triple_tryMap_error: propext, Quot.sound
Verif.Props.C42_triple_map: none
Verif.Props.C42_propsTriple_tryMap: propext
Verif.Props.C42_propsTriple_map: none
Verif.Props.C43_expand: propext, Classical.choice, Quot.sound
Verif.Props.C44_union: propext, Classical.choice, Quot.sound
Verif.Props.C44_union_idempotent: propext, Classical.choice, Quot.sound
Verif.Props.C44_union_associative: propext, Classical.choice, Quot.sound
Verif.Props.C44_intersection: propext, Classical.choice, Quot.sound
Verif.Props.C44_intersection_idempotent: propext, Classical.choice, Quot.sound
Verif.Props.C44_intersection_associative: propext, Classical.choice, Quot.sound
Verif.Props.C45_debug: propext, Classical.choice, Quot.sound
Verif.Props.C46_errors: propext, Classical.choice, Quot.sound
Verif.Props.C46_succeed: propext, Classical.choice, Quot.sound
Verif.Props.C46_union_error: propext, Classical.choice, Quot.sound
Verif.Props.C47_repeat: propext, Classical.choice, Quot.sound
Verif.Props.C47_then: propext, Classical.choice, Quot.sound
Verif.Props.C47_result: propext, Classical.choice, Quot.sound
Verif.Props.C48_crash: propext, Classical.choice, Quot.sound
Verif.Props.C49_noDangling: propext, Classical.choice, Quot.sound
Verif.Props.C49_shows: propext, Classical.choice, Quot.sound
Verif.Props.C49_then: propext, Classical.choice, Quot.sound
Verif.Props.C50_moment: propext, Classical.choice, Quot.sound
Verif.Props.C50_final: propext, Classical.choice, Quot.sound
Verif.Props.C50_removeNode_violated: propext, Classical.choice, Quot.sound
Verif.Props.C51_violated: propext, Classical.choice, Quot.sound
Verif.Props.C51_partial: propext, Classical.choice, Quot.sound
Verif.Props.C51_noDangling_partial: propext, Classical.choice, Quot.sound
Verif.Props.C51_violated_others: propext, Classical.choice, Quot.sound
Verif.Props.C51_every_race: propext, Classical.choice, Quot.sound
Verif.Props.C51_exact: propext, Classical.choice, Quot.sound
Verif.Props.C52_partial: propext, Classical.choice, Quot.sound
Verif.Props.C52_violated: propext, Classical.choice, Quot.sound
Verif.Props.C52_exact: propext, Classical.choice, Quot.sound
Verif.Props.C52_lookups: propext, Classical.choice, Quot.sound
Verif.Props.C53_concurrent: propext, Classical.choice, Quot.sound
Verif.Props.C54_edge: propext, Classical.choice, Quot.sound
Verif.Props.C54_node: propext, Classical.choice, Quot.sound
Verif.Props.C54_oneThread: propext, Classical.choice, Quot.sound
Verif.Props.C54_oneThreadNode: propext, Classical.choice, Quot.sound
Verif.Props.C55_still_props: propext, Classical.choice, Quot.sound
Verif.Props.C55_withProps: propext, Classical.choice, Quot.sound
Verif.Props.C55_every_touch: propext, Classical.choice, Quot.sound
Verif.Props.C55_exact: propext, Classical.choice, Quot.sound
Verif.Props.C55_every_merge: propext, Classical.choice, Quot.sound
Verif.Props.C55_nodes_exact: propext, Classical.choice, Quot.sound
Verif.Props.C55_still: propext, Classical.choice, Quot.sound
Verif.Props.C55_still_nodes: propext, Classical.choice, Quot.sound
Verif.Props.C55_values: propext, Classical.choice, Quot.sound
Verif.Props.C55_listed: propext, Classical.choice, Quot.sound
Verif.Props.C55_kept: propext, Classical.choice, Quot.sound
Verif.Props.C55_untouched: propext, Classical.choice, Quot.sound
Verif.Props.C55_noErrors_partial: propext, Classical.choice, Quot.sound
Verif.Props.C55_nodes: propext, Classical.choice, Quot.sound
Verif.Props.C55_scans: propext, Classical.choice, Quot.sound
Verif.Props.C55_violated: propext, Classical.choice, Quot.sound
Verif.Props.C56_still: propext, Classical.choice, Quot.sound
Verif.Props.C56_answer: propext, Classical.choice, Quot.sound
Verif.Props.C56_untouched: propext, Classical.choice, Quot.sound
Verif.Props.C56_violated: propext, Classical.choice, Quot.sound
Verif.Props.C56_reads: propext, Classical.choice, Quot.sound
Verif.Props.C56_answer_bounded: propext, Classical.choice, Quot.sound
Verif.Props.C56_every_touch: propext, Classical.choice, Quot.sound
Verif.Props.C56_exact: propext, Classical.choice, Quot.sound
Verif.Props.C56_nodes_exact: propext, Classical.choice, Quot.sound
Verif.Props.C57_moments: propext, Classical.choice, Quot.sound
Verif.Props.C57_results: propext, Classical.choice, Quot.sound
Verif.Props.C57_crash: propext, Classical.choice, Quot.sound
Verif.Props.C57_history: propext, Classical.choice, Quot.sound
Verif.Props.C57_reads: propext, Classical.choice, Quot.sound
Verif.Props.C57_lazy: propext, Classical.choice, Quot.sound
Verif.Props.C58_fails: propext, Classical.choice, Quot.sound
Verif.Props.C58_moments: propext, Classical.choice, Quot.sound
Verif.Props.C58_output: propext, Classical.choice, Quot.sound
Verif.Props.C58_sameGraph: propext, Classical.choice, Quot.sound
Verif.Props.C58_sameGraph_partial: propext, Classical.choice, Quot.sound
Verif.Props.C58_blind: propext, Classical.choice, Quot.sound
Verif.Props.C58_violated: propext, Classical.choice, Quot.sound
Verif.Props.C58_nodesBlind: propext, Classical.choice, Quot.sound
Verif.Props.C59_sound: propext, Quot.sound
Verif.Props.C59_computed: propext, Classical.choice, Quot.sound
Verif.Props.C59_partial: propext, Classical.choice, Quot.sound
Verif.Props.C59_violated: propext, Classical.choice, Quot.sound
Verif.Props.C60_alone: propext, Classical.choice, Quot.sound
Verif.Props.C60_holds: propext, Classical.choice, Quot.sound
Verif.Props.C60_call: propext, Classical.choice, Quot.sound
Verif.Props.C60_crash: propext, Classical.choice, Quot.sound
Verif.Props.C60_again: propext, Classical.choice, Quot.sound
Verif.Props.C60_names_witness: propext, Classical.choice, Quot.sound
Verif.Props.C60_merge_witness: propext, Classical.choice, Quot.sound
Verif.Props.C61_every_race: propext, Classical.choice, Quot.sound
Verif.Props.C61_holds: propext, Classical.choice, Quot.sound
Verif.Props.C61_call: propext, Classical.choice, Quot.sound
Verif.Props.C61_moment: propext, Classical.choice, Quot.sound
Verif.Props.C61_final_partial: propext, Classical.choice, Quot.sound
Verif.Props.C61_names: propext, Classical.choice, Quot.sound
Verif.Props.C61_nameRace_violated: propext, Classical.choice, Quot.sound
Verif.Props.C61_nameRace_error: propext, Classical.choice, Quot.sound
Verif.Props.C62_increasing: propext, Classical.choice, Quot.sound
Verif.Props.C62_overflowing: propext, Quot.sound
Verif.Props.C62_distinct_iff: propext, Classical.choice, Quot.sound
Verif.Props.C62_distinct_partial: propext, Classical.choice, Quot.sound
Verif.Props.C62_overflow: propext, Quot.sound
Verif.Props.C62_later: propext, Quot.sound
Verif.Props.C62_new: propext, Quot.sound
Verif.Props.C62_mem: propext, Classical.choice, Quot.sound
Verif.Props.C62_sled: propext, Classical.choice, Quot.sound
Verif.Props.C62_violated: propext, Quot.sound
Verif.Props.C62_violated_store: propext, Classical.choice, Quot.sound
Verif.Props.C63_every_middle: propext, Classical.choice, Quot.sound
Verif.Props.C63_tryEq: propext, Classical.choice, Quot.sound
Verif.Props.C63_mem: propext, Classical.choice, Quot.sound
Verif.Props.C63_mem_sled: propext, Classical.choice, Quot.sound
Verif.Props.C63_sled: propext, Classical.choice, Quot.sound
Verif.Props.C63_refl: propext, Classical.choice, Quot.sound
Verif.Props.C63_symm: propext, Classical.choice, Quot.sound
Verif.Props.C63_trans: propext, Classical.choice, Quot.sound
Verif.Props.C63_left_error: propext, Classical.choice, Quot.sound
Verif.Props.C63_right_error: propext, Classical.choice, Quot.sound
Verif.Props.C63_eq: propext, Classical.choice, Quot.sound
Verif.Props.C63_eq_refl: propext, Classical.choice, Quot.sound
Verif.Props.C63_eq_symm: propext, Classical.choice, Quot.sound
Verif.Props.C63_eq_trans_partial: propext, Classical.choice, Quot.sound
Verif.Props.C63_eq_trans_violated: propext, Classical.choice, Quot.sound
Verif.Props.C64_meaning: propext, Classical.choice, Quot.sound
Verif.Props.C64_lawful: propext, Classical.choice, Quot.sound
Verif.Props.C64_lawful_merge: propext, Classical.choice, Quot.sound
Verif.Props.C64_mem: propext, Classical.choice, Quot.sound
Verif.Props.C64_sled: propext, Classical.choice, Quot.sound
Verif.Props.C64_set: propext, Classical.choice, Quot.sound
Verif.Props.C64_mem_merge: propext, Classical.choice, Quot.sound
Verif.Props.C64_sled_merge: propext, Classical.choice, Quot.sound
Verif.Props.C64_rdf: propext, Classical.choice, Quot.sound
Verif.Props.C64_iter_ids: propext, Classical.choice, Quot.sound
Verif.Props.C64_query_ids: propext, Classical.choice, Quot.sound
Verif.Props.C64_merge_ids: propext, Classical.choice, Quot.sound
Verif.Props.C65_holds: propext, Classical.choice, Quot.sound
Verif.Props.C65_call: propext, Classical.choice, Quot.sound
Verif.Props.C65_moment: propext, Classical.choice, Quot.sound
Verif.Props.C65_namesLast_partial: propext, Classical.choice, Quot.sound
Verif.Props.C65_namesFirst: propext, Classical.choice, Quot.sound
Verif.Props.C65_violated: propext, Classical.choice, Quot.sound
Verif.Props.C66_extend: propext, Classical.choice, Quot.sound
Verif.Props.C66_merge: propext, Classical.choice, Quot.sound
Verif.Props.C66_extend_same: propext, Classical.choice, Quot.sound
Verif.Props.C66_merge_twice: propext, Classical.choice, Quot.sound
Verif.Props.C67_programs: propext, Classical.choice, Quot.sound
Verif.Props.C67_errors: propext, Classical.choice, Quot.sound
Verif.Props.C67_counters: propext, Classical.choice, Quot.sound
Verif.Props.C67_two_counters: propext, Classical.choice, Quot.sound
Verif.Props.C68_triple: none
Verif.Props.C68_triple_map: none
Verif.Props.C68_query: propext, Quot.sound
Verif.Props.C68_log: propext, Quot.sound
Verif.Props.C68_pure: propext, Quot.sound
Verif.Props.C68_rdf: none
Verif.Props.C69_roundtrip: propext, Classical.choice, Quot.sound
Verif.Props.C69_prefixFree: propext, Classical.choice, Quot.sound
Verif.Props.C69_truncated: propext, Classical.choice, Quot.sound
Verif.Props.C69_codecs: propext, Classical.choice, Quot.sound
Verif.Props.C69_store: propext, Classical.choice, Quot.sound
Verif.Props.C69_names: propext, Classical.choice, Quot.sound
Verif.Props.C70_lawful: propext, Classical.choice, Quot.sound
Verif.Props.C70_mem: propext, Classical.choice, Quot.sound
Verif.Props.C70_sled: propext, Classical.choice, Quot.sound
Verif.Props.C70_bincode: propext, Classical.choice, Quot.sound
Verif.Props.C70_conformance: propext, Classical.choice, Quot.sound
Verif.Props.C70_macro: propext, Classical.choice, Quot.sound
Verif.Props.C71_query: propext, Classical.choice, Quot.sound
Verif.Props.C71_damage: propext, Classical.choice, Quot.sound
Verif.Props.C71_mem: propext, Classical.choice, Quot.sound
Verif.Props.C71_call: propext, Classical.choice, Quot.sound
Verif.Props.C71_calls: propext, Classical.choice, Quot.sound
Verif.Props.C71_removeNode: propext, Classical.choice, Quot.sound
Verif.Props.C71_apart: propext, Classical.choice, Quot.sound
Verif.Props.C71_threads: propext, Classical.choice, Quot.sound
Verif.Props.C71_moment: propext, Classical.choice, Quot.sound
Verif.Props.C72_serial: propext, Classical.choice, Quot.sound
Verif.Props.C72_no_common_order: propext, Classical.choice, Quot.sound
Verif.Props.C72_written: propext, Classical.choice, Quot.sound
Verif.Props.C72_removed: propext, Classical.choice, Quot.sound
Verif.Props.C72_alone: propext, Classical.choice, Quot.sound
Verif.Props.C73_shows: propext, Classical.choice, Quot.sound
Verif.Props.C73_insertEdge: propext, Classical.choice, Quot.sound
Verif.Props.C73_mergeEdge: propext, Classical.choice, Quot.sound
Verif.Props.C73_removeEdge: propext, Classical.choice, Quot.sound
Verif.Props.C73_removeNode: propext, Classical.choice, Quot.sound
Verif.Props.C73_extend: propext, Classical.choice, Quot.sound
Verif.Props.C73_merge: propext, Classical.choice, Quot.sound
Verif.Props.C73_unused: propext, Classical.choice, Quot.sound
Verif.Props.C73_redo_extend: propext, Classical.choice, Quot.sound
Verif.Props.C73_redo_merge: propext, Classical.choice, Quot.sound
Verif.Props.C73_removeNode_leaves: propext, Classical.choice, Quot.sound
Verif.Props.C74_still: propext, Classical.choice, Quot.sound
Verif.Props.C74_moment: propext, Classical.choice, Quot.sound
Verif.Props.C74_final: propext, Classical.choice, Quot.sound
Verif.Props.C74_moment_scans: propext, Classical.choice, Quot.sound
Verif.Props.C74_final_scans: propext, Classical.choice, Quot.sound
Verif.Props.C75_moment: propext, Classical.choice, Quot.sound
Verif.Props.C75_final: propext, Classical.choice, Quot.sound
Verif.Props.C75_moment_scans: propext, Classical.choice, Quot.sound
Verif.Props.C75_final_scans: propext, Classical.choice, Quot.sound
Verif.Props.C75_alone_needed: propext, Classical.choice, Quot.sound
Verif.Props.C76_moment: propext, Classical.choice, Quot.sound
Verif.Props.C76_final: propext, Classical.choice, Quot.sound
Verif.Props.C76_moment_scans: propext, Classical.choice, Quot.sound
Verif.Props.C76_final_scans: propext, Classical.choice, Quot.sound
Verif.Props.C76_strict: propext, Classical.choice, Quot.sound
Verif.Props.C76_removeNode: propext, Classical.choice, Quot.sound
Verif.Props.C76_copy: propext, Classical.choice, Quot.sound
Verif.Props.C76_left_from: propext, Classical.choice, Quot.sound
Verif.Props.C76_left_to: propext, Classical.choice, Quot.sound
Verif.Props.C77_sessions: propext, Classical.choice, Quot.sound
Verif.Props.C77_strict: propext, Classical.choice, Quot.sound
Verif.Props.C77_left: propext, Classical.choice, Quot.sound
Verif.Props.C78_insertNode: propext, Classical.choice, Quot.sound
Verif.Props.C78_insertEdge: propext, Classical.choice, Quot.sound
Verif.Props.C78_queryNode: propext, Classical.choice, Quot.sound
Verif.Props.C78_queryEdge: propext, Classical.choice, Quot.sound
Verif.Props.C78_twice: propext, Classical.choice, Quot.sound
Verif.Props.C79_sessions: propext, Classical.choice, Quot.sound
Verif.Props.C79_noNameRace: propext, Quot.sound
Verif.Props.C79_left: propext, Classical.choice, Quot.sound
Verif.Props.C80_still: propext, Classical.choice, Quot.sound
Verif.Props.C80_names: propext, Classical.choice, Quot.sound
Verif.Props.C80_edges: propext, Classical.choice, Quot.sound
Verif.Props.C80_kept: propext, Classical.choice, Quot.sound
Verif.Props.C80_still_nodes: propext, Classical.choice, Quot.sound
Verif.Props.C80_nodes: propext, Classical.choice, Quot.sound
Verif.Props.C80_withProps: propext, Classical.choice, Quot.sound
Verif.Props.C80_names_witness: propext, Classical.choice, Quot.sound
Verif.Props.C80_violated: propext, Classical.choice, Quot.sound
Verif.Props.C81_still: propext, Classical.choice, Quot.sound
Verif.Props.C81_names: propext, Classical.choice, Quot.sound
Verif.Props.C81_answer: propext, Classical.choice, Quot.sound
Verif.Props.C81_entities: propext, Classical.choice, Quot.sound
Verif.Props.C81_violated: propext, Classical.choice, Quot.sound
Verif.Props.C82_programs: propext, Classical.choice, Quot.sound
Verif.Props.C82_errors: propext, Classical.choice, Quot.sound
Verif.Props.C82_alias: propext, Classical.choice, Quot.sound
Verif.Props.C83_extend: propext, Classical.choice, Quot.sound
Verif.Props.C83_merge: propext, Classical.choice, Quot.sound
Verif.Props.C84_results: propext, Classical.choice, Quot.sound
Verif.Props.C84_rdf: propext, Classical.choice, Quot.sound
Verif.Props.C84_quiet: propext, Classical.choice, Quot.sound
Verif.Props.C84_unknown: propext, Classical.choice, Quot.sound
Verif.Props.C85_before: propext, Classical.choice, Quot.sound
Verif.Props.C85_store: propext, Classical.choice, Quot.sound
Verif.Props.C85_bulk: propext, Classical.choice, Quot.sound
Verif.Props.C85_rdf: propext, Classical.choice, Quot.sound
Verif.Props.C86_steps: propext, Classical.choice, Quot.sound
Verif.Props.C86_closures: propext, Classical.choice, Quot.sound
Verif.Props.C86_batches: propext, Classical.choice, Quot.sound
Verif.Props.C86_course: propext, Classical.choice, Quot.sound
Verif.Props.C86_moment: propext, Classical.choice, Quot.sound
Verif.Props.C86_final: propext, Classical.choice, Quot.sound
Verif.Props.C86_conflict: propext, Classical.choice, Quot.sound
Verif.Props.C86_rdf_steps: propext, Classical.choice, Quot.sound
Verif.Props.C86_set: propext, Classical.choice, Quot.sound
Verif.Props.C86_rdf_course: propext, Classical.choice, Quot.sound
Verif.Props.C86_rdf: propext, Classical.choice, Quot.sound
Verif.Props.C87_store: propext, Classical.choice, Quot.sound
Verif.Props.C87_scans: propext, Classical.choice, Quot.sound
Verif.Props.C87_strict: propext, Classical.choice, Quot.sound
Verif.Props.C87_once_violated: propext, Classical.choice, Quot.sound
Verif.Props.C88_rdf: propext, Classical.choice, Quot.sound
Verif.Props.C88_strict: propext, Classical.choice, Quot.sound
Verif.Props.C89_calls: propext, Classical.choice, Quot.sound
Verif.Props.C89_steps: propext, Classical.choice, Quot.sound
Verif.Props.C89_own: propext, Classical.choice, Quot.sound
Verif.Props.C89_least: propext, Classical.choice, Quot.sound
Verif.Props.C89_reruns: propext, Classical.choice, Quot.sound
Verif.Props.C89_no_livelock: propext, Classical.choice, Quot.sound
Verif.Props.C89_goes_on: propext, Classical.choice, Quot.sound
Verif.Props.C89_changes: propext, Classical.choice, Quot.sound
Verif.Props.C89_rdf_calls: propext, Classical.choice, Quot.sound
Verif.Props.C89_rdf_steps: propext, Classical.choice, Quot.sound
Verif.Props.C89_rdf_own: propext, Classical.choice, Quot.sound
Verif.Props.C89_rdf_reruns: propext, Classical.choice, Quot.sound
Verif.Props.C89_rdf_no_livelock: propext, Classical.choice, Quot.sound
Verif.Props.C89_rdf_goes_on: propext, Classical.choice, Quot.sound
Verif.Props.C90_keys: propext, Classical.choice, Quot.sound
Verif.Props.C90_scan: propext, Classical.choice, Quot.sound
Verif.Props.C90_no_endless: propext, Classical.choice, Quot.sound
Verif.Props.C90_fine: propext, Classical.choice, Quot.sound
Verif.Props.C90_sessions: propext, Classical.choice, Quot.sound
Verif.Props.C90_rdf_keys: propext, Classical.choice, Quot.sound
Verif.Props.C90_rdf_scan: propext, Classical.choice, Quot.sound
Verif.Props.C90_rdf_sessions: propext, Classical.choice, Quot.sound
Verif.Props.C91_store: propext, Classical.choice, Quot.sound
Verif.Props.C91_fine: propext, Classical.choice, Quot.sound
Verif.Props.C91_order: propext, Quot.sound
Verif.Props.C91_later: propext, Quot.sound
Verif.Props.C91_moment_violated: propext, Classical.choice, Quot.sound
Verif.Props.C92_rdf: propext, Classical.choice, Quot.sound
Verif.Props.C92_fine: propext, Classical.choice, Quot.sound
Verif.Props.C92_moment_violated: propext, Classical.choice, Quot.sound
Verif.Props.C93_programs: propext, Classical.choice, Quot.sound
Verif.Props.C93_unique: propext, Quot.sound
Verif.Props.C93_converge: propext, Classical.choice, Quot.sound
Verif.Props.C93_exact: propext, Classical.choice, Quot.sound
Verif.Props.C93_rdf: propext, Classical.choice, Quot.sound
Verif.Props.C93_crate: none
Verif.Props.C93_sessions: propext, Classical.choice, Quot.sound
Verif.Props.C93_again: propext, Classical.choice, Quot.sound
Verif.Props.C93_extend: propext, Classical.choice, Quot.sound
Verif.Props.C94_before: propext, Classical.choice, Quot.sound
Verif.Props.C94_ids: propext, Classical.choice, Quot.sound
Verif.Props.C94_store: propext, Classical.choice, Quot.sound
Verif.Props.C94_again: propext, Classical.choice, Quot.sound
Verif.Props.C94_rdf: propext, Classical.choice, Quot.sound
Verif.Props.C94_rdf_ids: propext, Classical.choice, Quot.sound
Verif.Props.C94_durable_violated: propext, Classical.choice, Quot.sound
Verif.Props.C95_two: propext, Classical.choice, Quot.sound
Verif.Props.C95_one: propext, Classical.choice, Quot.sound
Verif.Props.C95_told: propext, Classical.choice, Quot.sound
Verif.Props.C95_still: propext, Classical.choice, Quot.sound
Verif.Props.C95_size: propext, Classical.choice, Quot.sound
Verif.Props.C95_moment: propext, Classical.choice, Quot.sound
Verif.Props.C95_final: propext, Classical.choice, Quot.sound
Verif.Props.C95_own: propext, Classical.choice, Quot.sound
Verif.Props.C95_final_one: propext, Classical.choice, Quot.sound
Verif.Props.C95_moment_one: propext, Classical.choice, Quot.sound
Verif.Props.C95_backup: propext, Classical.choice, Quot.sound
Verif.Props.C95_backup_new: propext, Classical.choice, Quot.sound
Verif.Props.C95_backup_extend: propext, Classical.choice, Quot.sound
Verif.Props.C95_violated: propext, Classical.choice, Quot.sound
Verif.Props.C95_violated_edges: propext, Classical.choice, Quot.sound
