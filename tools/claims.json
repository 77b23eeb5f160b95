{
 "C20": {
  "status": "partial",
  "note": "The code violates the property (C20_violated). C20_computed is the exact result for all inputs; C20_difference_partial proves the property when self has no orphaned edge and every edge with a removed endpoint lies below some edge of other. C20_exact says when exactly the result is right, for all inputs: no edge above every edge of other has a removed endpoint, and no edge below one is left out for a node of other that self does not hold. C20_exact_intact: for a store without orphaned edges only the first matters."
 },
 "C22": {
  "status": "partial",
  "note": "The code violates the property (C22_violated): the two edge maps are zipped without comparing lengths. C22_computed is the exact meaning of ==; C22_eq_partial proves the property for stores with equally many edges; C22_complete proves one direction in full. C22_exact: == takes two graphs for equal if and only if one is the other with further edges, all of them after its own; C22_every_store: so every store is == to a different one."
 },
 "C31": {
  "status": "partial",
  "note": "The code violates the property (C31_violated): the removals that follow the transaction of remove_edge hit an edge inserted in the meantime. C31_consistent_partial proves consistency at every moment when no thread removes an edge that another thread writes; C31_edge_partial the same for each edge separately, whatever races there are on other edges and with extends of other edges. C72 says what each ordering by itself looks like after the races. C31_every_race: every such race can be lost: whatever the threads do, if one removes an edge that another one writes, some schedule leaves the edge in SPO only, with no call under way. C31_exact: for threads without extend the condition is therefore necessary and sufficient."
 },
 "C51": {
  "status": "partial",
  "note": "The code violates the property (C51_violated): two extends writing the same edge leave dangling ids (C51_violated_others: so does one extend next to a remove_edge or merge_edge of the same edge). C51_noDangling_partial: if the edges written by an extend are not touched by other threads, iteration yields no error at any moment, whatever the other calls do to other edges. C51_partial: if every edge and node is touched by at most one thread, any calls (extends included) end in the graph of running the threads one after the other. C51_every_race: if another thread writes an edge by which one extends the store, some schedule leaves different ids in the orderings. C51_exact: as long as no node of an extended edge is removed, the orderings agree in every schedule if and only if no thread writes an edge which another one removes or extends the store by."
 },
 "C32": {
  "status": "partial",
  "note": "The code violates the property (C32_violated_sled, C32_violated_edges): sled's iter_edges_with_props yields MissingPropertyData for orphaned edges, and iter_edges yields them on both back-ends. C32_mem_partial proves the property for the in-memory iter_edges_with_props, C32_sled_computed is the exact result of the sled one, C32_sled_partial proves the property for sled stores without orphaned edges."
 },
 "C33": {
  "status": "partial",
  "note": "The code violates the property (C33_violated, C33_unbounded): insert_edge leaves the record of the value it replaces. C33_exact and C33_count say exactly what is left for all histories over any number of runs; C33_noOverwrite_partial proves the property when no insert_edge replaces an edge."
 },
 "C37": {
  "status": "partial",
  "note": "The code violates the property for MemHashIndex (C37_mem_violated): set inserts the name before it finds the id taken. C37_sled proves the property for SledHashIndex on any contents; C37_mem_computed says exactly what a failed set leaves; C37_mem_partial proves the property for failures reported as DuplicateRight."
 },
 "C52": {
  "status": "partial",
  "note": "The code violates the property (C52_violated): the two values of an error come in opposite orders, and after a failed set the indices differ. C52_partial proves that they agree, conflicts included, up to and including the first failure. C52_exact: the outcomes of any series of set calls agree if and only if no name is set again after its id was refused as taken; C52_lookups: then all look-ups agree but those of such names."
 },
 "C41": {
  "status": "partial",
  "note": "The code violates the property (C41_violated): run fails when a name occurs twice among the edges of the result. C41_computed (with _mem and _sled instances) is the exact outcome for all histories and queries; C41_partial proves the property for node queries and for results in which no name occurs twice."
 },
 "C55": {
  "status": "partial",
  "note": "The code violates the property (C55_violated): one merge_edge of another handle between reading an entry and its record makes iter_edges return MissingPropertyData for an edge that exists all the time. C55_values, C55_listed, C55_kept, C55_untouched and C55_nodes prove the rest for all schedules and races: order, values, completeness, no error for edges that are only inserted again, nodes without errors. C55_noErrors_partial proves the whole property when the other handles change edges by insert_edge only. C55_withProps and C55_still_props are the same for iter_edges_with_props. C55_exact and C55_nodes_exact say when exactly: whatever the store and the threads, an edge (node) is sure to be returned if and only if no thread touches it otherwise than by insert_edge (removes it); C55_every_touch and C55_every_merge give the schedule that loses it."
 },
 "C56": {
  "status": "partial",
  "note": "The code violates the property (C56_violated): one merge_edge of another handle between reading an entry and its record makes run leave out an edge that exists all the time, without an error. C56_answer and C56_untouched prove the rest for all queries, schedules and races: no failure, only edges and nodes asked for with properties they had, completeness for edges that are only inserted again, for nodes that are not removed, and exactness for what nobody touches. C56_still: while nobody writes this is the query modelled in C14. C56_exact and C56_nodes_exact: an edge (node) asked for is sure to be in the result if and only if no thread touches it otherwise than by insert_edge (removes it); C56_every_touch gives the schedule. C56_reads and C56_answer_bounded bound the number of edges a query comes across in advance."
 },
 "C58": {
  "status": "partial",
  "note": "The code violates the property (C58_violated): an unreferenced record left by insert_edge is printed. C58_sameGraph proves that nothing but that line can differ, C58_sameGraph_partial that stores without such records print the same; C58_output says exactly what is printed, C58_fails and C58_moments when formatting fails: never on contents the library has written, not even while others write. C58_blind and C58_nodesBlind: node properties are not printed at all, so stores with different graphs can print the same."
 },
 "C59": {
  "status": "partial",
  "note": "The code violates the property (C59_violated): the same two nodes inserted in different orders compare as different. C59_computed is the exact outcome for all pairs of histories: true iff the graphs are equal and the ids put their nodes and edges in the same order; C59_sound: true is returned only for equal graphs, and never an error; C59_partial: the property under the condition on the order."
 },
 "C61": {
  "status": "partial",
  "note": "C61_holds, C61_call, C61_moment, C61_names hold as stated. C61_final_partial (all calls done, so all operations have taken effect) needs that no two threads create the same new name: without that the code violates the property (C61_nameRace_violated): lookup_or_create_entity looks the name up and sets it in two separate steps, so a call can fail with DuplicateRight (C61_nameRace_error) though every operation alone would succeed, and its edge is missing. C61_every_race: the restriction is needed for every such pair of calls, not only the witness: whenever two calls make the same new name known, there is a moment in the first at which the whole second can run so that the first fails with DuplicateRight, having done only what came before the name."
 },
 "C62": {
  "status": "partial",
  "note": "The code violates the property (C62_violated, C62_violated_store): when the random bits of the generator overflow, fresh falls back on Ulid::new(), which may return an id given before. C62_distinct_iff: the ids are distinct if and only if those made after an overflow happen to be; C62_distinct_partial: without overflow they are; C62_overflow: in n calls none can, unless a random number drawn is among the n largest of 2^80. C62_sled excludes extend, which takes its ids from Ulid::new() rather than from the generator (C62_new)."
 },
 "C63": {
  "status": "partial",
  "note": "The code violates the property for == on MemTripleStore (C63_eq_trans_violated): it is not transitive, because the edge maps are zipped without comparing lengths. C63_eq_trans_partial: it is, over a store in the middle that does not have fewer edges than both others. Everything else is proved in full: C63_tryEq, C63_mem, C63_mem_sled, C63_sled, C63_refl, C63_symm, C63_trans, the errors (C63_left_error, C63_right_error), and C63_eq, C63_eq_refl, C63_eq_symm for ==. C63_every_middle: any store can be the one in the middle over which == is not transitive."
 },
 "C65": {
  "status": "partial",
  "note": "The code violates the property when the index loses calls that the data have kept (C65_violated): a node then has lost its name, and repeating the calls makes a second one. C65_namesLast_partial: the property holds when the index keeps at least the calls up to the moment of the data; C65_namesFirst is the exact outcome otherwise: the graph of the moment of the data, with lost names replaced by ids. In all cases, after any number of such crashes, the store holds exactly one graph over entities (C65_holds), later calls do what they should (C65_call), and at each moment the databases together hold what has been done of the calls (C65_moment)."
 }
}
