#!/usr/bin/env python3
"""Writes /verif/properties.jsonl. Kept so the list can be extended without hand-escaping JSON."""
import json, os
P = []
def p(title, statement, quantifier, why, anchors):
    P.append(dict(id=f"C{len(P)+1:02d}", title=title, statement=statement,
                  quantifier=quantifier, why_tests_cant=why, anchors=anchors))

# ---- identifiers and keys -------------------------------------------------
p("Id bytes round-trip",
  "For u64 and Ulid ids: try_from_be_bytes(to_be_bytes(x)) = Some(x) and from_be_bytes(to_be_bytes(x)) = x; try_from_be_bytes rejects (None) every slice whose length is not the id width, and any slice it accepts is exactly the to_be_bytes of the id it returns.",
  "every 64-bit / 128-bit id and every byte slice of every length",
  "2^64 and 2^128 ids and unboundedly many slices",
  ["src/id/u64.rs: to_be_bytes, from_be_bytes, try_from_be_bytes", "src/id/ulid.rs: to_be_bytes, from_be_bytes, try_from_be_bytes"])
p("Triple keys round-trip in all three layouts",
  "For each layout (SPO, POS, OSP): decode(encode(t)) = t for every triple, encode(decode(k)) = k for every 24/48-byte key; hence distinct triples never share a key and every well-sized key denotes exactly one triple.",
  "every triple of ids, every key of the right length, all three layouts, both id types",
  "2^192 / 2^384 triples; existing tests check one literal and only for Ulid",
  ["src/id/u64.rs: encode_*_triple, decode_*_triple", "src/id/ulid.rs: encode_*_triple, decode_*_triple"])
p("Byte order of keys is numeric order of ids",
  "Comparing two encoded keys byte-wise (the order used by BTreeMap and sled) gives exactly the lexicographic numeric order of (sub,pred,obj) for SPO, (pred,obj,sub) for POS and (obj,sub,pred) for OSP; comparing to_be_bytes gives the numeric order of ids.",
  "every pair of triples / ids",
  "needs all pairs, including carries across every byte boundary",
  ["src/id/u64.rs", "src/id/ulid.rs", "src/traits/id_type.rs: ConcreteIdType"])
p("Prefix ranges are exact",
  "key_bounds_1(a) contains the key of a triple iff the first component of that layout is a; key_bounds_2(a,b) iff the first two components are a,b. Nothing is missed at id 0 or at the maximum id, neighbours a-1/a+1 never leak in, and lower <= upper so the range call cannot panic.",
  "every id (including 0 and MAX), every triple, all layouts",
  "boundary behaviour for all ids; a wrong bound only shows on unlucky ids",
  ["src/id/u64.rs: key_bounds_1, key_bounds_2", "src/id/ulid.rs: key_bounds_1, key_bounds_2"])
p("Triple comparison is a total order agreeing with equality and with SPO key order",
  "Triple::partial_cmp never returns None, returns Equal iff the triples are ==, is antisymmetric and transitive, and t < u iff the SPO key of t is byte-wise below that of u.",
  "every pair / triple of triples",
  "order laws quantify over all pairs and triples of values; set operations rely on them",
  ["src/triple.rs: impl PartialOrd for Triple", "src/mem/set.rs"])
# ---- in-memory store --------------------------------------------------------
p("In-memory store refines a pair of maps (last write wins)",
  "After any sequence of insert_node, insert_edge, remove_node, remove_edge, merge_node, merge_edge, extend, merge on a MemTripleStore, the visible contents equal those of the abstract graph (Id -> NodeProps, Triple -> EdgeProps) obtained by applying the same operations abstractly, provided the id generator did not repeat an id within the history.",
  "every operation history of any length, every property type, every generator whose drawn ids do not repeat",
  "unbounded histories",
  ["src/mem/insert.rs", "src/mem/remove.rs", "src/mem/merge.rs", "src/mem/extend.rs", "src/mem/iter.rs"])
p("The three edge orderings never diverge",
  "In every reachable MemTripleStore, iter_edges(SPO), iter_edges(POS), iter_edges(OSP) list the same edges with the same properties: they are permutations of each other; same for iter_edges_with_props.",
  "every reachable state, every order",
  "divergence depends on history; tests look at a handful of histories",
  ["src/mem.rs: MemTripleStore", "src/mem/insert.rs: insert_edge_data_internal", "src/mem/remove.rs", "src/mem/iter.rs"])
p("Iteration is complete, duplicate-free and sorted",
  "iter_vertices/vertices list every node exactly once in increasing id order with its current properties; iter_edges(order) lists every edge exactly once, with current properties, strictly increasing in the numeric lexicographic order of that EdgeOrder.",
  "every reachable state, every EdgeOrder",
  "all states and sizes",
  ["src/mem/iter.rs: vertices, iter_vertices, iter_edges, iter_nodes", "src/lib.rs: EdgeOrder"])
p("iter_edges_with_props reports exactly the non-orphaned edges",
  "On MemTripleStore iter_edges_with_props(order) yields, in key order, exactly the edges whose subject and object both have node properties, each with the current properties of subject, edge and object; orphaned edges are skipped silently, and become visible again once the missing node is inserted.",
  "every reachable state, every EdgeOrder",
  "all combinations of missing endpoints and histories",
  ["src/mem/iter.rs: iter_impl, iter_edges_with_props, into_iter_edges_with_props", "src/traits/insert.rs (doc warning)"])
p("Inserts touch only their own key",
  "insert_node changes only that node; insert_edge changes only that edge (and no node). All other nodes and edges keep exactly the same properties, even if they share subject, predicate or object with the inserted triple.",
  "every state, node, triple and property value",
  "frame conditions quantify over all other keys",
  ["src/mem/insert.rs", "src/sled/insert.rs"])
p("remove_node removes exactly the node and its incident edges",
  "After remove_node(n): n has no properties; every edge with n as subject or object (self-loops included) is gone from every ordering; every other edge, including those using n only as predicate, and every other node is unchanged. Removing an absent node removes its dangling edges and nothing else.",
  "every state and node id",
  "all graph shapes",
  ["src/mem/remove.rs: remove_node, get_spo_edge_range, get_osp_edge_range", "src/sled/remove.rs: remove_node"])
p("remove_edge is exact and idempotent",
  "remove_edge(t) removes t from all three orderings and leaves every node and every other edge unchanged; removing an absent edge is a no-op; doing it twice equals doing it once.",
  "every state and triple",
  "all states",
  ["src/mem/remove.rs: remove_edge", "src/sled/remove.rs: remove_edge"])
p("In-memory edge property storage neither leaks nor aliases",
  "In every reachable MemTripleStore there is exactly one stored edge-property record per edge: no unreferenced record (visible in Debug output and memory growth), no edge without record, and no two edges sharing a record.",
  "every reachable state",
  "leaks accumulate over arbitrary histories",
  ["src/mem/insert.rs: insert_edge_create_data", "src/mem/remove.rs", "src/mem/merge.rs", "src/mem/extend.rs"])
p("Queries return exactly the matching part of the graph",
  "run(NodeProps(ids)) returns exactly the present nodes among ids and no edges; run(S/P/O/SP/PO/SO/SPO(set)) returns exactly the edges matching a member of the set, with their properties, and no node properties; the iteration order of the query set does not matter; the queried store is unchanged. Same for SledTripleStore.",
  "every reachable state, each query kind, every finite query set in every iteration order",
  "all states x all query sets x all hash orders",
  ["src/mem/query.rs: run", "src/sled/query.rs: run"])
p("extend overwrites with the other store",
  "self.extend(other): every node/edge of other ends up in self with other's properties, everything else in self is unchanged. extend with an empty store is the identity, extend is idempotent and associative.",
  "every pair (triple) of stores",
  "all pairs of stores",
  ["src/mem/extend.rs", "src/sled/extend.rs"])
p("extend/merge stop cleanly at the first source error",
  "If iterating other yields an error, extend/merge return that error tagged Right, and self has absorbed exactly the items produced before it (nodes first, then edges in SPO order), still satisfying all store invariants.",
  "every store, every item stream with an error at any position",
  "every error position",
  ["src/mem/extend.rs", "src/mem/merge.rs", "src/sled/extend.rs", "src/sled/merge.rs"])
p("merge combines duplicates with Mergeable and copies the rest",
  "merge/merge_node/merge_edge: an absent element is inserted as is, a present one becomes old.merge(new) (receiver = existing value); elements not in other are unchanged.",
  "every pair of stores, every Mergeable implementation",
  "Mergeable is an arbitrary user function; all pairs of stores",
  ["src/mem/merge.rs", "src/sled/merge.rs", "src/traits/mergeable.rs"])
p("union",
  "a.union(b) contains exactly the nodes and edges of a or b; where both have an element the properties are those of b.",
  "every pair of stores", "all pairs of stores", ["src/mem/set.rs: union"])
p("intersection",
  "a.intersection(b) contains exactly the nodes and edges present in both (by key, independently of properties), with a's properties.",
  "every pair of stores (b any store iterating in SPO order)", "all pairs; the merge-join must be right for every interleaving of keys", ["src/mem/set.rs: intersection"])
p("difference",
  "a.difference(b) contains exactly the nodes of a not in b, and exactly the edges of a not in b none of whose endpoints was removed.",
  "every pair of stores", "all pairs; the tail loop is only reached for some key interleavings", ["src/mem/set.rs: difference"])
p("try_eq decides graph equality",
  "a.try_eq(b) = Ok(true) iff a and b have the same nodes and edges with equal properties; for stores of any kind (Mem, Sled) whose iteration is error free; it is insensitive to internal edge-property ids; an iteration error reached first is reported on the correct side.",
  "every pair of stores of any backend", "all pairs of stores", ["src/traits/triplestore.rs: try_eq"])
p("== on MemTripleStore decides graph equality",
  "a == b iff a and b contain the same nodes and edges with equal properties (regardless of internal ids).",
  "every pair of reachable stores", "all pairs; only unequal-length edge sets expose a defect", ["src/mem.rs: impl PartialEq"])
p("Consuming and borrowing iterators agree",
  "into_iter_nodes / into_iter_vertices / into_iter_edges / into_iter_edges_with_props yield exactly the sequences of their borrowing counterparts, for Mem and Sled.",
  "every state and order", "all states", ["src/mem/iter.rs", "src/sled/iter.rs"])
p("Counter id generator never repeats an id under any interleaving",
  "Ids drawn from a U64IdGenerator and all its clones, under any interleaving of callers, are pairwise distinct for the first 2^64 draws, whatever the initial value (wrapping past u64::MAX included); the next draw repeats the first id.",
  "every initial value, every schedule of callers", "2^64 draws and all schedules", ["src/id/u64.rs: U64IdGenerator"])
p("Repeated generator ids: exact damage",
  "insert_edge with a generator id that some other edge already uses makes that other edge silently show the new properties; conversely if the drawn id is not in use no other edge changes. In particular reopening a sled database with a counter generator restarted at its initial value corrupts existing edges.",
  "every state and drawn id", "depends on id history across restarts", ["src/sled/insert.rs", "src/mem/insert.rs", "src/id/u64.rs"])
# ---- sled ---------------------------------------------------------------------
p("Sled store refines the same abstract graph",
  "After any sequence of insert/remove/merge/extend operations on a SledTripleStore (no storage error, bincode round-trips, drawn ids not in use), the visible contents equal the abstract graph after the same operations.",
  "every history", "unbounded histories", ["src/sled/insert.rs", "src/sled/remove.rs", "src/sled/merge.rs", "src/sled/extend.rs", "src/sled/iter.rs"])
p("Mem and Sled back-ends are observationally equivalent",
  "The same history on a MemTripleStore and a SledTripleStore gives identical iter_vertices and iter_edges sequences in every order and identical query results (compared as graphs).",
  "every history, every observation", "unbounded histories", ["src/mem", "src/sled", "src/conformance"])
p("Sled single operations are atomic at every crash point",
  "A crash (or storage error) at any point during insert_node, insert_edge, merge_node, merge_edge, remove_node, remove_edge leaves the database in a state whose visible graph is exactly that before or exactly that after the operation.",
  "every state, operation and crash point", "all crash points", ["src/sled/insert.rs", "src/sled/remove.rs", "src/sled/merge.rs"])
p("Sled extend is crash-safe per edge in SPO order",
  "At every crash point of extend, the SPO view of the database is the old graph with some prefix of other's items applied: no edge loses its properties and no iteration yields MissingPropertyData that it did not before. (The three orderings can disagree on the edge in flight; shown by a witness.)",
  "every pair of stores, every crash point", "all crash points", ["src/sled/extend.rs"])
p("Sled orderings stay consistent under concurrent handles",
  "With any number of handles on one database running insert_node, insert_edge, merge_node, merge_edge, remove_node concurrently, at every moment the three orderings contain exactly the same triples.",
  "every number of handles, every interleaving of their atomic sled calls", "all schedules", ["src/sled/insert.rs", "src/sled/merge.rs", "src/sled/remove.rs"])
p("Concurrent remove_edge and insert_edge stay consistent",
  "With handles running remove_edge and insert_edge concurrently on one database, the three orderings contain the same triples once all calls have returned.",
  "every interleaving", "a race window of a few instructions", ["src/sled/remove.rs: remove_edge"])
p("Orphaned edges are ignored by iteration",
  "As documented on insert_edge, edges referring to missing nodes are ignored by iteration functions: iteration over a store with orphaned edges yields exactly the other edges and no error, on both back-ends.",
  "every reachable state", "all states with missing endpoints", ["src/traits/insert.rs (doc)", "src/mem/iter.rs", "src/sled/iter.rs: iter_impl"])
p("Sled edge property storage does not leak",
  "In every reachable SledTripleStore each stored edge-property record is referenced by an edge.",
  "every reachable state", "leak depends on history", ["src/sled/insert.rs: insert_edge", "src/sled/extend.rs", "src/sled/merge.rs"])
p("Sled reads are total on arbitrary database contents",
  "Whatever bytes are in the trees (wrong key sizes, undecodable values, dangling ids), iteration and queries never panic: each stored entry yields exactly one Ok or Err item; a wrong-sized key yields KeySizeError, an undecodable value SerializationError, a dangling id MissingPropertyData.",
  "every database contents", "all byte contents", ["src/sled/iter.rs", "src/sled/query.rs"])
p("Reopening preserves the graph",
  "Creating a new SledTripleStore on the same database shows the same graph, in every observation, and subsequent operations behave as if the store had not been reopened (with a generator that does not reuse ids).",
  "every history split at every point", "all split points", ["src/sled.rs: SledTripleStore::new"])
# ---- rdf ------------------------------------------------------------------------
p("Name index is a bijection",
  "After any sequence of set calls of which none failed, left_to_right and right_to_left are mutually inverse partial maps, on MemHashIndex and SledHashIndex; set succeeds iff both sides are new.",
  "every sequence of set calls", "all histories", ["src/mem.rs: MemHashIndex", "src/sled.rs: SledHashIndex"])
p("A failed name-index set changes nothing",
  "If set(l, r) returns an error, the index answers every lookup as before.",
  "every index state, every pair", "all states", ["src/mem.rs: MemHashIndex::set", "src/sled.rs: SledHashIndex::set"])
p("Names resolve stably",
  "Once a name is used in an RDF store, it denotes the same id for ever; distinct names denote distinct ids; reading back an id created for a name gives that name.",
  "every history of RDF operations", "all histories", ["src/rdf.rs: lookup_or_create_entity, lookup_entity, lookup_id"])
p("RDF store refines a graph over entities",
  "Nodes and edges inserted under names are read back under the same names with the same properties, after any history of insert/merge/remove (fresh ids never collide).",
  "every history", "all histories", ["src/rdf/insert.rs", "src/rdf/merge.rs", "src/rdf/remove.rs", "src/rdf/iter.rs"])
p("RDF lookups of unknown names fail without side effects",
  "remove_node, remove_edge and run with an unknown name return NameNotFound and leave graph and index unchanged.",
  "every state and every entity", "all states", ["src/rdf/remove.rs", "src/rdf/query.rs", "src/rdf.rs: lookup_entity"])
p("RDF queries succeed and return the matching part",
  "run on an RDF store with known names succeeds and returns exactly the matching part of the graph under the same names.",
  "every state and query", "depends on repeated names in the result", ["src/rdf/query.rs: run", "src/mem.rs: MemHashIndex::set"])
# ---- queries as data ---------------------------------------------------------------
p("Query mapping",
  "Query::map(f) has the same kind and exactly the images of the elements; try_map(f) succeeds iff f succeeds on every id occurring in the query, and then agrees with map; map composes.",
  "every query, every function", "arbitrary functions", ["src/lib.rs: Query::map, Query::try_map", "src/triple.rs: Triple::map, Triple::try_map, PropsTriple::map, try_map"])
p("query! builds the full cartesian product",
  "Each query! form produces the query kind of its pattern whose set is exactly the cartesian product of the given lists (duplicates collapse).",
  "all lists of ids", "all lists", ["src/lib.rs: query! macro", "src/lib.rs: impl From<I> for Query"])
p("Set-operation laws",
  "On key sets: union, intersection are commutative, associative, idempotent; a.intersection(b) is contained in both; a.union(b) contains both; set results satisfy all store invariants, so every other property applies to them.",
  "every pair/triple of stores", "all pairs", ["src/mem/set.rs"])
p("Debug output depends only on the graph",
  "As its comments claim, MemTripleStore's Debug rendering does not depend on internal edge-property ids: two stores with the same graph render identically (edge hashes not colliding).",
  "every pair of reachable stores with equal graphs", "all histories leading to the same graph", ["src/mem.rs: impl Debug"])
p("Set operations fail only with the other store's own errors",
  "An error of union, intersection or difference is always an error the other store's iterator yielded, tagged Right; with an error-free other store they always succeed; union reports the first error of the other store.",
  "every store, every pair of item streams, sorted or not", "all streams", ["src/mem/set.rs: union, intersection, difference"])
p("Repeating an interrupted sled extend completes it",
  "If extend is interrupted at any point (crash between two sled calls, or a storage error) and the same extend is then run again, the store ends in exactly the state of one uninterrupted extend: same graph in every observation, all three orderings agreeing again; the same holds if other calls follow the repeated extend.",
  "every pair of stores, every crash point, every error position of the source, every later history", "all crash points combined with all later histories", ["src/sled/extend.rs: extend"])
p("Sled merge is crash-safe per item",
  "At every crash point of merge, the whole database (all orderings, all queries) shows the old graph with a prefix of other's items merged: each item is merged entirely or not at all.",
  "every pair of stores, every crash point", "all crash points", ["src/sled/merge.rs: merge, merge_edge, merge_node"])
p("Concurrent calls never lose the properties of an edge",
  "With any number of handles on one sled database running insert, merge (single and bulk) and remove calls concurrently, no iteration yields an error at any moment: every edge listed in any ordering has its property record (ids drawn by the handles being distinct). If moreover no handle removes an edge that another one writes, the database shows a graph at every moment and later operations behave as on that graph.",
  "every number of handles, every interleaving of their atomic sled calls, every storage error", "all schedules", ["src/sled/insert.rs", "src/sled/merge.rs", "src/sled/remove.rs", "src/sled/iter.rs"])
p("Concurrent insert, merge and remove_edge calls are linearizable",
  "With any number of handles running insert_node, insert_edge, merge_node, merge_edge, merge and remove_edge concurrently (no handle removing an edge another one writes), the database shows at every moment the graph resulting from some sequence of the operations, in an order compatible with the order of calls in each handle; when all have finished without errors, from a sequence of all of them. merge counts as one operation per item; remove_node is not linearizable (shown by a witness).",
  "every number of handles, every interleaving of their atomic sled calls", "all schedules", ["src/sled/insert.rs", "src/sled/merge.rs", "src/sled/remove.rs"])
p("Concurrent sled extends keep the store intact",
  "With any number of handles running extend concurrently on one database, iteration yields no error once all calls have returned without an error.",
  "every number of handles, every interleaving of their atomic sled calls", "a race window between the writes to the orderings", ["src/sled/extend.rs: extend"])
p("The two name indices are interchangeable",
  "The same set and look-up calls on a new MemHashIndex and on a SledHashIndex on an empty database give the same results, errors included (what is stored being serializable).",
  "every sequence of calls", "all histories", ["src/mem.rs: MemHashIndex", "src/sled.rs: SledHashIndex"])
p("Concurrent use of a sled name index keeps it one-to-one",
  "Any number of threads setting pairs in SledHashIndexes on one database leave it, at every moment and with storage errors at any points, holding some of the pairs given, no two sharing a name or an id, both directions agreeing.",
  "every number of threads, every interleaving, every storage error", "all schedules", ["src/sled.rs: SledHashIndex::set"])
p("Concurrent calls leave other edges and nodes alone",
  "With any number of handles running any calls concurrently on one sled database (extend, remove_node and every race included, whichever calls fail), an edge or node that is not among the arguments of any of them is read at every moment, in every order, as it was at the start; one that only a single handle works on ends as if that handle had been alone.",
  "every number of handles, every interleaving of their atomic sled calls, every storage error", "all schedules", ["src/sled/insert.rs", "src/sled/merge.rs", "src/sled/remove.rs", "src/sled/extend.rs", "src/sled/iter.rs"])
p("Iterating while other handles write",
  "While other handles write to the same sled database, iter_edges returns different triples in order, each with the properties it had when its entry was read; an edge that exists all the time is returned and never as an error; an edge no other handle touches is returned as it was. iter_vertices never fails and returns every node that no other handle removes.",
  "every number of handles, every interleaving of their atomic sled calls with the single reads of the iterator, every ordering", "the record of an edge is read after its entry; all schedules of writers and reader", ["src/sled/iter.rs: iter_edges, iter_vertices", "src/sled.rs: get_edge_data_internal"])
p("queries and iteration with properties, while other handles write",
  "While other handles write to the same sled database, run never fails; its result consists of edges and nodes the query asks for, each with properties it had at some moment; an edge that exists all the time is in the result; what no other handle touches is in the result exactly if it was in the store and the query asks for it. While nobody writes, the result is that of the query on the contents.",
  "every query, every number of handles, every interleaving of their atomic sled calls with the single reads of the query", "each entry and each record is read at its own moment; all schedules of writers and reader", ["src/sled/query.rs: run", "src/sled/iter.rs: iter_impl"])
p("What a sled store holds is always well-formed",
  "Whatever calls are made, concurrently or not, wherever they crash and whichever ids the generators return (even the same one again and again), every key in a sled store has the size of what it stands for and every value is the serialization of some properties. Hence no call ever returns a KeySizeError or fails to deserialize something; the only error an iterator can yield is MissingPropertyData; iter_vertices and run never fail, also while other handles write.",
  "every history, every number of handles, every interleaving, every crash point, every generator", "all schedules and all collisions of ids", ["src/sled/insert.rs", "src/sled/merge.rs", "src/sled/remove.rs", "src/sled/extend.rs", "src/sled/iter.rs", "src/sled/query.rs"])
p("Sled Debug output depends only on the graph",
  "As its comments claim, SledTripleStore's Debug rendering does not depend on internal edge-property ids: two stores with the same graph render identically (edge hashes not colliding), and formatting never fails on what the library has written.",
  "every pair of reachable stores with equal graphs", "all histories leading to the same graph, including those that leave unreferenced records", ["src/sled.rs: impl Debug"])
p("try_eq of RDF stores compares graphs over entities",
  "try_eq of two RDF stores returns true exactly if they hold the same nodes and edges under the same names, whatever the order in which the names were first used.",
  "every pair of histories, on every index and store", "depends on the ids given to the names", ["src/traits/triplestore.rs: try_eq", "src/rdf/iter.rs: iter_nodes"])
p("An RDF store on sled survives crashes",
  "When the name index and the triple store of an RdfTripleStore are kept in one sled database and the process crashes in the middle of any call (and that any number of times), the store opened again holds a graph over names and ids: iteration yields no error, names and ids stay one-to-one, and each item of the call is applied entirely or not at all, in order; at most some of the names about to be used are left over. Every call but a merge can be repeated after the crash, with the result and effect it would have had without it.",
  "every history of calls, reopenings and crashes, every crash point of every call", "all crash points, also in calls on stores that crashed before", ["src/rdf.rs: lookup_or_create_entity", "src/rdf/insert.rs", "src/rdf/merge.rs", "src/rdf/extend.rs", "src/rdf/remove.rs", "src/sled.rs: SledHashIndex::set"])
p("RDF stores on one sled database can be used concurrently",
  "With any number of RdfTripleStores (name index and triple store) on one sled database used by different threads, running insert, merge, extend and remove_edge calls concurrently (ids distinct, no thread removing an edge another one writes), the database holds at every moment the graph over names and ids resulting from some of the operations of the threads done one after the other, those of each thread in order, and once all have returned without storage errors, from all of them. Whatever the threads do, names keep their ids and no two names share one.",
  "every number of threads, every interleaving of their atomic sled calls, every storage error, every database that earlier calls, crashes and threads can leave", "all schedules; each call is several sled calls on two trees of names and five of data", ["src/rdf.rs: lookup_or_create_entity", "src/rdf/insert.rs", "src/rdf/merge.rs", "src/rdf/extend.rs", "src/rdf/remove.rs", "src/sled.rs: SledHashIndex::set"])
p("The ULID generator never returns an id twice",
  "The ids UlidIdGenerator returns increase strictly, whatever the clock shows (standing still and going back included) and whatever random bits are drawn, so that no two are equal; ids of a generator used at later clock times are greater than all ids of earlier ones. Hence stores using it hold what their history made of them, also when a sled database is used by several runs of the process.",
  "every sequence of clock readings and random numbers, every number of calls, every history", "the random number space and the behaviour of the clock cannot be sampled; a repeated id silently exchanges the properties of two edges", ["src/id/ulid.rs: UlidIdGenerator", "src/sled/insert.rs: insert_edge", "src/mem/insert.rs: insert_edge"])
p("Equality of stores follows the equality of properties",
  "For property types with any PartialEq (not reflexive for NaN, say): try_eq of two stores returns true exactly if they have the same nodes and edges and the properties are == ; try_eq and MemTripleStore's == hold between a store and itself exactly if all its properties are == to themselves, and are symmetric and transitive whenever == of the properties is, as the PartialEq contract demands.",
  "every pair (triple) of stores, every comparison function of properties", "all property types and contents; relational property over several stores", ["src/mem.rs: impl PartialEq", "src/traits/triplestore.rs: try_eq"])
p("The conformance tests pass on every lawful back-end",
  "Each of the tests of src/conformance (insert, remove, extend, merge, iterate, query, set operations) and that of src/rdf.rs passes on the in-memory store and on the sled store, indeed on every back-end that obeys the laws of a triple store: whatever the properties are, and whatever the ids are as long as they are distinct and ordered as the ids made by the tests; a ULID generator whose random bits do not overflow makes such ids.",
  "every back-end obeying the laws, all ids so ordered, all properties, all generators of distinct ids", "the tests make their ids from the clock and random bits: that they pass in a run says nothing about the next; a test that fails for some ids is flaky", ["src/conformance/insert.rs", "src/conformance/remove.rs", "src/conformance/extend.rs", "src/conformance/merge.rs", "src/conformance/iter.rs", "src/conformance/query.rs", "src/conformance/set.rs", "src/rdf.rs: test_new"])
p("Names and data in different databases survive crashes together",
  "When the name index of an RdfTripleStore is in one sled database and its data are in another one, and a crash takes each back to a different moment of the calls before, the store opened again still works as a store over names and ids, and holds the graph of the moment its data are taken back to.",
  "every history of calls and crashes, every pair of moments", "all pairs of crash points of two databases", ["src/rdf.rs: lookup_or_create_entity", "src/rdf.rs: new", "src/sled.rs: SledHashIndex::set", "src/rdf/insert.rs", "src/rdf/merge.rs", "src/rdf/extend.rs"])
p("A sled store can be extended and merged with itself",
  "When both operands of extend or merge are stores on the same sled database, the loops write to the trees they are traversing, and how far the iterators have read ahead is up to sled. Still extend and merge do exactly what they would do with an operand of its own having the same contents: every entry is visited once, with its value from before the call. So extend succeeds and leaves the graph as it is, and merge (all values being serializable) merges every value with itself once.",
  "every reachable store, every behaviour of the iterators", "the reading ahead of sled cannot be controlled by a test", ["src/sled/extend.rs: extend", "src/sled/merge.rs: merge", "src/sled/iter.rs: into_iter_nodes"])
p("Programs with many stores",
  "A client may hold any number of in-memory stores and stores on any number of sled databases, mutate them, feed one into another with extend and merge, query them, combine them with set operations, and go on working with the results. If the generators yield enough different ids (different per generator, and different among the generators used with one database), then at each moment every store shows the graph it should, two stores on one database show the same graph, and each command has the outcome it should. For U64IdGenerators it suffices that the stores on one database share one counter; if two counters that start at the same number are used with one database, an edge takes the property of another one.",
  "every program, all generators, all codecs that can write every value", "programs are unbounded and the stores share counters and databases in ways that depend on the whole history", ["src/mem.rs", "src/sled.rs: new", "src/id/u64.rs: clone", "src/mem/query.rs: run", "src/sled/query.rs: run", "src/mem/set.rs", "src/mem/extend.rs", "src/mem/merge.rs", "src/sled/extend.rs", "src/sled/merge.rs"])
p("Mapping with closures that keep state",
  "Triple::map, Triple::try_map and Query::try_map take closures that may change what they have captured. They call the closure on each id exactly once for each time it occurs, subject, predicate, object, item after item in the iteration order of the set, stop at the first failure leaving the state of the closure as it is then, and otherwise return the answers in the places of the questions. The ids an RdfTripleStore gives to the names of a triple come about in this way.",
  "all triples, queries and closures", "closures and their states are arbitrary", ["src/triple.rs: map", "src/triple.rs: try_map", "src/lib.rs: try_map", "src/rdf/insert.rs: insert_edge", "src/rdf/merge.rs: merge_edge"])
p("The serialization format loses nothing",
  "For properties, names and ids built from units, booleans, integers of any fixed width, strings, ULIDs, options, structs and sequences, bincode::deserialize returns what bincode::serialize was given, also if other bytes follow; serialize fails only for strings and sequences of 2^64 and more elements, which Rust cannot have; no value is written as the beginning of what another is written as; if the end is missing, reading fails. So sled stores with such properties, and the index from names to ULIDs, meet what the other properties ask of the serialization.",
  "all such types, all values, all bytes", "the types and values are unbounded", ["src/sled/insert.rs: insert_edge", "src/sled/iter.rs", "src/sled/query.rs", "src/sled/merge.rs", "src/sled/extend.rs", "src/sled.rs: SledHashIndex"])
p("The examples of the documentation hold",
  "The examples in the documentation of MemTripleStore and SledTripleStore and in README.md pass on every back-end that obeys the laws of a store, for all node and edge properties and all ids in the order of theirs; the sled one also with the actual serialization format for String and Vec<i32>, as do the conformance tests on strings. The examples in the documentation of query! hold for any six ids.",
  "all back-ends obeying the law, all ids and properties", "the examples run with one choice of ids and properties", ["src/mem.rs: MemTripleStore", "src/sled.rs: SledTripleStore", "src/lib.rs: query", "README.md"])
p("Queries and calls have to do with their own part of the database only",
  "Whatever a sled database contains, damaged entries and entries of other programs included: the result of a query, error or not, depends only on the entries of one ordering whose keys begin with the bytes of the ids asked for, and on the records of these. A call reads and writes only the nodes, edges and records it is about: on two databases alike there it has the same result and the same effect, and all else stays as it is, also if it is cut off by a crash or a storage error. Threads about different nodes, edges and records do not influence each other: at the end each part is as if its thread had run alone. The queries of in-memory stores likewise, whatever the store contains.",
  "all contents of the database, all queries, all calls, all interleavings", "the contents of the database are arbitrary, and there are unboundedly many of them", ["src/lib.rs: the documentation of the orderings", "src/id/u64.rs: key_bounds_1", "src/id/u64.rs: key_bounds_2", "src/id/ulid.rs: key_bounds_1", "src/id/ulid.rs: key_bounds_2", "src/sled/query.rs: run", "src/sled/insert.rs", "src/sled/remove.rs", "src/sled/merge.rs", "src/sled/extend.rs", "src/mem/query.rs: run"])
p("Each ordering by itself is as if calls did not overlap",
  "However the calls of any number of threads on one sled database overlap, also when they race to write and remove the same edges: when all have returned, each of the three orderings by itself is what it would be if the edges had been entered and taken out one after the other, in some order in which each thread keeps its own; only the edges of removed nodes are left aside. So an edge which threads write and nobody removes is in all orderings at the end, one which threads remove and nobody writes is in none, and an edge that only one thread touches is in all orderings as this thread alone would have left it. (The three orderings may need three different orders: C31.)",
  "any number of threads, any calls, all interleavings, all consistent or inconsistent contents with readable records", "all schedules; the races are the ones that break the consistency between the orderings", ["src/sled/insert.rs: insert_edge", "src/sled/remove.rs: remove_edge", "src/sled/remove.rs: remove_node", "src/sled/merge.rs: merge_edge", "src/sled/extend.rs: extend"])
p("Calls put the edges they are about in order",
  "Whatever a sled database contains, and in particular after a crash at any moment of any overlapping calls: insert_edge, merge_edge, extend and merge, if they succeed and their ids are new, leave every edge of theirs in all three orderings under one id with its record there, so that iteration lists it with its properties in every order (for insert_edge and extend those given last, for merge_edge those merged with the record SPO led to); remove_edge always succeeds and leaves its edge in no ordering. Other edges stay as they are. So whatever a call that was cut off has left, repeating it with new ids is enough. remove_node removes exactly the edges it finds in SPO under their subject or in OSP under their object, from all orderings, and fails only at keys that are none (an edge of which a crash left only the other entries it does not find).",
  "all contents of the database, all calls, all crash points and interleavings before", "the contents of the database are arbitrary; crash points and schedules", ["src/sled/insert.rs: insert_edge", "src/sled/merge.rs: merge_edge", "src/sled/merge.rs: merge", "src/sled/remove.rs: remove_edge", "src/sled/remove.rs: remove_node", "src/sled/extend.rs: extend", "src/sled/iter.rs: iter_edges"])
p("remove_node among concurrent calls",
  "Threads call insert_node, insert_edge, merge_node, merge_edge, remove_edge and remove_node on one sled database, the two range scans of remove_node reading the database in pieces of any sizes while other threads go on writing. If different threads do not write and remove the same edge, and no thread writes an edge from or to a node which another one removes, then at every moment the database shows the graph that results from doing some of the operations one after the other, each thread keeping its order, and all of them when all calls have returned. (With such a write it is false: C50.) Read in pieces without other writers, remove_node does what it does when it reads at once.",
  "any number of threads, all interleavings, all sizes of the pieces", "all schedules, and the reading ahead of sled cannot be controlled by a test", ["src/sled/remove.rs: remove_node", "src/sled/remove.rs: remove_edge", "src/sled/insert.rs: insert_edge", "src/sled/merge.rs: merge_edge"])
p("extend among concurrent calls",
  "Threads call any of the mutations on one sled database, extend and merge with operands that may fail among them. If different threads do not write and remove the same edge, and no thread writes an edge from or to a node which another one removes, then, extend and merge counting as one operation per item: at every moment the nodes, and in all three orderings the edges that no thread writes by extend, are those of the graph that results from doing some of the operations one after the other, each thread keeping its order. If moreover no thread touches an edge that another one writes by extend, then, all calls having returned, the database shows the graph that results from all operations. Without this, iteration may fail for ever.",
  "any number of threads, all calls, all interleavings", "all schedules", ["src/sled/extend.rs: extend", "src/sled/merge.rs: merge", "src/sled/remove.rs: remove_node", "src/sled/insert.rs: insert_edge"])
p("Whoever races, the first ordering is right",
  "Threads call any of the mutations on one sled database, whoever races with whom; only the ids they draw are different. At every moment, read through the first ordering (iter_vertices, iter_edges in SPO order, queries by subject) the database shows the graph that results from doing some of the operations one after the other, each thread keeping its order, extend and merge counting as one operation per item; all of them when all calls have returned. The exception is remove_node: it may leave edges from the node, but only ones another thread writes, and edges to the node, but only ones another thread writes or races have broken (it looks for these in OSP); and it does leave them. Queries never fail, other orders of iteration fail only where a record is missing. So copying the database in SPO order to another store repairs everything that races have broken.",
  "any number of threads, all calls, all races, all interleavings", "all schedules, in particular those that break the other orderings", ["src/sled/insert.rs: insert_edge", "src/sled/merge.rs: merge_edge", "src/sled/remove.rs: remove_edge", "src/sled/remove.rs: remove_node", "src/sled/extend.rs: extend", "src/sled/iter.rs: iter_edges", "src/sled/query.rs: run"])
p("One process after the other, crashing or not",
  "A sled database is used by any number of processes one after the other; each runs any number of threads with any calls, however they race, and may crash at any moment, leaving to the next what is there then. If all ids they draw are different, then, read through the first ordering, the database always shows the graph that results from doing the operations of the processes one after the other (of a process that crashed: some of them), each thread keeping its order, extend and merge counting as one operation per item; but remove_node may leave edges another thread is writing, and edges to the node that this or an earlier process has broken: by crashing in the middle of an extend of the edge, or by racing on it. Edges which no process has broken are shown alike by all orderings.",
  "any number of processes and threads, all calls, all races, all interleavings, all crash points", "all schedules and crash points, piled up", ["src/sled/insert.rs: insert_edge", "src/sled/merge.rs: merge_edge", "src/sled/remove.rs: remove_edge", "src/sled/remove.rs: remove_node", "src/sled/extend.rs: extend", "src/sled/iter.rs: iter_edges", "src/sled.rs: new"])
p("The benchmarks measure what they say",
  "The four benchmarks panic nowhere, for any number of preloaded elements and of iterations, whatever Ulid::new() returns and however the elements are shuffled, if the generators of the stores do not repeat ids: the properties [0u8; 32], () and Ulid are written and read back. Both stores are filled alike; the insert benchmarks leave in each store what was preloaded and what the iterations inserted. Every iteration of the query benchmarks returns, from both stores, exactly the elements asked for, 1000 as the declared throughput says if Ulid::new() did not return an id twice (each edge with its predicate as its property).",
  "all numbers of elements and iterations, all ids, all shuffles", "the benchmarks check no result but the absence of a panic, and ids are random", ["benches/benchmark.rs: bench_insert_node", "benches/benchmark.rs: bench_insert_edge", "benches/benchmark.rs: bench_query_node", "benches/benchmark.rs: bench_query_edge"])
p("RDF stores in processes that race and crash",
  "Any number of processes one after the other, each with any number of threads, use RDF stores on one sled database: they call any of the mutations, whoever races with whom, and may crash at any moment. If the ids they draw are different, the threads do to the triple store exactly what threads that use it directly do, with calls in which each entity is replaced by the id it has: every call of the RDF store makes, in order, the first of the calls it stands for, one per node and edge, and all of them unless the process crashes, a removal is about a name that was unknown when the process was started, or another thread has given an id to a name the call was about to create. So, read in SPO order, the RDF store shows the nodes and edges that these make one after the other, with the names that the ids have, and every edge that no process has broken is in every order. Names never lose or change their id; new names are names which the calls create. The exceptions are real: remove_node may leave edges written meanwhile, so that no order of the operations explains the result.",
  "any number of processes and threads, all calls, all races, all interleavings, all crash points", "all schedules and crash points, across two libraries", ["src/rdf.rs: lookup_or_create_entity", "src/rdf/insert.rs", "src/rdf/remove.rs", "src/rdf/merge.rs", "src/rdf/extend.rs", "src/rdf/iter.rs: iter_edges", "src/sled/remove.rs: remove_node", "src/sled/insert.rs: insert_edge"])
p("Reading an RDF store while others write to it",
  "Threads use RDF stores on one sled database, also after other processes which raced and crashed; somebody else iterates meanwhile, reading the entry, its record and the names of its ids at different moments. If the ids drawn for names are not in use and not given as arguments: an id that is in use in the triple store has the name it has then at every later moment, or has none at both. Items of iter_edges are for different triples of entities; each is MissingPropertyData, or the triple with the names its ids had and the properties it had when its entry was read. An edge that was there at the start, and which no call removes, with or without one of its ends, or merges into, is returned exactly once, without an error. iter_vertices yields no error, and each node that is not removed. iter_edges_with_props likewise, with properties of the ends of the moments when they were looked up. If nobody writes, the items are those read at one moment. (But one merge_edge elsewhere suffices for iter_edges to fail at an edge which is there at every moment.)",
  "any number of threads, all calls, all races, all interleavings, all moments of reading", "all schedules and all moments at which the lazy iterators may be advanced", ["src/rdf/iter.rs: iter_edges", "src/rdf/iter.rs: iter_vertices", "src/rdf/iter.rs: iter_edges_with_props", "src/rdf.rs: lookup_id", "src/triple.rs: try_map", "src/sled/iter.rs"])
p("Queries on an RDF store while others write to it",
  "Threads use RDF stores on one sled database, all calls and all races allowed; somebody else runs a query meanwhile, which looks up the names in it, reads the triple store and looks up the names in the result, all at different moments. A query whose names are not all known when they are looked up fails with NameNotFound of such a name, and changes nothing; otherwise it asks for what it would ask for at any later moment. Then, if the ids drawn for names are not in use and not given as arguments: it fails only if a name occurs twice in its answer (as any query does, C41), else it returns a store which shows the answer. The answer consists of edges and nodes which the query asks for, each with the names and properties it had at a moment while the triple store was read. An edge it asks for which was there at the start, and which no call removes, with or without one of its ends, or merges into, is in the answer, and so is a node that is not removed. If nobody writes, the result is that of a query at one moment. (But one merge_edge elsewhere suffices for a query to leave out an edge which is there at every moment.)",
  "any number of threads, all calls, all races, all queries, all interleavings, all moments of reading", "all schedules; the moments at which a query reads what cannot be controlled by a test", ["src/rdf/query.rs: run", "src/lib.rs: try_map", "src/rdf.rs: lookup_entity", "src/rdf.rs: lookup_id", "src/sled/query.rs: run"])
p("Programs with many RDF stores",
  "A client holds any number of RdfTripleStores, in memory and on sled databases, several on one database included; it creates, opens and drops them, calls the mutations, feeds them into one another by extend and merge, runs queries and goes on working with the answers. If all ids drawn by one generator are different, as are those drawn for stores on one database and those drawn for names, and no name gets a ULID the program gives explicitly, then at every moment every store shows the graph over names and ULIDs that it should, knows exactly the names it should, and every command so far has had the outcome it should: it fails only at an unknown name, at a query in whose answer a name occurs twice (C41), or at an error of an operand that is not a store. (If a name of one store gets a ULID which another store holds explicitly, feeding one to the other overwrites a node of another entity.)",
  "all programs, any number of stores, databases and generators, all properties, names and ULIDs", "the programs are unbounded, and stores influence each other through shared databases and answers", ["src/rdf.rs: new", "src/rdf/insert.rs", "src/rdf/remove.rs", "src/rdf/merge.rs", "src/rdf/extend.rs: extend", "src/rdf/query.rs: run", "src/sled.rs: new", "src/mem.rs: new", "src/id/ulid.rs: clone"])
p("An RDF store fed with another on the same database",
  "At any moment of such a program, extend and merge of an RdfTripleStore with another one on the same sled database read lazily from the trees which they write to, and look names up in the tree of names at every item. Whatever the iterators have read ahead, they end with the one result they would have if everything had been read before: they succeed, no name gets a new id, extend leaves the graph as it is, and merge merges each property with itself exactly once.",
  "all programs before, all contents, all amounts of reading ahead", "how far sled reads ahead cannot be controlled by a test", ["src/rdf/extend.rs: extend", "src/rdf/merge.rs: merge", "src/rdf/iter.rs: into_iter_nodes", "src/rdf.rs: lookup_or_create_entity", "src/sled/iter.rs: into_iter_nodes"])
p("What concurrent calls return",
  "However calls on one sled database overlap and race, and whatever well-formed contents it has: what a call of the triple store returns depends on its arguments only. It is the first error of the operand, SerializationError at the first item that cannot be serialized, or success; removals always succeed (merging being assumed not to decide whether a property can be serialized). With RDF stores whose ids for names are different and unused, the same holds, with two exceptions. A call that creates a name unknown at the start can return DuplicateRight with this name, the id drawn for it, and an id drawn by a call of another thread that creates the name; if no two threads create the same new name it never does. A removal returns NameNotFound, always with a name unknown at the start, if one of its names is unknown at the start and no call creates it, and may do so if some call creates it; it never does if its names are known.",
  "any number of threads, all calls, all races, all interleavings, all well-formed contents", "all schedules", ["src/sled/insert.rs", "src/sled/remove.rs", "src/sled/merge.rs", "src/sled/extend.rs: extend", "src/rdf.rs: lookup_or_create_entity", "src/rdf.rs: lookup_entity", "src/rdf/insert.rs", "src/rdf/remove.rs", "src/rdf/merge.rs", "src/rdf/extend.rs: extend"])
p("One history explains all moments",
  "Take any course of events on one sled database: threads make calls, the steps of which interleave in any way; calls can fail with storage errors. Under the conditions of C74 (triple store: no two calls draw the same id, none removes an edge while another thread writes it, or a node while another one adds edges to it), of C75 (extend too; then this is about nodes and edges that are not extended) and of C61 (RDF stores) there is one sequence of operations, each belonging to a call, and for each moment a number, never decreasing, so that at every moment the database shows what so many first operations make of what it showed at the start. Every call does its operations in their order, all of them unless it fails, none before it begins and none after it has returned. So what a call does that has returned comes before what another one does that has not begun: the calls are linearizable. (If calls of RDF stores do not fail, no two threads may create the same name; else they do not do all they should: C61.)",
  "any number of threads, all calls, all interleavings, all moments at once, all failures", "all schedules; tests see the end of a run, not what was to be seen at each moment of it", ["src/sled/insert.rs", "src/sled/remove.rs", "src/sled/merge.rs", "src/sled/extend.rs: extend", "src/rdf.rs: lookup_or_create_entity", "src/rdf/insert.rs", "src/rdf/remove.rs: remove_edge", "src/rdf/merge.rs", "src/rdf/extend.rs: extend"])
p("Transactions that are run again and again",
  "sled runs the closure of a transaction against an overlay (what it has read, what it wants to write) while other threads go on, checks at the end that what was read is still there, and runs the closure again from the start if it is not, as often as it likes. Take the closures of insert_edge, remove_edge, remove_node, merge_node, merge_edge and of the name index's set call by call, and any functions that use such transactions and single calls on trees. Every such course of events is, as far as the trees and what the threads have still to do are concerned, a course in which each transaction is a single step that runs its closure once, with the same moments in the same order; and conversely. So exactly the same databases can be there at a moment of a run, and at its end, of triple stores and of RDF stores. A closure that is not disturbed by a change of a tree need not be run again. remove_node's transaction does the same whatever order the keys of its batches come in, and if they come more than once.",
  "any number of threads, all calls, all interleavings, any number of conflicts and repetitions, all contents, all closures for the first part", "conflicts depend on timing; tests cannot force each of them", ["src/sled/insert.rs:41-56", "src/sled/remove.rs:97-113", "src/sled/remove.rs:135-143", "src/sled/merge.rs:42-75", "src/sled/merge.rs:97-151", "src/sled.rs:392-439"])
p("One history for all moments, whoever races",
  "Take any course of events on one sled database: threads make any of the mutations, extend and merge among them, whoever races with whom; only the ids they draw are different; calls can fail with storage errors. There is one sequence of operations, each belonging to a call, and for each moment a number, never decreasing, so that at every moment the database, read through the first ordering, shows what so many first operations have made of what it showed at the start, and edges which are not raced for are in all orderings. Every call does its operations in their order, all of them unless it fails, none before it begins and none after it has returned. The operations are those of C76 (remove_node may leave edges which are raced for), but remove_edge counts as two removals; if it is counted as one, there are courses that no history explains, whatever operations do to a graph: an edge can be there, gone, there again and gone again while one call removes it and one inserts it. If no thread removes a node, every operation does exactly what it should.",
  "any number of threads, all calls, all races, all interleavings, all moments at once, all failures", "all schedules; tests see the end of a run, not what was to be seen at each moment of it", ["src/sled/insert.rs", "src/sled/remove.rs: remove_edge", "src/sled/remove.rs: remove_node", "src/sled/merge.rs", "src/sled/extend.rs: extend"])
p("One history for all moments of RDF stores, whoever races",
  "Take any course of events on one sled database: threads with RDF stores make any of the mutations, whoever races with whom, and also create the same names; only the ids they draw are different and unused; calls can fail with storage errors. Then there is a table of names at every moment, in which names keep their ids, and which gets a new name only by a step of a call that creates the name, with an id this call has drawn. Each call makes calls on the triple store, as in C79: the first of those it stands for, with the ids the names have, and all of them if it has returned, unless it was about a name that was unknown when the call began and that it was to remove or that another thread has created. And there is one sequence of operations, those of these calls, and for each moment a number, never decreasing, so that at every moment the store read in SPO order shows what so many first operations have made of what it showed at the start, with the names of that moment; edges which are not raced for are in all orderings. Every call of a thread does its operations in their order, none before it begins and none after it has returned, and none before the names in them are in the table. If no thread removes a node, every operation does exactly what it should.",
  "any number of threads, all calls, all races, all interleavings, all moments at once, all failures", "all schedules; tests see the end of a run, not what was to be seen at each moment of it", ["src/rdf.rs: lookup_or_create_entity", "src/rdf.rs: lookup_entity", "src/rdf/insert.rs", "src/rdf/remove.rs", "src/rdf/merge.rs", "src/rdf/extend.rs: extend", "src/rdf/iter.rs: iter_edges", "src/sled/remove.rs: remove_node", "src/sled/remove.rs: remove_edge", "src/sled/extend.rs: extend"])
p("Calls come to an end",
  "A call on a sled database makes a number of calls of sled that is bounded by its arguments alone, whatever the database contains and whatever others do to it meanwhile: one for insert_node, insert_edge, merge_node and merge_edge, four or five for remove_edge, one per item of merge, one per node and at most five per edge of extend; for remove_node one transaction besides the pieces in which it reads two orderings; an RDF store needs at most one more for each name it looks up and one for each it creates. So a thread comes to its end after at most so many of its own steps under every schedule (the calls are wait-free if transactions are), and a process after at most the sum; as long as something is left to do some step can be made. If transactions are run again whenever something they have read has been changed (and for no other reason), threads may have to repeat closures, but altogether at most (number of threads) times (number of steps) often; there is no way to go on for ever, and no thread is ever blocked by another (the calls are lock-free).",
  "any number of threads, all calls, all contents, all interleavings, all conflicts of transactions", "that something ends under all schedules cannot be tested", ["src/sled/insert.rs", "src/sled/remove.rs", "src/sled/merge.rs", "src/sled/extend.rs: extend", "src/sled.rs: set", "src/rdf.rs: lookup_or_create_entity", "src/rdf/insert.rs", "src/rdf/remove.rs", "src/rdf/merge.rs", "src/rdf/extend.rs: extend"])
p("Trees grow by what is written, and iterations end",
  "Whatever a sled database contains and however threads interleave, fail and race: altogether the keys that are ever in one of its trees while a process runs are no more than the entries it had at the start and what the calls add: one for insert_node and merge_node in the tree of nodes, one for insert_edge and merge_edge in each of the other trees, one for each item of extend and merge (none for edges after a failing node), none for removals; in the trees of the name index one for each name among the arguments of a call that creates names. So iterating over a tree, as the iterators, queries and remove_node do, yields at most so many items although sled's iterators also show what is written while they run, and cannot go on for ever however writers run ahead of it. The same holds when sled runs transactions again. After any number of processes, crashed or not, the trees have no more entries than there were at the start and all of them have written.",
  "any number of threads and processes, all calls, all contents, all interleavings, all failures and crashes", "that something ends under all schedules cannot be tested", ["src/sled/iter.rs", "src/sled/query.rs", "src/sled/remove.rs: remove_node", "src/sled/insert.rs", "src/sled/merge.rs", "src/sled/extend.rs: extend", "src/sled.rs: set", "src/rdf.rs: lookup_or_create_entity"])
p("What readers get has a place in the history",
  "Take any course of events as in C87, also with transactions that are run again, and anybody who meanwhile iterates over edges or nodes, or runs queries, on the same database. sled's iterators show each entry as it is when they come to it, and its properties are read later still; so what a reader gets need not have been there at any one moment. But the one history of C87 also explains it: every edge that an iteration in SPO order returns was there, with these properties, at a moment between the beginning and the end of the iteration, every edge it does not return was not there at such a moment, and these moments come one after another as the edges are returned, what is passed over being passed over in between. Whoever reads later, after the end of the iteration, is at later places of the history. An edge whose properties had gone when they were looked up (MissingPropertyData) was there at its moment too; this happens only to edges that some call removes, merges into, or extends. In the other orderings the same holds of edges which are not raced for. Iterating over nodes never fails, and is explained in the same way; so are the node properties in iter_edges_with_props, and everything queries return; and a node, or an edge which is only inserted, that a query does not return was not there at a moment while it ran.",
  "any number of threads and readers, all calls and queries, all races, all interleavings, all moments of reading, all failures", "all schedules; when each entry is read cannot be controlled by a test", ["src/sled/iter.rs", "src/sled/query.rs", "src/sled/insert.rs", "src/sled/remove.rs", "src/sled/merge.rs", "src/sled/extend.rs: extend"])
p("What readers of RDF stores get has a place in the history",
  "Take any course of events as in C88, also with transactions that are run again, where the ids drawn for names are not in use and not given as arguments, and anybody who meanwhile iterates over an RDF store on the same database, or runs queries. An iteration meets the entries of the triple store one after another, reads their properties later, and the names of their ids later still, one after another, while names are created. The one history of C88 with its tables of names explains what is returned: every edge that an iteration in SPO order returns was there under these very names, with these properties, at a moment between the beginning and the end of the iteration, every edge it does not return was not there at such a moment, and these moments come one after another in the order of the ids. An edge whose properties had gone when they were looked up was there at its moment too; this happens only to edges that some thread removes (or an end of which it removes) or merges into. In the other orderings the same holds of edges which are not raced for. Iterations over nodes never fail and are explained in the same way, and so are the node properties in iter_edges_with_props, where the names are those of the moment of the entry. A query looks up the ids of its names, reads the triple store, and then the names for its answer: what it returns was there, under the names it returns, while the triple store was read; what is asked for and not returned was missing then, unless some thread removes it. No answer is lost but by one error: a name which the answer would need twice, DuplicateRight. What an iteration returns need not have been there at any single moment.",
  "any number of threads and readers, all calls and queries, all races, all interleavings, all moments of reading, all failures", "all schedules; when each entry and each name is read cannot be controlled by a test", ["src/rdf/iter.rs", "src/rdf/query.rs: run", "src/rdf.rs: lookup_id", "src/rdf.rs: lookup_or_create_entity", "src/rdf/insert.rs", "src/rdf/remove.rs", "src/rdf/merge.rs", "src/rdf/extend.rs: extend", "src/sled/iter.rs", "src/sled/query.rs"])
p("Stores that merge what they hear agree",
  "Suppose that merging joins properties (order and repetition do not matter, as for (), sets and maxima). After any program, stores of the triple store, in memory and on sled databases, are told nodes and edges by merge_node, merge_edge and merge, and tell one another by merge, stores on one database included. Then what each shows is the least upper bound of all it has heard, directly or through others; so stores that have heard the same show the same, whatever the order, however often and from whomever. The same holds of RDF stores, in terms of names, which may have other ids in each. With threads that tell one sled database something at the same time, in processes of which some crash, it shows a part of what it was told, and all that those processes told it which did not crash, in every ordering; so if what was told before a crash is told again, it is as if there had been no crash. The laws are needed: if what stores show depends on nothing but what they have heard, merging joins properties. (The crate's own TestMergeable does not; and with extend the order matters in any case.)",
  "all programs, any number of stores, databases, threads, processes and crashes, all interleavings, all properties whose merging is a join", "it is about all orders of all messages, all schedules and all crashes", ["src/traits/mergeable.rs", "src/traits/merge.rs", "src/mem/merge.rs", "src/sled/merge.rs", "src/rdf/merge.rs", "src/conformance.rs:25-34"])
p("Power losses",
  "The crate never flushes; when the power fails, a sled database is as it was at some earlier moment (sled has one log for all its trees), and processes go on from there. After any number of processes, with any threads, crashing or not, and of power losses, each falling back to any earlier moment, also past the beginning of processes or past earlier losses, the database shows, in SPO order, what the processes make of it that survive, one after the other, as in C77, where of each process what is left is all, nothing, or a first part, after which it counts as crashed; nothing survives of processes after one that is cut off, except of those which began after the loss, and processes after the last loss survive as they are. Edges which none of those has broken are in all orderings. RDF stores likewise (C79): names are lost together with the data that uses them. If something survives of a call then everything survives of the calls that had returned before it began. If processes only merge (C93, merging being a join) and all that was told is told again after the last loss, it is as if nothing had been lost. (But a call that has returned may be lost: nothing is durable.)",
  "any number of processes, threads, crashes and power losses, all calls, all races, all interleavings, all moments of falling back", "tests cannot cut the power at each moment", ["src/sled.rs: new", "src/sled/insert.rs", "src/sled/remove.rs", "src/sled/merge.rs", "src/sled/extend.rs: extend", "src/rdf.rs: lookup_or_create_entity"])
p("Copying from a store that is in use",
  "extend and merge of a sled store with another one read the other one lazily, while threads write to both databases (or to the one database on which both are). Every course of events of such threads is, as far as the database written to is concerned, one in which each copy is told in advance a certain list of nodes and edges, and then does with it what extend or merge does; and the database that is read is not affected. What a copy is told is something which somebody traversing the database read gets, who begins not before the call and ends not after it has returned: each node once, in order, with properties it had in this time, nodes which nobody removes among them; each edge once, in order, with properties it had in this time, or MissingPropertyData; edges which nobody touches as they are, edges which others only insert again for certain. If nobody writes to the database that is read it is exactly what that holds. So, if the ids drawn are different (as many as edges can be read), the database written to shows at every moment, in SPO order, what some of the operations of all calls, copies included, make of it one after the other, as in C76, and all of them at the end. A copy gets no more nodes and edges than there were at the start and others write meanwhile, so it cannot go on for ever; and a database that is copied into itself gets no edges but those others write. If nobody else uses the store that is written to, and others only write nodes and insert edges in the store that is read, the copy is complete: at the end the one shows, in all orderings, what it showed merged with (or overwritten by) a graph which has all nodes and edges the other had at the start, the edges nobody touches with the same properties, and nothing that was never there. But the copy need not be a graph that the other store ever was, and, if others do more, it can stop with MissingPropertyData before edges which nobody touches.",
  "any number of threads and copies at once, all calls, all races, all interleavings, all failures, any amount of reading ahead", "all schedules; when each entry is read cannot be controlled by a test", ["src/sled/extend.rs: extend", "src/sled/merge.rs: merge", "src/sled/iter.rs: into_iter_nodes", "src/sled/iter.rs:235-303"])
out = os.path.join(os.path.dirname(__file__), "..", "properties.jsonl")
with open(out, "w") as f:
    for x in P: f.write(json.dumps(x, ensure_ascii=False) + "\n")
print(len(P))
