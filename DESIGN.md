# Machine-checked model of `simple_triplestore`

The code under study is /repo (Rust).  It is read as text; nothing of it is built or run.
Everything here is a Lean 4 (4.33.0) project with Mathlib, in `lean/`.

Layout:

| directory | contents |
|---|---|
| `lean/Verif/Model/` | the code, function by function; every definition cites the file and lines it models |
| `lean/Verif/Spec/`  | a small specification vocabulary (abstract graph, orders, schedules) that does not mention model helpers |
| `lean/Verif/Proof/` | helper lemmas and invariants |
| `lean/Verif/Props/` | the property theorems, one file per group of properties, each followed by concrete `example`s that meet its hypotheses |
| `properties.jsonl`  | the properties (C01 …), stated in terms of the API |
| `MANIFEST.json`     | property → theorem names |
| `seeded/LOG.jsonl`  | log of seeded model bugs and the theorems that caught them |
| `tools/`            | generators for properties.jsonl and MANIFEST.json, axiom listing, `mutation/`: the seeded bugs and the driver that tries them |

## Trusted base

* the Lean kernel (the whole project is re-checked by `vcheck`);
* the axioms `propext`, `Classical.choice`, `Quot.sound` and nothing else — no axioms of our own, no
  `sorry`, no `native_decide`/`bv_decide` (`tools/axioms.sh` lists the axioms of each property theorem);
* the faithfulness of the model to the Rust text (this document and the citations), and the assumed
  behaviour of the libraries listed under "Modelled by their documented behaviour".

## What is modelled, and how

* **Ids** (`Model/Id.lean`): trait `ConcreteIdType` is a class without laws; `u64` is `Fin (2^64)`, `Ulid` is
  `Fin (2^128)` (a `Ulid` is a newtype over `u128` with derived `Ord`).  Keys are byte lists of fixed length
  with lexicographic order; `copy_from_slice`, slicing and `try_into` are explicit.  The laws used by the
  stores are a separate class (`LawfulId`), *proved* for both implementations from the byte-level code.
* **BTreeMap / sled::Tree** (`Model/BMap.lean`): a sorted association list without duplicate keys, with
  `get`, `insert`, `remove`, `range` (filter by `Bound`), `iter`.  This is the documented behaviour of both
  libraries; their internals (B-tree nodes, page cache, log) are not modelled.
* **MemTripleStore** (`Model/Mem*.lean`): the five maps and the id generator.  All of insert, remove,
  merge, extend, iter (borrowing and consuming), query, set operations, `PartialEq`, `try_eq`, `Debug`.
* **Id generators**: `fresh()` is modelled by a "prophecy" stream `Nat → Id` of the ids the generator will
  yield; theorems that need freshness assume it only for the number of draws actually made (id types are
  finite, so an unbounded assumption would be unsatisfiable).  A clone of a generator
  (used by the set operations) gets its own, separately quantified stream: this covers both the
  `Arc`-shared counter of `U64IdGenerator` and `UlidIdGenerator::clone`, which makes an independent
  generator.  `U64IdGenerator` itself is modelled exactly (shared atomic counter, wrapping
  `fetch_add`) under arbitrary schedules in `Model/U64Gen.lean`.
* **Generic `other: impl TripleStore` arguments** (extend, merge, try_eq): the code only ever calls
  `other.into_iter_nodes(SPO)` / `iter_vertices` / `iter_edges` on them, so they are two lists of
  `Except E item`: this includes stores whose iteration yields errors at any place.
* **SledTripleStore** (`Model/Sled.lean`, `Model/Prog.lean`): five trees of byte strings.  Operations are *programs*
  whose steps are the individual atomic sled calls (a transaction is one step).  Three meanings are derived from
  the same program text: the sequential result (`Prog.run`), the states a crash or storage error can leave
  (`Prog.states`: the state after each prefix of the calls), and the interleavings of several handles
  (`Steps`: at each step one thread performs its next call, or gives up its current operation — a storage
  error).  `Sled.Moment` is any state so reached; `Sled.Final` one reached with all threads finished and no storage error.
* **Scans of `remove_node`**: sled iterates lazily, so the two scans of `remove_node` are not one atomic step.
  Besides `removeNode` (each scan atomic) the concurrent calls include `removeNodeScan n fwd bwd`, the rest
  of `remove_node` after scans that returned *any* items which were in the tree at some time
  (`ScansSeen`/`ScansOf`), and (`Model/SledRemove.lean`) the whole call with scans that read in pieces of any sizes.
* **Serialisation** (bincode through serde): a codec `ser : P → Option Bytes`, `de : Bytes → Option P`;
  the round trip `de (ser p) = p` is a hypothesis where it is needed, never an axiom.  `Model/Bincode.lean` gives the format itself for
  the usual types (written after its documentation; the sources of bincode and ulid are not at hand), and C69 proves the hypothesis for them.
* **Programs** (`Model/World.lean`): any number of stores of both kinds, sharing generators and databases, over all commands.  A generator is
  a number here, so that the sharing of a counter by clones is modelled (elsewhere a clone has a separately quantified stream).
  `Model/RdfWorld.lean`: the same for RDF stores; `Model/RdfSelf.lean`: two RDF stores on one database as operands of one call.
* **Two stores on one database as the operands of one call** (`Model/SledSelf.lean`): `extend` and `merge` with the loops as relations
  (`Loop`), the sled iterator handing out entries it may have read from the tree at any earlier moment of the loop.
* **Reading while others write** (`Model/SledScan.lean`, `Spec/SledScan.lean`): the closures of the sled iterators and `run`, given
  the contents of the database at the moment of each single read; `Reading`/`Asked` say which reads an execution of the writing
  threads allows.  With nobody writing these are the functions of `Model/Sled.lean` (`C55_still`, `C55_still_props`, `C56_still`).
* **Copying from a store that is in use** (`Model/SledFeed.lean`): `extend` and `merge` as programs that read the database of the
  operand themselves, piece by piece, and look up the record of each edge when it is its turn, other threads writing to both databases
  (`Link.two`), or to the one on which both stores are (`Link.one`).  How far the iterator reads ahead is a parameter.
* **Sled `Debug`** (`Model/SledDebug.lean`): the strings written, given what its six traversals of the trees have read.
* **Name indices** (`Model/Index.lean`): `MemHashIndex` as two maps, `SledHashIndex` as two byte trees with a
  transaction.  `HashMap` is a function (`get`/`insert`/`remove` only are used).
* **RDF layer** (`Model/Rdf.lean`): name lookup and creation over any index and any store; the store's operations
  on names; `run` with its checks.  `Ulid::new()` is a stream of ids per store.  Index codecs are assumed total and
  to round-trip in the RDF theorems; ids given explicitly by the user are assumed not to be generated later (`C39_alias` shows what
  happens otherwise).
* **RDF layer on sled** (`Model/RdfSled.lean`): the same functions as sequences of sled calls on one database that holds the index and
  the store (`C60_alone`: made without interruption they do what `Model/Rdf.lean` says).  If the two are kept in different
  databases, a crash preserves different prefixes of their calls (`Spec/RdfSplit.lean`: `moments`, `SplitReach`).
* **The crate's own tests** (`Model/Conformance.lean`): src/conformance and the test of src/rdf.rs, with arbitrary ids and properties in
  place of the ones they make; `unwrap` of an error and a failed assertion are `none`.  The tests of src/id/ulid.rs are checked as
  examples (`Props/Conformance.lean`).
* **The benchmarks** (`Model/Bench.lean`): benches/benchmark.rs without the measuring of time.
* **HashSet/HashMap**: finite lists without duplicates in arbitrary order; theorems quantify over every
  order.  Where hashing itself matters (Debug), the hash is an arbitrary function and the no-collision
  assumption is explicit.

## Modelled by their documented behaviour (not verified)

`BTreeMap`, `HashMap`, `HashSet`, `sled` (atomic single calls, serialisable transactions, durable prefix
order of completed calls), `bincode`, `ulid::Generator`, `AtomicU64`.

sled runs the closure of a transaction again on a conflict. Elsewhere a transaction is modelled as one step that runs its closure
once; C86 proves that this makes no difference: there the closures are transcribed call by call and run on overlays
(`Model/SledTx.lean`, after sled's `transaction.rs`), any number of times. What C86 still takes for granted is that checking what was
read and writing the overlay out are together one step (sled holds locks on the trees meanwhile), for aborts too.

## Not modelled

* memory, allocation failure, panics from `unwrap` on poisoned locks, overflow of collection sizes;
* sled's storage engine: a crash is assumed to preserve a prefix of the atomic calls in program order
  (sled with a flush between calls); flush and recovery are not modelled. A crash that loses the last calls which have not been flushed
  leaves the state of an earlier moment; the theorems about crashes hold at every moment (C28, C60, C77, C79), and C94 is about this;
* sled's iterators beyond this: each entry is read at some moment, in key order, the moments follow one another, and a key is passed
  over only if it was absent at some moment in between (`Sled.Scan`); sled reads ahead within a leaf, which this allows;
* how the system clock and the random numbers of `ulid::Generator` come about: `Model/UlidGen.lean` takes them as arbitrary inputs
  (the theorems of the other properties take the ids of a generator as an arbitrary sequence);
* `src/insert.rs` is empty and belongs to no module;
* Rust typing, lifetimes, trait plumbing, `Send`/`Sync`; formatting width/alternate flags of `{:?}`;
* property types are arbitrary types, compared by an arbitrary boolean function (`BEq`; the theorems C21, C22, C59 that speak about
  equality of graphs assume it to be equality, C63 is for any function);
* `Mergeable::merge` is an arbitrary pure function; the closures of `Query::map` and `PropsTriple::map` (`Fn`) are pure functions.

## Plan per property

| id | modelled / proof plan |
|---|---|
| C01 | byte-level codec; induction on big-endian digits (`Proof/Bytes.lean`), instance laws (`Proof/Id.lean`) |
| C02 | `copy_from_slice`/slice algebra for three fields, both widths |
| C03 | lexicographic order on equal-length digit lists = numeric order; three-field version |
| C04 | containment of the bounds in terms of the layout; boundary ids 0 and MAX covered because the statement is for all ids; no range panic |
| C05 | `partialCmp` unfolded against linear orders; agreement with SPO key order |
| C06 | simulation: `abs` from Mem to `Spec.Graph`, one lemma per op, induction over histories with a budgeted freshness hypothesis |
| C07 | invariant `MemInv` (POS and OSP agree with SPO on every triple); permutation of the iteration results |
| C08 | membership iff + strictly sorted (`List.Pairwise`), derived from BMap sortedness and LawfulId order laws |
| C09 | characterisation of `iter_impl` output: filterMap over the ordering |
| C10 | corollaries of the refinement, stated on observations |
| C11 | exactness of the two range scans + frame; batch removals |
| C12 | frame, idempotence (also literal equality of the resulting store) |
| C13 | `MemInv`: injective ids, no dangling, no unreferenced records; preserved by every op |
| C14 | per query kind, membership iff for the result store; independence from set order (any permutation) ; Sled analogue |
| C15 | extend by induction over the item list; idempotence/associativity as graph equalities |
| C16 | partial state on error: fold over the prefix of Ok items |
| C17 | merge spec with arbitrary merge function |
| C18–C19 | loops over iter outputs; `abs` of the result |
| C20 | **false in the code**: negation with a witness + exact characterisation of what is computed + `_partial` theorem giving a sufficient condition; `C20_exact` and `C20_exact_intact` give the necessary and sufficient one |
| C21 | zip-with-length comparison over sorted iterations ⇒ graph equality |
| C22 | **false in the code** (prefix edge sets compare equal): negation + exact characterisation + `_partial`; `C22_exact` says in terms of the graphs which pairs are taken for equal (`Begins`) |
| C23 | definitional equality of the sequences, proved from the two separately modelled code paths |
| C24 | counter machine under arbitrary schedules; distinctness below 2^64, pigeonhole after |
| C25 | exact effect of insert_edge with a colliding id; witness for reopening |
| C26 | simulation as in C06 for the five byte trees |
| C27 | corollary: both refine the same graph and iteration is determined by the graph |
| C28 | crash states of the op programs; per-operation theorem |
| C29 | crash states of extend in SPO view, witness for disagreement of the orderings |
| C30 | invariant over all interleavings of step programs |
| C31 | **false in the code**: witness interleaving; `_partial` for the absence of a racing insert of the same triple; `C31_edge_partial` edge by edge: an edge nobody races on is consistent at every moment, whatever happens to others and whatever else the database contains; `C31_every_race`: every race of a remove_edge with a write of the edge, in any program, can be lost; `C31_exact`: so (without extend) the condition of the `_partial` is necessary too |
| C32 | **false for Sled** (yields `MissingPropertyData`), true for Mem's with-props iteration; both proved |
| C33 | **false in the code** (insert_edge on an existing edge leaks): witness; `_partial` for histories that do not overwrite by insert_edge |
| C34 | totality is by construction; item-by-item characterisation over arbitrary byte trees |
| C35 | new handle on the same trees; aliasing witness with restarted counter in C25 |
| C36 | invariant on the two maps |
| C37 | true for Sled; **false for Mem** (DuplicateLeft leaves left_to_right changed): negation + `_partial` |
| C38–C40 | RDF layer over any index/store satisfying the contract proved for Mem and Sled |
| C41 | **false in the code**: a named id occurring twice in the answer makes `run` fail; witness + exact condition + `_partial` |
| C42–C43 | Query/Triple functions, macro expansion as list comprehension |
| C44 | from C18, C19 |
| C45 | Debug rendering modelled as a function of the maps; hash is an arbitrary function |
| C46 | every exit of the merge-join loops; induction on the two streams |
| C47 | states of an interrupted extend are characterised edge by edge; a second extend overwrites them all |
| C48 | states of merge = prefix of the transactions |
| C49 | rely/guarantee (`Proof/Conc.lean`) with a ghost set of used ids: a record is erased only after its id has left every ordering |
| C50 | the same framework, ghost state = the graph of the linearised operations; **false for remove_node**: witness |
| C51 | **false in the code**: witnesses (two extends; extend and remove_edge; extend and merge_edge); `_partial` when the extended edges are touched by one thread, and when threads touch different edges and nodes; `C51_every_race`: every race of an extend with a write of one of its edges can be lost; `C51_exact`: the exact condition for all calls |
| C52 | **false in the code**: error payloads in opposite order, state after a failed set; `_partial` up to the first failure; `C52_exact`: with failures, all outcomes agree if and only if no name is tried again after its id was refused as taken; `C52_lookups`: then only the look-ups of those names differ |
| C53 | invariant of the index trees under interleaving |
| C54 | framing lemma for programs (`Proof/Local.lean`): a step that leaves a projection alone leaves it alone in every interleaving |
| C55 | **false in the code** for edges that others merge, remove or extend; the history of every record id is a ghost map (`Proof/SledScan.lean`), from which follows what a record read later can be; witness + `_partial`. Exactly when (`Props/SledReadExact.lean`): the calls of one thread up to the first that is no `insert_edge` of the edge run alone, the entry is read, that call runs, the record is looked up; per call, the record of the old id is gone (`ReadExact.gone`) |
| C56 | the same per read, then the fold of the result store as in C14; **false in the code**: witness. Exactly when: the schedule of C55; the reads are those of a still database made of the orderings of one moment and the records of the next (`ReadExact.asked_two`). The keys a query reads are distinct, and are entries of the start or writes: `C56_reads` |
| C57 | framing lemma of C54 with the invariant "every key has the right size, every value is a serialization"; needs no assumption on ids or races |
| C58 | `Model/SledDebug.lean`: the text as a list of strings, the rendering functions and the hash arbitrary; **false in the code**: an unreferenced record is printed; witness + `_partial` |
| C59 | **false in the code**: ids decide the order; exact outcome `C59_computed`, witness + `_partial` |
| C60 | states of the programs of `Model/RdfSled.lean`, from the atomicity of the store's operations and of `set`; `Reach` includes crashes in all calls; retrying = overwriting by a prefix (C47's argument) |
| C61 | rely/guarantee with a ghost name map: every sled call of a thread either leaves the state over entities alone, makes one name known, or does one operation (`RG.Runs`, `Proof/ConcLin.lean`); names only grow (`Proof/RdfSledNames.lean`); **the final statement is false when two threads create the same name**: witness + restricted theorem; the restriction is needed for every two calls (`C61_every_race`, `Proof/NameRace.lean`: a program comes to a point (`Trap`) where it has found the name unknown and fails if it exists by then) |
| C62 | induction over the calls: the state is the last id, each new one is greater unless the random bits overflow, in which case the state stays (`Proof/UlidGen.lean`); **false on overflow**: witness, exact condition, and bound on when it can happen |
| C63 | `==` of properties is an arbitrary boolean function (`BEq` without laws) in the model; sorted lists compare as the maps they list (`lists_beq`); **`==` of in-memory stores is not transitive**: witness + restricted theorem + `C63_every_middle` |
| C64 | `Model/Conformance.lean`: the tests as programs over the methods of a back-end (`none` = an assertion fails); `Law` is the conjunction of the laws proved of both stores; each test by following the graph of the store. The uniqueness of the listing of a map in order gives the exact lists the tests expect |
| C65 | `moments`: the contents after each sled call of a history; names only grow along it and keep their ids, so the mixture of two moments is the data read with more names (nothing changes: an id mentioned in the data is named before) or fewer (names become ids); **false when the index lags behind**: witness + computed outcome |
| C66 | `Loop`: a loop over a tree its body writes to, with an iterator that may read ahead as it likes; the body overwrites the entry it was given, so every schedule visits the old entries once (`loop_iff`); the records of the edges still to come are untouched because new ids are fresh and ids are one-to-one |
| C67 | `World`: numbered generators, databases and variables, one command per public operation; invariant `World.Ok` (each store `Mem.Ok`/`Db.Inv`, unused ids remain ahead in every stream) kept by each command at the stated cost in ids; streams only advance (`Gen.Adv`) |
| C68 | closures as functions of the state they have captured (`Model/Closure.lean`); `Spec.calls` puts one question after another; rows of one, two or three ids handled alike (`Rows`) |
| C69 | `Model/Bincode.lean`: a format is a pair put/get, get returning the rest; the law (`Format.Lawful`: get ∘ put, and get looks at nothing after the value) holds of the basic formats and is kept by options, pairs, sequences; then by induction on the type (`Shape`). `Shape.rust` is the format of the values of bounded length, on which it is total |
| C70 | `Model/Docs.lean`: the examples of the documentation as programs, in the style of C64; `C70_lawful` from the same laws, `C70_bincode` composes it with C69; the examples of `query!` against an independent equality of queries (`SameQuery`) |
| C71 | `Spec/Reads.lean`: the entries (tree and key) a query covers, and zones: nodes, edges, removable nodes and record keys, with the entries in them; no hypothesis on the contents but that a zone has the records its own entries point to (an example shows that this is needed). `C71_query`, `C71_damage`, `C71_mem`; `C71_call(s)`, `C71_removeNode`; `C71_threads`, `C71_moment` (with storage errors), `C71_apart`. Needs of the id types: keys are the bytes of the three ids, and a key of any length within `key_bounds` begins with the bytes of the bounds' ids (`LaidOutId`, proved for both) |
| C72 | `Spec/SledRace.lean`: what a call does to an ordering, as a list of events (an edge entered with an id, or taken out), with `remove_edge` one event although it removes twice. `C72_serial`: the final contents of an ordering are those after some shuffle of the threads' events (the second removal of `remove_edge` is its event; what the first one did is overwritten then); for codecs that can write every value and contents that can be read. `C72_no_common_order`: one shuffle for all three orderings need not exist. `C72_written`, `C72_removed`, `C72_alone` |
| C73 | `Spec/Repair.lean`: an edge is *stored* when all orderings have it under one id with a readable record there, *absent* when none has it. No invariant is assumed of the database. `C73_shows` (what iteration lists), `C73_insertEdge`, `C73_mergeEdge`, `C73_removeEdge`, `C73_removeNode` (exact), `C73_extend`, `C73_merge`; `C73_unused`, `C73_redo_extend`, `C73_redo_merge`: after a crash at any moment of any calls. That other edges stay stored is for edges sharing their id with no other one. `C73_removeNode_leaves`: an edge entered into SPO and POS only, by an `extend` that was cut off, survives the removal of its object node |
| C74 | `Model/SledRemove.lean`: `remove_node` whose scans are lazy iterators, read in pieces of any sizes. `Spec/SledRemove.lean`: `NoNodeRace`. `C74_still` (no other writers: the same as reading at once), `C74_moment`, `C74_final` (linearizable, with `NoRace` and `NoNodeRace`; the counterexample without is `C50_removeNode_violated`), and with each scan as one step `C74_moment_scans`, `C74_final_scans`. `Proof/LinearRely.lean`: the linearization framework of C50 with rely conditions: a scan that is under way has seen a part of the edges of the node, those not yet seen that are still there are ahead of it |
| C75 | C74 with `extend` among the calls, one operation per item (`Spec/SledBulk.lean`: `Call.items`, `Extended`). `C75_moment`, `C75_moment_scans`: at every moment nodes, and edges nobody writes by `extend`, in every ordering; `C75_final`, `C75_final_scans`: everything in the end, with `ExtendsAlone` (no thread touches an edge which another one writes by `extend`); `C75_alone_needed`: without, iteration may fail in the end. `Proof/SledBulk.lean`: linearization off a set of edges (`DoesX`, `FineX`) joined with C71's locality for the edges in the set |
| C76 | No hypothesis on the threads but `DistinctIds`. `Spec/SledLoose.lean`: `LooseStep` (the strict operations, except that `remove_node n` may leave an edge from `n` in `FromRaced`, or to `n` in `ToRaced`), `SpoShows` (what can be read through SPO). `C76_moment`, `C76_final` (scans in pieces), `C76_moment_scans`, `C76_final_scans`; `C76_strict`, `C76_removeNode` (strict again without such edges); `C76_copy` (copying in SPO order repairs); `C76_left_from`, `C76_left_to` (both kinds of edges are left in some schedule). `Proof/LinearGhost.lean`: linearization by emitted operations over a relation (`SafeE`), where one call may emit an operation twice: `remove_edge` takes the edge out of SPO in its transaction and once more after it; `collapse` joins the two into one |
| C77 | C76 for one process after the other (`Spec/SledSessions.lean`: `Session`, `Session.Breaks`, `LooseSessions`), each finding what the one before has left. `C77_sessions`; `C77_strict` (without `remove_node` everything is strict); `C77_left` (a process alone with the database leaves an edge because of the one before). `Proof/SledLooseRun.lean`: `Ready`, what a process needs of the database it finds: far less than consistency |
| C78 | benches/benchmark.rs as programs over two back-ends (`Model/Bench.lean`), with ids, iterations and shuffle as arguments; run on lawful back-ends (`Proof/Bench.lean`) and instantiated with the bincode formats of `[u8; 32]`, `()` and `Ulid`. `C78_insertNode`, `C78_insertEdge`, `C78_queryNode`, `C78_queryEdge`; `C78_twice` (the throughput is wrong if ids repeat) |
| C79 | C77 with RDF stores instead of triple stores: `Spec/RdfSledLoose.lean` says which calls on the triple store an API call stands for (`wants`), what a thread has made of them (`CallDid`, `ThreadDid`, `Did`) and why it may stop (`Fails`). The RDF programs are followed step by step by programs of the triple store (`Proof/RdfSledFollow.lean`, `RdfSledDoes.lean`), any schedule is turned into one of these (`Proof/RdfSledSim.lean`: `simulate`), and C77's proof is applied. `C79_sessions`; `C79_noNameRace` (if no two threads create the same name, only removals with unknown names fail); `C79_left` (an edge is left that no order explains). |
| C80 | C55 with RDF stores. `Spec/RdfSledScan.lean`: `Moments` of an execution of threads with RDF stores, `Reading` (the entry, its record and the names of its three ids are read at five moments), `FreshNames` (ids drawn for names are neither in use nor given as arguments). An id in use has a name for good or has none for good: all ids in use are in a set `B` no name is drawn from, or named (`Known`, `Proof/RdfSledScan.lean`); the writers are followed by writers of the triple store as in C79, split at two moments (`two_moments`), so that C55's history argument applies (`Proof/RdfSledValues.lean`: `hist_rdf`). `C80_still`, `C80_names` (after any processes which race and crash), `C80_edges`, `C80_kept`, `C80_nodes`, `C80_withProps`; `C80_violated` (one `merge_edge` elsewhere makes `iter_edges` fail), `C80_names_witness` (an id that is guessed before it is drawn changes its name). |
| C81 | C56 with RDF stores. `Model/RdfSledQuery.lean`: `runLazy` is `Rdf.run` with each look-up of a name and each read of the triple store at a moment of its own; `Spec/RdfSledQuery.lean`: `Asked`, the order of these moments. The names in the query keep their ids, so that the query is translated as at the end of the reads (`translate_later`); the answer of the triple store is that of C56, whose argument now takes what it needs of the writers as `Sled.MomentsOk`; by C80 the ids in the answer have the same names when they are looked up, so that the result is what `Rdf.run` would make of such an answer at one moment (`runLazy_eq`, `Rdf.run_core`). `C81_still`, `C81_names`, `C81_answer` (the answer in terms of the ids the query is translated to), `C81_entities` (in terms of the entities in the query, if the ids in it have no names); `C81_violated` (one `merge_edge` elsewhere makes `run` leave out an edge). |
| C82 | C67 with RDF stores. `Model/RdfWorld.lean`: variables hold RDF stores in memory or on numbered databases; generators are numbered, all names take ids from one `Ulid::new()`. `Spec/RdfWorld.lean`: a variable holds a graph over entities with the names in use, or refers to those of a database; `RdfShows` (all iterators show the graph, and just these names can be looked up), `RdfAgrees`, `RdfApart` (what has to be different among the ids to be drawn; the bounds are those computed by `rdfProgCosts`). The invariant `RdfWorld.Ok` (`Proof/RdfProgram.lean`) gives each store a translation `f` from names to ids and a graph over ULIDs (`StateOk`: they agree with the abstract state, no id to be drawn for a name is in use, all explicit ULIDs are in `K` or are ids of nothing). An answer's index is part of its source's, with the same ids. `C82_alias`: the condition on explicit ULIDs is necessary across stores. |
| C83 | C66's loops for RDF stores (`Model/RdfSelf.lean`): every turn makes an item of the entry as the trees are then, and takes it in. Since every name in the source is known already, the index stays as it is and each turn is the turn of the triple store, lifted (`extend_lift`, `merge_lift`, `loop_lifted`); so the result is that of the triple store's loops (`Bulk.self`), at any moment of a program of C82. |
| C84 | `Spec/Results.lean` says what a call has to return (`expected`: from its arguments; for RDF stores `Gives`: also from the names known at the start and what other threads create). Triple store: the framing of C57 with exact results (`Call.result_expected`). RDF (`Proof/RdfResults.lean`): a rely-guarantee predicate `Ob` on programs in which the shared state is the map of names; every call adds only names it creates with ids it draws (`Call.May`), and relies on the others doing the same with other ids; the invariant `At` says of every thread where in which call it is, so all results of all threads come out at once. `C84_quiet` is the converse of `C61_every_race`: without a race for a name no call fails because of one. Calls that fail with a storage error return nothing in `Steps`. |
| C85 | `Spec/History.lean`: a `Course` is the sequence of all states of a run; `Explains` says what it means that one history (operations labelled with thread and call) and a monotone cut per moment explain all of them. `Proof/History.lean` builds the history step by step (`exists_history`): `Move` is a step in which a thread does operations, `Stands` says how far a thread is; what is left of a program is never the program again (`below_irrefl`), so "has not begun" is visible in the state. It works for any description of states that steps preserve: the invariants of C74 and C75 (`CoreR`) and of C61 (`RG.Core`) are such. `C85_before` is real-time order, from `Explains` alone. For C76 see C87, for C79 see C88; not for C80. |
| C86 | `Model/SledTx.lean`: `Tx` is a closure as a sequence of `get`s and `write`s, `Overlay` what sled keeps of each tree while it runs, `TxStep` and `Fine` the steps of a process whose transactions run on overlays, are checked, and given up or repeated. `Spec/SledTx.lean`: `MadeOf` says that each step of a function is a call on one tree or the transaction of one of the closures. `Proof/SledTx.lean`: forgetting overlays (`coarse`) maps fine steps to steps or nothing (`fine_course`), because an overlay that is valid at commit has seen what the closure would see now (`Good`, `txStep_coarse`); conversely a step is performed by running the closure undisturbed (`performed`). `Proof/SledTxCalls.lean`: all functions are made of such steps (`madeOf_*`), each transaction of its closure (`performs_*`). |
| C87 | `Tells` (`Spec/History.lean`) is `Explains` for operations with several outcomes, both on top of `Timed`. `exists_history` of C85 works for relations; `RG.CoreE` is C76's invariant without its history (`coreE_step`), `history_loose` (`Proof/HistoryLoose.lean`) starts it. What is shown is `ShowsBut` (`Spec/SledLoose.lean`): SPO, and in all orderings the edges that are not raced for. `C87_store`, `C87_scans`; `C87_strict` turns `Tells` into `Explains` without `remove_node`; `C87_once_violated`: `remove_edge` must count twice (`Call.acts`), which C76, speaking of one moment at a time, need not do. |
| C88 | `rdf_history` (`Proof/RdfHistory.lean`). The simulation of C79 (`Proof/RdfSledSim.lean`) records for each thread which calls on the triple store belong to which call (`Rec.zs`) and what a step does to the programs of these calls: it lets one of them perform one call (`Solo`), or none (`Pops`). The calls on the triple store are known only with hindsight: `exists_groups` goes back from the last moment and lists for each moment what is left to do of each call (`Ahead`). `GroupCore` is C87's invariant for these lists, one group per call of the RDF store: programs that have been begun, and calls yet to be made; `groupCore_step` makes a step of it a `Move` of threads with RDF stores, so that `tells_of` applies; by `stands_made` what has been done belongs to calls made so far, with the names of that moment. A call begins in the simulation with its first step, and `Rec.fs` keeps the names there were then (`TInv.past`, `TInv.unbegun`, `begins_with`): so a call fails for want of a name only if the name was not there when it began. `C88_rdf`; `C88_strict` without `remove_node`. |
| C89 | `Prog.AtMost n` (`Spec/Ends.lean`): on every path through the program there are at most `n` calls; `PieceCall.cost` gives the numbers, as a specification apart from the programs. `Left`/`AllLeft` (`Proof/Ends.lean`) carry the bounds along a course: every step leaves strictly less (`course_ends`, `course_own`). For transactions that are run again (C86): a step leaves less, or keeps the trees and decreases (overlays no longer valid, threads in no transaction, steps left of the closures) lexicographically, unless it gives up a valid overlay (`fine_less`); hence `reruns` (each give-up needs an overlay made invalid by a step that leaves less) and `no_livelock`; `fine_goes_on` says that no thread is blocked. Not claimed: anything about how long sled itself takes for a call or for validating an overlay (it takes locks inside). |
| C90 | `Prog.Adds tree p n` (`Spec/Grows.lean`): on every path, and whatever the calls find, `p` adds at most `n` keys to the tree, one per call. `PieceCall.adds` gives the numbers, apart from the programs. `AllStock` (`Proof/Grows.lean`) carries what may still be added along the steps, together with a list of all keys seen so far (`AllStock.along`); distinct keys that are there at any moments are in this list (`keys_le`). No assumption on the contents of the database, on ids or on codecs. `C90_fine` goes through `C86_course`. |
| C91 | `Spec/Places.lean`: `Placed` says that a traversal of a map that changes finds for each key what the map has at the key's own moment (`place`), these moments being in order; `Readers` says this of `iter_edges`, `iter_vertices`, `iter_edges_with_props` and `run` with the graphs of the history of C87 (`g k = H (cut k)`). `Scan.places` (`Proof/Places.lean`) gives keys that are passed over a moment; `Sight` is what a moment shows in terms of trees, from `ShowsBut` and `Agreed`; that a record read later is the one of the entry's moment, or gone, is `Later.entry` of C55 (`course_momentsOk`). `N` in `Readers` is the moment when the reader ends: the theorems have one history for all of them. `C91_order`, `C91_later`: the order of the places is that of the history. `C91_fine` goes through `C86_course`. `C91_moment_violated`: an iteration whose result was there at no moment. |
| C92 | `Spec/RdfPlaces.lean`: `RdfSled.Readers` says `Placed` (C91) of `iter_edges`, `iter_vertices`, `iter_edges_with_props` and `run` of an RDF store, with the graphs `X k` over entities that agree (`Agree`) with the history of C88 and the names of the moment `k`. `rdf_history` also gives `OnData`: the triple store goes through the moments of the calls made on it, so that `readers_of` (C91) applies to the ids. `NameFacts` (`Proof/RdfPlaces.lean`): an id in use keeps its name (C80), hence names looked up later are those of the entry's moment. `Disturbed`: some thread removes the edge or an end of it, or merges into it (`spares_of`). Queries: `answer_from` (C81) with C91 for the reads between the look-ups of names. `C92_fine` goes through `C86_rdf_course`. `C92_moment_violated`: an iteration whose result was there at no moment. |
| C93 | `Spec/Converge.lean`: `Joins` (the laws), `Lub` and `Sums` (a graph is the least upper bound of a set of facts), `Hearsay` (which facts each database and each store in memory has heard, without regard to order; `Talk` is what the commands of C67 and C82 are in these terms). `C93_programs`, `C93_rdf` go through `C67_programs`, `C82_programs` and the invariant `Tally`; `C93_sessions`, `C93_again` through `C77_sessions`: calls that only merge break no edge, and all orders of a `Shuffle` have the same sum. `C93_exact`: the laws follow from the property (of programs on the graphs that stores show, C67). `C93_crate`: `()` obeys them, `TestMergeable` does not. `C93_extend`: the order of `extend`s matters. |
| C94 | `Spec/Loss.lean`: `Trail` lists the moments of a database; a power loss forgets some of the last ones (trusted: sled recovers the state after a prefix of its log, which all trees share; names and data in different databases are C65). `Survive`: which processes are left, `CutOff` being what a loss does to them. `Segments` (`Proof/Loss.lean`) divides a trail by processes; with `C77_sessions`, `C79_sessions`, `C93_again`. `C94_before` is about the histories of C85, C87. `C94_durable_violated`: what a process that has come to its end has done may be lost. |
| C95 | `Spec/SledFeed.lean`: `Act` (what a thread does), `Told` (what a traversal of the database read may yield, C55), `While` (the moments during which a call is executed), `Amount` (the calls, with operands read in advance, which the acts amount to), `Through` (the way of a database), `DistinctDraws`. `Proof/Simulate.lean` is a backward simulation: what a call will have read is known at its end only, so the run of the simpler calls is constructed from the last moment to the first, each call having a window of moments (`Clock`). `Proof/SledFeed.lean` gives the configurations of the loops; `C95_told` is by C55, `C95_moment`, `C95_final` by C76. The number of ids drawn is bounded by the number of edges the database read can have (`mostEdges`). Two stores on one database (`C95_moment_one`, `C95_final_one`): copying a database into itself adds no edges (`C95_own`, by an invariant of the programs, `Proof/SledFeedOwn.lean`), so the number is bounded by the edges of the start and what other calls write (`mostOwn`). `C95_size` bounds what a copy gets, without any condition on ids (by C90). `C95_backup` and `C95_backup_extend` (`CopyOf`): a store which nobody else uses, merged with one where others only write nodes and insert edges, shows in all orderings its old graph merged with a copy that has all nodes and edges of the start and nothing that was never there, and agrees with the start wherever no call writes; merged into a new database it is that copy (`C95_backup_new`). |

## Discrepancies found in the code

Recorded as theorems (negation with witness) next to the `_partial` theorem; see the table above and the
section at the end of each Props file.  (This list grows with the work.)

1. `MemTripleStore ==` zips the edge maps without comparing lengths (src/mem.rs:231-286): `C22_violated`; it is not transitive,
   which breaks the contract of `PartialEq`: `C63_eq_trans_violated`.
2. `difference` does not drop edges attached to removed nodes in its tail loop (src/mem/set.rs:187-192): `C20_violated`.
3. Sled `insert_edge` leaks the old property record when overwriting (src/sled/insert.rs): `C33_violated`, `C33_unbounded`.
4. Sled `extend` is not transactional: the orderings can disagree after a crash; it also draws `Ulid::new()` ids
   instead of using the store's generator (src/sled/extend.rs): C29.
5. Sled `remove_edge` repeats its removals outside the transaction and races with `insert_edge` (src/sled/remove.rs): `C31_violated`.
6. Sled `remove_node` scans before its transaction: an edge inserted in between survives the node's removal; concurrent
   `remove_node` is not linearizable: `C50_removeNode_violated`.
7. Sled iteration reports orphaned edges as errors although the documentation says they are ignored (src/sled/iter.rs): `C32_violated_sled`.
8. A counter generator restarted on an existing database aliases property records: C25.
9. `MemHashIndex::set` is not atomic on failure, and fails when the same pair is set again (src/mem.rs:351-381): `C37_mem_violated`;
   the two indices report the values of an error in opposite orders: `C52_violated`.
10. RDF `run` fails whenever a named id occurs twice in the result (src/rdf/query.rs): `C41_violated`.
11. RDF: an explicit `Ulid` equal to the id of a name reads back as the name (`C39_alias`); `try_eq` compares in id order, hence
    depends on the order in which names were created (`C59_violated`).
12. Sled `Debug` prints node properties as `()`: `bincode::deserialize` there has no type annotation, and the type falls back to `()`
    (src/sled.rs:207-214): `C58_nodesBlind`.  It prints the serialized bytes of edge properties, and an unreferenced record as `_`:
    `C58_violated`.
13. Mem `merge_edge` keeps the id of an existing edge, Sled allocates a new one (visible only in the records).
14. Concurrent sled `extend`s of the same edge leave ids without records: `C51_violated`, `C51_violated_others`.
15. Sled iteration and queries look up an edge's record after its entry; a `merge_edge` in between makes `iter_edges` report
    `MissingPropertyData` (`C55_violated`) and makes `run` leave the edge out silently (`C56_violated`), though it exists all the time.
16. `lookup_or_create_entity` looks a name up and creates it in two separate steps: when two RDF stores on one sled database create
    the same name at the same time, one of the calls fails with `DuplicateRight`, and a bulk call stops half-way (`C61_nameRace_violated`).
17. `UlidIdGenerator::fresh` falls back on `Ulid::new()` when the random bits of the monotonic generator overflow; this id may have been
    given before and need not be greater: `C62_violated`.
18. Nothing keeps the name index of an RDF store and its data together: with the two in different sled databases a crash can lose the
    name of a node that is kept, and repeating the calls makes a second node of that name: `C65_violated`.
19. `extend` and `merge` take no snapshot of their operand. If others write to its database meanwhile, the copy may be a graph that the
    operand never was (`C95_violated`), and one `merge_edge` on one edge can stop it with `MissingPropertyData` so that other edges, which
    nobody touches, are not copied (`C95_violated_edges`).

## Seeded bugs

`tools/mutation/mutants*.py` list wrong programs (edits of single definitions in `Verif/Model` and `Verif/Spec`); `run.py` builds each in a scratch
copy; `seeded/LOG.jsonl` records which proofs and which property theorems fail.

## Axioms

`AXIOMS.txt` lists the axioms of every theorem named in MANIFEST.json (output of `tools/axioms.sh`): no theorem depends on anything but
`propext`, `Classical.choice`, `Quot.sound`.
