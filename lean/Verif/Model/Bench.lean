import Verif.Model.Conformance
import Verif.Model.Bincode

/-!
# The benchmarks  (benches/benchmark.rs)

Each benchmark makes an in-memory store and a sled store, fills both with the same data, and calls a method on each again and again.
As in `Model/Conformance.lean`, `none` is a panic.

Simplifications: what `Ulid::new()` returns is an argument, one id per call, as is the number of times `b.iter` runs its closure: `ids1`,
`ids2`, .. have one entry for each iteration.  The body of `for n in [1000, 100000, 1000000]` is written for any `n`, the
length of `ids`.  `shuffle` may be any function.  Measuring time is left out.
-/

namespace Verif.Bench

open Conformance

variable {S X Q QX S' X' Q' QX' NP EP : Type}

/-- benches/benchmark.rs:22-26, 101-106 -/
def preloadNodes (mem : Backend S X Q QX NP EP) (sled : Backend S' X' Q' QX' NP EP) (p : NP) (ids : List Ulid) (dbs : S × S') :
    Test (S × S') :=
  ids.foldlM (fun dbs id => do
    let m ← expectDb (mem.st.insertNode dbs.1 id p)
    let s ← expectDb (sled.st.insertNode dbs.2 id p)
    return (m, s)) dbs

/-- benches/benchmark.rs:56-64, 133-141: `p` is `[0u8; 32]`, or the predicate -/
def preloadEdges (mem : Backend S X Q QX NP EP) (sled : Backend S' X' Q' QX' NP EP) (p : Triple Ulid → EP) (ids : List (Triple Ulid))
    (dbs : S × S') : Test (S × S') :=
  ids.foldlM (fun dbs t => do
    let m ← expectDb (mem.st.insertEdge dbs.1 t (p t))
    let s ← expectDb (sled.st.insertEdge dbs.2 t (p t))
    return (m, s)) dbs

/-- `bench_insert_node` (benches/benchmark.rs:10-42) -/
def insertNode (mem : Backend S X Q QX NP EP) (sled : Backend S' X' Q' QX' NP EP) (p : NP) (ids ids1 ids2 : List Ulid) (dbs : S × S') :
    Test (S × S') := do
  let dbs ← preloadNodes mem sled p ids dbs
  let m ← insertNodes mem dbs.1 (ids1.map fun id => (id, p))
  let s ← insertNodes sled dbs.2 (ids2.map fun id => (id, p))
  return (m, s)

/-- `bench_insert_edge` (benches/benchmark.rs:44-86) -/
def insertEdge (mem : Backend S X Q QX NP EP) (sled : Backend S' X' Q' QX' NP EP) (p : EP) (ids ids1 ids2 : List (Triple Ulid))
    (dbs : S × S') : Test (S × S') := do
  let dbs ← preloadEdges mem sled (fun _ => p) ids dbs
  let m ← insertEdges mem dbs.1 (ids1.map fun t => (t, p))
  let s ← insertEdges sled dbs.2 (ids2.map fun t => (t, p))
  return (m, s)

/-- `bench_query_node` (benches/benchmark.rs:88-119): what the closures return.  `gens1`, `gens2` are the generators of the results. -/
def queryNode (mem : Backend S X Q QX NP EP) (sled : Backend S' X' Q' QX' NP EP) (p : NP) (shuffle : List Ulid → List Ulid)
    (ids : List Ulid) (gens1 gens2 : List (Gen Ulid)) (dbs : S × S') : Test (List Q × List Q') := do
  let dbs ← preloadNodes mem sled p ids dbs
  let ids := (shuffle ids).take 1000
  let rs ← gens1.mapM fun g => do
    let q ← QueryPat.expand (.nodeProps (.ids ids))
    expect (mem.run dbs.1 g q)
  let rs' ← gens2.mapM fun g => do
    let q ← QueryPat.expand (.nodeProps (.ids ids))
    expect (sled.run dbs.2 g q)
  return (rs, rs')

/-- `bench_query_edge` (benches/benchmark.rs:121-154) -/
def queryEdge (mem : Backend S X Q QX NP Ulid) (sled : Backend S' X' Q' QX' NP Ulid) (shuffle : List (Triple Ulid) → List (Triple Ulid))
    (ids : List (Triple Ulid)) (gens1 gens2 : List (Gen Ulid)) (dbs : S × S') : Test (List Q × List Q') := do
  let dbs ← preloadEdges mem sled Triple.pred ids dbs
  let triples := Query.ofTriples ((shuffle ids).take 1000)
  let rs ← gens1.mapM fun g => expect (mem.run dbs.1 g triples)
  let rs' ← gens2.mapM fun g => expect (sled.run dbs.2 g triples)
  return (rs, rs')

/-- `[u8; 32]` -/
def bytes32 : Bincode.Shape := .array 32 (.uint 1)

/-- `[0u8; 32]` -/
def zeros : bytes32.Val := ⟨(List.replicate 32 (0 : Fin 256) : List (Fin 256)), rfl⟩

end Verif.Bench
