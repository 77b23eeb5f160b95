import Verif.Proof.Bench
import Verif.Props.Conformance
import Verif.Props.Bincode

/-! # C78 the benchmarks -/

namespace Verif.Props

open Verif Spec Conformance Bench Bincode

/-- `MemTripleStore<Ulid, NP, EP>`, `SledTripleStore<Ulid, NP, EP>` with properties of the given types -/
abbrev benchMem (s t : Shape) : Backend (Mem Ulid s.Val t.Val) Unit (Mem Ulid s.Val t.Val) Unit s.Val t.Val :=
  mem (fun a _ => a) (fun a _ => a)
abbrev benchSled (s t : Shape) : Backend (SledStore Ulid) SErr (Mem Ulid s.Val t.Val) Unit s.Val t.Val :=
  sled ⟨s.format.codec, t.format.codec⟩ (fun a _ => a) (fun a _ => a)

theorem bench_sledLaw (s t : Shape) (hs : s.Flat) (ht : t.Flat) : Law (benchSled s t) (fun a _ => a) (fun a _ => a) .serialization ()
    (fun n m => SledStore.Ok ⟨s.format.codec, t.format.codec⟩ n m (fun _ => False)) Mem.Ok :=
  sled_law _ _ (C69_codecs s t).1 ((C69_codecs s t).2.2.2 hs ht)

/-- `bench_insert_node`: nothing panics; each store then holds the nodes with which both were filled and those that were inserted into
it while it was measured. -/
theorem C78_insertNode (ids ids1 ids2 : List Ulid) (g g' u : Gen Ulid) :
    ∃ m s, Bench.insertNode (benchMem bytes32 .unit) (benchSled bytes32 .unit) zeros ids ids1 ids2
        (Mem.new g, SledStore.new Db.empty g' u) = some (m, s) ∧
      Shows m.obs (nodesOnly zeros (ids ++ ids1)) ∧
      Shows (s.obs ⟨bytes32.format.codec, Shape.unit.format.codec⟩) (nodesOnly zeros (ids ++ ids2)) := by
  obtain ⟨⟨m, s⟩, e, h1, h2⟩ := insertNode_ok (mem_law _ _) (bench_sledLaw bytes32 .unit trivial trivial) zeros ids ids1 ids2
    (n := 0) (m := 0) (n' := 0) (m' := 0) (Mem.ok_new (g := g) fun _ h => by omega)
    (SledStore.ok_new _ (g := g') (u := u) ⟨fun _ h => by omega, fun _ h => by omega, fun _ h => by omega⟩ (fun _ _ h => h) (fun _ _ h => h))
  exact ⟨m, s, e, h1.shows, h2.shows⟩

/-- `bench_insert_edge`: likewise, as long as the generators of the stores do not repeat an id. -/
theorem C78_insertEdge (ids ids1 ids2 : List (Triple Ulid)) {g g' u : Gen Ulid} (hg : Fresh (ids.length + ids1.length) g)
    (hg' : Fresh (ids.length + ids2.length) g') :
    ∃ m s, Bench.insertEdge (benchMem bytes32 bytes32) (benchSled bytes32 bytes32) zeros ids ids1 ids2
        (Mem.new g, SledStore.new Db.empty g' u) = some (m, s) ∧
      Shows m.obs (edgesOnly (fun _ => zeros) (ids ++ ids1)) ∧
      Shows (s.obs ⟨bytes32.format.codec, bytes32.format.codec⟩) (edgesOnly (fun _ => zeros) (ids ++ ids2)) := by
  obtain ⟨⟨m, s⟩, e, h1, h2⟩ := insertEdge_ok (mem_law _ _) (bench_sledLaw bytes32 bytes32 trivial trivial) zeros ids ids1 ids2
    (n := 0) (m := 0) (n' := 0) (m' := 0) (Mem.ok_new (g := g) (by rw [Nat.zero_add, Nat.add_comm]; exact hg))
    (SledStore.ok_new _ (g := g') (u := u) ⟨by rw [Nat.zero_add, Nat.add_comm]; exact hg', fun _ h => by omega, fun _ _ _ h => by omega⟩
      (fun _ _ h => h) (fun _ _ h => h))
  exact ⟨m, s, e, h1.shows, h2.shows⟩

/-- `bench_query_node`: nothing panics, and every result, from either store, holds the nodes asked for: as many as the throughput
says if at least as many were inserted and `Ulid::new()` did not return an id twice. -/
theorem C78_queryNode {shuffle : List Ulid → List Ulid} (hs : ∀ l, (shuffle l).Perm l) (ids : List Ulid)
    (gens1 gens2 : List (Gen Ulid)) (g g' u : Gen Ulid) :
    ∃ rs rs', Bench.queryNode (benchMem bytes32 .unit) (benchSled bytes32 .unit) zeros shuffle ids gens1 gens2
        (Mem.new g, SledStore.new Db.empty g' u) = some (rs, rs') ∧ rs.length = gens1.length ∧ rs'.length = gens2.length ∧
      ∀ r ∈ rs ++ rs', Shows r.obs (nodesOnly zeros ((shuffle ids).take 1000)) ∧
        (ids.Nodup → r.obs.vertices.length = min 1000 ids.length) := by
  obtain ⟨⟨rs, rs'⟩, e, h1, h2⟩ := queryNode_ok (mem_law _ _) (bench_sledLaw bytes32 .unit trivial trivial) zeros hs ids gens1 gens2
    (n := 0) (m := 0) (n' := 0) (m' := 0) (Mem.ok_new (g := g) fun _ h => by omega)
    (SledStore.ok_new _ (g := g') (u := u) ⟨fun _ h => by omega, fun _ h => by omega, fun _ h => by omega⟩ (fun _ _ h => h) (fun _ _ h => h))
  refine ⟨rs, rs', e, h1.1, h2.1, fun r hr => ?_⟩
  have h : Mem.Ok 0 r (nodesOnly zeros ((shuffle ids).take 1000)) := (List.mem_append.1 hr).elim (h1.2 r) (h2.2 r)
  refine ⟨h.shows, fun hn => ?_⟩
  obtain ⟨l, hl, hl'⟩ := h.shows.1
  have hp : (l.map Prod.fst).Perm ((shuffle ids).take 1000) := by
    refine (List.perm_ext_iff_of_nodup (Lists.nodup (fun _ => lt_irrefl _) hl') (((hs ids).nodup_iff.2 hn).sublist (List.take_sublist _ _))).2
      fun x => ?_
    rw [List.mem_map]
    constructor
    · rintro ⟨y, hy, rfl⟩
      have := (hl'.2 y.1 y.2).1 hy
      simp only [nodesOnly] at this
      by_contra hc
      rw [if_neg hc] at this; cases this
    · exact fun hx => ⟨(x, zeros), (hl'.2 _ _).2 (if_pos hx), rfl⟩
  rw [hl, List.length_map, ← List.length_map (f := Prod.fst), hp.length_eq, List.length_take, (hs ids).length_eq]

/-- `bench_query_edge`: likewise for edges, each of which has its predicate as its property. -/
theorem C78_queryEdge {shuffle : List (Triple Ulid) → List (Triple Ulid)} (hs : ∀ l, (shuffle l).Perm l) (ids : List (Triple Ulid))
    (gens1 gens2 : List (Gen Ulid)) {g g' u : Gen Ulid} (hg : Fresh ids.length g) (hg' : Fresh ids.length g')
    (h1 : ∀ k ∈ gens1, Fresh ids.length k) (h2 : ∀ k ∈ gens2, Fresh ids.length k) :
    ∃ rs rs', Bench.queryEdge (benchMem .unit .ulid) (benchSled .unit .ulid) shuffle ids gens1 gens2
        (Mem.new g, SledStore.new Db.empty g' u) = some (rs, rs') ∧ rs.length = gens1.length ∧ rs'.length = gens2.length ∧
      ∀ r ∈ rs ++ rs', Shows r.obs (edgesOnly Triple.pred ((shuffle ids).take 1000)) ∧
        (ids.Nodup → ∀ o, (r.obs.edges o).length = min 1000 ids.length) := by
  obtain ⟨⟨rs, rs'⟩, e, h1, h2⟩ := queryEdge_ok (mem_law _ _) (bench_sledLaw .unit .ulid trivial trivial) hs ids gens1 gens2
    (n := 0) (m := 0) (n' := 0) (m' := 0) (Mem.ok_new (g := g) (by rw [Nat.zero_add]; exact hg))
    (SledStore.ok_new _ (g := g') (u := u) ⟨by rw [Nat.zero_add]; exact hg', fun _ h => by omega, fun _ _ _ h => by omega⟩
      (fun _ _ h => h) (fun _ _ h => h)) h1 h2
  refine ⟨rs, rs', e, h1.1, h2.1, fun r hr => ?_⟩
  have h : Mem.Ok 0 r (edgesOnly Triple.pred ((shuffle ids).take 1000)) := (List.mem_append.1 hr).elim (h1.2 r) (h2.2 r)
  refine ⟨h.shows, fun hn o => ?_⟩
  obtain ⟨l, hl, hl'⟩ := h.shows.2 o
  have hp : (l.map Prod.fst).Perm ((shuffle ids).take 1000) := by
    refine (List.perm_ext_iff_of_nodup (Lists.nodup (edgeLT_irrefl o) hl') (((hs ids).nodup_iff.2 hn).sublist (List.take_sublist _ _))).2
      fun x => ?_
    rw [List.mem_map]
    constructor
    · rintro ⟨y, hy, rfl⟩
      have := (hl'.2 y.1 y.2).1 hy
      simp only [edgesOnly] at this
      by_contra hc
      rw [if_neg hc] at this; cases this
    · exact fun hx => ⟨(x, x.pred), (hl'.2 _ _).2 (if_pos hx), rfl⟩
  rw [hl, List.length_map, ← List.length_map (f := Prod.fst), hp.length_eq, List.length_take, (hs ids).length_eq]

/-- The throughput is wrong if `Ulid::new()` returns an id twice: of 1000 equal ids, every result holds one node. -/
theorem C78_twice {shuffle : List Ulid → List Ulid} (hs : ∀ l, (shuffle l).Perm l) (x : Ulid) (gens1 gens2 : List (Gen Ulid))
    (g g' u : Gen Ulid) :
    ∃ rs rs', Bench.queryNode (benchMem bytes32 .unit) (benchSled bytes32 .unit) zeros shuffle (List.replicate 1000 x) gens1 gens2
        (Mem.new g, SledStore.new Db.empty g' u) = some (rs, rs') ∧ rs.length = gens1.length ∧ rs'.length = gens2.length ∧
      ∀ r ∈ rs ++ rs', r.obs.vertices = [.ok (x, zeros)] := by
  obtain ⟨rs, rs', e, h1, h2, h3⟩ := C78_queryNode hs (List.replicate 1000 x) gens1 gens2 g g' u
  refine ⟨rs, rs', e, h1, h2, fun r hr => ?_⟩
  obtain ⟨l, hl, hl'⟩ := (h3 r hr).1.1
  rw [hl]
  have : (shuffle (List.replicate 1000 x)).take 1000 = List.replicate 1000 x := by
    rw [List.perm_replicate.1 (hs _), List.take_replicate, Nat.min_self]
  rw [this] at hl'
  have hx : Lists (· < ·) (nodesOnly zeros (List.replicate 1000 x) : Graph Ulid bytes32.Val Unit).nodes [(x, zeros)] := by
    refine ⟨List.pairwise_singleton _ _, fun k v => ?_⟩
    rw [List.mem_singleton, Prod.mk.injEq]
    simp only [nodesOnly, List.mem_replicate]
    by_cases hk : k = x
    · rw [if_pos ⟨by omega, hk⟩, Option.some.injEq]
      exact ⟨fun h => h.2.symm, fun h => ⟨hk, h.symm⟩⟩
    · rw [if_neg (fun h => hk h.2)]
      exact ⟨fun h => absurd h.1 hk, fun h => by cases h⟩
  rw [Lists.unique (fun _ => lt_irrefl _) (fun _ _ _ => lt_trans) hl' hx]
  rfl

/-! ## Examples -/

/-- 32 zeros are written as 32 zeros, without a length -/
example : bytes32.format.codec.ser zeros = some (List.replicate 32 0) ∧ bytes32.format.codec.de (List.replicate 31 0) = none := by
  constructor <;> decide +kernel

/-- two iterations on each store, of which one repeats an edge of the other -/
example : ∃ m s, Bench.insertEdge (benchMem bytes32 bytes32) (benchSled bytes32 bytes32) zeros [⟨1, 2, 3⟩] [⟨4, 5, 6⟩, ⟨7, 8, 9⟩] [⟨1, 2, 3⟩, ⟨7, 8, 9⟩]
      (Mem.new ConformanceSample.gen, SledStore.new Db.empty ConformanceSample.gen ConformanceSample.ulids) = some (m, s) ∧
    Shows m.obs (edgesOnly (fun _ => zeros) [⟨1, 2, 3⟩, ⟨4, 5, 6⟩, ⟨7, 8, 9⟩]) ∧
    Shows (s.obs ⟨bytes32.format.codec, bytes32.format.codec⟩) (edgesOnly (fun _ => zeros) [⟨1, 2, 3⟩, ⟨1, 2, 3⟩, ⟨7, 8, 9⟩]) :=
  C78_insertEdge [⟨1, 2, 3⟩] [⟨4, 5, 6⟩, ⟨7, 8, 9⟩] [⟨1, 2, 3⟩, ⟨7, 8, 9⟩] (ConformanceSample.gen_fresh _ (by decide))
    (ConformanceSample.gen_fresh _ (by decide))

/-- the edges reversed by `shuffle` -/
example : ∃ rs rs', Bench.queryEdge (benchMem .unit .ulid) (benchSled .unit .ulid) List.reverse [⟨1, 2, 3⟩, ⟨4, 5, 6⟩]
      [ConformanceSample.gen, ConformanceSample.gen] [ConformanceSample.gen]
      (Mem.new ConformanceSample.gen, SledStore.new Db.empty ConformanceSample.gen ConformanceSample.ulids) = some (rs, rs') ∧
    rs.length = 2 ∧ rs'.length = 1 ∧ ∀ r ∈ rs ++ rs', (r.obs.edges .OSP).length = 2 := by
  have hf : ∀ k ∈ [ConformanceSample.gen, ConformanceSample.gen], Fresh 2 k := by
    intro k hk
    have : k = ConformanceSample.gen := by simpa using hk
    exact this ▸ ConformanceSample.gen_fresh _ (by decide)
  obtain ⟨rs, rs', e, h1, h2, h3⟩ := C78_queryEdge List.reverse_perm [⟨1, 2, 3⟩, ⟨4, 5, 6⟩] [ConformanceSample.gen, ConformanceSample.gen]
    [ConformanceSample.gen] (g := ConformanceSample.gen) (g' := ConformanceSample.gen) (u := ConformanceSample.ulids)
    (hf _ (by simp)) (hf _ (by simp)) hf (fun k hk => hf k (by simpa using hk))
  exact ⟨rs, rs', e, h1, h2, fun r hr => (h3 r hr).2 (by decide) .OSP⟩

example : ∃ rs rs', Bench.queryNode (benchMem bytes32 .unit) (benchSled bytes32 .unit) zeros List.reverse [5, 9, 7]
      [ConformanceSample.gen] [ConformanceSample.gen] (Mem.new ConformanceSample.gen, SledStore.new Db.empty ConformanceSample.gen
      ConformanceSample.ulids) = some (rs, rs') ∧ rs.length = 1 ∧ rs'.length = 1 ∧
    ∀ r ∈ rs ++ rs', Shows r.obs (nodesOnly zeros [7, 9, 5]) := by
  obtain ⟨rs, rs', e, h1, h2, h3⟩ := C78_queryNode List.reverse_perm [5, 9, 7] [ConformanceSample.gen] [ConformanceSample.gen]
    ConformanceSample.gen ConformanceSample.gen ConformanceSample.ulids
  exact ⟨rs, rs', e, h1, h2, fun r hr => (h3 r hr).1⟩

example : ∃ m s, Bench.insertNode (benchMem bytes32 .unit) (benchSled bytes32 .unit) zeros [1, 2] [3] [2, 4, 5]
      (Mem.new ConformanceSample.gen, SledStore.new Db.empty ConformanceSample.gen ConformanceSample.ulids) = some (m, s) ∧
    Shows m.obs (nodesOnly zeros [1, 2, 3]) ∧
    Shows (s.obs ⟨bytes32.format.codec, Shape.unit.format.codec⟩) (nodesOnly zeros [1, 2, 2, 4, 5]) :=
  C78_insertNode [1, 2] [3] [2, 4, 5] _ _ _

end Verif.Props
