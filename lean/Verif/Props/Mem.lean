import Verif.Proof.MemReach
import Verif.Props.Sample

/-!
# C06–C13, C15–C17, C23, C25: the in-memory store

`Mem.Reach E mN mE n s` (`Spec/MemApi.lean`): `s` was made by API calls (histories of mutations, queries and set
operations, in any combination), and its generator still has `n` fresh ids to give.  `Mem.Built E mN mE s`: the same
without any assumption on generators.  `Shows s.obs G`: iterating `s` shows exactly the graph `G`.
`mN`, `mE` are the `Mergeable` functions of the property types.
-/

set_option linter.unusedSectionVars false
set_option maxRecDepth 100000

namespace Verif.Props

open Verif Spec ConcreteId

variable {Id NP EP E : Type} [LinearOrder Id] [ConcreteId Id] [LawfulId Id]
variable {mN : NP → NP → NP} {mE : EP → EP → EP}

/-! ## C06 In-memory store refines a pair of maps -/

/-- From an empty store, any history. -/
theorem C06_history (mN : NP → NP → NP) (mE : EP → EP → EP) (g : Gen Id) (h : List (Op E Id NP EP))
    (hg : Fresh (draws h) g) :
    Shows ((Mem.new g : Mem Id NP EP).applyAll mN mE h).obs (applyAll mN mE Graph.empty h) :=
  (Mem.ok_applyAll mN mE 0 _ _ h (by rw [Nat.zero_add]; exact Mem.ok_new hg)).shows

/-- From any reachable store, any history; the store reached is reachable, so the theorem applies again. -/
theorem C06_from_reachable {n : Nat} {s : Mem Id NP EP} {G : Graph Id NP EP} (h : List (Op E Id NP EP))
    (hs : Mem.Reach E mN mE (n + draws h) s) (hG : Shows s.obs G) :
    Mem.Reach E mN mE n (s.applyAll mN mE h) ∧ Shows (s.applyAll mN mE h).obs (applyAll mN mE G h) := by
  refine ⟨?_, (Mem.ok_applyAll mN mE n _ _ h (hs.ok_of_shows hG)).shows⟩
  clear hG
  induction h generalizing s with
  | nil => exact hs
  | cons o h ih =>
    refine ih (s := s.apply mN mE o) (.op o ?_)
    have : n + draws (o :: h) = n + draws h + o.draws := by simp [draws]; omega
    rw [this] at hs; exact hs

/-- Every reachable store shows some graph, and only one. -/
theorem C06_shows_unique {s : Mem Id NP EP} (hs : Mem.Built E mN mE s) : ∃! G, Shows s.obs G :=
  ⟨s.graph, Mem.shows hs.agree, fun _ h => (hs.graph_of_shows h).symm⟩

/-- a history with an overwrite-by-merge, a self-loop and an orphan -/
example : Shows Sample.store.obs (applyAll Sample.mN Sample.mE Graph.empty Sample.hist) :=
  C06_history Sample.mN Sample.mE (Sample.cg 0) Sample.hist (Sample.cg_fresh _ _ (by decide))

example : Mem.Reach String Sample.mN Sample.mE 7 (Sample.store.applyAll Sample.mN Sample.mE Sample.hist) :=
  (C06_from_reachable (G := Sample.store.graph) Sample.hist (Sample.store_reach _ (by decide))
    (Mem.shows (Sample.store_reach 0 (by decide)).inv.toAgree)).1

example : ∃! G, Shows Sample.store.obs G := C06_shows_unique (Sample.store_reach 0 (by decide)).built

/-! ## C07 The three edge orderings never diverge (whatever the generator yields) -/

theorem C07_iterEdges {s : Mem Id NP EP} (hs : Mem.Built E mN mE s) (o o' : EdgeOrder) :
    (s.iterEdges o).Perm (s.iterEdges o') := by
  rw [Mem.iterEdges_eq, Mem.iterEdges_eq]
  refine List.Perm.map _ ((List.perm_ext_iff_of_nodup ?_ ?_).2 ?_)
  · exact List.Nodup.of_map _ (Lists.nodup (edgeLT_irrefl o) (Mem.edgeList_lists hs.agree o))
  · exact List.Nodup.of_map _ (Lists.nodup (edgeLT_irrefl o') (Mem.edgeList_lists hs.agree o'))
  · rintro ⟨t, p⟩
    rw [(Mem.edgeList_lists hs.agree o).2, (Mem.edgeList_lists hs.agree o').2]

theorem C07_iterEdgesWithProps {s : Mem Id NP EP} (hs : Mem.Built E mN mE s) (o o' : EdgeOrder) :
    (s.iterEdgesWithProps o).Perm (s.iterEdgesWithProps o') := by
  have nd : ∀ o, (s.fullList o).Nodup := fun o =>
    List.nodup_iff_pairwise_ne.2 ((Mem.fullList_spec hs.agree o).1.imp (fun {a b} h e => by
      subst e; exact edgeLT_irrefl o _ h))
  rw [Mem.iterEdgesWithProps_eq, Mem.iterEdgesWithProps_eq]
  refine List.Perm.map _ ((List.perm_ext_iff_of_nodup (nd o) (nd o')).2 (fun x => ?_))
  rw [(Mem.fullList_spec hs.agree o).2, (Mem.fullList_spec hs.agree o').2]

example : (Sample.store.iterEdges .SPO).Perm (Sample.store.iterEdges .OSP) ∧
    (Sample.store.iterEdgesWithProps .SPO).Perm (Sample.store.iterEdgesWithProps .POS) :=
  ⟨C07_iterEdges (Sample.store_reach 0 (by decide)).built _ _,
   C07_iterEdgesWithProps (Sample.store_reach 0 (by decide)).built _ _⟩

example : Sample.store.iterEdges .SPO ≠ Sample.store.iterEdges .POS := by decide +kernel

/-! ## C08 Iteration is complete, duplicate-free and sorted -/

/-- Every item is `Ok`; items are strictly increasing (hence no duplicates) in each order. -/
theorem C08_sorted {s : Mem Id NP EP} (hs : Mem.Built E mN mE s) :
    (∃ l : List (Id × NP), s.iterVertices = l.map .ok ∧ l.Pairwise (fun a b => a.1 < b.1) ∧
      s.vertices = l.map Prod.fst) ∧
    ∀ o, ∃ l : List (Triple Id × EP), s.iterEdges o = l.map .ok ∧
      l.Pairwise (fun a b => edgeLT o a.1 b.1) :=
  ⟨⟨s.nodeProps.entries, rfl, s.nodeProps.sorted, rfl⟩,
   fun o => ⟨s.edgeList o, Mem.iterEdges_eq s o, (Mem.edgeList_lists hs.agree o).1⟩⟩

/-- Everything the history put there is listed, with its current properties, and nothing else. -/
theorem C08_complete (mN : NP → NP → NP) (mE : EP → EP → EP) (g : Gen Id) (h : List (Op E Id NP EP))
    (hg : Fresh (draws h) g) (s : Mem Id NP EP) (hs : s = (Mem.new g).applyAll mN mE h) :
    (∀ n p, .ok (n, p) ∈ s.iterVertices ↔ (applyAll mN mE Graph.empty h).nodes n = some p) ∧
    (∀ n, n ∈ s.vertices ↔ ((applyAll mN mE Graph.empty h).nodes n).isSome) ∧
    ∀ o t p, .ok (t, p) ∈ s.iterEdges o ↔ (applyAll mN mE Graph.empty h).edges t = some p := by
  have hk := Mem.ok_applyAll mN mE 0 _ _ h (by rw [Nat.zero_add]; exact Mem.ok_new (NP := NP) (EP := EP) hg)
  rw [← hs] at hk
  rw [← hk.graph]
  refine ⟨fun n p => ?_, fun n => ?_, fun o t p => ?_⟩
  · rw [Mem.iterVertices_eq]; simp [BMap.mem_entries, Mem.graph]
  · simp [Mem.vertices, BMap.mem_entries, Mem.graph, Option.isSome_iff_exists]
  · rw [Mem.iterEdges_eq]; simp [(Mem.edgeList_lists hk.inv.toAgree o).2]

example : Sample.store.iterEdges .POS = [.ok (⟨2, 2, 2⟩, 3), .ok (⟨1, 5, 2⟩, 71), .ok (⟨2, 5, 9⟩, 8)] ∧
    Sample.store.iterVertices = [.ok (1, 10), .ok (2, 20)] ∧ Sample.store.vertices = [1, 2] := by decide +kernel

example : ∃ l : List (Triple U64 × Nat), Sample.store.iterEdges .POS = l.map .ok ∧
    l.Pairwise (fun a b => edgeLT .POS a.1 b.1) :=
  (C08_sorted (Sample.store_reach 0 (by decide)).built).2 .POS

example : .ok (⟨1, 5, 2⟩, 71) ∈ Sample.store.iterEdges .OSP :=
  ((C08_complete Sample.mN Sample.mE (Sample.cg 0) Sample.hist (Sample.cg_fresh _ _ (by decide)) _ rfl).2.2 _ _ _).2
    (by decide +kernel)

/-! ## C09 iter_edges_with_props reports exactly the non-orphaned edges -/

theorem C09_exact {s : Mem Id NP EP} {G : Graph Id NP EP} (hs : Mem.Built E mN mE s) (hG : Shows s.obs G)
    (o : EdgeOrder) : ∃ l : List (PropsTriple Id NP EP), s.iterEdgesWithProps o = l.map .ok ∧
      l.Pairwise (fun a b => edgeLT o a.toTriple b.toTriple) ∧
      ∀ x, x ∈ l ↔ G.nodes x.sub.1 = some x.sub.2 ∧
        G.edges ⟨x.sub.1, x.pred.1, x.obj.1⟩ = some x.pred.2 ∧ G.nodes x.obj.1 = some x.obj.2 := by
  rw [← hs.graph_of_shows hG]
  exact ⟨s.fullList o, Mem.iterEdgesWithProps_eq s o, (Mem.fullList_spec hs.agree o).1,
    (Mem.fullList_spec hs.agree o).2⟩

/-- An orphaned edge becomes visible once its endpoints are inserted. -/
theorem C09_reappears {s : Mem Id NP EP} (hs : Mem.Built E mN mE s) {t : Triple Id} {p : EP}
    (ht : .ok (t, p) ∈ s.iterEdges .SPO) (a b : NP) (hab : t.sub = t.obj → a = b) (o : EdgeOrder) :
    .ok { sub := (t.sub, a), pred := (t.pred, p), obj := (t.obj, b) } ∈
      ((s.insertNode t.sub a).insertNode t.obj b).iterEdgesWithProps o := by
  have h1 : Mem.Agree ((s.insertNode t.sub a).insertNode t.obj b) :=
    Mem.agree_insertNode (Mem.agree_insertNode hs.agree _ _) _ _
  rw [Mem.iterEdgesWithProps_eq, List.mem_map]
  refine ⟨_, ((Mem.fullList_spec h1 o).2 _).2 ?_, rfl⟩
  rw [Mem.iterEdges_eq, List.mem_map] at ht
  obtain ⟨x, hx, hx'⟩ := ht
  cases hx'
  have hx := ((Mem.edgeList_lists hs.agree .SPO).2 _ _).1 hx
  simp only [Mem.graph_insertNode, Graph.insertNode]
  refine ⟨?_, hx, by simp⟩
  by_cases h : t.sub = t.obj <;> simp [h, hab]

/-- the orphan (2,5,9) is left out, and comes back when node 9 is inserted -/
example : Sample.store.iterEdgesWithProps .POS = [.ok ⟨(2, 20), (2, 3), (2, 20)⟩, .ok ⟨(1, 10), (5, 71), (2, 20)⟩] := by
  decide +kernel

example : .ok ⟨(2, 21), (5, 8), (9, 90)⟩ ∈ ((Sample.store.insertNode 2 21).insertNode 9 90).iterEdgesWithProps .OSP :=
  C09_reappears (t := ⟨2, 5, 9⟩) (Sample.store_reach 0 (by decide)).built (by decide +kernel) 21 90 (by decide) .OSP

/-- an edge from a node to itself -/
example : .ok ⟨(2, 21), (2, 3), (2, 21)⟩ ∈ ((Sample.store.insertNode 2 21).insertNode 2 21).iterEdgesWithProps .OSP :=
  C09_reappears (t := ⟨2, 2, 2⟩) (Sample.store_reach 0 (by decide)).built (by decide +kernel) 21 21 (fun _ => rfl) .OSP

/-! ## C10 Inserts touch only their own key -/

theorem C10_insertNode {s : Mem Id NP EP} (n : Id) (p : NP) :
    (∀ m q, .ok (m, q) ∈ (s.insertNode n p).iterVertices ↔
      if m = n then q = p else .ok (m, q) ∈ s.iterVertices) ∧
    ∀ o, (s.insertNode n p).iterEdges o = s.iterEdges o := by
  constructor
  · intro m q
    rw [Mem.insertNode_eq, Mem.iterVertices_eq, Mem.iterVertices_eq]
    simp only [List.mem_map, Except.ok.injEq, exists_eq_right, BMap.mem_entries, BMap.get_insert]
    split <;> simp [eq_comm]
  · intro o
    rw [Mem.insertNode_eq]
    cases o <;> rfl

theorem C10_insertEdge {s : Mem Id NP EP} (hs : Mem.Reach E mN mE 1 s) (t : Triple Id) (p : EP) :
    (s.insertEdge t p).iterVertices = s.iterVertices ∧
    ∀ o u q, .ok (u, q) ∈ (s.insertEdge t p).iterEdges o ↔
      if u = t then q = p else .ok (u, q) ∈ s.iterEdges o := by
  have hk := Mem.ok_insertEdge 0 _ _ t p hs.ok
  refine ⟨by simp [Mem.iterVertices_eq], fun o u q => ?_⟩
  rw [Mem.iterEdges_mem hk.inv.toAgree, Mem.iterEdges_mem hs.inv.toAgree, hk.graph]
  simp only [Graph.insertEdge]
  split <;> simp [eq_comm]

example : .ok (1, 11) ∈ (Sample.store.insertNode 1 11).iterVertices ∧
    .ok (2, 20) ∈ (Sample.store.insertNode 1 11).iterVertices ∧
    .ok (1, 10) ∉ (Sample.store.insertNode 1 11).iterVertices :=
  ⟨((C10_insertNode 1 11).1 _ _).2 (by decide), ((C10_insertNode 1 11).1 _ _).2 (by decide +kernel),
   fun h => absurd (((C10_insertNode 1 11).1 _ _).1 h) (by decide)⟩

example : .ok (⟨1, 5, 2⟩, 6) ∈ (Sample.store.insertEdge ⟨1, 5, 2⟩ 6).iterEdges .OSP ∧
    .ok (⟨2, 5, 9⟩, 8) ∈ (Sample.store.insertEdge ⟨1, 5, 2⟩ 6).iterEdges .OSP :=
  ⟨((C10_insertEdge (Sample.store_reach 1 (by decide)) _ _).2 _ _ _).2 (by decide),
   ((C10_insertEdge (Sample.store_reach 1 (by decide)) _ _).2 _ _ _).2 (by decide +kernel)⟩

/-! ## C11 remove_node removes exactly the node and its incident edges -/

theorem C11_removeNode {n : Nat} {s : Mem Id NP EP} (hs : Mem.Reach E mN mE n s) (x : Id) :
    (∀ m q, .ok (m, q) ∈ (s.removeNode x).iterVertices ↔ m ≠ x ∧ .ok (m, q) ∈ s.iterVertices) ∧
    (∀ o t q, .ok (t, q) ∈ (s.removeNode x).iterEdges o ↔
      t.sub ≠ x ∧ t.obj ≠ x ∧ .ok (t, q) ∈ s.iterEdges o) := by
  have hk := Mem.ok_removeNode n _ _ x hs.ok
  constructor
  · intro m q
    obtain ⟨-, h2, -⟩ := Mem.removeNode_spec hs.inv.toAgree x
    rw [Mem.iterVertices_eq, Mem.iterVertices_eq, h2]
    simp only [List.mem_map, Except.ok.injEq, exists_eq_right, BMap.mem_entries, BMap.get_erase]
    split <;> simp_all
  · intro o t q
    rw [Mem.iterEdges_mem hk.inv.toAgree, Mem.iterEdges_mem hs.inv.toAgree, hk.graph]
    simp only [Graph.removeNode]
    split
    · rename_i h; simp only [reduceCtorEq, false_iff]; tauto
    · rename_i h; simp only [not_or] at h; simp [h]

example : (Sample.store.removeNode 1).iterEdges .OSP = [.ok (⟨2, 2, 2⟩, 3), .ok (⟨2, 5, 9⟩, 8)] ∧
    (Sample.store.removeNode 2).iterEdges .SPO = [] ∧ (Sample.store.removeNode 2).iterVertices = [.ok (1, 10)] := by
  decide +kernel

example : .ok (⟨2, 5, 9⟩, 8) ∈ (Sample.store.removeNode 1).iterEdges .POS :=
  ((C11_removeNode (Sample.store_reach 0 (by decide)) 1).2 _ _ _).2 ⟨by decide, by decide, by decide +kernel⟩

/-! ## C12 remove_edge is exact and idempotent -/

theorem C12_removeEdge {n : Nat} {s : Mem Id NP EP} (hs : Mem.Reach E mN mE n s) (t : Triple Id) :
    (s.removeEdge t).iterVertices = s.iterVertices ∧
    ∀ o u q, .ok (u, q) ∈ (s.removeEdge t).iterEdges o ↔ u ≠ t ∧ .ok (u, q) ∈ s.iterEdges o := by
  have hk := Mem.ok_removeEdge n _ _ t hs.ok
  refine ⟨by simp [Mem.iterVertices_eq], fun o u q => ?_⟩
  rw [Mem.iterEdges_mem hk.inv.toAgree, Mem.iterEdges_mem hs.inv.toAgree, hk.graph]
  simp only [Graph.removeEdge]
  split <;> simp_all

theorem C12_absent {n : Nat} {s : Mem Id NP EP} (hs : Mem.Reach E mN mE n s) (t : Triple Id)
    (ht : ∀ p, .ok (t, p) ∉ s.iterEdges .SPO) : s.removeEdge t = s := by
  cases hi : s.idOf t with
  | none => unfold Mem.idOf at hi; unfold Mem.removeEdge; rw [hi]
  | some i =>
    obtain ⟨q, -, hq⟩ := Mem.idOf_props hs.inv hi
    exact absurd ((Mem.iterEdges_mem hs.inv.toAgree .SPO t q).2 hq) (ht q)

theorem C12_idempotent (s : Mem Id NP EP) (t : Triple Id) :
    (s.removeEdge t).removeEdge t = s.removeEdge t := by
  have : (s.removeEdge t).idOf t = none := by simp [Mem.removeEdge_idOf]
  generalize s.removeEdge t = r at this
  unfold Mem.idOf at this; unfold Mem.removeEdge; rw [this]

example : .ok (⟨2, 5, 9⟩, 8) ∈ (Sample.store.removeEdge ⟨1, 5, 2⟩).iterEdges .POS ∧
    .ok (⟨1, 5, 2⟩, 71) ∉ (Sample.store.removeEdge ⟨1, 5, 2⟩).iterEdges .POS :=
  ⟨((C12_removeEdge (Sample.store_reach 0 (by decide)) ⟨1, 5, 2⟩).2 _ _ _).2 ⟨by decide, by decide +kernel⟩,
   fun h => (((C12_removeEdge (Sample.store_reach 0 (by decide)) ⟨1, 5, 2⟩).2 _ _ _).1 h).1 rfl⟩

example : Sample.store.removeEdge ⟨2, 5, 1⟩ = Sample.store :=
  C12_absent (Sample.store_reach 0 (by decide)) _ (fun p h => by
    rw [show Sample.store.iterEdges .SPO =
      [.ok (⟨1, 5, 2⟩, 71), .ok (⟨2, 2, 2⟩, 3), .ok (⟨2, 5, 9⟩, 8)] by decide +kernel] at h
    simp at h)

/-- remove_node is idempotent in effect -/
theorem C11_idempotent {n : Nat} {s : Mem Id NP EP} {G : Graph Id NP EP} (hs : Mem.Reach E mN mE n s) (x : Id)
    (hG : Shows (s.removeNode x).obs G) : Shows ((s.removeNode x).removeNode x).obs G := by
  have h1 := Mem.ok_removeNode n _ _ x hs.ok
  have h2 := Mem.ok_removeNode n _ _ x h1
  have : G = s.graph.removeNode x := by
    rw [← h1.graph]; exact shows_unique hG (Mem.shows h1.inv.toAgree)
  have e : (s.graph.removeNode x).removeNode x = s.graph.removeNode x := by
    refine Graph.ext' (fun m => ?_) (fun t => ?_)
    · simp only [Graph.removeNode]; split <;> rfl
    · simp only [Graph.removeNode]; split <;> rfl
  rw [this, ← e]
  exact h2.shows

example {G : Graph U64 Nat Nat} (h : Shows (Sample.store.removeNode 2).obs G) :
    Shows ((Sample.store.removeNode 2).removeNode 2).obs G := C11_idempotent (Sample.store_reach 0 (by decide)) 2 h

/-! ## C13 Edge property storage neither leaks nor aliases -/

/-- The stored records are exactly one per edge: `f` pairs them. -/
theorem C13_records {n : Nat} {s : Mem Id NP EP} (hs : Mem.Reach E mN mE n s) :
    (∀ i, (s.edgeProps.get i).isSome ↔ ∃ t, s.spo.get (encodeSpo t) = some i) ∧
    (∀ t u i, s.spo.get (encodeSpo t) = some i → s.spo.get (encodeSpo u) = some i → t = u) ∧
    (∀ t, s.pos.get (encodePos t) = s.spo.get (encodeSpo t)) ∧
    (∀ t, s.osp.get (encodeOsp t) = s.spo.get (encodeSpo t)) :=
  ⟨hs.inv.ref, hs.inv.inj, hs.inv.pos, hs.inv.osp⟩

/-- As many records are stored as edges are listed. -/
theorem C13_count {n : Nat} {s : Mem Id NP EP} (hs : Mem.Reach E mN mE n s) (o : EdgeOrder) :
    s.edgeProps.entries.length = (s.iterEdges o).length := by
  rw [(C07_iterEdges hs.built o .SPO).length_eq, Mem.iterEdges_eq, List.length_map]
  have e : (s.spo.entries.map (fun e => e.2)).Perm (s.edgeProps.entries.map (fun e => e.1)) := by
    refine (List.perm_ext_iff_of_nodup ?_ s.edgeProps.keys_nodup).2 (fun i => ?_)
    · rw [List.nodup_iff_pairwise_ne, List.pairwise_map]
      refine List.Pairwise.imp_of_mem (R := fun a b => a.1 < b.1) ?_ s.spo.sorted
      rintro ⟨k, x⟩ ⟨k', y⟩ hk hk' hlt (e : x = y)
      subst e
      have h1 : s.idOf (decodeSpo k) = some x := by
        rw [Mem.idOf, LawfulId.encSpo_dec]; exact BMap.mem_entries.1 hk
      have h2 : s.idOf (decodeSpo k') = some x := by
        rw [Mem.idOf, LawfulId.encSpo_dec]; exact BMap.mem_entries.1 hk'
      have := hs.inv.inj _ _ _ h1 h2
      have : k = k' := by rw [← LawfulId.encSpo_dec k, this, LawfulId.encSpo_dec]
      exact absurd hlt (by rw [this]; exact lt_irrefl _)
    · have := hs.inv.ref i
      simp only [Option.isSome_iff_exists] at this
      simp only [List.mem_map, Prod.exists, exists_eq_right, BMap.mem_entries]
      constructor
      · rintro ⟨k, hk⟩
        obtain ⟨q, hq⟩ := this.2 ⟨decodeSpo k, by rw [Mem.idOf, LawfulId.encSpo_dec]; exact hk⟩
        exact ⟨i, q, hq, rfl⟩
      · rintro ⟨j, q, hq, rfl⟩
        obtain ⟨t, ht⟩ := this.1 ⟨q, hq⟩
        exact ⟨_, ht⟩
  have := e.length_eq
  rw [List.length_map, List.length_map] at this
  rw [← this]
  have := congrArg List.length (Mem.entries_eq hs.inv)
  simpa using this

/-- after an overwrite the old record is gone: three edges, three records -/
example : (Sample.store.insertEdge ⟨1, 5, 2⟩ 6).edgeProps.entries.length = 3 := by decide +kernel

example : (Sample.store.insertEdge ⟨1, 5, 2⟩ 6).edgeProps.entries.length =
    ((Sample.store.insertEdge ⟨1, 5, 2⟩ 6).iterEdges .OSP).length := by
  have h := Mem.Reach.op (n := 0) (.insertEdge ⟨1, 5, 2⟩ 6) (Sample.store_reach 1 (by decide))
  exact C13_count h .OSP

example {t u : Triple U64} {i : U64} (h : Sample.store.spo.get (encodeSpo t) = some i)
    (h' : Sample.store.spo.get (encodeSpo u) = some i) : t = u :=
  (C13_records (Sample.store_reach 0 (by decide))).2.1 t u i h h'

/-! ## C15 extend overwrites with the other store -/

theorem C15_extend {n : Nat} {s : Mem Id NP EP} {G H : Graph Id NP EP} {src : Source E Id NP EP}
    (hs : Mem.Reach E mN mE (n + src.edges.length) s) (hG : Shows s.obs G) (hH : Represents src H) :
    (s.extend src).2 = .ok () ∧ Mem.Reach E mN mE n (s.extend src).1 ∧
      Shows (s.extend src).1.obs (G.overlay H) := by
  obtain ⟨h1, h2⟩ := Mem.extend_ok (hs.ok_of_shows hG) hH
  exact ⟨h1, .op (.extend src) hs, h2.shows⟩

/-- Extending with an empty store changes nothing at all. -/
theorem C15_empty (s : Mem Id NP EP) :
    s.extend (E := E) { nodes := [], edges := [] } = (s, .ok ()) := rfl

/-- Extending twice with the same store is the same as extending once. -/
theorem C15_idempotent {n : Nat} {s : Mem Id NP EP} {G H : Graph Id NP EP} {src : Source E Id NP EP}
    (hs : Mem.Reach E mN mE (n + src.edges.length + src.edges.length) s) (hH : Represents src H)
    (hG : Shows (s.extend src).1.obs G) : Shows ((s.extend src).1.extend src).1.obs G := by
  obtain ⟨-, h2⟩ := Mem.extend_ok hs.ok hH
  obtain ⟨-, h3⟩ := Mem.extend_ok h2 hH
  have : G = s.graph.overlay H := by
    rw [← h2.graph]; exact shows_unique hG (Mem.shows h2.inv.toAgree)
  have e : (s.graph.overlay H).overlay H = s.graph.overlay H := by
    refine Graph.ext' (fun m => ?_) (fun t => ?_) <;> simp only [Graph.overlay, ← Option.or_assoc, Option.or_self]
  rw [this, ← e]
  exact h3.shows

/-- `a.extend(b); a.extend(c)` is `b.extend(c); a.extend(b)`. -/
theorem C15_associative {k m n : Nat} {a b : Mem Id NP EP} {C G : Graph Id NP EP} {c : Source Unit Id NP EP}
    (hb : Mem.Reach Unit mN mE (m + c.edges.length) b) (hc : Represents c C)
    (ha : Mem.Reach Unit mN mE (n + (b.intoIterNodes .SPO).edges.length + c.edges.length) a)
    (ha' : Mem.Reach Unit mN mE (k + ((b.extend c).1.intoIterNodes .SPO).edges.length) a)
    (hG : Shows ((a.extend (b.intoIterNodes .SPO)).1.extend c).1.obs G) :
    Shows (a.extend ((b.extend c).1.intoIterNodes .SPO)).1.obs G := by
  obtain ⟨-, h1⟩ := Mem.extend_ok hb.ok hc
  have hr := Mem.intoIterNodes_represents h1.inv.toAgree .SPO
  rw [h1.graph] at hr
  obtain ⟨-, h2⟩ := Mem.extend_ok ha'.ok hr
  obtain ⟨-, h3⟩ := Mem.extend_ok (n := n + c.edges.length) (src := b.intoIterNodes .SPO)
    (ha.ok.mono (by omega)) (Mem.intoIterNodes_represents hb.inv.toAgree .SPO)
  obtain ⟨-, h4⟩ := Mem.extend_ok h3 hc
  have : G = (a.graph.overlay b.graph).overlay C := by
    rw [← h4.graph]; exact shows_unique hG (Mem.shows h4.inv.toAgree)
  have e : (a.graph.overlay b.graph).overlay C = a.graph.overlay (b.graph.overlay C) := by
    refine Graph.ext' (fun m => ?_) (fun t => ?_) <;> simp only [Graph.overlay, Option.or_assoc]
  rw [this, e]
  exact h2.shows

example : (Sample.store.extend Sample.goodSrc).1.iterEdges .SPO =
    [.ok (⟨1, 5, 2⟩, 4), .ok (⟨2, 2, 2⟩, 3), .ok (⟨2, 5, 9⟩, 8), .ok (⟨3, 3, 3⟩, 5)] ∧
    (Sample.store.extend Sample.goodSrc).1.iterVertices = [.ok (1, 10), .ok (2, 21), .ok (3, 30)] := by decide +kernel

example : Shows (Sample.store.extend Sample.goodSrc).1.obs (Sample.store.graph.overlay Sample.goodGraph) :=
  (C15_extend (n := 0) (Sample.store_reach _ (by decide)) (Mem.shows (Sample.store_reach 0 (by decide)).inv.toAgree)
    (RepresentsSorted.represents Sample.goodSrc_sorted)).2.2

example {G : Graph U64 Nat Nat} (h : Shows (Sample.store.extend Sample.goodSrc).1.obs G) :
    Shows ((Sample.store.extend Sample.goodSrc).1.extend Sample.goodSrc).1.obs G :=
  C15_idempotent (n := 0) (Sample.store_reach _ (by decide)) (RepresentsSorted.represents Sample.goodSrc_sorted) h

example {G : Graph U64 Nat Nat}
    (h : Shows ((Sample.storeU.extend (Sample.storeU.intoIterNodes .SPO)).1.extend Sample.goodSrcU).1.obs G) :
    Shows (Sample.storeU.extend ((Sample.storeU.extend Sample.goodSrcU).1.intoIterNodes .SPO)).1.obs G :=
  C15_associative (m := 0) (n := 0) (k := 0) (Sample.storeU_reach _ (by decide)) (RepresentsSorted.represents Sample.goodSrcU_sorted)
    (Sample.storeU_reach _ (by decide +kernel)) (Sample.storeU_reach _ (by decide +kernel)) h

/-! ## C16 extend/merge stop cleanly at the first source error -/

/-- An error among the nodes: the nodes before it are absorbed, no edge is, and the error is returned as
`Right`. -/
theorem C16_extend_nodes (s : Mem Id NP EP) (ns : List (Id × NP)) (e : E) (rest : List (Except E (Id × NP)))
    (es : List (Except E (Triple Id × EP))) :
    s.extend { nodes := ns.map .ok ++ .error e :: rest, edges := es } =
      ((s.extend (E := E) { nodes := ns.map .ok, edges := [] }).1, .error (.right e)) := by
  rw [Mem.extend_eq, Mem.extend_eq]
  have h1 : ∀ l : List (Id × NP), firstErr (l.map .ok ++ .error e :: rest) = some e := by
    intro l; induction l with
    | nil => rfl
    | cons a l ih => simpa [firstErr] using ih
  have h2 : ∀ l : List (Id × NP), okPrefix (l.map .ok ++ .error e :: rest) = l := by
    intro l; induction l with
    | nil => rfl
    | cons a l ih => simpa [okPrefix] using ih
  simp [Source.firstErr, Source.edgePrefix, Source.nodePrefix, h1, h2, Mem.firstErr_map_ok, Mem.okPrefix_map_ok,
    okPrefix]

/-- An error among the edges: all nodes and the edges before it are absorbed. -/
theorem C16_extend_edges (s : Mem Id NP EP) (ns : List (Id × NP)) (es : List (Triple Id × EP)) (e : E)
    (rest : List (Except E (Triple Id × EP))) :
    s.extend { nodes := ns.map .ok, edges := es.map .ok ++ .error e :: rest } =
      ((s.extend (E := E) { nodes := ns.map .ok, edges := es.map .ok }).1, .error (.right e)) := by
  rw [Mem.extend_eq, Mem.extend_eq]
  have h1 : ∀ l : List (Triple Id × EP), firstErr (l.map .ok ++ .error e :: rest) = some e := by
    intro l; induction l with
    | nil => rfl
    | cons a l ih => simpa [firstErr] using ih
  have h2 : ∀ l : List (Triple Id × EP), okPrefix (l.map .ok ++ .error e :: rest) = l := by
    intro l; induction l with
    | nil => rfl
    | cons a l ih => simpa [okPrefix] using ih
  simp [Source.firstErr, Source.edgePrefix, Source.nodePrefix, h1, h2, Mem.firstErr_map_ok, Mem.okPrefix_map_ok]

theorem C16_merge_nodes (s : Mem Id NP EP) (ns : List (Id × NP)) (e : E) (rest : List (Except E (Id × NP)))
    (es : List (Except E (Triple Id × EP))) :
    s.merge mN mE { nodes := ns.map .ok ++ .error e :: rest, edges := es } =
      ((s.merge (E := E) mN mE { nodes := ns.map .ok, edges := [] }).1, .error (.right e)) := by
  rw [Mem.merge_eq, Mem.merge_eq]
  have h1 : ∀ l : List (Id × NP), firstErr (l.map .ok ++ .error e :: rest) = some e := by
    intro l; induction l with
    | nil => rfl
    | cons a l ih => simpa [firstErr] using ih
  have h2 : ∀ l : List (Id × NP), okPrefix (l.map .ok ++ .error e :: rest) = l := by
    intro l; induction l with
    | nil => rfl
    | cons a l ih => simpa [okPrefix] using ih
  simp [Source.firstErr, Source.edgePrefix, Source.nodePrefix, h1, h2, Mem.firstErr_map_ok, Mem.okPrefix_map_ok,
    okPrefix]

theorem C16_merge_edges (s : Mem Id NP EP) (ns : List (Id × NP)) (es : List (Triple Id × EP)) (e : E)
    (rest : List (Except E (Triple Id × EP))) :
    s.merge mN mE { nodes := ns.map .ok, edges := es.map .ok ++ .error e :: rest } =
      ((s.merge (E := E) mN mE { nodes := ns.map .ok, edges := es.map .ok }).1, .error (.right e)) := by
  rw [Mem.merge_eq, Mem.merge_eq]
  have h1 : ∀ l : List (Triple Id × EP), firstErr (l.map .ok ++ .error e :: rest) = some e := by
    intro l; induction l with
    | nil => rfl
    | cons a l ih => simpa [firstErr] using ih
  have h2 : ∀ l : List (Triple Id × EP), okPrefix (l.map .ok ++ .error e :: rest) = l := by
    intro l; induction l with
    | nil => rfl
    | cons a l ih => simpa [okPrefix] using ih
  simp [Source.firstErr, Source.edgePrefix, Source.nodePrefix, h1, h2, Mem.firstErr_map_ok, Mem.okPrefix_map_ok]

/-- The state left behind is a reachable store showing the prefix that was absorbed: for any source
whatever. -/
theorem C16_state {n : Nat} {s : Mem Id NP EP} {G : Graph Id NP EP} {src : Source E Id NP EP}
    (hs : Mem.Reach E mN mE (n + src.edges.length) s) (hG : Shows s.obs G) :
    (Mem.Reach E mN mE n (s.extend src).1 ∧ Shows (s.extend src).1.obs
      ((Source.edgePrefix src).foldl (fun G x => G.insertEdge x.1 x.2)
        ((Source.nodePrefix src).foldl (fun G x => G.insertNode x.1 x.2) G))) ∧
    (Mem.Reach E mN mE n (s.merge mN mE src).1 ∧ Shows (s.merge mN mE src).1.obs
      ((Source.edgePrefix src).foldl (fun G x => G.mergeEdge mE x.1 x.2)
        ((Source.nodePrefix src).foldl (fun G x => G.mergeNode mN x.1 x.2) G))) :=
  ⟨⟨.op (.extend src) hs, (Mem.ok_apply mN mE n s G (.extend src) (hs.ok_of_shows hG)).shows⟩,
   ⟨.op (.merge src) hs, (Mem.ok_apply mN mE n s G (.merge src) (hs.ok_of_shows hG)).shows⟩⟩

example : (Sample.store.extend Sample.badSrc).2 = .error (.right "disk") ∧
    (Sample.store.extend Sample.badSrc).1.iterEdges .SPO =
      [.ok (⟨1, 5, 2⟩, 71), .ok (⟨2, 2, 2⟩, 3), .ok (⟨2, 5, 9⟩, 8), .ok (⟨3, 3, 3⟩, 5)] := by
  exact ⟨rfl, by decide +kernel⟩

example : Sample.store.extend Sample.badSrc =
    ((Sample.store.extend (E := String) { nodes := [(3, 30)].map .ok, edges := [(⟨3, 3, 3⟩, 5)].map .ok }).1,
      .error (.right "disk")) :=
  C16_extend_edges Sample.store [(3, 30)] [(⟨3, 3, 3⟩, 5)] "disk" [.ok (⟨4, 4, 4⟩, 6)]

example : Shows (Sample.store.merge Sample.mN Sample.mE Sample.badSrc).1.obs
    ((Sample.store.graph.mergeNode Sample.mN 3 30).mergeEdge Sample.mE ⟨3, 3, 3⟩ 5) :=
  (C16_state (n := 0) (src := Sample.badSrc) (Sample.store_reach _ (by decide))
    (Mem.shows (Sample.store_reach 0 (by decide)).inv.toAgree)).2.2

/-! ## C17 merge combines duplicates and copies the rest -/

theorem C17_merge {n : Nat} {s : Mem Id NP EP} {G H : Graph Id NP EP} {src : Source E Id NP EP}
    (hs : Mem.Reach E mN mE (n + src.edges.length) s) (hG : Shows s.obs G) (hH : Represents src H) :
    (s.merge mN mE src).2 = .ok () ∧ Shows (s.merge mN mE src).1.obs (G.mergeWith mN mE H) := by
  have hk : Mem.Ok n (s.merge mN mE src).1 _ := Mem.ok_apply mN mE n s G (.merge src) (hs.ok_of_shows hG)
  obtain ⟨⟨ln, hln, hnn, hmn⟩, ⟨le, hle, hne, hme⟩⟩ := hH
  constructor
  · rw [Mem.merge_eq, Source.firstErr, hln, hle, Mem.firstErr_map_ok, Mem.firstErr_map_ok]; rfl
  · refine (hk.congr ?_).shows
    simp only [Op.apply, Source.edgePrefix, Source.nodePrefix, hln, hle, Mem.firstErr_map_ok,
      Mem.okPrefix_map_ok]
    rw [foldl_mergeNode mN hnn, foldl_mergeEdge mE hne]
    refine Graph.ext' (fun m => ?_) (fun t => ?_)
    · simp [Graph.mergeWith, alGet_eq_of_lists hnn hmn]
    · simp [Graph.mergeWith, alGet_eq_of_lists hne hme]

theorem C17_mergeNode (s : Mem Id NP EP) (x : Id) (p : NP) :
    (∀ q, .ok (x, q) ∈ s.iterVertices → .ok (x, mN q p) ∈ (s.mergeNode mN x p).iterVertices) ∧
    ((∀ q, .ok (x, q) ∉ s.iterVertices) → .ok (x, p) ∈ (s.mergeNode mN x p).iterVertices) ∧
    (∀ m q, m ≠ x → (.ok (m, q) ∈ (s.mergeNode mN x p).iterVertices ↔ .ok (m, q) ∈ s.iterVertices)) ∧
    ∀ o, (s.mergeNode mN x p).iterEdges o = s.iterEdges o := by
  rw [Mem.mergeNode_eq]
  refine ⟨fun q hq => ?_, fun hq => ?_, fun m q hm => ?_, fun o => by cases o <;> rfl⟩
  · simp only [Mem.iterVertices_eq, List.mem_map, Except.ok.injEq, exists_eq_right, BMap.mem_entries] at hq ⊢
    simp [hq]
  · simp only [Mem.iterVertices_eq, List.mem_map, Except.ok.injEq, exists_eq_right, BMap.mem_entries] at hq ⊢
    have : s.nodeProps.get x = none := by
      cases h : s.nodeProps.get x with
      | none => rfl
      | some q => exact absurd h (hq q)
    simp [this]
  · simp only [Mem.iterVertices_eq, List.mem_map, Except.ok.injEq, exists_eq_right, BMap.mem_entries,
      BMap.get_insert, if_neg hm]

theorem C17_mergeEdge {s : Mem Id NP EP} (hs : Mem.Reach E mN mE 1 s) (t : Triple Id) (p : EP) (o : EdgeOrder) :
    (∀ q, .ok (t, q) ∈ s.iterEdges .SPO → .ok (t, mE q p) ∈ (s.mergeEdge mE t p).iterEdges o) ∧
    ((∀ q, .ok (t, q) ∉ s.iterEdges .SPO) → .ok (t, p) ∈ (s.mergeEdge mE t p).iterEdges o) ∧
    (∀ u q, u ≠ t → (.ok (u, q) ∈ (s.mergeEdge mE t p).iterEdges o ↔ .ok (u, q) ∈ s.iterEdges o)) ∧
    (s.mergeEdge mE t p).iterVertices = s.iterVertices := by
  have hk := Mem.ok_mergeEdge mE 0 _ _ t p hs.ok
  refine ⟨fun q hq => ?_, fun hq => ?_, fun u q hu => ?_, ?_⟩
  · rw [Mem.iterEdges_mem hs.inv.toAgree] at hq
    rw [Mem.iterEdges_mem hk.inv.toAgree, hk.graph]
    simp [Graph.mergeEdge, hq]
  · simp only [Mem.iterEdges_mem hs.inv.toAgree] at hq
    rw [Mem.iterEdges_mem hk.inv.toAgree, hk.graph]
    have : s.graph.edges t = none := by
      cases h : s.graph.edges t with
      | none => rfl
      | some q => exact absurd h (hq q)
    simp [Graph.mergeEdge, this]
  · rw [Mem.iterEdges_mem hs.inv.toAgree, Mem.iterEdges_mem hk.inv.toAgree, hk.graph]
    simp [Graph.mergeEdge, hu]
  · have : (s.mergeEdge mE t p).nodeProps = s.nodeProps := by
      apply BMap.ext_get; intro k
      exact congrFun (congrArg Graph.nodes hk.graph) k
    rw [Mem.iterVertices_eq, Mem.iterVertices_eq, this]

/-- `mE q p = 10 q + p`: the stored value comes first -/
example : (Sample.store.merge Sample.mN Sample.mE Sample.goodSrc).1.iterEdges .SPO =
    [.ok (⟨1, 5, 2⟩, 714), .ok (⟨2, 2, 2⟩, 3), .ok (⟨2, 5, 9⟩, 8), .ok (⟨3, 3, 3⟩, 5)] ∧
    (Sample.store.merge Sample.mN Sample.mE Sample.goodSrc).1.iterVertices = [.ok (1, 10), .ok (2, 41), .ok (3, 30)] := by
  decide +kernel

example : Shows (Sample.store.merge Sample.mN Sample.mE Sample.goodSrc).1.obs
    (Sample.store.graph.mergeWith Sample.mN Sample.mE Sample.goodGraph) :=
  (C17_merge (n := 0) (Sample.store_reach _ (by decide)) (Mem.shows (Sample.store_reach 0 (by decide)).inv.toAgree)
    (RepresentsSorted.represents Sample.goodSrc_sorted)).2

example : .ok (2, 29) ∈ (Sample.store.mergeNode Sample.mN 2 9).iterVertices ∧
    .ok (9, 9) ∈ (Sample.store.mergeNode Sample.mN 9 9).iterVertices :=
  ⟨(C17_mergeNode (mN := Sample.mN) Sample.store 2 9).1 20 (by decide +kernel),
   (C17_mergeNode (mN := Sample.mN) Sample.store 9 9).2.1 (fun q h => by
    rw [show Sample.store.iterVertices = [.ok (1, 10), .ok (2, 20)] by decide +kernel] at h
    simp at h)⟩

example : .ok (⟨1, 5, 2⟩, 715) ∈ (Sample.store.mergeEdge Sample.mE ⟨1, 5, 2⟩ 5).iterEdges .POS :=
  (C17_mergeEdge (Sample.store_reach 1 (by decide)) ⟨1, 5, 2⟩ 5 .POS).1 71 (by decide +kernel)

/-! ## C23 Consuming and borrowing iterators agree (in-memory store) -/

theorem C23_mem (s : Mem Id NP EP) (o : EdgeOrder) :
    s.intoIterNodes o = s.iterNodes o ∧ s.intoIterVertices = s.iterVertices ∧
    s.intoIterEdges o = s.iterEdges o ∧ s.intoIterEdgesWithProps o = s.iterEdgesWithProps o ∧
    (s.iterNodes o).nodes = s.iterVertices ∧ (s.iterNodes o).edges = s.iterEdges o := by
  cases o <;> exact ⟨rfl, rfl, rfl, rfl, rfl, rfl⟩

example : Sample.store.intoIterEdges .POS = Sample.store.iterEdges .POS := (C23_mem Sample.store .POS).2.2.1

/-! ## C25 Repeated generator ids: exact damage (in-memory store) -/

/-- If the next id is in use by another edge `u`, that edge silently takes the new properties, in every
order. -/
theorem C25_mem_damage {s : Mem Id NP EP} (hs : Mem.Built E mN mE s) {t u : Triple Id} (p : EP)
    (hu : s.spo.get (encodeSpo u) = some (s.gen 0)) (hne : u ≠ t) (o : EdgeOrder) :
    .ok (u, p) ∈ (s.insertEdge t p).iterEdges o := by
  rw [Mem.iterEdges_mem (Mem.insertEdge_agree hs.agree t p)]
  have : s.idOf u = some (s.gen 0) := hu
  simp [Mem.graph, Mem.insertEdge_idOf, hne, this, Mem.insertEdge_props]

/-- If it is not in use, no other edge changes, even if ids were repeated before. -/
theorem C25_mem_no_damage {s : Mem Id NP EP} (hs : Mem.Built E mN mE s) {t u : Triple Id} (p q : EP)
    (hu : s.spo.get (encodeSpo u) ≠ some (s.gen 0))
    (ht : s.spo.get (encodeSpo t) = none ∨ s.spo.get (encodeSpo u) ≠ s.spo.get (encodeSpo t))
    (hne : u ≠ t) (o : EdgeOrder) :
    .ok (u, q) ∈ (s.insertEdge t p).iterEdges o ↔ .ok (u, q) ∈ s.iterEdges o := by
  rw [Mem.iterEdges_mem (Mem.insertEdge_agree hs.agree t p), Mem.iterEdges_mem hs.agree]
  simp only [Mem.graph, Mem.insertEdge_idOf, if_neg hne]
  have hu' : s.idOf u ≠ some (s.gen 0) := hu
  have ht' : s.idOf t = none ∨ s.idOf u ≠ s.idOf t := ht
  cases hi : s.idOf u with
  | none => simp
  | some i =>
    simp only [Option.bind_some, Mem.insertEdge_props]
    rw [if_neg (by rintro rfl; exact hu' hi), if_neg]
    rcases ht' with h | h
    · simp [h]
    · rw [hi] at h; exact fun e => h e.symm

/-- A generator that always yields 4. -/
def stuck : Mem U64 Nat Nat := (Mem.new (fun _ => 4)).insertEdge ⟨1, 2, 3⟩ 7

example : .ok (⟨1, 2, 3⟩, 8) ∈ (stuck.insertEdge ⟨2, 2, 2⟩ 8).iterEdges .POS :=
  C25_mem_damage (E := Unit) (mN := Sample.mN) (mE := Sample.mE)
    (.op (.insertEdge ⟨1, 2, 3⟩ 7) (.new _)) (t := ⟨2, 2, 2⟩) (u := ⟨1, 2, 3⟩) 8 (by decide +kernel) (by decide) .POS

example : .ok (⟨2, 2, 2⟩, 3) ∈ (Sample.store.insertEdge ⟨9, 9, 9⟩ 1).iterEdges .POS :=
  (C25_mem_no_damage (Sample.store_reach 0 (by decide)).built 1 3 (by decide +kernel) (.inl (by decide +kernel))
    (by decide) .POS).2 (by decide +kernel)

end Verif.Props
