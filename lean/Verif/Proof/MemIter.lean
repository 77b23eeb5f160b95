import Verif.Proof.Mem
import Verif.Spec.MemApi
import Verif.Proof.Lists

/-! # Iteration of the in-memory store shows its graph -/

set_option linter.unusedSectionVars false

namespace Verif

open Spec ConcreteId

variable {Id NP EP : Type} [LinearOrder Id] [ConcreteId Id] [LawfulId Id]

namespace Mem

theorem mem_orderedEdges {s : Mem Id NP EP} (h : Agree s) (o : EdgeOrder) (t : Triple Id) (i : Id) :
    (t, i) ∈ s.orderedEdges o ↔ s.idOf t = some i := by
  cases o
  · simp only [orderedEdges, List.mem_map, Prod.exists, BMap.mem_entries, Prod.mk.injEq]
    constructor
    · rintro ⟨k, v, hk, rfl, rfl⟩
      simp [idOf, LawfulId.encSpo_dec, hk]
    · intro hi
      exact ⟨encodeSpo t, i, hi, LawfulId.decSpo_enc t, rfl⟩
  · simp only [orderedEdges, List.mem_map, Prod.exists, BMap.mem_entries, Prod.mk.injEq]
    constructor
    · rintro ⟨k, v, hk, rfl, rfl⟩
      rw [← h.pos, LawfulId.encPos_dec, hk]
    · intro hi
      exact ⟨encodePos t, i, (h.pos t).trans hi, LawfulId.decPos_enc t, rfl⟩
  · simp only [orderedEdges, List.mem_map, Prod.exists, BMap.mem_entries, Prod.mk.injEq]
    constructor
    · rintro ⟨k, v, hk, rfl, rfl⟩
      rw [← h.osp, LawfulId.encOsp_dec, hk]
    · intro hi
      exact ⟨encodeOsp t, i, (h.osp t).trans hi, LawfulId.decOsp_enc t, rfl⟩

theorem orderedEdges_sorted (s : Mem Id NP EP) (o : EdgeOrder) :
    (s.orderedEdges o).Pairwise (fun a b => edgeLT o a.1 b.1) := by
  cases o
  · simp only [orderedEdges, List.pairwise_map]
    refine s.spo.sorted.imp (fun {a b} h => ?_)
    rw [← LawfulId.encSpo_lt, LawfulId.encSpo_dec, LawfulId.encSpo_dec]; exact h
  · simp only [orderedEdges, List.pairwise_map]
    refine s.pos.sorted.imp (fun {a b} h => ?_)
    rw [← LawfulId.encPos_lt, LawfulId.encPos_dec, LawfulId.encPos_dec]; exact h
  · simp only [orderedEdges, List.pairwise_map]
    refine s.osp.sorted.imp (fun {a b} h => ?_)
    rw [← LawfulId.encOsp_lt, LawfulId.encOsp_dec, LawfulId.encOsp_dec]; exact h

/-- the edges listed by `iter_edges` -/
def edgeList (s : Mem Id NP EP) (o : EdgeOrder) : List (Triple Id × EP) :=
  (s.orderedEdges o).filterMap (fun e => (s.edgeProps.get e.2).map (fun p => (e.1, p)))

theorem iterEdges_eq (s : Mem Id NP EP) (o : EdgeOrder) :
    s.iterEdges o = (s.edgeList o).map .ok := by
  unfold iterEdges edgeList
  rw [List.map_filterMap]
  congr 1
  funext e
  cases s.edgeProps.get e.2 <;> rfl

theorem edgeList_lists {s : Mem Id NP EP} (h : Agree s) (o : EdgeOrder) :
    Lists (edgeLT o) s.graph.edges (s.edgeList o) := by
  constructor
  · unfold edgeList
    refine List.Pairwise.filterMap _ (fun a a' haa b hb b' hb' => ?_) (s.orderedEdges_sorted o)
    simp only [Option.map_eq_some_iff] at hb hb'
    obtain ⟨p, -, rfl⟩ := hb
    obtain ⟨p', -, rfl⟩ := hb'
    exact haa
  · intro t p
    simp only [edgeList, List.mem_filterMap, Prod.exists, Option.map_eq_some_iff, Prod.mk.injEq, graph,
      Option.bind_eq_some_iff]
    constructor
    · rintro ⟨u, i, hm, q, hq, rfl, rfl⟩
      exact ⟨i, (mem_orderedEdges h o _ _).1 hm, hq⟩
    · rintro ⟨i, hi, hq⟩
      exact ⟨t, i, (mem_orderedEdges h o _ _).2 hi, p, hq, rfl, rfl⟩

theorem iterVertices_eq (s : Mem Id NP EP) : s.iterVertices = s.nodeProps.entries.map .ok := rfl

theorem shows {s : Mem Id NP EP} (h : Agree s) : Shows s.obs s.graph :=
  ⟨⟨s.nodeProps.entries, rfl, s.nodeProps.lists⟩,
   fun o => ⟨s.edgeList o, iterEdges_eq s o, edgeList_lists h o⟩⟩

/-! ## with properties -/

def fullList (s : Mem Id NP EP) (o : EdgeOrder) : List (PropsTriple Id NP EP) :=
  (s.edgeList o).filterMap (fun e =>
    match s.nodeProps.get e.1.sub, s.nodeProps.get e.1.obj with
    | some a, some b => some { sub := (e.1.sub, a), pred := (e.1.pred, e.2), obj := (e.1.obj, b) }
    | _, _ => none)

theorem iterEdgesWithProps_eq (s : Mem Id NP EP) (o : EdgeOrder) :
    s.iterEdgesWithProps o = (s.fullList o).map .ok := by
  unfold iterEdgesWithProps fullList edgeList
  rw [List.map_filterMap, List.filterMap_filterMap]
  congr 1
  funext e
  unfold iterImpl
  cases h1 : s.nodeProps.get e.1.sub <;> cases h2 : s.edgeProps.get e.2 <;>
    cases h3 : s.nodeProps.get e.1.obj <;> simp [h1, h3]

theorem fullList_spec {s : Mem Id NP EP} (h : Agree s) (o : EdgeOrder) :
    (s.fullList o).Pairwise (fun a b => edgeLT o a.toTriple b.toTriple) ∧
    ∀ x, x ∈ s.fullList o ↔ s.graph.nodes x.sub.1 = some x.sub.2 ∧
      s.graph.edges x.toTriple = some x.pred.2 ∧ s.graph.nodes x.obj.1 = some x.obj.2 := by
  constructor
  · unfold fullList
    refine List.Pairwise.filterMap _ (fun a a' haa b hb b' hb' => ?_) (edgeList_lists h o).1
    have key : ∀ (a : Triple Id × EP) (b : PropsTriple Id NP EP),
        (match s.nodeProps.get a.1.sub, s.nodeProps.get a.1.obj with
        | some x, some y => some
            ({ sub := (a.1.sub, x), pred := (a.1.pred, a.2), obj := (a.1.obj, y) } : PropsTriple Id NP EP)
        | _, _ => none) = some b → b.toTriple = a.1 := by
      intro a b hb
      split at hb
      · cases hb; rfl
      · cases hb
    rw [key a b hb, key a' b' hb']; exact haa
  · rintro ⟨⟨sn, sp⟩, ⟨pn, pp⟩, ⟨on, op⟩⟩
    simp only [fullList, List.mem_filterMap, Prod.exists]
    constructor
    · rintro ⟨t, p, hm, hx⟩
      have hm' := (edgeList_lists h o).2 t p |>.1 hm
      split at hx
      · rename_i a b ha hb
        cases hx
        exact ⟨ha, hm', hb⟩
      · cases hx
    · rintro ⟨h1, h2, h3⟩
      refine ⟨⟨sn, pn, on⟩, pp, ((edgeList_lists h o).2 _ _).2 h2, ?_⟩
      have h1' : s.nodeProps.get sn = some sp := h1
      have h3' : s.nodeProps.get on = some op := h3
      simp only [h1', h3']

/-! ## consuming iterators -/

theorem intoIterNodes_eq (s : Mem Id NP EP) (o : EdgeOrder) :
    s.intoIterNodes o = s.iterNodes o := by
  cases o <;> rfl

theorem intoIterNodes_represents {s : Mem Id NP EP} (h : Agree s) (o : EdgeOrder) :
    Represents (s.intoIterNodes o) s.graph := by
  rw [intoIterNodes_eq]
  refine ⟨⟨s.nodeProps.entries, rfl, s.nodeProps.keys_nodup, fun _ _ => BMap.mem_entries⟩,
    ⟨s.edgeList o, iterEdges_eq s o, ?_, (edgeList_lists h o).2⟩⟩
  exact Lists.nodup (edgeLT_irrefl o) (edgeList_lists h o)

end Mem

end Verif
