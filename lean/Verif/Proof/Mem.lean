import Verif.Proof.Id
import Verif.Proof.BMap
import Verif.Spec.Graph
import Verif.Model.MemSet

/-! # Invariants and simulation for the in-memory store -/

set_option linter.unusedSectionVars false

namespace Verif

open Spec ConcreteId

variable {Id NP EP : Type} [LinearOrder Id] [ConcreteId Id]

section Enc
variable [LawfulId Id]

theorem encSpo_inj {t u : Triple Id} : encodeSpo t = encodeSpo u ↔ t = u :=
  ⟨fun h => by rw [← LawfulId.decSpo_enc t, h, LawfulId.decSpo_enc], fun h => h ▸ rfl⟩
theorem encPos_inj {t u : Triple Id} : encodePos t = encodePos u ↔ t = u :=
  ⟨fun h => by rw [← LawfulId.decPos_enc t, h, LawfulId.decPos_enc], fun h => h ▸ rfl⟩
theorem encOsp_inj {t u : Triple Id} : encodeOsp t = encodeOsp u ↔ t = u :=
  ⟨fun h => by rw [← LawfulId.decOsp_enc t, h, LawfulId.decOsp_enc], fun h => h ▸ rfl⟩

end Enc

namespace Mem

/-- id recorded for an edge -/
def idOf (s : Mem Id NP EP) (t : Triple Id) : Option Id := s.spo.get (encodeSpo t)

/-- abstraction function -/
def graph (s : Mem Id NP EP) : Graph Id NP EP :=
  { nodes := s.nodeProps.get
    edges := fun t => (s.idOf t).bind s.edgeProps.get }

/-- the three orderings hold the same triples with the same ids -/
structure Agree (s : Mem Id NP EP) : Prop where
  pos : ∀ t, s.pos.get (encodePos t) = s.idOf t
  osp : ∀ t, s.osp.get (encodeOsp t) = s.idOf t

structure Inv (s : Mem Id NP EP) : Prop extends Agree s where
  /-- no two edges share a property record -/
  inj : ∀ t u i, s.idOf t = some i → s.idOf u = some i → t = u
  /-- no edge without a record, no record without an edge -/
  ref : ∀ i, (s.edgeProps.get i).isSome ↔ ∃ t, s.idOf t = some i

/-- the next `n` ids of the generator are unused and distinct -/
structure GenOk (n : Nat) (s : Mem Id NP EP) : Prop where
  unused : ∀ i < n, s.edgeProps.get (s.gen i) = none
  distinct : ∀ i < n, ∀ j < n, s.gen i = s.gen j → i = j

theorem GenOk.mono {n m : Nat} {s : Mem Id NP EP} (h : GenOk n s) (hm : m ≤ n) : GenOk m s :=
  ⟨fun i hi => h.unused i (lt_of_lt_of_le hi hm),
   fun i hi j hj => h.distinct i (lt_of_lt_of_le hi hm) j (lt_of_lt_of_le hj hm)⟩

@[simp] theorem idOf_new (g : Gen Id) (t : Triple Id) : (new g : Mem Id NP EP).idOf t = none := rfl

theorem graph_new (g : Gen Id) : (new g : Mem Id NP EP).graph = Graph.empty := rfl

theorem inv_new (g : Gen Id) : Inv (new g : Mem Id NP EP) where
  pos _ := rfl
  osp _ := rfl
  inj t u i h := by cases h
  ref i := by
    constructor
    · intro h; cases h
    · rintro ⟨t, h⟩; cases h

theorem genOk_new {n : Nat} {g : Gen Id} (h : ∀ i < n, ∀ j < n, g i = g j → i = j) :
    GenOk n (new g : Mem Id NP EP) := ⟨fun _ _ => rfl, h⟩

section
variable [LawfulId Id]

/-! ## insert_node, merge_node -/

theorem insertNode_eq (s : Mem Id NP EP) (n : Id) (p : NP) :
    s.insertNode n p = { s with nodeProps := s.nodeProps.insert n p } := by
  unfold insertNode; split <;> rfl

theorem withNodes_inv {s : Mem Id NP EP} (m : BMap Id NP) (h : Inv s) :
    Inv { s with nodeProps := m } := ⟨⟨h.pos, h.osp⟩, h.inj, h.ref⟩

theorem withNodes_genOk {s : Mem Id NP EP} {k : Nat} (m : BMap Id NP) (h : GenOk k s) :
    GenOk k { s with nodeProps := m } := ⟨h.unused, h.distinct⟩

theorem graph_insertNode (s : Mem Id NP EP) (n : Id) (p : NP) :
    (s.insertNode n p).graph = s.graph.insertNode n p := by
  rw [insertNode_eq]
  refine Graph.ext' ?_ ?_ <;> intro x
  · simp [graph, Graph.insertNode, BMap.get_insert]
  · rfl

theorem extendNode_eq (s : Mem Id NP EP) (x : Id × NP) : s.extendNode x = s.insertNode x.1 x.2 := rfl

theorem mergeNode_eq (f : NP → NP → NP) (s : Mem Id NP EP) (n : Id) (p : NP) :
    s.mergeNode f n p = { s with
      nodeProps := s.nodeProps.insert n (match s.nodeProps.get n with | some q => f q p | none => p) } := by
  unfold mergeNode; split <;> simp_all

theorem graph_mergeNode (f : NP → NP → NP) (s : Mem Id NP EP) (n : Id) (p : NP) :
    (s.mergeNode f n p).graph = s.graph.mergeNode f n p := by
  rw [mergeNode_eq]
  refine Graph.ext' ?_ ?_ <;> intro x
  · simp only [graph, Graph.mergeNode, BMap.get_insert]; rfl
  · rfl

/-! ## insert_edge -/

theorem insertEdge_idOf (s : Mem Id NP EP) (t u : Triple Id) (p : EP) :
    (s.insertEdge t p).idOf u = if u = t then some (s.gen 0) else s.idOf u := by
  unfold insertEdge insertEdgeCreateData insertEdgeDataInternal idOf
  cases s.spo.get (encodeSpo t) <;> simp [Gen.fresh, BMap.get_insert, encSpo_inj]

theorem insertEdge_pos (s : Mem Id NP EP) (t u : Triple Id) (p : EP) :
    (s.insertEdge t p).pos.get (encodePos u) =
      if u = t then some (s.gen 0) else s.pos.get (encodePos u) := by
  unfold insertEdge insertEdgeCreateData insertEdgeDataInternal
  cases s.spo.get (encodeSpo t) <;> simp [Gen.fresh, BMap.get_insert, encPos_inj]

theorem insertEdge_osp (s : Mem Id NP EP) (t u : Triple Id) (p : EP) :
    (s.insertEdge t p).osp.get (encodeOsp u) =
      if u = t then some (s.gen 0) else s.osp.get (encodeOsp u) := by
  unfold insertEdge insertEdgeCreateData insertEdgeDataInternal
  cases s.spo.get (encodeSpo t) <;> simp [Gen.fresh, BMap.get_insert, encOsp_inj]

theorem insertEdge_props (s : Mem Id NP EP) (t : Triple Id) (p : EP) (i : Id) :
    (s.insertEdge t p).edgeProps.get i =
      if i = s.gen 0 then some p else if s.idOf t = some i then none else s.edgeProps.get i := by
  unfold insertEdge insertEdgeCreateData insertEdgeDataInternal idOf
  cases s.spo.get (encodeSpo t) <;>
    simp [Gen.fresh, BMap.get_insert, BMap.get_erase, eq_comm]

@[simp] theorem insertEdge_nodes (s : Mem Id NP EP) (t : Triple Id) (p : EP) :
    (s.insertEdge t p).nodeProps = s.nodeProps := by
  unfold insertEdge insertEdgeCreateData insertEdgeDataInternal
  cases s.spo.get (encodeSpo t) <;> rfl

@[simp] theorem insertEdge_gen (s : Mem Id NP EP) (t : Triple Id) (p : EP) (k : Nat) :
    (s.insertEdge t p).gen k = s.gen (k + 1) := by
  unfold insertEdge insertEdgeCreateData insertEdgeDataInternal
  cases s.spo.get (encodeSpo t) <;> rfl

theorem insertEdge_agree {s : Mem Id NP EP} (h : Agree s) (t : Triple Id) (p : EP) :
    Agree (s.insertEdge t p) where
  pos u := by rw [insertEdge_pos, insertEdge_idOf, h.pos]
  osp u := by rw [insertEdge_osp, insertEdge_idOf, h.osp]

theorem insertEdge_inv {s : Mem Id NP EP} {n : Nat} (h : Inv s) (hg : GenOk (n + 1) s)
    (t : Triple Id) (p : EP) : Inv (s.insertEdge t p) where
  toAgree := insertEdge_agree h.toAgree t p
  inj := by
    have h0 := hg.unused 0 (by omega)
    have hr := h.ref (s.gen 0)
    intro a b i ha hb
    rw [insertEdge_idOf] at ha hb
    have := h.inj a b
    grind
  ref := by
    intro i
    have h0 := hg.unused 0 (by omega)
    have hr := h.ref i
    have hi := h.inj
    simp only [insertEdge_props, insertEdge_idOf]
    constructor
    · intro hs
      by_cases h1 : i = s.gen 0
      · exact ⟨t, by simp [h1]⟩
      · rw [if_neg h1] at hs
        by_cases h2 : s.idOf t = some i
        · simp [h2] at hs
        · rw [if_neg h2] at hs
          obtain ⟨u, hu⟩ := hr.1 hs
          exact ⟨u, by grind⟩
    · rintro ⟨u, hu⟩
      by_cases h1 : i = s.gen 0
      · simp [h1]
      · have hne : u ≠ t := by rintro rfl; simp at hu; exact h1 hu.symm
        rw [if_neg hne] at hu
        have h2 : s.idOf t ≠ some i := fun h2 => hne (hi _ _ _ hu h2)
        rw [if_neg h1, if_neg h2]
        exact hr.2 ⟨u, hu⟩

theorem insertEdge_genOk {s : Mem Id NP EP} {n : Nat} (hg : GenOk (n + 1) s)
    (t : Triple Id) (p : EP) : GenOk n (s.insertEdge t p) where
  unused i hi := by
    have h1 := hg.unused (i + 1) (by omega)
    have h2 := hg.distinct (i + 1) (by omega) 0 (by omega)
    simp only [insertEdge_props, insertEdge_gen]
    grind
  distinct i hi j hj h := by
    simp only [insertEdge_gen] at h
    have := hg.distinct (i + 1) (by omega) (j + 1) (by omega) h
    omega

theorem graph_insertEdge {s : Mem Id NP EP} (h : Inv s)
    (hg : s.edgeProps.get (s.gen 0) = none) (t : Triple Id) (p : EP) :
    (s.insertEdge t p).graph = s.graph.insertEdge t p := by
  refine Graph.ext' ?_ ?_ <;> intro x
  · simp [graph, Graph.insertEdge]
  · simp only [graph, Graph.insertEdge, insertEdge_idOf]
    by_cases hx : x = t
    · simp [hx, insertEdge_props]
    · simp only [if_neg hx]
      cases hi : s.idOf x with
      | none => rfl
      | some i =>
        have h1 : i ≠ s.gen 0 := by
          rintro rfl
          have := (h.ref _).2 ⟨x, hi⟩
          rw [hg] at this; cases this
        have h2 : s.idOf t ≠ some i := fun h2 => hx (h.inj _ _ _ hi h2)
        simp [insertEdge_props, h1, h2]

/-! ## remove_edge, remove_node -/

theorem removeEdge_idOf (s : Mem Id NP EP) (t u : Triple Id) :
    (s.removeEdge t).idOf u = if u = t then none else s.idOf u := by
  unfold removeEdge
  cases h : s.spo.get (encodeSpo t) with
  | none =>
    simp only [idOf]
    split
    · subst_vars; exact h
    · rfl
  | some i => simp [idOf, BMap.get_erase, encSpo_inj]

theorem removeEdge_agree {s : Mem Id NP EP} (h : Agree s) (t : Triple Id) :
    Agree (s.removeEdge t) := by
  have hp := h.pos; have ho := h.osp
  constructor
  · intro u
    rw [removeEdge_idOf]
    unfold removeEdge
    cases hi : s.spo.get (encodeSpo t) with
    | none =>
      rw [hp]; split
      · subst_vars; exact hi
      · rfl
    | some i => simp only [BMap.get_erase, encPos_inj, hp]
  · intro u
    rw [removeEdge_idOf]
    unfold removeEdge
    cases hi : s.spo.get (encodeSpo t) with
    | none =>
      rw [ho]; split
      · subst_vars; exact hi
      · rfl
    | some i => simp only [BMap.get_erase, encOsp_inj, ho]

theorem removeEdge_props (s : Mem Id NP EP) (t : Triple Id) (i : Id) :
    (s.removeEdge t).edgeProps.get i = if s.idOf t = some i then none else s.edgeProps.get i := by
  unfold removeEdge idOf
  cases h : s.spo.get (encodeSpo t) with
  | none => simp
  | some j => simp [BMap.get_erase, eq_comm]

@[simp] theorem removeEdge_nodes (s : Mem Id NP EP) (t : Triple Id) :
    (s.removeEdge t).nodeProps = s.nodeProps := by unfold removeEdge; split <;> rfl

@[simp] theorem removeEdge_gen (s : Mem Id NP EP) (t : Triple Id) :
    (s.removeEdge t).gen = s.gen := by unfold removeEdge; split <;> rfl

theorem foldRemove_agree {s : Mem Id NP EP} (h : Agree s) (L : List (Triple Id)) :
    Agree (L.foldl removeEdge s) := by
  induction L generalizing s with
  | nil => exact h
  | cons t L ih => exact ih (removeEdge_agree h t)

theorem foldRemove_idOf (s : Mem Id NP EP) (L : List (Triple Id)) (u : Triple Id) :
    (L.foldl removeEdge s).idOf u = if u ∈ L then none else s.idOf u := by
  induction L generalizing s with
  | nil => simp
  | cons t L ih =>
    rw [List.foldl_cons, ih, removeEdge_idOf]
    by_cases h1 : u ∈ L <;> by_cases h2 : u = t <;> simp [h1, h2]

theorem foldRemove_props (s : Mem Id NP EP) (L : List (Triple Id)) (i : Id) :
    (L.foldl removeEdge s).edgeProps.get i =
      if ∃ t ∈ L, s.idOf t = some i then none else s.edgeProps.get i := by
  classical
  induction L generalizing s with
  | nil => simp
  | cons t L ih =>
    rw [List.foldl_cons, ih]
    simp only [removeEdge_idOf, removeEdge_props]
    by_cases h : s.idOf t = some i
    · simp [h]
    · simp only [h, if_false, List.mem_cons, exists_eq_or_imp, false_or]
      congr 1
      apply propext
      constructor
      · rintro ⟨u, hu, h'⟩
        refine ⟨u, hu, ?_⟩
        split at h'
        · cases h'
        · exact h'
      · rintro ⟨u, hu, h'⟩
        refine ⟨u, hu, ?_⟩
        rw [if_neg]; · exact h'
        rintro rfl; exact h h'

theorem foldRemove_nodes (s : Mem Id NP EP) (L : List (Triple Id)) :
    (L.foldl removeEdge s).nodeProps = s.nodeProps := by
  induction L generalizing s with
  | nil => rfl
  | cons t L ih => rw [List.foldl_cons, ih, removeEdge_nodes]

theorem foldRemove_gen (s : Mem Id NP EP) (L : List (Triple Id)) :
    (L.foldl removeEdge s).gen = s.gen := by
  induction L generalizing s with
  | nil => rfl
  | cons t L ih => rw [List.foldl_cons, ih, removeEdge_gen]

theorem foldErase (s : Mem Id NP EP) (L : List Id) :
    ∃ m : BMap Id EP, L.foldl (fun s i => { s with edgeProps := s.edgeProps.erase i }) s =
        { s with edgeProps := m } ∧ ∀ i, m.get i = if i ∈ L then none else s.edgeProps.get i := by
  induction L generalizing s with
  | nil => exact ⟨s.edgeProps, rfl, by simp⟩
  | cons a L ih =>
    obtain ⟨m, h1, h2⟩ := ih { s with edgeProps := s.edgeProps.erase a }
    refine ⟨m, by rw [List.foldl_cons, h1], ?_⟩
    intro i
    rw [h2]
    simp only [BMap.get_erase, List.mem_cons]
    by_cases h : i ∈ L <;> by_cases h' : i = a <;> simp [h, h']

theorem mem_getSpo_fst (s : Mem Id NP EP) (n : Id) (t : Triple Id) :
    t ∈ (s.getSpoEdgeRange n).1 ↔ (s.idOf t).isSome ∧ t.sub = n := by
  simp only [getSpoEdgeRange, List.mem_map, Prod.exists, BMap.mem_range]
  constructor
  · rintro ⟨k, v, ⟨hk, hb⟩, rfl⟩
    rw [← LawfulId.encSpo_dec k, LawfulId.kb1_spo] at hb
    refine ⟨?_, hb⟩
    simp [idOf, LawfulId.encSpo_dec, hk]
  · rintro ⟨h1, h2⟩
    obtain ⟨v, hv⟩ := Option.isSome_iff_exists.1 h1
    exact ⟨encodeSpo t, v, ⟨hv, (LawfulId.kb1_spo _ _).2 h2⟩, LawfulId.decSpo_enc t⟩

theorem mem_getSpo_snd (s : Mem Id NP EP) (n : Id) (i : Id) :
    i ∈ (s.getSpoEdgeRange n).2 ↔ ∃ t, s.idOf t = some i ∧ t.sub = n := by
  simp only [getSpoEdgeRange, List.mem_map, Prod.exists, BMap.mem_range]
  constructor
  · rintro ⟨k, v, ⟨hk, hb⟩, rfl⟩
    rw [← LawfulId.encSpo_dec k, LawfulId.kb1_spo] at hb
    exact ⟨_, by simp [idOf, LawfulId.encSpo_dec, hk], hb⟩
  · rintro ⟨t, h1, h2⟩
    exact ⟨encodeSpo t, i, ⟨h1, (LawfulId.kb1_spo _ _).2 h2⟩, rfl⟩

theorem mem_getOsp_fst {s : Mem Id NP EP} (h : Agree s) (n : Id) (t : Triple Id) :
    t ∈ (s.getOspEdgeRange n).1 ↔ (s.idOf t).isSome ∧ t.obj = n := by
  simp only [getOspEdgeRange, List.mem_map, Prod.exists, BMap.mem_range]
  constructor
  · rintro ⟨k, v, ⟨hk, hb⟩, rfl⟩
    rw [← LawfulId.encOsp_dec k, LawfulId.kb1_osp] at hb
    refine ⟨?_, hb⟩
    simp [← h.osp, LawfulId.encOsp_dec, hk]
  · rintro ⟨h1, h2⟩
    obtain ⟨v, hv⟩ := Option.isSome_iff_exists.1 h1
    exact ⟨encodeOsp t, v, ⟨(h.osp t).trans hv, (LawfulId.kb1_osp _ _).2 h2⟩, LawfulId.decOsp_enc t⟩

theorem mem_getOsp_snd {s : Mem Id NP EP} (h : Agree s) (n : Id) (i : Id) :
    i ∈ (s.getOspEdgeRange n).2 ↔ ∃ t, s.idOf t = some i ∧ t.obj = n := by
  simp only [getOspEdgeRange, List.mem_map, Prod.exists, BMap.mem_range]
  constructor
  · rintro ⟨k, v, ⟨hk, hb⟩, rfl⟩
    rw [← LawfulId.encOsp_dec k, LawfulId.kb1_osp] at hb
    exact ⟨_, by rw [← h.osp, LawfulId.encOsp_dec, hk], hb⟩
  · rintro ⟨t, h1, h2⟩
    exact ⟨encodeOsp t, i, ⟨(h.osp t).trans h1, (LawfulId.kb1_osp _ _).2 h2⟩, rfl⟩

/-- everything `remove_node` does, assuming only that the orderings agree -/
theorem removeNode_spec {s : Mem Id NP EP} (h : Agree s) (n : Id) :
    Agree (s.removeNode n) ∧
    (s.removeNode n).nodeProps = s.nodeProps.erase n ∧
    (s.removeNode n).gen = s.gen ∧
    (∀ u, (s.removeNode n).idOf u = if u.sub = n ∨ u.obj = n then none else s.idOf u) ∧
    (∀ i, (s.removeNode n).edgeProps.get i =
      open Classical in
      if ∃ t, s.idOf t = some i ∧ (t.sub = n ∨ t.obj = n) then none else s.edgeProps.get i) := by
  classical
  obtain ⟨m, hm1, hm2⟩ := foldErase { s with nodeProps := s.nodeProps.erase n }
    ((s.getSpoEdgeRange n).2 ++ (s.getOspEdgeRange n).2)
  have e : s.removeNode n = ((s.getSpoEdgeRange n).1 ++ (s.getOspEdgeRange n).1).foldl removeEdge
      { s with nodeProps := s.nodeProps.erase n, edgeProps := m } := by
    unfold removeNode
    simp only
    rw [hm1]
  have ha : Agree ({ s with nodeProps := s.nodeProps.erase n, edgeProps := m } : Mem Id NP EP) :=
    ⟨h.pos, h.osp⟩
  have hmem : ∀ u, u ∈ (s.getSpoEdgeRange n).1 ++ (s.getOspEdgeRange n).1 ↔
      (s.idOf u).isSome ∧ (u.sub = n ∨ u.obj = n) := by
    intro u; rw [List.mem_append, mem_getSpo_fst, mem_getOsp_fst h]; tauto
  have hid : ∀ u, ({ s with nodeProps := s.nodeProps.erase n, edgeProps := m } : Mem Id NP EP).idOf u
      = s.idOf u := fun _ => rfl
  refine ⟨?_, ?_, ?_, ?_, ?_⟩
  · rw [e]; exact foldRemove_agree ha _
  · rw [e, foldRemove_nodes]
  · rw [e, foldRemove_gen]
  · intro u
    rw [e, foldRemove_idOf, hid]
    simp only [hmem]
    by_cases h1 : u.sub = n ∨ u.obj = n
    · rw [if_pos h1]
      cases s.idOf u <;> simp [h1]
    · rw [if_neg h1, if_neg (fun h' => h1 h'.2)]
  · intro i
    rw [e, foldRemove_props]
    simp only [hid, hmem]
    by_cases h1 : ∃ t, s.idOf t = some i ∧ (t.sub = n ∨ t.obj = n)
    · rw [if_pos h1]
      obtain ⟨t, ht, ht'⟩ := h1
      rw [if_pos ⟨t, ⟨by simp [ht], ht'⟩, ht⟩]
    · rw [if_neg h1, if_neg (fun ⟨t, ht, ht'⟩ => h1 ⟨t, ht', ht.2⟩), hm2, if_neg]
      rw [List.mem_append, mem_getSpo_snd, mem_getOsp_snd h]
      rintro (⟨t, ht, ht'⟩ | ⟨t, ht, ht'⟩)
      · exact h1 ⟨t, ht, .inl ht'⟩
      · exact h1 ⟨t, ht, .inr ht'⟩

theorem removeNode_inv {s : Mem Id NP EP} (h : Inv s) (n : Id) : Inv (s.removeNode n) := by
  classical
  obtain ⟨h1, -, -, h4, h5⟩ := removeNode_spec h.toAgree n
  refine ⟨h1, ?_, ?_⟩
  · intro t u i ht hu
    rw [h4] at ht hu
    have := h.inj t u i
    grind
  · intro i
    rw [h5]
    simp only [h4]
    have hr := h.ref i
    have hi := h.inj
    constructor
    · intro hs
      split at hs
      · cases hs
      · rename_i hne
        obtain ⟨t, ht⟩ := hr.1 hs
        refine ⟨t, ?_⟩
        rw [if_neg]; · exact ht
        intro h'; exact hne ⟨t, ht, h'⟩
    · rintro ⟨t, ht⟩
      split at ht
      · cases ht
      · rename_i hne
        rw [if_neg]; · exact hr.2 ⟨t, ht⟩
        rintro ⟨u, hu, hu'⟩
        have := hi _ _ _ ht hu
        subst this; exact hne hu'

theorem removeNode_genOk {s : Mem Id NP EP} {k : Nat} (h : Agree s) (hg : GenOk k s) (n : Id) :
    GenOk k (s.removeNode n) := by
  obtain ⟨-, -, h3, -, h5⟩ := removeNode_spec h n
  constructor
  · intro i hi
    rw [h5, h3]; split
    · rfl
    · exact hg.unused i hi
  · rw [h3]; exact hg.distinct

theorem graph_removeNode {s : Mem Id NP EP} (h : Inv s) (n : Id) :
    (s.removeNode n).graph = s.graph.removeNode n := by
  classical
  obtain ⟨-, h2, -, h4, h5⟩ := removeNode_spec h.toAgree n
  refine Graph.ext' ?_ ?_ <;> intro x
  · simp [graph, Graph.removeNode, h2, BMap.get_erase]
  · simp only [graph, Graph.removeNode, h4]
    split
    · rfl
    · rename_i hne
      cases hi : s.idOf x with
      | none => rfl
      | some i =>
        simp only [Option.bind_some]
        rw [h5, if_neg]
        rintro ⟨u, hu, hu'⟩
        have := h.inj _ _ _ hi hu
        subst this; exact hne hu'

theorem removeEdge_inv {s : Mem Id NP EP} (h : Inv s) (t : Triple Id) : Inv (s.removeEdge t) := by
  refine ⟨removeEdge_agree h.toAgree t, ?_, ?_⟩
  · intro a b i ha hb
    rw [removeEdge_idOf] at ha hb
    have := h.inj a b i
    grind
  · intro i
    rw [removeEdge_props]
    simp only [removeEdge_idOf]
    have hr := h.ref i
    have hi := h.inj
    constructor
    · intro hs
      split at hs
      · cases hs
      · rename_i hne
        obtain ⟨u, hu⟩ := hr.1 hs
        refine ⟨u, ?_⟩
        rw [if_neg]; · exact hu
        rintro rfl; exact hne hu
    · rintro ⟨u, hu⟩
      split at hu
      · cases hu
      · rename_i hne
        rw [if_neg]; · exact hr.2 ⟨u, hu⟩
        intro h'; exact hne (hi _ _ _ hu h')

theorem removeEdge_genOk {s : Mem Id NP EP} {k : Nat} (hg : GenOk k s) (t : Triple Id) :
    GenOk k (s.removeEdge t) := by
  constructor
  · intro i hi
    rw [removeEdge_gen, removeEdge_props]; split
    · rfl
    · exact hg.unused i hi
  · rw [removeEdge_gen]; exact hg.distinct

theorem graph_removeEdge {s : Mem Id NP EP} (h : Inv s) (t : Triple Id) :
    (s.removeEdge t).graph = s.graph.removeEdge t := by
  refine Graph.ext' ?_ ?_ <;> intro x
  · simp [graph, Graph.removeEdge]
  · simp only [graph, Graph.removeEdge, removeEdge_idOf]
    split
    · rfl
    · rename_i hne
      cases hi : s.idOf x with
      | none => rfl
      | some i =>
        simp only [Option.bind_some]
        rw [removeEdge_props, if_neg]
        intro h'; exact hne (h.inj _ _ _ hi h')

/-! ## extend -/

theorem extendEdge_old {s : Mem Id NP EP} {t : Triple Id} {i : Id} (p : EP) (h : s.idOf t = some i) :
    s.extendEdge (t, p) = { s with edgeProps := s.edgeProps.insert i p } := by
  unfold idOf at h
  unfold extendEdge
  simp only [h]
  split <;> rfl

theorem extendEdge_new {s : Mem Id NP EP} {t : Triple Id} (p : EP) (h : s.idOf t = none) :
    s.extendEdge (t, p) = s.insertEdge t p := by
  unfold idOf at h
  unfold extendEdge insertEdge insertEdgeCreateData insertEdgeDataInternal
  simp only [h]

theorem overwrite_inv {s : Mem Id NP EP} (h : Inv s) {t : Triple Id} {i : Id} (p : EP)
    (hi : s.idOf t = some i) : Inv { s with edgeProps := s.edgeProps.insert i p } where
  pos := h.pos
  osp := h.osp
  inj := h.inj
  ref j := by
    have hr := h.ref j
    show ((s.edgeProps.insert i p).get j).isSome ↔ ∃ t, s.idOf t = some j
    rw [BMap.get_insert]
    split
    · subst_vars; simp; exact ⟨t, hi⟩
    · exact hr

theorem overwrite_genOk {s : Mem Id NP EP} (h : Inv s) {k : Nat} (hg : GenOk k s) {t : Triple Id}
    {i : Id} (p : EP) (hi : s.idOf t = some i) :
    GenOk k { s with edgeProps := s.edgeProps.insert i p } where
  unused j hj := by
    have := hg.unused j hj
    show (s.edgeProps.insert i p).get (s.gen j) = none
    rw [BMap.get_insert, if_neg]; · exact this
    intro e
    have := (h.ref i).2 ⟨t, hi⟩
    rw [← e] at this; simp_all
  distinct := hg.distinct

theorem graph_overwrite {s : Mem Id NP EP} (h : Inv s) {t : Triple Id}
    {i : Id} (p : EP) (hi : s.idOf t = some i) :
    ({ s with edgeProps := s.edgeProps.insert i p } : Mem Id NP EP).graph =
      s.graph.insertEdge t p := by
  refine Graph.ext' ?_ ?_ <;> intro x
  · rfl
  · simp only [graph, Graph.insertEdge]
    show (s.idOf x).bind (s.edgeProps.insert i p).get = _
    split
    · subst_vars; simp [hi]
    · rename_i hne
      cases hx : s.idOf x with
      | none => rfl
      | some j =>
        simp only [Option.bind_some, BMap.get_insert]
        rw [if_neg]
        rintro rfl; exact hne (h.inj _ _ _ hx hi)

theorem extendEdge_step {s : Mem Id NP EP} {n : Nat} (h : Inv s) (hg : GenOk (n + 1) s)
    (x : Triple Id × EP) :
    Inv (s.extendEdge x) ∧ GenOk n (s.extendEdge x) ∧
      (s.extendEdge x).graph = s.graph.insertEdge x.1 x.2 := by
  obtain ⟨t, p⟩ := x
  cases hi : s.idOf t with
  | none =>
    rw [extendEdge_new p hi]
    exact ⟨insertEdge_inv h hg t p, insertEdge_genOk hg t p,
      graph_insertEdge h (hg.unused 0 (by omega)) t p⟩
  | some i =>
    rw [extendEdge_old p hi]
    exact ⟨overwrite_inv h p hi, (overwrite_genOk h hg p hi).mono (by omega), graph_overwrite h p hi⟩

/-! ## merge -/

theorem idOf_props {s : Mem Id NP EP} (h : Inv s) {t : Triple Id} {i : Id} (hi : s.idOf t = some i) :
    ∃ q, s.edgeProps.get i = some q ∧ s.graph.edges t = some q := by
  obtain ⟨q, hq⟩ := Option.isSome_iff_exists.1 ((h.ref i).2 ⟨t, hi⟩)
  exact ⟨q, hq, by simp [graph, hi, hq]⟩

theorem reinsert_id {s : Mem Id NP EP} (h : Agree s) {t : Triple Id} {i : Id}
    (hi : s.idOf t = some i) : s.insertEdgeDataInternal t i = s := by
  unfold insertEdgeDataInternal
  rw [BMap.insert_of_get _ (show s.spo.get (encodeSpo t) = some i from hi),
    BMap.insert_of_get _ ((h.pos t).trans hi), BMap.insert_of_get _ ((h.osp t).trans hi)]

theorem mergeEdge_old (f : EP → EP → EP) {s : Mem Id NP EP} (h : Inv s) {t : Triple Id} {i : Id}
    {q : EP} (p : EP) (hi : s.idOf t = some i) (hq : s.edgeProps.get i = some q) :
    s.mergeEdge f t p = { s with edgeProps := s.edgeProps.insert i (f q p) } := by
  have e : s.mergeEdge f t p =
      ({ s with edgeProps := s.edgeProps.insert i (f q p) } : Mem Id NP EP).insertEdgeDataInternal t i := by
    unfold idOf at hi
    unfold mergeEdge mergeEdgeCreateData
    simp only [hi, hq]
  rw [e]
  exact reinsert_id (overwrite_inv h _ hi).toAgree hi

theorem mergeEdge_new (f : EP → EP → EP) {s : Mem Id NP EP} {t : Triple Id} (p : EP)
    (h : s.idOf t = none) : s.mergeEdge f t p = s.insertEdge t p := by
  unfold idOf at h
  unfold mergeEdge mergeEdgeCreateData insertEdge
  simp only [h]

theorem mergeEdge_step (f : EP → EP → EP) {s : Mem Id NP EP} {n : Nat} (h : Inv s)
    (hg : GenOk (n + 1) s) (t : Triple Id) (p : EP) :
    Inv (s.mergeEdge f t p) ∧ GenOk n (s.mergeEdge f t p) ∧
      (s.mergeEdge f t p).graph = s.graph.mergeEdge f t p := by
  cases hi : s.idOf t with
  | none =>
    rw [mergeEdge_new f p hi]
    refine ⟨insertEdge_inv h hg t p, insertEdge_genOk hg t p, ?_⟩
    rw [graph_insertEdge h (hg.unused 0 (by omega)) t p]
    have : s.graph.edges t = none := by simp [graph, hi]
    simp [Graph.insertEdge, Graph.mergeEdge, this]
  | some i =>
    obtain ⟨q, hq, hq'⟩ := idOf_props h hi
    rw [mergeEdge_old f h p hi hq]
    refine ⟨overwrite_inv h _ hi, (overwrite_genOk h hg _ hi).mono (by omega), ?_⟩
    rw [graph_overwrite h _ hi]
    simp [Graph.insertEdge, Graph.mergeEdge, hq']

end

/-! ## the absorbing loops -/

theorem absorb_spec {E σ α : Type} (f : σ → α → σ) (s : σ) (l : List (Except E α)) :
    absorb f s l = ((okPrefix l).foldl f s,
      match firstErr l with | some e => .error e | none => .ok ()) := by
  induction l generalizing s with
  | nil => rfl
  | cons a l ih =>
    cases a with
    | error e => rfl
    | ok a => simp only [absorb, ih, okPrefix, firstErr, List.foldl_cons]

theorem okPrefix_length {E α : Type} (l : List (Except E α)) : (okPrefix l).length ≤ l.length := by
  induction l with
  | nil => simp [okPrefix]
  | cons a l ih => cases a <;> simp [okPrefix, ih]

theorem okPrefix_map_ok {E α : Type} (l : List α) : okPrefix (E := E) (l.map .ok) = l := by
  induction l with
  | nil => rfl
  | cons a l ih => simp [okPrefix, ih]

theorem firstErr_map_ok {E α : Type} (l : List α) : firstErr (E := E) (l.map .ok) = none := by
  induction l with
  | nil => rfl
  | cons a l ih => simp [firstErr, ih]

theorem extend_eq {E : Type} (s : Mem Id NP EP) (src : Source E Id NP EP) :
    s.extend src = ((Source.edgePrefix src).foldl extendEdge
        ((Source.nodePrefix src).foldl extendNode s),
      match Source.firstErr src with | some e => .error (.right e) | none => .ok ()) := by
  unfold extend Source.edgePrefix Source.nodePrefix Source.firstErr
  rw [absorb_spec]
  cases h : firstErr src.nodes with
  | some e => simp
  | none =>
    simp only [absorb_spec]
    cases h' : firstErr src.edges <;> simp

theorem merge_eq {E : Type} (fN : NP → NP → NP) (fE : EP → EP → EP) (s : Mem Id NP EP)
    (src : Source E Id NP EP) :
    s.merge fN fE src = ((Source.edgePrefix src).foldl (fun s x => s.mergeEdge fE x.1 x.2)
        ((Source.nodePrefix src).foldl (fun s x => s.mergeNode fN x.1 x.2) s),
      match Source.firstErr src with | some e => .error (.right e) | none => .ok ()) := by
  unfold merge Source.edgePrefix Source.nodePrefix Source.firstErr
  rw [absorb_spec]
  cases h : firstErr src.nodes with
  | some e => simp
  | none =>
    simp only [absorb_spec]
    cases h' : firstErr src.edges <;> simp

/-- what one step must provide: with `n + d` unused ids before, `n` after -/
structure Ok (n : Nat) (s : Mem Id NP EP) (G : Graph Id NP EP) : Prop where
  inv : Inv s
  gen : GenOk n s
  graph : s.graph = G

theorem fold_free {α : Type} (f : Mem Id NP EP → α → Mem Id NP EP)
    (g : Graph Id NP EP → α → Graph Id NP EP)
    (hstep : ∀ n s G a, Ok n s G → Ok n (f s a) (g G a)) {n : Nat} {s : Mem Id NP EP}
    {G : Graph Id NP EP} (h : Ok n s G) (l : List α) : Ok n (l.foldl f s) (l.foldl g G) := by
  induction l generalizing s G with
  | nil => exact h
  | cons a l ih => exact ih (hstep _ _ _ _ h)

theorem fold_cost {α : Type} (f : Mem Id NP EP → α → Mem Id NP EP)
    (g : Graph Id NP EP → α → Graph Id NP EP)
    (hstep : ∀ n s G a, Ok (n + 1) s G → Ok n (f s a) (g G a)) {n : Nat} {s : Mem Id NP EP}
    {G : Graph Id NP EP} (l : List α) (h : Ok (n + l.length) s G) :
    Ok n (l.foldl f s) (l.foldl g G) := by
  induction l generalizing s G with
  | nil => exact h
  | cons a l ih =>
    apply ih
    apply hstep
    rw [List.length_cons] at h
    exact h

theorem Ok.mono {n m : Nat} {s : Mem Id NP EP} {G : Graph Id NP EP} (h : Ok n s G) (hm : m ≤ n) :
    Ok m s G := ⟨h.inv, h.gen.mono hm, h.graph⟩

theorem edgePrefix_length {E : Type} (src : Source E Id NP EP) :
    (Source.edgePrefix src).length ≤ src.edges.length := by
  unfold Source.edgePrefix
  split
  · simp
  · exact okPrefix_length _

section
variable [LawfulId Id]

theorem ok_insertNode (n : Nat) (s : Mem Id NP EP) (G : Graph Id NP EP) (x : Id) (p : NP)
    (h : Ok n s G) : Ok n (s.insertNode x p) (G.insertNode x p) := by
  refine ⟨?_, ?_, ?_⟩
  · rw [insertNode_eq]; exact withNodes_inv _ h.inv
  · rw [insertNode_eq]; exact withNodes_genOk _ h.gen
  · rw [graph_insertNode, h.graph]

theorem ok_mergeNode (f : NP → NP → NP) (n : Nat) (s : Mem Id NP EP) (G : Graph Id NP EP) (x : Id)
    (p : NP) (h : Ok n s G) : Ok n (s.mergeNode f x p) (G.mergeNode f x p) := by
  refine ⟨?_, ?_, ?_⟩
  · rw [mergeNode_eq]; exact withNodes_inv _ h.inv
  · rw [mergeNode_eq]; exact withNodes_genOk _ h.gen
  · rw [graph_mergeNode, h.graph]

theorem ok_insertEdge (n : Nat) (s : Mem Id NP EP) (G : Graph Id NP EP) (t : Triple Id) (p : EP)
    (h : Ok (n + 1) s G) : Ok n (s.insertEdge t p) (G.insertEdge t p) :=
  ⟨insertEdge_inv h.inv h.gen t p, insertEdge_genOk h.gen t p, by
    rw [graph_insertEdge h.inv (h.gen.unused 0 (by omega)), h.graph]⟩

theorem ok_mergeEdge (f : EP → EP → EP) (n : Nat) (s : Mem Id NP EP) (G : Graph Id NP EP)
    (t : Triple Id) (p : EP) (h : Ok (n + 1) s G) :
    Ok n (s.mergeEdge f t p) (G.mergeEdge f t p) := by
  obtain ⟨h1, h2, h3⟩ := mergeEdge_step f h.inv h.gen t p
  exact ⟨h1, h2, by rw [h3, h.graph]⟩

theorem ok_extendEdge (n : Nat) (s : Mem Id NP EP) (G : Graph Id NP EP) (x : Triple Id × EP)
    (h : Ok (n + 1) s G) : Ok n (s.extendEdge x) (G.insertEdge x.1 x.2) := by
  obtain ⟨h1, h2, h3⟩ := extendEdge_step h.inv h.gen x
  exact ⟨h1, h2, by rw [h3, h.graph]⟩

theorem ok_removeNode (n : Nat) (s : Mem Id NP EP) (G : Graph Id NP EP) (x : Id)
    (h : Ok n s G) : Ok n (s.removeNode x) (G.removeNode x) :=
  ⟨removeNode_inv h.inv x, removeNode_genOk h.inv.toAgree h.gen x, by
    rw [graph_removeNode h.inv, h.graph]⟩

theorem ok_removeEdge (n : Nat) (s : Mem Id NP EP) (G : Graph Id NP EP) (t : Triple Id)
    (h : Ok n s G) : Ok n (s.removeEdge t) (G.removeEdge t) :=
  ⟨removeEdge_inv h.inv t, removeEdge_genOk h.gen t, by
    rw [graph_removeEdge h.inv, h.graph]⟩

end

end Mem

end Verif
