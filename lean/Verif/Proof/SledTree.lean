import Verif.Spec.SledApi
import Verif.Proof.MemQuery
import Verif.Proof.MemReach

/-! # Trees of the sled back-end: keys, records, iteration -/

set_option linter.unusedSectionVars false

namespace Verif

open Spec ConcreteId

theorem map_all_ok {α β X : Type} {l : List α} {f : α → Except X β} (h : ∀ a ∈ l, ∃ b, f a = .ok b) :
    l.map f = (l.filterMap (fun a => match f a with | .ok b => some b | .error _ => none)).map .ok := by
  induction l with
  | nil => rfl
  | cons a l ih =>
    obtain ⟨b, hb⟩ := h a (by simp)
    rw [List.map_cons, List.filterMap_cons, ih (fun a ha => h a (List.mem_cons_of_mem _ ha))]
    simp [hb]

section
variable {Id : Type} [LinearOrder Id] [ConcreteId Id]

def decOf : EdgeOrder → TKey Id → Triple Id
  | .SPO => decodeSpo
  | .POS => decodePos
  | .OSP => decodeOsp

variable [LawfulId Id]

theorem decOf_enc (o : EdgeOrder) (t : Triple Id) : decOf o (encOf o t) = t := by
  cases o
  · exact LawfulId.decSpo_enc t
  · exact LawfulId.decPos_enc t
  · exact LawfulId.decOsp_enc t

theorem encOf_dec (o : EdgeOrder) (k : TKey Id) : encOf o (decOf o k) = k := by
  cases o
  · exact LawfulId.encSpo_dec k
  · exact LawfulId.encPos_dec k
  · exact LawfulId.encOsp_dec k

theorem encOf_inj (o : EdgeOrder) {t u : Triple Id} : (encOf o t).1 = (encOf o u).1 ↔ t = u := by
  constructor
  · intro h
    rw [← decOf_enc o t, Subtype.ext h, decOf_enc]
  · rintro rfl; rfl

theorem encOf_lt (o : EdgeOrder) {t u : Triple Id} : (encOf o t).1 < (encOf o u).1 ↔ edgeLT o t u := by
  cases o
  · exact LawfulId.encSpo_lt t u
  · exact LawfulId.encPos_lt t u
  · exact LawfulId.encOsp_lt t u

theorem toBe_inj {x y : Id} : (toBeBytes x).1 = (toBeBytes y).1 ↔ x = y := by
  constructor
  · intro h
    have := LawfulId.try_toBe x
    rw [h, LawfulId.try_toBe] at this
    exact (Option.some.inj this).symm
  · rintro rfl; rfl

theorem tryFrom_arr {n : Nat} (k : ByteArr n) : ByteArr.tryFrom n k.1 = some k := by
  unfold ByteArr.tryFrom
  rw [dif_pos k.2]

theorem decodeEntry_enc (o : EdgeOrder) (t : Triple Id) (v : Bytes) :
    Sled.decodeEntry (Id := Id) (decOf o) ((encOf o t).1, v) = .ok (t, v) := by
  unfold Sled.decodeEntry
  simp only [tryFrom_arr, decOf_enc]

end

variable {Id NP EP E : Type} [LinearOrder Id] [ConcreteId Id]

/-! ## invariants -/

namespace Db

/-- the node tree holds only decodable entries -/
def NodesOk (Id : Type) [LinearOrder Id] [ConcreteId Id] (c : Codecs NP EP) (d : Db) : Prop :=
  ∀ k b, d.nodeProps.get k = some b → (∃ n : Id, k = (toBeBytes n).1) ∧ ∃ p, c.n.de b = some p

/-- the keys of an ordering are encoded triples -/
def KeysOk (Id : Type) [LinearOrder Id] [ConcreteId Id] (o : EdgeOrder) (d : Db) : Prop :=
  ∀ k v, (d.tree o).get k = some v → ∃ t : Triple Id, k = (encOf o t).1

/-- every edge of an ordering has a decodable record -/
def RecsOk (c : Codecs NP EP) (o : EdgeOrder) (d : Db) : Prop :=
  ∀ k v, (d.tree o).get k = some v → ∃ b p, d.edgeProps.get v = some b ∧ c.e.de b = some p

/-- the orderings hold the same triples with the same ids -/
structure Agree (Id : Type) [LinearOrder Id] [ConcreteId Id] (d : Db) : Prop where
  keys : ∀ o, KeysOk Id o d
  same : ∀ (o : EdgeOrder) (t : Triple Id), d.idIn o t = d.idIn .SPO t

structure Inv (Id : Type) [LinearOrder Id] [ConcreteId Id] (c : Codecs NP EP) (d : Db) : Prop extends
    Agree Id d where
  nodes : NodesOk Id c d
  recs : RecsOk c .SPO d
  inj : ∀ (t u : Triple Id) (v : Bytes), d.idIn .SPO t = some v → d.idIn .SPO u = some v → t = u

/-- the edges an ordering shows -/
def view (c : Codecs NP EP) (d : Db) (o : EdgeOrder) (t : Triple Id) : Option EP :=
  (d.idIn o t).bind (fun v => (d.edgeProps.get v).bind c.e.de)

/-- abstraction function -/
def graph (c : Codecs NP EP) (d : Db) : Graph Id NP EP :=
  { nodes := fun n => (d.nodeProps.get (toBeBytes n).1).bind c.n.de
    edges := d.view c .SPO }

variable [LawfulId Id]

theorem Inv.recsAll {c : Codecs NP EP} {d : Db} (h : Inv Id c d) (o : EdgeOrder) : RecsOk c o d := by
  intro k v hk
  obtain ⟨t, rfl⟩ := h.keys o k v hk
  have : d.idIn .SPO t = some v := (h.same o t).symm.trans hk
  exact h.recs _ v this

theorem Agree.view_eq {c : Codecs NP EP} {d : Db} (h : Agree Id d) (o : EdgeOrder) (t : Triple Id) :
    d.view c o t = d.view c .SPO t := by
  unfold view; rw [h.same]

end Db

/-! ## iteration -/

namespace Sled

variable [LawfulId Id]

theorem orderedEdges_eq (d : Db) (o : EdgeOrder) :
    orderedEdges Id d o = (d.tree o).entries.map (decodeEntry (decOf o)) := by
  cases o <;> rfl

theorem getData_none {P : Type} {c : Codec P} {t : Tree} {k : Bytes} (h : t.get k = none) :
    getData c t k = .ok none := by unfold getData; rw [h]

theorem getData_some {P : Type} {c : Codec P} {t : Tree} {k b : Bytes} {p : P} (h : t.get k = some b)
    (hb : c.de b = some p) : getData c t k = .ok (some p) := by unfold getData; simp [h, hb]

/-- the edges listed by `iter_edges` in an ordering -/
theorem iterEdges_lists {c : Codecs NP EP} {d : Db} {o : EdgeOrder} (hk : d.KeysOk Id o)
    (hr : d.RecsOk c o) :
    ∃ l : List (Triple Id × EP), iterEdges Id c d o = l.map .ok ∧ Lists (edgeLT o) (d.view c o) l := by
  have key : ∀ e ∈ (d.tree o).entries, ∃ (t : Triple Id) (p : EP), e.1 = (encOf o t).1 ∧
      d.view c o t = some p ∧
      (match decodeEntry (Id := Id) (decOf o) e with
        | .error x => .error x
        | .ok (t, v) =>
          match getData c.e d.edgeProps v with
          | .error x => .error x
          | .ok (some p) => .ok (t, p)
          | .ok none => .error .missing) = (.ok (t, p) : Except SErr (Triple Id × EP)) := by
    rintro ⟨k, v⟩ he
    rw [BMap.mem_entries] at he
    obtain ⟨t, rfl⟩ := hk k v he
    obtain ⟨b, p, hb, hp⟩ := hr _ v he
    refine ⟨t, p, rfl, ?_, ?_⟩
    · simp only [Db.view, Db.idIn, he, Option.bind_some, hb, hp]
    · rw [decodeEntry_enc]; simp only [getData_some hb hp]
  have e : iterEdges Id c d o = (d.tree o).entries.map (fun e =>
      match decodeEntry (Id := Id) (decOf o) e with
        | .error x => .error x
        | .ok (t, v) =>
          match getData c.e d.edgeProps v with
          | .error x => .error x
          | .ok (some p) => .ok (t, p)
          | .ok none => .error .missing) := by
    unfold iterEdges
    rw [orderedEdges_eq, List.map_map]
    rfl
  refine ⟨_, e.trans (map_all_ok (fun a ha => by
    obtain ⟨t, p, -, -, h⟩ := key a ha; exact ⟨(t, p), h⟩)), ?_, ?_⟩
  · have hs := List.Pairwise.and_mem.1 (d.tree o).sorted
    refine List.Pairwise.filterMap _ (fun a a' haa b hb b' hb' => ?_) hs
    obtain ⟨ha, ha', hlt⟩ := haa
    obtain ⟨t, p, h1, -, h2⟩ := key a ha
    obtain ⟨t', p', h1', -, h2'⟩ := key a' ha'
    rw [h2] at hb; cases hb
    rw [h2'] at hb'; cases hb'
    rw [h1, h1'] at hlt
    exact (encOf_lt o).1 hlt
  · intro t p
    rw [List.mem_filterMap]
    constructor
    · rintro ⟨a, ha, h⟩
      obtain ⟨t', p', h1, h2, h3⟩ := key a ha
      rw [h3] at h; cases h
      exact h2
    · intro h
      obtain ⟨v, hv, hb⟩ := Option.bind_eq_some_iff.1 h
      have hm : ((encOf o t).1, v) ∈ (d.tree o).entries := BMap.mem_entries.2 hv
      refine ⟨_, hm, ?_⟩
      obtain ⟨t', p', h1, h2, h3⟩ := key _ hm
      rw [h3]
      have := (encOf_inj o).1 h1
      subst this
      rw [h] at h2; cases h2; rfl

theorem iterVertices_lists {c : Codecs NP EP} {d : Db} (h : d.NodesOk Id c) :
    ∃ l : List (Id × NP), iterVertices Id c d = l.map .ok ∧
      Lists (· < ·) (d.graph (Id := Id) c).nodes l := by
  have key : ∀ e ∈ d.nodeProps.entries, ∃ (n : Id) (p : NP), e.1 = (toBeBytes n).1 ∧
      (d.graph (Id := Id) c).nodes n = some p ∧
      (match decodeId e.1 with
        | .error x => .error x
        | .ok k =>
          match deser c.n e.2 with
          | .error x => .error x
          | .ok v => .ok (k, v)) = (.ok (n, p) : Except SErr (Id × NP)) := by
    rintro ⟨k, b⟩ he
    rw [BMap.mem_entries] at he
    obtain ⟨⟨n, rfl⟩, p, hp⟩ := h k b he
    refine ⟨n, p, rfl, ?_, ?_⟩
    · simp only [Db.graph, he, Option.bind_some, hp]
    · simp only [decodeId, LawfulId.try_toBe, deser, hp]
  have e : iterVertices Id c d = d.nodeProps.entries.map (fun e =>
      match decodeId e.1 with
        | .error x => .error x
        | .ok k =>
          match deser c.n e.2 with
          | .error x => .error x
          | .ok v => .ok (k, v)) := rfl
  refine ⟨_, e.trans (map_all_ok (fun a ha => by
    obtain ⟨n, p, -, -, h⟩ := key a ha; exact ⟨(n, p), h⟩)), ?_, ?_⟩
  · have hs := List.Pairwise.and_mem.1 d.nodeProps.sorted
    refine List.Pairwise.filterMap _ (fun a a' haa b hb b' hb' => ?_) hs
    obtain ⟨ha, ha', hlt⟩ := haa
    obtain ⟨t, p, h1, -, h2⟩ := key a ha
    obtain ⟨t', p', h1', -, h2'⟩ := key a' ha'
    rw [h2] at hb; cases hb
    rw [h2'] at hb'; cases hb'
    rw [h1, h1'] at hlt
    exact (LawfulId.toBe_lt _ _).1 hlt
  · intro n p
    rw [List.mem_filterMap]
    constructor
    · rintro ⟨a, ha, h⟩
      obtain ⟨t', p', h1, h2, h3⟩ := key a ha
      rw [h3] at h; cases h
      exact h2
    · intro h'
      obtain ⟨b, hb, hp⟩ := Option.bind_eq_some_iff.1 h'
      have hm : ((toBeBytes n).1, b) ∈ d.nodeProps.entries := BMap.mem_entries.2 hb
      refine ⟨_, hm, ?_⟩
      obtain ⟨t', p', h1, h2, h3⟩ := key _ hm
      rw [h3]
      have := toBe_inj.1 h1
      subst this
      rw [h'] at h2; cases h2; rfl

theorem shows {c : Codecs NP EP} {d : Db} (h : d.Inv Id c) : Shows (obs c d) (d.graph (Id := Id) c) := by
  refine ⟨iterVertices_lists h.nodes, fun o => ?_⟩
  obtain ⟨l, h1, h2⟩ := iterEdges_lists (h.keys o) (h.recsAll o)
  refine ⟨l, h1, h2.1, fun t p => ?_⟩
  rw [h2.2, h.toAgree.view_eq]
  rfl

end Sled

end Verif
