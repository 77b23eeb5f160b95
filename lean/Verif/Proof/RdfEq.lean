import Verif.Proof.Rdf
import Verif.Proof.MemEq
import Verif.Spec.RdfEq

/-! # `try_eq` of RDF stores -/

namespace Verif

open Spec

theorem pairwise_swap {α : Type} {r r' : α → α → Prop} (hirr : ∀ a, ¬ r a a) (htr : ∀ a b c, r a b → r b c → r a c) {l : List α}
    (h : l.Pairwise r) (h' : l.Pairwise r') {a b : α} (ha : a ∈ l) (hb : b ∈ l) (hab : r a b) : r' a b := by
  induction l with
  | nil => cases ha
  | cons x l ih =>
    rw [List.pairwise_cons] at h h'
    rcases List.mem_cons.1 ha with rfl | ha'
    · rcases List.mem_cons.1 hb with rfl | hb'
      · exact absurd hab (hirr _)
      · exact h'.1 _ hb'
    · rcases List.mem_cons.1 hb with rfl | hb'
      · exact absurd (htr _ _ _ hab (h.1 _ ha')) (hirr _)
      · exact ih h.2 h'.2 ha' hb'

/-- two sorted lists are equal iff they have the same elements, sorted in the same way -/
theorem sorted_eq_iff {α : Type} {r r' : α → α → Prop} (hirr : ∀ a, ¬ r a a) (htr : ∀ a b c, r a b → r b c → r a c)
    (hirr' : ∀ a, ¬ r' a a) (htr' : ∀ a b c, r' a b → r' b c → r' a c) {l l' : List α} (h : l.Pairwise r) (h' : l'.Pairwise r') :
    l = l' ↔ (∀ a, a ∈ l ↔ a ∈ l') ∧ ∀ a b, a ∈ l → b ∈ l → (r a b ↔ r' a b) := by
  constructor
  · rintro rfl
    exact ⟨fun _ => .rfl, fun a b ha hb => ⟨pairwise_swap hirr htr h h' ha hb, pairwise_swap hirr' htr' h' h ha hb⟩⟩
  · rintro ⟨hm, ho⟩
    refine pairwise_ext hirr htr h ?_ hm
    exact h'.imp_of_mem (fun {a b} ha hb hab => (ho a b ((hm a).2 ha) ((hm b).2 hb)).2 hab)

namespace Rdf

variable {I S IX SX NP EP : Type} {ix : BidirIndex I IX String Ulid} {f : String → Option Ulid} {G : Graph Ulid NP EP}
  {x : RdfState NP EP} {st : StoreImpl S SX Ulid NP EP} {okN : NP → Bool} {okE : EP → Bool} {bad : SX} {mN : NP → NP → NP}
  {mE : EP → EP → EP} {Ok : Nat → S → Graph Ulid NP EP → Prop} {n : Nat} {r : Rdf I S}

theorem before_irrefl (e : Entity) : ¬ Before f e e := by
  rintro ⟨u, u', h, h', hlt⟩
  rw [h.fst h'] at hlt
  exact lt_irrefl _ hlt

theorem before_trans (a b c : Entity) (h : Before f a b) (h' : Before f b c) : Before f a c := by
  obtain ⟨u, v, h1, h2, h3⟩ := h
  obtain ⟨v', w, k1, k2, k3⟩ := h'
  rw [← h2.fst k1] at k3
  exact ⟨u, w, h1, k2, lt_trans h3 k3⟩

theorem refT_fst {t : Triple Entity} {u v : Triple Ulid} (h : Ref f t.sub u.sub ∧ Ref f t.pred u.pred ∧ Ref f t.obj u.obj)
    (h' : Ref f t.sub v.sub ∧ Ref f t.pred v.pred ∧ Ref f t.obj v.obj) : u = v := by
  obtain ⟨a, b, c⟩ := u
  obtain ⟨a', b', c'⟩ := v
  obtain rfl : a = a' := h.1.fst h'.1
  obtain rfl : b = b' := h.2.1.fst h'.2.1
  obtain rfl : c = c' := h.2.2.fst h'.2.2
  rfl

theorem beforeT_irrefl (t : Triple Entity) : ¬ BeforeT f t t := by
  rintro ⟨u, u', h, h', hlt⟩
  rw [refT_fst h h'] at hlt
  exact edgeLT_irrefl _ _ hlt

theorem beforeT_trans (a b c : Triple Entity) (h : BeforeT f a b) (h' : BeforeT f b c) : BeforeT f a c := by
  obtain ⟨u, v, h1, h2, h3⟩ := h
  obtain ⟨v', w, k1, k2, k3⟩ := h'
  rw [← refT_fst h2 k1] at k3
  exact ⟨u, w, h1, k2, edgeLT_trans _ h3 k3⟩

/-- `iter_nodes` lists the graph in the order of the ids -/
theorem iterNodes_sorted (law : StoreLaw st okN okE bad mN mE Ok) (hn : ix.Shows r.nameIndex f) (hg : Ok n r.graph G)
    (ha : Agree f G x) :
    (∃ l : List (Entity × NP), (r.iterNodes ix st .SPO).nodes = l.map .ok ∧ l.Pairwise (fun a b => Before f a.1 b.1) ∧
      ∀ e p, (e, p) ∈ l ↔ x.graph.nodes e = some p) ∧
    ∃ l : List (Triple Entity × EP), (r.iterNodes ix st .SPO).edges = l.map .ok ∧ l.Pairwise (fun a b => BeforeT f a.1 b.1) ∧
      ∀ t p, (t, p) ∈ l ↔ x.graph.edges t = some p := by
  obtain ⟨dec, h1, hd⟩ := decoder (SX := SX) hn
  have hi : Inj f := hn.inj
  have hs := law.shows hg
  unfold iterNodes
  rw [law.iterNodes hg]
  constructor
  · obtain ⟨l, e, hl⟩ := hs.1
    dsimp only at e
    refine ⟨l.map (fun a => (dec a.1, a.2)), ?_, ?_, fun e p => ?_⟩
    · simp only [e, List.map_map]
      exact List.map_congr_left (fun a _ => vertexItem_ok h1 a)
    · rw [List.pairwise_map]
      exact hl.1.imp (fun {a b} hab => ⟨a.1, b.1, hd _, hd _, hab⟩)
    · rw [nodes_decode hi ha hd, List.mem_map]
      constructor
      · rintro ⟨a, ha, h⟩; cases h; exact ⟨a.1, rfl, (hl.2 _ _).1 ha⟩
      · rintro ⟨u, rfl, h⟩; exact ⟨(u, p), (hl.2 _ _).2 h, rfl⟩
  · obtain ⟨l, e, hl⟩ := hs.2 .SPO
    dsimp only at e
    refine ⟨l.map (fun a => (a.1.map dec, a.2)), ?_, ?_, fun e p => ?_⟩
    · simp only [e, List.map_map]
      exact List.map_congr_left (fun a _ => edgeItem_ok h1 a)
    · rw [List.pairwise_map]
      exact hl.1.imp (fun {a b} hab => ⟨a.1, b.1, ⟨hd _, hd _, hd _⟩, ⟨hd _, hd _, hd _⟩, hab⟩)
    · rw [edges_decode hi ha hd, List.mem_map]
      constructor
      · rintro ⟨a, ha, h⟩; cases h; exact ⟨a.1, rfl, (hl.2 _ _).1 ha⟩
      · rintro ⟨u, rfl, h⟩; exact ⟨(u, p), (hl.2 _ _).2 h, rfl⟩

theorem map_eq_iff {κ ν : Type} {a b : κ → Option ν} {l l' : List (κ × ν)} (h : ∀ k v, (k, v) ∈ l ↔ a k = some v)
    (h' : ∀ k v, (k, v) ∈ l' ↔ b k = some v) : a = b ↔ ∀ x, x ∈ l ↔ x ∈ l' := by
  constructor
  · rintro rfl ⟨k, v⟩
    exact (h k v).trans (h' k v).symm
  · intro hm
    funext k
    ext v
    exact (h k v).symm.trans ((hm (k, v)).trans (h' k v))

/-- lists of pairs sorted by their first components -/
theorem entries_eq_iff {κ ν : Type} {r r' : κ → κ → Prop} (hirr : ∀ a, ¬ r a a) (htr : ∀ a b c, r a b → r b c → r a c)
    (hirr' : ∀ a, ¬ r' a a) (htr' : ∀ a b c, r' a b → r' b c → r' a c) {a b : κ → Option ν} {l l' : List (κ × ν)}
    (hl : l.Pairwise (fun x y => r x.1 y.1)) (hl' : l'.Pairwise (fun x y => r' x.1 y.1))
    (h : ∀ k v, (k, v) ∈ l ↔ a k = some v) (h' : ∀ k v, (k, v) ∈ l' ↔ b k = some v) :
    l = l' ↔ a = b ∧ ∀ k k', (a k).isSome → (a k').isSome → (r k k' ↔ r' k k') := by
  rw [sorted_eq_iff (r := fun x y : κ × ν => r x.1 y.1) (r' := fun x y : κ × ν => r' x.1 y.1) (fun _ => hirr _)
    (fun _ _ _ => htr _ _ _) (fun _ => hirr' _) (fun _ _ _ => htr' _ _ _) hl hl', map_eq_iff h h']
  refine and_congr_right (fun _ => ⟨fun ho k k' hk hk' => ?_, fun ho x y hx hy => ?_⟩)
  · obtain ⟨v, hv⟩ := Option.isSome_iff_exists.1 hk
    obtain ⟨v', hv'⟩ := Option.isSome_iff_exists.1 hk'
    exact ho (k, v) (k', v') ((h _ _).2 hv) ((h _ _).2 hv')
  · exact ho x.1 y.1 (by rw [(h x.1 x.2).1 hx]; rfl) (by rw [(h y.1 y.2).1 hy]; rfl)

end Rdf

end Verif
