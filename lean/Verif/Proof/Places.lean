import Verif.Spec.Places
import Verif.Proof.HistoryLoose
import Verif.Proof.SledReadingP
import Verif.Proof.SledLazy
import Verif.Proof.Ends

/-! # What readers get has a place in the history -/

set_option linter.unusedSectionVars false

namespace Verif

open Spec ConcreteId

section

variable {α β : Type} {P : α → β → Prop} {l : List α} {r : List β}

theorem forall₂_exists (h : ∀ a ∈ l, ∃ b, P a b) : ∃ r : List β, List.Forall₂ P l r := by
  induction l with
  | nil => exact ⟨[], .nil⟩
  | cons a l ih =>
    obtain ⟨b, hb⟩ := h a List.mem_cons_self
    obtain ⟨r, hr⟩ := ih (fun a ha => h a (List.mem_cons_of_mem _ ha))
    exact ⟨b :: r, .cons hb hr⟩

theorem forall₂_of_left (h : List.Forall₂ P l r) {a : α} (ha : a ∈ l) : ∃ b ∈ r, P a b := by
  induction h with
  | nil => cases ha
  | cons h1 _ ih =>
    rcases List.mem_cons.1 ha with rfl | ha
    · exact ⟨_, List.mem_cons_self, h1⟩
    · obtain ⟨b, hb, h⟩ := ih ha
      exact ⟨b, List.mem_cons_of_mem _ hb, h⟩

theorem forall₂_of_right (h : List.Forall₂ P l r) {b : β} (hb : b ∈ r) : ∃ a ∈ l, P a b := by
  obtain ⟨a, ha, h⟩ := forall₂_of_left h.flip hb
  exact ⟨a, ha, h⟩

theorem forall₂_map_eq {γ : Type} (h : List.Forall₂ P l r) {f : α → γ} {g : β → γ} (hp : ∀ a b, P a b → f a = g b) : l.map f = r.map g := by
  induction h with
  | nil => rfl
  | cons h1 _ ih => rw [List.map_cons, List.map_cons, hp _ _ h1, ih]

theorem forall₂_pairwise {R : α → α → Prop} {S : β → β → Prop} (h : List.Forall₂ P l r) (hl : l.Pairwise R)
    (hp : ∀ a b a' b', P a b → P a' b' → R a a' → S b b') : r.Pairwise S := by
  induction h with
  | nil => exact .nil
  | cons h1 h2 ih =>
    obtain ⟨i1, i2⟩ := List.pairwise_cons.1 hl
    refine List.pairwise_cons.2 ⟨fun b hb => ?_, ih i2⟩
    obtain ⟨a, ha, h⟩ := forall₂_of_right h2 hb
    exact hp _ _ _ _ h1 h (i1 a ha)

end

namespace Sled

open Db

section

variable {T : Nat → Tree} {b : Bound Bytes × Bound Bytes} {m : Nat} {cur : Option Bytes} {l : List (Nat × Bytes × Bytes)}

/-- each key of a traversal with a moment at which it is there, or not -/
theorem Scan.places (h : Scan T b m cur l) : ∃ place : Bytes → Nat, (∀ e ∈ l, place e.2.1 = e.1) ∧
    (∀ k, After cur k → Bound.contains b k = true → m ≤ place k) ∧
    (∀ k, After cur k → Bound.contains b k = true → (∀ e ∈ l, e.2.1 ≠ k) → (T (place k)).get k = none) ∧
    ∀ k k', After cur k → Bound.contains b k = true → After cur k' → Bound.contains b k' = true → k < k' →
      ((∃ e ∈ l, e.2.1 = k) ∨ ∃ e ∈ l, e.2.1 = k') → place k ≤ place k' := by
  classical
  induction h with
  | @done m cur h =>
    have h' : ∀ k, ∃ m', m ≤ m' ∧ (After cur k → Bound.contains b k = true → (T m').get k = none) := by
      intro k
      by_cases h1 : After cur k ∧ Bound.contains b k = true
      · obtain ⟨m', h2, h3⟩ := h k h1.1 h1.2
        exact ⟨m', h2, fun _ _ => h3⟩
      · exact ⟨m, le_rfl, fun i j => absurd ⟨i, j⟩ h1⟩
    choose f hf hf' using h'
    exact ⟨f, by simp, fun k _ _ => hf k, fun k i j _ => hf' k i j, fun k k' _ _ _ _ _ h => by simp at h⟩
  | @next m m' cur k0 v l hm hk hb hv h rest ih =>
    obtain ⟨p, h1, h2, h3, h4⟩ := ih
    have h' : ∀ k, ∃ m'', m ≤ m'' ∧ m'' ≤ m' ∧ (After cur k → k < k0 → Bound.contains b k = true → (T m'').get k = none) := by
      intro k
      by_cases h1 : After cur k ∧ k < k0 ∧ Bound.contains b k = true
      · obtain ⟨m', h2, h3, h4⟩ := h k h1.1 h1.2.1 h1.2.2
        exact ⟨m', h2, h3, fun _ _ _ => h4⟩
      · exact ⟨m, le_rfl, hm, fun i j k => absurd ⟨i, j, k⟩ h1⟩
    choose f hf hf' hf'' using h'
    have later : ∀ e ∈ l, k0 < e.2.1 := fun e he => (rest.mem e he).2.1
    refine ⟨fun k => if k < k0 then f k else if k = k0 then m' else p k, ?_, ?_, ?_, ?_⟩
    · intro e he
      rcases List.mem_cons.1 he with rfl | he
      · simp
      · have := later e he
        simp only [if_neg (not_lt_of_gt this), if_neg (ne_of_gt this)]
        exact h1 e he
    · intro k i j
      dsimp only
      split
      · exact hf k
      · rename_i n1
        split
        · exact hm
        · rename_i n2
          exact hm.trans (h2 k (lt_of_le_of_ne (not_lt.1 n1) (Ne.symm n2)) j)
    · intro k i j hn
      have n2 : k ≠ k0 := fun e => hn _ List.mem_cons_self e.symm
      dsimp only
      split
      · rename_i n1
        exact hf'' k i n1 j
      · rename_i n1
        exact h3 k (lt_of_le_of_ne (not_lt.1 n1) (Ne.symm n2)) j (fun e he => hn e (List.mem_cons_of_mem _ he))
    · intro k k' i j i' j' hlt hl
      rcases lt_trichotomy k k0 with c1 | rfl | c1
      · simp only [if_pos c1]
        rcases lt_trichotomy k' k0 with c2 | rfl | c2
        · exfalso
          rcases hl with ⟨e, he, rfl⟩ | ⟨e, he, rfl⟩ <;> rcases List.mem_cons.1 he with rfl | he
          · exact lt_irrefl _ c1
          · exact lt_irrefl _ (c1.trans (later e he))
          · exact lt_irrefl _ c2
          · exact lt_irrefl _ (c2.trans (later e he))
        · simp only [lt_irrefl, if_false, if_true]
          exact hf' k
        · simp only [if_neg (not_lt_of_gt c2), if_neg (ne_of_gt c2)]
          exact (hf' k).trans (h2 k' c2 j')
      · simp only [lt_irrefl, if_false, if_true, if_neg (not_lt_of_gt hlt), if_neg (ne_of_gt hlt)]
        exact h2 k' hlt j'
      · have c2 := c1.trans hlt
        simp only [if_neg (not_lt_of_gt c1), if_neg (ne_of_gt c1), if_neg (not_lt_of_gt c2), if_neg (ne_of_gt c2)]
        refine h4 k k' c1 j c2 j' hlt ?_
        rcases hl with ⟨e, he, rfl⟩ | ⟨e, he, rfl⟩ <;> rcases List.mem_cons.1 he with rfl | he
        · exact absurd c1 (lt_irrefl _)
        · exact .inl ⟨e, he, rfl⟩
        · exact absurd c2 (lt_irrefl _)
        · exact .inr ⟨e, he, rfl⟩

end

variable {Id NP EP E : Type} [LinearOrder Id] [ConcreteId Id] [LawfulId Id]
variable {mN : NP → NP → NP} {mE : EP → EP → EP} {c : Codecs NP EP}

theorem scansOf_none {d0 : Db} {threads : List (List (Call E Id NP EP))} (hx : ∀ th ∈ threads, ∀ x ∈ th, ¬ x.IsScan) : ScansOf d0 threads :=
  fun th hth n f b h => absurd trivial (hx th hth _ h)

/-- what one moment of a course shows -/
structure Sight (c : Codecs NP EP) (W : Triple Id → Prop) (d : Db) (G : Graph Id NP EP) : Prop where
  keys : ∀ o, d.KeysOk Id o
  nodesOk : d.NodesOk Id c
  nodes : ∀ n p, (d.graph (Id := Id) c).nodes n = some p ↔ G.nodes n = some p
  noNode : ∀ n, d.nodeProps.get (toBeBytes n).1 = none ↔ G.nodes n = none
  edges : ∀ o t, o = .SPO ∨ ¬ W t → ∀ p, d.view c o t = some p ↔ G.edges t = some p
  noEdge : ∀ o t, o = .SPO ∨ ¬ W t → (d.idIn o t = none ↔ G.edges t = none)

theorem sight {W : Triple Id → Prop} {d : Db} {G : Graph Id NP EP} (hs : ShowsBut c W d G) (ha : Agreed W d) (hk : ∀ o, d.KeysOk Id o)
    (hn : d.NodesOk Id c) : Sight c W d G := by
  have e1 : ∀ t p, d.view c .SPO t = some p ↔ G.edges t = some p := by
    intro t p
    obtain ⟨l, h1, -, h2⟩ := hs.1.edges
    rw [← mem_iterEdges (hk .SPO), h1, ← h2 t p]
    simp
  have e2 : ∀ t, d.idIn .SPO t = none ↔ G.edges t = none := by
    intro t
    constructor
    · intro h
      cases e : G.edges t with
      | none => rfl
      | some p =>
        have := (e1 t p).2 e
        simp [Db.view, h] at this
    · intro h
      cases e : d.idIn .SPO t with
      | none => rfl
      | some v =>
        obtain ⟨l, h1, -, h2⟩ := hs.1.edges
        rw [edgeItem_eq] at h1
        have hm : edgeItem Id c d .SPO ((encOf .SPO t).1, v) ∈ l.map .ok := by
          rw [← h1]
          exact List.mem_map_of_mem (BMap.mem_entries.2 e)
        obtain ⟨⟨t', p⟩, hl, hm⟩ := List.mem_map.1 hm
        rw [edgeItem_enc] at hm
        cases e3 : d.edgeProps.get v with
        | none => simp only [e3] at hm; cases hm
        | some b =>
          simp only [e3] at hm
          cases e4 : c.e.de b with
          | none => simp only [e4] at hm; cases hm
          | some p' =>
            simp only [e4] at hm
            cases hm
            rw [(h2 t p).1 hl] at h
            cases h
  have n1 : ∀ n p, (d.graph (Id := Id) c).nodes n = some p ↔ G.nodes n = some p := by
    intro n p
    obtain ⟨l, h1, -, h2⟩ := hs.1.nodes
    rw [← mem_iterVertices hn, h1, ← h2 n p]
    simp
  refine ⟨hk, hn, n1, fun n => ⟨fun h => ?_, fun h => ?_⟩, fun o t h p => ?_, fun o t h => ?_⟩
  · cases e : G.nodes n with
    | none => rfl
    | some p =>
      have := (n1 n p).2 e
      simp [Db.graph, h] at this
  · cases e : d.nodeProps.get (toBeBytes n).1 with
    | none => rfl
    | some v =>
      obtain ⟨-, p, hp⟩ := hn _ v e
      have := (n1 n p).1 (by simp [Db.graph, e, hp])
      rw [h] at this
      cases this
  · rcases h with rfl | h
    · exact e1 t p
    · rw [← e1 t p, Db.view, Db.view, ha t h o]
  · rcases h with rfl | h
    · exact e2 t
    · rw [ha t h o]
      exact e2 t

theorem min_mono {a N m m' : Nat} (h : m ≤ m') : min (a + m) N ≤ min (a + m') N := by omega

theorem course_from {part : Bool} {x : Nat → Db × List (List (Prog Db Unit))} {N : Nat} (hC : Course part x N) {k k' : Nat} (hk : k ≤ k')
    (hN : k' ≤ N) : Steps (x k) (x k') := by
  have hC' : Course part (fun j => x (k + j)) (N - k) := fun j hj => hC (k + j) (by omega)
  have := course_steps hC' (k' - k) (by omega)
  rwa [show k + (k' - k) = k' by omega] at this

variable {d0 : Db} {threads : List (List (PieceCall E Id NP EP))} {x : Nat → Db × List (List (Prog Db Unit))} {N : Nat} {part : Bool}

theorem agreed_course (hc : c.RoundTrip) (hb : part = true ∨ c.Total) (inv : d0.Inv Id c)
    (hx : ∀ th ∈ threads, ∀ x ∈ th, ¬ x.1.IsScan) (hi : DistinctIds d0 (calls threads)) (hC : Course part x N)
    (h0 : x 0 = (d0, threads.map (List.map (PieceCall.prog c mN mE)))) {k : Nat} (hk : k ≤ N) : Agreed (ToRaced (calls threads)) (x k).1 := by
  have e1 : Programs.calls (threads.map (List.map (fun x => (x.prog c mN mE, x.1)))) = calls threads := by
    simp [Programs.calls, calls, Function.comp_def]
  have e2 : Programs.start (threads.map (List.map (fun x => (x.prog c mN mE, x.1)))) =
      threads.map (List.map (PieceCall.prog c mN mE)) := by
    simp [Programs.start, Function.comp_def]
  rw [← e2] at h0
  exact agreed_programs (b := part) (WO := ToRaced (calls threads)) (fun t _ o => inv.same o t)
    (by rw [e1]; exact fun t h => ⟨fun h' => h (.inr (.inl h')), fun h' => h (.inr (.inr h'))⟩)
    (by rw [e1]; exact fineX_pieces hc hb inv hi hx) _ (h0 ▸ course_steps hC k hk)

/-- what is needed of the moments of a course, some of them in order -/
theorem course_momentsOk (hc : c.RoundTrip) (inv : d0.Inv Id c) (hx : ∀ th ∈ threads, ∀ x ∈ th, ¬ x.1.IsScan)
    (hi : DistinctIds d0 (calls threads)) (hC : Course part x N)
    (h0 : x 0 = (d0, threads.map (List.map (PieceCall.prog c mN mE)))) {φ : Nat → Nat} (hφ : ∀ m m', m ≤ m' → φ m ≤ φ m') (hN : ∀ m, φ m ≤ N) :
    MomentsOk c (fun m => (x (φ m)).1) (OnlyInserted (calls threads)) := by
  have hs : ScansOf d0 (calls threads) := scansOf_none (fun th hth y hy => by
    obtain ⟨th, h1, rfl⟩ := List.mem_map.1 hth
    obtain ⟨y, h2, rfl⟩ := List.mem_map.1 hy
    exact hx th h1 y h2)
  have two : ∀ {m m' : Nat}, m ≤ m' → _ := fun {m m'} h =>
    hist_pieces hc inv hi hs (h0 ▸ course_steps hC (φ m) (hN m)) (course_from hC (hφ m m' h) (hN m'))
  refine ⟨fun m => ?_, fun m => ?_, fun {m m'} h o k v hk => ?_⟩
  · obtain ⟨H, -, h1, -⟩ := two (le_refl m)
    exact h1.neat.keys
  · obtain ⟨H, -, h1, -⟩ := two (le_refl m)
    exact h1.neat.nodes
  · obtain ⟨H, H', h1, h2, h3⟩ := two h
    exact h3.entry h1 h2 hk

/-! ## traversals of edges and nodes -/

section

variable {D : Nat → Db} {K : Triple Id → Prop} {W : Triple Id → Prop} {o : EdgeOrder} {b : Bound Bytes × Bound Bytes} {a : Nat}
variable {g : Nat → Graph Id NP EP} {α : Type} {x : Nat → Db × α}

theorem placed_edges (hr : MomentsOk c (since x a N) K) (ha : a ≤ N) (hs : ∀ k ≤ N, Sight c W (x k).1 (g k)) {l : List Seen}
    (h : Reading (since x a N) o b l) :
    ∃ (r : List (Triple Id × Option EP)) (place : Triple Id → Nat),
      l.map (fun e => edgeItem Id c (since x a N e.look) o (e.key, e.id)) = r.map itemFor ∧
      (∀ t, (t, none) ∈ r → ¬ K t) ∧ List.Forall₂ (fun e y => e.key = (encOf o y.1).1 ∧ place y.1 = min (a + e.scan) N) l r ∧
      Placed (edgeLT o) (fun k => (g k).edges) a N (fun t => Bound.contains b (encOf o t).1 = true) (fun t => o = .SPO ∨ ¬ W t) r place := by
  obtain ⟨place, p1, p2, p3, p4⟩ := h.scan.places
  have key : ∀ e ∈ l, ∃ y : Triple Id × Option EP, e.key = (encOf o y.1).1 ∧ edgeItem Id c (since x a N e.look) o (e.key, e.id) = itemFor y ∧
      (y.2 = none → ¬ K y.1) ∧ (o = .SPO ∨ ¬ W y.1 → ∃ v, (g (min (a + e.scan) N)).edges y.1 = some v ∧ (y.2 = none ∨ y.2 = some v)) := by
    intro e he
    have sg := hs (min (a + e.scan) N) (Nat.min_le_right _ _)
    obtain ⟨t, h1, h2, h3⟩ := hr.entry (h.later e he) (h.mem he).2
    have item := edgeItem_enc c (since x a N e.look) o t e.id
    rw [← h1] at item
    rcases h3 with ⟨h3, h4⟩ | ⟨v, p, h3, h4, h5⟩
    · refine ⟨(t, none), h1, ?_, fun _ => h4, fun hW => ?_⟩
      · rw [item]
        simp only [h3]
        rfl
      · cases e1 : (g (min (a + e.scan) N)).edges t with
        | none =>
          have := (sg.noEdge o t hW).2 e1
          exact absurd (h2.symm.trans this) (by simp)
        | some p => exact ⟨p, rfl, .inl rfl⟩
    · refine ⟨(t, some p), h1, ?_, fun h => by simp at h, fun hW => ⟨p, (sg.edges o t hW p).1 h5, .inr rfl⟩⟩
      rw [item]
      simp only [h3, h4]
      rfl
  obtain ⟨r, hF⟩ := forall₂_exists key
  have hp : ∀ e ∈ l, place e.key = e.scan := fun e he => p1 _ (List.mem_map.2 ⟨e, he, rfl⟩)
  have inr : ∀ t, (∃ v, (t, v) ∈ r) → ∃ e ∈ l.map (fun x => (x.scan, x.key, x.id)), e.2.1 = (encOf o t).1 := by
    rintro t ⟨v, hv⟩
    obtain ⟨e, he, e1, -⟩ := forall₂_of_right hF hv
    exact ⟨_, List.mem_map.2 ⟨e, he, rfl⟩, e1⟩
  refine ⟨r, fun t => min (a + place (encOf o t).1) N, forall₂_map_eq hF (fun e y h => h.2.1), ?_, ?_, ?_⟩
  · intro t ht
    obtain ⟨e, he, e1⟩ := forall₂_of_right hF ht
    exact e1.2.2.1 rfl
  · have hF' : List.Forall₂ (fun e (y : Triple Id × Option EP) => e ∈ l ∧ e.key = (encOf o y.1).1) l r := by
      refine List.forall₂_iff_get.2 ⟨hF.length_eq, fun i h1 h2 => ⟨List.get_mem _ _, ?_⟩⟩
      exact (List.forall₂_iff_get.1 hF).2 i h1 h2 |>.1
    exact hF'.imp (fun e y h => ⟨h.2, by beta_reduce; rw [← h.2, hp e h.1]⟩)
  · refine ⟨fun t => ⟨by omega, Nat.min_le_right _ _⟩, ?_, ?_, ?_, ?_⟩
    · refine forall₂_pairwise hF h.sorted (fun e y e' y' i i' hlt => ?_)
      rw [i.1, i'.1] at hlt
      exact (encOf_lt o).1 hlt
    · intro t v ht
      obtain ⟨e, he, i1, -, -, i2⟩ := forall₂_of_right hF ht
      refine ⟨by rw [← i1]; exact (h.mem he).1, fun hW => ?_⟩
      have := i2 hW
      rw [← hp e he, i1] at this
      exact this
    · intro t ht hW hn
      have sg := hs (min (a + place (encOf o t).1) N) (Nat.min_le_right _ _)
      refine (sg.noEdge o t hW).1 (p3 _ trivial ht (fun e he e1 => ?_))
      obtain ⟨e', he', rfl⟩ := List.mem_map.1 he
      obtain ⟨⟨t', v⟩, hy, i1, -⟩ := forall₂_of_left hF he'
      have : t' = t := (encOf_inj o).1 (i1.symm.trans e1)
      subst this
      exact hn v hy
    · intro t t' ht ht' hlt hl
      exact min_mono (p4 _ _ trivial ht trivial ht' ((encOf_lt o).2 hlt) (hl.imp (inr t) (inr t')))

theorem placed_nodes (hr : MomentsOk c (since x a N) K) (ha : a ≤ N) (hs : ∀ k ≤ N, Sight c W (x k).1 (g k)) {l : List (Nat × Bytes × Bytes)}
    (h : Scan (fun m => (since x a N m).nodeProps) b 0 none l) :
    ∃ (r : List (Id × NP)) (place : Id → Nat), l.map (fun e => vertexItem Id c e.2) = r.map .ok ∧
      List.Forall₂ (fun e y => e.2.1 = (toBeBytes y.1).1 ∧ place y.1 = min (a + e.1) N) l r ∧
      Placed (· < ·) (fun k => (g k).nodes) a N (fun n => Bound.contains b (toBeBytes n).1 = true) (fun _ => True)
        (r.map (fun y => (y.1, some y.2))) place := by
  obtain ⟨place, p1, p2, p3, p4⟩ := h.places
  have key : ∀ e ∈ l, ∃ y : Id × NP, e.2.1 = (toBeBytes y.1).1 ∧ vertexItem Id c e.2 = .ok y ∧
      (g (min (a + e.1) N)).nodes y.1 = some y.2 := by
    rintro ⟨m, k, v⟩ he
    have sg := hs (min (a + m) N) (Nat.min_le_right _ _)
    have hv : (since x a N m).nodeProps.get k = some v := (h.mem _ he).2.2.2
    obtain ⟨⟨i, rfl⟩, p, hp⟩ := sg.nodesOk k v hv
    refine ⟨(i, p), rfl, by simp [vertexItem, decodeId, LawfulId.try_toBe, deser, hp], (sg.nodes i p).1 ?_⟩
    have hv' : (x (min (a + m) N)).1.nodeProps.get (toBeBytes i).1 = some v := hv
    simp [Db.graph, hv', hp]
  have lt_iff : ∀ i j : Id, (toBeBytes i).1 < (toBeBytes j).1 ↔ i < j := fun i j => LawfulId.toBe_lt i j
  have inj : ∀ i j : Id, (toBeBytes i).1 = (toBeBytes j).1 → i = j := fun i j e =>
    le_antisymm (not_lt.1 (fun h => by rw [← lt_iff, e] at h; exact lt_irrefl _ h))
      (not_lt.1 (fun h => by rw [← lt_iff, e] at h; exact lt_irrefl _ h))
  obtain ⟨r, hF⟩ := forall₂_exists key
  have back : ∀ n v, (n, v) ∈ r.map (fun y => (y.1, some y.2)) → ∃ p, v = some p ∧ (n, p) ∈ r := by
    intro n v hv
    obtain ⟨z, hz, e1⟩ := List.mem_map.1 hv
    cases e1
    exact ⟨_, rfl, hz⟩
  have inr : ∀ n, (∃ v, (n, v) ∈ r.map (fun y => (y.1, some y.2))) → ∃ e ∈ l, e.2.1 = (toBeBytes n).1 := by
    rintro n ⟨v, hv⟩
    obtain ⟨p, -, hp⟩ := back n v hv
    obtain ⟨e, he, e1, -⟩ := forall₂_of_right hF hp
    exact ⟨e, he, e1⟩
  refine ⟨r, fun n => min (a + place (toBeBytes n).1) N, forall₂_map_eq hF (fun e y h => h.2.1), ?_, ?_⟩
  · have hF' : List.Forall₂ (fun e (y : Id × NP) => e ∈ l ∧ e.2.1 = (toBeBytes y.1).1) l r := by
      refine List.forall₂_iff_get.2 ⟨hF.length_eq, fun i h1 h2 => ⟨List.get_mem _ _, ?_⟩⟩
      exact (List.forall₂_iff_get.1 hF).2 i h1 h2 |>.1
    exact hF'.imp (fun e y h => ⟨h.2, by beta_reduce; rw [← h.2, p1 e h.1]⟩)
  · refine ⟨fun t => ⟨by omega, Nat.min_le_right _ _⟩, ?_, ?_, ?_, ?_⟩
    · rw [List.pairwise_map]
      refine forall₂_pairwise hF h.sorted (fun e y e' y' i i' hlt => ?_)
      rw [i.1, i'.1] at hlt
      exact (lt_iff _ _).1 hlt
    · intro n v hn
      obtain ⟨p, rfl, hp⟩ := back n v hn
      obtain ⟨e, he, i1, -, i2⟩ := forall₂_of_right hF hp
      refine ⟨by rw [← i1]; exact (h.mem e he).2.2.1, fun _ => ⟨p, ?_, .inr rfl⟩⟩
      rw [← p1 e he, i1] at i2
      exact i2
    · intro n hn _ hno
      have sg := hs (min (a + place (toBeBytes n).1) N) (Nat.min_le_right _ _)
      refine (sg.noNode n).1 (p3 _ trivial hn (fun e he e1 => ?_))
      obtain ⟨⟨n', p⟩, hy, i1, -⟩ := forall₂_of_left hF he
      have : n' = n := inj _ _ (i1.symm.trans e1)
      subst this
      exact hno (some p) (List.mem_map.2 ⟨_, hy, rfl⟩)
    · intro n n' hn hn' hlt hl
      exact min_mono (p4 _ _ trivial hn trivial hn' ((lt_iff _ _).2 hlt) (hl.imp (inr n) (inr n')))

/-- a query: what it returns has been there, and what it does not return has not -/
theorem placed_query (hr : MomentsOk c (since x a N) K) (hs : ∀ k ≤ N, Sight c W (x k).1 (g k)) (ha : a ≤ N) {q : Query Id} {ρ : Reads}
    (hq : Spec.Query.Nodup q) (hA : Asked (since x a N) q ρ) {n : Nat} {gen : Gen Id} (hg : Fresh (n + ρ.size) gen) :
    ∃ r R, runLazy c gen ρ q = .ok r ∧ Shows r.obs R ∧
      (∀ t p, R.edges t = some p → Query.Hits t q ∧
        (Query.order q = .SPO ∨ ¬ W t → ∃ k, a ≤ k ∧ k ≤ N ∧ (g k).edges t = some p)) ∧
      (∀ t, Query.Hits t q → K t → Query.order q = .SPO ∨ ¬ W t → R.edges t = none → ∃ k, a ≤ k ∧ k ≤ N ∧ (g k).edges t = none) ∧
      (∀ i p, R.nodes i = some p → Query.Asks i q ∧ ∃ k, a ≤ k ∧ k ≤ N ∧ (g k).nodes i = some p) ∧
      ∀ i, Query.Asks i q → R.nodes i = none → ∃ k, a ≤ k ∧ k ≤ N ∧ (g k).nodes i = none := by
  obtain ⟨r, R, h1, h2, h3⟩ := lazy_run_of hr hq hA hg
  have hm : ∀ m, a ≤ min (a + m) N ∧ min (a + m) N ≤ N := fun m => by omega
  refine ⟨r, R, h1, h2.shows, fun t p h => ?_, fun t ht hK hW hn => ?_, fun i p h => ?_, fun i hi hn => ?_⟩
  · obtain ⟨i1, m, i2⟩ := h3.edges t p h
    exact ⟨i1, fun hW => ⟨_, (hm m).1, (hm m).2, ((hs _ (hm m).2).edges _ t hW p).1 i2⟩⟩
  · by_contra hc
    refine h3.kept t ht hK (fun m e => hc ⟨_, (hm m).1, (hm m).2, ((hs _ (hm m).2).noEdge _ t hW).1 e⟩) hn
  · obtain ⟨i1, m, i2⟩ := h3.nodes i p h
    exact ⟨i1, _, (hm m).1, (hm m).2, ((hs _ (hm m).2).nodes i p).1 i2⟩
  · by_contra hc
    exact h3.keptNodes i hi (fun m e => hc ⟨_, (hm m).1, (hm m).2, ((hs _ (hm m).2).noNode i).1 e⟩) hn

theorem placed_props (hr : MomentsOk c (since x a N) K) (hs : ∀ k ≤ N, Sight c W (x k).1 (g k)) {l : List Seen}
    (h : Reading (since x a N) o b l) {e : Seen} (he : e ∈ l) (ms mo : Nat) : ∃ t : Triple Id, e.key = (encOf o t).1 ∧
    (propsItem Id c (since x a N ms) (since x a N e.look) (since x a N mo) o (e.key, e.id) = .error .missing ∧
        (¬ K t ∨ (g (min (a + ms) N)).nodes t.sub = none ∨ (g (min (a + mo) N)).nodes t.obj = none) ∨
      ∃ sp ep op, propsItem Id c (since x a N ms) (since x a N e.look) (since x a N mo) o (e.key, e.id) =
          .ok { sub := (t.sub, sp), pred := (t.pred, ep), obj := (t.obj, op) } ∧
        (o = .SPO ∨ ¬ W t → (g (min (a + e.scan) N)).edges t = some ep) ∧
        (g (min (a + ms) N)).nodes t.sub = some sp ∧ (g (min (a + mo) N)).nodes t.obj = some op) := by
  obtain ⟨t, h1, h2, h3⟩ := hr.entry (h.later e he) (h.mem he).2
  have node : ∀ (i : Nat) (k : Id),
      (getData c.n (since x a N i).nodeProps (toBeBytes k).1 = .ok none ∧ (g (min (a + i) N)).nodes k = none) ∨
      ∃ p, getData c.n (since x a N i).nodeProps (toBeBytes k).1 = .ok (some p) ∧ (g (min (a + i) N)).nodes k = some p := by
    intro i k
    have sg := hs (min (a + i) N) (Nat.min_le_right _ _)
    have e0 : since x a N i = (x (min (a + i) N)).1 := rfl
    rw [e0]
    cases hv : (x (min (a + i) N)).1.nodeProps.get (toBeBytes k).1 with
    | none => exact .inl ⟨by simp [getData, hv], (sg.noNode k).1 hv⟩
    | some v =>
      obtain ⟨-, p, hp⟩ := sg.nodesOk _ v hv
      exact .inr ⟨p, by simp [getData, hv, hp], (sg.nodes k p).1 (by simp [Db.graph, hv, hp])⟩
  have edge : getData c.e (since x a N e.look).edgeProps e.id = .ok none ∧ ¬ K t ∨
      ∃ p, getData c.e (since x a N e.look).edgeProps e.id = .ok (some p) ∧
        (o = .SPO ∨ ¬ W t → (g (min (a + e.scan) N)).edges t = some p) := by
    rcases h3 with ⟨i1, i2⟩ | ⟨v, p, i1, i2, i3⟩
    · exact .inl ⟨by simp [getData, i1], i2⟩
    · exact .inr ⟨p, by simp [getData, i1, i2], fun hW => ((hs (min (a + e.scan) N) (Nat.min_le_right _ _)).edges o t hW p).1 i3⟩
  refine ⟨t, h1, ?_⟩
  have hdec : decodeEntry (decoder (Id := Id) o) (e.key, e.id) = .ok (t, e.id) := by rw [h1, decoder_eq, decodeEntry_enc]
  unfold propsItem
  rw [hdec]
  dsimp only
  rcases node ms t.sub with ⟨e1, k1⟩ | ⟨sp, e1, k1⟩ <;> rcases edge with ⟨e2, k2⟩ | ⟨ep, e2, k2⟩ <;>
    rcases node mo t.obj with ⟨e3, k3⟩ | ⟨op, e3, k3⟩ <;> simp only [e1, e2, e3]
  all_goals first
    | exact .inr ⟨sp, ep, op, rfl, k2, k1, k3⟩
    | exact .inl ⟨by first | rfl | trivial, .inr (.inl k1)⟩
    | exact .inl ⟨by first | rfl | trivial, .inl k2⟩
    | exact .inl ⟨by first | rfl | trivial, .inr (.inr k3)⟩

theorem readers_of {cs : List (List (Call E Id NP EP))} (hr : ∀ a, MomentsOk c (since x a N) (OnlyInserted cs))
    (hs : ∀ k ≤ N, Sight c W (x k).1 (g k)) : Readers c cs W x N g := by
  refine ⟨fun a ha o b l h => placed_edges (hr a) ha hs h, fun a _ o b l h e he ms mo => placed_props (hr a) hs h he ms mo,
    fun a ha l h => ?_, fun a ha q ρ gen hq hA hg => ?_⟩
  · obtain ⟨r, place, h1, h2, h3⟩ := placed_nodes (hr a) ha hs h
    exact ⟨r, place, h1, h2, h3.time, h3.sorted, fun k r h => ⟨trivial, (h3.listed k r h).2⟩, fun k _ => h3.unlisted k rfl,
      fun k k' _ _ => h3.order k k' rfl rfl⟩
  · exact placed_query (n := 0) (hr a) hs ha hq hA (by rwa [Nat.zero_add])

end

end Sled

end Verif
