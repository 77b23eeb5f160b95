import Verif.Spec.RdfPlaces
import Verif.Proof.Places
import Verif.Proof.RdfHistory
import Verif.Proof.RdfSledValues

/-! # What readers of RDF stores get has a place in the history -/

set_option linter.unusedSectionVars false

namespace Verif

open Spec ConcreteId

section

variable {α β γ : Type} {P : α → β → Prop} {l : List α} {r : List β}

theorem forall₂_mem (h : List.Forall₂ P l r) : List.Forall₂ (fun a b => P a b ∧ a ∈ l ∧ b ∈ r) l r :=
  List.forall₂_iff_get.2 ⟨h.length_eq, fun i h1 h2 => ⟨(List.forall₂_iff_get.1 h).2 i h1 h2, List.get_mem _ _, List.get_mem _ _⟩⟩

theorem forall₂_both {Q : α → β → Prop} (h : List.Forall₂ P l r) (h' : List.Forall₂ Q l r) : List.Forall₂ (fun a b => P a b ∧ Q a b) l r :=
  List.forall₂_iff_get.2 ⟨h.length_eq, fun i h1 h2 => ⟨(List.forall₂_iff_get.1 h).2 i h1 h2, (List.forall₂_iff_get.1 h').2 i h1 h2⟩⟩

theorem forall₂_trans {Q : β → γ → Prop} {s : List γ} (h : List.Forall₂ P l r) (h' : List.Forall₂ Q r s) :
    List.Forall₂ (fun a c => ∃ b, P a b ∧ Q b c) l s := by
  induction h generalizing s with
  | nil => cases h'; exact .nil
  | cons h1 _ ih =>
    cases h' with
    | cons h2 h3 => exact .cons ⟨_, h1, h2⟩ (ih h3)

theorem forall₂_of_map {f : α → γ} {g : β → γ} (h : l.map f = r.map g) : List.Forall₂ (fun a b => f a = g b) l r := by
  induction l generalizing r with
  | nil => cases r with
    | nil => exact .nil
    | cons => cases h
  | cons a l ih => cases r with
    | nil => cases h
    | cons b r =>
      simp only [List.map_cons, List.cons.injEq] at h
      exact .cons h.1 (ih h.2)

end

namespace RdfSled

variable {NP EP E : Type} {cl : Codec String} {cr : Codec Ulid} {c : Codecs NP EP} {mN : NP → NP → NP} {mE : EP → EP → EP} {α : Type}

theorem ref_id {f : String → Option Ulid} {e : Entity} {u : Ulid} (h : Ref f e u) : idIn f e = some u := by
  cases h with
  | name h => exact h
  | id h => rfl

theorem refT_id {f : String → Option Ulid} {e : Triple Entity} {u : Triple Ulid} (h : RefT f e u) : tripleIn f e = some u :=
  tripleIn_some.2 ⟨ref_id h.1, ref_id h.2.1, ref_id h.2.2⟩

theorem idIn_keeps {f f' : String → Option Ulid} (h : Keeps f f') {e : Entity} {u : Ulid} (he : idIn f e = some u) : idIn f' e = some u := by
  cases e with
  | ulid v => exact he
  | string s => exact h s u he

theorem tripleIn_keeps {f f' : String → Option Ulid} (h : Keeps f f') {e : Triple Entity} {u : Triple Ulid} (he : tripleIn f e = some u) :
    tripleIn f' e = some u := by
  obtain ⟨h1, h2, h3⟩ := tripleIn_some.1 he
  exact tripleIn_some.2 ⟨idIn_keeps h h1, idIn_keeps h h2, idIn_keeps h h3⟩

/-- the names at each moment: an id in use keeps its name -/
structure NameFacts (cl : Codec String) (cr : Codec Ulid) (x : Nat → RdfDb × α) (N : Nat) (F : Nat → String → Option Ulid) : Prop where
  shows : ∀ k ≤ N, (SledIndex.impl cl cr).Shows (x k).1.names (F k)
  keeps : ∀ k k', k ≤ k' → k' ≤ N → Keeps (F k) (F k')
  used : ∀ k k', k ≤ k' → k' ≤ N → ∀ u, Sled.Uses (x k).1.data u → ∀ e, Ref (F k) e u → Ref (F k') e u

namespace NameFacts

variable {x : Nat → RdfDb × α} {N : Nat} {F : Nat → String → Option Ulid} (hF : NameFacts cl cr x N F)
include hF

theorem lookup {k : Nat} (hk : k ≤ N) {e : Entity} {u : Ulid} (h : Ref (F k) e u) :
    Rdf.lookupId (SX := SErr) (SledIndex.impl cl cr) (x k).1.names u = .ok e := by
  obtain ⟨e', h1, h2⟩ := (hF.shows k hk).lookupId (SX := SErr) u
  rw [h1, h2.snd (hF.shows k hk).inj h]

theorem named {k : Nat} (hk : k ≤ N) (u : Ulid) : ∃ e, Ref (F k) e u := by
  obtain ⟨e, -, h⟩ := (hF.shows k hk).lookupId (SX := SErr) u
  exact ⟨e, h⟩

theorem namedT {k : Nat} (hk : k ≤ N) (u : Triple Ulid) : ∃ e, RefT (F k) e u := by
  obtain ⟨e1, h1⟩ := hF.named hk u.sub
  obtain ⟨e2, h2⟩ := hF.named hk u.pred
  obtain ⟨e3, h3⟩ := hF.named hk u.obj
  exact ⟨⟨e1, e2, e3⟩, h1, h2, h3⟩

theorem usedT {k k' : Nat} (hk : k ≤ k') (hk' : k' ≤ N) {o : EdgeOrder} {u : Triple Ulid} (hu : (x k).1.data.idIn o u ≠ none) {e : Triple Entity}
    (h : RefT (F k) e u) : RefT (F k') e u :=
  ⟨hF.used k k' hk hk' _ (.inr ⟨o, u, hu, .inl rfl⟩) _ h.1, hF.used k k' hk hk' _ (.inr ⟨o, u, hu, .inr (.inl rfl)⟩) _ h.2.1,
    hF.used k k' hk hk' _ (.inr ⟨o, u, hu, .inr (.inr rfl)⟩) _ h.2.2⟩

theorem upTo {N' : Nat} (hN : N' ≤ N) : NameFacts cl cr x N' F :=
  ⟨fun k hk => hF.shows k (hk.trans hN), fun k k' h1 h2 => hF.keeps k k' h1 (h2.trans hN), fun k k' h1 h2 => hF.used k k' h1 (h2.trans hN)⟩

end NameFacts

section

variable {x : Nat → RdfDb × α} {N a : Nat} {F : Nat → String → Option Ulid} {G : Nat → Graph Ulid NP EP} {X : Nat → RdfState NP EP}
variable {W : Triple Ulid → Prop} {zs : List (List (Sled.Call E Ulid NP EP))} {threads : List (List (PieceCall E NP EP))}
variable {f : String → Option Ulid}

theorem last (hf : ∀ k ≤ N, Keeps (F k) f) {k : Nat} (hk : k ≤ N) {e : Triple Entity} {u : Triple Ulid} (h : RefT (F k) e u) :
    tripleIn f e = some u := tripleIn_keeps (hf k hk) (refT_id h)

theorem lastE (hf : ∀ k ≤ N, Keeps (F k) f) {k : Nat} (hk : k ≤ N) {e : Entity} {u : Ulid} (h : Ref (F k) e u) : idIn f e = some u :=
  idIn_keeps (hf k hk) (ref_id h)

/-- the triple store alone -/
abbrev dataOf (x : Nat → RdfDb × α) (k : Nat) : Db × Unit := ((x k).1.data, ())

theorem disturbed (hO : ∀ t, (∀ th ∈ threads, ∀ y ∈ th, y.1.Spares f t) → Sled.OnlyInserted zs t) {t : Triple Entity} {u : Triple Ulid}
    (hu : tripleIn f t = some u) (h : ¬ Sled.OnlyInserted zs u) : Disturbed f threads t := by
  refine ⟨u, hu, ?_⟩
  by_contra hc
  push Not at hc
  exact h (hO u hc)

theorem rdf_placed_edges (hF : NameFacts cl cr x N F) (hf : ∀ k ≤ N, Keeps (F k) f)
    (hX : ∀ k ≤ N, Agree (F k) (G k) (X k))
    (hO : ∀ t, (∀ th ∈ threads, ∀ y ∈ th, y.1.Spares f t) → Sled.OnlyInserted zs t)
    (hR : Sled.Readers c zs W (dataOf x) N G) (ha : a ≤ N) {o : EdgeOrder} {l : List Seen} (h : Reading (since x a N) o l) :
    ∃ (r : List (Triple Entity × Option EP)) (place : Triple Entity → Nat),
    l.map (fun e => edgeItem cl cr (since x a N e.sub).names (since x a N e.pred).names (since x a N e.obj).names
      (Sled.edgeItem Ulid c (since x a N e.look).data o (e.key, e.id))) = r.map itemFor ∧
    (∀ t, (t, none) ∈ r → Disturbed f threads t) ∧
    List.Forall₂ (fun e y => place y.1 = min (a + e.scan) N) l r ∧
    Placed (EdgeBefore f o) (fun k => (X k).graph.edges) a N (fun _ => True) (Settled f W o) r place := by
  obtain ⟨r, place, e1, e2, e3, e4⟩ := hR.edges a ha o _ _ h.data
  rw [List.map_map] at e1
  rw [List.forall₂_map_left_iff] at e3
  have hP := forall₂_mem (forall₂_both (forall₂_of_map e1) e3)
  have used : ∀ e ∈ l, ∀ u : Triple Ulid, e.key = (encOf o u).1 → (x (min (a + e.scan) N)).1.data.idIn o u ≠ none := by
    intro e he u hu
    have := (h.data.mem (List.mem_map_of_mem (f := Seen.toSeen) he)).2
    rw [show e.toSeen.key = (encOf o u).1 from hu] at this
    have this : (x (min (a + e.scan) N)).1.data.idIn o u = some e.id := this
    rw [this]
    simp
  have key : ∀ y ∈ r, ∃ y' : Triple Entity × Option EP, RefT (F (place y.1)) y'.1 y.1 ∧ y'.2 = y.2 := by
    intro y _
    obtain ⟨t, ht⟩ := hF.namedT (e4.time y.1).2 y.1
    exact ⟨(t, y.2), ht, rfl⟩
  obtain ⟨r', hQ⟩ := forall₂_exists key
  have fin : ∀ {u : Triple Ulid} {t : Triple Entity}, RefT (F (place u)) t u → tripleIn f t = some u :=
    fun h => last hf (e4.time _).2 h
  have lr := forall₂_trans hP (forall₂_mem hQ)
  -- the place of an entity is that of its id
  let pl : Triple Entity → Nat := fun t => match tripleIn f t with | some u => place u | none => a
  have hpl : ∀ {t u}, tripleIn f t = some u → pl t = place u := by
    intro t u h
    simp only [pl, h]
  have mem' : ∀ {t u}, tripleIn f t = some u → (∃ v, (t, v) ∈ r') → ∃ v, (u, v) ∈ r := by
    rintro t u hu ⟨v, hv⟩
    obtain ⟨⟨u', v'⟩, hy, q1, -⟩ := forall₂_of_right hQ hv
    have := (fin q1).symm.trans hu
    cases this
    exact ⟨_, hy⟩
  refine ⟨r', pl, forall₂_map_eq lr ?_, fun t ht => ?_, lr.imp ?_, fun t => ?_, ?_, fun t v ht => ?_, fun t _ hs hn => ?_, fun t t' _ _ hlt hm => ?_⟩
  · rintro e ⟨t, v⟩ ⟨⟨u, v'⟩, ⟨⟨i1, i2, i3⟩, i4, i5⟩, ⟨j1, rfl⟩, -⟩
    dsimp only at i1 i2 i3 j1 ⊢
    have hu := used e i4 u i2
    obtain ⟨n1, n2, n3⟩ := h.names e i4
    have n0 := h.data.later _ (List.mem_map_of_mem (f := Seen.toSeen) i4)
    rw [i3] at j1
    have at' : ∀ m, e.scan ≤ m → RefT (F (min (a + m) N)) t u := fun m hm => hF.usedT (by omega) (by omega) hu j1
    have l1 := hF.lookup (by omega) (at' e.sub (n0.trans n1)).1
    have l2 := hF.lookup (by omega) (at' e.pred ((n0.trans n1).trans n2)).2.1
    have l3 := hF.lookup (by omega) (at' e.obj (((n0.trans n1).trans n2).trans n3)).2.2
    have i1 : Sled.edgeItem Ulid c (since x a N e.look).data o (e.key, e.id) = Sled.itemFor (u, v) := i1
    rw [i1]
    cases v with
    | none => rfl
    | some p =>
      simp only [Sled.itemFor, edgeItem, since, l1, l2, l3, itemFor]
  · obtain ⟨⟨u, v⟩, hy, q1, q2⟩ := forall₂_of_right hQ ht
    dsimp only at q1 q2
    subst q2
    exact disturbed hO (fin q1) (e2 u hy)
  · rintro e ⟨t, v⟩ ⟨⟨u, v'⟩, ⟨⟨i1, i2, i3⟩, i4, i5⟩, ⟨j1, rfl⟩, -⟩
    exact (hpl (fin j1)).trans i3
  · show a ≤ pl t ∧ pl t ≤ N
    cases e : tripleIn f t with
    | none => simp only [pl, e]; exact ⟨le_rfl, ha⟩
    | some u => rw [hpl e]; exact e4.time u
  · exact forall₂_pairwise hQ e4.sorted (fun y t y' t' q q' hlt => ⟨_, _, fin q.1, fin q'.1, hlt⟩)
  · refine ⟨trivial, fun hs => ?_⟩
    obtain ⟨⟨u, v'⟩, hy, q1, q2⟩ := forall₂_of_right hQ ht
    dsimp only at q1 q2
    subst q2
    obtain ⟨p, p1, p2⟩ := (e4.listed u v hy).2 (hs.imp id (fun h => h u (fin q1)))
    refine ⟨p, ?_, p2⟩
    rw [hpl (fin q1), (hX _ (e4.time u).2).edges t u q1.1 q1.2.1 q1.2.2]
    exact p1
  · by_contra hne
    obtain ⟨p, hp⟩ := Option.ne_none_iff_exists'.1 hne
    have hk : pl t ≤ N := by
      cases e : tripleIn f t with
      | none => simp only [pl, e]; exact ha
      | some u => rw [hpl e]; exact (e4.time u).2
    obtain ⟨⟨u1, h1⟩, ⟨u2, h2⟩, ⟨u3, h3⟩⟩ := (hX _ hk).noEdge t p hp
    rw [(hX _ hk).edges t ⟨u1, u2, u3⟩ h1 h2 h3] at hp
    have hu := last hf hk (⟨h1, h2, h3⟩ : RefT (F (pl t)) t ⟨u1, u2, u3⟩)
    rw [hpl hu] at hp h1 h2 h3
    by_cases hm : ∃ v, ((⟨u1, u2, u3⟩ : Triple Ulid), v) ∈ r
    · obtain ⟨v, hv⟩ := hm
      obtain ⟨⟨t', v'⟩, hy, q1, q2⟩ := forall₂_of_left hQ hv
      have : t = t' := (RefT.eq_iff (hF.shows _ (e4.time _).2).inj (⟨h1, h2, h3⟩ : RefT _ t ⟨u1, u2, u3⟩) q1).2 rfl
      subst this
      exact hn v' hy
    · have := e4.unlisted ⟨u1, u2, u3⟩ rfl (hs.imp id (fun h => h _ hu)) (fun v hv => hm ⟨v, hv⟩)
      rw [this] at hp
      cases hp
  · obtain ⟨u, u', i1, i2, i3⟩ := hlt
    rw [hpl i1, hpl i2]
    exact e4.order u u' rfl rfl i3 (hm.imp (mem' i1) (mem' i2))

theorem rdf_placed_nodes (hF : NameFacts cl cr x N F) (hf : ∀ k ≤ N, Keeps (F k) f)
    (hX : ∀ k ≤ N, Agree (F k) (G k) (X k))
    (hR : Sled.Readers c zs W (dataOf x) N G) (ha : a ≤ N) {l : List (Nat × (Nat × Bytes × Bytes))} (h : NodeReading (since x a N) l) :
    ∃ (r : List (Entity × NP)) (place : Entity → Nat),
    l.map (fun e => vertexItem cl cr (since x a N e.1).names (Sled.vertexItem Ulid c e.2.2)) = r.map .ok ∧
    List.Forall₂ (fun e y => place y.1 = min (a + e.2.1) N) l r ∧
    Placed (NodeBefore f) (fun k => (X k).graph.nodes) a N (fun _ => True) (fun _ => True) (r.map (fun y => (y.1, some y.2))) place := by
  obtain ⟨r, place, e1, e3, e4⟩ := hR.nodes a ha _ h.data
  rw [List.map_map] at e1
  rw [List.forall₂_map_left_iff] at e3
  have hP := forall₂_mem (forall₂_both (forall₂_of_map e1) e3)
  have used : ∀ e ∈ l, ∀ u : Ulid, e.2.2.1 = (toBeBytes u).1 → Sled.Uses (x (min (a + e.2.1) N)).1.data u := by
    intro e he u hu
    have := (h.data.mem _ (List.mem_map_of_mem (f := Prod.snd) he)).2.2.2
    rw [hu] at this
    have this : (x (min (a + e.2.1) N)).1.data.nodeProps.get (toBeBytes u).1 = some e.2.2.2 := this
    exact .inl (by rw [this]; simp)
  have key : ∀ y ∈ r, ∃ y' : Entity × NP, Ref (F (place y.1)) y'.1 y.1 ∧ y'.2 = y.2 := by
    intro y _
    obtain ⟨t, ht⟩ := hF.named (e4.time y.1).2 y.1
    exact ⟨(t, y.2), ht, rfl⟩
  obtain ⟨r', hQ⟩ := forall₂_exists key
  have fin : ∀ {u : Ulid} {t : Entity}, Ref (F (place u)) t u → idIn f t = some u :=
    fun h => lastE hf (e4.time _).2 h
  have lr := forall₂_trans hP (forall₂_mem hQ)
  let pl : Entity → Nat := fun t => match idIn f t with | some u => place u | none => a
  have hpl : ∀ {t u}, idIn f t = some u → pl t = place u := by
    intro t u h
    simp only [pl, h]
  have back : ∀ {β : Type} {n : β} {v : Option NP} {s : List (β × NP)}, (n, v) ∈ s.map (fun y => (y.1, some y.2)) → ∃ p, v = some p ∧ (n, p) ∈ s := by
    intro β n v s hv
    obtain ⟨z, hz, e1⟩ := List.mem_map.1 hv
    cases e1
    exact ⟨_, rfl, hz⟩
  have mem' : ∀ {t u}, idIn f t = some u → (∃ v, (t, v) ∈ r'.map (fun y => (y.1, some y.2))) →
      ∃ v, (u, v) ∈ r.map (fun y => (y.1, some y.2)) := by
    rintro t u hu ⟨v, hv⟩
    obtain ⟨p, rfl, hp⟩ := back hv
    obtain ⟨⟨u', v'⟩, hy, q1, -⟩ := forall₂_of_right hQ hp
    have := (fin q1).symm.trans hu
    cases this
    exact ⟨_, List.mem_map.2 ⟨_, hy, rfl⟩⟩
  refine ⟨r', pl, forall₂_map_eq lr ?_, lr.imp ?_, fun t => ?_, ?_, fun t v ht => ?_, fun t _ _ hn => ?_, fun t t' _ _ hlt hm => ?_⟩
  · rintro e ⟨t, v⟩ ⟨⟨u, v'⟩, ⟨⟨i1, i2, i3⟩, i4, i5⟩, ⟨j1, rfl⟩, -⟩
    dsimp only at i1 i2 i3 j1 ⊢
    have hu := used e i4 u i2
    have n1 := h.names e i4
    rw [i3] at j1
    have l1 := hF.lookup (by omega) (hF.used _ (min (a + e.1) N) (by omega) (by omega) u hu t j1)
    have i1 : Sled.vertexItem Ulid c e.2.2 = .ok (u, v) := i1
    rw [i1]
    simp only [vertexItem, Rdf.vertexItem, since, l1]
  · rintro e ⟨t, v⟩ ⟨⟨u, v'⟩, ⟨⟨i1, i2, i3⟩, i4, i5⟩, ⟨j1, rfl⟩, -⟩
    exact (hpl (fin j1)).trans i3
  · show a ≤ pl t ∧ pl t ≤ N
    cases e : idIn f t with
    | none => simp only [pl, e]; exact ⟨le_rfl, ha⟩
    | some u => rw [hpl e]; exact e4.time u
  · have := e4.sorted
    rw [List.pairwise_map] at this ⊢
    exact forall₂_pairwise hQ this (fun y t y' t' q q' hlt => ⟨_, _, fin q.1, fin q'.1, hlt⟩)
  · refine ⟨trivial, fun _ => ?_⟩
    obtain ⟨p, rfl, hp⟩ := back ht
    obtain ⟨⟨u, v'⟩, hy, q1, q2⟩ := forall₂_of_right hQ hp
    dsimp only at q1 q2
    subst q2
    obtain ⟨p', p1, p2⟩ := (e4.listed u (some p) (List.mem_map.2 ⟨_, hy, rfl⟩)).2 trivial
    refine ⟨p', ?_, p2⟩
    rw [hpl (fin q1), (hX _ (e4.time u).2).nodes t u q1]
    exact p1
  · by_contra hne
    obtain ⟨p, hp⟩ := Option.ne_none_iff_exists'.1 hne
    have hk : pl t ≤ N := by
      cases e : idIn f t with
      | none => simp only [pl, e]; exact ha
      | some u => rw [hpl e]; exact (e4.time u).2
    obtain ⟨u, h1⟩ := (hX _ hk).noNode t p hp
    rw [(hX _ hk).nodes t u h1] at hp
    have hu := lastE hf hk h1
    rw [hpl hu] at hp h1
    by_cases hm : ∃ v, (u, v) ∈ r
    · obtain ⟨v, hv⟩ := hm
      obtain ⟨⟨t', v'⟩, hy, q1, q2⟩ := forall₂_of_left hQ hv
      have : t = t' := h1.snd (hF.shows _ (e4.time _).2).inj q1
      subst this
      exact hn (some v') (List.mem_map.2 ⟨_, hy, rfl⟩)
    · have := e4.unlisted u trivial trivial (fun v hv => by
        obtain ⟨p, -, hp⟩ := back hv
        exact hm ⟨p, hp⟩)
      rw [this] at hp
      cases hp
  · obtain ⟨u, u', i1, i2, i3⟩ := hlt
    rw [hpl i1, hpl i2]
    exact e4.order u u' trivial trivial i3 (hm.imp (mem' i1) (mem' i2))

theorem rdf_placed_props (hF : NameFacts cl cr x N F) (hf : ∀ k ≤ N, Keeps (F k) f)
    (hX : ∀ k ≤ N, Agree (F k) (G k) (X k))
    (hO : ∀ t, (∀ th ∈ threads, ∀ y ∈ th, y.1.Spares f t) → Sled.OnlyInserted zs t)
    (hR : Sled.Readers c zs W (dataOf x) N G) (ha : a ≤ N) {o : EdgeOrder} {l : List Seen} (h : Reading (since x a N) o l)
    {e : Seen} (he : e ∈ l) {ms mo : Nat} (hms : e.scan ≤ ms) (hmo : e.scan ≤ mo) :
    ∃ t u, tripleIn f t = some u ∧ e.key = (encOf o u).1 ∧
    (propsItem cl cr (since x a N e.sub).names (since x a N e.pred).names (since x a N e.obj).names
        (Sled.propsItem Ulid c (since x a N ms).data (since x a N e.look).data (since x a N mo).data o (e.key, e.id)) =
          .error (.graph .missing) ∧
        (Disturbed f threads t ∨ (X (min (a + ms) N)).graph.nodes t.sub = none ∨ (X (min (a + mo) N)).graph.nodes t.obj = none) ∨
      ∃ sp ep op, propsItem cl cr (since x a N e.sub).names (since x a N e.pred).names (since x a N e.obj).names
          (Sled.propsItem Ulid c (since x a N ms).data (since x a N e.look).data (since x a N mo).data o (e.key, e.id)) =
          .ok { sub := (t.sub, sp), pred := (t.pred, ep), obj := (t.obj, op) } ∧
        (Settled f W o t → (X (min (a + e.scan) N)).graph.edges t = some ep) ∧
        (X (min (a + ms) N)).graph.nodes t.sub = some sp ∧ (X (min (a + mo) N)).graph.nodes t.obj = some op) := by
  have he' := List.mem_map_of_mem (f := Seen.toSeen) he
  obtain ⟨u, i2, hh⟩ := hR.props a ha o _ _ h.data e.toSeen he' ms mo
  have hu : (x (min (a + e.scan) N)).1.data.idIn o u ≠ none := by
    have := (h.data.mem he').2
    rw [i2] at this
    have this : (x (min (a + e.scan) N)).1.data.idIn o u = some e.id := this
    rw [this]
    simp
  obtain ⟨n1, n2, n3⟩ := h.names e he
  have n0 := h.data.later _ he'
  obtain ⟨t, j1⟩ := hF.namedT (k := min (a + e.scan) N) (by omega) u
  have at' : ∀ m, e.scan ≤ m → RefT (F (min (a + m) N)) t u := fun m hm => hF.usedT (by omega) (by omega) hu j1
  have l1 := hF.lookup (by omega) (at' e.sub (n0.trans n1)).1
  have l2 := hF.lookup (by omega) (at' e.pred ((n0.trans n1).trans n2)).2.1
  have l3 := hF.lookup (by omega) (at' e.obj (((n0.trans n1).trans n2).trans n3)).2.2
  have fin : tripleIn f t = some u := last hf (by omega) j1
  have x1 := (hX (min (a + ms) N) (by omega)).nodes t.sub u.sub (at' ms hms).1
  have x2 := (hX (min (a + mo) N) (by omega)).nodes t.obj u.obj (at' mo hmo).2.2
  refine ⟨t, u, fin, i2, ?_⟩
  rw [x1, x2]
  rcases hh with ⟨h1, h2⟩ | ⟨sp, ep, op, h1, h2, h3, h4⟩
  · left
    have h1 : Sled.propsItem Ulid c (since x a N ms).data (since x a N e.look).data (since x a N mo).data o (e.key, e.id) = .error .missing := h1
    rw [h1]
    exact ⟨rfl, h2.imp (disturbed hO fin) id⟩
  · right
    have h1 : Sled.propsItem Ulid c (since x a N ms).data (since x a N e.look).data (since x a N mo).data o (e.key, e.id) = .ok _ := h1
    rw [h1]
    refine ⟨sp, ep, op, by simp only [propsItem, since, l1, l2, l3], fun hs => ?_, h3, h4⟩
    rw [(hX _ (by omega)).edges t u j1.1 j1.2.1 j1.2.2]
    exact h2 (hs.imp id (fun h => h u fin))

end

end RdfSled

end Verif
