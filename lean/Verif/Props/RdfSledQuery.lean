import Verif.Proof.RdfSledQuery
import Verif.Props.RdfSledScan

/-!
# C81: queries on an RDF store on sled while others write to it

The names in the query are looked up one by one, then the triple store is read, then the names of the ids in the result are looked up:
each at a moment of its own.
-/

set_option linter.unusedSectionVars false
set_option maxRecDepth 100000

namespace Verif.Props

open Verif Spec ConcreteId RdfSled

variable {NP EP E : Type} {cl : Codec String} {cr : Codec Ulid} {c : Codecs NP EP} {mN : NP → NP → NP} {mE : EP → EP → EP}
  {C : List Ulid}

/-- the items of a store in memory are no errors -/
theorem mem_items (r : Mem Ulid NP EP) (o : EdgeOrder) : ∃ L : List (Triple Ulid × EP), r.iterEdges o = L.map .ok := by
  refine ⟨(r.orderedEdges o).filterMap (fun e => (r.edgeProps.get e.2).map (fun v => (e.1, v))), ?_⟩
  rw [List.map_filterMap]
  unfold Mem.iterEdges
  congr 1
  funext e
  cases r.edgeProps.get e.2 <;> rfl

/-! ## nobody writes -/

/-- While nobody writes, a query returns what `Rdf.run` does: whatever the contents. -/
theorem C81_still (d : RdfDb) (g u u' g' : Gen Ulid) (q : Query Entity) {ask tell : Nat → Nat} {b e : Nat} {ρ : Sled.Reads}
    (ha : ∀ q', translate cl cr (fun _ => d.names) q = .ok q' → RdfSled.Asked (fun _ => d) ask b e tell q' ρ) :
    RdfSled.runLazy cl cr c (fun _ => d.names) (fun _ => d.names) ρ g u q =
      (openOn d u' g').run (SledIndex.impl cl cr) (SledStore.runImpl c) (Mem.impl mN mE) g u q := by
  have et : q.tryMap (fun e => (openOn d u' g').lookupEntity (SX := SErr) (SledIndex.impl cl cr) e) =
      translate cl cr (fun _ => d.names) q := (translate_same d.names q).symm
  unfold RdfSled.runLazy Rdf.run
  rw [et]
  cases hq : translate cl cr (fun _ => d.names) q with
  | error e => rfl
  | ok q' =>
    dsimp only
    have hr := (C56_still (c := c) d.data g q').2 ρ (ha q' hq).data
    rw [hr, show SledStore.runImpl c (openOn d u' g').graph g q' = Sled.runQuery c d.data g q' from rfl]
    unfold Sled.runQuery
    cases hres : Sled.runQ c d.data g q' with
    | error e => rfl
    | ok res =>
      dsimp only
      obtain ⟨L, hL⟩ := mem_items res .SPO
      rw [show (Mem.impl mN mE).vertices res = .ok res.vertices from rfl,
        show (Mem.impl mN mE).iterEdges res .SPO = res.iterEdges .SPO from rfl]
      dsimp only
      rw [recordAt_fold (i := d.names) (tell := fun _ => d.names) (openOn d u' g') rfl _ (fun _ _ _ => rfl)]
      cases Sled.tryFold (Rdf.record (SX := SErr) (QX := Unit) (SledIndex.impl cl cr) (openOn d u' g')) .new res.vertices with
      | error e => rfl
      | ok m =>
        simp only [Except.map]
        rw [hL, ← recordEdgesAt_eq (tell := fun _ => d.names) (openOn d u' g') rfl L (fun _ _ _ _ _ => rfl) (0 + res.vertices.length) m]
        cases recordEdgesAt cl cr (fun _ => d.names) (0 + res.vertices.length, m) (L.map .ok) <;> rfl

/-! ## the names in the query -/

variable {d0 : RdfDb} {threads : List (List (RdfSled.PieceCall E NP EP))} {D : Nat → RdfDb} {f : String → Option Ulid}

/-- what a look-up returns -/
theorem entityIn_shows {i : IndexDb} {f : String → Option Ulid} (h : (SledIndex.impl cl cr).Shows i f) (e : Entity) :
    entityIn cl cr i e = match e with
      | .string s => (match f s with | some v => .ok v | none => .error (.nameNotFound s))
      | .ulid v => .ok v := by
  unfold entityIn Rdf.lookupEntity
  cases e with
  | string s =>
    dsimp only
    rw [h.left s]
    cases f s <;> rfl
  | ulid v => rfl

/-- a name which is known keeps its id -/
theorem entityIn_later (hl : cl.RoundTrips) (hr : cr.RoundTrips) (tl : cl.Total) (tr : cr.Total) (hc : c.RoundTrip)
    (h : Life cl cr c mN mE E C d0) (hf : (SledIndex.impl cl cr).Shows d0.names f)
    (hm : RdfSled.Moments cl cr c mN mE d0 threads D) {m m' : Nat} (hmm : m ≤ m') {e : Entity} {v : Ulid}
    (hv : entityIn cl cr (D m).names e = .ok v) : entityIn cl cr (D m').names e = .ok v := by
  obtain ⟨g, g', qs, qs', L, L', i1, i2, k⟩ := two_moments hl hr tl tr hc hf (h.well hc) hm hmm
  rw [entityIn_shows i1.shows] at hv
  rw [entityIn_shows i2.shows]
  cases e with
  | ulid u => exact hv
  | string s =>
    dsimp only at hv ⊢
    cases hs : g s with
    | none => rw [hs] at hv; cases hv
    | some u =>
      rw [hs] at hv
      rw [k s u hs]
      exact hv

/-- The names in the query are looked up at any moments.  Either the query is translated to what it would be at any later moment, or it
fails with `NameNotFound` of a name in it which was not known when it was looked up. -/
theorem C81_names (hl : cl.RoundTrips) (hr : cr.RoundTrips) (tl : cl.Total) (tr : cr.Total) (hc : c.RoundTrip)
    (h : Life cl cr c mN mE E C d0) (hf : (SledIndex.impl cl cr).Shows d0.names f)
    (hm : RdfSled.Moments cl cr c mN mE d0 threads D) (ask : Nat → Nat) (q : Query Entity) :
    (∃ q', translate cl cr (fun k => (D (ask k)).names) q = .ok q' ∧
      ∀ m, (∀ k, ask k ≤ m) → ∀ u g, q.tryMap (fun e => (openOn (D m) u g).lookupEntity (SX := SErr) (SledIndex.impl cl cr) e) = .ok q') ∨
    ∃ s k, .string s ∈ queryEntities q ∧ (SledIndex.impl cl cr).leftToRight (D (ask k)).names s = .ok none ∧ f s = none ∧
      ∀ tell ρ g u, RdfSled.runLazy cl cr c (fun k => (D (ask k)).names) tell ρ g u q = .error (.left (.nameNotFound s)) := by
  cases ht : translate cl cr (fun k => (D (ask k)).names) q with
  | ok q' =>
    refine .inl ⟨q', rfl, fun m hk u g => ?_⟩
    exact translate_later (fun k e v hv => entityIn_later hl hr tl tr hc h hf hm (hk k) hv) ht
  | error e =>
    right
    obtain ⟨k, a, ha, he⟩ := query_error ht
    obtain ⟨D', hD', hD0, hD⟩ := rdf_start_moments hm
    obtain ⟨g0, g, qs, qs', L, L', i0, i1, kp⟩ := two_moments hl hr tl tr hc hf (h.well hc) hD' (Nat.zero_le (ask k + 1))
    rw [hD] at i1
    rw [hD0] at i0
    rw [entityIn_shows i1.shows] at he
    cases a with
    | ulid v => cases he
    | string s =>
      dsimp only at he
      cases hs : g s with
      | some v => rw [hs] at he; cases he
      | none =>
        rw [hs] at he
        cases he
        refine ⟨s, k, ha, by rw [i1.shows.left, hs], ?_, fun tell ρ g u => ?_⟩
        · have e1 := hf.left s
          rw [i0.shows.left s] at e1
          have e1 : g0 s = f s := Except.ok.inj e1
          cases hfs : f s with
          | none => rfl
          | some v => rw [hfs] at e1; rw [kp s v e1] at hs; cases hs
        · unfold RdfSled.runLazy
          rw [ht]

/-! ## the answer -/

theorem namesIn_parts {d : RdfDb} {t : Triple Ulid} {te : Triple Entity} : namesIn cl cr d t = .ok te ↔
    nameIn cl cr d t.sub = .ok te.sub ∧ nameIn cl cr d t.pred = .ok te.pred ∧ nameIn cl cr d t.obj = .ok te.obj := by
  constructor
  · intro hv
    simp only [namesIn, Triple.tryMap] at hv
    split at hv
    · cases hv
    · split at hv
      · cases hv
      · split at hv
        · cases hv
        · rename_i e1 _ _ e2 _ _ e3
          cases hv
          exact ⟨e1, e2, e3⟩
  · rintro ⟨h1, h2, h3⟩
    simp only [namesIn, Triple.tryMap, h1, h2, h3]

theorem rsteps_trans {x y z : RdfDb × List (List (Prog RdfDb Unit))} (h1 : Steps x y) (h2 : Steps y z) : Steps x z := by
  induction h2 with
  | refl => exact h1
  | tail _ h ih => exact .tail ih h

theorem moments_sub (hm : RdfSled.Moments cl cr c mN mE d0 threads D) {φ : Nat → Nat} (hφ : ∀ m, φ m ≤ φ (m + 1)) :
    RdfSled.Moments cl cr c mN mE d0 threads (fun m => D (φ m)) := by
  obtain ⟨X, h1, h2, h3⟩ := hm
  have up : ∀ m n, Steps (X m) (X (m + n)) := by
    intro m n
    induction n with
    | zero => exact .refl _
    | succ n ih => exact rsteps_trans ih (h2 _)
  have le : ∀ m m', m ≤ m' → Steps (X m) (X m') := by
    intro m m' hmm
    obtain ⟨n, rfl⟩ := Nat.exists_eq_add_of_le hmm
    exact up m n
  refine ⟨fun m => X (φ m), rsteps_trans h1 (le 0 _ (Nat.zero_le _)), fun m => le _ _ (hφ m), fun m => h3 _⟩

/-- what a query returns, and how that comes about -/
theorem answer_from (hl : cl.RoundTrips) (hr : cr.RoundTrips) (tl : cl.Total) (tr : cr.Total) (hc : c.RoundTrip)
    (h : Life cl cr c mN mE E C d0) (hf : (SledIndex.impl cl cr).Shows d0.names f)
    (hi : NewIdsFor f d0.data (threads.flatten.map Prod.fst)) (hn : FreshNames d0.data (threads.flatten.map Prod.fst))
    (hm : RdfSled.Moments cl cr c mN mE d0 threads D) {ask tell : Nat → Nat} {b e : Nat} {q : Query Entity} {q' : Query Ulid}
    (ht : translate cl cr (fun k => (D (ask k)).names) q = .ok q') {ρ : Sled.Reads} (ha : RdfSled.Asked D ask b e tell q' ρ)
    {g : Gen Ulid} (hg : Fresh ρ.size g) (u : Gen Ulid) :
    ∃ y : Graph Entity NP EP,
      (∀ te p, y.edges te = some p → ∃ t m, Query.Hits t q' ∧ b ≤ m ∧ m ≤ e ∧ namesIn cl cr (D m) t = .ok te ∧
        namesIn cl cr (D e) t = .ok te ∧ .ok (te, p) ∈ edgesAt cl cr c mN mE (D m) (Query.order q')) ∧
      (∀ n p, y.nodes n = some p → ∃ i m, Query.Asks i q' ∧ b ≤ m ∧ m ≤ e ∧ nameIn cl cr (D m) i = .ok n ∧
        nameIn cl cr (D e) i = .ok n ∧ .ok (n, p) ∈ nodesAt cl cr c mN mE (D m)) ∧
      (∀ te t, namesIn cl cr d0 t = .ok te → Query.Hits t q' → (∃ p o, .ok (te, p) ∈ edgesAt cl cr c mN mE d0 o) →
        (∀ th ∈ threads, ∀ x ∈ th, x.1.Spares f t) → (y.edges te).isSome) ∧
      (∀ n i, nameIn cl cr d0 i = .ok n → Query.Asks i q' → (∃ p, .ok (n, p) ∈ nodesAt cl cr c mN mE d0) →
        (∀ th ∈ threads, ∀ x ∈ th, x.1.Leaves f i) → (y.nodes n).isSome) ∧
      ((NamesOnce y ∧ ∃ res, RdfSled.runLazy cl cr c (fun k => (D (ask k)).names) (fun k => (D (tell k)).names) ρ g u q = .ok res ∧
          res.Shows MemIndex.impl (Mem.impl mN mE) y) ∨
        (¬ NamesOnce y ∧ ∃ s v, nameIn cl cr (D e) v = .ok (.string s) ∧
          RdfSled.runLazy cl cr c (fun k => (D (ask k)).names) (fun k => (D (tell k)).names) ρ g u q =
            .error (.right (.nameIndex (.duplicateRight s v v))))) ∧
      Spec.Query.Nodup q' ∧ ∃ r R, Sled.runLazy c g ρ q' = .ok r ∧ Spec.Shows r.obs R ∧
        (∀ te t, namesIn cl cr (D e) t = .ok te → y.edges te = R.edges t) ∧ ∀ n i, nameIn cl cr (D e) i = .ok n → y.nodes n = R.nodes i := by
  obtain ⟨_, _, _, inv, _⟩ := h.leaves hl hr tl tr hc
  have names := fun {D : Nat → RdfDb} (hm : RdfSled.Moments cl cr c mN mE d0 threads D) {m m' : Nat} (hmm : m ≤ m') {u : Ulid}
      (hu : Sled.Uses (D m).data u) =>
    C80_names (ss := []) (d := d0) hl hr tl tr hc h rfl (by simpa [RdfSled.everyCall] using hn) hm hmm hu
  -- the names at the end of the reads
  obtain ⟨fe, _, _, _, _, _, ie, -⟩ := two_moments hl hr tl tr hc hf (h.well hc) hm (le_refl e)
  have he := ie.shows
  have ref : ∀ {v : Ulid} {n : Entity}, nameIn cl cr (D e) v = .ok n ↔ Ref fe n v := by
    intro v n
    obtain ⟨n', a, r⟩ := he.lookupId (SX := SErr) v
    constructor
    · intro hv
      obtain rfl := Except.ok.inj (a.symm.trans hv)
      exact r
    · intro hv
      rw [show nameIn cl cr (D e) v = .ok n' from a, r.snd he.inj hv]
  have refT : ∀ {t : Triple Ulid} {te : Triple Entity}, namesIn cl cr (D e) t = .ok te ↔ RefT fe te t := by
    intro t te
    rw [namesIn_parts, ref, ref, ref]
    rfl
  -- the triple store is read from `b` to `e`
  set φ : Nat → Nat := fun m => min (b + m) e with hφ
  have hφ1 : ∀ m, b ≤ φ m ∧ φ m ≤ e := fun m => ⟨by have := ha.order; simp only [hφ]; omega, by simp only [hφ]; omega⟩
  have hm' : RdfSled.Moments cl cr c mN mE d0 threads (fun m => D (φ m)) := moments_sub hm (fun m => by simp only [hφ]; omega)
  have hok : Sled.MomentsOk c (fun m => (D (φ m)).data) (fun t => Old d0.data t ∧ ∀ th ∈ threads, ∀ x ∈ th, x.1.Spares f t) := by
    refine ⟨fun m o => ?_, fun m => ?_, fun {m m'} hmm o k v hk => ?_⟩
    · obtain ⟨Own, K, M, H, H', g1, -⟩ := hist_rdf hl hr tl tr hc hf (h.well hc) inv hi hn hm' (le_refl m)
      exact g1.neat.keys o
    · obtain ⟨Own, K, M, H, H', g1, -⟩ := hist_rdf hl hr tl tr hc hf (h.well hc) inv hi hn hm' (le_refl m)
      exact g1.neat.nodes
    · obtain ⟨Own, K, M, H, H', g1, g2, g3, g4, -⟩ := hist_rdf hl hr tl tr hc hf (h.well hc) inv hi hn hm' hmm
      obtain ⟨t, k1, k2, k3⟩ := g3.entry g1 g2 hk
      exact ⟨t, k1, k2, k3.imp (fun h => ⟨h.1, fun k => h.2 (g4 t k.1 k.2)⟩) id⟩
  have hq' : q.tryMap (fun x => entityIn cl cr (D e).names x) = .ok q' :=
    translate_later (fun k x v hv => entityIn_later hl hr tl tr hc h hf hm ((ha.names k).trans ha.order) hv) ht
  have hnd : Spec.Query.Nodup q' := by
    have := C68_query q (fun k x => (k + 1, entityIn cl cr (D (ask k)).names x)) 0
    rcases hcalls : calls (fun k x => (k + 1, entityIn cl cr (D (ask k)).names x)) 0 (Spec.Query.items q).flatten with ⟨k, e1 | bs⟩ <;>
      rw [hcalls] at this
    · dsimp only at this
      rw [translate, this] at ht
      cases ht
    · obtain ⟨q'', k1, -, k2, -⟩ := this
      rw [translate, k1] at ht
      cases ht
      exact k2
  obtain ⟨res, H, r1, r2, r3⟩ := Sled.lazy_run_of hok hnd ha.data (n := 0) (g := g) (by rw [Nat.zero_add]; exact hg)
  -- the edges and nodes found, with their names
  have hE : ∀ t p, H.edges t = some p → ∃ m te, Query.Hits t q' ∧ b ≤ m ∧ m ≤ e ∧ namesIn cl cr (D m) t = .ok te ∧
      namesIn cl cr (D e) t = .ok te ∧ .ok (te, p) ∈ edgesAt cl cr c mN mE (D m) (Query.order q') := by
    intro t p hp
    obtain ⟨k1, m, k2⟩ := r3.edges t p hp
    have hid : (D (φ m)).data.idIn (Query.order q') t ≠ none := by
      intro e; simp [Db.view, e] at k2
    obtain ⟨te, j0, j1, j2, j3⟩ := names_entry hl hr tl tr hc h hn hm (hφ1 m).2 (hφ1 m).2 (hφ1 m).2 hid
    refine ⟨φ m, te, k1, (hφ1 m).1, (hφ1 m).2, j0, by simp only [namesIn, Triple.tryMap, j1, j2, j3], ?_⟩
    refine List.mem_map.2 ⟨.ok (t, p), (Sled.mem_iterEdges (hok.keys m _) t p).2 k2, ?_⟩
    change Rdf.edgeItem (SledIndex.impl cl cr) (D (φ m)).names (.ok (t, p)) = _
    simp only [Rdf.edgeItem]
    rw [show t.tryMap (fun u => Rdf.lookupId (SX := SErr) (SledIndex.impl cl cr) (D (φ m)).names u) = .ok te from j0]
  have hN : ∀ i p, H.nodes i = some p → ∃ m n, Query.Asks i q' ∧ b ≤ m ∧ m ≤ e ∧ nameIn cl cr (D m) i = .ok n ∧
      nameIn cl cr (D e) i = .ok n ∧ .ok (n, p) ∈ nodesAt cl cr c mN mE (D m) := by
    intro i p hp
    obtain ⟨k1, m, k2⟩ := r3.nodes i p hp
    have hu : Sled.Uses (D (φ m)).data i := .inl (by intro e; simp [Db.graph, e] at k2)
    obtain ⟨n, j0, j1⟩ := names hm (hφ1 m).2 hu
    exact ⟨φ m, n, k1, (hφ1 m).1, (hφ1 m).2, j0, j1, node_shown.2 ⟨i, j0, (Sled.mem_iterVertices (hok.nodes m) i p).2 k2⟩⟩
  have hagree := view_agree fe H
  -- what the result lists
  obtain ⟨L, hL⟩ := mem_items res .SPO
  have memE : ∀ x ∈ L, H.edges x.1 = some x.2 := by
    obtain ⟨-, hsh⟩ := (Mem.law mN mE).shows r2
    obtain ⟨L', e1, hL'⟩ := hsh .SPO
    intro x hx
    have : L = L' := List.map_injective_iff.2 (fun a b h => Except.ok.inj h) (hL.symm.trans e1)
    exact (hL'.2 x.1 x.2).1 (this ▸ hx)
  have memN : ∀ i ∈ res.vertices, ∃ p, H.nodes i = some p := by
    obtain ⟨⟨L', e1, hL'⟩, -⟩ := (Mem.law mN mE).shows r2
    intro i hi
    obtain ⟨x, hx, rfl⟩ := List.mem_map.1 hi
    have : (.ok (x.1, x.2) : Except Unit (Ulid × NP)) ∈ L'.map .ok := by
      rw [← e1]
      exact List.mem_map.2 ⟨x, hx, rfl⟩
    obtain ⟨y, hy, e2⟩ := List.mem_map.1 this
    cases e2
    exact ⟨x.2, (hL'.2 _ _).1 hy⟩
  have same : ∀ k v, (∃ m, b ≤ m ∧ m ≤ e ∧ Sled.Uses (D m).data v) →
      Rdf.lookupId (SX := SErr) (SledIndex.impl cl cr) (D (tell k)).names v = Rdf.lookupId (SledIndex.impl cl cr) (D e).names v := by
    rintro k v ⟨m, -, m2, m3⟩
    obtain ⟨n, a1, a2⟩ := names hm m2 m3
    obtain ⟨n', b1, b2⟩ := names hm (m2.trans (ha.result k)) m3
    rw [show Rdf.lookupId (SX := SErr) (SledIndex.impl cl cr) (D (tell k)).names v = .ok n' from b2,
      show Rdf.lookupId (SX := SErr) (SledIndex.impl cl cr) (D e).names v = .ok n from a2, Except.ok.inj (a1.symm.trans b1)]
  have hrun : RdfSled.runLazy cl cr c (fun k => (D (ask k)).names) (fun k => (D (tell k)).names) ρ g u q =
      Rdf.run (SledIndex.impl cl cr) (readsImpl c ρ) (Mem.impl mN mE) (⟨(D e).names, (), fun _ => 0⟩ : Rdf IndexDb Unit) g u q := by
    refine runLazy_eq mN mE ht hq' r1 (fun k i hi => same k i ?_) hL (fun k x hx i hi => same k i ?_)
    · obtain ⟨p, hp⟩ := memN i hi
      obtain ⟨-, m, k2⟩ := r3.nodes i p hp
      exact ⟨φ m, (hφ1 m).1, (hφ1 m).2, .inl (by intro e; simp [Db.graph, e] at k2)⟩
    · obtain ⟨-, m, k2⟩ := r3.edges x.1 x.2 (memE x hx)
      refine ⟨φ m, (hφ1 m).1, (hφ1 m).2, .inr ⟨Query.order q', x.1, ?_, by simpa using hi⟩⟩
      intro e
      simp [Db.view, Db.idIn, e] at k2
  have h0 : (∀ i, H.nodes i = none) ∨ ∀ t, H.edges t = none := by
    have noN : (∀ i, ¬ Query.Asks i q') → ∀ i, H.nodes i = none := by
      intro hh i
      cases hp : H.nodes i with
      | none => rfl
      | some p => exact absurd (r3.nodes i p hp).1 (hh i)
    cases q' with
    | NodeProps l =>
      right
      intro t
      cases hp : H.edges t with
      | none => rfl
      | some p => exact absurd (r3.edges t p hp).1 (fun h => h)
    | SPO | S | P | O | SP | SO | PO => exact .inl (noN (fun _ h => h))
  -- names at the start
  obtain ⟨D', hD', hD0, hD⟩ := rdf_start_moments hm
  refine ⟨(view fe H).graph, fun te p hp => ?_, fun n p hp => ?_, fun te t hte hit hp hsp => ?_, fun n i hni hask hp hlv => ?_, ?_, hnd, res, H, r1, r2.shows,
    fun te t hte => hagree.edges te t (refT.1 hte).1 (refT.1 hte).2.1 (refT.1 hte).2.2, fun n i hn => hagree.nodes n i (ref.1 hn)⟩
  · obtain ⟨⟨a, h1⟩, ⟨a', h2⟩, ⟨a'', h3⟩⟩ := hagree.noEdge te p hp
    rw [hagree.edges te ⟨a, a', a''⟩ h1 h2 h3] at hp
    obtain ⟨m, te', k1, k2, k3, k4, k5, k6⟩ := hE _ p hp
    obtain rfl : te = te' := by
      have := refT.2 (⟨h1, h2, h3⟩ : RefT fe te ⟨a, a', a''⟩)
      exact Except.ok.inj (this.symm.trans k5)
    exact ⟨_, m, k1, k2, k3, k4, k5, k6⟩
  · obtain ⟨i, h1⟩ := hagree.noNode n p hp
    rw [hagree.nodes n i h1] at hp
    obtain ⟨m, n', k1, k2, k3, k4, k5, k6⟩ := hN _ p hp
    obtain rfl : n = n' := Except.ok.inj ((ref.2 h1).symm.trans k5)
    exact ⟨_, m, k1, k2, k3, k4, k5, k6⟩
  · obtain ⟨p, o, hp⟩ := hp
    obtain ⟨t', hte', hp⟩ := edge_shown hp
    obtain rfl : t = t' := names_differ hl hr tl tr hc h hf hD' (le_refl 0) (by rw [hD0]; exact hte) (by rw [hD0]; exact hte')
    have hid : ∀ o, (D' 0).data.idIn o t ≠ none := by
      intro o
      obtain ⟨v, b, h1, -⟩ := Sled.mem_iterEdges_any.1 hp
      rw [inv.same] at h1
      rw [hD0, inv.same, h1]
      simp
    have hold : Old d0.data t := by rw [← hD0]; exact old_of_id (hid .SPO)
    have hall : ∀ m, (D m).data.idIn (Query.order q') t ≠ none := by
      intro m
      obtain ⟨Own, K, M, H, H', g1, g2, g3, g4, -⟩ := hist_rdf hl hr tl tr hc hf (h.well hc) inv hi hn hD' (Nat.zero_le (m + 1))
      rw [← hD]
      exact g3.ids t (g4 t hold hsp) _ (hid _)
    have hne := r3.kept t hit ⟨hold, hsp⟩ (fun m => hall _)
    obtain ⟨te', k0, k1, k2, k3⟩ := names_entry hl hr tl tr hc h hn hD' (t := t) (m := 0) (m1 := e + 1) (m2 := e + 1)
      (m3 := e + 1) (by omega) (by omega) (by omega) (hid .SPO)
    rw [hD0] at k0
    obtain rfl := Except.ok.inj (k0.symm.trans hte)
    rw [hD] at k1 k2 k3
    obtain ⟨s1, s2, s3⟩ := refT.1 (namesIn_parts.2 ⟨k1, k2, k3⟩)
    rw [hagree.edges te' t s1 s2 s3, Option.isSome_iff_ne_none]
    exact hne
  · obtain ⟨p, hp⟩ := hp
    obtain ⟨i', hni', hp⟩ := node_shown.1 hp
    obtain rfl : i = i' := by
      have := names_differ hl hr tl tr hc h hf hD' (le_refl 0) (t := ⟨i, i, i⟩) (t' := ⟨i', i', i'⟩) (te := ⟨n, n, n⟩)
        (by rw [hD0]; exact namesIn_parts.2 ⟨hni, hni, hni⟩) (by rw [hD0]; exact namesIn_parts.2 ⟨hni', hni', hni'⟩)
      rw [Triple.mk.injEq] at this
      exact this.1
    have h00 : (D' 0).data.nodeProps.get (toBeBytes i).1 ≠ none := by
      obtain ⟨Own, K, M, H, H', g1, -⟩ := hist_rdf hl hr tl tr hc hf (h.well hc) inv hi hn hD' (le_refl 0)
      rw [← hD0] at hp
      rw [Sled.mem_iterVertices g1.neat.nodes] at hp
      intro e
      simp [Db.graph, e] at hp
    have hall : ∀ m, (D m).data.nodeProps.get (toBeBytes i).1 ≠ none := by
      intro m
      obtain ⟨Own, K, M, H, H', -, -, g3, -, g5⟩ := hist_rdf hl hr tl tr hc hf (h.well hc) inv hi hn hD' (Nat.zero_le (m + 1))
      rw [← hD]
      exact g3.nodes i (g5 i (by rw [← hD0]; exact .inl h00) hlv) h00
    have hne := r3.keptNodes i hask (fun m => hall _)
    obtain ⟨n', k0, k1⟩ := names hD' (Nat.zero_le (e + 1)) (u := i) (.inl h00)
    rw [hD0] at k0
    obtain rfl := Except.ok.inj (k0.symm.trans hni)
    rw [hD] at k1
    rw [hagree.nodes n' i (ref.1 k1), Option.isSome_iff_ne_none]
    exact hne
  · rw [hrun]
    rcases Rdf.run_core (SX := SErr) (QX := Unit) (r := (⟨(D e).names, (), fun _ => 0⟩ : Rdf IndexDb Unit)) (runS := readsImpl c ρ)
      (g := g) (res := res) (Mem.law mN mE) he hagree h0 hq' (by simp only [readsImpl, r1]) r2 u with
      ⟨k1, rr, f', k2, -, k4, k5, k6, -⟩ | ⟨k1, s, v, k2, k3⟩
    · exact .inl ⟨k1, rr, k2, Rdf.shows_of (x := { known := fun s => (f' s).isSome, graph := (view fe H).graph }) (Mem.law mN mE) k5 (k4 ▸ r2) k6⟩
    · exact .inr ⟨k1, s, v, ref.2 (.name k2), k3⟩

/-- Whatever the threads do, all calls and all races allowed: if the names in the query are known when they are looked up, the query
fails only because a name occurs twice in its answer `y`.  Otherwise it returns a store which shows `y`.  Here `y` consists of edges
and nodes which the query asks for, each with the names and the properties it had at some moment while the triple store was read.
An edge that was there at the start, and which no call removes, with or without one of its ends, or merges into, is in `y`, and so is a
node which is not removed. -/
theorem C81_answer (hl : cl.RoundTrips) (hr : cr.RoundTrips) (tl : cl.Total) (tr : cr.Total) (hc : c.RoundTrip)
    (h : Life cl cr c mN mE E C d0) (hf : (SledIndex.impl cl cr).Shows d0.names f)
    (hi : NewIdsFor f d0.data (threads.flatten.map Prod.fst)) (hn : FreshNames d0.data (threads.flatten.map Prod.fst))
    (hm : RdfSled.Moments cl cr c mN mE d0 threads D) {ask tell : Nat → Nat} {b e : Nat} {q : Query Entity} {q' : Query Ulid}
    (ht : translate cl cr (fun k => (D (ask k)).names) q = .ok q') {ρ : Sled.Reads} (ha : RdfSled.Asked D ask b e tell q' ρ)
    {g : Gen Ulid} (hg : Fresh ρ.size g) (u : Gen Ulid) :
    ∃ y : Graph Entity NP EP,
      (∀ te p, y.edges te = some p → ∃ t m, Query.Hits t q' ∧ b ≤ m ∧ m ≤ e ∧ namesIn cl cr (D m) t = .ok te ∧
        namesIn cl cr (D e) t = .ok te ∧ .ok (te, p) ∈ edgesAt cl cr c mN mE (D m) (Query.order q')) ∧
      (∀ n p, y.nodes n = some p → ∃ i m, Query.Asks i q' ∧ b ≤ m ∧ m ≤ e ∧ nameIn cl cr (D m) i = .ok n ∧
        nameIn cl cr (D e) i = .ok n ∧ .ok (n, p) ∈ nodesAt cl cr c mN mE (D m)) ∧
      (∀ te t, namesIn cl cr d0 t = .ok te → Query.Hits t q' → (∃ p o, .ok (te, p) ∈ edgesAt cl cr c mN mE d0 o) →
        (∀ th ∈ threads, ∀ x ∈ th, x.1.Spares f t) → (y.edges te).isSome) ∧
      (∀ n i, nameIn cl cr d0 i = .ok n → Query.Asks i q' → (∃ p, .ok (n, p) ∈ nodesAt cl cr c mN mE d0) →
        (∀ th ∈ threads, ∀ x ∈ th, x.1.Leaves f i) → (y.nodes n).isSome) ∧
      ((NamesOnce y ∧ ∃ res, RdfSled.runLazy cl cr c (fun k => (D (ask k)).names) (fun k => (D (tell k)).names) ρ g u q = .ok res ∧
          res.Shows MemIndex.impl (Mem.impl mN mE) y) ∨
        (¬ NamesOnce y ∧ ∃ s v, nameIn cl cr (D e) v = .ok (.string s) ∧
          RdfSled.runLazy cl cr c (fun k => (D (ask k)).names) (fun k => (D (tell k)).names) ρ g u q =
            .error (.right (.nameIndex (.duplicateRight s v v))))) := by
  obtain ⟨y, h1, h2, h3, h4, h5, -⟩ := answer_from (mN := mN) (mE := mE) hl hr tl tr hc h hf hi hn hm ht ha hg u
  exact ⟨y, h1, h2, h3, h4, h5⟩

/-! ## in terms of entities -/

theorem select_edges {Id : Type} [DecidableEq Id] {G : Graph Id NP EP} {q : Query Id} {t : Triple Id} :
    (Query.Hits t q → (select G q).edges t = G.edges t) ∧ (¬ Query.Hits t q → (select G q).edges t = none) := by
  cases q <;> simp only [select, Query.Hits] <;>
    first | exact ⟨fun h => if_pos h, fun h => if_neg h⟩ | exact ⟨fun h => h.elim, fun _ => trivial⟩

theorem select_nodes {Id : Type} [DecidableEq Id] {G : Graph Id NP EP} {q : Query Id} {n : Id} :
    (Query.Asks n q → (select G q).nodes n = G.nodes n) ∧ (¬ Query.Asks n q → (select G q).nodes n = none) := by
  cases q <;> simp only [select, Query.Asks] <;>
    first | exact ⟨fun h => if_pos h, fun h => if_neg h⟩ | exact ⟨fun h => h.elim, fun _ => trivial⟩

/-- A translated query asks for the edges and nodes which the query asks for. -/
theorem hits_iff {f : String → Option Ulid} (hi : Inj f) {q : Query Entity} {enc : Entity → Ulid}
    (hq : ∀ e ∈ queryEntities q, Ref f e (enc e)) :
    (∀ te t, RefT f te t → (Query.Hits t (q.map enc) ↔ Query.Hits te q)) ∧
    ∀ n i, Ref f n i → (Query.Asks i (q.map enc) ↔ Query.Asks n q) := by
  let G : Graph Ulid Unit Unit := ⟨fun _ => some (), fun _ => some ()⟩
  have h1 := view_agree f G
  have h2 := Rdf.agree_select hi h1 q enc hq
  constructor
  · rintro te t ⟨r1, r2, r3⟩
    have e1 : (select (view f G).graph q).edges te = (select G (q.map enc)).edges t := h2.edges te t r1 r2 r3
    have e2 : (view f G).graph.edges te = some () := h1.edges te t r1 r2 r3
    by_cases a : Query.Hits t (q.map enc) <;> by_cases b : Query.Hits te q
    · exact iff_of_true a b
    · rw [select_edges.2 b, select_edges.1 a] at e1; cases e1
    · rw [select_edges.1 b, select_edges.2 a, e2] at e1; cases e1
    · exact iff_of_false a b
  · intro n i r
    have e1 : (select (view f G).graph q).nodes n = (select G (q.map enc)).nodes i := h2.nodes n i r
    have e2 : (view f G).graph.nodes n = some () := h1.nodes n i r
    by_cases a : Query.Asks i (q.map enc) <;> by_cases b : Query.Asks n q
    · exact iff_of_true a b
    · rw [select_nodes.2 b, select_nodes.1 a] at e1; cases e1
    · rw [select_nodes.1 b, select_nodes.2 a, e2] at e1; cases e1
    · exact iff_of_false a b

/-- The same if the ids in the query have no name: the entities in the answer are those in the query. -/
theorem C81_entities (hl : cl.RoundTrips) (hr : cr.RoundTrips) (tl : cl.Total) (tr : cr.Total) (hc : c.RoundTrip)
    (h : Life cl cr c mN mE E C d0) (hf : (SledIndex.impl cl cr).Shows d0.names f)
    (hi : NewIdsFor f d0.data (threads.flatten.map Prod.fst)) (hn : FreshNames d0.data (threads.flatten.map Prod.fst))
    (hm : RdfSled.Moments cl cr c mN mE d0 threads D) {ask tell : Nat → Nat} {b e : Nat} {q : Query Entity} {q' : Query Ulid}
    (ht : translate cl cr (fun k => (D (ask k)).names) q = .ok q') {ρ : Sled.Reads} (ha : RdfSled.Asked D ask b e tell q' ρ)
    {g : Gen Ulid} (hg : Fresh ρ.size g) (u : Gen Ulid)
    (hu : ∀ v, .ulid v ∈ queryEntities q → nameIn cl cr (D e) v = .ok (.ulid v)) :
    ∃ y : Graph Entity NP EP,
      (∀ te p, y.edges te = some p → Query.Hits te q ∧ ∃ m, b ≤ m ∧ m ≤ e ∧ .ok (te, p) ∈ edgesAt cl cr c mN mE (D m) (Query.order q)) ∧
      (∀ n p, y.nodes n = some p → Query.Asks n q ∧ ∃ m, b ≤ m ∧ m ≤ e ∧ .ok (n, p) ∈ nodesAt cl cr c mN mE (D m)) ∧
      (∀ te p o, Query.Hits te q → .ok (te, p) ∈ edgesAt cl cr c mN mE d0 o →
        (∀ t, tripleIn f te = some t → ∀ th ∈ threads, ∀ x ∈ th, x.1.Spares f t) → (y.edges te).isSome) ∧
      (∀ n p, Query.Asks n q → .ok (n, p) ∈ nodesAt cl cr c mN mE d0 →
        (∀ i, idIn f n = some i → ∀ th ∈ threads, ∀ x ∈ th, x.1.Leaves f i) → (y.nodes n).isSome) ∧
      ((NamesOnce y ∧ ∃ res, RdfSled.runLazy cl cr c (fun k => (D (ask k)).names) (fun k => (D (tell k)).names) ρ g u q = .ok res ∧
          res.Shows MemIndex.impl (Mem.impl mN mE) y) ∨
        (¬ NamesOnce y ∧ ∃ s v, nameIn cl cr (D e) v = .ok (.string s) ∧
          RdfSled.runLazy cl cr c (fun k => (D (ask k)).names) (fun k => (D (tell k)).names) ρ g u q =
            .error (.right (.nameIndex (.duplicateRight s v v))))) := by
  obtain ⟨y, h1, h2, h3, h4, h5⟩ := C81_answer (mN := mN) (mE := mE) hl hr tl tr hc h hf hi hn hm ht ha hg u
  obtain ⟨fe, _, _, _, _, _, ie, -⟩ := two_moments hl hr tl tr hc hf (h.well hc) hm (le_refl e)
  have he := ie.shows
  have ref : ∀ {v : Ulid} {n : Entity}, nameIn cl cr (D e) v = .ok n → Ref fe n v := by
    intro v n hv
    obtain ⟨n', a, r⟩ := he.lookupId (SX := SErr) v
    obtain rfl := Except.ok.inj (a.symm.trans hv)
    exact r
  have hq' : q.tryMap (fun x => entityIn cl cr (D e).names x) = .ok q' :=
    translate_later (fun k x v hv => entityIn_later hl hr tl tr hc h hf hm ((ha.names k).trans ha.order) hv) ht
  let enc : Entity → Ulid := fun x => match entityIn cl cr (D e).names x with | .ok v => v | .error _ => 0
  have henc : ∀ x ∈ queryEntities q, entityIn cl cr (D e).names x = .ok (enc x) ∧ Ref fe x (enc x) := by
    intro x hx
    obtain ⟨y, hy, hy'⟩ := List.mem_flatten.1 hx
    obtain ⟨v, hv⟩ := (C42_tryMap_iff _ q).1 ⟨q', hq'⟩ y hy x hy'
    have e1 : enc x = v := by simp only [enc, hv]
    rw [e1]
    refine ⟨hv, ?_⟩
    cases x with
    | ulid w =>
      obtain rfl : w = v := Except.ok.inj hv
      exact ref (hu w hx)
    | string s =>
      rw [entityIn_shows he] at hv
      dsimp only at hv
      cases hs : fe s with
      | none => rw [hs] at hv; cases hv
      | some w => rw [hs] at hv; cases hv; exact .name hs
  obtain rfl : q.map enc = q' := Except.ok.inj
    ((C42_tryMap_ok _ enc q (fun y hy a hy' => (henc a (List.mem_flatten.2 ⟨y, hy, hy'⟩)).1)).symm.trans hq')
  obtain ⟨hit, ask'⟩ := hits_iff he.inj (fun x hx => (henc x hx).2)
  have ho : Query.order (q.map enc) = Query.order q := by cases q <;> rfl
  obtain ⟨D', hD', hD0, hD⟩ := rdf_start_moments hm
  obtain ⟨_, _, _, inv, _⟩ := h.leaves hl hr tl tr hc
  have one : ∀ {v : Ulid} {n : Entity}, nameIn cl cr d0 v = .ok n → idIn f n = some v := by
    intro v n hv
    obtain ⟨n', a, r⟩ := hf.lookupId (SX := SErr) v
    obtain rfl := Except.ok.inj (a.symm.trans hv)
    cases r with
    | name h => exact h
    | id h => rfl
  have names := fun {m m' : Nat} (hmm : m ≤ m') {u : Ulid} (hu : Sled.Uses (D' m).data u) =>
    C80_names (ss := []) (d := d0) hl hr tl tr hc h rfl (by simpa [RdfSled.everyCall] using hn) hD' hmm hu
  refine ⟨y, fun te p hp => ?_, fun n p hp => ?_, fun te p o hh hp hsp => ?_, fun n p hh hp hlv => ?_, h5⟩
  · obtain ⟨t, m, k1, k2, k3, -, k5, k6⟩ := h1 te p hp
    obtain ⟨n1, n2, n3⟩ := namesIn_parts.1 k5
    exact ⟨(hit te t ⟨ref n1, ref n2, ref n3⟩).1 k1, m, k2, k3, ho ▸ k6⟩
  · obtain ⟨i, m, k1, k2, k3, -, k5, k6⟩ := h2 n p hp
    exact ⟨(ask' n i (ref k5)).1 k1, m, k2, k3, k6⟩
  · obtain ⟨t, hte, hp'⟩ := edge_shown hp
    have hid : (D' 0).data.idIn o t ≠ none := by
      obtain ⟨v, b, h1, -⟩ := Sled.mem_iterEdges_any.1 hp'
      rw [hD0, h1]
      simp
    obtain ⟨te', k0, k1, k2, k3⟩ := names_entry hl hr tl tr hc h hn hD' (t := t) (m := 0) (m1 := e + 1) (m2 := e + 1)
      (m3 := e + 1) (by omega) (by omega) (by omega) hid
    rw [hD0] at k0
    obtain rfl := Except.ok.inj (k0.symm.trans hte)
    rw [hD] at k1 k2 k3
    obtain ⟨n1, n2, n3⟩ := namesIn_parts.1 hte
    exact h3 te' t hte ((hit te' t ⟨ref k1, ref k2, ref k3⟩).2 hh) ⟨p, o, hp⟩ (hsp t (tripleIn_some.2 ⟨one n1, one n2, one n3⟩))
  · obtain ⟨i, hni, hp'⟩ := node_shown.1 hp
    have hus : Sled.Uses (D' 0).data i := by
      refine .inl ?_
      obtain ⟨Own, K, M, H, H', g1, -⟩ := hist_rdf hl hr tl tr hc hf (h.well hc) inv hi hn hD' (le_refl 0)
      rw [← hD0, Sled.mem_iterVertices g1.neat.nodes] at hp'
      obtain ⟨v, hv, -⟩ := Option.bind_eq_some_iff.1 hp'
      rw [hv]
      simp
    obtain ⟨n', k0, k1⟩ := names (Nat.zero_le (e + 1)) hus
    rw [hD0] at k0
    obtain rfl := Except.ok.inj (k0.symm.trans hni)
    rw [hD] at k1
    exact h4 n' i hni ((ask' n' i (ref k1)).2 hh) ⟨p, hp⟩ (hlv i (one hni))

/-! ## samples -/

deriving instance DecidableEq for Verif.Query

/-- reads of one range: all names in the query and all entries at the moment 0, the `j`th record at the moment `look j`, the names in
the result at the moment `e` -/
theorem rdf_asked_range (D : Nat → RdfDb) {q : Query Ulid} {o : EdgeOrder} {b : Bound Bytes × Bound Bytes} (hr : Sled.ranges q = [(o, b)])
    (hn : ∀ ids, q ≠ .NodeProps ids) (ht : ∀ ts, q ≠ .SPO ts) (look : Nat → Nat) (e : Nat) :
    RdfSled.Asked D (fun _ => 0) 0 e (fun _ => e) q
      ⟨[], [], [(((D (min (0 + 0) e)).data.tree o).range b).mapIdx (fun j x => ((D (min (0 + look j) e)).data, x.1, x.2))]⟩ :=
  ⟨Nat.zero_le _, fun _ => le_refl _, asked_range (fun m => (D (min (0 + m) e)).data) hr hn ht look, fun _ => le_refl _⟩

/-- Whatever the writers do and whenever the reads are made: the edge which is inserted again is in the answer, with its names. -/
example (f : String → Option Ulid) (hf : (SledIndex.impl Sample.names Sample.ids).Shows rdfDb0.names f) (D : Nat → RdfDb)
    (hm : RdfSled.Moments Sample.names Sample.ids Sample.uc Sample.mN Sample.mE rdfDb0 rwriters.threads D) (ask tell : Nat → Nat)
    (b e : Nat) (q' : Query Ulid)
    (ht : translate Sample.names Sample.ids (fun k => (D (ask k)).names) (.SO [(.string "knows", .ulid 5), (.string "alice", .ulid 5)]) =
      .ok q') (ρ : Sled.Reads) (ha : RdfSled.Asked D ask b e tell q' ρ) (hs : ρ.size ≤ 1000) :
    ∃ y : Graph Entity Nat Nat, (y.edges ⟨.string "knows", .string "of", .ulid 5⟩).isSome ∧
      (∀ te p, y.edges te = some p → te.obj = .ulid 5 ∧ (te.sub = .string "knows" ∨ te.sub = .string "alice")) := by
  obtain ⟨f1, f2, f3, f4, f5⟩ := rdfDb0_f hf
  obtain ⟨D', hD', hD0, hD⟩ := rdf_start_moments hm
  have h5 : nameIn Sample.names Sample.ids (D e) 5 = .ok (.ulid 5) := by
    have hn := rwriters_fresh
    obtain ⟨n, k0, k1⟩ := C80_names (ss := []) (d := rdfDb0) Sample.names_rt Sample.ids_rt Sample.names_total Sample.ids_total
      Sample.uc_rt rdfDb0_life rfl (by simpa [RdfSled.everyCall] using hn) hD' (Nat.zero_le (e + 1)) (u := 5)
      (by rw [hD0]; exact .inr ⟨.SPO, ⟨Sample.ul 50 0, Sample.ul 50 1, 5⟩, by decide +kernel, .inr (.inr rfl)⟩)
    have h : nameIn Sample.names Sample.ids rdfDb0 5 = .ok (.ulid 5) := by decide +kernel
    rw [hD0, h] at k0
    cases k0
    rw [hD] at k1
    exact k1
  obtain ⟨y, h1, -, h3, -⟩ := C81_entities (mN := Sample.mN) (mE := Sample.mE) Sample.names_rt Sample.ids_rt Sample.names_total
    Sample.ids_total Sample.uc_rt rdfDb0_life hf (rwriters_new hf) rwriters_fresh hm ht ha (Sample.eg_fresh _ 900 hs) (Sample.ul 900)
    (fun v hv => by
      obtain rfl : v = 5 := by simpa [queryEntities, Spec.Query.items] using hv
      exact h5)
  refine ⟨y, h3 _ 7 .SPO (by simp [Query.Hits]) (by rw [rdfDb0_edgesAt]; exact List.mem_singleton.2 rfl) (fun t ht => ?_), fun te p hp => ?_⟩
  · simp only [rwriters, List.forall_mem_cons]
    simp [calledWith, Call.Spares, idIn, tripleIn, f4, f5]
  · have := (h1 te p hp).1
    simp only [Query.Hits, List.mem_cons, Prod.mk.injEq, List.not_mem_nil, or_false] at this
    rcases this with ⟨k1, k2⟩ | ⟨k1, k2⟩
    · exact ⟨k2, .inl k1⟩
    · exact ⟨k2, .inr k1⟩

/-- such reads exist, and then the store is returned -/
example : ∃ (D : Nat → RdfDb) (ask tell : Nat → Nat) (e : Nat) (q' : Query Ulid) (ρ : Sled.Reads),
    RdfSled.Moments Sample.names Sample.ids Sample.uc Sample.mN Sample.mE rdfDb0 rwriters.threads D ∧
    translate Sample.names Sample.ids (fun k => (D (ask k)).names) (.SO [(.string "knows", .ulid 5)]) = .ok q' ∧
    RdfSled.Asked D ask 0 e tell q' ρ ∧ ρ.size = 1 ∧
    ∃ r, RdfSled.runLazy Sample.names Sample.ids Sample.uc (fun k => (D (ask k)).names) (fun k => (D (tell k)).names) ρ (Sample.eg 900)
        (Sample.ul 900) (.SO [(.string "knows", .ulid 5)]) = .ok r ∧
      r.iterEdges MemIndex.impl (Mem.impl Sample.mN Sample.mE) .SPO = [.ok (⟨.string "knows", .string "of", .ulid 5⟩, 7)] := by
  refine ⟨_, _, _, 20, .SO [(Sample.ul 50 0, 5)], _, rdfAt_moments rwriters rwriterTurns, by decide +kernel,
    rdf_asked_range _ rfl (by simp) (by simp) (fun j => 5 + j) 20, by decide +kernel, ok_of_map (by decide +kernel)⟩

/-- A name which is created by a thread meanwhile: the query fails, or asks for the id which the thread drew. -/
example :
    let D : Nat → RdfDb := fun m => rdfAt rwriters (rwriterTurns.take m)
    (translate Sample.names Sample.ids (fun _ => (D 0).names) (.S [.string "dave"]) = .error (.nameNotFound "dave")) ∧
    (translate Sample.names Sample.ids (fun k => (D (8 * (k + 1))).names) (.S [.string "dave"]) = .ok (.S [Sample.ul 200 0])) := by
  decide +kernel

/-- whenever the names are looked up -/
example (f : String → Option Ulid) (hf : (SledIndex.impl Sample.names Sample.ids).Shows rdfDb0.names f) (D : Nat → RdfDb)
    (hm : RdfSled.Moments Sample.names Sample.ids Sample.uc Sample.mN Sample.mE rdfDb0 rwriters.threads D) (ask : Nat → Nat) :
    (∃ q', translate Sample.names Sample.ids (fun k => (D (ask k)).names) (.S [.string "dave", .string "knows"]) = .ok q') ∨
    ∀ tell ρ g u, RdfSled.runLazy Sample.names Sample.ids Sample.uc (fun k => (D (ask k)).names) tell ρ g u
      (.S [.string "dave", .string "knows"]) = .error (.left (.nameNotFound "dave")) := by
  obtain ⟨f1, f2, f3, f4, f5⟩ := rdfDb0_f hf
  rcases C81_names Sample.names_rt Sample.ids_rt Sample.names_total Sample.ids_total Sample.uc_rt rdfDb0_life hf hm ask
    (.S [.string "dave", .string "knows"]) with ⟨q', h, -⟩ | ⟨s, k, h1, -, h2, h3⟩
  · exact .inl ⟨q', h⟩
  · have : s = "dave" ∨ s = "knows" := by simpa [queryEntities, Spec.Query.items] using h1
    rcases this with rfl | rfl
    · exact .inr h3
    · rw [f2] at h2; cases h2

/-- The code violates the property "a query returns the edges it asks for which exist all the time", if another handle does one
`merge_edge` meanwhile: the edge is left out, without an error.  At each moment by itself, a query finds it. -/
theorem C81_violated : ∃ (D : Nat → RdfDb) (ask tell : Nat → Nat) (e : Nat) (q' : Query Ulid) (ρ : Sled.Reads),
    RdfSled.Moments Sample.names Sample.ids Sample.uc Sample.mN Sample.mE rdfDb0 rmerge.threads D ∧
    translate Sample.names Sample.ids (fun k => (D (ask k)).names) (.S [.string "knows"]) = .ok q' ∧
    RdfSled.Asked D ask 0 e tell q' ρ ∧
    (∃ r, RdfSled.runLazy Sample.names Sample.ids Sample.uc (fun k => (D (ask k)).names) (fun k => (D (tell k)).names) ρ (Sample.eg 900)
        (Sample.ul 900) (.S [.string "knows"]) = .ok r ∧
      r.iterEdges MemIndex.impl (Mem.impl Sample.mN Sample.mE) .SPO = []) ∧
    ∀ m, ∃ r p, (openOn (D m) (Sample.ul 900) (Sample.eg 900)).run (SledIndex.impl Sample.names Sample.ids) (SledStore.runImpl Sample.uc)
        (Mem.impl Sample.mN Sample.mE) (Sample.eg 900) (Sample.ul 900) (.S [.string "knows"]) = .ok r ∧
      r.iterEdges MemIndex.impl (Mem.impl Sample.mN Sample.mE) .SPO = [.ok (⟨.string "knows", .string "of", .ulid 5⟩, p)] := by
  refine ⟨_, _, _, 8, .S [Sample.ul 50 0], _, rdfAt_moments rmerge (List.replicate 8 0), by decide +kernel,
    rdf_asked_range _ rfl (by simp) (by simp) (fun _ => 8) 8, ok_of_map (by decide +kernel), fun m => ?_⟩
  have key : ∀ m < 9,
      (((openOn (rdfAt rmerge ((List.replicate 8 0).take m)) (Sample.ul 900) (Sample.eg 900)).run
        (SledIndex.impl Sample.names Sample.ids) (SledStore.runImpl Sample.uc)
        (Mem.impl Sample.mN Sample.mE) (Sample.eg 900) (Sample.ul 900) (.S [.string "knows"])).toOption.map
        (fun r => r.iterEdges MemIndex.impl (Mem.impl Sample.mN Sample.mE) .SPO) =
          some [.ok (⟨.string "knows", .string "of", .ulid 5⟩, 7)]) ∨
      (((openOn (rdfAt rmerge ((List.replicate 8 0).take m)) (Sample.ul 900) (Sample.eg 900)).run
        (SledIndex.impl Sample.names Sample.ids) (SledStore.runImpl Sample.uc)
        (Mem.impl Sample.mN Sample.mE) (Sample.eg 900) (Sample.ul 900) (.S [.string "knows"])).toOption.map
        (fun r => r.iterEdges MemIndex.impl (Mem.impl Sample.mN Sample.mE) .SPO) =
          some [.ok (⟨.string "knows", .string "of", .ulid 5⟩, Sample.mE 7 70)]) := by
    intro m hm
    have : m = 0 ∨ m = 1 ∨ m = 2 ∨ m = 3 ∨ m = 4 ∨ m = 5 ∨ m = 6 ∨ m = 7 ∨ m = 8 := by omega
    rcases this with rfl | rfl | rfl | rfl | rfl | rfl | rfl | rfl | rfl <;>
      first | exact .inl (by decide +kernel) | exact .inr (by decide +kernel)
  have key' : ∃ k < 9, (List.replicate 8 0).take m = (List.replicate 8 0).take k := by
    rcases Nat.lt_or_ge m 9 with h | h
    · exact ⟨m, h, rfl⟩
    · exact ⟨8, by omega, by rw [List.take_of_length_le (by simp; omega), List.take_of_length_le (by simp)]⟩
  obtain ⟨k, hk, e⟩ := key'
  simp only [e]
  rcases key k hk with h | h
  · obtain ⟨r, h1, h2⟩ := ok_of_map h
    exact ⟨r, _, h1, h2⟩
  · obtain ⟨r, h1, h2⟩ := ok_of_map h
    exact ⟨r, _, h1, h2⟩

end Verif.Props
