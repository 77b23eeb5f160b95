import Verif.Proof.RdfSledScan

/-! # The values read from an RDF store on sled while others write to it -/

set_option linter.unusedSectionVars false

namespace Verif

open Spec ConcreteId

namespace RdfSled

variable {NP EP E α β : Type} {cl : Codec String} {cr : Codec Ulid} {c : Codecs NP EP} {mN : NP → NP → NP} {mE : EP → EP → EP}
variable {f0 f : Names}

/-- an entity with an id that was in use at the start -/
theorem idIn_start {d0 : Db} {threads : List (List (PieceCall E NP EP))} (hf : Learns f0 f threads)
    (hn : FreshNames d0 (threads.flatten.map Prod.fst)) {e : Entity} {u : Ulid} (h : idIn f e = some u) (hu : Sled.Uses d0 u) :
    idIn f0 e = some u := by
  cases e with
  | ulid v => exact h
  | string s =>
    rcases hf.2 s u h with h | ⟨th, hth, x, hx, -, hxu⟩
    · exact h
    · exact absurd hu (hn.unused u (List.mem_flatMap.2 ⟨x.1, List.mem_map_of_mem (List.mem_flatten.2 ⟨th, hth, hx⟩), hxu⟩))

theorem tripleIn_some {t : Triple Entity} {v : Triple Ulid} : tripleIn f t = some v ↔
    idIn f t.sub = some v.sub ∧ idIn f t.pred = some v.pred ∧ idIn f t.obj = some v.obj := by
  unfold tripleIn
  constructor
  · intro h
    split at h
    · cases h
      rename_i h1 h2 h3
      exact ⟨h1, h2, h3⟩
    · cases h
  · rintro ⟨h1, h2, h3⟩
    rw [h1, h2, h3]

/-- all ids of the edge were in use at the start -/
def Old (d0 : Db) (t : Triple Ulid) : Prop := Sled.Uses d0 t.sub ∧ Sled.Uses d0 t.pred ∧ Sled.Uses d0 t.obj

theorem old_of_id {d0 : Db} {o : EdgeOrder} {t : Triple Ulid} (h : d0.idIn o t ≠ none) : Old d0 t :=
  ⟨.inr ⟨o, t, h, .inl rfl⟩, .inr ⟨o, t, h, .inr (.inl rfl)⟩, .inr ⟨o, t, h, .inr (.inr rfl)⟩⟩

theorem tripleIn_start {d0 : Db} {threads : List (List (PieceCall E NP EP))} (hf : Learns f0 f threads)
    (hn : FreshNames d0 (threads.flatten.map Prod.fst)) {t : Triple Entity} {v : Triple Ulid} (h : tripleIn f t = some v) (hu : Old d0 v) :
    tripleIn f0 t = some v := by
  obtain ⟨h1, h2, h3⟩ := tripleIn_some.1 h
  exact tripleIn_some.2 ⟨idIn_start hf hn h1 hu.1, idIn_start hf hn h2 hu.2.1, idIn_start hf hn h3 hu.2.2⟩

/-- a call that spares an edge makes no calls on the triple store which remove it, or merge into it -/
theorem spares_of {t : Triple Ulid} (hT : ∀ t', tripleIn f t' = some t → tripleIn f0 t' = some t)
    (hS : ∀ e, idIn f e = some t.sub → idIn f0 e = some t.sub) (hO : ∀ e, idIn f e = some t.obj → idIn f0 e = some t.obj)
    {x : Call E NP EP} (hx : x.Spares f0 t)
    {y : Sled.Call E Entity NP EP} (hy : y ∈ x.wants) {z : Sled.Call E Ulid NP EP} (hz : callIn f y = some z) (ht : z.TouchesEdge t) :
    ∃ i p, z = .insertEdge i t p := by
  obtain ⟨op, ids⟩ := x
  have insNode : ∀ {e p}, callIn (E := E) (EP := EP) f (.insertNode e p : Sled.Call E Entity NP EP) = some z → False := by
    intro e p hz
    obtain ⟨u, hu, rfl⟩ := Option.map_eq_some_iff.1 hz
    exact ht
  have mergeNode : ∀ {e p}, callIn (E := E) (EP := EP) f (.mergeNode e p : Sled.Call E Entity NP EP) = some z → False := by
    intro e p hz
    obtain ⟨u, hu, rfl⟩ := Option.map_eq_some_iff.1 hz
    exact ht
  have ins : ∀ {i t' p}, callIn (E := E) (NP := NP) f (.insertEdge i t' p : Sled.Call E Entity NP EP) = some z →
      ∃ i p, z = .insertEdge i t p := by
    intro i t' p hz
    obtain ⟨v, h0, h2⟩ := Option.bind_eq_some_iff.1 hz
    obtain ⟨u, hu, rfl⟩ := Option.map_eq_some_iff.1 h2
    cases ht
    exact ⟨_, _, rfl⟩
  have mer : ∀ {i t' p}, tripleIn f0 t' ≠ some t → callIn (E := E) (NP := NP) f (.mergeEdge i t' p : Sled.Call E Entity NP EP) = some z →
      False := by
    intro i t' p hne hz
    obtain ⟨v, h0, h2⟩ := Option.bind_eq_some_iff.1 hz
    obtain ⟨u, hu, rfl⟩ := Option.map_eq_some_iff.1 h2
    cases ht
    exact hne (hT _ hu)
  cases op with
  | insertNode e p => rw [List.mem_singleton.1 hy] at hz; exact (insNode hz).elim
  | mergeNode e p => rw [List.mem_singleton.1 hy] at hz; exact (mergeNode hz).elim
  | insertEdge t p => rw [List.mem_singleton.1 hy] at hz; exact ins hz
  | mergeEdge t p => rw [List.mem_singleton.1 hy] at hz; exact (mer hx hz).elim
  | removeNode e =>
    rw [List.mem_singleton.1 hy] at hz
    obtain ⟨u, hu, rfl⟩ := Option.map_eq_some_iff.1 hz
    rcases ht with rfl | rfl
    · exact absurd (hS _ hu) hx.1
    · exact absurd (hO _ hu) hx.2
  | removeEdge t' =>
    rw [List.mem_singleton.1 hy] at hz
    obtain ⟨u, hu, rfl⟩ := Option.map_eq_some_iff.1 hz
    cases ht
    exact absurd (hT _ hu) hx
  | extend src =>
    rcases List.mem_append.1 hy with h | h
    · obtain ⟨a, ha, rfl⟩ := List.mem_map.1 h
      exact (insNode hz).elim
    · split at h
      · cases h
      · obtain ⟨v, a, ha, rfl⟩ := mem_edgeCalls h
        exact ins hz
  | merge src =>
    rcases List.mem_append.1 hy with h | h
    · obtain ⟨a, ha, rfl⟩ := List.mem_map.1 h
      exact (mergeNode hz).elim
    · split at h
      · cases h
      · obtain ⟨v, a, ha, rfl⟩ := mem_edgeCalls h
        exact (mer (hx a ha) hz).elim

theorem spares_only {d0 : Db} {threads : List (List (PieceCall E NP EP))} (hf : Learns f0 f threads)
    (hn : FreshNames d0 (threads.flatten.map Prod.fst)) {t : Triple Ulid} (ho : Old d0 t) {x : Call E NP EP} (hx : x.Spares f0 t)
    {y : Sled.Call E Entity NP EP} (hy : y ∈ x.wants) {z : Sled.Call E Ulid NP EP} (hz : callIn f y = some z) (ht : z.TouchesEdge t) :
    ∃ i p, z = .insertEdge i t p :=
  spares_of (fun _ h => tripleIn_start hf hn h ho) (fun _ h => idIn_start hf hn h ho.1) (fun _ h => idIn_start hf hn h ho.2.2) hx hy hz ht

theorem leaves_kept {d0 : Db} {threads : List (List (PieceCall E NP EP))} (hf : Learns f0 f threads)
    (hn : FreshNames d0 (threads.flatten.map Prod.fst)) {n : Ulid} (ho : Sled.Uses d0 n) {x : Call E NP EP} (hx : x.Leaves f0 n)
    {y : Sled.Call E Entity NP EP} (hy : y ∈ x.wants) {z : Sled.Call E Ulid NP EP} (hz : callIn f y = some z) :
    z ≠ .removeNode n ∧ ∀ a b, z ≠ .removeNodeScan n a b := by
  refine ⟨?_, ?_⟩
  · rintro rfl
    have hy' : ∃ e, x.op = .removeNode e ∧ y = .removeNode e := by
      obtain ⟨op, ids⟩ := x
      have noE : ∀ {i t p}, callIn f (.insertEdge i t p : Sled.Call E Entity NP EP) ≠ some (.removeNode n) := by
        intro i t p h
        obtain ⟨v, h0, h2⟩ := Option.bind_eq_some_iff.1 h
        obtain ⟨u, hu, h⟩ := Option.map_eq_some_iff.1 h2
        cases h
      have noM : ∀ {i t p}, callIn f (.mergeEdge i t p : Sled.Call E Entity NP EP) ≠ some (.removeNode n) := by
        intro i t p h
        obtain ⟨v, h0, h2⟩ := Option.bind_eq_some_iff.1 h
        obtain ⟨u, hu, h⟩ := Option.map_eq_some_iff.1 h2
        cases h
      have noN : ∀ {e p}, callIn f (.insertNode e p : Sled.Call E Entity NP EP) ≠ some (.removeNode n) := by
        intro e p h
        obtain ⟨u, hu, h⟩ := Option.map_eq_some_iff.1 h
        cases h
      have noMN : ∀ {e p}, callIn f (.mergeNode e p : Sled.Call E Entity NP EP) ≠ some (.removeNode n) := by
        intro e p h
        obtain ⟨u, hu, h⟩ := Option.map_eq_some_iff.1 h
        cases h
      cases op with
      | insertNode e p => rw [List.mem_singleton.1 hy] at hz; exact (noN hz).elim
      | mergeNode e p => rw [List.mem_singleton.1 hy] at hz; exact (noMN hz).elim
      | insertEdge t p => rw [List.mem_singleton.1 hy] at hz; exact (noE hz).elim
      | mergeEdge t p => rw [List.mem_singleton.1 hy] at hz; exact (noM hz).elim
      | removeNode e => exact ⟨e, rfl, List.mem_singleton.1 hy⟩
      | removeEdge t =>
        rw [List.mem_singleton.1 hy] at hz
        obtain ⟨u, hu, h⟩ := Option.map_eq_some_iff.1 hz
        cases h
      | extend src =>
        rcases List.mem_append.1 hy with h | h
        · obtain ⟨a, ha, rfl⟩ := List.mem_map.1 h
          exact (noN hz).elim
        · split at h
          · cases h
          · obtain ⟨v, a, ha, rfl⟩ := mem_edgeCalls h
            exact (noE hz).elim
      | merge src =>
        rcases List.mem_append.1 hy with h | h
        · obtain ⟨a, ha, rfl⟩ := List.mem_map.1 h
          exact (noMN hz).elim
        · split at h
          · cases h
          · obtain ⟨v, a, ha, rfl⟩ := mem_edgeCalls h
            exact (noM hz).elim
    obtain ⟨e, he, rfl⟩ := hy'
    obtain ⟨u, hu, h⟩ := Option.map_eq_some_iff.1 hz
    cases h
    exact hx e he (idIn_start hf hn hu ho)
  · rintro a b rfl
    have := (callIn_puts hz).1
    exact this

section
variable (hl : cl.RoundTrips) (hr : cr.RoundTrips) (tl : cl.Total) (tr : cr.Total) (hc : c.RoundTrip)
include hl hr tl tr hc

theorem hist_rdf {d0 : RdfDb} (hd0 : (SledIndex.impl cl cr).Shows d0.names f0) (hj0 : Sled.WellFormed Ulid c d0.data)
    (h0 : d0.data.Inv Ulid c) {threads : List (List (PieceCall E NP EP))} (hi : NewIdsFor f0 d0.data (threads.flatten.map Prod.fst))
    (hn : FreshNames d0.data (threads.flatten.map Prod.fst)) {D : Nat → RdfDb} (hm : Moments cl cr c mN mE d0 threads D) {m m' : Nat}
    (hmm : m ≤ m') :
    ∃ (Own : Bytes → Triple Ulid → Prop) (K : Triple Ulid → Prop) (M : Ulid → Prop) (H H' : Bytes → Option Bytes),
      Sled.Hist c Own K (D m).data H ∧ Sled.Hist c Own K (D m').data H' ∧ Sled.Later Own K M (D m).data (D m').data H H' ∧
      (∀ t, Old d0.data t → (∀ th ∈ threads, ∀ x ∈ th, x.1.Spares f0 t) → K t) ∧
      (∀ n, Sled.Uses d0.data n → (∀ th ∈ threads, ∀ x ∈ th, x.1.Leaves f0 n) → M n) := by
  obtain ⟨f, f', qs, qs', L, L', h1, h2, h3⟩ := two_moments hl hr tl tr hc hd0 hj0 hm hmm
  have hdid : List.Forall₂ (ThreadDid true f0 f') threads (L'.map Rec.calls) := by
    rw [← h2.ths, List.forall₂_map_left_iff, List.forall₂_map_right_iff, List.forall₂_same]
    exact fun R hR => (h2.each R hR).did (.inl rfl)
  have hle : Learns f0 f' threads := ⟨h2.keeps, h2.origin⟩
  have hD : Did f0 [⟨true, threads⟩] [(⟨true, L'.map Rec.calls⟩ : Sled.Session E Ulid NP EP)] f' := ⟨f', hle, rfl, hdid, rfl⟩
  have hdis := did_distinct (d := d0.data) (by simpa [everyCall] using hi) hD
  have e1 : Sled.everyCall [(⟨true, L'.map Rec.calls⟩ : Sled.Session E Ulid NP EP)] = Sled.calls (L'.map Rec.calls) := by
    simp [Sled.everyCall]
  rw [e1] at hdis
  have hsc : ∀ th ∈ L'.map Rec.calls, ∀ z ∈ th, ¬ z.1.IsScan := (did_drawn hD).2 _ (List.mem_singleton.2 rfl)
  have hscans : Sled.ScansOf d0.data (Sled.calls (L'.map Rec.calls)) := by
    intro th hth n a b h
    obtain ⟨th', hth', rfl⟩ := List.mem_map.1 hth
    obtain ⟨z, hz, e⟩ := List.mem_map.1 h
    exact absurd (e ▸ trivial) (hsc th' hth' z hz)
  obtain ⟨mid, s1, s2⟩ := Trace.whole h1.trace (by simp) h2.trace
  have s1' := steps_of_stepsB s1
  have e2 : L'.map (fun R => R.calls.map (Sled.PieceCall.prog c mN mE)) = (L'.map Rec.calls).map (List.map (Sled.PieceCall.prog c mN mE)) := by
    simp [Function.comp_def]
  rw [e2] at s1'
  obtain ⟨H, H', g1, g2, g3⟩ := Sled.hist_pieces hc h0 hdis hscans s1' (steps_of_stepsB s2)
  have made : ∀ th ∈ Sled.calls (L'.map Rec.calls), ∀ z ∈ th, ∃ th' ∈ threads, ∃ x ∈ th', ∃ y ∈ x.1.wants, callIn f' y = some z := by
    intro th hth z hz
    obtain ⟨th', hth', rfl⟩ := List.mem_map.1 hth
    obtain ⟨z, hz', rfl⟩ := List.mem_map.1 hz
    obtain ⟨R, hR, rfl⟩ := List.mem_map.1 hth'
    obtain ⟨x, hx, y, hy, e⟩ := did_mem ((h2.each R hR).did (.inl rfl)) hz'
    exact ⟨R.th, by rw [← h2.ths]; exact List.mem_map_of_mem hR, x, hx, y, hy, e⟩
  refine ⟨_, _, _, H, H', g1, g2, g3, fun t ht hx => ?_, fun n hu hx => ?_⟩
  · intro th hth z hz
    obtain ⟨th', hth', x, hx', y, hy, e⟩ := made th hth z hz
    exact spares_only hle hn ht (hx th' hth' x hx') hy e
  · intro th hth z hz
    obtain ⟨th', hth', x, hx', y, hy, e⟩ := made th hth z hz
    exact leaves_kept hle hn hu (hx th' hth' x hx') hy e

end

end RdfSled

end Verif
