import Verif.Proof.RdfPlaces
import Verif.Props.Places
import Verif.Props.RdfHistory
import Verif.Props.RdfSledQuery

/-!
# C92: what readers of RDF stores get has a place in the history

C88 says that one history explains all moments of a course of events.  Here it explains also what iterators and queries of an RDF store
return, which read the entries of the triple store at several moments, their records later, and the names of their ids still later.
-/

set_option linter.unusedSectionVars false
set_option maxRecDepth 100000

namespace Verif.Props

open Verif Spec ConcreteId RdfSled

section
variable {NP EP E : Type} {cl : Codec String} {cr : Codec Ulid} {c : Codecs NP EP} {mN : NP → NP → NP} {mE : EP → EP → EP}
  {C : List Ulid}

theorem nameIn_ref {α : Type} {x : Nat → RdfDb × α} {N : Nat} {F : Nat → String → Option Ulid} (hF : NameFacts cl cr x N F) {k : Nat} (hk : k ≤ N)
    {u : Ulid} {e : Entity} : nameIn cl cr (x k).1 u = .ok e ↔ Ref (F k) e u := by
  refine ⟨fun h => ?_, fun h => hF.lookup hk h⟩
  obtain ⟨e', h'⟩ := hF.named hk u
  have := (hF.lookup hk h').symm.trans h
  cases this
  exact h'

theorem namesIn_ref {α : Type} {x : Nat → RdfDb × α} {N : Nat} {F : Nat → String → Option Ulid} (hF : NameFacts cl cr x N F) {k : Nat} (hk : k ≤ N)
    {u : Triple Ulid} {e : Triple Entity} : namesIn cl cr (x k).1 u = .ok e ↔ RefT (F k) e u := by
  rw [namesIn_parts, nameIn_ref hF hk, nameIn_ref hF hk, nameIn_ref hF hk]
  rfl

/-- the contents of the database at successive moments of a course, some of which are the moments of `y` -/
theorem rdf_moments {part : Bool} {d0 : RdfDb} {threads : List (List (RdfSled.PieceCall E NP EP))} {α : Type}
    {x : Nat → RdfDb × List (List (Prog RdfDb Unit))} {M : Nat} (hC : Course part x M)
    (h0 : x 0 = (d0, threads.map (List.map (RdfSled.PieceCall.prog cl cr c mN mE)))) {y : Nat → RdfDb × α} {N : Nat} {φ : Nat → Nat}
    (mono : ∀ k' ≤ N, ∀ k ≤ k', φ k ≤ φ k') (hφ : ∀ k ≤ N, φ k ≤ M ∧ (x (φ k)).1 = (y k).1) (a : Nat) :
    RdfSled.Moments cl cr c mN mE d0 threads (RdfSled.since y a N) := by
  have from' : ∀ k k', k ≤ k' → k' ≤ M → Steps (x k) (x k') := by
    intro k k' hk hN
    have hC' : Course part (fun j => x (k + j)) (M - k) := fun j hj => hC (k + j) (by omega)
    have := course_steps hC' (k' - k) (by omega)
    rwa [show k + (k' - k) = k' by omega] at this
  have hN : ∀ m, min (a + m) N ≤ N := fun m => Nat.min_le_right _ _
  exact ⟨fun m => x (φ (min (a + m) N)), h0 ▸ from' 0 _ (Nat.zero_le _) (hφ _ (hN _)).1,
    fun m => from' _ _ (mono _ (hN _) _ (by omega)) (hφ _ (hN _)).1, fun m => (hφ _ (hN _)).2.symm⟩

/-- The history of a course explains what is read at moments (`φ`) of it. -/
theorem rdf_readers {part : Bool} (hl : cl.RoundTrips) (hr : cr.RoundTrips) (tl : cl.Total) (tr : cr.Total) (hc : c.RoundTrip) (ht : c.Total)
    {d0 : RdfDb} {f : String → Option Ulid} {G : Graph Ulid NP EP} (h : Life cl cr c mN mE E C d0)
    (hf : (SledIndex.impl cl cr).Shows d0.names f) (hG : Sled.SpoShows c d0.data G)
    {threads : List (List (RdfSled.PieceCall E NP EP))} (hi : NewIdsFor f d0.data (threads.flatten.map Prod.fst))
    (hn : FreshNames d0.data (threads.flatten.map Prod.fst))
    {x : Nat → RdfDb × List (List (Prog RdfDb Unit))} {M : Nat} (hC : Course part x M)
    (h0 : x 0 = (d0, threads.map (List.map (RdfSled.PieceCall.prog cl cr c mN mE)))) {α : Type} {y : Nat → RdfDb × α} {N : Nat} {φ : Nat → Nat}
    (mono : ∀ k' ≤ N, ∀ k ≤ k', φ k ≤ φ k') (hφ : ∀ k ≤ N, φ k ≤ M ∧ (x (φ k)).1 = (y k).1) :
    ∃ (F : Nat → String → Option Ulid) (ths : List (List (RdfSled.PieceCall E NP EP × List (Sled.PieceCall E Ulid NP EP))))
      (h : List (Nat × Nat × Op E Ulid NP EP)) (cut : Nat → Nat) (H : Nat → Graph Ulid NP EP) (X : Nat → RdfState NP EP),
      F 0 = f ∧ (∀ k ≤ M, (SledIndex.impl cl cr).Shows (x k).1.names (F k)) ∧
      (∀ k < M, Keeps (F k) (F (k + 1)) ∧ Named (x k).2 (x (k + 1)).2 threads (F k) (F (k + 1))) ∧
      ths.map (List.map Prod.fst) = threads ∧
      (∀ th ∈ ths, ∀ y ∈ th, CallDid true f (F M) (th.map Prod.fst) y.1 y.2) ∧
      Tells part (fun y => y.1.prog cl cr c mN mE) (fun y => y.2.flatMap (fun z => z.1.acts))
        (LooseStep c.okN c.okE mN mE (Sled.FromRaced (Sled.calls (ths.map (List.flatMap Prod.snd))))
          (Sled.ToRaced (Sled.calls (ths.map (List.flatMap Prod.snd)))))
        (fun d G => Sled.ShowsBut c (Sled.ToRaced (Sled.calls (ths.map (List.flatMap Prod.snd)))) d.data G) G ths x M h cut H ∧
      (∀ k ≤ M, Agree (F k) (H (cut k)) (X k)) ∧
      ∀ e ≤ N, RdfSled.Readers cl cr c mN mE threads (Sled.ToRaced (Sled.calls (ths.map (List.flatMap Prod.snd)))) y e (F M)
        (fun k => (X (φ k)).graph) := by
  obtain ⟨_, _, _, inv, _⟩ := h.leaves hl hr tl tr hc
  obtain ⟨F, ths, hist, cut, H, k1, k2, k3, k4, k5, -, -, k8, k9⟩ := rdf_history hl hr tl tr hc ht hf (h.well hc) inv hG hi hC h0
  have hX : ∀ k, ∃ X : RdfState NP EP, Agree (F k) (H (cut k)) X := fun k => agree_exists (F k) (H (cut k))
  obtain ⟨X, hX⟩ := Classical.axiomOfChoice hX
  have hF : NameFacts cl cr y N (fun k => F (φ k)) := by
    have k3' : ∀ k ≤ N, (SledIndex.impl cl cr).Shows (y k).1.names (F (φ k)) := fun k hk => by
      rw [← (hφ k hk).2]
      exact k3 _ (hφ k hk).1
    refine ⟨k3', fun k k' h1 h2 => keeps_le (fun j hj => (k4 j hj).1) (mono k' h2 k h1) (hφ k' h2).1, fun k k' h1 h2 u hu e he => ?_⟩
    have hu' : Sled.Uses (RdfSled.since y 0 N k).data u := by
      simp only [RdfSled.since]
      rwa [show min (0 + k) N = k by omega]
    obtain ⟨e', g1, g2⟩ := C80_names (ss := []) (d := d0) hl hr tl tr hc h rfl (by simpa [RdfSled.everyCall] using hn)
      (rdf_moments hC h0 mono hφ 0) h1 hu'
    simp only [RdfSled.since] at g1 g2
    rw [show min (0 + k) N = k by omega] at g1
    rw [show min (0 + k') N = k' by omega] at g2
    obtain ⟨e1, r1, r2⟩ := (k3' k (h1.trans h2)).lookupId (SX := SErr) u
    have := r1.symm.trans g1
    cases this
    obtain rfl := r2.snd (k3' k (h1.trans h2)).inj he
    obtain ⟨e2, r3, r4⟩ := (k3' k' h2).lookupId (SX := SErr) u
    have := r3.symm.trans g2
    cases this
    exact r4
  have hX' : ∀ k, Agree (F (φ k)) (H (cut (φ k))) (X (φ k)) := fun k => hX (φ k)
  set zs := Sled.calls (ths.map (List.flatMap Prod.snd)) with hzs
  have hO : ∀ t, (∀ th ∈ threads, ∀ y ∈ th, y.1.Spares (F M) t) → Sled.OnlyInserted zs t := by
    intro t hsp th hth z hz htt
    obtain ⟨th1, h1, rfl⟩ := List.mem_map.1 hth
    obtain ⟨th2, h2, rfl⟩ := List.mem_map.1 h1
    obtain ⟨z1, h3, rfl⟩ := List.mem_map.1 hz
    obtain ⟨y, hy, h4⟩ := List.mem_flatMap.1 h3
    obtain ⟨w, hw, e⟩ := List.mem_map.1 ((k5 th2 h2 y hy).1.subset (List.mem_map_of_mem h4))
    obtain ⟨w', hw', rfl⟩ := List.mem_map.1 hw
    obtain ⟨z2, e1, e2⟩ := Option.map_eq_some_iff.1 e
    obtain rfl : z2 = z1.1 := by rw [← e2]
    exact spares_of (fun _ h => h) (fun _ h => h) (fun _ h => h)
      (hsp _ (by rw [← k1]; exact List.mem_map_of_mem h2) y.1 (List.mem_map_of_mem hy)) hw' e1 htt
  have moments : ∀ {ψ : Nat → Nat}, (∀ m m', m ≤ m' → ψ m ≤ ψ m') → (∀ m, ψ m ≤ N) →
      Sled.MomentsOk c (fun m => (y (ψ m)).1.data) (Sled.OnlyInserted zs) := by
    intro ψ hψ hN
    have ey : (fun m => (y (ψ m)).1.data) = fun m => (x (φ (ψ m))).1.data := funext (fun m => by rw [(hφ _ (hN m)).2])
    rw [ey]
    have hs : Sled.ScansOf d0.data zs := Sled.scansOf_none (fun th hth y hy => by
      obtain ⟨th, h1, rfl⟩ := List.mem_map.1 hth
      obtain ⟨y, h2, rfl⟩ := List.mem_map.1 hy
      exact k9.noScan th h1 y h2)
    have two : ∀ {m m' : Nat}, m ≤ m' → ∃ K1 K2, Sled.Hist c _ _ (x (φ (ψ m))).1.data K1 ∧
        Sled.Hist c _ _ (x (φ (ψ m'))).1.data K2 ∧ Sled.Later _ _ _ (x (φ (ψ m))).1.data (x (φ (ψ m'))).1.data K1 K2 := fun {m m'} h => by
      obtain ⟨r, r', s1, s2⟩ := k9.steps (φ (ψ m)) (φ (ψ m')) (mono _ (hN m') _ (hψ m m' h)) (hφ _ (hN m')).1
      exact Sled.hist_pieces hc inv k9.distinct hs s1 s2
    refine ⟨fun m => ?_, fun m => ?_, fun {m m'} h o k v hk => ?_⟩
    · obtain ⟨H, -, h1, -⟩ := two (le_refl m)
      exact h1.neat.keys
    · obtain ⟨H, -, h1, -⟩ := two (le_refl m)
      exact h1.neat.nodes
    · obtain ⟨H, H', h1, h2, h3⟩ := two h
      exact h3.entry h1 h2 hk
  have hS : ∀ k ≤ N, Sled.Sight c (Sled.ToRaced zs) (y k).1.data (H (cut (φ k))) := by
    intro k hk
    have hm := moments (ψ := fun _ => k) (fun _ _ _ => le_rfl) (fun _ => hk)
    have := Sled.sight (k8.shows _ (hφ k hk).1) (k9.agreed _ (hφ k hk).1) (by rw [(hφ k hk).2]; exact hm.keys 0)
      (by rw [(hφ k hk).2]; exact hm.nodes 0)
    rwa [(hφ k hk).2] at this
  have hR : ∀ N' ≤ N, Sled.Readers c zs (Sled.ToRaced zs) (dataOf y) N' (fun k => H (cut (φ k))) := fun N' hN' =>
    Sled.readers_of (fun a => moments (ψ := fun m => min (a + m) N') (fun _ _ => Sled.min_mono) (fun _ => (Nat.min_le_right _ _).trans hN'))
      (fun k hk => hS k (hk.trans hN'))
  refine ⟨F, ths, hist, cut, H, X, k2, k3, k4, k1, k5, k8, fun k _ => hX k, fun E hE => ?_⟩
  have hK : ∀ k ≤ E, Keeps (F (φ k)) (F M) := fun k hk => keeps_le (fun j hj => (k4 j hj).1) (hφ k (hk.trans hE)).1 le_rfl
  replace hF := hF.upTo hE
  refine ⟨fun a ha o l h => rdf_placed_edges hF hK (fun k _ => hX' k) hO (hR E hE) ha h,
    fun a ha o l h e he ms mo h1 h2 => rdf_placed_props hF hK (fun k _ => hX' k) hO (hR E hE) ha h he h1 h2,
    fun a ha l h => rdf_placed_nodes hF hK (fun k _ => hX' k) (hR E hE) ha h, ?_⟩
  intro a ha q q' ask tell b e ρ g u htr hA hg
  obtain ⟨Y, y1, y2, -, -, y5, hnd, r, R, r1, r2, r3, r4⟩ :=
    answer_from (mN := mN) (mE := mE) hl hr tl tr hc h hf hi hn (rdf_moments hC h0 (fun k' h => mono k' (h.trans hE)) (fun k h => hφ k (h.trans hE)) a) htr hA hg u
  -- what the triple store returns
  have hbe : min (a + b) E ≤ min (a + e) E := Sled.min_mono hA.order
  have eD : (fun m => (RdfSled.since y a E (min (b + m) e)).data) = Sled.since (dataOf y) (min (a + b) E) (min (a + e) E) := by
    funext m
    simp only [RdfSled.since, Sled.since]
    rw [show min (a + min (b + m) e) E = min (min (a + b) E + m) (min (a + e) E) by have := hA.order; omega]
  have hA' := hA.data
  rw [eD] at hA'
  obtain ⟨r', R', s1, s2, s3, s4, s5, s6⟩ := (hR (min (a + e) E) ((Nat.min_le_right _ _).trans hE)).queries (min (a + b) E) hbe q' ρ g hnd hA' hg
  have er : r' = r := by
    rw [r1] at s1
    exact (Except.ok.inj s1).symm
  subst er
  obtain rfl : R' = R := shows_unique s2 r2
  have heN : min (a + e) E ≤ E := Nat.min_le_right _ _
  have fin : ∀ {t v}, namesIn cl cr (RdfSled.since y a E e) v = .ok t ↔ RefT (F (φ (min (a + e) E))) t v := namesIn_ref hF heN
  have finE : ∀ {t v}, nameIn cl cr (RdfSled.since y a E e) v = .ok t ↔ Ref (F (φ (min (a + e) E))) t v := nameIn_ref hF heN
  refine ⟨Y, fun t p hp => ?_, fun t v hv hh hd hs hy => ?_, fun n p hp => ?_, fun n i hv hh hy => ?_, y5.imp id ?_⟩
  · obtain ⟨v, m, g1, -, -, -, g2, -⟩ := y1 t p hp
    have g3 := fin.1 g2
    refine ⟨v, last hK heN g3, g1, fun hs => ?_⟩
    rw [r3 t v g2] at hp
    obtain ⟨k, i1, i2, i3⟩ := (s3 v p hp).2 (hs.imp id (fun h => h v (last hK heN g3)))
    refine ⟨k, i1, i2, ?_⟩
    obtain ⟨t', h1⟩ := hF.namedT (i2.trans heN) v
    have hu : (y k).1.data.idIn .SPO v ≠ none := by
      rw [Ne, (hS k ((i2.trans heN).trans hE)).noEdge .SPO v (.inl rfl), i3]
      simp
    have h2 := hF.usedT i2 heN hu h1
    obtain rfl := (RefT.eq_iff (hF.shows _ heN).inj h2 g3).2 rfl
    rw [(hX' k).edges t' v h1.1 h1.2.1 h1.2.2]
    exact i3
  · by_contra hne
    push Not at hne
    have there : ∀ k, min (a + b) E ≤ k → k ≤ min (a + e) E → RefT (F (φ k)) t v ∧ (H (cut (φ k))).edges v ≠ none := by
      intro k i1 i2
      obtain ⟨p, hp⟩ := Option.ne_none_iff_exists'.1 (hne k i1 i2)
      obtain ⟨⟨u1, h1⟩, ⟨u2, h2⟩, ⟨u3, h3⟩⟩ := (hX' k).noEdge t p hp
      have href : RefT (F (φ k)) t ⟨u1, u2, u3⟩ := ⟨h1, h2, h3⟩
      have := (last hK (i2.trans heN) href).symm.trans hv
      cases this
      rw [(hX' k).edges t ⟨u1, u2, u3⟩ h1 h2 h3] at hp
      exact ⟨href, by rw [hp]; simp⟩
    rw [r3 t v (fin.2 (there _ hbe le_rfl).1)] at hy
    have hoi : Sled.OnlyInserted zs v := by
      by_contra hc
      exact hd (disturbed hO hv hc)
    obtain ⟨k, i1, i2, i3⟩ := s4 v hh hoi (hs.imp id (fun h => h v hv)) hy
    exact (there k i1 i2).2 i3
  · obtain ⟨v, m, g1, -, -, -, g2, -⟩ := y2 n p hp
    have g3 := finE.1 g2
    refine ⟨v, lastE hK heN g3, g1, ?_⟩
    rw [r4 n v g2] at hp
    obtain ⟨k, i1, i2, i3⟩ := (s5 v p hp).2
    refine ⟨k, i1, i2, ?_⟩
    obtain ⟨t', h1⟩ := hF.named (i2.trans heN) v
    have hu : Sled.Uses (y k).1.data v := by
      refine .inl ?_
      rw [Ne, (hS k ((i2.trans heN).trans hE)).noNode v, i3]
      simp
    have h2 := hF.used k _ i2 heN v hu t' h1
    obtain rfl := h2.snd (hF.shows _ heN).inj g3
    rw [(hX' k).nodes t' v h1]
    exact i3
  · by_contra hne
    push Not at hne
    have there : ∀ k, min (a + b) E ≤ k → k ≤ min (a + e) E → Ref (F (φ k)) n i ∧ (H (cut (φ k))).nodes i ≠ none := by
      intro k i1 i2
      obtain ⟨p, hp⟩ := Option.ne_none_iff_exists'.1 (hne k i1 i2)
      obtain ⟨u1, h1⟩ := (hX' k).noNode n p hp
      have := (lastE hK (i2.trans heN) h1).symm.trans hv
      cases this
      rw [(hX' k).nodes n _ h1] at hp
      exact ⟨h1, by rw [hp]; simp⟩
    rw [r4 n i (finE.2 (there _ hbe le_rfl).1)] at hy
    obtain ⟨k, i1, i2, i3⟩ := s6 i hh hy
    exact (there k i1 i2).2 i3
  · rintro ⟨h1, s, v, h2, h3⟩
    exact ⟨h1, s, v, lastE hK heN (finE.1 h2), h3⟩


/-- Whatever calls threads make: there is a history, as in C88, such that what iterators and queries return at any time has places in it,
between the moments `a` when they begin and `e` when they end. -/
theorem C92_rdf {part : Bool} (hl : cl.RoundTrips) (hr : cr.RoundTrips) (tl : cl.Total) (tr : cr.Total) (hc : c.RoundTrip) (ht : c.Total)
    {d0 : RdfDb} {f : String → Option Ulid} {G : Graph Ulid NP EP} (h : Life cl cr c mN mE E C d0)
    (hf : (SledIndex.impl cl cr).Shows d0.names f) (hG : Sled.SpoShows c d0.data G)
    {threads : List (List (RdfSled.PieceCall E NP EP))} (hi : NewIdsFor f d0.data (threads.flatten.map Prod.fst))
    (hn : FreshNames d0.data (threads.flatten.map Prod.fst))
    {x : Nat → RdfDb × List (List (Prog RdfDb Unit))} {N : Nat} (hC : Course part x N)
    (h0 : x 0 = (d0, threads.map (List.map (RdfSled.PieceCall.prog cl cr c mN mE)))) :
    ∃ (F : Nat → String → Option Ulid) (ths : List (List (RdfSled.PieceCall E NP EP × List (Sled.PieceCall E Ulid NP EP))))
      (h : List (Nat × Nat × Op E Ulid NP EP)) (cut : Nat → Nat) (H : Nat → Graph Ulid NP EP) (X : Nat → RdfState NP EP),
      -- the names
      F 0 = f ∧ (∀ k ≤ N, (SledIndex.impl cl cr).Shows (x k).1.names (F k)) ∧
      (∀ k < N, Keeps (F k) (F (k + 1)) ∧ Named (x k).2 (x (k + 1)).2 threads (F k) (F (k + 1))) ∧
      -- the calls on the triple store
      ths.map (List.map Prod.fst) = threads ∧
      (∀ th ∈ ths, ∀ y ∈ th, CallDid true f (F N) (th.map Prod.fst) y.1 y.2) ∧
      -- the history, and the graphs it leads to
      Tells part (fun y => y.1.prog cl cr c mN mE) (fun y => y.2.flatMap (fun z => z.1.acts))
        (LooseStep c.okN c.okE mN mE (Sled.FromRaced (Sled.calls (ths.map (List.flatMap Prod.snd))))
          (Sled.ToRaced (Sled.calls (ths.map (List.flatMap Prod.snd)))))
        (fun d G => Sled.ShowsBut c (Sled.ToRaced (Sled.calls (ths.map (List.flatMap Prod.snd)))) d.data G) G ths x N h cut H ∧
      (∀ k ≤ N, Agree (F k) (H (cut k)) (X k)) ∧
      -- what is read
      ∀ e ≤ N, RdfSled.Readers cl cr c mN mE threads (Sled.ToRaced (Sled.calls (ths.map (List.flatMap Prod.snd)))) x e (F N)
        (fun k => (X k).graph) :=
  rdf_readers hl hr tl tr hc ht h hf hG hi hn hC h0 (y := x) (φ := id) (fun _ _ _ h => h) (fun _ h => ⟨h, rfl⟩)

/-- Also if transactions are run on overlays, checked, and run again: there is a course `x` of transactions that are single steps, through
the same databases (`φ`), whose history explains what readers get. -/
theorem C92_fine {part : Bool} (hl : cl.RoundTrips) (hr : cr.RoundTrips) (tl : cl.Total) (tr : cr.Total) (hc : c.RoundTrip) (ht : c.Total)
    {d0 : RdfDb} {f : String → Option Ulid} {G : Graph Ulid NP EP} (h : Life cl cr c mN mE E C d0)
    (hf : (SledIndex.impl cl cr).Shows d0.names f) (hG : Sled.SpoShows c d0.data G)
    {threads : List (List (RdfSled.PieceCall E NP EP))} (hi : NewIdsFor f d0.data (threads.flatten.map Prod.fst))
    (hn : FreshNames d0.data (threads.flatten.map Prod.fst)) {closures : Tx (IndexTree ⊕ DbTree) (SledIndexErr String Ulid ⊕ SErr) → Prop}
    {y : Nat → RdfDb × List (Tx.Thread RdfDb (IndexTree ⊕ DbTree) (SledIndexErr String Ulid ⊕ SErr) Unit)} {N : Nat}
    (hC : Tx.Course closures part y N)
    (h0 : y 0 = (d0, (threads.map (List.map (RdfSled.PieceCall.prog cl cr c mN mE))).map Tx.idle)) :
    ∃ (x : Nat → RdfDb × List (List (Prog RdfDb Unit))) (M : Nat) (φ : Nat → Nat) (F : Nat → String → Option Ulid)
      (ths : List (List (RdfSled.PieceCall E NP EP × List (Sled.PieceCall E Ulid NP EP))))
      (h : List (Nat × Nat × Op E Ulid NP EP)) (cut : Nat → Nat) (H : Nat → Graph Ulid NP EP) (X : Nat → RdfState NP EP),
      F 0 = f ∧ (∀ k ≤ M, (SledIndex.impl cl cr).Shows (x k).1.names (F k)) ∧
      (∀ k < M, Keeps (F k) (F (k + 1)) ∧ Named (x k).2 (x (k + 1)).2 threads (F k) (F (k + 1))) ∧
      ths.map (List.map Prod.fst) = threads ∧
      (∀ th ∈ ths, ∀ y ∈ th, CallDid true f (F M) (th.map Prod.fst) y.1 y.2) ∧
      Tells part (fun y => y.1.prog cl cr c mN mE) (fun y => y.2.flatMap (fun z => z.1.acts))
        (LooseStep c.okN c.okE mN mE (Sled.FromRaced (Sled.calls (ths.map (List.flatMap Prod.snd))))
          (Sled.ToRaced (Sled.calls (ths.map (List.flatMap Prod.snd)))))
        (fun d G => Sled.ShowsBut c (Sled.ToRaced (Sled.calls (ths.map (List.flatMap Prod.snd)))) d.data G) G ths x M h cut H ∧
      (∀ k ≤ M, Agree (F k) (H (cut k)) (X k)) ∧
      (∀ k < N, φ k ≤ φ (k + 1)) ∧ φ N = M ∧ (∀ k ≤ N, φ k ≤ M ∧ x (φ k) = ((y k).1, (y k).2.map Prod.snd)) ∧
      ∀ e ≤ N, RdfSled.Readers cl cr c mN mE threads (Sled.ToRaced (Sled.calls (ths.map (List.flatMap Prod.snd)))) y e (F M)
        (fun k => (X (φ k)).graph) := by
  obtain ⟨x, M, φ, hx', hx0, _, hM, hmono, hφ⟩ := C86_rdf_course hC h0
  have mono : ∀ k' ≤ N, ∀ k ≤ k', φ k ≤ φ k' := by
    intro k'
    induction k' with
    | zero => intro _ k hk; rw [Nat.le_zero.1 hk]
    | succ k' ih =>
      intro h1 k hk
      rcases Nat.lt_or_ge k (k' + 1) with h2 | h2
      · exact (ih (by omega) k (by omega)).trans (hmono k' (by omega)).1
      · rw [show k = k' + 1 by omega]
  obtain ⟨F, ths, hist, cut, H, X, k1, k2, k3, k4, k5, k6, k7, k8⟩ := rdf_readers hl hr tl tr hc ht h hf hG hi hn hx' hx0 (y := y) mono
    (fun k hk => ⟨(hφ k hk).1, by rw [(hφ k hk).2]⟩)
  exact ⟨x, M, φ, F, ths, hist, cut, H, X, k1, k2, k3, k4, k5, k6, k7, fun k hk => (hmono k hk).1, hM, hφ, k8⟩

end

/-! ## no single moment -/

/-- The thread inserts an edge before the one of the sample database, and then an edge behind it, with a new name. -/
def rends : RSession :=
  { crash := false
    threads := [[calledWith 300 (.insertEdge ⟨.ulid 1, .string "of", .ulid 1⟩ 70),
      calledWith 350 (.insertEdge ⟨.string "zed", .string "of", .string "alice"⟩ 71)]] }

theorem rends_new {f : String → Option Ulid} (hf : (SledIndex.impl Sample.names Sample.ids).Shows rdfDb0.names f) :
    NewIdsFor f rdfDb0.data (rends.threads.flatten.map Prod.fst) := by
  have h1 : (((RdfSled.everyCall [rends]).flatMap Call.ulids).map Fin.val).Nodup := by decide +kernel
  have h2 : (((RdfSled.everyCall [rends]).flatMap Call.records).map Fin.val).Nodup := by decide +kernel
  have h3 : ∀ n ∈ ((RdfSled.everyCall [rends]).flatMap Call.ulids).map Fin.val,
      n ∉ [(Sample.ul 0 0).val, (Sample.ul 50 0).val, (Sample.ul 50 1).val, 5] := by decide +kernel
  have h4 : ∀ n ∈ ((RdfSled.everyCall [rends]).flatMap Call.records).map Fin.val, n ≠ (Sample.eg 50 0).val := by decide +kernel
  have := rdfDb0_newIds hf h1 h2 h3 h4
  simpa [RdfSled.everyCall] using this

theorem rends_fresh : FreshNames rdfDb0.data (rends.threads.flatten.map Prod.fst) := by
  have h1 : ∀ n ∈ ((RdfSled.everyCall [rends]).flatMap Call.ulids).map Fin.val,
      n ∉ [(Sample.ul 0 0).val, (Sample.ul 50 0).val, (Sample.ul 50 1).val, 5] := by decide +kernel
  have h2 : ∀ x ∈ RdfSled.everyCall [rends], ∀ n ∈ (ulids x.op.entities).map Fin.val, n ∈ [1] := by decide +kernel
  have h3 : ∀ n ∈ ((RdfSled.everyCall [rends]).flatMap Call.ulids).map Fin.val, n ∉ [1] := by decide +kernel
  have := rdfDb0_freshNames h1 h2 h3
  simpa [RdfSled.everyCall] using this

def rendsCourse : Nat → RdfDb × List (List (Prog RdfDb Unit)) := rdfCourse rdfDb0 rends (List.replicate 9 0)

theorem rendsCourse_course : Course false rendsCourse 9 := by
  have := rdfCourse_course rdfDb0 rends (List.replicate 9 0)
  rwa [show (awake (rdfStart rdfDb0 rends) (List.replicate 9 0)).length = 9 by decide +kernel] at this

/-- The reader meets the edge of the sample database before the thread begins, and the last one after the thread has inserted both; then it
looks up their records and their names. -/
def rendsSeen : List RdfSled.Seen :=
  (rdfDb0.data.spo.entries.map (fun e => ⟨⟨0, 9, e.1, e.2⟩, 9, 9, 9⟩)) ++
    [⟨⟨9, 9, (encodeSpo (⟨Sample.ul 350 0, Sample.ul 50 1, Sample.ul 0 0⟩ : Triple Ulid)).1, (toBeBytes (Sample.eg 350 0)).1⟩, 9, 9, 9⟩]

theorem rends_reading : RdfSled.Reading (RdfSled.since rendsCourse 0 9) .SPO rendsSeen := by
  refine ⟨⟨?_, ?_⟩, ?_⟩
  · have := scan_two (fun m => (RdfSled.since rendsCourse 0 9 m).data.tree .SPO) (m := 0) (m' := 9) (Nat.zero_le _)
      (k1 := (encodeSpo (⟨Sample.ul 350 0, Sample.ul 50 1, Sample.ul 0 0⟩ : Triple Ulid)).1) (v1 := (toBeBytes (Sample.eg 350 0)).1)
      (by decide +kernel) (by decide +kernel) (by decide +kernel)
    refine cast ?_ this
    congr 1
  · intro e he
    obtain ⟨e', he', rfl⟩ := List.mem_map.1 he
    rcases List.mem_append.1 he' with he | he
    · obtain ⟨e, -, rfl⟩ := List.mem_map.1 he
      exact Nat.zero_le _
    · rw [List.mem_singleton.1 he]
  · intro e he
    rcases List.mem_append.1 he with he | he
    · obtain ⟨e, -, rfl⟩ := List.mem_map.1 he
      exact ⟨le_rfl, le_rfl, le_rfl⟩
    · rw [List.mem_singleton.1 he]
      exact ⟨le_rfl, le_rfl, le_rfl⟩

/-- What the iteration returns was there at no moment: the edge of "zed" was never there without the first one.  So the places differ. -/
theorem C92_moment_violated : FreshNames rdfDb0.data (rends.threads.flatten.map Prod.fst) ∧ Course false rendsCourse 9 ∧
    rendsCourse 0 = rdfStart rdfDb0 rends ∧ RdfSled.Reading (RdfSled.since rendsCourse 0 9) .SPO rendsSeen ∧
    rendsSeen.map (rdfItem Sample.names Sample.ids Sample.uc (RdfSled.since rendsCourse 0 9) .SPO) =
      [.ok (⟨.string "knows", .string "of", .ulid 5⟩, 7), .ok (⟨.string "zed", .string "of", .string "alice"⟩, 71)] ∧
    ∀ k ≤ 9, .ok (⟨.string "zed", .string "of", .string "alice"⟩, 71) ∈
        edgesAt Sample.names Sample.ids Sample.uc Sample.mN Sample.mE (rendsCourse k).1 .SPO →
      .ok (⟨.ulid 1, .string "of", .ulid 1⟩, 70) ∈ edgesAt Sample.names Sample.ids Sample.uc Sample.mN Sample.mE (rendsCourse k).1 .SPO := by
  refine ⟨rends_fresh, rendsCourse_course, rfl, rends_reading, by decide +kernel, fun k hk => ?_⟩
  have : ∀ k < 10,
      edgesAt Sample.names Sample.ids Sample.uc Sample.mN Sample.mE (rendsCourse k).1 .SPO =
        [(⟨.string "knows", .string "of", .ulid 5⟩, 7)].map .ok ∨
      edgesAt Sample.names Sample.ids Sample.uc Sample.mN Sample.mE (rendsCourse k).1 .SPO =
        [(⟨.ulid 1, .string "of", .ulid 1⟩, 70), (⟨.string "knows", .string "of", .ulid 5⟩, 7)].map .ok ∨
      edgesAt Sample.names Sample.ids Sample.uc Sample.mN Sample.mE (rendsCourse k).1 .SPO =
        [(⟨.ulid 1, .string "of", .ulid 1⟩, 70), (⟨.string "knows", .string "of", .ulid 5⟩, 7),
          (⟨.string "zed", .string "of", .string "alice"⟩, 71)].map .ok := by
    intro k hk
    have : k = 0 ∨ k = 1 ∨ k = 2 ∨ k = 3 ∨ k = 4 ∨ k = 5 ∨ k = 6 ∨ k = 7 ∨ k = 8 ∨ k = 9 := by omega
    rcases this with rfl | rfl | rfl | rfl | rfl | rfl | rfl | rfl | rfl | rfl <;>
      first | exact .inl (by decide +kernel) | exact .inr (.inl (by decide +kernel)) | exact .inr (.inr (by decide +kernel))
  rcases this k (by omega) with e | e | e <;> rw [e] <;> simp

/-! ## examples -/

theorem back_some {y : Triple Entity × Option Nat} {t : Triple Entity} {p : Nat} (h : .ok (t, p) = RdfSled.itemFor y) : y = (t, some p) := by
  obtain ⟨t', v⟩ := y
  cases v with
  | none => cases h
  | some v => cases h; rfl

/-- In the history of C92 the edge of "zed" is found after the edge of the sample database. -/
example (f : String → Option Ulid) (hf : (SledIndex.impl Sample.names Sample.ids).Shows rdfDb0.names f) (G : Graph Ulid Nat Nat)
    (hG : Sled.SpoShows Sample.uc rdfDb0.data G) :
    ∃ (F : Nat → String → Option Ulid) (H : Nat → Graph Ulid Nat Nat) (X : Nat → RdfState Nat Nat), F 0 = f ∧ H 0 = G ∧
      (∃ n, (SledIndex.impl Sample.names Sample.ids).Shows (rendsCourse 9).1.names (F 9) ∧ Agree (F 9) (H n) (X 9)) ∧
      ∃ k k', k ≤ k' ∧ k' ≤ 9 ∧ (X k).graph.edges ⟨.string "knows", .string "of", .ulid 5⟩ = some 7 ∧
        (X k').graph.edges ⟨.string "zed", .string "of", .string "alice"⟩ = some 71 := by
  obtain ⟨F, ths, h, cut, H, X, k1, k2, -, -, -, ht, hX, hr⟩ := C92_rdf Sample.names_rt Sample.ids_rt Sample.names_total Sample.ids_total
    Sample.uc_rt Sample.uc_total rdfDb0_life hf hG (rends_new hf) rends_fresh rendsCourse_course rfl
  obtain ⟨r, place, e1, -, e3, hp⟩ := (hr _ le_rfl).edges 0 (by omega) .SPO rendsSeen rends_reading
  have e1 : rendsSeen.map (rdfItem Sample.names Sample.ids Sample.uc (RdfSled.since rendsCourse 0 9) .SPO) = r.map RdfSled.itemFor := e1
  rw [C92_moment_violated.2.2.2.2.1] at e1
  refine ⟨F, H, X, k1, ht.first, ⟨cut 9, k2 9 le_rfl, hX 9 le_rfl⟩, ?_⟩
  rcases r with _ | ⟨a, _ | ⟨b, _ | ⟨c, r⟩⟩⟩
  · simp at e1
  · simp at e1
  · simp only [List.map_cons, List.map_nil, List.cons.injEq, and_true] at e1
    obtain rfl := back_some e1.1
    obtain rfl := back_some e1.2
    obtain ⟨v, h1, h2⟩ := (hp.listed _ _ List.mem_cons_self).2 (.inl rfl)
    obtain ⟨v', h3, h4⟩ := (hp.listed _ _ (List.mem_cons_of_mem _ List.mem_cons_self)).2 (.inl rfl)
    have o := (List.pairwise_cons.1 hp.sorted).1 _ List.mem_cons_self
    refine ⟨_, _, hp.order _ _ trivial trivial o (.inl ⟨_, List.mem_cons_self⟩), (hp.time _).2, ?_, ?_⟩
    · rcases h2 with h2 | h2
      · cases h2
      · rw [h1, ← h2]
    · rcases h4 with h4 | h4
      · cases h4
      · rw [h3, ← h4]
  · simp at e1

/-- Two entries are read at the eighth moment.  One is removed before its record is read: it was there at that moment, and some thread
removes it. -/
example (f : String → Option Ulid) (hf : (SledIndex.impl Sample.names Sample.ids).Shows rdfDb0.names f) (G : Graph Ulid Nat Nat)
    (hG : Sled.SpoShows Sample.uc rdfDb0.data G) :
    ∃ (F : Nat → String → Option Ulid) (X : Nat → RdfState Nat Nat) (t : Triple Entity) (v : Nat), F 0 = f ∧
      Disturbed (F (awake (rdfStart rdfDb0 rwriters) rwriterTurns).length) rwriters.threads t ∧ (X 8).graph.edges t = some v := by
  obtain ⟨F, ths, h, cut, H, X, k1, -, -, -, -, -, -, hr⟩ := C92_rdf Sample.names_rt Sample.ids_rt Sample.names_total Sample.ids_total
    Sample.uc_rt Sample.uc_total rdfDb0_life hf hG (rwriters_new hf) rwriters_fresh (rdfCourse_course rdfDb0 rwriters rwriterTurns) rfl
  obtain ⟨r, place, e1, e2, e3, hp⟩ := (hr _ le_rfl).edges 8 (by decide +kernel) .SPO _ (rdf_reading_first _ .SPO (fun j => 12 * j))
  have e0 : ((((RdfSled.since (rdfCourse rdfDb0 rwriters rwriterTurns) 8 (awake (rdfStart rdfDb0 rwriters) rwriterTurns).length) 0).data.tree
        .SPO).entries.mapIdx (fun j e => (⟨⟨0, 12 * j, e.1, e.2⟩, 12 * j + 1, 12 * j + 2, 12 * j + 3⟩ : RdfSled.Seen))).map
        (rdfItem Sample.names Sample.ids Sample.uc (RdfSled.since (rdfCourse rdfDb0 rwriters rwriterTurns) 8
          (awake (rdfStart rdfDb0 rwriters) rwriterTurns).length) .SPO) =
      [.ok (⟨.string "knows", .string "of", .ulid 5⟩, 7), .error (.graph .missing)] := by decide +kernel
  replace e1 := e0.symm.trans e1
  rcases r with _ | ⟨a, _ | ⟨⟨t, b⟩, r⟩⟩
  · simp at e1
  · simp at e1
  · have hb : b = none := by
      cases b with
      | none => rfl
      | some b => simp [RdfSled.itemFor] at e1
    subst hb
    have hm : (t, none) ∈ a :: (t, none) :: r := List.mem_cons_of_mem _ List.mem_cons_self
    obtain ⟨v, h1, -⟩ := (hp.listed t none hm).2 (.inl rfl)
    obtain ⟨e, he, h3⟩ := forall₂_of_right e3 hm
    obtain ⟨j, hj, rfl⟩ := List.mem_mapIdx.1 he
    refine ⟨F, X, t, v, k1, e2 t hm, ?_⟩
    rw [← h1, h3]
    congr 4

/-- transactions in parts -/
example (f : String → Option Ulid) (hf : (SledIndex.impl Sample.names Sample.ids).Shows rdfDb0.names f) (G : Graph Ulid Nat Nat)
    (hG : Sled.SpoShows Sample.uc rdfDb0.data G) :
    ∃ (y : Nat → RdfDb × List (Tx.Thread RdfDb (IndexTree ⊕ DbTree) (SledIndexErr String Ulid ⊕ SErr) Unit)) (N : Nat)
      (F : String → Option Ulid) (W : Triple Ulid → Prop) (X : Nat → Graph Entity Nat Nat),
      (y N).1 = (rdfProc rwriters (rwriterTurns ++ rwriterTurns) rdfDb0).1 ∧
      Tx.Course (RdfSled.Closure Sample.names Sample.ids Sample.uc Sample.mN Sample.mE) false y N ∧
      y 0 = (rdfDb0, (rdfStart rdfDb0 rwriters).2.map Tx.idle) ∧
      RdfSled.Readers Sample.names Sample.ids Sample.uc Sample.mN Sample.mE rwriters.threads W y N F X := by
  obtain ⟨rest, h1, h2⟩ := (C86_rdf rwriters).2
    (rdfProc_end (s := rwriters) (l := rwriterTurns ++ rwriterTurns) (d := rdfDb0) rfl (by decide +kernel))
  obtain ⟨y, N, hC, h0, hN⟩ := course_of_fine h1
  obtain ⟨x, M, φ, F, ths, h, cut, H, X, -, -, -, -, -, -, -, -, -, -, hr⟩ := C92_fine Sample.names_rt Sample.ids_rt Sample.names_total
    Sample.ids_total Sample.uc_rt Sample.uc_total rdfDb0_life hf hG (rwriters_new hf) rwriters_fresh hC h0
  exact ⟨y, N, _, _, _, by rw [hN], hC, h0, hr N le_rfl⟩

end Verif.Props
