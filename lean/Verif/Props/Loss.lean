import Mathlib.Data.List.Flatten
import Verif.Proof.Loss
import Verif.Props.Converge
import Verif.Props.RdfSledLoose
import Verif.Props.History

/-!
# C94: power losses

What is lost is what came last; what is left is what processes leave of which one has crashed.
-/

set_option linter.unusedSectionVars false
set_option maxRecDepth 100000

namespace Verif.Props

open Verif Spec ConcreteId

/-- Once something survives of a call, everything survives that a call did which had returned before it began. -/
theorem C94_before {S O C : Type} {part : Bool} {prog : C → Prog S Unit} {ops : C → List O} {threads : List (List C)}
    {x : Nat → S × List (List (Prog S Unit))} {N : Nat} {h : List (Nat × Nat × O)} {cut : Nat → Nat}
    (he : Timed part prog ops threads x N h cut) {k k' : Nat} (hk : k ≤ N)
    {i j : Nat} {th : List C} {l : List (Prog S Unit)} {y : C} (hi : threads[i]? = some th) (hl : (x k).2[i]? = some l)
    (hj : th[j]? = some y) (hp : j + l.length < th.length)
    {i' j' : Nat} {th' : List C} {l' : List (Prog S Unit)} {y' : C} (hi' : threads[i']? = some th') (hl' : (x k).2[i']? = some l')
    (hj' : th'[j']? = some y') (hf : (th'.drop j').map prog <:+ l') (hs : doneBy i' j' (h.take (cut k')) ≠ []) :
    doneBy i j (h.take (cut k')) = doneBy i j h ∧ (part = false → doneBy i j (h.take (cut k')) = ops y) := by
  have h1 := he.future k hk i' th' l' j' y' hi' hl' hj' hf
  obtain ⟨h2, h3⟩ := he.past k hk i th l j y hi hl hj hp
  have split : ∀ n m, n ≤ m → ∀ a b, ∃ r, doneBy a b (h.take m) = doneBy a b (h.take n) ++ r := by
    intro n m hnm a b
    obtain ⟨r, hr⟩ : h.take n <+: h.take m := List.take_prefix_take_left hnm
    exact ⟨doneBy a b r, by rw [← hr, Verif.doneBy_append]⟩
  have hle : cut k ≤ cut k' := by
    by_contra hc
    obtain ⟨r, hr⟩ := split (cut k') (cut k) (by omega) i' j'
    rw [h1] at hr
    exact hs (List.append_eq_nil_iff.1 hr.symm).1
  have e : doneBy i j (h.take (cut k')) = doneBy i j h := by
    obtain ⟨r, hr⟩ := split _ _ hle i j
    have e2 : doneBy i j h = doneBy i j (h.take (cut k')) ++ doneBy i j (h.drop (cut k')) := by
      rw [← Verif.doneBy_append, List.take_append_drop]
    rw [h2] at hr
    rw [hr] at e2 ⊢
    rw [List.append_assoc] at e2
    rw [(List.append_eq_nil_iff.1 (List.append_right_eq_self.1 e2.symm)).1, List.append_nil]
  exact ⟨e, fun hp => e.trans (h3 hp)⟩

section
variable {Id NP EP E : Type} [LinearOrder Id] [ConcreteId Id] [LawfulId Id]
variable {mN : NP → NP → NP} {mE : EP → EP → EP} {c : Codecs NP EP}

open Sled

private theorem everyCall_of (ss : List (Bool × List (List (PieceCall E Id NP EP)))) :
    everyCall (ss.map Session.of) = (ss.map Prod.snd).flatMap calls := by
  simp [everyCall, Session.of, List.flatMap_map]

private theorem runs_of {ss : List (Bool × List (List (PieceCall E Id NP EP)))} {d d' : Db}
    (h : Runs (leadsTo (PieceCall.prog c mN mE)) d ss d') : Runs (fun d s d' => Session.Leads c mN mE d s d') d (ss.map Session.of) d' := by
  induction ss generalizing d with
  | nil => exact h
  | cons s ss ih =>
    obtain ⟨e, h1, h2⟩ := h
    refine ⟨e, ?_, ih h2⟩
    obtain ⟨b, ths⟩ := s
    cases b <;> exact h1

private theorem survive_mem {C : Type} {es : List (Event C)} {ss : List (Bool × List (List C))} (h : Survive es ss) {s : Bool × List (List C)}
    (hs : s ∈ ss) : ∃ p ∈ processes es, p.2 = s.2 :=
  List.mem_map.1 (h.sublist.subset (List.mem_map_of_mem hs))

/-- If all calls draw different ids, so do those of the processes that survive. -/
theorem C94_ids {d0 : Db} {es : List (Event (PieceCall E Id NP EP))} (h : DistinctIds d0 (everyCall ((processes es).map Session.of)))
    {ss : List (Bool × List (List (PieceCall E Id NP EP)))} (hs : Survive es ss) : DistinctIds d0 (everyCall (ss.map Session.of)) := by
  rw [everyCall_of] at h ⊢
  have := (((hs.sublist.flatMap calls).flatten).flatMap Call.writes)
  exact ⟨h.1.sublist (this.map _), fun x hx => h.2 x (this.subset hx)⟩

/-- A database after processes, crashes and power losses shows what the processes make of it that survive. -/
theorem C94_store {n m : Nat} {s : SledStore Id} {G : Graph Id NP EP} (hc : c.RoundTrip) (ht : c.Total)
    (hs : SledStore.Reach E c mN mE n m s) (hG : Shows (s.obs c) G) {es : List (Event (PieceCall E Id NP EP))} {ds : List Db} {d : Db}
    (hx : ∀ p ∈ processes es, ∀ th ∈ p.2, ∀ y ∈ th, ¬ y.1.IsScan)
    (hi : ∀ ss, Survive es ss → DistinctIds s.db (everyCall (ss.map Session.of)))
    (hd : Trail (PieceCall.prog c mN mE) s.db es ds) (hl : ds.getLast? = some d) :
    ∃ ss, Survive es ss ∧ ∃ G' : Graph Id NP EP, LooseSessions c.okN c.okE mN mE (fun _ => False) G (ss.map Session.of) G' ∧
      SpoShows c d G' ∧
      ∀ t, (∀ s ∈ ss, ¬ (Session.of s).Breaks t) → ∀ o p, .ok (t, p) ∈ iterEdges Id c d o ↔ G'.edges t = some p := by
  obtain ⟨ss, h1, h2⟩ := hd.runs hl
  obtain ⟨G', h3, h4, h5⟩ := C77_sessions hc ht hs hG (ss := ss.map Session.of) (fun z hz th hth y hy => by
    obtain ⟨z', hz', rfl⟩ := List.mem_map.1 hz
    obtain ⟨p, hp, e⟩ := survive_mem h1 hz'
    exact hx p hp th (e ▸ hth) y hy) (hi ss h1) (runs_of h2)
  refine ⟨ss, h1, G', h3, h4, fun t hb => h5 t (fun z hz => ?_)⟩
  obtain ⟨z', hz', rfl⟩ := List.mem_map.1 hz
  exact hb z' hz'

/-- If processes only tell the database things (C93), and all that was told before is told again after the last power loss by processes
that do not crash, it is as if nothing had been lost. -/
theorem C94_again (hN : Joins mN) (hE : Joins mE) {n m : Nat} {s : SledStore Id} {G : Graph Id NP EP} (hc : c.RoundTrip) (ht : c.Total)
    (hs : SledStore.Reach E c mN mE n m s) (hG : Shows (s.obs c) G) {es fs : List (Event (PieceCall E Id NP EP))} {ds : List Db} {d : Db}
    (hf : ∀ e ∈ fs, e ≠ .loss) (hm : ∀ p ∈ processes (es ++ fs), ∀ th ∈ p.2, ∀ y ∈ th, y.1.told ≠ none)
    (hi : ∀ ss, Survive (es ++ fs) ss → DistinctIds s.db (everyCall (ss.map Session.of)))
    (hd : Trail (PieceCall.prog c mN mE) s.db (es ++ fs) ds) (hl : ds.getLast? = some d)
    (ha : ∀ p ∈ processes (es ++ fs), ∀ x, (Session.of p).Tells x → ∃ q ∈ processes fs, q.1 = false ∧ (Session.of q).Tells x) :
    ∃ G' : Graph Id NP EP, Sums mN mE (fun x => G.facts x ∨ ∃ p ∈ processes (es ++ fs), (Session.of p).Tells x) G' ∧ SpoShows c d G' ∧
      ∀ o t p, .ok (t, p) ∈ iterEdges Id c d o ↔ G'.edges t = some p := by
  obtain ⟨ss, h1, h2⟩ := hd.runs hl
  obtain ⟨ss', h3, rfl⟩ := h1.last hf
  have tells : ∀ {p q : Bool × List (List (PieceCall E Id NP EP))}, p.2 = q.2 → ∀ x, (Session.of p).Tells x → (Session.of q).Tells x := by
    rintro ⟨_, _⟩ ⟨_, _⟩ rfl x hx
    exact hx
  have sub : ∀ q ∈ processes fs, q ∈ processes (es ++ fs) := fun q hq => by
    rw [processes, List.filterMap_append]
    exact List.mem_append_right _ hq
  obtain ⟨G', h4, h5⟩ := C93_again hN hE hc ht hs hG (ss := (ss' ++ processes fs).map Session.of) (fun z hz th hth y hy => by
    obtain ⟨z', hz', rfl⟩ := List.mem_map.1 hz
    obtain ⟨p, hp, e⟩ := survive_mem h1 hz'
    exact hm p hp th (e ▸ hth) y hy) (hi _ h1) (runs_of h2) (fun z hz x hx => by
    obtain ⟨z', hz', rfl⟩ := List.mem_map.1 hz
    obtain ⟨p, hp, e⟩ := survive_mem h1 hz'
    obtain ⟨q, hq, hq1, hq2⟩ := ha p hp x (tells e.symm x hx)
    exact ⟨_, List.mem_map_of_mem (List.mem_append_right _ hq), hq1, hq2⟩)
  refine ⟨G', h4.congr (fun x => or_congr_right ⟨?_, ?_⟩), h5⟩
  · rintro ⟨z, hz, hx⟩
    obtain ⟨z', hz', rfl⟩ := List.mem_map.1 hz
    obtain ⟨p, hp, e⟩ := survive_mem h1 hz'
    exact ⟨p, hp, tells e.symm x hx⟩
  · rintro ⟨p, hp, hx⟩
    obtain ⟨q, hq, -, hq2⟩ := ha p hp x hx
    exact ⟨_, List.mem_map_of_mem (List.mem_append_right _ hq), hq2⟩

end

section
variable {NP EP E : Type} {cl : Codec String} {cr : Codec Ulid} {c : Codecs NP EP} {mN : NP → NP → NP} {mE : EP → EP → EP} {C : List Ulid}

open RdfSled

private theorem rdf_runs_of {ss : List (Bool × List (List (RdfSled.PieceCall E NP EP)))} {d d' : RdfDb}
    (h : Runs (leadsTo (RdfSled.PieceCall.prog cl cr c mN mE)) d ss d') :
    Runs (fun d s d' => RdfSled.Session.Leads cl cr c mN mE d s d') d (ss.map RdfSled.Session.of) d' := by
  induction ss generalizing d with
  | nil => exact h
  | cons s ss ih =>
    obtain ⟨e, h1, h2⟩ := h
    refine ⟨e, ?_, ih h2⟩
    obtain ⟨b, ths⟩ := s
    cases b <;> exact h1

/-- RDF stores likewise: names and data are lost together. -/
theorem C94_rdf (hl : cl.RoundTrips) (hr : cr.RoundTrips) (tl : cl.Total) (tr : cr.Total) (hc : c.RoundTrip) (ht : c.Total)
    {d0 d : RdfDb} {f : String → Option Ulid} {G : Graph Ulid NP EP} {es : List (Event (RdfSled.PieceCall E NP EP))} {ds : List RdfDb}
    (h : Life cl cr c mN mE E C d0) (hf : (SledIndex.impl cl cr).Shows d0.names f) (hG : Sled.SpoShows c d0.data G)
    (hi : ∀ ss, Survive es ss → NewIdsFor f d0.data (RdfSled.everyCall (ss.map RdfSled.Session.of)))
    (hd : Trail (RdfSled.PieceCall.prog cl cr c mN mE) d0 es ds) (hls : ds.getLast? = some d) :
    ∃ ss, Survive es ss ∧ ∃ (f' : String → Option Ulid) (zs : List (Sled.Session E Ulid NP EP)) (G' : Graph Ulid NP EP),
      RdfSled.Did f (ss.map RdfSled.Session.of) zs f' ∧ (SledIndex.impl cl cr).Shows d.names f' ∧
      Sled.LooseSessions c.okN c.okE mN mE (fun _ => False) G zs G' ∧ Sled.SpoShows c d.data G' ∧
      (∀ t, (∀ s ∈ zs, ¬ s.Breaks t) → ∀ o p, .ok (t, p) ∈ Sled.iterEdges Ulid c d.data o ↔ G'.edges t = some p) ∧
      ∃ x : RdfState NP EP, Agree f' G' x ∧ ∀ u g, Represents
        (.mk ((openOn d u g).iterVertices (SledIndex.impl cl cr) (SledStore.impl c mN mE))
          ((openOn d u g).iterEdges (SledIndex.impl cl cr) (SledStore.impl c mN mE) .SPO)) x.graph := by
  obtain ⟨ss, h1, h2⟩ := hd.runs hls
  exact ⟨ss, h1, C79_sessions hl hr tl tr hc ht h hf hG (hi ss h1) (rdf_runs_of h2)⟩

/-- If all calls draw different ids, so do those of the processes that survive. -/
theorem C94_rdf_ids {f : String → Option Ulid} {d0 : Db} {es : List (Event (RdfSled.PieceCall E NP EP))}
    (h : NewIdsFor f d0 (RdfSled.everyCall ((processes es).map RdfSled.Session.of)))
    {ss : List (Bool × List (List (RdfSled.PieceCall E NP EP)))} (hs : Survive es ss) :
    NewIdsFor f d0 (RdfSled.everyCall (ss.map RdfSled.Session.of)) := by
  have e (ss : List (Bool × List (List (RdfSled.PieceCall E NP EP)))) :
      RdfSled.everyCall (ss.map RdfSled.Session.of) = ((ss.map Prod.snd).flatMap List.flatten).map Prod.fst := by
    simp [RdfSled.everyCall, RdfSled.Session.of, List.flatMap_map]
  rw [e] at h ⊢
  have := (hs.sublist.flatMap List.flatten).map (Prod.fst (α := RdfSled.Call E NP EP))
  have h1 := this.flatMap RdfSled.Call.ulids
  have h2 := this.flatMap RdfSled.Call.records
  exact ⟨h.ulids.sublist h1, fun u hu => h.names u (h1.subset hu), h.records.sublist h2, fun v hv => h.unused v (h2.subset hv)⟩

end

/-! ## Examples -/

namespace LossSample

open Sample ConvergeSample Sled

abbrev ev (s : Session String U64 Nat Nat) : Event (PieceCall String U64 Nat Nat) := .process s.crash s.threads

/-- The last process tells once more, with new ids. -/
def teller3 : Session String U64 Nat Nat :=
  { crash := false, threads := [[(.mergeNode 1 11, [], []), (.mergeEdge 102 ⟨1, 5, 2⟩ 9, [], [])], [(.merge (cg 500) news, [], [])]] }

def begun (s : Session String U64 Nat Nat) (d : Db) : Db × List (List (Prog Db Unit)) :=
  (d, s.threads.map (List.map (PieceCall.prog uc max max)))

/-- the moments of a process -/
def moments (x : Db × List (List (Prog Db Unit))) (l : List Nat) : List Db :=
  (List.range (l.length + 1)).map (fun k => ((l.take k).foldl turn x).1)

theorem trail_process {d0 : Db} {es : List (Event (PieceCall String U64 Nat Nat))} {ds : List Db} {d : Db}
    (s : Session String U64 Nat Nat) (l : List Nat) (h : Trail (PieceCall.prog uc max max) d0 es ds) (hd : ds.getLast? = some d)
    (hm : moves (begun s d) l = true) (he : s.crash = false → (l.foldl turn (begun s d)).2.all List.isEmpty = true) :
    Trail (PieceCall.prog uc max max) d0 (es ++ [ev s]) (ds ++ moments (begun s d) l) := by
  refine .process (x := fun k => (l.take k).foldl turn (begun s d)) h hd ?_ rfl (fun hc th hth => ?_)
  · have := course_turns _ l hm
    intro k hk
    have := this k hk
    split
    · exact CalmStep.step (by simpa using this)
    · simpa using this
  · rw [List.take_length] at hth
    exact List.isEmpty_iff.1 (List.all_eq_true.1 (he hc) th hth)

theorem moments_last (ds : List Db) (x : Db × List (List (Prog Db Unit))) (l : List Nat) :
    (ds ++ moments x l).getLast? = some (l.foldl turn x).1 := by
  rw [moments, List.range_succ, List.map_append, ← List.append_assoc]
  simp

def turns1 : List Nat := [0, 1, 0]
def turns2 : List Nat := awake (begun teller2 told1) [0, 1, 0, 1, 1, 0, 1, 0, 1, 1, 1, 1, 1, 1, 1, 1, 1, 1, 1, 1, 0, 0, 0, 0, 0, 0]
def trail1 : List Db := [Db.empty] ++ moments (begun teller1 Db.empty) turns1
def trail2 : List Db := trail1 ++ moments (begun teller2 told1) turns2

/-- The power fails, and almost everything the second process has done is lost. -/
def trail3 : List Db := trail2.take 7
def lost : Db := trail3.getLast (by decide)
def turns4 : List Nat := awake (begun teller3 lost) [1, 1, 1, 1, 1, 1, 1, 1, 1, 1, 1, 1, 1, 0, 0, 0, 0, 0, 0, 0]
def trail4 : List Db := trail3 ++ moments (begun teller3 lost) turns4
def told4 : Db := trail4.getLast (by decide)

theorem trail4_trail : Trail (PieceCall.prog uc max max) Db.empty ([ev teller1, ev teller2, .loss] ++ [ev teller3]) trail4 := by
  have h1 := trail_process (d0 := Db.empty) (d := Db.empty) teller1 turns1 .start rfl (by decide +kernel) (fun h => by cases h)
  have h2 := trail_process teller2 turns2 h1 (moments_last _ _ _) (moves_awake _ _) (fun _ => by decide +kernel)
  have h3 : Trail (PieceCall.prog uc max max) Db.empty [ev teller1, ev teller2, .loss] trail3 := .loss h2 (List.take_prefix 7 _) (by decide)
  exact trail_process teller3 turns4 h3 (List.getLast?_eq_some_getLast _) (moves_awake _ _) (fun _ => by decide +kernel)

-- what there was before the power failed, what there was afterwards, and in the end
example : iterEdges U64 uc (trail2.getLast (by decide)) .SPO = [(⟨1, 5, 2⟩, 9), (⟨2, 2, 2⟩, 3)].map .ok ∧
    iterEdges U64 uc lost .SPO = [(⟨1, 5, 2⟩, 9)].map .ok ∧ iterVertices U64 uc lost = [(1, 11), (2, 5)].map .ok ∧
    iterEdges U64 uc told4 .SPO = [(⟨1, 5, 2⟩, 9), (⟨2, 2, 2⟩, 3)].map .ok ∧ iterVertices U64 uc told4 = [(1, 11), (2, 5)].map .ok := by
  refine ⟨?_, ?_, ?_, ?_, ?_⟩ <;> decide +kernel

theorem all_distinct : DistinctIds Db.empty (everyCall
    ((processes ([ev teller1, ev teller2, .loss] ++ [ev teller3])).map Session.of)) := ⟨by decide +kernel, by decide +kernel⟩

theorem all_told : ∀ p ∈ processes ([ev teller1, ev teller2, .loss] ++ [ev teller3]), ∀ th ∈ p.2, ∀ y ∈ th, y.1.told ≠ none := by
  simp only [processes, List.cons_append, List.nil_append, List.filterMap_cons, List.filterMap_nil, teller1, teller2, teller3, List.mem_cons,
    List.not_mem_nil, or_false, forall_eq_or_imp, forall_eq]
  simp [Call.told]

example (G : Graph U64 Nat Nat) (hG : Shows ((SledStore.new Db.empty (cg 0) (ul 0)).obs uc) G) :
    ∃ G' : Graph U64 Nat Nat, Sums max max (fun x => G.facts x ∨
        ∃ p ∈ processes ([ev teller1, ev teller2, .loss] ++ [ev teller3]), (Session.of p).Tells x) G' ∧ SpoShows uc told4 G' ∧
      ∀ o t p, .ok (t, p) ∈ iterEdges U64 uc told4 o ↔ G'.edges t = some p := by
  refine C94_again max_joins max_joins uc_rt uc_total (.new (cu_fresh 0 0 _ _ (by decide) (by decide))) hG (by simp) all_told
    (fun ss h => C94_ids all_distinct h) trail4_trail (List.getLast?_eq_some_getLast _) ?_
  intro p hp x hx
  refine ⟨(false, teller3.threads), by simp [processes, teller3], rfl, ?_⟩
  simp only [processes, List.cons_append, List.nil_append, List.filterMap_cons, List.filterMap_nil, List.mem_cons, List.not_mem_nil,
    or_false] at hp
  rcases hp with rfl | rfl | rfl <;>
    simp only [Session.Tells, Session.of, teller1, teller2, teller3, List.mem_cons, List.not_mem_nil, or_false, exists_eq_or_imp,
      exists_eq_left, Call.told, Option.some.injEq, exists_eq_left'] at hx ⊢ <;> tauto

example (G : Graph U64 Nat Nat) (hG : Shows ((SledStore.new Db.empty (cg 0) (ul 0)).obs uc) G) :
    ∃ ss, Survive ([ev teller1, ev teller2, .loss] ++ [ev teller3]) ss ∧
      ∃ G' : Graph U64 Nat Nat, LooseSessions uc.okN uc.okE max max (fun _ => False) G (ss.map Session.of) G' ∧ SpoShows uc told4 G' ∧
        ∀ t, (∀ s ∈ ss, ¬ (Session.of s).Breaks t) → ∀ o p, .ok (t, p) ∈ iterEdges U64 uc told4 o ↔ G'.edges t = some p :=
  C94_store uc_rt uc_total (.new (cu_fresh 0 0 _ _ (by decide) (by decide))) hG
    (fun p hp th hth y hy h => by
      have := all_told p hp th hth y hy
      revert h this
      cases y.1 <;> simp [Call.IsScan, Call.told])
    (fun ss h => C94_ids all_distinct h) trail4_trail (List.getLast?_eq_some_getLast _)

-- what may survive of it
example (ss : List (Bool × List (List (PieceCall String U64 Nat Nat))))
    (h : Survive ([ev teller1, ev teller2, .loss] ++ [ev teller3]) ss) : ∃ ss', ss = ss' ++ [(false, teller3.threads)] := by
  obtain ⟨ss', -, rfl⟩ := h.last (by simp)
  exact ⟨ss', rfl⟩

-- in the history of `clear_history` (C85), the first call of the first thread has returned when the second thread begins
example (G : Graph U64 Nat Nat) (hG : Shows (sstore.obs uc) G) :
    ∃ (h : List (Nat × Nat × Op String U64 Nat Nat)) (cut : Nat → Nat), Explains false (PieceCall.prog uc Sample.mN Sample.mE)
      (fun y => y.1.ops) (fun G op => (op.step uc.okN uc.okE Sample.mN Sample.mE G).1) (fun d G => Shows (Sled.obs uc d) G) G clear
      (fun k => ((awake clearStart clearTurns).take k).foldl turn clearStart) (awake clearStart clearTurns).length h cut ∧
      ∀ k, doneBy 1 0 (h.take (cut k)) ≠ [] → doneBy 0 0 (h.take (cut k)) = doneBy 0 0 h := by
  obtain ⟨h, cut, he⟩ := clear_history G hG
  refine ⟨h, cut, he, fun k hk => ?_⟩
  obtain ⟨l, hl, -⟩ := he.there 3 (by decide) 0 _ rfl
  have hlen : l.length = 2 := by
    have e : (([0, 0, 0].foldl turn clearStart).2.map List.length)[0]? = some l.length := by
      rw [List.getElem?_map]
      exact congrArg (Option.map List.length) hl
    have e' : (([0, 0, 0].foldl turn clearStart).2.map List.length)[0]? = some 2 := by decide +kernel
    exact Option.some.inj (e.symm.trans e')
  exact (C94_before he.toTimed (k := 3) (by decide) (i := 0) (j := 0) rfl hl rfl (by rw [hlen]; decide) (i' := 1) (j' := 0) rfl rfl rfl
    (List.suffix_refl _) hk).1

/-! ### RDF stores -/

abbrev rev (s : RSession) : Event (RdfSled.PieceCall String Nat Nat) := .process s.crash s.threads

def rbegun (s : RSession) (d : RdfDb) : RdfDb × List (List (Prog RdfDb Unit)) :=
  (d, s.threads.map (List.map (RdfSled.PieceCall.prog names ids uc Sample.mN Sample.mE)))

def rmoments (x : RdfDb × List (List (Prog RdfDb Unit))) (l : List Nat) : List RdfDb :=
  (List.range (l.length + 1)).map (fun k => ((l.take k).foldl turn x).1)

theorem rtrail_process {d0 : RdfDb} {es : List (Event (RdfSled.PieceCall String Nat Nat))} {ds : List RdfDb} {d : RdfDb}
    (s : RSession) (l : List Nat) (h : Trail (RdfSled.PieceCall.prog names ids uc Sample.mN Sample.mE) d0 es ds) (hd : ds.getLast? = some d)
    (hm : moves (rbegun s d) l = true) (he : s.crash = false → (l.foldl turn (rbegun s d)).2.all List.isEmpty = true) :
    Trail (RdfSled.PieceCall.prog names ids uc Sample.mN Sample.mE) d0 (es ++ [rev s]) (ds ++ rmoments (rbegun s d) l) := by
  refine .process (x := fun k => (l.take k).foldl turn (rbegun s d)) h hd ?_ rfl (fun hc th hth => ?_)
  · have := course_turns _ l hm
    intro k hk
    have := this k hk
    split
    · exact CalmStep.step (by simpa using this)
    · simpa using this
  · rw [List.take_length] at hth
    exact List.isEmpty_iff.1 (List.all_eq_true.1 (he hc) th hth)

def rt1 : List Nat := awake (rbegun rproc1 rdfDb0) [0, 0, 0, 1, 0, 0, 0, 0, 1]
/-- The name "eve" and the node are there, the name "bob" is lost. -/
def rtrail2 : List RdfDb := ([rdfDb0] ++ rmoments (rbegun rproc1 rdfDb0) rt1).take 5
def rlost : RdfDb := rtrail2.getLast (by decide)
def rt3 : List Nat := awake (rbegun rproc2 rlost) rturns
def rtrail3 : List RdfDb := rtrail2 ++ rmoments (rbegun rproc2 rlost) rt3
def rtold3 : RdfDb := rtrail3.getLast (by decide)

theorem rtrail3_trail : Trail (RdfSled.PieceCall.prog names ids uc Sample.mN Sample.mE) rdfDb0 [rev rproc1, .loss, rev rproc2] rtrail3 := by
  have h1 := rtrail_process (d0 := rdfDb0) (d := rdfDb0) rproc1 rt1 .start rfl (moves_awake _ _) (fun h => by cases h)
  have h2 : Trail (RdfSled.PieceCall.prog names ids uc Sample.mN Sample.mE) rdfDb0 [rev rproc1, .loss] rtrail2 :=
    .loss h1 (List.take_prefix 5 _) (by decide)
  exact rtrail_process rproc2 rt3 h2 (List.getLast?_eq_some_getLast _) (moves_awake _ _) (fun _ => by decide +kernel)

example : nodesIn rlost = [(.string "alice", 10), (.string "eve", 1)].map .ok ∧
    edgesIn rlost .SPO = [(⟨.string "knows", .string "of", .ulid 5⟩, 7)].map .ok ∧
    nodesIn rtold3 = [(.string "eve", 7)].map .ok ∧
    edgesIn rtold3 .SPO = [(⟨.string "knows", .string "of", .ulid 5⟩, 7), (⟨.string "dave", .string "knows", .string "bob"⟩, 4),
      (⟨.string "bob", .string "of", .string "alice"⟩, 8)].map .ok :=
  ⟨by decide +kernel, by decide +kernel, by decide +kernel, by decide +kernel⟩

example (f : String → Option Ulid) (hf : (SledIndex.impl names ids).Shows rdfDb0.names f) (G : Graph Ulid Nat Nat)
    (hG : SpoShows uc rdfDb0.data G) :
    ∃ ss, Survive [rev rproc1, .loss, rev rproc2] ss ∧ ∃ (f' : String → Option Ulid) (zs : List (Session String Ulid Nat Nat)),
      RdfSled.Did f (ss.map RdfSled.Session.of) zs f' ∧ (SledIndex.impl names ids).Shows rtold3.names f' := by
  obtain ⟨ss, h1, f', zs, G', h2, h3, -⟩ := C94_rdf names_rt ids_rt names_total ids_total uc_rt uc_total rdfDb0_life hf hG
    (fun ss h => C94_rdf_ids (rprocs_new hf) h) rtrail3_trail (List.getLast?_eq_some_getLast _)
  exact ⟨ss, h1, f', zs, h2, h3⟩

end LossSample

open LossSample ConvergeSample Sample Sled in
/-- Nothing is sure to be on disk when a call returns (the crate does not flush): the second process has come to its end, and some of what
it has done is lost. -/
theorem C94_durable_violated :
    (∃ ds, Trail (PieceCall.prog uc max max) Db.empty [ev teller1, ev teller2, .loss] (ds ++ [lost])) ∧ teller2.crash = false ∧
      teller2.Tells (.edge ⟨2, 2, 2⟩ 3) ∧ ∀ o p, .ok (⟨2, 2, 2⟩, p) ∉ iterEdges U64 uc lost o := by
  refine ⟨⟨trail3.dropLast, ?_⟩, rfl, ?_, fun o p => ?_⟩
  · have h1 := trail_process (d0 := Db.empty) (d := Db.empty) teller1 turns1 .start rfl (by decide +kernel) (fun h => by cases h)
    have h2 := trail_process teller2 turns2 h1 (moments_last _ _ _) (moves_awake _ _) (fun _ => by decide +kernel)
    rw [lost, List.dropLast_append_getLast]
    exact .loss h2 (List.take_prefix 7 _) (by decide)
  · exact ⟨_, List.mem_cons_of_mem _ List.mem_cons_self, _, List.mem_cons_self, _, rfl, by show _ ∈ Source.edgePrefix news; decide⟩
  · have e : iterEdges U64 uc lost o = [(⟨1, 5, 2⟩, 9)].map .ok := by cases o <;> decide +kernel
    rw [e]
    simp

end Verif.Props
