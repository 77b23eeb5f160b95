import Verif.Proof.SledUses
import Verif.Proof.SledReadingP
import Verif.Proof.RdfSledLoose
import Verif.Proof.RdfSplit
import Verif.Model.RdfSledScan

/-! # Reading an RDF store on sled while others write to it -/

set_option linter.unusedSectionVars false

namespace Verif

open Spec ConcreteId

namespace RdfSled

variable {NP EP E α β : Type} {cl : Codec String} {cr : Codec Ulid} {c : Codecs NP EP} {mN : NP → NP → NP} {mE : EP → EP → EP}
variable {f0 : Names} {B : Ulid → Prop}

/-! ## the ids in use have names, or have been in use without -/

/-- the ids in use have names or are in `B` -/
def Known (B : Ulid → Prop) (f : Names) (d : Db) : Prop := ∀ u : Ulid, Sled.Uses d u → B u ∨ ∃ s, f s = some u

theorem callIn_puts {f : Names} {y : Sled.Call E Entity NP EP} {z : Sled.Call E Ulid NP EP} (h : callIn f y = some z) :
    Sled.One z ∧ ∀ u ∈ Sled.puts z, ∃ e ∈ Sled.puts y, idIn f e = some u := by
  have tr : ∀ {t : Triple Entity} {v : Triple Ulid}, tripleIn f t = some v → ∀ u ∈ [v.sub, v.pred, v.obj],
      ∃ e ∈ [t.sub, t.pred, t.obj], idIn f e = some u := by
    intro t v h u hu
    unfold tripleIn at h
    split at h
    · cases h
      rename_i h1 h2 h3
      simp only [List.mem_cons, List.not_mem_nil, or_false] at hu
      rcases hu with rfl | rfl | rfl
      · exact ⟨_, by simp, h1⟩
      · exact ⟨_, by simp, h2⟩
      · exact ⟨_, by simp, h3⟩
    · cases h
  cases y with
  | insertNode e p =>
    obtain ⟨u, hu, rfl⟩ := Option.map_eq_some_iff.1 h
    exact ⟨trivial, fun v hv => ⟨e, by simp [Sled.puts], by rw [hu, List.mem_singleton.1 hv]⟩⟩
  | mergeNode e p =>
    obtain ⟨u, hu, rfl⟩ := Option.map_eq_some_iff.1 h
    exact ⟨trivial, fun v hv => ⟨e, by simp [Sled.puts], by rw [hu, List.mem_singleton.1 hv]⟩⟩
  | removeNode e => obtain ⟨u, _, rfl⟩ := Option.map_eq_some_iff.1 h; exact ⟨trivial, fun v hv => by cases hv⟩
  | removeEdge t => obtain ⟨u, _, rfl⟩ := Option.map_eq_some_iff.1 h; exact ⟨trivial, fun v hv => by cases hv⟩
  | insertEdge i t p =>
    obtain ⟨v, h0, h2⟩ := Option.bind_eq_some_iff.1 h
    obtain ⟨u, hu, rfl⟩ := Option.map_eq_some_iff.1 h2
    exact ⟨trivial, tr hu⟩
  | mergeEdge i t p =>
    obtain ⟨v, h0, h2⟩ := Option.bind_eq_some_iff.1 h
    obtain ⟨u, hu, rfl⟩ := Option.map_eq_some_iff.1 h2
    exact ⟨trivial, tr hu⟩
  | _ => cases h

theorem wants_puts {x : Call E NP EP} {y : Sled.Call E Entity NP EP} (hy : y ∈ x.wants) : ∀ e ∈ Sled.puts y, e ∈ x.op.entities := by
  obtain ⟨op, ids⟩ := x
  intro e he
  cases op with
  | insertNode e' p => rw [List.mem_singleton.1 hy] at he; exact he
  | mergeNode e' p => rw [List.mem_singleton.1 hy] at he; exact he
  | insertEdge t p => rw [List.mem_singleton.1 hy] at he; exact he
  | mergeEdge t p => rw [List.mem_singleton.1 hy] at he; exact he
  | removeNode e' => rw [List.mem_singleton.1 hy] at he; cases he
  | removeEdge t => rw [List.mem_singleton.1 hy] at he; cases he
  | extend src =>
    refine List.mem_append.2 ?_
    rcases List.mem_append.1 hy with h | h
    · obtain ⟨a, ha, rfl⟩ := List.mem_map.1 h
      exact .inl (mem_itemEntities (mem_oks ha) he)
    · split at h
      · cases h
      · obtain ⟨v, a, ha, rfl⟩ := mem_edgeCalls h
        exact .inr (mem_itemEntities (mem_oks ha) he)
  | merge src =>
    refine List.mem_append.2 ?_
    rcases List.mem_append.1 hy with h | h
    · obtain ⟨a, ha, rfl⟩ := List.mem_map.1 h
      exact .inl (mem_itemEntities (mem_oks ha) he)
    · split at h
      · cases h
      · obtain ⟨v, a, ha, rfl⟩ := mem_edgeCalls h
        exact .inr (mem_itemEntities (mem_oks ha) he)

/-- the calls a thread has made are among those it was to make -/
theorem did_mem {b : Bool} {f f' : Names} {th : List (PieceCall E NP EP)} {zs : List (Sled.PieceCall E Ulid NP EP)}
    (h : ThreadDid b f f' th zs) {z : Sled.PieceCall E Ulid NP EP} (hz : z ∈ zs) :
    ∃ x ∈ th, ∃ y ∈ x.1.wants, callIn f' y = some z.1 := by
  obtain ⟨ls, h, rfl⟩ := h
  obtain ⟨l, hl, hzl⟩ := List.mem_flatten.1 hz
  clear hz
  have : ∃ x ∈ th, CallDid b f f' th x l := by
    generalize hth : CallDid b f f' th = Q at h ⊢
    clear hth hzl
    induction h with
    | nil => cases hl
    | cons h1 _ ih =>
      rcases List.mem_cons.1 hl with rfl | hl
      · exact ⟨_, by simp, h1⟩
      · obtain ⟨x, hx, h⟩ := ih hl
        exact ⟨x, List.mem_cons_of_mem _ hx, h⟩
  obtain ⟨x, hx, h1, -⟩ := this
  obtain ⟨y, hy, e⟩ := List.mem_map.1 (h1.subset (List.mem_map_of_mem hzl))
  obtain ⟨y', hy', rfl⟩ := List.mem_map.1 hy
  obtain ⟨w, hw, e⟩ := Option.map_eq_some_iff.1 e
  cases e
  exact ⟨x, hx, y', hy', hw⟩

theorem inv_known {d0 : Db} {threads : List (List (PieceCall E NP EP))} {d : RdfDb} {qs : List (List (Prog RdfDb Unit))} {f : Names}
    {L : List (Rec E NP EP)} (h : Inv cl cr c mN mE true f0 d0 (threads.map (fun _ => ([], []))) threads d qs f L)
    (h0 : Known B f0 d0) (hB : ∀ th ∈ threads, ∀ x ∈ th, ∀ u ∈ ulids x.1.op.entities, B u) : Known B f d.data := by
  have hs := steps_of_stepsB h.data
  have key := (Prog.keeps_steps (P := Sled.NewIn (fun u => B u ∨ ∃ s, f s = some u)) (fun d => .refl d) (fun _ _ _ => .trans)
    (fun q hq p hp => ?_) hs).1
  · intro u hu
    rcases key u hu with hu | hu
    · exact (h0 u hu).imp id (fun ⟨s, hs⟩ => ⟨s, h.keeps s u hs⟩)
    · exact hu
  · obtain ⟨R, hR, rfl⟩ := List.mem_map.1 hq
    obtain ⟨z, hz, rfl⟩ := List.mem_map.1 hp
    obtain ⟨x, hx, y, hy, e⟩ := did_mem ((h.each R hR).did (.inl rfl)) hz
    obtain ⟨h1, h2⟩ := callIn_puts e
    refine Sled.new_piece mN mE h1 (fun u hu => ?_)
    obtain ⟨e, he, hu⟩ := h2 u hu
    have hm := wants_puts hy e he
    cases e with
    | string s => exact .inr ⟨s, hu⟩
    | ulid v =>
      cases hu
      exact .inl (hB R.th (by rw [← h.ths]; exact List.mem_map_of_mem hR) x hx _ (mem_ulids.2 hm))

/-- the names of an id at two moments, it being in use at the first -/
theorem lookup_same {i i' : IndexDb} {f f' : Names} (h : (SledIndex.impl cl cr).Shows i f) (h' : (SledIndex.impl cl cr).Shows i' f')
    {u : Ulid} (hu : ∀ s, f s = some u ↔ f' s = some u) :
    ∃ e, Rdf.lookupId (SX := SErr) (SledIndex.impl cl cr) i u = .ok e ∧ Rdf.lookupId (SX := SErr) (SledIndex.impl cl cr) i' u = .ok e := by
  obtain ⟨e, h1, r1⟩ := h.lookupId (SX := SErr) u
  obtain ⟨e', h2, r2⟩ := h'.lookupId (SX := SErr) u
  refine ⟨e, h1, ?_⟩
  rw [h2]
  have : Ref f e' u := by
    cases r2 with
    | name h => exact .name ((hu _).2 h)
    | id h => exact .id (fun s hs => h s ((hu s).1 hs))
  rw [this.snd (fun h1 h2 => h.inj h1 h2) r1]

section
variable (hl : cl.RoundTrips) (hr : cr.RoundTrips) (tl : cl.Total) (tr : cr.Total) (hc : c.RoundTrip)
include hl hr tl tr hc

/-- what is known about two moments of a process -/
theorem two_moments {d0 : RdfDb} (hd0 : (SledIndex.impl cl cr).Shows d0.names f0) (hj0 : Sled.WellFormed Ulid c d0.data)
    {threads : List (List (PieceCall E NP EP))} {D : Nat → RdfDb} (hm : Moments cl cr c mN mE d0 threads D) {m m' : Nat} (hmm : m ≤ m') :
    ∃ f f' qs qs' L L', Inv cl cr c mN mE true f0 d0.data (threads.map (fun _ => ([], []))) threads (D m) qs f L ∧
      Inv cl cr c mN mE true f0 (D m).data (L.map (fun R => (R.r, R.calls))) threads (D m') qs' f' L' ∧ Keeps f f' := by
  obtain ⟨X, hX0, hX, hD⟩ := hm
  have first : StepsB true (d0, threads.map (List.map (PieceCall.prog cl cr c mN mE))) (X m) := by
    clear hmm
    induction m with
    | zero => exact stepsB_of_steps hX0
    | succ m ih => exact ih.trans (stepsB_of_steps (hX m))
  have second : StepsB true (X m) (X m') := by
    induction hmm with
    | refl => exact .refl
    | step _ ih => exact ih.trans (stepsB_of_steps (hX _))
  obtain ⟨f, L, h1⟩ := simulate hl hr tl tr hc (.inl rfl) hd0 hj0 (.inl rfl) (fun _ _ => .inl rfl) first
  obtain ⟨f', L', h2, h3⟩ := simulate_from hl hr tl tr hc (.inl rfl) (.inl rfl) h1.rebase second
  rw [hD m, hD m']
  exact ⟨f, f', _, _, L, L', h1, h2, h3⟩

theorem same_names {d0 : RdfDb} (hd0 : (SledIndex.impl cl cr).Shows d0.names f0) (hj0 : Sled.WellFormed Ulid c d0.data)
    (h0 : Known B f0 d0.data) {threads : List (List (PieceCall E NP EP))}
    (hB : ∀ th ∈ threads, ∀ x ∈ th, ∀ u ∈ ulids x.1.op.entities, B u) (hn : ∀ u ∈ threads.flatMap mine, ¬ B u)
    {D : Nat → RdfDb} (hm : Moments cl cr c mN mE d0 threads D) {m m' : Nat} (hmm : m ≤ m') {u : Ulid} (hu : Sled.Uses (D m).data u) :
    ∃ e, Rdf.lookupId (SX := SErr) (SledIndex.impl cl cr) (D m).names u = .ok e ∧
      Rdf.lookupId (SX := SErr) (SledIndex.impl cl cr) (D m').names u = .ok e := by
  obtain ⟨f, f', qs, qs', L, L', h1, h2, h3⟩ := two_moments hl hr tl tr hc hd0 hj0 hm hmm
  refine lookup_same h1.shows h2.shows (fun s => ⟨h3 s u, fun hs => ?_⟩)
  rcases inv_known h1 h0 hB u hu with hb | ⟨s', hs'⟩
  · rcases h2.origin s u hs with h | ⟨th, hth, x, hx, -, hxu⟩
    · exact h1.keeps s u h
    · exact absurd hb (hn u (List.mem_flatMap.2 ⟨th, hth, List.mem_flatMap.2 ⟨x, hx, hxu⟩⟩))
  · rw [h2.shows.inj hs (h3 s' u hs')]
    exact hs'

/-- before a process is started -/
theorem sessions_known (ss : List (Session E NP EP)) {d d' : RdfDb} {f : Names} (hd : (SledIndex.impl cl cr).Shows d.names f)
    (hw : Sled.WellFormed Ulid c d.data) (h0 : Known B f d.data)
    (hB : ∀ x ∈ everyCall ss, ∀ u ∈ ulids x.op.entities, B u)
    (h : Runs (fun d s d' => Session.Leads cl cr c mN mE d s d') d ss d') :
    ∃ f', (SledIndex.impl cl cr).Shows d'.names f' ∧ Sled.WellFormed Ulid c d'.data ∧ Known B f' d'.data := by
  induction ss generalizing d f with
  | nil => cases h; exact ⟨f, hd, hw, h0⟩
  | cons s ss ih =>
    obtain ⟨d1, h1, h2⟩ := h
    have hs : ∃ rest, StepsB true (d, s.threads.map (List.map (PieceCall.prog cl cr c mN mE))) (d1, rest) := by
      unfold Session.Leads at h1
      split at h1
      · obtain ⟨rest, h⟩ := h1; exact ⟨rest, stepsB_of_steps h⟩
      · obtain ⟨rest, h, -⟩ := h1; exact ⟨rest, stepsB_of_steps h.steps⟩
    obtain ⟨rest, hs⟩ := hs
    obtain ⟨f1, L, hI⟩ := simulate hl hr tl tr hc (.inl rfl) hd hw (.inl rfl) (fun _ _ => .inl rfl) hs
    refine ih hI.shows hI.well (inv_known hI h0 (fun th hth x hx u hu => ?_)) (fun x hx => hB x ?_) h2
    · refine hB x.1 ?_ u hu
      simp only [everyCall, List.flatMap_cons, List.map_append, List.mem_append]
      exact .inl (List.mem_map_of_mem (List.mem_flatten.2 ⟨th, hth, hx⟩))
    · simp only [everyCall, List.flatMap_cons, List.map_append, List.mem_append]
      exact .inr hx

end

end RdfSled

end Verif
