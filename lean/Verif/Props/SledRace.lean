import Verif.Proof.SledRace
import Verif.Props.SledConc

/-!
# C72: each ordering by itself, when calls race on the same edges
-/

set_option maxRecDepth 100000

namespace Verif.Props

open Spec Verif.Sled ConcreteId

variable {Id NP EP E : Type} [LinearOrder Id] [ConcreteId Id] [LaidOutId Id]
variable {c : Codecs NP EP} {mN : NP → NP → NP} {mE : EP → EP → EP}

/-! ## C31 -/

omit [LaidOutId Id] in
/-- The orderings have the same id for an edge at every moment, unless some thread removes this very edge while another may write it, or
it is written by `extend`; whatever races there are on other edges, whatever else is in the database, and whatever fails. -/
theorem C31_edge_partial [LawfulId Id] {d0 d : Db} {threads : List (List (Call E Id NP EP))} {t : Triple Id}
    (h0 : ∀ o, d0.idIn o t = d0.idIn .SPO t) (hx : ∀ th ∈ threads, ∀ x ∈ th, x.IsExtend → ¬ x.MayWrite t)
    (hr : threads.Pairwise (fun th th' => ∀ x ∈ th, ∀ y ∈ th', (x.Removes t → ¬ y.MayWrite t) ∧ (y.Removes t → ¬ x.MayWrite t)))
    (hd : Moment c mN mE d0 threads d) (o : EdgeOrder) : d.idIn o t = d.idIn .SPO t := agreeAt_moment h0 hx hr hd o

/-- the race of `C31_violated`, and other edges -/
def race2 : List (List (Call String U64 Nat Nat)) :=
  [[.removeEdge ⟨1, 5, 2⟩, .insertEdge 101 ⟨2, 2, 2⟩ 60], [.insertEdge 100 ⟨1, 5, 2⟩ 50, .mergeEdge 102 ⟨2, 2, 2⟩ 61],
   [.extend (Sample.ul 300) (onlyEdge 60), .removeNode 9]]

def race2Turns : List Nat := [2, 2, 0, 0, 2, 1, 1, 2, 0, 0, 0, 0, 1, 1, 2, 2, 2, 0, 0, 2, 2, 2, 2]

example : done race2 race2Turns = true ∧ (leads race2 race2Turns).idIn .SPO (⟨1, 5, 2⟩ : Triple U64) ≠ none ∧
    (leads race2 race2Turns).idIn .POS (⟨1, 5, 2⟩ : Triple U64) = none ∧
    (leads race2 race2Turns).idIn .SPO (⟨2, 2, 2⟩ : Triple U64) ≠ none := by decide +kernel

example (l : List Nat) (o : EdgeOrder) :
    (leads race2 l).idIn o (⟨2, 2, 2⟩ : Triple U64) = (leads race2 l).idIn .SPO (⟨2, 2, 2⟩ : Triple U64) :=
  C31_edge_partial (Id := U64) (t := ⟨2, 2, 2⟩) (threads := race2) (by intro o; cases o <;> decide +kernel)
    (by simp [race2, Call.IsExtend, Call.MayWrite, Call.writes, Call.drawnFor, onlyEdge])
    (by simp [race2, Call.Removes, Call.MayWrite, Call.writes]) (leads_moment _ _) o

/-! ## C72 -/

/-- Any number of threads with any calls.  When all calls have returned, each of the orderings is what it would be if the edges had been
entered and taken out one after the other, in some order in which each thread does its own in turn; except for the edges of nodes that were
removed. -/
theorem C72_serial (hc : c.RoundTrip) (ht : c.Total) {d0 d : Db} (hd : Decodable c d0) {threads : List (List (Call E Id NP EP))}
    (hs : ∀ th ∈ threads, ∀ x ∈ th, x.Scans) (hf : Final c mN mE d0 threads d) (o : EdgeOrder) :
    ∃ h, Shuffle false (threads.map (List.flatMap Call.events)) h ∧
      ∀ t, (∀ th ∈ threads, ∀ x ∈ th, x.Spares t) → d.idIn o t = h.foldl Ev.on (d0.idIn o) t :=
  Verif.Sled.serial hc ht hd hs hf

theorem db0_decodable : Decodable Sample.uc db0 := ⟨fun _ _ _ => rfl, fun _ _ _ => rfl⟩

example (o : EdgeOrder) : ∃ h, Shuffle false (race2.map (List.flatMap Call.events)) h ∧
    ∀ t, (∀ th ∈ race2, ∀ x ∈ th, x.Spares t) → (leads race2 race2Turns).idIn o t = h.foldl Ev.on (db0.idIn o) t :=
  C72_serial Sample.uc_rt Sample.uc_total db0_decodable (by simp [race2, Call.Scans]) (leads_final (by decide +kernel)) o

/-- The order cannot be the same for all the orderings. -/
theorem C72_no_common_order :
    ∃ d, Final Sample.uc Sample.mN Sample.mE db0 race d ∧ ¬ ∃ h, Shuffle false (race.map (List.flatMap Call.events)) h ∧
      ∀ o t, d.idIn o t = h.foldl Ev.on (db0.idIn o) t := by
  refine ⟨leads race raceTurns, leads_final (by decide +kernel), ?_⟩
  rintro ⟨h, -, hh⟩
  have key : ∀ (l : List (Ev U64)) (b b' : Triple U64 → Option Bytes) (t : Triple U64), b t = b' t →
      l.foldl Ev.on b t = l.foldl Ev.on b' t := by
    intro l
    induction l with
    | nil => exact fun b b' t h => h
    | cons e l ih =>
      intro b b' t h
      refine ih _ _ t ?_
      cases e <;> simp [Ev.on, h]
  have h1 := hh .SPO ⟨1, 5, 2⟩
  have h2 := hh .POS ⟨1, 5, 2⟩
  rw [key h _ (db0.idIn .POS) _ (by decide +kernel), ← h2] at h1
  revert h1
  decide +kernel

/-- An edge which threads write, and nobody removes, is in every ordering at the end, with an id one of them has drawn for it. -/
theorem C72_written (hc : c.RoundTrip) (ht : c.Total) {d0 d : Db} (hd : Decodable c d0) {threads : List (List (Call E Id NP EP))}
    (hs : ∀ th ∈ threads, ∀ x ∈ th, x.Scans) (hf : Final c mN mE d0 threads d) {t : Triple Id}
    (h1 : ∀ th ∈ threads, ∀ x ∈ th, x.Spares t ∧ ¬ x.Removes t) (h2 : ∃ th ∈ threads, ∃ x ∈ th, ∃ v, Ev.put v t ∈ x.events) (o : EdgeOrder) :
    ∃ v, d.idIn o t = some v ∧ ∃ th ∈ threads, ∃ x ∈ th, (v, t) ∈ x.writes := by
  obtain ⟨h, i1, i2⟩ := C72_serial hc ht hd hs hf o
  obtain ⟨th, hth, x, hx, v, hv⟩ := h2
  obtain ⟨v', j1, j2⟩ := fold_put (b := d0.idIn o) (t := t) (fun hm => by
      obtain ⟨th, hth, x, hx, he⟩ := mem_events i1 hm
      exact (h1 th hth x hx).2 (removes_of_mem he)) (mem_of_events i1 hth hx hv)
  refine ⟨v', (i2 t (fun th hth x hx => (h1 th hth x hx).1)).trans j2, ?_⟩
  obtain ⟨th, hth, x, hx, he⟩ := mem_events i1 j1
  exact ⟨th, hth, x, hx, writes_of_mem he⟩

/-- two threads, each extending the store by the same edge -/
example (o : EdgeOrder) : ∃ v, (leads extRace extTurns).idIn o (⟨1, 5, 2⟩ : Triple U64) = some v ∧
    (v = be (Sample.ul 300 0) ∨ v = be (Sample.ul 400 0)) := by
  obtain ⟨v, h1, th, hth, x, hx, h2⟩ := C72_written (t := (⟨1, 5, 2⟩ : Triple U64)) Sample.uc_rt Sample.uc_total db0_decodable
    (by simp [extRace, Call.Scans]) (leads_final (threads := extRace) (l := extTurns) (by decide +kernel))
    (by simp [extRace, Call.Spares, Call.Removes])
    ⟨_, List.mem_cons_self, _, List.mem_cons_self, _, by simp [Call.events, onlyEdge, fails, Call.drawnFor]; rfl⟩ o
  refine ⟨v, h1, ?_⟩
  simp only [extRace, List.mem_cons, List.not_mem_nil, or_false] at hth
  rcases hth with rfl | rfl
  · cases List.mem_singleton.1 hx
    simp only [Call.writes, onlyEdge, Call.drawnFor, List.mem_singleton, Prod.mk.injEq] at h2
    exact .inl h2.1
  · cases List.mem_singleton.1 hx
    simp only [Call.writes, onlyEdge, Call.drawnFor, List.mem_singleton, Prod.mk.injEq] at h2
    exact .inr h2.1

/-- An edge which threads remove, and nobody writes, is in no ordering at the end. -/
theorem C72_removed (hc : c.RoundTrip) (ht : c.Total) {d0 d : Db} (hd : Decodable c d0) {threads : List (List (Call E Id NP EP))}
    (hs : ∀ th ∈ threads, ∀ x ∈ th, x.Scans) (hf : Final c mN mE d0 threads d) {t : Triple Id}
    (h1 : ∀ th ∈ threads, ∀ x ∈ th, x.Spares t ∧ ¬ x.MayWrite t) (h2 : ∃ th ∈ threads, ∃ x ∈ th, x.Removes t) (o : EdgeOrder) :
    d.idIn o t = none := by
  obtain ⟨h, i1, i2⟩ := C72_serial hc ht hd hs hf o
  obtain ⟨th, hth, x, hx, he⟩ := h2
  refine (i2 t (fun th hth x hx => (h1 th hth x hx).1)).trans (fold_del (fun v hm => ?_) (mem_of_events i1 hth hx (mem_of_removes he)))
  obtain ⟨th, hth, x, hx, he⟩ := mem_events i1 hm
  exact (h1 th hth x hx).2 ⟨v, writes_of_mem he⟩

/-- two threads remove an edge while a third one writes others -/
def removers : List (List (Call String U64 Nat Nat)) :=
  [[.removeEdge ⟨1, 5, 2⟩], [.insertEdge 100 ⟨1, 5, 3⟩ 1, .extend (Sample.ul 300) Sample.badSrc], [.removeEdge ⟨1, 5, 2⟩]]

example {d : Db} (h : Final Sample.uc Sample.mN Sample.mE db0 removers d) (o : EdgeOrder) : d.idIn o (⟨1, 5, 2⟩ : Triple U64) = none :=
  C72_removed Sample.uc_rt Sample.uc_total db0_decodable (by simp [removers, Call.Scans]) h
    (by simp [removers, Call.Spares, Call.MayWrite, Call.writes, Call.drawnFor, Sample.badSrc])
    ⟨_, List.mem_cons_self, _, List.mem_cons_self, rfl⟩ o

/-- An edge that only one thread writes or removes is in the end, in every ordering, as this thread alone would have left it. -/
theorem C72_alone (hc : c.RoundTrip) (ht : c.Total) {d0 d : Db} (hd : Decodable c d0) {pre post : List (List (Call E Id NP EP))}
    {mine : List (Call E Id NP EP)} (hs : ∀ th ∈ pre ++ mine :: post, ∀ x ∈ th, x.Scans) (hf : Final c mN mE d0 (pre ++ mine :: post) d)
    {t : Triple Id} (h1 : ∀ th ∈ pre ++ mine :: post, ∀ x ∈ th, x.Spares t)
    (h2 : ∀ th ∈ pre ++ post, ∀ x ∈ th, ¬ x.MayWrite t ∧ ¬ x.Removes t) (o : EdgeOrder) :
    d.idIn o t = (mine.flatMap Call.events).foldl Ev.on (d0.idIn o) t := by
  classical
  obtain ⟨h, i1, i2⟩ := C72_serial hc ht hd hs hf o
  rw [i2 t h1, ← fold_filter, ← fold_filter (mine.flatMap Call.events)]
  rw [List.map_append, List.map_cons] at i1
  have no : ∀ th ∈ pre ++ post, ∀ e ∈ th.flatMap Call.events, ¬ e.About t := by
    intro th hth e he ha
    obtain ⟨x, hx, he⟩ := List.mem_flatMap.1 he
    cases e with
    | put v u => cases ha; exact (h2 th hth x hx).1 ⟨v, writes_of_mem he⟩
    | del u => cases ha; exact (h2 th hth x hx).2 (removes_of_mem he)
  rw [shuffle_filter i1 rfl (fun l hl e he => ?_)]
  rw [← List.map_append] at hl
  obtain ⟨th, hth, rfl⟩ := List.mem_map.1 hl
  exact decide_eq_false (no th hth e he)

/-- beside the race of `C31_violated`, a third thread removes another edge and writes it again -/
def race3 : List (List (Call String U64 Nat Nat)) := race ++ [[.removeEdge ⟨2, 5, 9⟩, .insertEdge 103 ⟨2, 5, 9⟩ 7]]

example {d : Db} (h : Final Sample.uc Sample.mN Sample.mE db0 race3 d) (o : EdgeOrder) :
    d.idIn o (⟨2, 5, 9⟩ : Triple U64) = some (be (103 : U64)) := by
  rw [C72_alone (pre := race) (post := []) Sample.uc_rt Sample.uc_total db0_decodable (by simp [race, Call.Scans]) h
    (by simp [race, Call.Spares]) (by simp [race, Call.MayWrite, Call.writes, Call.Removes]) o]
  simp [Call.events, Ev.on]

end Verif.Props
