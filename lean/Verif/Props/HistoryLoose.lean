import Verif.Proof.HistoryLoose
import Verif.Props.History
import Verif.Props.SledLoose

/-!
# C87: one history explains all moments, whoever races

C76 says of each moment that there is an order of the operations that explains what the first ordering shows.  Here there is one order
for all moments of a course of events.  In it `remove_edge` counts twice: it erases the edge, and once more in its transaction, and what
another thread has written in between has been seen.
-/

set_option linter.unusedSectionVars false
set_option maxRecDepth 100000

namespace Verif.Props

open Verif Spec ConcreteId Sled

/-! ## C87 One history explains all moments, whoever races -/

section
variable {Id NP EP E : Type} [LinearOrder Id] [ConcreteId Id] [LawfulId Id]
variable {mN : NP → NP → NP} {mE : EP → EP → EP} {c : Codecs NP EP}

/-- Whatever calls threads make: what the first ordering shows at all moments is explained by one history, in which every call has
its effects between the moments when it begins and when it returns.  Edges which are not raced for are in every ordering. -/
theorem C87_store {part : Bool} {n m : Nat} {s : SledStore Id} {G : Graph Id NP EP} (hc : c.RoundTrip) (hb : part = true ∨ c.Total)
    (hs : SledStore.Reach E c mN mE n m s) (hG : Shows (s.obs c) G) {threads : List (List (PieceCall E Id NP EP))}
    (hx : ∀ th ∈ threads, ∀ x ∈ th, ¬ x.1.IsScan) (hi : DistinctIds s.db (calls threads))
    {x : Nat → Db × List (List (Prog Db Unit))} {N : Nat} (hC : Course part x N)
    (h0 : x 0 = (s.db, threads.map (List.map (PieceCall.prog c mN mE)))) :
    ∃ h cut H, Tells part (PieceCall.prog c mN mE) (fun y => y.1.acts)
      (LooseStep c.okN c.okE mN mE (FromRaced (calls threads)) (ToRaced (calls threads))) (ShowsBut c (ToRaced (calls threads)))
      G threads x N h cut H := by
  have inv := (hs.ok hc).inv
  have e1 : Programs.calls (threads.map (List.map (fun x => (x.prog c mN mE, x.1)))) = calls threads := by
    simp [Programs.calls, calls, Function.comp_def]
  have e2 : Programs.start (threads.map (List.map (fun x => (x.prog c mN mE, x.1)))) =
      threads.map (List.map (PieceCall.prog c mN mE)) := by
    simp [Programs.start, Function.comp_def]
  rw [← e2] at h0
  rw [← hs.graph_of_shows hc hG]
  exact history_loose e1 (ready_start inv hi rfl) (fun t _ o => inv.same o t) (fun _ h => h) (fun _ h h' => h (.inl h'))
    (fun _ h => ⟨fun h' => h (.inr (.inl h')), fun h' => h (.inr (.inr h'))⟩) (fineS_pieces hc hb inv hi hx)
    (fineX_pieces hc hb inv hi hx) (by simp [Function.comp_def]) hC h0

/-- Also if each scan is one step. -/
theorem C87_scans {part : Bool} {n m : Nat} {s : SledStore Id} {G : Graph Id NP EP} (hc : c.RoundTrip) (hb : part = true ∨ c.Total)
    (hs : SledStore.Reach E c mN mE n m s) (hG : Shows (s.obs c) G) {threads : List (List (Call E Id NP EP))}
    (hx : ∀ th ∈ threads, ∀ x ∈ th, ¬ x.IsScan) (hi : DistinctIds s.db threads)
    {x : Nat → Db × List (List (Prog Db Unit))} {N : Nat} (hC : Course part x N) (h0 : x 0 = start c mN mE s.db threads) :
    ∃ h cut H, Tells part (Call.prog c mN mE) Call.acts
      (LooseStep c.okN c.okE mN mE (FromRaced threads) (ToRaced threads)) (ShowsBut c (ToRaced threads)) G threads x N h cut H := by
  have inv := (hs.ok hc).inv
  have e1 : Programs.calls (threads.map (List.map (fun x => (x.prog c mN mE, x)))) = threads := by
    simp [Programs.calls, Function.comp_def]
  have e2 : (s.db, Programs.start (threads.map (List.map (fun x => (x.prog c mN mE, x))))) = start c mN mE s.db threads := by
    simp [Programs.start, start, Function.comp_def]
  rw [← e2] at h0
  rw [← hs.graph_of_shows hc hG]
  exact history_loose e1 (ready_start inv hi rfl) (fun t _ o => inv.same o t) (fun _ h => h) (fun _ h h' => h (.inl h'))
    (fun _ h => ⟨fun h' => h (.inr (.inl h')), fun h' => h (.inr (.inr h'))⟩) (fineS_calls hc hb inv hi hx)
    (fineX_calls hc hb inv hi hx) (by simp [Function.comp_def]) hC h0

/-- If no thread removes a node, all operations do what they should. -/
theorem C87_strict {S C : Type} {part : Bool} {prog : C → Prog S Unit} {ops : C → List (Op E Id NP EP)} {shows : S → Graph Id NP EP → Prop}
    {okN : NP → Bool} {okE : EP → Bool} {WS WO : Triple Id → Prop} {G : Graph Id NP EP} {threads : List (List C)}
    {x : Nat → S × List (List (Prog S Unit))} {N : Nat} {h : List (Nat × Nat × Op E Id NP EP)} {cut : Nat → Nat} {H : Nat → Graph Id NP EP}
    (ht : Tells part prog ops (LooseStep okN okE mN mE WS WO) shows G threads x N h cut H)
    (hn : ∀ th ∈ threads, ∀ y ∈ th, ∀ n, .removeNode n ∉ ops y) :
    Explains part prog ops (fun G op => (op.step okN okE mN mE G).1) shows G threads x N h cut := by
  refine Spec.Tells.explains (g := H) { ht with next := fun n e he => ?_ }
  have h1 := ht.next n e he
  obtain ⟨th, y, h2, h3⟩ := ht.mine e (List.mem_of_getElem? he)
  have h4 : e.2.2 ∈ ops y := (ht.parts _ th _ y h2 h3).subset
    (List.mem_map.2 ⟨e, List.mem_filter.2 ⟨List.mem_of_getElem? he, by simp⟩, rfl⟩)
  revert h1 h4
  generalize e.2.2 = op
  intro h1 h4
  cases op with
  | removeNode n => exact absurd h4 (hn th (List.mem_of_getElem? h2) y (List.mem_of_getElem? h3) n)
  | _ => exact h1

end

/-! ## `remove_edge` counts twice -/

/-- one thread removes an edge while the other inserts it -/
def backRace : List (List (Call String U64 Nat Nat)) := [[.removeEdge ⟨1, 5, 2⟩], [.insertEdge 100 ⟨1, 5, 2⟩ 70]]

theorem backRace_noScan : ∀ th ∈ backRace, ∀ x ∈ th, ¬ x.IsScan := by
  simp only [backRace, List.mem_cons, List.not_mem_nil, or_false, forall_eq_or_imp, forall_eq]
  exact ⟨id, id⟩

theorem backRace_distinct : DistinctIds db0 backRace := ⟨by decide +kernel, by decide +kernel⟩

/-- the edge is inserted after it has been erased from SPO, and before the transaction -/
def backTurns : List Nat := [0, 1, 1, 0]

def backCourse (k : Nat) : Db × List (List (Prog Db Unit)) :=
  (backTurns.take k).foldl turn (start Sample.uc Sample.mN Sample.mE db0 backRace)

theorem backCourse_course : Course false backCourse 4 := course_turns _ backTurns (by decide +kernel)

/-- what SPO shows of the edge -/
theorem backCourse_edge {k : Nat} {l : List (Triple U64 × Nat)} (e : iterEdges U64 Sample.uc (backCourse k).1 .SPO = l.map .ok)
    {G : Graph U64 Nat Nat} (h : SpoShows Sample.uc (backCourse k).1 G) (p : Nat) : (⟨1, 5, 2⟩, p) ∈ l ↔ G.edges ⟨1, 5, 2⟩ = some p := by
  obtain ⟨l', h1, -, h2⟩ := h.edges
  have hl := List.map_injective_iff.2 (fun a b h => Except.ok.inj h) (h1.symm.trans e)
  subst hl
  exact h2 ⟨1, 5, 2⟩ p

/-- The edge is there, gone, there again, and gone again: two operations do not explain that, whatever they do to the graph, and whenever
they are done. -/
theorem C87_once_violated : DistinctIds db0 backRace ∧ Course false backCourse 4 ∧
    backCourse 0 = start Sample.uc Sample.mN Sample.mE db0 backRace ∧
    ∀ (st : Graph U64 Nat Nat → Op String U64 Nat Nat → Graph U64 Nat Nat → Prop) (G : Graph U64 Nat Nat) h cut H,
      ¬ Tells true (Call.prog Sample.uc Sample.mN Sample.mE) Call.items st (fun d G => SpoShows Sample.uc d G) G backRace backCourse 4 h cut H := by
  refine ⟨backRace_distinct, backCourse_course, rfl, fun st G h cut H ht => ?_⟩
  have hlen : h.length ≤ 2 := by
    have p1 := (ht.parts 0 _ 0 _ rfl rfl).length_le
    have p2 := (ht.parts 1 _ 0 _ rfl rfl).length_le
    have e := List.length_eq_length_filter_add (l := h) (fun e => e.1 == 0 && e.2.1 == 0)
    have e' : h.filter (fun e => !(e.1 == 0 && e.2.1 == 0)) = h.filter (fun e => e.1 == 1 && e.2.1 == 0) := by
      refine List.filter_congr (fun e he => ?_)
      obtain ⟨th, y, h1, h2⟩ := ht.mine e he
      obtain ⟨i, j, o⟩ := e
      match i, h1 with
      | 0, h1 =>
        cases Option.some.inj h1
        match j, h2 with
        | 0, _ => rfl
        | j + 1, h2 => simp at h2
      | 1, h1 =>
        cases Option.some.inj h1
        match j, h2 with
        | 0, _ => rfl
        | j + 1, h2 => simp at h2
      | i + 2, h1 => simp [backRace] at h1
    rw [e'] at e
    simp only [doneBy, List.length_map] at p1 p2
    change _ ≤ 1 at p1
    change _ ≤ 1 at p2
    omega
  have s0 := backCourse_edge (k := 0) (l := [(⟨1, 5, 2⟩, 4), (⟨2, 2, 2⟩, 3), (⟨2, 5, 9⟩, 8)]) (by decide +kernel) (ht.shows 0 (by omega)) 4
  have s1 := backCourse_edge (k := 1) (l := [(⟨2, 2, 2⟩, 3), (⟨2, 5, 9⟩, 8)]) (by decide +kernel) (ht.shows 1 (by omega))
  have s2 := backCourse_edge (k := 2) (l := [(⟨1, 5, 2⟩, 70), (⟨2, 2, 2⟩, 3), (⟨2, 5, 9⟩, 8)]) (by decide +kernel) (ht.shows 2 (by omega)) 70
  have s4 := backCourse_edge (k := 4) (l := [(⟨2, 2, 2⟩, 3), (⟨2, 5, 9⟩, 8)]) (by decide +kernel) (ht.shows 4 (by omega))
  have n1 : cut 0 ≠ cut 1 := fun e => by
    have := (s1 4).2 (e ▸ s0.1 (by simp))
    simp at this
  have n2 : cut 1 ≠ cut 2 := fun e => by
    have := (s1 70).2 (e ▸ s2.1 (by simp))
    simp at this
  have n3 : cut 2 ≠ cut 4 := fun e => by
    have := (s4 70).2 (e ▸ s2.1 (by simp))
    simp at this
  have m1 := ht.mono 0 (by omega)
  have m2 := ht.mono 1 (by omega)
  have m3 := ht.mono 2 (by omega)
  have m4 := ht.mono 3 (by omega)
  have m5 := ht.stop
  simp only [Nat.zero_add, Nat.reduceAdd] at m1 m2 m3 m4
  omega

/-! ## examples -/

/-- the same course, with `remove_edge` counting twice -/
example (G : Graph U64 Nat Nat) (hG : Shows (Sample.sstore.obs Sample.uc) G) :
    ∃ h cut H, Tells false (Call.prog Sample.uc Sample.mN Sample.mE) Call.acts
      (LooseStep Sample.uc.okN Sample.uc.okE Sample.mN Sample.mE (FromRaced backRace) (ToRaced backRace)) (ShowsBut Sample.uc (ToRaced backRace))
      G backRace backCourse 4 h cut H :=
  C87_scans Sample.uc_rt (.inr Sample.uc_total) db0_reach hG backRace_noScan backRace_distinct backCourse_course rfl

/-- no node is removed -/
example (G : Graph U64 Nat Nat) (hG : Shows (Sample.sstore.obs Sample.uc) G) :
    ∃ h cut, Explains false (Call.prog Sample.uc Sample.mN Sample.mE) Call.acts
      (fun G op => (op.step Sample.uc.okN Sample.uc.okE Sample.mN Sample.mE G).1) (ShowsBut Sample.uc (ToRaced backRace))
      G backRace backCourse 4 h cut := by
  obtain ⟨h, cut, H, ht⟩ := C87_scans Sample.uc_rt (.inr Sample.uc_total) db0_reach hG backRace_noScan backRace_distinct backCourse_course rfl
  refine ⟨h, cut, C87_strict ht ?_⟩
  simp [backRace, Call.acts, Call.items, Call.ops]

/-- edges that are left by the removal of a node -/
example (G : Graph U64 Nat Nat) (hG : Shows (Sample.sstore.obs Sample.uc) G) :
    ∃ h cut H, Tells false (Call.prog Sample.uc Sample.mN Sample.mE) Call.acts
      (LooseStep Sample.uc.okN Sample.uc.okE Sample.mN Sample.mE (FromRaced fromRace) (ToRaced fromRace)) (ShowsBut Sample.uc (ToRaced fromRace))
      G fromRace (fun k => ((awake (start Sample.uc Sample.mN Sample.mE db0 fromRace) fromRaceTurns).take k).foldl turn
        (start Sample.uc Sample.mN Sample.mE db0 fromRace)) (awake (start Sample.uc Sample.mN Sample.mE db0 fromRace) fromRaceTurns).length h cut H :=
  C87_scans Sample.uc_rt (.inr Sample.uc_total) db0_reach hG fromRace_noScan fromRace_distinct (course_turns _ _ (moves_awake _ _)) rfl

/-- `extend`, scans that read piece by piece -/
example (G : Graph U64 Nat Nat) (hG : Shows (Sample.sstore.obs Sample.uc) G) :
    ∃ h cut H, Tells false (PieceCall.prog Sample.uc Sample.mN Sample.mE) (fun y => y.1.acts)
      (LooseStep Sample.uc.okN Sample.uc.okE Sample.mN Sample.mE (FromRaced (calls bulk)) (ToRaced (calls bulk)))
      (ShowsBut Sample.uc (ToRaced (calls bulk))) G bulk (fun k => ((bulkTurns.take 13).take k).foldl turn bulkStart) 13 h cut H :=
  C87_store Sample.uc_rt (.inr Sample.uc_total) db0_reach hG bulk_noScan bulk_distinct
    (course_turns _ (bulkTurns.take 13) (by decide +kernel)) rfl

end Verif.Props
