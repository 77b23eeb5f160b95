import Verif.Proof.HistorySled
import Verif.Props.SledBulk
import Verif.Props.RdfSledConc

/-!
# C85: one history explains all moments

C61, C74 and C75 say of each moment, or of the end, that there is an order of the operations that explains it.  Here there is one order
for all moments of a course of events, in which every call has its effect between the moments when it begins and when it returns.
-/

set_option linter.unusedSectionVars false
set_option maxRecDepth 100000

namespace Verif.Props

open Verif Spec ConcreteId Sled

/-! ## C85 One history explains all moments -/

/-- In a history that explains a course, what a call does that has returned at some moment comes before what another one does that has
not begun at this moment. -/
theorem C85_before {S O C : Type} {part : Bool} {prog : C → Prog S Unit} {ops : C → List O} {threads : List (List C)} {x : Nat → S × List (List (Prog S Unit))} {N : Nat} {h : List (Nat × Nat × O)} {cut : Nat → Nat}
    (he : Timed part prog ops threads x N h cut) {k : Nat} (hk : k ≤ N)
    {i j : Nat} {th : List C} {l : List (Prog S Unit)} {y : C} (hi : threads[i]? = some th) (hl : (x k).2[i]? = some l)
    (hj : th[j]? = some y) (hp : j + l.length < th.length)
    {i' j' : Nat} {th' : List C} {l' : List (Prog S Unit)} {y' : C} (hi' : threads[i']? = some th') (hl' : (x k).2[i']? = some l')
    (hj' : th'[j']? = some y') (hf : (th'.drop j').map prog <:+ l') :
    h.Pairwise (fun e e' => ¬ (e.1 = i' ∧ e.2.1 = j' ∧ e'.1 = i ∧ e'.2.1 = j)) := by
  have h1 := doneBy_nil (he.future k hk i' th' l' j' y' hi' hl' hj' hf)
  have h2 : ∀ e ∈ h.drop (cut k), ¬ (e.1 = i ∧ e.2.1 = j) := by
    refine doneBy_nil ?_
    have h3 := (he.past k hk i th l j y hi hl hj hp).1
    rw [show doneBy i j h = doneBy i j (h.take (cut k)) ++ doneBy i j (h.drop (cut k)) by
      rw [← doneBy_append, List.take_append_drop]] at h3
    exact List.append_right_eq_self.1 h3.symm
  rw [← List.take_append_drop (cut k) h, List.pairwise_append]
  refine ⟨List.pairwise_of_forall_mem_list (fun e he e' he' ⟨a, b, _⟩ => h1 e he ⟨a, b⟩),
    List.pairwise_of_forall_mem_list (fun e he e' he' ⟨_, _, a, b⟩ => h2 e' he' ⟨a, b⟩), fun e he e' he' ⟨a, b, _⟩ => h1 e he ⟨a, b⟩⟩

section
variable {Id NP EP E : Type} [LinearOrder Id] [ConcreteId Id] [LawfulId Id]
variable {mN : NP → NP → NP} {mE : EP → EP → EP} {c : Codecs NP EP}

/-- Calls on one store, `remove_node` among them, its scans reading piece by piece; `part`: calls can fail. -/
theorem C85_store {part : Bool} {n m : Nat} {s : SledStore Id} {G : Graph Id NP EP} (hc : c.RoundTrip) (hb : part = true ∨ c.Total)
    (hs : SledStore.Reach E c mN mE n m s) (hG : Shows (s.obs c) G) {threads : List (List (PieceCall E Id NP EP))}
    (hx : ∀ th ∈ threads, ∀ x ∈ th, x.1.Whole) (hi : DistinctIds s.db (calls threads)) (hr : NoRace (calls threads))
    (hn : NoNodeRace (calls threads)) {x : Nat → Db × List (List (Prog Db Unit))} {N : Nat} (hC : Course part x N)
    (h0 : x 0 = (s.db, threads.map (List.map (PieceCall.prog c mN mE)))) :
    ∃ h cut, Explains part (PieceCall.prog c mN mE) (fun y => y.1.ops) (fun G op => (op.step c.okN c.okE mN mE G).1)
      (fun d G => Shows (Sled.obs c d) G) G threads x N h cut := by
  have e1 : Programs.calls (threads.map (List.map (fun x => (x.prog c mN mE, x.1)))) = calls threads := by
    simp [Programs.calls, calls, Function.comp_def]
  have e2 : Programs.start (threads.map (List.map (fun x => (x.prog c mN mE, x.1)))) =
      threads.map (List.map (PieceCall.prog c mN mE)) := by
    simp [Programs.start, Function.comp_def]
  rw [← e1] at hi hr hn
  rw [← e2] at h0
  rw [← hs.graph_of_shows hc hG]
  exact history_programs (hs.ok hc).inv (fun th hth e he => by
    obtain ⟨th, hth', rfl⟩ := List.mem_map.1 hth
    obtain ⟨x, hx', rfl⟩ := List.mem_map.1 he
    exact fine_piece hc hb x (hx th hth' x hx')) hi hr hn (by simp [Function.comp_def]) hC h0

/-- `extend` among them, which is one operation per item: of nodes, and of edges that no thread writes by `extend`. -/
theorem C85_bulk {part : Bool} {n m : Nat} {s : SledStore Id} {G : Graph Id NP EP} (hc : c.RoundTrip) (hb : part = true ∨ c.Total)
    (hs : SledStore.Reach E c mN mE n m s) (hG : Shows (s.obs c) G) {threads : List (List (PieceCall E Id NP EP))}
    (hx : ∀ th ∈ threads, ∀ x ∈ th, ¬ x.1.IsScan) (hi : DistinctIds s.db (calls threads)) (hr : NoRace (calls threads))
    (hn : NoNodeRace (calls threads)) {x : Nat → Db × List (List (Prog Db Unit))} {N : Nat} (hC : Course part x N)
    (h0 : x 0 = (s.db, threads.map (List.map (PieceCall.prog c mN mE)))) :
    ∃ h cut, Explains part (PieceCall.prog c mN mE) (fun y => y.1.items) (fun G op => (op.step c.okN c.okE mN mE G).1)
      (fun d G => (∀ n p, .ok (n, p) ∈ iterVertices Id c d ↔ G.nodes n = some p) ∧
        ∀ o t p, ¬ Extended (calls threads) t → (.ok (t, p) ∈ iterEdges Id c d o ↔ G.edges t = some p)) G threads x N h cut := by
  have inv := (hs.ok hc).inv
  have e1 : Programs.calls (threads.map (List.map (fun x => (x.prog c mN mE, x.1)))) = calls threads := by
    simp [Programs.calls, calls, Function.comp_def]
  have e2 : Programs.start (threads.map (List.map (fun x => (x.prog c mN mE, x.1)))) =
      threads.map (List.map (PieceCall.prog c mN mE)) := by
    simp [Programs.start, Function.comp_def]
  rw [← e2] at h0
  rw [← hs.graph_of_shows hc hG]
  exact history_bulk e1 inv hi (fineX_pieces hc hb inv hi hx) hr hn (fun y : PieceCall E Id NP EP => ⟨y.1, rfl⟩) (by simp [Function.comp_def]) hC h0

end

section
open RdfSled

variable {NP EP E : Type} {cl : Codec String} {cr : Codec Ulid} {c : Codecs NP EP} {mN : NP → NP → NP} {mE : EP → EP → EP}
  {C : List Ulid}

/-- RDF stores on one database: a deed is one moment of the specification.  If calls do not fail, no two threads may create the same
name: `C61_nameRace_violated`. -/
theorem C85_rdf {part : Bool} (hl : cl.RoundTrips) (hr : cr.RoundTrips) (tl : cl.Total) (tr : cr.Total) (hc : c.RoundTrip)
    {d0 : RdfDb} (h : Life cl cr c mN mE E C d0) {u g : Gen Ulid} {X : RdfState NP EP}
    (hX : (openOn d0 u g).HoldsState (SledIndex.impl cl cr) (SledStore.impl c mN mE) X)
    {threads : List (List (RdfSled.Call E NP EP))} (hf : Fair cl cr c C d0 threads)
    (hb : part = true ∨ (c.Total ∧ NoNameRace X.known threads))
    {x : Nat → RdfDb × List (List (Prog RdfDb Unit))} {N : Nat} (hC : Course part x N)
    (h0 : x 0 = RdfSled.start cl cr c mN mE d0 threads) :
    ∃ h cut, Explains part (RdfSled.Call.prog cl cr c mN mE) (fun y => y.op.deeds) (fun X o => X.deed c.okN c.okE mN mE o)
      (fun d X => ∀ u g, (openOn d u g).HoldsState (SledIndex.impl cl cr) (SledStore.impl c mN mE) X) X threads x N h cut := by
  obtain ⟨y, hy⟩ := h.leaves hl hr tl tr hc
  obtain rfl := hX.unique (hy.holds hc u g)
  exact history_start hl hr tl tr hc (hb.imp_right And.left) hy hf (hb.imp_right And.right) hC h0

end

/-! ## examples -/

/-- without the turns of threads that have finished -/
def awake {S α : Type} (x : S × List (List (Prog S α))) : List Nat → List Nat
  | [] => []
  | i :: l => if (x.2[i]?.getD []).isEmpty then awake x l else i :: awake (turn x i) l

/-- each turn is a step -/
def moves {S α : Type} (x : S × List (List (Prog S α))) : List Nat → Bool
  | [] => true
  | i :: l => !(x.2[i]?.getD []).isEmpty && moves (turn x i) l

theorem turn_step {S α : Type} (x : S × List (List (Prog S α))) (i : Nat) (h : (x.2[i]?.getD []).isEmpty = false) :
    CalmStep x (turn x i) := by
  rcases turn_calm x i with e | e
  · exfalso
    unfold turn at e
    cases hq : x.2[i]? with
    | none => rw [hq] at h; exact Bool.noConfusion h
    | some q =>
      rw [hq] at h e
      have hlt := (List.getElem?_eq_some_iff.1 hq).1
      cases q with
      | nil => exact Bool.noConfusion h
      | cons p q =>
        cases p with
        | ret a =>
          have e2 : x.2.set i q = x.2 := congrArg Prod.snd e
          have := congrArg (fun l => l[i]?) e2
          rw [List.getElem?_set_self hlt, hq] at this
          have := congrArg List.length (Option.some.inj this)
          simp at this
        | call f k =>
          have e2 : x.2.set i (k x.1 :: q) = x.2 := congrArg Prod.snd e
          have := congrArg (fun l => l[i]?) e2
          rw [List.getElem?_set_self hlt, hq] at this
          have hk : k x.1 = .call f k := (List.cons.inj (Option.some.inj this)).1
          have hb := below_one f k x.1
          exact below_irrefl _ (by rw [hk] at hb; exact hb)
  · exact e

theorem course_turns {S α : Type} (x : S × List (List (Prog S α))) (l : List Nat) (h : moves x l = true) :
    Course false (fun k => (l.take k).foldl turn x) l.length := by
  induction l generalizing x with
  | nil => exact fun k hk => absurd hk (Nat.not_lt_zero _)
  | cons i l ih =>
    simp only [moves, Bool.and_eq_true, Bool.not_eq_true'] at h
    intro k hk
    rw [if_neg (by simp)]
    cases k with
    | zero => exact turn_step x i h.1
    | succ k =>
      have := ih (turn x i) h.2 k (by simpa using hk)
      rw [if_neg (by simp)] at this
      exact this

theorem moves_awake {S α : Type} (x : S × List (List (Prog S α))) (l : List Nat) : moves x (awake x l) = true := by
  induction l generalizing x with
  | nil => rfl
  | cons i l ih =>
    unfold awake
    split
    · exact ih x
    · next h => simp [moves, ih, h]

theorem course_any {S α : Type} {x : Nat → S × List (List (Prog S α))} {N : Nat} (h : Course false x N) : Course true x N := by
  intro k hk
  have := h k hk
  rw [if_neg (by simp)] at this
  rw [if_pos rfl]
  exact this.step

/-- two threads remove nodes with common edges, a third one removes such an edge and writes others -/
theorem clear_history (G : Graph U64 Nat Nat) (hG : Shows (Sample.sstore.obs Sample.uc) G) :
    ∃ h cut, Explains false (PieceCall.prog Sample.uc Sample.mN Sample.mE) (fun y => y.1.ops)
      (fun G op => (op.step Sample.uc.okN Sample.uc.okE Sample.mN Sample.mE G).1) (fun d G => Shows (Sled.obs Sample.uc d) G) G clear
      (fun k => ((awake clearStart clearTurns).take k).foldl turn clearStart) (awake clearStart clearTurns).length h cut :=
  C85_store Sample.uc_rt (.inr Sample.uc_total) db0_reach hG clear_whole ⟨by decide +kernel, by decide +kernel⟩
    clear_noRace clear_noNodeRace (course_turns _ _ (moves_awake _ _)) rfl

/-- the first thread has returned from its first call after three steps, the second thread has not begun: the new edge comes before the
removal of node 9 -/
example : ((([0, 0, 0].foldl turn clearStart).2.map List.length) = [2, 1, 3]) := by decide +kernel

example (G : Graph U64 Nat Nat) (hG : Shows (Sample.sstore.obs Sample.uc) G) :
    ∃ (h : List (Nat × Nat × Op String U64 Nat Nat)) (cut : Nat → Nat), Explains false (PieceCall.prog Sample.uc Sample.mN Sample.mE) (fun y => y.1.ops)
      (fun G op => (op.step Sample.uc.okN Sample.uc.okE Sample.mN Sample.mE G).1) (fun d G => Shows (Sled.obs Sample.uc d) G) G clear
      (fun k => ((awake clearStart clearTurns).take k).foldl turn clearStart) (awake clearStart clearTurns).length h cut ∧
      h.Pairwise (fun e e' => ¬ (e.1 = 1 ∧ e.2.1 = 0 ∧ e'.1 = 0 ∧ e'.2.1 = 0)) := by
  obtain ⟨h, cut, he⟩ := clear_history G hG
  refine ⟨h, cut, he, ?_⟩
  obtain ⟨l, hl, -⟩ := he.there 3 (by decide) 0 _ rfl
  have hlen : l.length = 2 := by
    have e : (([0, 0, 0].foldl turn clearStart).2.map List.length)[0]? = some l.length := by
      rw [List.getElem?_map]
      exact congrArg (Option.map List.length) hl
    have e' : (([0, 0, 0].foldl turn clearStart).2.map List.length)[0]? = some 2 := by decide +kernel
    exact Option.some.inj (e.symm.trans e')
  exact C85_before he.toTimed (k := 3) (by decide) (i := 0) (j := 0) rfl hl rfl (by rw [hlen]; decide) (i' := 1) (j' := 0) rfl rfl rfl
    (List.suffix_refl _)

theorem bulk_history (G : Graph U64 Nat Nat) (hG : Shows (Sample.sstore.obs Sample.uc) G) :
    ∃ h cut, Explains false (PieceCall.prog Sample.uc Sample.mN Sample.mE) (fun y => y.1.items)
      (fun G op => (op.step Sample.uc.okN Sample.uc.okE Sample.mN Sample.mE G).1)
      (fun d G => (∀ n p, .ok (n, p) ∈ iterVertices U64 Sample.uc d ↔ G.nodes n = some p) ∧
        ∀ o t p, ¬ Extended (calls bulk) t → (.ok (t, p) ∈ iterEdges U64 Sample.uc d o ↔ G.edges t = some p)) G bulk
      (fun k => ((bulkTurns.take 13).take k).foldl turn bulkStart) 13 h cut :=
  C85_bulk Sample.uc_rt (.inr Sample.uc_total) db0_reach hG bulk_noScan bulk_distinct bulk_noRace bulk_noNodeRace
    (course_turns _ (bulkTurns.take 13) (by decide +kernel)) rfl

open RdfSled in
/-- two threads with RDF stores -/
example (X : RdfState Nat Nat) (hX : (openOn rdfDb0 (Sample.ul 0) (Sample.eg 0)).HoldsState (SledIndex.impl Sample.names Sample.ids)
      (SledStore.impl Sample.uc Sample.mN Sample.mE) X) :
    ∃ h cut, Explains true (RdfSled.Call.prog Sample.names Sample.ids Sample.uc Sample.mN Sample.mE) (fun y => y.op.deeds)
      (fun X o => X.deed Sample.uc.okN Sample.uc.okE Sample.mN Sample.mE o)
      (fun d X => ∀ u g, (openOn d u g).HoldsState (SledIndex.impl Sample.names Sample.ids)
        (SledStore.impl Sample.uc Sample.mN Sample.mE) X) X nameRace
      (fun k => (nameRaceTurns.take k).foldl turn (RdfSled.start Sample.names Sample.ids Sample.uc Sample.mN Sample.mE rdfDb0 nameRace))
      nameRaceTurns.length h cut :=
  C85_rdf Sample.names_rt Sample.ids_rt Sample.names_total Sample.ids_total Sample.uc_rt rdfDb0_life hX nameRace_fair (.inl rfl)
    (course_any (course_turns _ nameRaceTurns (by decide +kernel))) rfl

end Verif.Props
