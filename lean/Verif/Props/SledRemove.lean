import Verif.Proof.SledRemove
import Verif.Props.SledConc

/-!
# C74: concurrent calls, `remove_node` among them, are linearizable if nobody adds edges to a node while it is removed

`MomentP`, `FinalP`: as `Moment`, `Final`, the range scans of `remove_node` reading the orderings piece by piece (the numbers given
with each call), with calls of other threads in between.  `NoNodeRace` cannot be left out: `C50_removeNode_violated`.
-/

set_option linter.unusedSectionVars false
set_option maxRecDepth 100000

namespace Verif.Props

open Verif Spec ConcreteId Sled

variable {Id NP EP E : Type} [LinearOrder Id] [ConcreteId Id] [LawfulId Id]
variable {mN : NP → NP → NP} {mE : EP → EP → EP} {c : Codecs NP EP}

/-- While nobody writes, reading in pieces makes no difference: whatever the database contains. -/
theorem C74_still (fs bs : List Nat) (n : Id) (d : Db) : (removeNodePieces fs bs n).run d = (removeNode n).run d :=
  pieces_run fs bs n d

/-- At every moment the database shows the graph which results from doing, one after the other, some of the operations of
the threads, in an order compatible with each thread. -/
theorem C74_moment {n m : Nat} {s : SledStore Id} {G : Graph Id NP EP} (hc : c.RoundTrip)
    (hs : SledStore.Reach E c mN mE n m s) (hG : Shows (s.obs c) G) {d : Db} {threads : List (List (PieceCall E Id NP EP))}
    (hx : ∀ th ∈ threads, ∀ x ∈ th, x.1.Whole) (hi : DistinctIds s.db (calls threads)) (hr : NoRace (calls threads))
    (hn : NoNodeRace (calls threads)) (hd : MomentP c mN mE s.db threads d) :
    ∃ h, Shuffle true ((calls threads).map (List.flatMap Call.ops)) h ∧
      Shows (Sled.obs c d) (stepAll c.okN c.okE mN mE G h) := by
  obtain ⟨r, hd⟩ := hd
  have e1 : Programs.calls (threads.map (List.map (fun x => (x.prog c mN mE, x.1)))) = calls threads := by
    simp [Programs.calls, calls, Function.comp_def]
  have e2 : Programs.start (threads.map (List.map (fun x => (x.prog c mN mE, x.1)))) =
      threads.map (List.map (PieceCall.prog c mN mE)) := by
    simp [Programs.start, Function.comp_def]
  rw [← e1] at hi hr hn ⊢
  rw [← e2] at hd
  obtain ⟨h, h1, h2, h3⟩ := lin_programs_moment (mN := mN) (mE := mE) (hs.ok hc).inv (fun th hth e he => by
    obtain ⟨th, hth', rfl⟩ := List.mem_map.1 hth
    obtain ⟨x, hx', rfl⟩ := List.mem_map.1 he
    exact fine_piece hc (.inl rfl) x (hx th hth' x hx')) hi hr hn hd
  rw [hs.graph_of_shows hc hG] at h3
  exact ⟨h, h1, by rw [← h3]; exact Sled.shows h2⟩

/-- When all threads have finished, and there were no errors, all operations have been done. -/
theorem C74_final {n m : Nat} {s : SledStore Id} {G : Graph Id NP EP} (hc : c.RoundTrip) (ht : c.Total)
    (hs : SledStore.Reach E c mN mE n m s) (hG : Shows (s.obs c) G) {d : Db} {threads : List (List (PieceCall E Id NP EP))}
    (hx : ∀ th ∈ threads, ∀ x ∈ th, x.1.Whole) (hi : DistinctIds s.db (calls threads)) (hr : NoRace (calls threads))
    (hn : NoNodeRace (calls threads)) (hd : FinalP c mN mE s.db threads d) :
    ∃ h, Shuffle false ((calls threads).map (List.flatMap Call.ops)) h ∧
      Shows (Sled.obs c d) (stepAll c.okN c.okE mN mE G h) := by
  obtain ⟨r, hd, he⟩ := hd
  have e1 : Programs.calls (threads.map (List.map (fun x => (x.prog c mN mE, x.1)))) = calls threads := by
    simp [Programs.calls, calls, Function.comp_def]
  have e2 : Programs.start (threads.map (List.map (fun x => (x.prog c mN mE, x.1)))) =
      threads.map (List.map (PieceCall.prog c mN mE)) := by
    simp [Programs.start, Function.comp_def]
  rw [← e1] at hi hr hn ⊢
  rw [← e2] at hd
  obtain ⟨h, h1, h2, h3⟩ := lin_programs_final (mN := mN) (mE := mE) (b := false) (hs.ok hc).inv (fun th hth e he => by
    obtain ⟨th, hth', rfl⟩ := List.mem_map.1 hth
    obtain ⟨x, hx', rfl⟩ := List.mem_map.1 he
    exact fine_piece hc (.inr ht) x (hx th hth' x hx')) hi hr hn hd he
  rw [hs.graph_of_shows hc hG] at h3
  exact ⟨h, h1, by rw [← h3]; exact Sled.shows h2⟩

/-- Also if each scan is one step. -/
theorem C74_moment_scans {n m : Nat} {s : SledStore Id} {G : Graph Id NP EP} (hc : c.RoundTrip)
    (hs : SledStore.Reach E c mN mE n m s) (hG : Shows (s.obs c) G) {d : Db} {threads : List (List (Call E Id NP EP))}
    (hx : ∀ th ∈ threads, ∀ x ∈ th, x.Whole) (hi : DistinctIds s.db threads) (hr : NoRace threads)
    (hn : NoNodeRace threads) (hd : Moment c mN mE s.db threads d) :
    ∃ h, Shuffle true (threads.map (List.flatMap Call.ops)) h ∧
      Shows (Sled.obs c d) (stepAll c.okN c.okE mN mE G h) := by
  obtain ⟨r, hd⟩ := hd
  have e1 : Programs.calls (threads.map (List.map (fun x => (x.prog c mN mE, x)))) = threads := by
    simp [Programs.calls, Function.comp_def]
  have e2 : (s.db, Programs.start (threads.map (List.map (fun x => (x.prog c mN mE, x))))) = start c mN mE s.db threads := by
    simp [Programs.start, start, Function.comp_def]
  rw [← e1] at hi hr hn ⊢
  rw [← e2] at hd
  obtain ⟨h, h1, h2, h3⟩ := lin_programs_moment (mN := mN) (mE := mE) (hs.ok hc).inv (fun th hth e he => by
    obtain ⟨th, hth', rfl⟩ := List.mem_map.1 hth
    obtain ⟨x, hx', rfl⟩ := List.mem_map.1 he
    exact fine_whole hc (.inl rfl) x (hx th hth' x hx')) hi hr hn hd
  rw [hs.graph_of_shows hc hG] at h3
  exact ⟨h, h1, by rw [← h3]; exact Sled.shows h2⟩

theorem C74_final_scans {n m : Nat} {s : SledStore Id} {G : Graph Id NP EP} (hc : c.RoundTrip) (ht : c.Total)
    (hs : SledStore.Reach E c mN mE n m s) (hG : Shows (s.obs c) G) {d : Db} {threads : List (List (Call E Id NP EP))}
    (hx : ∀ th ∈ threads, ∀ x ∈ th, x.Whole) (hi : DistinctIds s.db threads) (hr : NoRace threads)
    (hn : NoNodeRace threads) (hd : Final c mN mE s.db threads d) :
    ∃ h, Shuffle false (threads.map (List.flatMap Call.ops)) h ∧
      Shows (Sled.obs c d) (stepAll c.okN c.okE mN mE G h) := by
  obtain ⟨r, hd, he⟩ := hd
  have e1 : Programs.calls (threads.map (List.map (fun x => (x.prog c mN mE, x)))) = threads := by
    simp [Programs.calls, Function.comp_def]
  have e2 : (s.db, Programs.start (threads.map (List.map (fun x => (x.prog c mN mE, x))))) = start c mN mE s.db threads := by
    simp [Programs.start, start, Function.comp_def]
  rw [← e1] at hi hr hn ⊢
  rw [← e2] at hd
  obtain ⟨h, h1, h2, h3⟩ := lin_programs_final (mN := mN) (mE := mE) (b := false) (hs.ok hc).inv (fun th hth e he => by
    obtain ⟨th, hth', rfl⟩ := List.mem_map.1 hth
    obtain ⟨x, hx', rfl⟩ := List.mem_map.1 he
    exact fine_whole hc (.inr ht) x (hx th hth' x hx')) hi hr hn hd he
  rw [hs.graph_of_shows hc hG] at h3
  exact ⟨h, h1, by rw [← h3]; exact Sled.shows h2⟩

/-! ## two threads remove nodes with common edges, a third one removes such an edge and writes others -/

def clear : List (List (PieceCall String U64 Nat Nat)) :=
  [[(.insertEdge 100 ⟨2, 6, 1⟩ 60, [], []), (.removeNode 2, [1, 0], [1]), (.insertEdge 101 ⟨2, 7, 7⟩ 70, [], [])],
   [(.removeNode 9, [], [0, 2])],
   [(.removeEdge ⟨2, 5, 9⟩, [], []), (.mergeEdge 102 ⟨8, 8, 8⟩ 90, [], []), (.insertNode 2 20, [], [])]]

/-- the second and the third thread act while the first one is scanning -/
def clearTurns : List Nat :=
  [0, 0, 0, 2, 0, 1, 1, 2, 0, 2, 1, 2, 0, 1, 1, 2, 1, 2, 2, 0, 2, 2, 1, 0, 0, 0, 0, 0, 2, 2, 2, 2, 1, 1]

def clearStart : Db × List (List (Prog Db Unit)) := (db0, clear.map (List.map (PieceCall.prog Sample.uc Sample.mN Sample.mE)))

def cleared : Db := (clearTurns.foldl turn clearStart).1

example : ((clearTurns.foldl turn clearStart).2.all List.isEmpty) = true := by decide +kernel

example : iterEdges U64 Sample.uc cleared .SPO = [(⟨2, 7, 7⟩, 70), (⟨8, 8, 8⟩, 90)].map .ok := by decide +kernel

theorem clear_final : FinalP Sample.uc Sample.mN Sample.mE db0 clear cleared :=
  ⟨_, turns_calm _ clearTurns, fun th hth => List.isEmpty_iff.1 (List.all_eq_true.1 (by decide +kernel) th hth)⟩

theorem clear_whole : ∀ th ∈ clear, ∀ x ∈ th, x.1.Whole := by
  simp only [clear, List.mem_cons, List.not_mem_nil, or_false, forall_eq_or_imp, forall_eq]
  exact ⟨⟨trivial, trivial, trivial⟩, trivial, trivial, trivial, trivial⟩

theorem clear_noRace : NoRace (calls clear) := by simp [NoRace, calls, clear, Call.Removes, Call.writes]

theorem clear_noNodeRace : NoNodeRace (calls clear) := by
  simp only [NoNodeRace, calls, clear, List.map_cons, List.map_nil, List.pairwise_cons, List.mem_cons, List.not_mem_nil, or_false,
    forall_eq_or_imp, forall_eq, Call.writes, Call.removeNode.injEq, reduceCtorEq, not_false_eq_true, implies_true,
    and_true, true_and, Prod.mk.injEq, not_and, IsEmpty.forall_iff, List.Pairwise.nil]
  refine ⟨⟨⟨?_, ?_⟩, ?_⟩, ?_⟩ <;> rintro n t (h | h) rfl rfl <;> exact absurd h (by decide)

example (G : Graph U64 Nat Nat) (hG : Shows (Sample.sstore.obs Sample.uc) G) :
    ∃ h, Shuffle false ((calls clear).map (List.flatMap Call.ops)) h ∧
      Shows (Sled.obs Sample.uc cleared) (stepAll Sample.uc.okN Sample.uc.okE Sample.mN Sample.mE G h) :=
  C74_final Sample.uc_rt Sample.uc_total db0_reach hG clear_whole ⟨by decide +kernel, by decide +kernel⟩
    clear_noRace clear_noNodeRace clear_final

/-- before the end, too: the first thread has scanned SPO, the third one has removed an edge since -/
example (G : Graph U64 Nat Nat) (hG : Shows (Sample.sstore.obs Sample.uc) G) :
    ∃ h, Shuffle true ((calls clear).map (List.flatMap Call.ops)) h ∧
      Shows (Sled.obs Sample.uc ([0, 0, 0, 0, 2].foldl turn clearStart).1)
        (stepAll Sample.uc.okN Sample.uc.okE Sample.mN Sample.mE G h) :=
  C74_moment Sample.uc_rt db0_reach hG clear_whole ⟨by decide +kernel, by decide +kernel⟩
    clear_noRace clear_noNodeRace ⟨_, (turns_calm _ _).steps⟩

/-- each scan in one step -/
example (G : Graph U64 Nat Nat) (hG : Shows (Sample.sstore.obs Sample.uc) G) :
    ∃ h, Shuffle false ((calls clear).map (List.flatMap Call.ops)) h ∧
      Shows (Sled.obs Sample.uc (leads (calls clear) clearTurns)) (stepAll Sample.uc.okN Sample.uc.okE Sample.mN Sample.mE G h) :=
  C74_final_scans Sample.uc_rt Sample.uc_total db0_reach hG (fun th hth x hx => by
    obtain ⟨th, hth', rfl⟩ := List.mem_map.1 hth
    obtain ⟨x, hx', rfl⟩ := List.mem_map.1 hx
    exact clear_whole th hth' x hx') ⟨by decide +kernel, by decide +kernel⟩
    clear_noRace clear_noNodeRace (leads_final (by decide +kernel))

example (G : Graph U64 Nat Nat) (hG : Shows (Sample.sstore.obs Sample.uc) G) :
    ∃ h, Shuffle true ((calls clear).map (List.flatMap Call.ops)) h ∧
      Shows (Sled.obs Sample.uc (leads (calls clear) [0, 0, 0, 2, 1, 2])) (stepAll Sample.uc.okN Sample.uc.okE Sample.mN Sample.mE G h) :=
  C74_moment_scans Sample.uc_rt db0_reach hG (fun th hth x hx => by
    obtain ⟨th, hth', rfl⟩ := List.mem_map.1 hth
    obtain ⟨x, hx', rfl⟩ := List.mem_map.1 hx
    exact clear_whole th hth' x hx') ⟨by decide +kernel, by decide +kernel⟩
    clear_noRace clear_noNodeRace (leads_moment _ _)

/-- reading in pieces: the same, on the database of the samples -/
example : (removeNodePieces [1, 0, 2] [1] (2 : U64)).run db0 = (removeNode (2 : U64)).run db0 := C74_still _ _ _ _

end Verif.Props
