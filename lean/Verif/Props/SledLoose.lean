import Verif.Proof.SledLooseRun
import Verif.Props.SledBulk
import Verif.Props.RdfSledConc
import Verif.Props.SledSelf
import Verif.Props.Mem

/-!
# C76: whoever races with whom, the first ordering is right, but for edges `remove_node` leaves

The only hypothesis on the threads is that the ids which are drawn are different. Races break the orderings POS and OSP; what SPO
shows is still the result of doing the operations one by one, except that `remove_node` may leave edges in it (`LooseStep`):
those another thread is writing, and those *to* the node which races have removed from OSP. That it does leave both is shown by
`C76_left_from` and `C76_left_to`.
-/

set_option linter.unusedSectionVars false
set_option maxRecDepth 100000

namespace Verif.Props

open Verif Spec ConcreteId Sled

variable {Id NP EP E : Type} [LinearOrder Id] [ConcreteId Id] [LawfulId Id]
variable {mN : NP → NP → NP} {mE : EP → EP → EP} {c : Codecs NP EP}

/-- At every moment, whatever threads do, the first ordering shows the graph which results from doing, one after the other, some
of the operations of the threads, in an order compatible with each thread. -/
theorem C76_moment {n m : Nat} {s : SledStore Id} {G : Graph Id NP EP} (hc : c.RoundTrip)
    (hs : SledStore.Reach E c mN mE n m s) (hG : Shows (s.obs c) G) {d : Db} {threads : List (List (PieceCall E Id NP EP))}
    (hx : ∀ th ∈ threads, ∀ x ∈ th, ¬ x.1.IsScan) (hi : DistinctIds s.db (calls threads)) (hd : MomentP c mN mE s.db threads d) :
    ∃ h G', Shuffle true ((calls threads).map (List.flatMap Call.items)) h ∧
      Runs (LooseStep c.okN c.okE mN mE (FromRaced (calls threads)) (ToRaced (calls threads))) G h G' ∧ SpoShows c d G' := by
  obtain ⟨r, hd⟩ := hd
  have inv := (hs.ok hc).inv
  have e1 : Programs.calls (threads.map (List.map (fun x => (x.prog c mN mE, x.1)))) = calls threads := by
    simp [Programs.calls, calls, Function.comp_def]
  have e2 : Programs.start (threads.map (List.map (fun x => (x.prog c mN mE, x.1)))) =
      threads.map (List.map (PieceCall.prog c mN mE)) := by
    simp [Programs.start, Function.comp_def]
  rw [← e2] at hd
  rw [← hs.graph_of_shows hc hG]
  exact loose_moment e1 inv hi (fineS_pieces hc (.inl rfl) inv hi hx) (fineX_pieces hc (.inl rfl) inv hi hx) hd

/-- When all threads have finished, and there were no errors, all operations have been done. -/
theorem C76_final {n m : Nat} {s : SledStore Id} {G : Graph Id NP EP} (hc : c.RoundTrip) (ht : c.Total)
    (hs : SledStore.Reach E c mN mE n m s) (hG : Shows (s.obs c) G) {d : Db} {threads : List (List (PieceCall E Id NP EP))}
    (hx : ∀ th ∈ threads, ∀ x ∈ th, ¬ x.1.IsScan) (hi : DistinctIds s.db (calls threads)) (hd : FinalP c mN mE s.db threads d) :
    ∃ h G', Shuffle false ((calls threads).map (List.flatMap Call.items)) h ∧
      Runs (LooseStep c.okN c.okE mN mE (FromRaced (calls threads)) (ToRaced (calls threads))) G h G' ∧ SpoShows c d G' := by
  obtain ⟨r, hd, he⟩ := hd
  have inv := (hs.ok hc).inv
  have e1 : Programs.calls (threads.map (List.map (fun x => (x.prog c mN mE, x.1)))) = calls threads := by
    simp [Programs.calls, calls, Function.comp_def]
  have e2 : Programs.start (threads.map (List.map (fun x => (x.prog c mN mE, x.1)))) =
      threads.map (List.map (PieceCall.prog c mN mE)) := by
    simp [Programs.start, Function.comp_def]
  rw [← e2] at hd
  rw [← hs.graph_of_shows hc hG]
  exact loose_final e1 inv hi (fineS_pieces hc (.inr ht) inv hi hx) (fineX_pieces hc (.inr ht) inv hi hx) hd he

/-- Also if each scan is one step. -/
theorem C76_moment_scans {n m : Nat} {s : SledStore Id} {G : Graph Id NP EP} (hc : c.RoundTrip)
    (hs : SledStore.Reach E c mN mE n m s) (hG : Shows (s.obs c) G) {d : Db} {threads : List (List (Call E Id NP EP))}
    (hx : ∀ th ∈ threads, ∀ x ∈ th, ¬ x.IsScan) (hi : DistinctIds s.db threads) (hd : Moment c mN mE s.db threads d) :
    ∃ h G', Shuffle true (threads.map (List.flatMap Call.items)) h ∧
      Runs (LooseStep c.okN c.okE mN mE (FromRaced threads) (ToRaced threads)) G h G' ∧ SpoShows c d G' := by
  obtain ⟨r, hd⟩ := hd
  have inv := (hs.ok hc).inv
  have e1 : Programs.calls (threads.map (List.map (fun x => (x.prog c mN mE, x)))) = threads := by
    simp [Programs.calls, Function.comp_def]
  have e2 : (s.db, Programs.start (threads.map (List.map (fun x => (x.prog c mN mE, x))))) = start c mN mE s.db threads := by
    simp [Programs.start, start, Function.comp_def]
  rw [← e2] at hd
  rw [← hs.graph_of_shows hc hG]
  exact loose_moment e1 inv hi (fineS_calls hc (.inl rfl) inv hi hx) (fineX_calls hc (.inl rfl) inv hi hx) hd

theorem C76_final_scans {n m : Nat} {s : SledStore Id} {G : Graph Id NP EP} (hc : c.RoundTrip) (ht : c.Total)
    (hs : SledStore.Reach E c mN mE n m s) (hG : Shows (s.obs c) G) {d : Db} {threads : List (List (Call E Id NP EP))}
    (hx : ∀ th ∈ threads, ∀ x ∈ th, ¬ x.IsScan) (hi : DistinctIds s.db threads) (hd : Final c mN mE s.db threads d) :
    ∃ h G', Shuffle false (threads.map (List.flatMap Call.items)) h ∧
      Runs (LooseStep c.okN c.okE mN mE (FromRaced threads) (ToRaced threads)) G h G' ∧ SpoShows c d G' := by
  obtain ⟨r, hd, he⟩ := hd
  have inv := (hs.ok hc).inv
  have e1 : Programs.calls (threads.map (List.map (fun x => (x.prog c mN mE, x)))) = threads := by
    simp [Programs.calls, Function.comp_def]
  have e2 : (s.db, Programs.start (threads.map (List.map (fun x => (x.prog c mN mE, x))))) = start c mN mE s.db threads := by
    simp [Programs.start, start, Function.comp_def]
  rw [← e2] at hd
  rw [← hs.graph_of_shows hc hG]
  exact loose_final e1 inv hi (fineS_calls hc (.inr ht) inv hi hx) (fineX_calls hc (.inr ht) inv hi hx) hd he

/-- If no thread removes a node, all operations do what they should, also `extend` and `remove_edge` on the same edge. -/
theorem C76_strict {WS WO : Triple Id → Prop} {okN : NP → Bool} {okE : EP → Bool} {h : List (Op E Id NP EP)} {G G' : Graph Id NP EP}
    (hn : ∀ n, .removeNode n ∉ h) (hr : Runs (LooseStep okN okE mN mE WS WO) G h G') : G' = stepAll okN okE mN mE G h := by
  induction h generalizing G with
  | nil => exact hr
  | cons op h ih =>
    obtain ⟨H, h1, h2⟩ := hr
    rw [ih (fun n hm => hn n (List.mem_cons_of_mem _ hm)) h2]
    have : H = (op.step okN okE mN mE G).1 := by
      cases op with
      | removeNode n => exact absurd List.mem_cons_self (hn n)
      | _ => exact h1
    rw [this]
    rfl

/-- And if a thread that removes a node has it to itself, and nobody races on its edges, the removal does what it should. -/
theorem C76_removeNode {WS WO : Triple Id → Prop} {okN : NP → Bool} {okE : EP → Bool} {n : Id} {G G' : Graph Id NP EP}
    (hS : ∀ t, t.sub = n → ¬ WS t) (hO : ∀ t, t.obj = n → ¬ WO t)
    (h : LooseStep okN okE mN mE WS WO G (.removeNode n : Op E Id NP EP) G') :
    G' = ((.removeNode n : Op E Id NP EP).step okN okE mN mE G).1 := by
  obtain ⟨h1, h2, h3, h4⟩ := h
  refine Graph.ext' h1 (fun t => ?_)
  show _ = if t.sub = n ∨ t.obj = n then none else G.edges t
  split
  · rename_i ht
    rcases ht with ht | ht
    · exact h3 t ht (hS t ht)
    · exact h4 t ht (hO t ht)
  · rename_i ht
    rcases h2 t with h | ⟨h, -⟩
    · exact h
    · exact absurd h ht

/-- However inconsistent the other orderings are, a store merged with what the database yields in the first ordering takes over
the graph, and is consistent. -/
theorem C76_copy {d : Db} {G : Graph Id NP EP} (h : SpoShows c d G) {n : Nat} {g : Gen Id}
    (hg : Fresh (n + (intoIterNodes c d .SPO : Source SErr Id NP EP).edges.length) g) :
    ((Mem.new g).merge mN mE (intoIterNodes c d .SPO : Source SErr Id NP EP)).2 = .ok () ∧
      Shows ((Mem.new g).merge mN mE (intoIterNodes c d .SPO : Source SErr Id NP EP)).1.obs G := by
  have e : (intoIterNodes c d .SPO : Source SErr Id NP EP) = iterNodes c d .SPO := (C23_sled c d .SPO).1
  have hr : RepresentsSorted (intoIterNodes c d .SPO : Source SErr Id NP EP) G := by
    rw [e]
    exact ⟨h.nodes, h.edges⟩
  have h0 : Mem.Reach SErr mN mE _ (Mem.new g : Mem Id NP EP) := .new hg
  obtain ⟨h1, h2⟩ := C17_merge (n := n) h0 (Mem.shows h0.inv.toAgree) hr.represents
  refine ⟨h1, ?_⟩
  have : (Mem.new g : Mem Id NP EP).graph.mergeWith mN mE G = G := by
    refine Graph.ext' (fun m => ?_) (fun t => ?_)
    · cases e : G.nodes m <;> simp [Graph.mergeWith, Mem.graph, Mem.new, Mem.idOf, e, Graph.mergeOpt]
    · cases e : G.edges t <;> simp [Graph.mergeWith, Mem.graph, Mem.new, Mem.idOf, e, Graph.mergeOpt]
  rwa [this] at h2

/-! ## the removal of a node may leave edges from it, and edges to it -/

/-- one thread removes a node while the other adds an edge from it, and then the node -/
def fromRace : List (List (Call String U64 Nat Nat)) := [[.removeNode 7], [.insertEdge 100 ⟨7, 7, 8⟩ 70, .insertNode 7 71]]

/-- both are entered after the scans and before the transaction -/
def fromRaceTurns : List Nat := [0, 0, 1, 1, 1, 1, 1, 1, 0, 0, 0]

theorem fromRace_noScan : ∀ th ∈ fromRace, ∀ x ∈ th, ¬ x.IsScan := by
  simp only [fromRace, List.mem_cons, List.not_mem_nil, or_false, forall_eq_or_imp, forall_eq]
  exact ⟨id, id, id⟩

theorem fromRace_distinct : DistinctIds db0 fromRace := ⟨by decide +kernel, by decide +kernel⟩

/-- The edge has been left, the node is gone; no order of the operations leads to that. -/
theorem C76_left_from :
    ∃ d, DistinctIds db0 fromRace ∧ Final Sample.uc Sample.mN Sample.mE db0 fromRace d ∧
      ∀ (G : Graph U64 Nat Nat) (h : List (Op String U64 Nat Nat)), Shuffle false (fromRace.map (List.flatMap Call.items)) h →
        ¬ SpoShows Sample.uc d (stepAll Sample.uc.okN Sample.uc.okE Sample.mN Sample.mE G h) := by
  refine ⟨leads fromRace fromRaceTurns, fromRace_distinct, leads_final (by decide +kernel), fun G h hh hs => ?_⟩
  have e : iterEdges U64 Sample.uc (leads fromRace fromRaceTurns) .SPO =
      [(⟨1, 5, 2⟩, 4), (⟨2, 2, 2⟩, 3), (⟨2, 5, 9⟩, 8), (⟨7, 7, 8⟩, 70)].map .ok := by decide +kernel
  have e' : iterVertices U64 Sample.uc (leads fromRace fromRaceTurns) = [(1, 10), (2, 21)].map .ok := by decide +kernel
  obtain ⟨l, h1, -, h2⟩ := hs.edges
  obtain ⟨l', h1', -, h2'⟩ := hs.nodes
  have hl := List.map_injective_iff.2 (fun a b h => Except.ok.inj h) (h1.symm.trans e)
  have hl' := List.map_injective_iff.2 (fun a b h => Except.ok.inj h) (h1'.symm.trans e')
  subst hl hl'
  have a1 := (h2 ⟨7, 7, 8⟩ 70).1 (by simp)
  have a2 := mt (h2' 7 71).2 (by simp)
  rcases shuffle_one_two hh with rfl | rfl | rfl
  · exact a2 (by simp [stepAll, Op.step, storeEdge, storeNode, Codecs.okE, Codecs.okN, Sample.uc, Sample.unary, one, Graph.insertEdge, Graph.insertNode])
  · exact a2 (by simp [stepAll, Op.step, storeEdge, storeNode, Codecs.okE, Codecs.okN, Sample.uc, Sample.unary, one, Graph.insertEdge, Graph.insertNode])
  · simp [stepAll, Op.step, Graph.removeNode] at a1

/-- one thread removes an edge while the other extends the store by it, and then removes its object -/
def toRace : List (List (Call String U64 Nat Nat)) :=
  [[.removeEdge ⟨1, 5, 2⟩], [.extend (Sample.ul 300) (onlyEdge 60), .removeNode 2]]

/-- the other thread runs until `extend` is done after the first one has erased the edge from SPO -/
def toRaceTurns : List Nat := [0, 0, 1, 1, 1, 1, 1, 1, 0, 0, 0, 1, 1, 1, 1, 1, 1, 1, 1, 1]

theorem toRace_noScan : ∀ th ∈ toRace, ∀ x ∈ th, ¬ x.IsScan := by
  simp only [toRace, List.mem_cons, List.not_mem_nil, or_false, forall_eq_or_imp, forall_eq]
  exact ⟨id, id, id⟩

theorem toRace_distinct : DistinctIds db0 toRace := ⟨by decide +kernel, by decide +kernel⟩

/-- The edge outlives its object although nobody races on the removal of the object; no order of the operations leads to that. -/
theorem C76_left_to :
    ∃ d, DistinctIds db0 toRace ∧ Final Sample.uc Sample.mN Sample.mE db0 toRace d ∧
      ∀ (G : Graph U64 Nat Nat) (h : List (Op String U64 Nat Nat)), Shuffle false (toRace.map (List.flatMap Call.items)) h →
        ¬ SpoShows Sample.uc d (stepAll Sample.uc.okN Sample.uc.okE Sample.mN Sample.mE G h) := by
  refine ⟨leads toRace toRaceTurns, toRace_distinct, leads_final (by decide +kernel), fun G h hh hs => ?_⟩
  have e : iterEdges U64 Sample.uc (leads toRace toRaceTurns) .SPO = [(⟨1, 5, 2⟩, 60)].map .ok := by decide +kernel
  obtain ⟨l, h1, -, h2⟩ := hs.edges
  have hl := List.map_injective_iff.2 (fun a b h => Except.ok.inj h) (h1.symm.trans e)
  subst hl
  have a1 := (h2 ⟨1, 5, 2⟩ 60).1 (by simp)
  rcases shuffle_one_two hh with rfl | rfl | rfl <;> simp [stepAll, Op.step, Graph.removeNode, Graph.removeEdge] at a1

/-! ## the theorems on these and other races -/

example : iterEdges U64 Sample.uc (leads toRace toRaceTurns) .OSP = [] ∧
    iterVertices U64 Sample.uc (leads toRace toRaceTurns) = [(1, 10)].map .ok := by decide +kernel

example (G : Graph U64 Nat Nat) (hG : Shows (Sample.sstore.obs Sample.uc) G) :
    ∃ h G', Shuffle false (toRace.map (List.flatMap Call.items)) h ∧
      Runs (LooseStep Sample.uc.okN Sample.uc.okE Sample.mN Sample.mE (FromRaced toRace) (ToRaced toRace)) G h G' ∧
      SpoShows Sample.uc (leads toRace toRaceTurns) G' :=
  C76_final_scans Sample.uc_rt Sample.uc_total db0_reach hG toRace_noScan toRace_distinct (leads_final (by decide +kernel))

/-- a store merged with what two threads have left which extended the store by the same edge (`C51_violated`) -/
example : ((Mem.new (Sample.cg 500)).merge Sample.mN Sample.mE
      (intoIterNodes Sample.uc (leads extRace extTurns) .SPO : Source SErr U64 Nat Nat)).1.iterEdges .OSP =
    [(⟨1, 5, 2⟩, 61), (⟨2, 2, 2⟩, 3), (⟨2, 5, 9⟩, 8)].map .ok := by decide +kernel

/-- No edge from 2 may be left, and no other edge to 2. -/
example : ¬ FromRaced toRace ⟨2, 2, 2⟩ ∧ ¬ ToRaced toRace ⟨2, 2, 2⟩ ∧ ¬ FromRaced toRace ⟨1, 5, 2⟩ ∧ ToRaced toRace ⟨1, 5, 2⟩ := by
  refine ⟨?_, ?_, ?_, ?_⟩ <;>
    simp [FromRaced, ToRaced, Raced, EdgeRaced, Extended, toRace, Call.Removes, Call.writes, Call.drawnFor, onlyEdge, Call.TouchesEdge, Call.IsExtend]

example (G : Graph U64 Nat Nat) (hG : Shows (Sample.sstore.obs Sample.uc) G) :
    ∃ h G', Shuffle true (fromRace.map (List.flatMap Call.items)) h ∧
      Runs (LooseStep Sample.uc.okN Sample.uc.okE Sample.mN Sample.mE (FromRaced fromRace) (ToRaced fromRace)) G h G' ∧
      SpoShows Sample.uc (leads fromRace [0, 0, 1, 1, 1, 1]) G' :=
  C76_moment_scans Sample.uc_rt db0_reach hG fromRace_noScan fromRace_distinct (leads_moment _ _)

example (G : Graph U64 Nat Nat) (hG : Shows (Sample.sstore.obs Sample.uc) G) :
    ∃ h G', Shuffle false ((calls bulk).map (List.flatMap Call.items)) h ∧
      Runs (LooseStep Sample.uc.okN Sample.uc.okE Sample.mN Sample.mE (FromRaced (calls bulk)) (ToRaced (calls bulk))) G h G' ∧
      SpoShows Sample.uc bulked G' :=
  C76_final Sample.uc_rt Sample.uc_total db0_reach hG bulk_noScan bulk_distinct bulk_finalP

example (G : Graph U64 Nat Nat) (hG : Shows (Sample.sstore.obs Sample.uc) G) :
    ∃ h G', Shuffle true ((calls bulk).map (List.flatMap Call.items)) h ∧
      Runs (LooseStep Sample.uc.okN Sample.uc.okE Sample.mN Sample.mE (FromRaced (calls bulk)) (ToRaced (calls bulk))) G h G' ∧
      SpoShows Sample.uc ((bulkTurns.take 13).foldl turn bulkStart).1 G' :=
  C76_moment Sample.uc_rt db0_reach hG bulk_noScan bulk_distinct ⟨_, (turns_calm _ _).steps⟩

/-- Two threads which extend the store by the same edge (`C51_violated`): the last one to write SPO wins, and the edge is there. -/
example (G : Graph U64 Nat Nat) (hG : Shows (Sample.sstore.obs Sample.uc) G) :
    ∃ h, Shuffle false (extRace.map (List.flatMap Call.items)) h ∧
      SpoShows Sample.uc (leads extRace extTurns) (stepAll Sample.uc.okN Sample.uc.okE Sample.mN Sample.mE G h) := by
  obtain ⟨h, G', h1, h2, h3⟩ := C76_final_scans (d := leads extRace extTurns) (threads := extRace) Sample.uc_rt Sample.uc_total db0_reach hG
    (by simp only [extRace, List.mem_cons, List.not_mem_nil, or_false, forall_eq_or_imp, forall_eq]; exact ⟨id, id⟩)
    ⟨by decide +kernel, by decide +kernel⟩ (leads_final (by decide +kernel))
  refine ⟨h, h1, C76_strict (fun n hn => ?_) h2 ▸ h3⟩
  obtain ⟨l, hl, hm⟩ := mem_shuffle h1 hn
  simp [extRace, Call.items, onlyEdge] at hl
  rcases hl with rfl | rfl <;> simp at hm

end Verif.Props
