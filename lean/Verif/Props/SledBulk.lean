import Verif.Proof.SledBulk
import Verif.Props.SledRemove
import Verif.Props.SledFrame

/-!
# C75: concurrent calls, `extend` and `remove_node` among them, are linearizable, `extend` being one operation per item

`extend` is not even atomic per item: while it writes an edge, the orderings differ.  So edges written by an `extend` are left out
of `C75_moment`, and `C75_final` needs that other threads leave them alone (`ExtendsAlone`); it does not follow from the other
hypotheses, and cannot be left out: `C75_alone_needed`.
-/

set_option linter.unusedSectionVars false
set_option maxRecDepth 100000

namespace Verif.Props

open Verif Spec ConcreteId Sled

variable {Id NP EP E : Type} [LinearOrder Id] [ConcreteId Id] [LawfulId Id]
variable {mN : NP → NP → NP} {mE : EP → EP → EP} {c : Codecs NP EP}

/-- At every moment nodes, and edges that no thread writes by `extend`, are in all orders what they are in the graph which results from
doing, one after the other, some of the operations of the threads, in an order compatible with each thread. -/
theorem C75_moment {n m : Nat} {s : SledStore Id} {G : Graph Id NP EP} (hc : c.RoundTrip)
    (hs : SledStore.Reach E c mN mE n m s) (hG : Shows (s.obs c) G) {d : Db} {threads : List (List (PieceCall E Id NP EP))}
    (hx : ∀ th ∈ threads, ∀ x ∈ th, ¬ x.1.IsScan) (hi : DistinctIds s.db (calls threads)) (hr : NoRace (calls threads))
    (hn : NoNodeRace (calls threads)) (hd : MomentP c mN mE s.db threads d) :
    ∃ h, Shuffle true ((calls threads).map (List.flatMap Call.items)) h ∧
      (∀ n p, .ok (n, p) ∈ iterVertices Id c d ↔ (stepAll c.okN c.okE mN mE G h).nodes n = some p) ∧
      ∀ o t p, ¬ Extended (calls threads) t → (.ok (t, p) ∈ iterEdges Id c d o ↔ (stepAll c.okN c.okE mN mE G h).edges t = some p) := by
  obtain ⟨r, hd⟩ := hd
  have inv := (hs.ok hc).inv
  have e1 : Programs.calls (threads.map (List.map (fun x => (x.prog c mN mE, x.1)))) = calls threads := by
    simp [Programs.calls, calls, Function.comp_def]
  have e2 : Programs.start (threads.map (List.map (fun x => (x.prog c mN mE, x.1)))) =
      threads.map (List.map (PieceCall.prog c mN mE)) := by
    simp [Programs.start, Function.comp_def]
  rw [← e2] at hd
  rw [← hs.graph_of_shows hc hG]
  exact bulk_calls_moment e1 inv hi (fineX_pieces hc (.inl rfl) inv hi hx) hr hn hd

/-- When all threads have finished, and there were no errors, and no thread has touched an edge that another one wrote by `extend`,
all operations have been done. -/
theorem C75_final {n m : Nat} {s : SledStore Id} {G : Graph Id NP EP} (hc : c.RoundTrip) (htot : c.Total)
    (hs : SledStore.Reach E c mN mE n m s) (hG : Shows (s.obs c) G) {d : Db} {threads : List (List (PieceCall E Id NP EP))}
    (hx : ∀ th ∈ threads, ∀ x ∈ th, ¬ x.1.IsScan) (hi : DistinctIds s.db (calls threads)) (hr : NoRace (calls threads))
    (hn : NoNodeRace (calls threads)) (ha : ExtendsAlone (calls threads)) (hd : FinalP c mN mE s.db threads d) :
    ∃ h, Shuffle false ((calls threads).map (List.flatMap Call.items)) h ∧
      Shows (Sled.obs c d) (stepAll c.okN c.okE mN mE G h) := by
  obtain ⟨r, hd, he⟩ := hd
  have inv := (hs.ok hc).inv
  have e1 : Programs.calls (threads.map (List.map (fun x => (x.prog c mN mE, x.1)))) = calls threads := by
    simp [Programs.calls, calls, Function.comp_def]
  have e2 : Programs.start (threads.map (List.map (fun x => (x.prog c mN mE, x.1)))) =
      threads.map (List.map (PieceCall.prog c mN mE)) := by
    simp [Programs.start, Function.comp_def]
  rw [← e2] at hd
  rw [← hs.graph_of_shows hc hG]
  exact bulk_calls_done e1 htot inv hi (fineX_pieces hc (.inr htot) inv hi hx) ha hr hn hd he

/-- Also if each scan is one step. -/
theorem C75_moment_scans {n m : Nat} {s : SledStore Id} {G : Graph Id NP EP} (hc : c.RoundTrip)
    (hs : SledStore.Reach E c mN mE n m s) (hG : Shows (s.obs c) G) {d : Db} {threads : List (List (Call E Id NP EP))}
    (hx : ∀ th ∈ threads, ∀ x ∈ th, ¬ x.IsScan) (hi : DistinctIds s.db threads) (hr : NoRace threads)
    (hn : NoNodeRace threads) (hd : Moment c mN mE s.db threads d) :
    ∃ h, Shuffle true (threads.map (List.flatMap Call.items)) h ∧
      (∀ n p, .ok (n, p) ∈ iterVertices Id c d ↔ (stepAll c.okN c.okE mN mE G h).nodes n = some p) ∧
      ∀ o t p, ¬ Extended threads t → (.ok (t, p) ∈ iterEdges Id c d o ↔ (stepAll c.okN c.okE mN mE G h).edges t = some p) := by
  obtain ⟨r, hd⟩ := hd
  have inv := (hs.ok hc).inv
  have e1 : Programs.calls (threads.map (List.map (fun x => (x.prog c mN mE, x)))) = threads := by
    simp [Programs.calls, Function.comp_def]
  have e2 : (s.db, Programs.start (threads.map (List.map (fun x => (x.prog c mN mE, x))))) = start c mN mE s.db threads := by
    simp [Programs.start, start, Function.comp_def]
  rw [← e2] at hd
  rw [← hs.graph_of_shows hc hG]
  exact bulk_calls_moment e1 inv hi (fineX_calls hc (.inl rfl) inv hi hx) hr hn hd

theorem C75_final_scans {n m : Nat} {s : SledStore Id} {G : Graph Id NP EP} (hc : c.RoundTrip) (htot : c.Total)
    (hs : SledStore.Reach E c mN mE n m s) (hG : Shows (s.obs c) G) {d : Db} {threads : List (List (Call E Id NP EP))}
    (hx : ∀ th ∈ threads, ∀ x ∈ th, ¬ x.IsScan) (hi : DistinctIds s.db threads) (hr : NoRace threads)
    (hn : NoNodeRace threads) (ha : ExtendsAlone threads) (hd : Final c mN mE s.db threads d) :
    ∃ h, Shuffle false (threads.map (List.flatMap Call.items)) h ∧
      Shows (Sled.obs c d) (stepAll c.okN c.okE mN mE G h) := by
  obtain ⟨r, hd, he⟩ := hd
  have inv := (hs.ok hc).inv
  have e1 : Programs.calls (threads.map (List.map (fun x => (x.prog c mN mE, x)))) = threads := by
    simp [Programs.calls, Function.comp_def]
  have e2 : (s.db, Programs.start (threads.map (List.map (fun x => (x.prog c mN mE, x))))) = start c mN mE s.db threads := by
    simp [Programs.start, start, Function.comp_def]
  rw [← e2] at hd
  rw [← hs.graph_of_shows hc hG]
  exact bulk_calls_done e1 htot inv hi (fineX_calls hc (.inr htot) inv hi hx) ha hr hn hd he

/-- One thread extends the store by an edge which another one merges: in the end iteration fails. -/
theorem C75_alone_needed :
    ∃ d, DistinctIds db0 extMerge ∧ NoRace extMerge ∧ NoNodeRace extMerge ∧ (∀ th ∈ extMerge, ∀ x ∈ th, ¬ x.IsScan) ∧
      Final Sample.uc Sample.mN Sample.mE db0 extMerge d ∧ ¬ ∃ G : Graph U64 Nat Nat, Shows (Sled.obs Sample.uc d) G := by
  refine ⟨leads extMerge [0, 0, 1, 1, 1, 0, 0, 0, 0, 0], ⟨by decide +kernel, by decide +kernel⟩, ?_, ?_, ?_,
    leads_final (by decide +kernel), ?_⟩
  · simp [NoRace, extMerge, Call.Removes]
  · simp [NoNodeRace, extMerge]
  · simp [extMerge, Call.IsScan]
  · rintro ⟨G, hG⟩
    obtain ⟨l, h, -⟩ := hG.2 .POS
    have hb : ((Sled.obs Sample.uc (leads extMerge [0, 0, 1, 1, 1, 0, 0, 0, 0, 0]) : Obs _ U64 Nat Nat).edges .POS).any
        (fun x => match x with | .ok _ => false | .error _ => true) = true := by decide +kernel
    rw [h, List.any_eq_true] at hb
    obtain ⟨x, hx, hb⟩ := hb
    obtain ⟨y, -, rfl⟩ := List.mem_map.1 hx
    exact Bool.noConfusion hb

/-! ## two threads extend the store, others remove nodes and merge -/

/-- two threads write the node 4; the third one removes nodes while the first one extends the store -/
def bulk : List (List (PieceCall String U64 Nat Nat)) :=
  [[(.extend (Sample.ul 300) { nodes := [.ok (4, 40), .ok (3, 30)], edges := [.ok (⟨1, 5, 2⟩, 60), .ok (⟨4, 4, 1⟩, 61), .ok (⟨1, 5, 2⟩, 62)] }, [], []),
    (.removeEdge ⟨2, 2, 2⟩, [], [])],
   [(.extend (Sample.ul 400) { nodes := [.ok (4, 41)], edges := [.ok (⟨6, 6, 6⟩, 70), .error "disk"] }, [], []), (.mergeEdge 100 ⟨6, 6, 6⟩ 5, [], [])],
   [(.removeNode 9, [1], [0, 1]), (.removeEdge ⟨2, 2, 2⟩, [], [])],
   [(.mergeNode 4 7, [], []), (.merge (Sample.cg 200) { nodes := [], edges := [.ok (⟨3, 3, 3⟩, 1), .ok (⟨3, 3, 3⟩, 2)] }, [], [])]]

def bulkStart : Db × List (List (Prog Db Unit)) := (db0, bulk.map (List.map (PieceCall.prog Sample.uc Sample.mN Sample.mE)))

def bulkTurns : List Nat := (List.range 120).map (· % 4)

def bulked : Db := (bulkTurns.foldl turn bulkStart).1

theorem bulk_finalP : FinalP Sample.uc Sample.mN Sample.mE db0 bulk bulked :=
  ⟨_, turns_calm _ bulkTurns, fun th hth => List.isEmpty_iff.1 (List.all_eq_true.1 (by decide +kernel) th hth)⟩

theorem bulk_noScan : ∀ th ∈ bulk, ∀ x ∈ th, ¬ x.1.IsScan := by
  simp only [bulk, List.mem_cons, List.not_mem_nil, or_false, forall_eq_or_imp, forall_eq]
  exact ⟨⟨id, id⟩, ⟨id, id⟩, ⟨id, id⟩, id, id⟩

theorem bulk_noRace : NoRace (calls bulk) := by
  simp [NoRace, calls, bulk, Call.Removes, Call.writes, Call.drawnFor]

theorem bulk_noNodeRace : NoNodeRace (calls bulk) := by
  simp [NoNodeRace, calls, bulk, Call.writes, Call.drawnFor]
  refine ⟨?_, ?_, ?_⟩
  · rintro n t h rfl v
    refine ⟨?_, ?_, ?_⟩ <;> rintro - rfl <;> revert h <;> decide
  · rintro n t h rfl rfl
    revert h; decide
  · rintro n t h rfl v
    refine ⟨?_, ?_⟩ <;> rintro - rfl <;> revert h <;> decide

theorem bulk_alone : ExtendsAlone (calls bulk) := by
  simp [ExtendsAlone, calls, bulk, Call.TouchesEdge, Call.IsExtend]
  refine ⟨?_, ⟨?_, ?_⟩, ?_⟩ <;> rintro t x (⟨rfl, -⟩ | ⟨rfl, -⟩ | ⟨rfl, -⟩) <;> simp

theorem bulk_distinct : DistinctIds db0 (calls bulk) := ⟨by decide +kernel, by decide +kernel⟩

example : iterEdges U64 Sample.uc bulked .SPO = [(⟨1, 5, 2⟩, 62), (⟨3, 3, 3⟩, 12), (⟨4, 4, 1⟩, 61), (⟨6, 6, 6⟩, 705)].map .ok ∧
    iterVertices U64 Sample.uc bulked = [(1, 10), (2, 21), (3, 30), (4, 48)].map .ok := by decide +kernel

example (G : Graph U64 Nat Nat) (hG : Shows (Sample.sstore.obs Sample.uc) G) :
    ∃ h, Shuffle false ((calls bulk).map (List.flatMap Call.items)) h ∧
      Shows (Sled.obs Sample.uc bulked) (stepAll Sample.uc.okN Sample.uc.okE Sample.mN Sample.mE G h) :=
  C75_final Sample.uc_rt Sample.uc_total db0_reach hG bulk_noScan bulk_distinct bulk_noRace bulk_noNodeRace bulk_alone bulk_finalP

example (G : Graph U64 Nat Nat) (hG : Shows (Sample.sstore.obs Sample.uc) G) :
    ∃ h, Shuffle false ((calls bulk).map (List.flatMap Call.items)) h ∧
      Shows (Sled.obs Sample.uc (leads (calls bulk) bulkTurns)) (stepAll Sample.uc.okN Sample.uc.okE Sample.mN Sample.mE G h) :=
  C75_final_scans Sample.uc_rt Sample.uc_total db0_reach hG (fun th hth x hx => by
    obtain ⟨th, hth', rfl⟩ := List.mem_map.1 hth
    obtain ⟨x, hx', rfl⟩ := List.mem_map.1 hx
    exact bulk_noScan th hth' x hx') bulk_distinct bulk_noRace bulk_noNodeRace bulk_alone (leads_final (by decide +kernel))

/-- in the middle: the first thread has replaced an edge in SPO only -/
example : iterEdges U64 Sample.uc ((bulkTurns.take 13).foldl turn bulkStart).1 .SPO =
      [(⟨1, 5, 2⟩, 60), (⟨2, 2, 2⟩, 3), (⟨2, 5, 9⟩, 8), (⟨3, 3, 3⟩, 1), (⟨6, 6, 6⟩, 70)].map .ok ∧
    iterEdges U64 Sample.uc ((bulkTurns.take 13).foldl turn bulkStart).1 .POS =
      [(⟨2, 2, 2⟩, 3), (⟨3, 3, 3⟩, 1), (⟨1, 5, 2⟩, 4), (⟨2, 5, 9⟩, 8)].map .ok := by decide +kernel

example (G : Graph U64 Nat Nat) (hG : Shows (Sample.sstore.obs Sample.uc) G) :
    ∃ h, Shuffle true ((calls bulk).map (List.flatMap Call.items)) h ∧
      (∀ n p, .ok (n, p) ∈ iterVertices U64 Sample.uc ((bulkTurns.take 13).foldl turn bulkStart).1 ↔
        (stepAll Sample.uc.okN Sample.uc.okE Sample.mN Sample.mE G h).nodes n = some p) ∧
      ∀ o t p, ¬ Extended (calls bulk) t → (.ok (t, p) ∈ iterEdges U64 Sample.uc ((bulkTurns.take 13).foldl turn bulkStart).1 o ↔
        (stepAll Sample.uc.okN Sample.uc.okE Sample.mN Sample.mE G h).edges t = some p) :=
  C75_moment Sample.uc_rt db0_reach hG bulk_noScan bulk_distinct bulk_noRace bulk_noNodeRace ⟨_, (turns_calm _ _).steps⟩

example (G : Graph U64 Nat Nat) (hG : Shows (Sample.sstore.obs Sample.uc) G) :
    ∃ h, Shuffle true ((calls bulk).map (List.flatMap Call.items)) h ∧
      (∀ n p, .ok (n, p) ∈ iterVertices U64 Sample.uc (leads (calls bulk) (bulkTurns.take 13)) ↔
        (stepAll Sample.uc.okN Sample.uc.okE Sample.mN Sample.mE G h).nodes n = some p) ∧
      ∀ o t p, ¬ Extended (calls bulk) t → (.ok (t, p) ∈ iterEdges U64 Sample.uc (leads (calls bulk) (bulkTurns.take 13)) o ↔
        (stepAll Sample.uc.okN Sample.uc.okE Sample.mN Sample.mE G h).edges t = some p) :=
  C75_moment_scans Sample.uc_rt db0_reach hG (fun th hth x hx => by
    obtain ⟨th, hth', rfl⟩ := List.mem_map.1 hth
    obtain ⟨x, hx', rfl⟩ := List.mem_map.1 hx
    exact bulk_noScan th hth' x hx') bulk_distinct bulk_noRace bulk_noNodeRace (leads_moment _ _)

end Verif.Props
