import Verif.Proof.SledAlone
import Verif.Props.SledConc

/-!
# C54, and C51 for threads that touch different edges and nodes

`x.TouchesEdge t`, `x.TouchesNode n`: the call `x` may write or remove that edge or node, by its arguments.
-/

set_option linter.unusedSectionVars false
set_option maxRecDepth 100000

namespace Verif.Props

open Verif Spec ConcreteId Sled

variable {Id NP EP E : Type} [LinearOrder Id] [ConcreteId Id] [LawfulId Id]
variable {mN : NP → NP → NP} {mE : EP → EP → EP} {c : Codecs NP EP}

/-! ## C54 Concurrent calls leave other edges and nodes alone -/

/-- An edge that no thread touches is read at every moment, in every order, as it was at the start: whatever the threads do,
`extend` and all races included, and whichever of their calls fail. -/
theorem C54_edge {n m : Nat} {s : SledStore Id} {G : Graph Id NP EP} (hc : c.RoundTrip)
    (hs : SledStore.Reach E c mN mE n m s) (hG : Shows (s.obs c) G) {d : Db} {threads : List (List (Call E Id NP EP))}
    (hi : DistinctIds s.db threads) (hw : ScansOf s.db threads) (hd : Moment c mN mE s.db threads d) {t : Triple Id}
    (ht : ∀ th ∈ threads, ∀ x ∈ th, ¬ x.TouchesEdge t) (o : EdgeOrder) (p : EP) :
    .ok (t, p) ∈ iterEdges Id c d o ↔ G.edges t = some p := by
  obtain ⟨h1, h2⟩ := untouched_moment hc (hs.ok hc).inv hi hw hd ht
  rw [mem_iterEdges (h1.keys o), h2.view o, hs.graph_of_shows hc hG]

/-- the same for a node -/
theorem C54_node {n m : Nat} {s : SledStore Id} {G : Graph Id NP EP} (hc : c.RoundTrip)
    (hs : SledStore.Reach E c mN mE n m s) (hG : Shows (s.obs c) G) {d : Db} {threads : List (List (Call E Id NP EP))}
    (hi : DistinctIds s.db threads) (hw : ScansOf s.db threads) (hd : Moment c mN mE s.db threads d) {k : Id}
    (hk : ∀ th ∈ threads, ∀ x ∈ th, ¬ x.TouchesNode k) (p : NP) :
    .ok (k, p) ∈ iterVertices Id c d ↔ G.nodes k = some p := by
  obtain ⟨h1, h2⟩ := untouchedNode_moment hc (hs.ok hc).inv hi hw hd hk
  rw [mem_iterVertices h1.nodes, h2, hs.graph_of_shows hc hG]

/-- An edge that one thread touches ends as if that thread had been alone, whatever the others do to other edges. -/
theorem C54_oneThread {n m : Nat} {s : SledStore Id} {G : Graph Id NP EP} (hc : c.RoundTrip) (htot : c.Total)
    (hs : SledStore.Reach E c mN mE n m s) (hG : Shows (s.obs c) G) {d : Db} {threads : List (List (Call E Id NP EP))}
    (hi : DistinctIds s.db threads) (hw : ScansOf s.db threads) (hd : Final c mN mE s.db threads d) {t : Triple Id}
    {i : Nat} {th : List (Call E Id NP EP)} (hth : threads[i]? = some th) (hx : ∀ x ∈ th, ¬ (x.IsScan ∧ x.TouchesEdge t))
    (ho : ∀ (j : Nat) th', threads[j]? = some th' → j ≠ i → ∀ x ∈ th', ¬ x.TouchesEdge t) (o : EdgeOrder) (p : EP) :
    .ok (t, p) ∈ iterEdges Id c d o ↔ (applyAll mN mE G (th.flatMap Call.ops)).edges t = some p := by
  obtain ⟨h1, h2⟩ := oneThread_final hc htot (hs.ok hc).inv hi hw hd hth hx ho
  rw [mem_iterEdges (h1.keys o), h2.view o, hs.graph_of_shows hc hG]

/-- the same for a node -/
theorem C54_oneThreadNode {n m : Nat} {s : SledStore Id} {G : Graph Id NP EP} (hc : c.RoundTrip) (htot : c.Total)
    (hs : SledStore.Reach E c mN mE n m s) (hG : Shows (s.obs c) G) {d : Db} {threads : List (List (Call E Id NP EP))}
    (hi : DistinctIds s.db threads) (hw : ScansOf s.db threads) (hd : Final c mN mE s.db threads d) {k : Id}
    {i : Nat} {th : List (Call E Id NP EP)} (hth : threads[i]? = some th)
    (ho : ∀ (j : Nat) th', threads[j]? = some th' → j ≠ i → ∀ x ∈ th', ¬ x.TouchesNode k) (p : NP) :
    .ok (k, p) ∈ iterVertices Id c d ↔ (applyAll mN mE G (th.flatMap Call.ops)).nodes k = some p := by
  obtain ⟨h1, h2⟩ := oneThreadNode_final hc htot (hs.ok hc).inv hi hw hd hth ho
  rw [mem_iterVertices h1.nodes, h2, hs.graph_of_shows hc hG]

/-- what the sample database shows -/
def G0 : Graph U64 Nat Nat := db0.graph Sample.uc

theorem db0_shows : Shows (Sample.sstore.obs Sample.uc) G0 := Sled.shows (db0_reach.ok Sample.uc_rt).inv

/-- The race of `C51_violated` does not affect the other edges. -/
example (d : Db) (hd : Moment Sample.uc Sample.mN Sample.mE db0 extRace d) (o : EdgeOrder) :
    Except.ok (⟨2, 5, 9⟩, 8) ∈ iterEdges U64 Sample.uc d o :=
  (C54_edge (s := Sample.sstore) Sample.uc_rt db0_reach db0_shows ⟨by decide +kernel, by decide +kernel⟩
    (by intro th hth n f b h; simp [extRace] at hth; rcases hth with rfl | rfl <;> simp at h) hd
    (by simp [extRace, Call.TouchesEdge, onlyEdge]) o 8).2 (by decide +kernel)

/-- and the two moments at which it has broken an edge are among those -/
example : ∃ d, Moment Sample.uc Sample.mN Sample.mE db0 extRace d ∧
    iterEdges U64 Sample.uc d .POS = [.ok (⟨2, 2, 2⟩, 3), .error .missing, .ok (⟨2, 5, 9⟩, 8)] :=
  ⟨leads extRace extTurns, leads_moment _ _, by decide +kernel⟩

/-- a third thread, which works on another edge, and a fourth with a `remove_node` that has made its scans -/
def mixed : List (List (Call String U64 Nat Nat)) :=
  extRace ++ [[.mergeEdge 100 ⟨2, 5, 9⟩ 4, .removeEdge ⟨2, 5, 9⟩, .mergeEdge 101 ⟨2, 5, 9⟩ 5, .mergeEdge 102 ⟨2, 5, 9⟩ 6],
    [.removeNodeScan 7 [] []]]

theorem mixed_scans : ScansOf db0 mixed := by
  intro th hth n f b h
  simp [mixed, extRace] at hth
  rcases hth with rfl | rfl | rfl | rfl <;> simp at h
  obtain ⟨rfl, rfl, rfl⟩ := h
  simp

example (d : Db) (hd : Final Sample.uc Sample.mN Sample.mE db0 mixed d) (o : EdgeOrder) (p : Nat) :
    Except.ok (⟨2, 5, 9⟩, p) ∈ iterEdges U64 Sample.uc d o ↔ p = Sample.mE 5 6 := by
  rw [C54_oneThread (s := Sample.sstore) Sample.uc_rt Sample.uc_total db0_reach db0_shows
    ⟨by decide +kernel, by decide +kernel⟩ mixed_scans hd (i := 2) rfl (by simp [Call.IsScan]) (by
      intro j th' hj hne x hx
      match j, hj with
      | 0, hj => simp [mixed, extRace] at hj; subst hj; simp at hx; subst hx; simp [Call.TouchesEdge, onlyEdge]
      | 1, hj => simp [mixed, extRace] at hj; subst hj; simp at hx; subst hx; simp [Call.TouchesEdge, onlyEdge]
      | 2, hj => exact absurd rfl hne
      | 3, hj => simp [mixed, extRace] at hj; subst hj; simp at hx; subst hx; simp [Call.TouchesEdge]
      | (k + 4), hj => simp [mixed, extRace] at hj) o p]
  have : (applyAll Sample.mN Sample.mE G0 (([.mergeEdge 100 ⟨2, 5, 9⟩ 4, .removeEdge ⟨2, 5, 9⟩, .mergeEdge 101 ⟨2, 5, 9⟩ 5,
      .mergeEdge 102 ⟨2, 5, 9⟩ 6] : List (Call String U64 Nat Nat)).flatMap Call.ops)).edges ⟨2, 5, 9⟩ = some (Sample.mE 5 6) := by
    decide +kernel
  rw [this, Option.some.injEq]
  exact eq_comm

/-! ## C51 Concurrent extends -/

/-- If every edge and every node is touched by one thread at most, the database shows in the end what it would show after
running the threads one after the other: any calls, `extend` and `remove_node` included.

What is missing: several threads touching the same edge or node, one of them by `extend` (violated: `C51_violated`); and
scans of `remove_node` made of items read at different moments. -/
theorem C51_partial {n m : Nat} {s : SledStore Id} {G : Graph Id NP EP} (hc : c.RoundTrip) (htot : c.Total)
    (hs : SledStore.Reach E c mN mE n m s) (hG : Shows (s.obs c) G) {d : Db} {threads : List (List (Call E Id NP EP))}
    (hi : DistinctIds s.db threads) (hns : ∀ th ∈ threads, ∀ x ∈ th, ¬ x.IsScan) (ha : Apart threads)
    (hd : Final c mN mE s.db threads d) :
    Shows (Sled.obs c d) (applyAll mN mE G (threads.flatten.flatMap Call.ops)) := by
  obtain ⟨h1, h2⟩ := apart_final hc htot (hs.ok hc).inv hi hns ha hd
  rw [hs.graph_of_shows hc hG] at h2
  rw [← h2]
  exact Sled.shows h1

/-- two threads extend the store, one removes a node, one merges -/
def apart : List (List (Call String U64 Nat Nat)) :=
  [[.extend (Sample.ul 300) { nodes := [.ok (4, 40)], edges := [.ok (⟨1, 5, 2⟩, 60), .ok (⟨4, 4, 1⟩, 61), .ok (⟨1, 5, 2⟩, 62)] }],
   [.extend (Sample.ul 400) { nodes := [], edges := [.ok (⟨2, 2, 2⟩, 70), .error "disk"] }, .mergeEdge 100 ⟨2, 2, 2⟩ 5],
   [.removeNode 9], [.mergeNode 2 7, .merge (Sample.cg 200) { nodes := [], edges := [.ok (⟨3, 3, 3⟩, 1), .ok (⟨3, 3, 3⟩, 2)] }]]

theorem apart_apart : Apart apart := by
  simp [Apart, apart, Call.TouchesEdge, Call.TouchesNode]
  refine ⟨⟨?_, ?_, ?_⟩, ?_⟩
  · rintro t x (⟨rfl, -⟩ | ⟨rfl, -⟩ | ⟨rfl, -⟩) <;> decide
  · rintro t x (⟨rfl, -⟩ | ⟨rfl, -⟩ | ⟨rfl, -⟩) <;> decide
  · rintro t x (⟨rfl, -⟩ | ⟨rfl, -⟩ | ⟨rfl, -⟩) y <;> simp
  · rintro t h x
    constructor <;> rintro rfl <;> simp at h

example (d : Db) (hd : Final Sample.uc Sample.mN Sample.mE db0 apart d) :
    Shows (Sled.obs Sample.uc d) (applyAll Sample.mN Sample.mE G0 (apart.flatten.flatMap Call.ops)) :=
  C51_partial (s := Sample.sstore) Sample.uc_rt Sample.uc_total db0_reach db0_shows ⟨by decide +kernel, by decide +kernel⟩
    (by simp [apart, Call.IsScan]) apart_apart hd

/-- such an end exists -/
example : ∃ d, Final Sample.uc Sample.mN Sample.mE db0 apart d := 
  ⟨leads apart ((List.range 120).map (· % 4)), leads_final (by decide +kernel)⟩

/-- If the edges written by an `extend` are not touched by the other threads, iteration yields no error at any moment, nor after
any storage error; the items come in order.  All calls are allowed; edges that no `extend` writes may be touched by any number
of threads. -/
theorem C51_noDangling_partial {n m : Nat} {s : SledStore Id} (hc : c.RoundTrip) (hs : SledStore.Reach E c mN mE n m s) {d : Db}
    {threads : List (List (Call E Id NP EP))} (hi : DistinctIds s.db threads) (hw : ScansOf s.db threads)
    (ha : ExtendsAlone threads) (hd : Moment c mN mE s.db threads d) :
    (∃ (N : Id → Option NP) (l : List (Id × NP)), iterVertices Id c d = l.map .ok ∧ Lists (· < ·) N l) ∧
    ∀ o, ∃ (F : Triple Id → Option EP) (l : List (Triple Id × EP)), iterEdges Id c d o = l.map .ok ∧ Lists (edgeLT o) F l := by
  obtain ⟨X, h⟩ := fit_moment hc (hs.ok hc).inv hi hw ha hd
  refine ⟨?_, fun o => ?_⟩
  · obtain ⟨l, h1, h2⟩ := iterVertices_lists h.neat.nodes
    exact ⟨_, l, h1, h2⟩
  · obtain ⟨l, h1, h2⟩ := iterEdges_lists (h.neat.keys o) (h.recsOk o)
    exact ⟨_, l, h1, h2⟩

/-- two extends of different edges, and two threads that fight for a third edge -/
def aloneExt : List (List (Call String U64 Nat Nat)) :=
  [[.extend (Sample.ul 300) { nodes := [.ok (4, 40)], edges := [.ok (⟨1, 5, 2⟩, 60), .ok (⟨1, 5, 2⟩, 62)] }, .removeEdge ⟨1, 5, 2⟩],
   [.extend (Sample.ul 400) { nodes := [.ok (4, 41)], edges := [.ok (⟨2, 2, 2⟩, 70), .error "disk"] }],
   [.removeEdge ⟨2, 5, 9⟩, .mergeEdge 100 ⟨2, 5, 9⟩ 5], [.insertEdge 101 ⟨2, 5, 9⟩ 7, .removeNode 9]]

theorem aloneExt_alone : ExtendsAlone aloneExt := by
  simp [ExtendsAlone, aloneExt, Call.TouchesEdge, Call.IsExtend]
  refine ⟨?_, ?_, ?_⟩ <;> rintro t x (⟨rfl, -⟩ | ⟨rfl, -⟩) <;> decide

example (d : Db) (hd : Moment Sample.uc Sample.mN Sample.mE db0 aloneExt d) : ∀ o, ∃ (F : Triple U64 → Option Nat)
    (l : List (Triple U64 × Nat)), iterEdges U64 Sample.uc d o = l.map .ok ∧ Lists (edgeLT o) F l :=
  (C51_noDangling_partial (s := Sample.sstore) Sample.uc_rt db0_reach ⟨by decide +kernel, by decide +kernel⟩
    (by intro th hth n f b h; simp [aloneExt] at hth; rcases hth with rfl | rfl | rfl | rfl <;> simp at h) aloneExt_alone hd).2

/-- a moment in the middle: the first thread has replaced its edge in SPO only, the third one has removed its edge -/
example : iterEdges U64 Sample.uc (leads aloneExt [0, 0, 0, 2, 1]) .SPO = [.ok (⟨1, 5, 2⟩, 60), .ok (⟨2, 2, 2⟩, 3)] ∧
    iterEdges U64 Sample.uc (leads aloneExt [0, 0, 0, 2, 1]) .POS = [.ok (⟨2, 2, 2⟩, 3), .ok (⟨1, 5, 2⟩, 4)] := by
  decide +kernel

/-- one thread extends the store by an edge that the other one removes -/
def extRemove : List (List (Call String U64 Nat Nat)) := [[.extend (Sample.ul 300) (onlyEdge 60)], [.removeEdge ⟨1, 5, 2⟩]]

/-- one thread extends the store by an edge that the other one merges -/
def extMerge : List (List (Call String U64 Nat Nat)) := [[.extend (Sample.ul 300) (onlyEdge 60)], [.mergeEdge 100 ⟨1, 5, 2⟩ 7]]

/-- The hypothesis is needed for the other calls too: one `remove_edge` or one `merge_edge` next to one `extend` of the same edge
is enough. -/
theorem C51_violated_others :
    (∃ d, DistinctIds db0 extRemove ∧ Final Sample.uc Sample.mN Sample.mE db0 extRemove d ∧
      Except.error .missing ∈ iterEdges U64 Sample.uc d .POS) ∧
    ∃ d, DistinctIds db0 extMerge ∧ Final Sample.uc Sample.mN Sample.mE db0 extMerge d ∧
      Except.error .missing ∈ iterEdges U64 Sample.uc d .POS :=
  ⟨⟨leads extRemove [0, 0, 1, 1, 1, 1, 1, 1, 1, 0, 0, 0, 0, 0], ⟨by decide +kernel, by decide +kernel⟩,
      leads_final (by decide +kernel), by decide +kernel⟩,
    ⟨leads extMerge [0, 0, 1, 1, 1, 0, 0, 0, 0, 0], ⟨by decide +kernel, by decide +kernel⟩,
      leads_final (by decide +kernel), by decide +kernel⟩⟩

end Verif.Props
