import Verif.Proof.Linear
import Verif.Props.SledSample

/-!
# C30, C31, C49–C51: several handles on one sled database

`Sled.Moment c mN mE d0 threads d`: the threads, each doing its calls one after the other, starting on `d0`, can leave the
database `d` at some moment.  `Sled.Final`: after all of them have finished without a storage error.
-/

set_option linter.unusedSectionVars false
set_option maxRecDepth 100000

namespace Verif.Props

open Verif Spec ConcreteId Sled

variable {Id NP EP E : Type} [LinearOrder Id] [ConcreteId Id] [LawfulId Id]
variable {mN : NP → NP → NP} {mE : EP → EP → EP} {c : Codecs NP EP}

/-! ## concrete schedules -/

/-- Perform the next call of thread `i`. -/
def turn {S α : Type} (x : S × List (List (Prog S α))) (i : Nat) : S × List (List (Prog S α)) :=
  match x.2[i]? with
  | some (.call f k :: q) => (f x.1, x.2.set i (k x.1 :: q))
  | some (.ret _ :: q) => (x.1, x.2.set i q)
  | _ => x

theorem turn_calm {S α : Type} (x : S × List (List (Prog S α))) (i : Nat) : turn x i = x ∨ CalmStep x (turn x i) := by
  obtain ⟨s, ts⟩ := x
  unfold turn
  dsimp only
  cases h : ts[i]? with
  | none => exact .inl rfl
  | some q =>
    obtain ⟨hi, h⟩ := List.getElem?_eq_some_iff.1 h
    have e1 : ∀ q', ts.set i q' = ts.take i ++ q' :: ts.drop (i + 1) := by
      intro q'
      rw [List.set_eq_take_append_cons_drop, if_pos hi]
    have e2 : ts = ts.take i ++ q :: ts.drop (i + 1) := by
      rw [← e1, ← h, List.set_getElem_self]
    cases q with
    | nil => exact .inl rfl
    | cons p q =>
      right
      cases p with
      | ret a =>
        dsimp only
        rw [e1]
        conv => lhs; rw [e2]
        exact .ret _ _ _ _ _
      | call f k =>
        dsimp only
        rw [e1]
        conv => lhs; rw [e2]
        exact .call _ _ _ _ _ _

theorem turns_calm {S α : Type} (x : S × List (List (Prog S α))) (l : List Nat) : CalmSteps x (l.foldl turn x) := by
  suffices ∀ y, CalmSteps x y → CalmSteps x (l.foldl turn y) from this x (.refl x)
  induction l with
  | nil => exact fun y h => h
  | cons i l ih =>
    intro y h
    refine ih _ ?_
    rcases turn_calm y i with e | e
    · rw [e]; exact h
    · exact h.tail e

theorem turns_final (d0 : Db) (threads : List (List (Call E Id NP EP))) (l : List Nat)
    (h : ((l.foldl turn (start c mN mE d0 threads)).2.all List.isEmpty) = true) :
    Final c mN mE d0 threads (l.foldl turn (start c mN mE d0 threads)).1 :=
  ⟨_, turns_calm _ _, fun th hth => List.isEmpty_iff.1 (List.all_eq_true.1 h th hth)⟩

theorem Sled.Final.moment {d0 d : Db} {threads : List (List (Call E Id NP EP))} (h : Final c mN mE d0 threads d) :
    Moment c mN mE d0 threads d := by
  obtain ⟨rest, h, -⟩ := h
  exact ⟨rest, h.steps⟩

/-- the database the examples start with -/
def db0 : Db := Sample.sstore.db

/-- where a schedule leads -/
def leads (threads : List (List (Call String U64 Nat Nat))) (l : List Nat) : Db :=
  (l.foldl turn (start Sample.uc Sample.mN Sample.mE db0 threads)).1

def done (threads : List (List (Call String U64 Nat Nat))) (l : List Nat) : Bool :=
  (l.foldl turn (start Sample.uc Sample.mN Sample.mE db0 threads)).2.all List.isEmpty

theorem leads_moment (threads : List (List (Call String U64 Nat Nat))) (l : List Nat) :
    Moment Sample.uc Sample.mN Sample.mE db0 threads (leads threads l) := ⟨_, (turns_calm _ l).steps⟩

theorem leads_final {threads : List (List (Call String U64 Nat Nat))} {l : List Nat} (h : done threads l = true) :
    Final Sample.uc Sample.mN Sample.mE db0 threads (leads threads l) := turns_final _ _ _ h

/-! ## C30 Sled orderings stay consistent under concurrent handles -/

/-- At every moment all three orderings list the same triples (with the same ids), each in its order.  Allowed are all calls
but `remove_edge` and `extend`, any number of them at once, even failing ones. -/
theorem C30_consistent {d0 d : Db} {threads : List (List (Call E Id NP EP))} (h0 : Consistent Id d0)
    (hr : ∀ th ∈ threads, ∀ x ∈ th, ∀ t, ¬ x.Removes t) (hx : ∀ th ∈ threads, ∀ x ∈ th, ¬ x.IsExtend)
    (hd : Moment c mN mE d0 threads d) : Consistent Id d := by
  refine consistent_of_agree (agree_moment (agree_of_consistent h0) hx ?_ hd)
  refine List.Pairwise.imp_of_mem (R := fun _ _ => True) ?_ (List.pairwise_of_forall (fun _ _ => trivial))
  rintro th th' hth hth' - t
  refine ⟨?_, ?_⟩
  · rintro ⟨⟨x, hx, h⟩, -⟩
    exact hr th hth x hx t h
  · rintro ⟨⟨x, hx, h⟩, -⟩
    exact hr th' hth' x hx t h

/-- every database left by a sequence of operations is a possible start -/
theorem C30_start {n m : Nat} {s : SledStore Id} (hc : c.RoundTrip) (hs : SledStore.Reach E c mN mE n m s) :
    Consistent Id s.db := consistent_of_agree (hs.ok hc).inv.toAgree

/-- three threads: overwriting and merging an edge, removing its node, adding other edges to it -/
def busy : List (List (Call String U64 Nat Nat)) :=
  [[.insertEdge 100 ⟨1, 5, 2⟩ 50, .mergeEdge 101 ⟨2, 2, 2⟩ 6], [.removeNode 2, .insertNode 2 22],
   [.merge (Sample.cg 200) Sample.badSrc, .mergeNode 1 1, .insertEdge 102 ⟨2, 7, 1⟩ 70]]

/-- the removal of node 2 sees the first edges and not the last one -/
def busyTurns : List Nat := [1, 2, 2, 2, 2, 0, 1, 2, 2, 2, 1, 2, 0, 0, 0, 2, 1, 1, 1, 1, 0, 2]

example : done busy busyTurns = true := by decide +kernel

example : Consistent U64 (leads busy busyTurns) :=
  C30_consistent (C30_start Sample.uc_rt (Sample.sstore_reach 0 0 (by decide) (by decide)))
    (by simp [busy, Call.Removes]) (by simp [busy, Call.IsExtend]) (leads_moment _ _)


/-- the theorem needs both restrictions: `C31_violated`, `C51_violated` -/
example : ¬ Consistent U64 { db0 with pos := BMap.empty } := by
  intro h
  have := (agree_of_consistent h).same .POS ⟨1, 5, 2⟩
  revert this
  decide +kernel

/-! ## C31 Concurrent remove_edge and insert_edge stay consistent -/

/-- one thread removes an edge, another one writes it -/
def race : List (List (Call String U64 Nat Nat)) := [[.removeEdge ⟨1, 5, 2⟩], [.insertEdge 100 ⟨1, 5, 2⟩ 50]]

/-- the second thread runs between the removals from SPO and from POS that follow the transaction -/
def raceTurns : List Nat := [0, 0, 1, 1, 0, 0, 0]

/-- After both calls have returned without an error, iteration in SPO order yields the edge and iteration in the other
orders does not. -/
theorem C31_violated :
    ∃ d, DistinctIds db0 race ∧ Final Sample.uc Sample.mN Sample.mE db0 race d ∧
      (Except.ok (⟨1, 5, 2⟩, 50) ∈ iterEdges U64 Sample.uc d .SPO) ∧
      (∀ p, Except.ok (⟨1, 5, 2⟩, p) ∉ iterEdges U64 Sample.uc d .POS) ∧
      (∀ p, Except.ok (⟨1, 5, 2⟩, p) ∉ iterEdges U64 Sample.uc d .OSP) ∧ ¬ Consistent U64 d := by
  refine ⟨leads race raceTurns, ⟨by decide +kernel, by decide +kernel⟩, turns_final _ _ _ (by decide +kernel),
    by decide +kernel, ?_, ?_, fun h => ?_⟩
  · have e : iterEdges U64 Sample.uc (leads race raceTurns) .POS = [.ok (⟨2, 2, 2⟩, 3), .ok (⟨2, 5, 9⟩, 8)] := by
      decide +kernel
    rw [e]; simp
  · have e : iterEdges U64 Sample.uc (leads race raceTurns) .OSP = [.ok (⟨2, 2, 2⟩, 3), .ok (⟨2, 5, 9⟩, 8)] := by
      decide +kernel
    rw [e]; simp
  · have := (agree_of_consistent h).same .POS ⟨1, 5, 2⟩
    revert this
    decide +kernel

/-- The orderings agree at every moment, also with `remove_edge`, as long as no thread removes an edge which another thread
writes. -/
theorem C31_consistent_partial {d0 d : Db} {threads : List (List (Call E Id NP EP))} (h0 : Consistent Id d0)
    (hr : NoRace threads) (hx : ∀ th ∈ threads, ∀ x ∈ th, ¬ x.IsExtend) (hd : Moment c mN mE d0 threads d) :
    Consistent Id d := by
  refine consistent_of_agree (agree_moment (agree_of_consistent h0) hx (hr.imp ?_) hd)
  intro th th' h t
  refine ⟨?_, ?_⟩
  · rintro ⟨⟨x, hx, hxt⟩, ⟨y, hy, v, hv⟩⟩
    exact (h x hx y hy t).1 hxt v hv
  · rintro ⟨⟨x, hx, hxt⟩, ⟨y, hy, v, hv⟩⟩
    exact (h y hy x hx t).2 hxt v hv

/-- two threads remove the same edge, one of them writes it again, a third one writes other edges and removes a node -/
def calm : List (List (Call String U64 Nat Nat)) :=
  [[.removeEdge ⟨1, 5, 2⟩], [.removeNode 2, .removeEdge ⟨2, 5, 9⟩], [.insertEdge 100 ⟨2, 2, 2⟩ 60, .mergeEdge 101 ⟨1, 1, 1⟩ 61],
   [.removeEdge ⟨1, 5, 2⟩]]

def calmTurns : List Nat := [0, 1, 3, 1, 2, 3, 1, 0, 0, 1, 1, 3, 1, 0, 2, 2, 1]

theorem calm_noRace : NoRace calm := by
  simp [NoRace, calm, Call.Removes, Call.writes]

example : Consistent U64 (leads calm calmTurns) :=
  C31_consistent_partial (C30_start Sample.uc_rt (Sample.sstore_reach 0 0 (by decide) (by decide))) calm_noRace
    (by simp [calm, Call.IsExtend]) (leads_moment _ _)

/-! ## C49 Concurrent calls never lose the properties of an edge -/

/-- At every moment, iteration over the nodes and iteration over the edges in every order yield no error; the items come in
order.  Allowed are all calls but `extend`, even with the race of `C31_violated`. -/
theorem C49_noDangling {n m : Nat} {s : SledStore Id} (hc : c.RoundTrip) (hs : SledStore.Reach E c mN mE n m s) {d : Db}
    {threads : List (List (Call E Id NP EP))} (hx : ∀ th ∈ threads, ∀ x ∈ th, ¬ x.IsExtend)
    (hi : DistinctIds s.db threads) (hw : ScansSeen s.db threads) (hd : Moment c mN mE s.db threads d) :
    (∃ (N : Id → Option NP) (l : List (Id × NP)), iterVertices Id c d = l.map .ok ∧ Lists (· < ·) N l) ∧
    ∀ o, ∃ (F : Triple Id → Option EP) (l : List (Triple Id × EP)), iterEdges Id c d o = l.map .ok ∧ Lists (edgeLT o) F l := by
  obtain ⟨X, h⟩ := sound_moment hc (hs.ok hc).inv hx hi hw hd
  refine ⟨?_, fun o => ?_⟩
  · obtain ⟨l, h1, h2⟩ := iterVertices_lists h.nodes
    exact ⟨_, l, h1, h2⟩
  · obtain ⟨l, h1, h2⟩ := iterEdges_lists (h.keys o) (h.recsOk o)
    exact ⟨_, l, h1, h2⟩

/-- Without that race, the database shows a graph at every moment. -/
theorem C49_shows {n m : Nat} {s : SledStore Id} (hc : c.RoundTrip) (hs : SledStore.Reach E c mN mE n m s) {d : Db}
    {threads : List (List (Call E Id NP EP))} (hx : ∀ th ∈ threads, ∀ x ∈ th, ¬ x.IsExtend)
    (hi : DistinctIds s.db threads) (hw : ScansSeen s.db threads) (hr : NoRace threads)
    (hd : Moment c mN mE s.db threads d) : ∃ G : Graph Id NP EP, Shows (Sled.obs c d) G :=
  ⟨_, Sled.shows (inv_moment hc (hs.ok hc).inv hx hi hw hr hd)⟩

/-- And everything done later works as on that graph. -/
theorem C49_then {n m : Nat} {s : SledStore Id} (hc : c.RoundTrip) (hs : SledStore.Reach E c mN mE n m s) {d : Db}
    {threads : List (List (Call E Id NP EP))} (hx : ∀ th ∈ threads, ∀ x ∈ th, ¬ x.IsExtend)
    (hi : DistinctIds s.db threads) (hw : ScansSeen s.db threads) (hr : NoRace threads)
    (hd : Moment c mN mE s.db threads d) {G : Graph Id NP EP} (hG : Shows (Sled.obs c d) G) (h : List (Op E Id NP EP))
    {g : Gen Id} {u : Gen Ulid} (hf : FreshIds (genDraws h) (ulidDraws h) g u)
    (hn : SledStore.Unused (genDraws h) (ulidDraws h) g u d) :
    Shows (((SledStore.new d g u).applyAll c mN mE h).obs c) (stepAll c.okN c.okE mN mE G h) := by
  have inv := inv_moment hc (hs.ok hc).inv hx hi hw hr hd
  have e := shows_unique (Sled.shows inv) hG
  refine (SledStore.ok_applyAll (n := 0) (m := 0) (F := fun _ => False) hc mN mE h _ G ?_).shows
  rw [Nat.zero_add, Nat.zero_add, ← e]
  exact SledStore.ok_open inv hf hn

theorem db0_reach : SledStore.Reach String Sample.uc Sample.mN Sample.mE 0 0 Sample.sstore :=
  Sample.sstore_reach 0 0 (by decide) (by decide)

theorem race_distinct : DistinctIds db0 race := ⟨by decide +kernel, by decide +kernel⟩
theorem busy_distinct : DistinctIds db0 busy := ⟨by decide +kernel, by decide +kernel⟩

/-- also for the inconsistent database of `C31_violated` -/
example : ∀ o, ∃ (F : Triple U64 → Option Nat) (l : List (Triple U64 × Nat)),
    iterEdges U64 Sample.uc (leads race raceTurns) o = l.map .ok ∧ Lists (edgeLT o) F l :=
  (C49_noDangling Sample.uc_rt db0_reach (by simp [race, Call.IsExtend]) race_distinct (by simp [ScansSeen, race])
    (leads_moment _ _)).2

theorem busy_noRace : NoRace busy := by simp [NoRace, busy, Call.Removes]

example : ∃ G : Graph U64 Nat Nat, Shows (Sled.obs Sample.uc (leads busy busyTurns)) G :=
  C49_shows Sample.uc_rt db0_reach (by simp [busy, Call.IsExtend]) busy_distinct (by simp [ScansSeen, busy]) busy_noRace
    (leads_moment _ _)

/-- a lazy scan: it has seen an edge already overwritten by the other thread, and another one under its new id -/
def lazy : List (List (Call String U64 Nat Nat)) :=
  [[.insertEdge 100 ⟨1, 5, 2⟩ 50, .insertEdge 101 ⟨2, 2, 2⟩ 60],
   [.removeNodeScan 2 [((encodeSpo (⟨2, 2, 2⟩ : Triple U64)).1, (toBeBytes (101 : U64)).1)]
      [((encodeOsp (⟨1, 5, 2⟩ : Triple U64)).1, ((db0.osp.get (encodeOsp (⟨1, 5, 2⟩ : Triple U64)).1).getD []))]]]

theorem lazy_seen : ScansSeen db0 lazy := by
  intro th hth n fwd bwd hm
  simp only [lazy, List.mem_cons, List.not_mem_nil, or_false] at hth
  rcases hth with rfl | rfl
  · simp at hm
  · simp only [List.mem_cons, List.not_mem_nil, or_false, Call.removeNodeScan.injEq] at hm
    obtain ⟨-, rfl, rfl⟩ := hm
    constructor
    · intro e he
      rw [List.mem_singleton] at he
      subst he
      exact .inr ⟨⟨2, 2, 2⟩, by decide +kernel, rfl⟩
    · intro e he
      rw [List.mem_singleton] at he
      subst he
      left
      decide +kernel

example : ∃ G : Graph U64 Nat Nat, Shows (Sled.obs Sample.uc (leads lazy [0, 1, 0])) G :=
  C49_shows Sample.uc_rt db0_reach (by simp [lazy, Call.IsExtend]) ⟨by decide +kernel, by decide +kernel⟩ lazy_seen
    (by simp [NoRace, lazy, Call.Removes]) (leads_moment _ _)

example (G : Graph U64 Nat Nat) (hG : Shows (Sled.obs Sample.uc (leads busy busyTurns)) G) :
    Shows (((SledStore.new (leads busy busyTurns) (Sample.cg 300) (Sample.ul 300)).applyAll Sample.uc Sample.mN Sample.mE
      Sample.shist).obs Sample.uc) (stepAll Sample.uc.okN Sample.uc.okE Sample.mN Sample.mE G Sample.shist) :=
  C49_then Sample.uc_rt db0_reach (by simp [busy, Call.IsExtend]) busy_distinct (by simp [ScansSeen, busy]) busy_noRace
    (leads_moment _ _) hG _ (Sample.cu_fresh _ _ _ _ (by decide) (by decide)) (by unfold SledStore.Unused; decide +kernel)

/-! ## C50 Concurrent calls are linearizable -/

/-- At every moment the database shows the graph which results from doing, one after the other, some of the operations of
the threads, in an order compatible with each thread. -/
theorem C50_moment {n m : Nat} {s : SledStore Id} {G : Graph Id NP EP} (hc : c.RoundTrip)
    (hs : SledStore.Reach E c mN mE n m s) (hG : Shows (s.obs c) G) {d : Db} {threads : List (List (Call E Id NP EP))}
    (hx : ∀ th ∈ threads, ∀ x ∈ th, x.Simple) (hi : DistinctIds s.db threads) (hr : NoRace threads)
    (hd : Moment c mN mE s.db threads d) :
    ∃ h, Shuffle true (threads.map (List.flatMap Call.ops)) h ∧
      Shows (Sled.obs c d) (stepAll c.okN c.okE mN mE G h) := by
  obtain ⟨h, h1, h2, h3⟩ := lin_moment hc (hs.ok hc).inv hx hi hr hd
  rw [hs.graph_of_shows hc hG] at h3
  exact ⟨h, h1, by rw [← h3]; exact Sled.shows h2⟩

/-- When all threads have finished, and there were no errors, all operations have been done. -/
theorem C50_final {n m : Nat} {s : SledStore Id} {G : Graph Id NP EP} (hc : c.RoundTrip) (ht : c.Total)
    (hs : SledStore.Reach E c mN mE n m s) (hG : Shows (s.obs c) G) {d : Db} {threads : List (List (Call E Id NP EP))}
    (hx : ∀ th ∈ threads, ∀ x ∈ th, x.Simple) (hi : DistinctIds s.db threads) (hr : NoRace threads)
    (hd : Final c mN mE s.db threads d) :
    ∃ h, Shuffle false (threads.map (List.flatMap Call.ops)) h ∧
      Shows (Sled.obs c d) (stepAll c.okN c.okE mN mE G h) := by
  obtain ⟨h, h1, h2, h3⟩ := lin_final hc ht (hs.ok hc).inv hx hi hr hd
  rw [hs.graph_of_shows hc hG] at h3
  exact ⟨h, h1, by rw [← h3]; exact Sled.shows h2⟩

/-- two threads merge into the same edge, one removes and rewrites another edge, one merges a source that fails -/
def lin : List (List (Call String U64 Nat Nat)) :=
  [[.mergeEdge 100 ⟨2, 5, 9⟩ 1, .mergeEdge 101 ⟨2, 5, 9⟩ 2], [.mergeEdge 102 ⟨2, 5, 9⟩ 3, .removeEdge ⟨1, 5, 2⟩],
   [.merge (Sample.cg 200) Sample.badSrc, .removeEdge ⟨1, 5, 2⟩]]

def linTurns : List Nat := [0, 1, 2, 0, 1, 1, 2, 0, 2, 2, 1, 2, 1, 0, 2, 1, 2, 1, 2, 1, 1, 0, 2, 2]

example : done lin linTurns = true := by decide +kernel

example (G : Graph U64 Nat Nat) (hG : Shows (Sample.sstore.obs Sample.uc) G) :
    ∃ h, Shuffle false (lin.map (List.flatMap Call.ops)) h ∧
      Shows (Sled.obs Sample.uc (leads lin linTurns)) (stepAll Sample.uc.okN Sample.uc.okE Sample.mN Sample.mE G h) :=
  C50_final Sample.uc_rt Sample.uc_total db0_reach hG (by simp [lin, Call.Simple]) ⟨by decide +kernel, by decide +kernel⟩
    (by simp [NoRace, lin, Call.Removes, Call.writes, Call.drawnFor, Sample.badSrc]) (leads_final (by decide +kernel))

example (G : Graph U64 Nat Nat) (hG : Shows (Sample.sstore.obs Sample.uc) G) :
    ∃ h, Shuffle true (lin.map (List.flatMap Call.ops)) h ∧
      Shows (Sled.obs Sample.uc (leads lin [0, 1, 2])) (stepAll Sample.uc.okN Sample.uc.okE Sample.mN Sample.mE G h) :=
  C50_moment Sample.uc_rt db0_reach hG (by simp [lin, Call.Simple]) ⟨by decide +kernel, by decide +kernel⟩
    (by simp [NoRace, lin, Call.Removes, Call.writes, Call.drawnFor, Sample.badSrc]) (leads_moment _ _)

/-- `remove_node` with two insertions by another thread -/
def nodeRace : List (List (Call String U64 Nat Nat)) :=
  [[.removeNode 2], [.insertEdge 100 ⟨2, 7, 7⟩ 70, .insertEdge 101 ⟨2, 2, 2⟩ 60]]

/-- the second thread runs between the scans and the transaction -/
def nodeRaceTurns : List Nat := [0, 0, 1, 1, 1, 1, 0, 0]

theorem shuffle_two {α : Type} {x y h : List α} (hs : Shuffle false [x, y] h) :
    (x = [] ∧ y = [] ∧ h = []) ∨ (∃ a q h', x = a :: q ∧ h = a :: h' ∧ Shuffle false [q, y] h') ∨
      ∃ a q h', y = a :: q ∧ h = a :: h' ∧ Shuffle false [x, q] h' := by
  generalize hl : [x, y] = l at hs
  cases hs with
  | nil _ h =>
    subst hl
    exact .inl ⟨h x (by simp), h y (by simp), rfl⟩
  | take pre post a q h hs =>
    right
    match pre, hl with
    | [], hl =>
      simp only [List.nil_append, List.cons.injEq] at hl
      obtain ⟨rfl, rfl⟩ := hl
      exact .inl ⟨a, q, h, rfl, rfl, hs⟩
    | [_], hl =>
      simp only [List.cons_append, List.nil_append, List.cons.injEq] at hl
      obtain ⟨rfl, rfl, rfl⟩ := hl
      exact .inr ⟨a, q, h, rfl, rfl, hs⟩
    | _ :: _ :: _, hl => simp at hl
  | drop _ _ _ _ _ hb => cases hb

theorem shuffle_one_two {α : Type} {a b e : α} {h : List α} (hs : Shuffle false [[a], [b, e]] h) :
    h = [a, b, e] ∨ h = [b, a, e] ∨ h = [b, e, a] := by
  have nil : ∀ {h : List α}, Shuffle false [[], []] h → h = [] := by
    intro h hs
    rcases shuffle_two hs with ⟨-, -, rfl⟩ | ⟨_, _, _, h, -⟩ | ⟨_, _, _, h, -⟩ <;> first | rfl | cases h
  have one : ∀ {a : α} {h : List α}, Shuffle false [[a], []] h → h = [a] := by
    intro a h hs
    rcases shuffle_two hs with ⟨h, -⟩ | ⟨_, _, _, h, rfl, hs⟩ | ⟨_, _, _, h, -⟩
    · cases h
    · cases h; rw [nil hs]
    · cases h
  have one' : ∀ {a : α} {h : List α}, Shuffle false [[], [a]] h → h = [a] := by
    intro a h hs
    rcases shuffle_two hs with ⟨-, h, -⟩ | ⟨_, _, _, h, -⟩ | ⟨_, _, _, h, rfl, hs⟩
    · cases h
    · cases h
    · cases h; rw [nil hs]
  have two : ∀ {h : List α}, Shuffle false [[], [b, e]] h → h = [b, e] := by
    intro h hs
    rcases shuffle_two hs with ⟨-, h, -⟩ | ⟨_, _, _, h, -⟩ | ⟨_, _, _, h, rfl, hs⟩
    · cases h
    · cases h
    · cases h; rw [one' hs]
  rcases shuffle_two hs with ⟨h, -⟩ | ⟨_, _, _, h, rfl, hs⟩ | ⟨_, _, _, h, rfl, hs⟩
  · cases h
  · cases h; rw [two hs]; exact .inl rfl
  · cases h
    rcases shuffle_two hs with ⟨h, -⟩ | ⟨_, _, _, h, rfl, hs⟩ | ⟨_, _, _, h, rfl, hs⟩
    · cases h
    · cases h; rw [one' hs]; exact .inr (.inl rfl)
    · cases h; rw [one hs]; exact .inr (.inr rfl)

/-- `remove_node` is not linearizable: in every sequence of the three operations, the edge written last is there at the end
if the one written before is; here it is not. -/
theorem C50_removeNode_violated :
    ∃ d, DistinctIds db0 nodeRace ∧ NoRace nodeRace ∧ Final Sample.uc Sample.mN Sample.mE db0 nodeRace d ∧
      ∀ (G : Graph U64 Nat Nat) (h : List (Op String U64 Nat Nat)), Shuffle false (nodeRace.map (List.flatMap Call.ops)) h →
        ¬ Shows (Sled.obs Sample.uc d) (stepAll Sample.uc.okN Sample.uc.okE Sample.mN Sample.mE G h) := by
  refine ⟨leads nodeRace nodeRaceTurns, ⟨by decide +kernel, by decide +kernel⟩,
    by simp [NoRace, nodeRace, Call.Removes], leads_final (by decide +kernel), fun G h hh hs => ?_⟩
  have e : iterEdges U64 Sample.uc (leads nodeRace nodeRaceTurns) .SPO = [(⟨2, 7, 7⟩, 70)].map .ok := by decide +kernel
  obtain ⟨l, h1, -, h2⟩ := hs.2 .SPO
  have hl : l = [(⟨2, 7, 7⟩, 70)] :=
    List.map_injective_iff.2 (fun a b h => Except.ok.inj h) (h1.symm.trans e)
  subst hl
  have a1 := (h2 ⟨2, 7, 7⟩ 70).1 (by simp)
  have a2 := mt (h2 ⟨2, 2, 2⟩ 60).2 (by simp)
  rcases shuffle_one_two hh with rfl | rfl | rfl
  · exact a2 (by simp [stepAll, Op.step, storeEdge, Codecs.okE, Sample.uc, Sample.unary, one, Graph.insertEdge])
  · exact a2 (by simp [stepAll, Op.step, storeEdge, Codecs.okE, Sample.uc, Sample.unary, one, Graph.insertEdge])
  · simp [stepAll, Op.step, Graph.removeNode] at a1

/-! ## C51 Concurrent extends -/

def onlyEdge (p : Nat) : Source String U64 Nat Nat := { nodes := [], edges := [.ok (⟨1, 5, 2⟩, p)] }

/-- two threads extend the store by the same edge -/
def extRace : List (List (Call String U64 Nat Nat)) := [[.extend (Sample.ul 300) (onlyEdge 60)], [.extend (Sample.ul 400) (onlyEdge 61)]]

/-- the second thread runs after the first one has written its id into SPO -/
def extTurns : List Nat := [0, 0, 1, 1, 1, 1, 1, 1, 0, 0, 0, 0]

/-- After both calls have returned without an error, iteration yields `MissingPropertyData` in two of the orders. -/
theorem C51_violated :
    ∃ d, DistinctIds db0 extRace ∧ Final Sample.uc Sample.mN Sample.mE db0 extRace d ∧
      iterEdges U64 Sample.uc d .SPO = [.ok (⟨1, 5, 2⟩, 61), .ok (⟨2, 2, 2⟩, 3), .ok (⟨2, 5, 9⟩, 8)] ∧
      iterEdges U64 Sample.uc d .POS = [.ok (⟨2, 2, 2⟩, 3), .error .missing, .ok (⟨2, 5, 9⟩, 8)] ∧
      iterEdges U64 Sample.uc d .OSP = [.error .missing, .ok (⟨2, 2, 2⟩, 3), .ok (⟨2, 5, 9⟩, 8)] :=
  ⟨leads extRace extTurns, ⟨by decide +kernel, by decide +kernel⟩, leads_final (by decide +kernel), by decide +kernel,
    by decide +kernel, by decide +kernel⟩

end Verif.Props
