import Verif.Proof.SledSessions
import Verif.Props.SledLoose

/-!
# C77: a database used by one process after the other, each of which may crash

C76 starts from a consistent database. Here a process starts from whatever the processes before have left: broken orderings
included. It suffices that all ids which any of them draws are different.
-/

set_option linter.unusedSectionVars false
set_option maxRecDepth 100000

namespace Verif.Props

open Verif Spec ConcreteId Sled

variable {Id NP EP E : Type} [LinearOrder Id] [ConcreteId Id] [LawfulId Id]
variable {mN : NP → NP → NP} {mE : EP → EP → EP} {c : Codecs NP EP}

/-- Through the first ordering, the database shows the graph that the operations make, one after the other and process after
process; those of a process which crashed in part. Edges which no process has broken are in every ordering. -/
theorem C77_sessions {n m : Nat} {s : SledStore Id} {G : Graph Id NP EP} (hc : c.RoundTrip) (ht : c.Total)
    (hs : SledStore.Reach E c mN mE n m s) (hG : Shows (s.obs c) G) {ss : List (Session E Id NP EP)} {d : Db}
    (hx : ∀ s ∈ ss, ∀ th ∈ s.threads, ∀ x ∈ th, ¬ x.1.IsScan) (hi : DistinctIds s.db (everyCall ss))
    (hd : Runs (fun d s d' => s.Leads c mN mE d d') s.db ss d) :
    ∃ G', LooseSessions c.okN c.okE mN mE (fun _ => False) G ss G' ∧ SpoShows c d G' ∧
      ∀ t, (∀ s ∈ ss, ¬ s.Breaks t) → ∀ o p, .ok (t, p) ∈ iterEdges Id c d o ↔ G'.edges t = some p := by
  have inv := (hs.ok hc).inv
  rw [← hs.graph_of_shows hc hG]
  obtain ⟨h1, ⟨X, h2⟩, h3⟩ := sessions_lead hc ht ss (ready_start inv hi rfl) (B := fun _ => False) (fun t _ o => inv.same o t) hx hd
  refine ⟨_, h1, spoOk_shows h2, fun t hb o p => ?_⟩
  rw [mem_iterEdges (h2.neat.keys o), AgreeAt.view (h3 t id hb)]

/-- If no thread removes nodes, all operations do what they should. -/
theorem C77_strict {okN : NP → Bool} {okE : EP → Bool} {B : Triple Id → Prop} {ss : List (Session E Id NP EP)} {G G' : Graph Id NP EP}
    (hn : ∀ s ∈ ss, ∀ th ∈ s.threads, ∀ x ∈ th, ∀ n, x.1 ≠ .removeNode n)
    (hx : ∀ s ∈ ss, ∀ th ∈ s.threads, ∀ x ∈ th, ¬ x.1.IsScan)
    (h : LooseSessions okN okE mN mE B G ss G') :
    ∃ hs, List.Forall₂ (fun (s : Session E Id NP EP) h => Shuffle s.crash ((calls s.threads).map (List.flatMap Call.items)) h) ss hs ∧
      G' = stepAll okN okE mN mE G hs.flatten := by
  induction ss generalizing G B with
  | nil => exact ⟨[], .nil, h⟩
  | cons s ss ih =>
    obtain ⟨h, H, h1, h2, h3⟩ := h
    obtain ⟨hs, k1, k2⟩ := ih (fun s hs => hn s (List.mem_cons_of_mem _ hs)) (fun s hs => hx s (List.mem_cons_of_mem _ hs)) h3
    refine ⟨h :: hs, .cons h1 k1, ?_⟩
    rw [k2, C76_strict (fun n hm => ?_) h2, List.flatten_cons]
    · simp [stepAll]
    · obtain ⟨l, hl, hm⟩ := mem_shuffle h1 hm
      obtain ⟨l', hl', rfl⟩ := List.mem_map.1 hl
      obtain ⟨y, hy, hm⟩ := List.mem_flatMap.1 hm
      obtain ⟨th, hth, rfl⟩ := List.mem_map.1 hl'
      obtain ⟨x, hx', rfl⟩ := List.mem_map.1 hy
      have h1 := hn s List.mem_cons_self th hth x hx' n
      have h2 := hx s List.mem_cons_self th hth x hx'
      obtain ⟨x, fs, bs⟩ := x
      cases x with
      | removeNode m => simp [Call.items, Call.ops] at hm; exact h1 (by rw [hm])
      | removeNodeScan => exact h2 trivial
      | extend u src =>
        simp only [Call.items] at hm
        rcases List.mem_append.1 hm with hm | hm
        · obtain ⟨_, -, h⟩ := List.mem_map.1 hm; cases h
        · split at hm
          · cases hm
          · obtain ⟨_, -, h⟩ := List.mem_map.1 hm; cases h
      | merge g src =>
        simp only [Call.items, Call.ops] at hm
        rcases List.mem_append.1 hm with hm | hm
        · obtain ⟨_, -, h⟩ := List.mem_map.1 hm; cases h
        · split at hm
          · cases hm
          · obtain ⟨_, -, h⟩ := List.mem_map.1 hm; cases h
      | _ => simp [Call.items, Call.ops] at hm

/-! ## three processes -/

/-- what a process makes of a database by a given schedule -/
def procDb (s : Session String U64 Nat Nat) (l : List Nat) (d : Db) : Db × List (List (Prog Db Unit)) :=
  l.foldl turn (d, s.threads.map (List.map (PieceCall.prog Sample.uc Sample.mN Sample.mE)))

theorem proc_crash {s : Session String U64 Nat Nat} {l : List Nat} {d : Db} (h : s.crash = true) :
    s.Leads Sample.uc Sample.mN Sample.mE d (procDb s l d).1 := by
  unfold Session.Leads
  rw [h]
  exact ⟨_, (turns_calm _ l).steps⟩

theorem proc_end {s : Session String U64 Nat Nat} {l : List Nat} {d : Db} (h : s.crash = false)
    (he : (procDb s l d).2.all List.isEmpty = true) : s.Leads Sample.uc Sample.mN Sample.mE d (procDb s l d).1 := by
  unfold Session.Leads
  rw [h]
  exact ⟨_, turns_calm _ l, fun th hth => List.isEmpty_iff.1 (List.all_eq_true.1 he th hth)⟩

/-- It extends the store by an edge and crashes. -/
def proc1 : Session String U64 Nat Nat :=
  { crash := true
    threads := [[(.extend (Sample.ul 300) { nodes := [.ok (3, 30)], edges := [.ok (⟨3, 3, 2⟩, 60)] }, [], [])],
      [(.insertEdge 100 ⟨8, 8, 8⟩ 80, [], []), (.removeNode 9, [], [])]] }

/-- It goes through its calls; two threads extend the store by the same edge. -/
def proc2 : Session String U64 Nat Nat :=
  { crash := false
    threads := [[(.extend (Sample.ul 301) (onlyEdge 61), [], [])], [(.extend (Sample.ul 302) (onlyEdge 62), [], [])],
      [(.extend (Sample.ul 303) { nodes := [], edges := [.ok (⟨6, 6, 2⟩, 70)] }, [], []), (.insertNode 4 40, [], [])]] }

/-- It removes the object of all these edges. -/
def proc3 : Session String U64 Nat Nat :=
  { crash := false
    threads := [[(.removeNode 2, [1], [1, 0])], [(.mergeEdge 101 ⟨8, 8, 8⟩ 5, [], [])]] }

def db1 : Db := (procDb proc1 [0, 0, 0, 1, 1, 1] db0).1
def db2 : Db := (procDb proc2 (extTurns ++ [2, 2, 2, 2, 2, 2, 2, 2, 2]) db1).1
def db3 : Db := (procDb proc3 [0, 1, 0, 0, 1, 0, 1, 0, 0, 0, 0, 0, 1] db2).1

theorem three_lead : Runs (fun d s d' => Session.Leads Sample.uc Sample.mN Sample.mE d s d') db0 [proc1, proc2, proc3] db3 :=
  ⟨db1, proc_crash rfl, db2, proc_end rfl (by decide +kernel), db3, proc_end rfl (by decide +kernel), rfl⟩

theorem three_noScan : ∀ s ∈ [proc1, proc2, proc3], ∀ th ∈ s.threads, ∀ x ∈ th, ¬ x.1.IsScan := by
  simp only [proc1, proc2, proc3, List.mem_cons, List.not_mem_nil, or_false, forall_eq_or_imp, forall_eq]
  exact ⟨⟨id, id, id⟩, ⟨id, id, id, id⟩, id, id⟩

theorem three_distinct : DistinctIds db0 (everyCall [proc1, proc2, proc3]) := ⟨by decide +kernel, by decide +kernel⟩

/-- The edge of the process which crashed is only in SPO, and stays when its object is removed. The edge two threads raced on
is in POS and OSP without a record; it is removed with its object, as is the edge which only one thread has added. -/
example : iterEdges U64 Sample.uc db1 .SPO = [(⟨1, 5, 2⟩, 4), (⟨2, 2, 2⟩, 3), (⟨2, 5, 9⟩, 8), (⟨3, 3, 2⟩, 60), (⟨8, 8, 8⟩, 80)].map .ok ∧
    iterEdges U64 Sample.uc db1 .OSP = [(⟨1, 5, 2⟩, 4), (⟨2, 2, 2⟩, 3), (⟨8, 8, 8⟩, 80), (⟨2, 5, 9⟩, 8)].map .ok ∧
    iterEdges U64 Sample.uc db2 .SPO =
      [(⟨1, 5, 2⟩, 62), (⟨2, 2, 2⟩, 3), (⟨2, 5, 9⟩, 8), (⟨3, 3, 2⟩, 60), (⟨6, 6, 2⟩, 70), (⟨8, 8, 8⟩, 80)].map .ok ∧
    iterEdges U64 Sample.uc db2 .OSP =
      .error .missing :: [(⟨2, 2, 2⟩, 3), (⟨6, 6, 2⟩, 70), (⟨8, 8, 8⟩, 80), (⟨2, 5, 9⟩, 8)].map .ok ∧
    iterEdges U64 Sample.uc db3 .SPO = [(⟨3, 3, 2⟩, 60), (⟨8, 8, 8⟩, 805)].map .ok ∧
    iterEdges U64 Sample.uc db3 .OSP = [(⟨8, 8, 8⟩, 805)].map .ok :=
  ⟨by decide +kernel, by decide +kernel, by decide +kernel, by decide +kernel, by decide +kernel, by decide +kernel⟩

example (G : Graph U64 Nat Nat) (hG : Shows (Sample.sstore.obs Sample.uc) G) :
    ∃ G', LooseSessions Sample.uc.okN Sample.uc.okE Sample.mN Sample.mE (fun _ => False) G [proc1, proc2, proc3] G' ∧
      SpoShows Sample.uc db3 G' ∧
      ∀ t, (∀ s ∈ [proc1, proc2, proc3], ¬ s.Breaks t) → ∀ o p, .ok (t, p) ∈ iterEdges U64 Sample.uc db3 o ↔ G'.edges t = some p :=
  C77_sessions Sample.uc_rt Sample.uc_total db0_reach hG three_noScan three_distinct three_lead

example : (∀ s ∈ [proc1, proc2, proc3], ¬ s.Breaks ⟨6, 6, 2⟩) ∧ (∀ s ∈ [proc1, proc2, proc3], ¬ s.Breaks ⟨8, 8, 8⟩) ∧
    proc1.Breaks ⟨3, 3, 2⟩ ∧ proc2.Breaks ⟨1, 5, 2⟩ := by
  simp [proc1, proc2, proc3, Session.Breaks, EdgeRaced, ExtendRaced, Extended, calls, Call.Removes, Call.writes, Call.drawnFor,
    Call.IsExtend, Call.TouchesEdge, onlyEdge]
  refine ⟨?_, ?_⟩ <;> rintro x y z (⟨rfl, -⟩ | ⟨rfl, -⟩) <;> simp

example (G : Graph U64 Nat Nat) (hG : Shows (Sample.sstore.obs Sample.uc) G) :
    ∃ hs, List.Forall₂ (fun (s : Session String U64 Nat Nat) h => Shuffle s.crash ((calls s.threads).map (List.flatMap Call.items)) h)
      [proc2] hs ∧ SpoShows Sample.uc (procDb proc2 (extTurns ++ [2, 2, 2, 2, 2, 2, 2, 2, 2]) db0).1
        (stepAll Sample.uc.okN Sample.uc.okE Sample.mN Sample.mE G hs.flatten) := by
  have hn : ∀ s ∈ [proc2], ∀ th ∈ s.threads, ∀ x ∈ th, ¬ x.1.IsScan := fun s hs => three_noScan s (by simp at hs; simp [hs])
  obtain ⟨G', h1, h2, -⟩ := C77_sessions (ss := [proc2]) Sample.uc_rt Sample.uc_total db0_reach hG hn
    ⟨by decide +kernel, by decide +kernel⟩
    ⟨_, proc_end (l := extTurns ++ [2, 2, 2, 2, 2, 2, 2, 2, 2]) rfl (by decide +kernel), rfl⟩
  obtain ⟨hs, h3, rfl⟩ := C77_strict (by
    simp only [proc2, List.mem_cons, List.not_mem_nil, or_false, forall_eq_or_imp, forall_eq]
    simp) hn h1
  exact ⟨hs, h3, h2⟩

/-- It removes the object of the edge, alone. -/
def proc4 : Session String U64 Nat Nat := { crash := false, threads := [[(.removeNode 2, [], [])]] }

/-- An edge may be left although the process which removes its object has the database to itself: this is due to the process
before. No order of the operations leads to that. -/
theorem C77_left :
    ∃ d, DistinctIds db0 (everyCall [proc1, proc4]) ∧
      Runs (fun d s d' => Session.Leads Sample.uc Sample.mN Sample.mE d s d') db0 [proc1, proc4] d ∧
      ∀ (G : Graph U64 Nat Nat) (h h' : List (Op String U64 Nat Nat)),
        Shuffle true ((calls proc1.threads).map (List.flatMap Call.items)) h →
        Shuffle false ((calls proc4.threads).map (List.flatMap Call.items)) h' →
        ¬ SpoShows Sample.uc d (stepAll Sample.uc.okN Sample.uc.okE Sample.mN Sample.mE G (h ++ h')) := by
  refine ⟨(procDb proc4 (List.replicate 9 0) db1).1, ⟨by decide +kernel, by decide +kernel⟩,
    ⟨db1, proc_crash rfl, _, proc_end rfl (by decide +kernel), rfl⟩, fun G h h' _ h2 hs => ?_⟩
  have e : iterEdges U64 Sample.uc (procDb proc4 (List.replicate 9 0) db1).1 .SPO = [(⟨3, 3, 2⟩, 60), (⟨8, 8, 8⟩, 80)].map .ok := by
    decide +kernel
  obtain ⟨l, k1, -, k2⟩ := hs.edges
  have hl := List.map_injective_iff.2 (fun a b h => Except.ok.inj h) (k1.symm.trans e)
  subst hl
  have a1 := (k2 ⟨3, 3, 2⟩ 60).1 (by simp)
  have : h' = [.removeNode 2] := by
    have key : ∀ {l h : List (Op String U64 Nat Nat)}, Shuffle false [l] h → h = l := by
      intro l h hs
      generalize hL : [l] = L at hs
      induction hs generalizing l with
      | nil ls hh =>
        subst hL
        exact (hh l (by simp)).symm
      | take pre post a k h hs ih =>
        match pre, hL with
        | [], hL =>
          simp only [List.nil_append, List.cons.injEq] at hL
          obtain ⟨rfl, rfl⟩ := hL
          rw [ih rfl]
        | _ :: _, hL => simp at hL
      | drop _ _ _ _ _ hb => cases hb
    exact key h2
  subst this
  simp [stepAll, List.foldl_append, Op.step, Graph.removeNode] at a1

end Verif.Props
