import Verif.Proof.RdfHistory
import Verif.Props.HistoryLoose
import Verif.Props.RdfSledLoose

/-!
# C88: one history for all moments of threads with RDF stores

C79 says of what processes with RDF stores leave behind that there is an order of the operations on the triple store that explains it.
Here there is one order for all moments of a course of events, and one table of names which grows: each name is entered by a call that
creates it, while the call is under way.
-/

set_option linter.unusedSectionVars false
set_option maxRecDepth 100000

namespace Verif.Props

open Verif Spec ConcreteId RdfSled

/-! ## C88 One history explains all moments of RDF stores -/

section
variable {NP EP E : Type} {cl : Codec String} {cr : Codec Ulid} {c : Codecs NP EP} {mN : NP → NP → NP} {mE : EP → EP → EP}
  {C : List Ulid}

/-- Whatever calls threads make: there are names and their ids at each moment; calls on the triple store which the calls of the threads
make; and a history of these, which explains what SPO shows at each moment.  In it every call of a thread has its effects between the
moments when it begins and when it returns.  What a call has done at some moment are the first operations of calls on the triple store
in which names have the ids they have at that moment.  A call that has returned has done what it should, or was unable to: for want of a
name, which was not in the table when the call began. -/
theorem C88_rdf {part : Bool} (hl : cl.RoundTrips) (hr : cr.RoundTrips) (tl : cl.Total) (tr : cr.Total) (hc : c.RoundTrip) (ht : c.Total)
    {d0 : RdfDb} {f : String → Option Ulid} {G : Graph Ulid NP EP} (h : Life cl cr c mN mE E C d0)
    (hf : (SledIndex.impl cl cr).Shows d0.names f) (hG : Sled.SpoShows c d0.data G)
    {threads : List (List (RdfSled.PieceCall E NP EP))} (hi : NewIdsFor f d0.data (threads.flatten.map Prod.fst))
    {x : Nat → RdfDb × List (List (Prog RdfDb Unit))} {N : Nat} (hC : Course part x N)
    (h0 : x 0 = (d0, threads.map (List.map (RdfSled.PieceCall.prog cl cr c mN mE)))) :
    ∃ (F : Nat → String → Option Ulid) (ths : List (List (RdfSled.PieceCall E NP EP × List (Sled.PieceCall E Ulid NP EP))))
      (h : List (Nat × Nat × Op E Ulid NP EP)) (cut : Nat → Nat) (H : Nat → Graph Ulid NP EP),
      -- the names
      F 0 = f ∧ (∀ k ≤ N, (SledIndex.impl cl cr).Shows (x k).1.names (F k)) ∧
      (∀ k < N, Keeps (F k) (F (k + 1)) ∧ Named (x k).2 (x (k + 1)).2 threads (F k) (F (k + 1))) ∧
      -- the calls on the triple store
      ths.map (List.map Prod.fst) = threads ∧
      (∀ th ∈ ths, ∀ y ∈ th, CallDid true f (F N) (th.map Prod.fst) y.1 y.2) ∧
      (∀ k ≤ N, ∀ (i : Nat) th (j : Nat) y, ths[i]? = some th → th[j]? = some y → ∃ l, l <+: y.2 ∧
        CallDid true f (F k) (th.map Prod.fst) y.1 l ∧ doneBy i j (h.take (cut k)) <+: l.flatMap (fun z => z.1.acts)) ∧
      (∀ k' k, k' ≤ k → k ≤ N → ∀ (i : Nat) th q' q (j : Nat) y, ths[i]? = some th → (x k').2[i]? = some q' → (x k).2[i]? = some q →
        th[j]? = some y → (th.drop j).map (fun y => y.1.prog cl cr c mN mE) <:+ q' → j + q.length < th.length →
        CallDid part (F k') (F k) (th.map Prod.fst) y.1 y.2) ∧
      -- the history
      Tells part (fun y => y.1.prog cl cr c mN mE) (fun y => y.2.flatMap (fun z => z.1.acts))
        (LooseStep c.okN c.okE mN mE (Sled.FromRaced (Sled.calls (ths.map (List.flatMap Prod.snd))))
          (Sled.ToRaced (Sled.calls (ths.map (List.flatMap Prod.snd)))))
        (fun d G => Sled.ShowsBut c (Sled.ToRaced (Sled.calls (ths.map (List.flatMap Prod.snd)))) d.data G) G ths x N h cut H ∧
      -- what is read
      ∀ k ≤ N, ∃ X : RdfState NP EP, Agree (F k) (H (cut k)) X ∧ ∀ u g, Represents
        (.mk ((openOn (x k).1 u g).iterVertices (SledIndex.impl cl cr) (SledStore.impl c mN mE))
          ((openOn (x k).1 u g).iterEdges (SledIndex.impl cl cr) (SledStore.impl c mN mE) .SPO)) X.graph := by
  obtain ⟨_, _, _, inv, _⟩ := h.leaves hl hr tl tr hc
  obtain ⟨F, ths, h, cut, H, k1, k2, k3, k4, k5, k6, k7, k8, -⟩ := rdf_history hl hr tl tr hc ht hf (h.well hc) inv hG hi hC h0
  refine ⟨F, ths, h, cut, H, k2, k3, k4, k1, k5, k6, k7, k8, fun k hk => ?_⟩
  obtain ⟨X, hX⟩ := agree_exists (F k) (H (cut k))
  exact ⟨X, hX, spo_reads (k3 k hk) (k8.shows k hk).1 hX⟩

/-- the calls on the triple store remove a node only if the call is to remove one -/
theorem acts_removeNode {f f' : String → Option Ulid} {th : List (RdfSled.PieceCall E NP EP)} {y : RdfSled.PieceCall E NP EP}
    {l : List (Sled.PieceCall E Ulid NP EP)} (h : CallDid true f f' th y l) (hy : ∀ e, y.1.op ≠ .removeNode e) (n : Ulid) :
    .removeNode n ∉ l.flatMap (fun z => z.1.acts) := by
  intro hm
  obtain ⟨z, hz, hm⟩ := List.mem_flatMap.1 hm
  obtain ⟨w, hw, he⟩ := List.mem_map.1 (h.1.subset (List.mem_map_of_mem hz))
  obtain ⟨w, hw', rfl⟩ := List.mem_map.1 hw
  have hr : ∀ e, w ≠ .removeNode e := by
    rintro e rfl
    obtain ⟨⟨op, ids⟩, _⟩ := y
    have edges : ∀ (mk : Entity → Triple Entity → EP → Sled.Call E Entity NP EP) (_ : ∀ i t p, mk i t p ≠ .removeNode e)
        (l : List (Triple Entity × EP)) (g : Gen Ulid), .removeNode e ∉ edgeCalls mk g l := by
      intro mk hmk l
      induction l with
      | nil => intro g h; cases h
      | cons a l ih =>
        intro g h
        rcases List.mem_cons.1 h with h | h
        · exact hmk _ _ _ h.symm
        · exact ih _ h
    cases op with
    | removeNode e => exact hy e rfl
    | extend src =>
      rcases List.mem_append.1 hw' with h | h
      · obtain ⟨_, _, h⟩ := List.mem_map.1 h; cases h
      · split at h
        · cases h
        · exact edges _ (fun _ _ _ h => by cases h) _ _ h
    | merge src =>
      rcases List.mem_append.1 hw' with h | h
      · obtain ⟨_, _, h⟩ := List.mem_map.1 h; cases h
      · split at h
        · cases h
        · exact edges _ (fun _ _ _ h => by cases h) _ _ h
    | _ => simp [RdfSled.Call.wants] at hw'
  obtain ⟨z1, e1, rfl⟩ := Option.map_eq_some_iff.1 he
  cases w with
  | removeNode e => exact hr e rfl
  | insertNode e p => obtain ⟨_, _, rfl⟩ := Option.map_eq_some_iff.1 e1; simp [Sled.Call.acts, Sled.Call.items, Sled.Call.ops] at hm
  | mergeNode e p => obtain ⟨_, _, rfl⟩ := Option.map_eq_some_iff.1 e1; simp [Sled.Call.acts, Sled.Call.items, Sled.Call.ops] at hm
  | removeEdge t => obtain ⟨_, _, rfl⟩ := Option.map_eq_some_iff.1 e1; simp [Sled.Call.acts] at hm
  | insertEdge i t p =>
    obtain ⟨_, _, e2⟩ := Option.bind_eq_some_iff.1 e1
    obtain ⟨_, _, rfl⟩ := Option.map_eq_some_iff.1 e2
    simp [Sled.Call.acts, Sled.Call.items, Sled.Call.ops] at hm
  | mergeEdge i t p =>
    obtain ⟨_, _, e2⟩ := Option.bind_eq_some_iff.1 e1
    obtain ⟨_, _, rfl⟩ := Option.map_eq_some_iff.1 e2
    simp [Sled.Call.acts, Sled.Call.items, Sled.Call.ops] at hm
  | _ => cases e1

/-- If no thread removes a node, all operations of the history do what they should. -/
theorem C88_strict {part : Bool} (hl : cl.RoundTrips) (hr : cr.RoundTrips) (tl : cl.Total) (tr : cr.Total) (hc : c.RoundTrip) (ht : c.Total)
    {d0 : RdfDb} {f : String → Option Ulid} {G : Graph Ulid NP EP} (h : Life cl cr c mN mE E C d0)
    (hf : (SledIndex.impl cl cr).Shows d0.names f) (hG : Sled.SpoShows c d0.data G)
    {threads : List (List (RdfSled.PieceCall E NP EP))} (hi : NewIdsFor f d0.data (threads.flatten.map Prod.fst))
    (hn : ∀ th ∈ threads, ∀ y ∈ th, ∀ e, y.1.op ≠ .removeNode e)
    {x : Nat → RdfDb × List (List (Prog RdfDb Unit))} {N : Nat} (hC : Course part x N)
    (h0 : x 0 = (d0, threads.map (List.map (RdfSled.PieceCall.prog cl cr c mN mE)))) :
    ∃ (F : Nat → String → Option Ulid) (ths : List (List (RdfSled.PieceCall E NP EP × List (Sled.PieceCall E Ulid NP EP))))
      (h : List (Nat × Nat × Op E Ulid NP EP)) (cut : Nat → Nat),
      F 0 = f ∧ (∀ k ≤ N, (SledIndex.impl cl cr).Shows (x k).1.names (F k)) ∧
      (∀ k < N, Keeps (F k) (F (k + 1)) ∧ Named (x k).2 (x (k + 1)).2 threads (F k) (F (k + 1))) ∧
      ths.map (List.map Prod.fst) = threads ∧
      (∀ th ∈ ths, ∀ y ∈ th, CallDid true f (F N) (th.map Prod.fst) y.1 y.2) ∧
      (∀ k ≤ N, ∀ (i : Nat) th (j : Nat) y, ths[i]? = some th → th[j]? = some y → ∃ l, l <+: y.2 ∧
        CallDid true f (F k) (th.map Prod.fst) y.1 l ∧ doneBy i j (h.take (cut k)) <+: l.flatMap (fun z => z.1.acts)) ∧
      (∀ k' k, k' ≤ k → k ≤ N → ∀ (i : Nat) th q' q (j : Nat) y, ths[i]? = some th → (x k').2[i]? = some q' → (x k).2[i]? = some q →
        th[j]? = some y → (th.drop j).map (fun y => y.1.prog cl cr c mN mE) <:+ q' → j + q.length < th.length →
        CallDid part (F k') (F k) (th.map Prod.fst) y.1 y.2) ∧
      Explains part (fun y => y.1.prog cl cr c mN mE) (fun y => y.2.flatMap (fun z => z.1.acts))
        (fun G op => (op.step c.okN c.okE mN mE G).1)
        (fun d G => Sled.ShowsBut c (Sled.ToRaced (Sled.calls (ths.map (List.flatMap Prod.snd)))) d.data G) G ths x N h cut := by
  obtain ⟨F, ths, h, cut, H, k1, k2, k3, k4, k5, k6, k7, k8, -⟩ := C88_rdf hl hr tl tr hc ht h hf hG hi hC h0
  refine ⟨F, ths, h, cut, k1, k2, k3, k4, k5, k6, k7, C87_strict k8 (fun th hth y hy n => acts_removeNode (k5 th hth y hy) ?_ n)⟩
  exact hn _ (k4 ▸ List.mem_map_of_mem hth) _ (List.mem_map_of_mem hy)

end

/-! ## examples -/

def rdfStart (d : RdfDb) (s : RSession) : RdfDb × List (List (Prog RdfDb Unit)) :=
  (d, s.threads.map (List.map (RdfSled.PieceCall.prog Sample.names Sample.ids Sample.uc Sample.mN Sample.mE)))

/-- the course of a process by a given schedule -/
def rdfCourse (d : RdfDb) (s : RSession) (l : List Nat) (k : Nat) : RdfDb × List (List (Prog RdfDb Unit)) :=
  ((awake (rdfStart d s) l).take k).foldl turn (rdfStart d s)

theorem rdfCourse_course (d : RdfDb) (s : RSession) (l : List Nat) : Course false (rdfCourse d s l) (awake (rdfStart d s) l).length :=
  course_turns _ _ (moves_awake _ _)

/-- a node is removed while another thread adds an edge from it -/
example (f : String → Option Ulid) (hf : (SledIndex.impl Sample.names Sample.ids).Shows rdfDb0.names f) (G : Graph Ulid Nat Nat)
    (hG : Sled.SpoShows Sample.uc rdfDb0.data G) :
    ∃ (F : Nat → String → Option Ulid) (ths : List (List (RdfSled.PieceCall String Nat Nat × List (Sled.PieceCall String Ulid Nat Nat))))
      (h : List (Nat × Nat × Op String Ulid Nat Nat)) (cut : Nat → Nat) (H : Nat → Graph Ulid Nat Nat),
      F 0 = f ∧ ths.map (List.map Prod.fst) = rproc3.threads ∧
      Tells false (fun y => y.1.prog Sample.names Sample.ids Sample.uc Sample.mN Sample.mE) (fun y => y.2.flatMap (fun z => z.1.acts))
        (LooseStep Sample.uc.okN Sample.uc.okE Sample.mN Sample.mE (Sled.FromRaced (Sled.calls (ths.map (List.flatMap Prod.snd))))
          (Sled.ToRaced (Sled.calls (ths.map (List.flatMap Prod.snd)))))
        (fun d G => Sled.ShowsBut Sample.uc (Sled.ToRaced (Sled.calls (ths.map (List.flatMap Prod.snd)))) d.data G)
        G ths (rdfCourse rdfDb0 rproc3 rturns3) (awake (rdfStart rdfDb0 rproc3) rturns3).length h cut H := by
  obtain ⟨F, ths, h, cut, H, k1, -, -, k4, -, -, -, k7, -⟩ := C88_rdf Sample.names_rt Sample.ids_rt Sample.names_total Sample.ids_total
    Sample.uc_rt Sample.uc_total rdfDb0_life hf hG (by simpa [RdfSled.everyCall] using rproc3_new hf) (rdfCourse_course rdfDb0 rproc3 rturns3) rfl
  exact ⟨F, ths, h, cut, H, k1, k4, k7⟩

/-- the process runs for a while, and comes to its end -/
example : 12 < (awake (rdfStart rdfDb0 rproc3) rturns3).length ∧
    ((rdfCourse rdfDb0 rproc3 rturns3 (awake (rdfStart rdfDb0 rproc3) rturns3).length).2.all List.isEmpty) = true := by
  refine ⟨by decide +kernel, by decide +kernel⟩

/-- Two threads create the same name, and one of them fails to insert its edge; one removes an edge with an unknown name. -/
def rproc4 : RSession :=
  { crash := false
    threads := [[calledWith 300 (.insertEdge ⟨.string "dave", .string "knows", .string "alice"⟩ 4)],
      [calledWith 400 (.insertEdge ⟨.string "dave", .string "of", .string "alice"⟩ 5), calledWith 450 (.mergeNode (.string "alice") 6)],
      [calledWith 550 (.removeEdge ⟨.string "zoe", .string "of", .string "alice"⟩)]] }

def rturns4 : List Nat := [0, 1, 2, 2, 2, 0, 1] ++ List.replicate 20 1 ++ List.replicate 20 0 ++ List.replicate 5 2

theorem rproc4_new {f : String → Option Ulid} (hf : (SledIndex.impl Sample.names Sample.ids).Shows rdfDb0.names f) :
    NewIdsFor f rdfDb0.data (RdfSled.everyCall [rproc4]) := by
  have h1 : (((RdfSled.everyCall [rproc4]).flatMap Call.ulids).map Fin.val).Nodup := by decide +kernel
  have h2 : (((RdfSled.everyCall [rproc4]).flatMap Call.records).map Fin.val).Nodup := by decide +kernel
  have h3 : ∀ n ∈ ((RdfSled.everyCall [rproc4]).flatMap Call.ulids).map Fin.val,
      n ∉ [(Sample.ul 0 0).val, (Sample.ul 50 0).val, (Sample.ul 50 1).val, 5] := by decide +kernel
  have h4 : ∀ n ∈ ((RdfSled.everyCall [rproc4]).flatMap Call.records).map Fin.val, n ≠ (Sample.eg 50 0).val := by decide +kernel
  exact rdfDb0_newIds hf h1 h2 h3 h4

/-- the first of the threads enters the name, the second fails -/
example : let n := (awake (rdfStart rdfDb0 rproc4) rturns4).length
    ((rdfCourse rdfDb0 rproc4 rturns4 n).2.all List.isEmpty) = true ∧
    nodesIn (rdfCourse rdfDb0 rproc4 rturns4 n).1 = [(.string "alice", 16)].map .ok ∧
    edgesIn (rdfCourse rdfDb0 rproc4 rturns4 n).1 .SPO = [(⟨.string "knows", .string "of", .ulid 5⟩, 7),
      (⟨.string "dave", .string "knows", .string "alice"⟩, 4)].map .ok :=
  ⟨by decide +kernel, by decide +kernel, by decide +kernel⟩

example (f : String → Option Ulid) (hf : (SledIndex.impl Sample.names Sample.ids).Shows rdfDb0.names f) (G : Graph Ulid Nat Nat)
    (hG : Sled.SpoShows Sample.uc rdfDb0.data G) :
    ∃ (F : Nat → String → Option Ulid) (ths : List (List (RdfSled.PieceCall String Nat Nat × List (Sled.PieceCall String Ulid Nat Nat))))
      (h : List (Nat × Nat × Op String Ulid Nat Nat)) (cut : Nat → Nat),
      F 0 = f ∧ ths.map (List.map Prod.fst) = rproc4.threads ∧
      Explains false (fun y => y.1.prog Sample.names Sample.ids Sample.uc Sample.mN Sample.mE) (fun y => y.2.flatMap (fun z => z.1.acts))
        (fun G op => (op.step Sample.uc.okN Sample.uc.okE Sample.mN Sample.mE G).1)
        (fun d G => Sled.ShowsBut Sample.uc (Sled.ToRaced (Sled.calls (ths.map (List.flatMap Prod.snd)))) d.data G)
        G ths (rdfCourse rdfDb0 rproc4 rturns4) (awake (rdfStart rdfDb0 rproc4) rturns4).length h cut := by
  obtain ⟨F, ths, h, cut, k1, -, -, k4, -, -, -, k7⟩ := C88_strict Sample.names_rt Sample.ids_rt Sample.names_total Sample.ids_total
    Sample.uc_rt Sample.uc_total rdfDb0_life hf hG (by simpa [RdfSled.everyCall] using rproc4_new hf)
    (by simp only [rproc4, List.mem_cons, List.not_mem_nil, or_false, forall_eq_or_imp, forall_eq]; simp [calledWith]) (rdfCourse_course rdfDb0 rproc4 rturns4) rfl
  exact ⟨F, ths, h, cut, k1, k4, k7⟩

end Verif.Props
