import Verif.Proof.RdfSledLoose
import Verif.Props.RdfSledConc
import Verif.Props.SledSessions

/-!
# C79: processes with RDF stores which race and crash

C61 excludes threads which call `remove_node`, create the same names, or remove an edge while another writes it.  Here they may do
as they like, in one process after the other, each of which may crash: the threads do to the triple store what C77 says of threads
using it directly, with the ids the names have got; what a call may fail to do is stated.
-/

set_option maxRecDepth 100000

namespace Verif.Props

open Verif Spec ConcreteId RdfSled

variable {NP EP E : Type} {cl : Codec String} {cr : Codec Ulid} {c : Codecs NP EP} {mN : NP → NP → NP} {mE : EP → EP → EP}
  {C : List Ulid}

/-- The processes are processes using the triple store, making the calls they should with the ids of the names; through SPO, the
RDF store shows the graph which these make, with the names the ids have.  Edges which no process has broken are in every
ordering. -/
theorem C79_sessions (hl : cl.RoundTrips) (hr : cr.RoundTrips) (tl : cl.Total) (tr : cr.Total) (hc : c.RoundTrip) (ht : c.Total)
    {d0 d : RdfDb} {f : String → Option Ulid} {G : Graph Ulid NP EP} {ss : List (RdfSled.Session E NP EP)}
    (h : Life cl cr c mN mE E C d0) (hf : (SledIndex.impl cl cr).Shows d0.names f) (hG : Sled.SpoShows c d0.data G)
    (hi : NewIdsFor f d0.data (RdfSled.everyCall ss))
    (hd : Runs (fun d s d' => RdfSled.Session.Leads cl cr c mN mE d s d') d0 ss d) :
    ∃ (f' : String → Option Ulid) (zs : List (Sled.Session E Ulid NP EP)) (G' : Graph Ulid NP EP),
      RdfSled.Did f ss zs f' ∧ (SledIndex.impl cl cr).Shows d.names f' ∧
      Sled.LooseSessions c.okN c.okE mN mE (fun _ => False) G zs G' ∧ Sled.SpoShows c d.data G' ∧
      (∀ t, (∀ s ∈ zs, ¬ s.Breaks t) → ∀ o p, .ok (t, p) ∈ Sled.iterEdges Ulid c d.data o ↔ G'.edges t = some p) ∧
      ∃ x : RdfState NP EP, Agree f' G' x ∧ ∀ u g, Represents
        (.mk ((openOn d u g).iterVertices (SledIndex.impl cl cr) (SledStore.impl c mN mE))
          ((openOn d u g).iterEdges (SledIndex.impl cl cr) (SledStore.impl c mN mE) .SPO)) x.graph := by
  obtain ⟨_, _, _, inv, _⟩ := h.leaves hl hr tl tr hc
  obtain ⟨f', zs, h1, h2, h3⟩ := sessions_did hl hr tl tr hc ht ss hf (h.well hc) hi.ulids hi.names hd
  have start := fun (zs' : List (Sled.Session E Ulid NP EP)) (hdis : Sled.DistinctIds d0.data (Sled.everyCall zs'))
      (hx : ∀ s ∈ zs', ∀ th ∈ s.threads, ∀ x ∈ th, ¬ x.1.IsScan) (d' : Db)
      (hrun : Runs (fun d s d' => Sled.Session.Leads c mN mE d s d') d0.data zs' d') =>
    Sled.sessions_lead hc ht zs' (Sled.ready_start inv hdis rfl) (B := fun _ => False) (fun t _ o => inv.same o t) hx hrun
  obtain ⟨-, ⟨X0, s0⟩, -⟩ := start [] ⟨List.nodup_nil, fun x hx => by cases hx⟩ (fun s hs => by cases hs) _ rfl
  obtain rfl := spoShows_unique hG (Sled.spoOk_shows s0)
  obtain ⟨k1, ⟨X, k2⟩, k3⟩ := start zs (did_distinct hi h1) (did_drawn h1).2 _ h3
  obtain ⟨x, hx⟩ := agree_exists f' (d.data.graph (Id := Ulid) c)
  refine ⟨f', zs, _, h1, h2, k1, Sled.spoOk_shows k2, fun t hb o p => ?_, x, hx, spo_reads h2 (Sled.spoOk_shows k2) hx⟩
  rw [Sled.mem_iterEdges (k2.neat.keys o), Sled.AgreeAt.view (k3 t id hb)]

/-- If no two threads create the same name, a call which does not make all its calls on the triple store is a removal with a name
that was unknown when the process was started. -/
theorem C79_noNameRace {f f' : String → Option Ulid} {threads : List (List (RdfSled.PieceCall E NP EP))}
    (hf : Learns f f' threads) (hn : NoNameRace (fun s => (f s).isSome) (threads.map (List.map Prod.fst)))
    {th : List (RdfSled.PieceCall E NP EP)} (hth : th ∈ threads) {x : RdfSled.PieceCall E NP EP} (hx : x ∈ th)
    {l : List (Sled.PieceCall E Ulid NP EP)} (h : CallDid false f f' th x l) :
    l.map some = x.wants.map (pieceIn f') ∨
      (∃ e s, x.1.op = .removeNode e ∧ e = .string s ∧ f s = none) ∨
      ∃ t s, x.1.op = .removeEdge t ∧ .string s ∈ RdfState.parts t ∧ f s = none := by
  obtain ⟨h1, h2 | h2 | ⟨y, hy, h2⟩⟩ := h
  · cases h2
  · exact .inl (h1.eq_of_length (by simp [h2]))
  · right
    obtain ⟨y', hy', rfl⟩ := List.mem_map.1 (List.mem_of_getElem? hy)
    have key : ∀ s v, x.1.Creates s → f s = none → f' s = some v → v ∉ mine th → False := by
      intro s v hs h0 h1 hv
      rcases hf.2 s v h1 with h' | ⟨th', hth', z, hz, hs', hv'⟩
      · rw [h0] at h'; cases h'
      · have hne : th ≠ th' := by
          rintro rfl
          exact hv (List.mem_flatMap.2 ⟨z, hz, hv'⟩)
        unfold NoNameRace at hn
        rw [List.pairwise_map] at hn
        have := hn.imp_of_mem (S := fun a b => (∀ x ∈ List.map Prod.fst a, ∀ y ∈ List.map Prod.fst b, ∀ s, Call.Creates s x →
          Call.Creates s y → (f s).isSome = true) ∧ (∀ x ∈ List.map Prod.fst b, ∀ y ∈ List.map Prod.fst a, ∀ s, Call.Creates s x →
          Call.Creates s y → (f s).isSome = true)) (fun _ _ h => ⟨h, fun x hx y hy s h1 h2 => h y hy x hx s h2 h1⟩)
        have := (@List.Pairwise.forall _ _ _ ⟨fun _ _ h => ⟨h.2, h.1⟩⟩ this _ hth _ hth' hne).1
        have := this _ (List.mem_map_of_mem hx) _ (List.mem_map_of_mem hz) s hs hs'
        rw [h0] at this
        cases this
    rcases wants_names x.1 y' hy' with ⟨e, e1, rfl⟩ | ⟨t, e1, rfl⟩ | hc
    · obtain ⟨s, rfl, h⟩ := h2
      exact .inl ⟨_, s, e1, rfl, h⟩
    · obtain ⟨s, hs, h⟩ := h2
      exact .inr ⟨t, s, e1, hs, h⟩
    · obtain ⟨s, v, a, b, c, e⟩ := hc f f' th h2
      exact (key s v a b c e).elim

/-! ## examples -/

abbrev RSession := RdfSled.Session String Nat Nat

/-- what a process makes of a database by a given schedule -/
def rdfProc (s : RSession) (l : List Nat) (d : RdfDb) : RdfDb × List (List (Prog RdfDb Unit)) :=
  l.foldl turn (d, s.threads.map (List.map (RdfSled.PieceCall.prog Sample.names Sample.ids Sample.uc Sample.mN Sample.mE)))

theorem rdfProc_crash {s : RSession} {l : List Nat} {d : RdfDb} (h : s.crash = true) :
    s.Leads Sample.names Sample.ids Sample.uc Sample.mN Sample.mE d (rdfProc s l d).1 := by
  unfold RdfSled.Session.Leads
  rw [h]
  exact ⟨_, (turns_calm _ l).steps⟩

theorem rdfProc_end {s : RSession} {l : List Nat} {d : RdfDb} (h : s.crash = false)
    (he : (rdfProc s l d).2.all List.isEmpty = true) :
    s.Leads Sample.names Sample.ids Sample.uc Sample.mN Sample.mE d (rdfProc s l d).1 := by
  unfold RdfSled.Session.Leads
  rw [h]
  exact ⟨_, turns_calm _ l, fun th hth => List.isEmpty_iff.1 (List.all_eq_true.1 he th hth)⟩

/-- a call, the ids it draws being told from those of others by a number -/
def calledWith (n : Nat) (op : Op String Entity Nat Nat) : RdfSled.PieceCall String Nat Nat :=
  (⟨op, ⟨Sample.ul n, Sample.eg n⟩⟩, [], [])

/-- It crashes while one thread extends the store by an edge, and another creates a name. -/
def rproc1 : RSession :=
  { crash := true
    threads := [[calledWith 100 (.extend ⟨[.ok (.string "eve", 1)], [.ok (⟨.string "eve", .string "knows", .string "alice"⟩, 2)]⟩)],
      [calledWith 200 (.insertNode (.string "bob") 3)]] }

/-- Two threads create the same name; one removes an edge with an unknown name; one removes a node, to which another adds an edge. -/
def rproc2 : RSession :=
  { crash := false
    threads := [[calledWith 300 (.insertEdge ⟨.string "dave", .string "knows", .string "bob"⟩ 4)],
      [calledWith 400 (.insertEdge ⟨.string "dave", .string "of", .string "eve"⟩ 5), calledWith 450 (.mergeNode (.string "eve") 6),
        calledWith 480 (.insertEdge ⟨.string "bob", .string "of", .string "alice"⟩ 8)],
      [calledWith 500 (.removeNode (.string "alice")), calledWith 550 (.removeEdge ⟨.string "zoe", .string "of", .string "eve"⟩)]] }

def rturns : List Nat := [0, 1, 2, 2, 2, 0] ++ List.replicate 20 1 ++ List.replicate 20 0 ++ List.replicate 20 2

def rdb1 : RdfDb := (rdfProc rproc1 [0, 0, 0, 1, 0, 0, 0, 0, 1] rdfDb0).1
def rdb2 : RdfDb := (rdfProc rproc2 rturns rdb1).1

/-- what is read through an ordering -/
def edgesIn (d : RdfDb) (o : EdgeOrder) : List (Except (RdfErr (SledIndexErr String Ulid) SErr) (Triple Entity × Nat)) :=
  (openOn d (Sample.ul 0) (Sample.eg 0)).iterEdges (SledIndex.impl Sample.names Sample.ids)
    (SledStore.impl Sample.uc Sample.mN Sample.mE) o

def nodesIn (d : RdfDb) : List (Except (RdfErr (SledIndexErr String Ulid) SErr) (Entity × Nat)) :=
  (openOn d (Sample.ul 0) (Sample.eg 0)).iterVertices (SledIndex.impl Sample.names Sample.ids)
    (SledStore.impl Sample.uc Sample.mN Sample.mE)

theorem rprocs_lead : Runs (fun d s d' => RdfSled.Session.Leads Sample.names Sample.ids Sample.uc Sample.mN Sample.mE d s d')
    rdfDb0 [rproc1, rproc2] rdb2 :=
  ⟨rdb1, rdfProc_crash rfl, rdb2, rdfProc_end rfl (by decide +kernel), rfl⟩

theorem rdfDb0_edgeProps : rdfDb0.data.edgeProps.entries.map Prod.fst = [(toBeBytes (Sample.eg 50 0)).1] := by decide +kernel

/-- processes drawing other ids than those in the database -/
theorem rdfDb0_newIds {ss : List RSession} {f : String → Option Ulid}
    (hf : (SledIndex.impl Sample.names Sample.ids).Shows rdfDb0.names f)
    (h1 : (((RdfSled.everyCall ss).flatMap Call.ulids).map Fin.val).Nodup)
    (h2 : (((RdfSled.everyCall ss).flatMap Call.records).map Fin.val).Nodup)
    (h3 : ∀ n ∈ ((RdfSled.everyCall ss).flatMap Call.ulids).map Fin.val,
      n ∉ [(Sample.ul 0 0).val, (Sample.ul 50 0).val, (Sample.ul 50 1).val, 5])
    (h4 : ∀ n ∈ ((RdfSled.everyCall ss).flatMap Call.records).map Fin.val, n ≠ (Sample.eg 50 0).val) :
    NewIdsFor f rdfDb0.data (RdfSled.everyCall ss) := by
  have h := rdfDb0_distinct (threads := [RdfSled.everyCall ss]) (by simpa using h1) (by simpa using h2) (by simpa using h3)
    (by simpa using h4)
  refine ⟨by simpa using h.ulids, fun u hu s hs => ?_, by simpa using h.records, fun v hv => ?_⟩
  on_goal 2 =>
    rw [Option.eq_none_iff_forall_not_mem]
    intro b hb
    have hm : (toBeBytes v).1 ∈ rdfDb0.data.edgeProps.entries.map Prod.fst :=
      List.mem_map.2 ⟨((toBeBytes v).1, b), BMap.mem_entries.2 hb, rfl⟩
    rw [rdfDb0_edgeProps, List.mem_singleton] at hm
    have : v = Sample.eg 50 0 := toBe_inj.1 hm
    exact h4 _ (List.mem_map_of_mem hv) (by rw [this])
  have h6 := h.names u (by simpa using hu)
  obtain ⟨o, e, ho⟩ := hf.2 u
  rw [h6] at e
  have := (ho s).2 hs
  rw [← Except.ok.inj e] at this
  cases this

theorem rprocs_new {f : String → Option Ulid} (hf : (SledIndex.impl Sample.names Sample.ids).Shows rdfDb0.names f) :
    NewIdsFor f rdfDb0.data (RdfSled.everyCall [rproc1, rproc2]) := by
  have h1 : (((RdfSled.everyCall [rproc1, rproc2]).flatMap Call.ulids).map Fin.val).Nodup := by decide +kernel
  have h2 : (((RdfSled.everyCall [rproc1, rproc2]).flatMap Call.records).map Fin.val).Nodup := by decide +kernel
  have h3 : ∀ n ∈ ((RdfSled.everyCall [rproc1, rproc2]).flatMap Call.ulids).map Fin.val,
      n ∉ [(Sample.ul 0 0).val, (Sample.ul 50 0).val, (Sample.ul 50 1).val, 5] := by decide +kernel
  have h4 : ∀ n ∈ ((RdfSled.everyCall [rproc1, rproc2]).flatMap Call.records).map Fin.val, n ≠ (Sample.eg 50 0).val := by
    decide +kernel
  exact rdfDb0_newIds hf h1 h2 h3 h4

/-- When the first process crashes, the name "bob" is there, but not the node.  In the second, one of the threads which create the
name "dave" fails, as does the one which removes an edge from "zoe"; the removal of "alice" leaves an edge made meanwhile. -/
example : nodesIn rdb1 = [(.string "alice", 10), (.string "eve", 1)].map .ok ∧
    edgesIn rdb1 .SPO = [(⟨.string "knows", .string "of", .ulid 5⟩, 7), (⟨.string "eve", .string "knows", .string "alice"⟩, 2)].map .ok ∧
    nodesIn rdb2 = [(.string "eve", 7)].map .ok ∧
    edgesIn rdb2 .SPO = [(⟨.string "knows", .string "of", .ulid 5⟩, 7), (⟨.string "bob", .string "of", .string "alice"⟩, 8),
      (⟨.string "dave", .string "knows", .string "bob"⟩, 4)].map .ok :=
  ⟨by decide +kernel, by decide +kernel, by decide +kernel, by decide +kernel⟩

/-- the names and the graph the database starts with -/
theorem rdfDb0_start : ∃ f : String → Option Ulid, (SledIndex.impl Sample.names Sample.ids).Shows rdfDb0.names f ∧
    Sled.SpoShows Sample.uc rdfDb0.data ((rdfDb0.data.graph Sample.uc : Graph Ulid Nat Nat)) := by
  obtain ⟨x, f, hf, inv, -⟩ := rdfDb0_life.leaves Sample.names_rt Sample.ids_rt Sample.names_total Sample.ids_total Sample.uc_rt
  have h : Sled.DistinctIds rdfDb0.data (Sled.everyCall ([] : List (Sled.Session String Ulid Nat Nat))) :=
    ⟨List.nodup_nil, fun x hx => by cases hx⟩
  obtain ⟨-, ⟨X, s⟩, -⟩ := Sled.sessions_lead (mN := Sample.mN) (mE := Sample.mE) Sample.uc_rt Sample.uc_total
    [] (Sled.ready_start inv h rfl) (B := fun _ => False)
    (fun t _ o => inv.same o t) (fun s hs => by cases hs) (d' := rdfDb0.data) rfl
  exact ⟨f, hf, Sled.spoOk_shows s⟩

example (f : String → Option Ulid) (hf : (SledIndex.impl Sample.names Sample.ids).Shows rdfDb0.names f) (G : Graph Ulid Nat Nat)
    (hG : Sled.SpoShows Sample.uc rdfDb0.data G) :
    ∃ (f' : String → Option Ulid) (zs : List (Sled.Session String Ulid Nat Nat)) (G' : Graph Ulid Nat Nat),
      RdfSled.Did f [rproc1, rproc2] zs f' ∧ (SledIndex.impl Sample.names Sample.ids).Shows rdb2.names f' ∧
      Sled.LooseSessions Sample.uc.okN Sample.uc.okE Sample.mN Sample.mE (fun _ => False) G zs G' ∧
      Sled.SpoShows Sample.uc rdb2.data G' := by
  obtain ⟨f', zs, G', h1, h2, h3, h4, -⟩ := C79_sessions Sample.names_rt Sample.ids_rt Sample.names_total Sample.ids_total
    Sample.uc_rt Sample.uc_total rdfDb0_life hf hG (rprocs_new hf) rprocs_lead
  exact ⟨f', zs, G', h1, h2, h3, h4⟩

/-- calls creating different names: all is done but for the removal with an unknown name -/
example {f f' : String → Option Ulid} {th : List (RdfSled.PieceCall String Nat Nat)}
    (hf : Learns f f' [[calledWith 500 (.removeNode (.string "zoe")), calledWith 600 (.insertNode (.string "dave") 7)],
      [calledWith 400 (.insertNode (.string "eve") 6)]])
    (hth : th = [calledWith 500 (.removeNode (.string "zoe")), calledWith 600 (.insertNode (.string "dave") 7)])
    {l : List (Sled.PieceCall String Ulid Nat Nat)}
    (h : CallDid false f f' th (calledWith 600 (.insertNode (.string "dave") 7)) l) :
    l.map some = [(f' "dave").map (fun u => (.insertNode u 7, [], []))] := by
  subst hth
  rcases C79_noNameRace hf (.cons (fun th hth y hy z hz s h1 h2 => by
    obtain rfl := List.mem_singleton.1 hth
    obtain rfl := List.mem_singleton.1 hz
    simp [calledWith] at hy
    rcases hy with rfl | rfl
    · exact h1.elim
    · simp [Call.Creates, Op.entities, calledWith] at h1 h2
      rw [h1] at h2
      exact absurd h2 (by decide)) (.cons (by simp) .nil)) List.mem_cons_self
    (List.mem_cons_of_mem _ List.mem_cons_self) h with h | ⟨_, _, h, -⟩ | ⟨_, _, h, -⟩
  · rw [h]
    cases e : f' "dave" <;> simp [RdfSled.PieceCall.wants, Call.wants, calledWith, pieceIn, callIn, idIn, e]
  · cases h
  · cases h

/-! ## the removal of a node may leave edges -/

/-- one thread removes a node while the other adds an edge from it, and then the node -/
def rproc3 : RSession :=
  { crash := false
    threads := [[calledWith 100 (.removeNode (.string "alice"))],
      [calledWith 200 (.insertEdge ⟨.string "alice", .string "of", .string "knows"⟩ 70),
        calledWith 300 (.insertNode (.string "alice") 71)]] }

/-- both are entered after the scans and before the transaction -/
def rturns3 : List Nat := [0, 0, 0] ++ List.replicate 10 1 ++ [0, 0, 0]

def rdb3 : RdfDb := (rdfProc rproc3 rturns3 rdfDb0).1

theorem rproc3_new {f : String → Option Ulid} (hf : (SledIndex.impl Sample.names Sample.ids).Shows rdfDb0.names f) :
    NewIdsFor f rdfDb0.data (RdfSled.everyCall [rproc3]) := by
  have h1 : (((RdfSled.everyCall [rproc3]).flatMap Call.ulids).map Fin.val).Nodup := by decide +kernel
  have h2 : (((RdfSled.everyCall [rproc3]).flatMap Call.records).map Fin.val).Nodup := by decide +kernel
  have h3 : ∀ n ∈ ((RdfSled.everyCall [rproc3]).flatMap Call.ulids).map Fin.val,
      n ∉ [(Sample.ul 0 0).val, (Sample.ul 50 0).val, (Sample.ul 50 1).val, 5] := by decide +kernel
  have h4 : ∀ n ∈ ((RdfSled.everyCall [rproc3]).flatMap Call.records).map Fin.val, n ≠ (Sample.eg 50 0).val := by decide +kernel
  exact rdfDb0_newIds hf h1 h2 h3 h4

/-- The edge has been left, the node is gone; no order of the operations leads to that. -/
theorem C79_left :
    ∃ d, (∀ f, (SledIndex.impl Sample.names Sample.ids).Shows rdfDb0.names f → NewIdsFor f rdfDb0.data (RdfSled.everyCall [rproc3])) ∧
      rproc3.Leads Sample.names Sample.ids Sample.uc Sample.mN Sample.mE rdfDb0 d ∧
      ∀ (x : RdfState Nat Nat) (h : List (Op String Entity Nat Nat)),
        Shuffle false (rproc3.threads.map (List.map (fun y => y.1.op))) h →
        ¬ Represents (.mk (nodesIn d) (edgesIn d .SPO))
          (h.foldl (fun x o => (x.step Sample.uc.okN Sample.uc.okE Sample.mN Sample.mE o).1) x).graph := by
  refine ⟨rdb3, fun f hf => rproc3_new hf, rdfProc_end rfl (by decide +kernel), fun x h hh hs => ?_⟩
  have e : edgesIn rdb3 .SPO =
      [(⟨.string "alice", .string "of", .string "knows"⟩, 70), (⟨.string "knows", .string "of", .ulid 5⟩, 7)].map .ok := by
    decide +kernel
  have e' : nodesIn rdb3 = [].map .ok := by decide +kernel
  obtain ⟨⟨l', h1', -, h2'⟩, l, h1, -, h2⟩ := hs
  have hl := List.map_injective_iff.2 (fun a b h => Except.ok.inj h) (h1.symm.trans e)
  have hl' := List.map_injective_iff.2 (fun a b h => Except.ok.inj h) (h1'.symm.trans e')
  subst hl hl'
  have a1 := (h2 ⟨.string "alice", .string "of", .string "knows"⟩ 70).1 (by simp)
  have a2 := mt (h2' (.string "alice") 71).2 (by simp)
  rcases shuffle_one_two hh with rfl | rfl | rfl
  · exact a2 (by simp [calledWith, RdfState.step, storeEdge, storeNode, Codecs.okE, Codecs.okN, Sample.uc, Sample.unary,
      RdfState.change, Graph.insertEdge, Graph.insertNode])
  · exact a2 (by simp [calledWith, RdfState.step, storeEdge, storeNode, Codecs.okE, Codecs.okN, Sample.uc, Sample.unary,
      RdfState.change, Graph.insertEdge, Graph.insertNode])
  · simp [calledWith, RdfState.step, storeEdge, storeNode, Codecs.okE, Codecs.okN, Sample.uc, Sample.unary,
      RdfState.change, Graph.insertEdge, Graph.insertNode, Graph.removeNode,
      RdfState.remove, RdfState.unknown, RdfState.learn, RdfState.parts] at a1

end Verif.Props
