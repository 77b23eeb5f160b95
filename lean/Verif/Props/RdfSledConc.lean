import Verif.Proof.RdfSledConc
import Verif.Proof.RdfSledNames
import Verif.Props.RdfSled
import Verif.Props.SledConc

/-!
# C61: several RDF stores on one sled database

Threads with RDF stores on the same database; each API call is the sequence of sled calls it makes (C60), and those of different
threads interleave in any way.  A deed is one moment of the specification: a name becomes known, or an operation is done.
-/

set_option maxRecDepth 100000

namespace Verif.Props

open Verif Spec ConcreteId RdfSled

variable {NP EP E : Type} {cl : Codec String} {cr : Codec Ulid} {c : Codecs NP EP} {mN : NP → NP → NP} {mE : EP → EP → EP}
  {C : List Ulid}

/-! ## C61 RDF stores on sled can be used concurrently -/

section
variable (hl : cl.RoundTrips) (hr : cr.RoundTrips) (tl : cl.Total) (tr : cr.Total) (hc : c.RoundTrip)
include hl hr tl tr hc

/-- However the database came about, by calls, crashes, and threads, a store opened on it holds exactly one graph over entities
with the names in use, the same with any supplies of ids. -/
theorem C61_holds {d : RdfDb} (h : Life cl cr c mN mE E C d) :
    ∃! x : RdfState NP EP, ∀ u g, (openOn d u g).HoldsState (SledIndex.impl cl cr) (SledStore.impl c mN mE) x := by
  obtain ⟨x, hx⟩ := h.leaves hl hr tl tr hc
  exact ⟨x, hx.holds hc, fun y hy => (hy (fun _ => 0) (fun _ => 0)).unique (hx.holds hc _ _)⟩

/-- A call made on it by a store alone has the specified effect and result. -/
theorem C61_call {d : RdfDb} (h : Life cl cr c mN mE E C d) (op : Op E Entity NP EP) (hC : ∀ v ∈ ulids op.entities, v ∈ C)
    {u g : Gen Ulid} (hi : NewIds cl cr c C op.draws op.creations u g d) {x : RdfState NP EP}
    (hx : (openOn d u g).HoldsState (SledIndex.impl cl cr) (SledStore.impl c mN mE) x) :
    ((openOn d u g).call (SledIndex.impl cl cr) (SledStore.impl c mN mE) op).2 =
      (x.step c.okN c.okE mN mE op).2.result .serialization ∧
    ((openOn d u g).call (SledIndex.impl cl cr) (SledStore.impl c mN mE) op).1.HoldsState (SledIndex.impl cl cr)
      (SledStore.impl c mN mE) (x.step c.okN c.okE mN mE op).1 := by
  obtain ⟨y, hy⟩ := h.leaves hl hr tl tr hc
  obtain rfl := hx.unique (hy.holds hc u g)
  obtain ⟨h1, h2⟩ := done_is (mN := mN) (mE := mE) (n := 0) (k := 0) hl hr tl tr hc op hC (hy.is (by simpa using hi))
  exact ⟨h2, h1.holds hc⟩

/-- At every moment the database holds what some of the deeds make of what it held at the start, done one after the other, those
of each thread in order: a thread may be in the middle of a call, and calls can have failed. -/
theorem C61_moment {d0 d : RdfDb} (h : Life cl cr c mN mE E C d0) {u g : Gen Ulid} {x : RdfState NP EP}
    (hx : (openOn d0 u g).HoldsState (SledIndex.impl cl cr) (SledStore.impl c mN mE) x)
    {threads : List (List (Call E NP EP))} (hf : Fair cl cr c C d0 threads) (hm : Moment cl cr c mN mE d0 threads d) :
    ∃ l, Shuffle true (threads.map (List.flatMap (fun y => y.op.deeds))) l ∧
      ∀ u g, (openOn d u g).HoldsState (SledIndex.impl cl cr) (SledStore.impl c mN mE)
        (l.foldl (fun x o => x.deed c.okN c.okE mN mE o) x) := by
  obtain ⟨y, hy⟩ := h.leaves hl hr tl tr hc
  obtain rfl := hx.unique (hy.holds hc u g)
  obtain ⟨l, h1, h2⟩ := leaves_moment hl hr tl tr hc hy hf hm
  exact ⟨l, h1, h2.holds hc⟩

/-- When all calls have returned, sled having reported no error, the database holds what all the deeds make of what it held at
the start, in some order that is that of each thread.  Provided everything can be serialized, and that no two threads create the
same name. -/
theorem C61_final_partial {d0 d : RdfDb} (h : Life cl cr c mN mE E C d0) {u g : Gen Ulid} {x : RdfState NP EP}
    (hx : (openOn d0 u g).HoldsState (SledIndex.impl cl cr) (SledStore.impl c mN mE) x) (ht : c.Total)
    {threads : List (List (Call E NP EP))} (hf : Fair cl cr c C d0 threads) (hn : NoNameRace x.known threads)
    (hm : Final cl cr c mN mE d0 threads d) :
    ∃ l, Shuffle false (threads.map (List.flatMap (fun y => y.op.deeds))) l ∧
      ∀ u g, (openOn d u g).HoldsState (SledIndex.impl cl cr) (SledStore.impl c mN mE)
        (l.foldl (fun x o => x.deed c.okN c.okE mN mE o) x) := by
  obtain ⟨y, hy⟩ := h.leaves hl hr tl tr hc
  obtain rfl := hx.unique (hy.holds hc u g)
  obtain ⟨l, h1, h2⟩ := leaves_final hl hr tl tr hc hy ht hf hn hm
  exact ⟨l, h1, h2.holds hc⟩

omit hc in
/-- Whatever the threads do, even if ids come twice, calls race, and sled fails: the names in use keep their ids, and no two names
ever have the same id. -/
theorem C61_names {d0 d : RdfDb} {f : String → Option Ulid} (h : (SledIndex.impl cl cr).Shows d0.names f)
    {threads : List (List (Call E NP EP))} (hm : Moment cl cr c mN mE d0 threads d) :
    ∃ f', (SledIndex.impl cl cr).Shows d.names f' ∧ (∀ s u, f s = some u → f' s = some u) ∧
      ∀ s s' u, f' s = some u → f' s' = some u → s = s' := by
  obtain ⟨f', h1, h2⟩ := names_moment hl hr tl tr hm f h
  exact ⟨f', h1, h2, fun _ _ _ hs hs' => h1.inj hs hs'⟩

end

/-! ### examples -/

abbrev RCall := RdfSled.Call String Nat Nat

/-- where a schedule leads -/
def rdfLeads (d : RdfDb) (threads : List (List RCall)) (l : List Nat) : RdfDb × List (List (Prog RdfDb Unit)) :=
  l.foldl turn (RdfSled.start Sample.names Sample.ids Sample.uc Sample.mN Sample.mE d threads)

theorem rdfLeads_moment (d : RdfDb) (threads : List (List RCall)) (l : List Nat) :
    RdfSled.Moment Sample.names Sample.ids Sample.uc Sample.mN Sample.mE d threads (rdfLeads d threads l).1 :=
  ⟨_, (turns_calm _ l).steps⟩

theorem rdfLeads_final {d : RdfDb} {threads : List (List RCall)} {l : List Nat}
    (h : (rdfLeads d threads l).2.all List.isEmpty = true) :
    RdfSled.Final Sample.names Sample.ids Sample.uc Sample.mN Sample.mE d threads (rdfLeads d threads l).1 :=
  ⟨_, turns_calm _ l, fun th hth => List.isEmpty_iff.1 (List.all_eq_true.1 h th hth)⟩

/-- the threads that make the database the examples start with: two, creating different names -/
def firstThreads : List (List RCall) :=
  [[⟨.insertNode (.string "alice") 10, ⟨Sample.ul 0, Sample.eg 0⟩⟩],
    [⟨.insertEdge ⟨.string "knows", .string "of", .ulid 5⟩ 7, ⟨Sample.ul 50, Sample.eg 50⟩⟩]]

def firstTurns : List Nat := [0, 1, 1, 1, 0, 1, 0, 0, 1, 1]

def rdfDb0 : RdfDb := (rdfLeads ⟨.empty, .empty⟩ firstThreads firstTurns).1

/-- two threads: one extends the database, the other merges, and removes an edge -/
def rdfThreads : List (List RCall) :=
  [[⟨.extend { nodes := [.ok (.string "carol", 1)], edges := [.ok (⟨.string "carol", .string "knows", .string "alice"⟩, 2)] },
      ⟨Sample.ul 100, Sample.eg 100⟩⟩],
    [⟨.mergeNode (.string "alice") 5, ⟨Sample.ul 200, Sample.eg 200⟩⟩,
      ⟨.removeEdge ⟨.string "knows", .string "of", .ulid 5⟩, ⟨Sample.ul 300, Sample.eg 300⟩⟩,
      ⟨.insertEdge ⟨.string "alice", .string "knows", .string "dave"⟩ 8, ⟨Sample.ul 400, Sample.eg 400⟩⟩]]

def rdfTurns : List Nat := [0, 1, 0, 1, 0, 1, 1, 0, 0, 1, 1, 1, 1, 0, 0, 0, 1, 1, 1, 1, 1, 1, 1, 1]

theorem first_fair : Fair Sample.names Sample.ids Sample.uc [5] ⟨.empty, .empty⟩ firstThreads where
  simple := by simp [firstThreads, Call.Simple]
  explicit := by simp [firstThreads, Op.entities, RdfState.parts, ulids]
  ids := by
    refine ⟨.of_map Fin.val (by decide +kernel), .of_map Fin.val (by decide +kernel), fun _ _ => rfl,
      fun _ _ _ h => (by cases h), fun _ _ _ _ h => (by cases h), fun u hu h => ?_, fun _ _ _ h => (by cases h)⟩
    have h1 : ∀ n ∈ (firstThreads.flatten.flatMap Call.ulids).map Fin.val, n ≠ 5 := by decide +kernel
    exact h1 _ (List.mem_map_of_mem hu) (by rw [List.mem_singleton.1 h]; rfl)
  race := by simp [firstThreads, NoRace, Call.Removes]

theorem rdfDb0_life : Life Sample.names Sample.ids Sample.uc Sample.mN Sample.mE String [5] rdfDb0 :=
  .threads .new firstThreads first_fair (rdfLeads_moment _ _ _)

theorem rdfDb0_vertices : Sled.iterVertices Ulid Sample.uc rdfDb0.data = [.ok (Sample.ul 0 0, 10)] := by decide +kernel

theorem rdfDb0_edges : Sled.iterEdges Ulid Sample.uc rdfDb0.data .SPO = [.ok (⟨Sample.ul 50 0, Sample.ul 50 1, 5⟩, 7)] := by
  decide +kernel

theorem rdfDb0_names :
    rdfDb0.names.rightToLeft.entries.map (fun e => some e.1) = [Sample.ul 0 0, Sample.ul 50 0, Sample.ul 50 1].map Sample.ids.ser := by
  decide +kernel

theorem rdfDb0_records : rdfDb0.data.spo.entries.map Prod.snd = [(toBeBytes (Sample.eg 50 0)).1] := by decide +kernel

/-- threads that draw other ids than those in the database -/
theorem rdfDb0_distinct {threads : List (List RCall)} (h1 : ((threads.flatten.flatMap Call.ulids).map Fin.val).Nodup)
    (h2 : ((threads.flatten.flatMap Call.records).map Fin.val).Nodup)
    (h3 : ∀ n ∈ (threads.flatten.flatMap Call.ulids).map Fin.val,
      n ∉ [(Sample.ul 0 0).val, (Sample.ul 50 0).val, (Sample.ul 50 1).val, 5])
    (h4 : ∀ n ∈ (threads.flatten.flatMap Call.records).map Fin.val, n ≠ (Sample.eg 50 0).val) :
    DistinctIds Sample.names Sample.ids Sample.uc [5] rdfDb0 threads := by
  replace h3 : ∀ u ∈ threads.flatten.flatMap Call.ulids, u.val ∉ [(Sample.ul 0 0).val, (Sample.ul 50 0).val,
    (Sample.ul 50 1).val, 5] := fun u hu => h3 _ (List.mem_map_of_mem hu)
  refine ⟨.of_map _ h1, .of_map _ h2, fun u hu => ?_, fun u hu p h => ?_, fun u hu t p h => ?_, fun u hu h => ?_,
    fun v hv e he h => ?_⟩
  · obtain ⟨k, hk⟩ := Option.isSome_iff_exists.1 (Sample.ids_total u)
    refine (SledIndex.lookup_none hk).2 ?_
    rw [Option.eq_none_iff_forall_not_mem]
    intro v hv
    have hm : some k ∈ rdfDb0.names.rightToLeft.entries.map (fun e => some e.1) :=
      List.mem_map.2 ⟨(k, v), BMap.mem_entries.2 hv, rfl⟩
    rw [rdfDb0_names] at hm
    obtain ⟨w, hw, e⟩ := List.mem_map.1 hm
    have : u = w := Codec.ser_inj Sample.ids_rt hk e
    subst this
    simp only [List.mem_cons, List.not_mem_nil, or_false] at hw
    rcases hw with hw | hw | hw <;> exact h3 u hu (by simp [hw])
  · rw [rdfDb0_vertices] at h
    simp only [List.mem_singleton, Except.ok.injEq, Prod.mk.injEq] at h
    exact h3 u hu (by simp [h.1])
  · rw [rdfDb0_edges] at h
    simp only [List.mem_singleton, Except.ok.injEq, Prod.mk.injEq] at h
    rw [h.1]
    exact ⟨fun e => h3 u hu (by simp [← e]), fun e => h3 u hu (by simp [← e]), fun e => h3 u hu (by
      rw [← e]; exact List.mem_of_mem_getLast? rfl)⟩
  · exact h3 u hu (by rw [List.mem_singleton.1 h]; exact List.mem_of_mem_getLast? rfl)
  · have hm : e.2 ∈ rdfDb0.data.spo.entries.map Prod.snd := List.mem_map_of_mem he
    rw [rdfDb0_records, List.mem_singleton] at hm
    have : v = Sample.eg 50 0 := toBe_inj.1 (h.symm.trans hm)
    exact h4 _ (List.mem_map_of_mem hv) (by rw [this])

theorem rdf_distinct : DistinctIds Sample.names Sample.ids Sample.uc [5] rdfDb0 rdfThreads := by
  have h1 : ((rdfThreads.flatten.flatMap Call.ulids).map Fin.val).Nodup := by decide +kernel
  have h2 : ((rdfThreads.flatten.flatMap Call.records).map Fin.val).Nodup := by decide +kernel
  have h3 : ∀ n ∈ (rdfThreads.flatten.flatMap Call.ulids).map Fin.val,
      n ∉ [(Sample.ul 0 0).val, (Sample.ul 50 0).val, (Sample.ul 50 1).val, 5] := by decide +kernel
  have h4 : ∀ n ∈ (rdfThreads.flatten.flatMap Call.records).map Fin.val, n ≠ (Sample.eg 50 0).val := by decide +kernel
  exact rdfDb0_distinct h1 h2 h3 h4

theorem rdf_fair : Fair Sample.names Sample.ids Sample.uc [5] rdfDb0 rdfThreads where
  simple := by simp [rdfThreads, Call.Simple]
  explicit := by simp [rdfThreads, Op.entities, RdfState.parts, ulids, itemEntities]
  ids := rdf_distinct
  race := by simp [rdfThreads, NoRace, Call.Removes, Call.Writes]

/-- what is found in a database two threads have written to -/
example : ∃! x : RdfState Nat Nat, ∀ u g, (openOn rdfDb0 u g).HoldsState (SledIndex.impl Sample.names Sample.ids)
    (SledStore.impl Sample.uc Sample.mN Sample.mE) x :=
  C61_holds Sample.names_rt Sample.ids_rt Sample.names_total Sample.ids_total Sample.uc_rt rdfDb0_life

/-- a call on it: removing a node, which draws no ids -/
example (x : RdfState Nat Nat) (hx : (openOn rdfDb0 (Sample.ul 0) (Sample.eg 0)).HoldsState (SledIndex.impl Sample.names Sample.ids)
      (SledStore.impl Sample.uc Sample.mN Sample.mE) x) :
    ((openOn rdfDb0 (Sample.ul 0) (Sample.eg 0)).call (SledIndex.impl Sample.names Sample.ids)
      (SledStore.impl Sample.uc Sample.mN Sample.mE) (E := String) (.removeNode (.string "alice"))).2 =
      (x.step Sample.uc.okN Sample.uc.okE Sample.mN Sample.mE (E := String) (.removeNode (.string "alice"))).2.result
        .serialization :=
  (C61_call Sample.names_rt Sample.ids_rt Sample.names_total Sample.ids_total Sample.uc_rt rdfDb0_life _
    (by simp [ulids, Op.entities]) ⟨fun _ h => absurd h (Nat.not_lt_zero _), fun _ h => absurd h (Nat.not_lt_zero _),
      fun _ h => absurd h (Nat.not_lt_zero _), fun _ h => absurd h (Nat.not_lt_zero _),
      fun _ _ _ h => absurd h (Nat.not_lt_zero _), fun _ h => absurd h (Nat.not_lt_zero _),
      fun _ _ => ⟨fun _ h => absurd h (Nat.not_lt_zero _), fun _ h => absurd h (Nat.not_lt_zero _)⟩⟩ hx).1

/-- in the middle of it -/
example (x : RdfState Nat Nat) (hx : (openOn rdfDb0 (Sample.ul 0) (Sample.eg 0)).HoldsState (SledIndex.impl Sample.names Sample.ids)
      (SledStore.impl Sample.uc Sample.mN Sample.mE) x) :
    ∃ l, Shuffle true (rdfThreads.map (List.flatMap (fun y => y.op.deeds))) l ∧
      ∀ u g, (openOn (rdfLeads rdfDb0 rdfThreads (rdfTurns.take 12)).1 u g).HoldsState (SledIndex.impl Sample.names Sample.ids)
        (SledStore.impl Sample.uc Sample.mN Sample.mE)
        (l.foldl (fun x o => x.deed Sample.uc.okN Sample.uc.okE Sample.mN Sample.mE o) x) :=
  C61_moment Sample.names_rt Sample.ids_rt Sample.names_total Sample.ids_total Sample.uc_rt rdfDb0_life hx rdf_fair
    (rdfLeads_moment _ _ _)

/-- at the end -/
example (x : RdfState Nat Nat) (hx : (openOn rdfDb0 (Sample.ul 0) (Sample.eg 0)).HoldsState (SledIndex.impl Sample.names Sample.ids)
      (SledStore.impl Sample.uc Sample.mN Sample.mE) x) :
    ∃ l, Shuffle false (rdfThreads.map (List.flatMap (fun y => y.op.deeds))) l ∧
      ∀ u g, (openOn (rdfLeads rdfDb0 rdfThreads rdfTurns).1 u g).HoldsState (SledIndex.impl Sample.names Sample.ids)
        (SledStore.impl Sample.uc Sample.mN Sample.mE)
        (l.foldl (fun x o => x.deed Sample.uc.okN Sample.uc.okE Sample.mN Sample.mE o) x) := by
  have hk : ∀ s, s = "alice" ∨ s = "knows" → x.known s = true := by
    intro s hs
    refine (hx.2 s).1 ?_
    rcases hs with rfl | rfl
    · exact ⟨Sample.ul 0 0, by decide +kernel⟩
    · exact ⟨Sample.ul 50 0, by decide +kernel⟩
  refine C61_final_partial Sample.names_rt Sample.ids_rt Sample.names_total Sample.ids_total Sample.uc_rt rdfDb0_life hx Sample.uc_total
    rdf_fair ?_ (rdfLeads_final (by decide +kernel))
  have h0 : ∀ y ∈ rdfThreads[0], ∀ s, y.Creates s → s = "carol" ∨ s = "alice" ∨ s = "knows" := by
    simp [rdfThreads, Call.Creates, Op.entities, RdfState.parts, itemEntities]
  have h1 : ∀ y ∈ rdfThreads[1], ∀ s, y.Creates s → s = "alice" ∨ s = "knows" ∨ s = "dave" := by
    simp [rdfThreads, Call.Creates, Op.entities, RdfState.parts]
  refine .cons (fun th hth y hy z hz s hs hs' => ?_) (.cons (by simp) .nil)
  obtain rfl := List.mem_singleton.1 hth
  rcases h0 y hy s hs with h | h
  · rcases h1 z hz s hs' with h' | h' | h' <;> rw [h] at h' <;> exact absurd h' (by decide)
  · exact hk s h

/-- what it is -/
example :
    let r := openOn (rdfLeads rdfDb0 rdfThreads rdfTurns).1 (Sample.ul 0) (Sample.eg 0)
    let ix := SledIndex.impl Sample.names Sample.ids
    let st := SledStore.impl Sample.uc Sample.mN Sample.mE
    r.iterVertices ix st = [.ok (.string "alice", 15), .ok (.string "carol", 1)] ∧
      r.iterEdges ix st .SPO = [.ok (⟨.string "alice", .string "knows", .string "dave"⟩, 8),
        .ok (⟨.string "carol", .string "knows", .string "alice"⟩, 2)] := by decide +kernel

/-! ### what is wrong with creating the same name -/

/-- two threads create the name "eve" -/
def nameRace : List (List RCall) :=
  [[⟨.insertNode (.string "eve") 1, ⟨Sample.ul 100, Sample.eg 100⟩⟩],
    [⟨.insertEdge ⟨.string "eve", .string "knows", .string "alice"⟩ 2, ⟨Sample.ul 200, Sample.eg 200⟩⟩]]

/-- both look it up before one of them sets it -/
def nameRaceTurns : List Nat := [0, 1, 0, 0, 0, 1, 1]

/-- all that is created at the end -/
theorem shuffle_mem {α : Type} {ls : List (List α)} {h l : List α} (hs : Shuffle false ls h) (hl : l ∈ ls) {a : α} (ha : a ∈ l) :
    a ∈ h := by
  induction hs generalizing l with
  | nil ls he => rw [he l hl] at ha; cases ha
  | take pre post b q h _ ih =>
    simp only [List.mem_append, List.mem_cons] at hl
    rcases hl with hl | rfl | hl
    · exact List.mem_cons_of_mem _ (ih (by simp [hl]) ha)
    · rcases List.mem_cons.1 ha with rfl | ha
      · exact List.mem_cons_self
      · exact List.mem_cons_of_mem _ (ih (l := q) (by simp) ha)
    · exact List.mem_cons_of_mem _ (ih (by simp [hl]) ha)
  | drop _ _ _ _ _ hb => cases hb

theorem mem_shuffle {α : Type} {b : Bool} {ls : List (List α)} {h : List α} (hs : Shuffle b ls h) {a : α} (ha : a ∈ h) :
    ∃ l ∈ ls, a ∈ l := by
  induction hs with
  | nil => cases ha
  | take pre post b q h _ ih =>
    rcases List.mem_cons.1 ha with rfl | ha
    · exact ⟨a :: q, by simp, by simp⟩
    · obtain ⟨l, hl, ha⟩ := ih ha
      simp only [List.mem_append, List.mem_cons] at hl
      rcases hl with hl | rfl | hl
      · exact ⟨l, by simp [hl], ha⟩
      · exact ⟨b :: l, by simp, by simp [ha]⟩
      · exact ⟨l, by simp [hl], ha⟩
  | drop pre post b q h _ _ ih =>
    obtain ⟨l, hl, ha⟩ := ih ha
    simp only [List.mem_append, List.mem_cons] at hl
    rcases hl with hl | rfl | hl
    · exact ⟨l, by simp [hl], ha⟩
    · exact ⟨b :: l, by simp, by simp [ha]⟩
    · exact ⟨l, by simp [hl], ha⟩

theorem nameRace_distinct : DistinctIds Sample.names Sample.ids Sample.uc [5] rdfDb0 nameRace := by
  have h1 : ((nameRace.flatten.flatMap Call.ulids).map Fin.val).Nodup := by decide +kernel
  have h2 : ((nameRace.flatten.flatMap Call.records).map Fin.val).Nodup := by decide +kernel
  have h3 : ∀ n ∈ (nameRace.flatten.flatMap Call.ulids).map Fin.val,
      n ∉ [(Sample.ul 0 0).val, (Sample.ul 50 0).val, (Sample.ul 50 1).val, 5] := by decide +kernel
  have h4 : ∀ n ∈ (nameRace.flatten.flatMap Call.records).map Fin.val, n ≠ (Sample.eg 50 0).val := by decide +kernel
  exact rdfDb0_distinct h1 h2 h3 h4

theorem nameRace_fair : Fair Sample.names Sample.ids Sample.uc [5] rdfDb0 nameRace where
  simple := by simp [nameRace, Call.Simple]
  explicit := by simp [nameRace, Op.entities, RdfState.parts, ulids]
  ids := nameRace_distinct
  race := by simp [nameRace, NoRace, Call.Removes]

/-- In every sequence of the two operations the edge is there at the end; here it is not: the second thread's call fails, because
the name it is about to create exists. -/
theorem C61_nameRace_violated :
    ∃ d, Fair Sample.names Sample.ids Sample.uc [5] rdfDb0 nameRace ∧
      RdfSled.Final Sample.names Sample.ids Sample.uc Sample.mN Sample.mE rdfDb0 nameRace d ∧
      ∀ (x : RdfState Nat Nat) (h : List (RdfDeed String Nat Nat)),
        Shuffle false (nameRace.map (List.flatMap (fun y => y.op.deeds))) h →
        ¬ (openOn d (Sample.ul 0) (Sample.eg 0)).HoldsState (SledIndex.impl Sample.names Sample.ids)
          (SledStore.impl Sample.uc Sample.mN Sample.mE)
          (h.foldl (fun x o => x.deed Sample.uc.okN Sample.uc.okE Sample.mN Sample.mE o) x) := by
  refine ⟨(rdfLeads rdfDb0 nameRace nameRaceTurns).1, nameRace_fair, rdfLeads_final (by decide +kernel), fun x h hs hx => ?_⟩
  have key : ∀ (l : List (RdfDeed String Nat Nat)) (y : RdfState Nat Nat),
      (∀ o ∈ l, (∃ s, o = .learn s) ∨ (∃ e p, o = .op (.insertNode e p)) ∨
        o = .op (.insertEdge ⟨.string "eve", .string "knows", .string "alice"⟩ 2)) →
      (y.graph.edges ⟨.string "eve", .string "knows", .string "alice"⟩ = some 2 ∨
        .op (.insertEdge ⟨.string "eve", .string "knows", .string "alice"⟩ 2) ∈ l) →
      (l.foldl (fun x o => x.deed Sample.uc.okN Sample.uc.okE Sample.mN Sample.mE o) y).graph.edges
        ⟨.string "eve", .string "knows", .string "alice"⟩ = some 2 := by
    intro l
    induction l with
    | nil =>
      intro y _ h
      rcases h with h | h
      · exact h
      · cases h
    | cons o l ih =>
      intro y ho h
      refine ih _ (fun o' h' => ho o' (List.mem_cons_of_mem _ h')) ?_
      rcases ho o List.mem_cons_self with ⟨s, rfl⟩ | ⟨e, p, rfl⟩ | rfl
      · rcases h with h | h
        · exact .inl h
        · rcases List.mem_cons.1 h with h | h
          · cases h
          · exact .inr h
      · rcases h with h | h
        · left
          simp only [RdfState.deed, RdfState.step, storeNode]
          split <;> exact h
        · rcases List.mem_cons.1 h with h | h
          · cases h
          · exact .inr h
      · left
        simp [RdfState.deed, RdfState.step, storeEdge, Codecs.okE, Sample.uc, Sample.unary, RdfState.change, Graph.insertEdge]
  have hall : ∀ o ∈ h, (∃ s, o = .learn s) ∨ (∃ e p, o = .op (.insertNode e p)) ∨
      o = .op (.insertEdge ⟨.string "eve", .string "knows", .string "alice"⟩ 2) := by
    intro o ho
    obtain ⟨l, hl, hol⟩ := mem_shuffle hs ho
    simp only [nameRace, List.map_cons, List.map_nil, List.flatMap_cons, List.flatMap_nil, Op.deeds, RdfDeed.after,
      RdfState.parts, names, List.append_nil, List.mem_cons, List.not_mem_nil, or_false] at hl
    rcases hl with rfl | rfl
    · simp only [List.cons_append, List.nil_append, List.mem_cons, List.not_mem_nil, or_false] at hol
      rcases hol with rfl | rfl
      · exact .inl ⟨_, rfl⟩
      · exact .inr (.inl ⟨_, _, rfl⟩)
    · simp only [List.cons_append, List.nil_append, List.mem_cons, List.not_mem_nil, or_false] at hol
      rcases hol with rfl | rfl | rfl | rfl
      · exact .inl ⟨_, rfl⟩
      · exact .inl ⟨_, rfl⟩
      · exact .inl ⟨_, rfl⟩
      · exact .inr (.inr rfl)
  have hin : .op (.insertEdge ⟨.string "eve", .string "knows", .string "alice"⟩ 2) ∈ h :=
    shuffle_mem hs (l := nameRace[1].flatMap (fun y => y.op.deeds)) (by simp [nameRace])
      (by simp [nameRace, Op.deeds, RdfDeed.after])
  have h1 := key h x hall (.inr hin)
  obtain ⟨-, l, e1, -, e2⟩ := hx.1.iter .SPO
  have h2 := (e2 _ _).2 h1
  have e : (openOn (rdfLeads rdfDb0 nameRace nameRaceTurns).1 (Sample.ul 0) (Sample.eg 0)).iterEdges
      (SledIndex.impl Sample.names Sample.ids) (SledStore.impl Sample.uc Sample.mN Sample.mE) .SPO =
      [(⟨.string "knows", .string "of", .ulid 5⟩, 7)].map .ok := by decide +kernel
  have := (List.map_injective_iff.2 (fun a b h => Except.ok.inj h)) (e1.symm.trans e)
  rw [this] at h2
  simp at h2

/-- even so, the names keep their ids -/
example : ∃ f', (SledIndex.impl Sample.names Sample.ids).Shows (rdfLeads rdfDb0 nameRace nameRaceTurns).1.names f' ∧
    f' "alice" = some (Sample.ul 0 0) ∧ ∀ s s' u, f' s = some u → f' s' = some u → s = s' := by
  obtain ⟨x, f, hf, -⟩ := rdfDb0_life.leaves Sample.names_rt Sample.ids_rt Sample.names_total Sample.ids_total Sample.uc_rt
  obtain ⟨f', h1, h2, h3⟩ := C61_names Sample.names_rt Sample.ids_rt Sample.names_total Sample.ids_total hf
    (rdfLeads_moment rdfDb0 nameRace nameRaceTurns)
  have e : (SledIndex.impl Sample.names Sample.ids).leftToRight rdfDb0.names "alice" = .ok (some (Sample.ul 0 0)) := by
    decide +kernel
  exact ⟨f', h1, h2 _ _ (Except.ok.inj ((hf.1 _).symm.trans e)), h3⟩

/-- what a program returns if others change the database after its first call -/
def afterOthers {S α : Type} (d d' : S) : Prog S α → Option α
  | .ret _ => none
  | .call _ k => some ((k d).run d').2

/-- What the failing look-up returns: the other thread has created the name in between. -/
theorem C61_nameRace_error :
    (afterOthers rdfDb0 (rdfLeads rdfDb0 nameRace [0, 0, 0]).1
      (lookupOrCreateEntity Sample.names Sample.ids (.string "eve") ⟨Sample.ul 200, Sample.eg 200⟩)).map Prod.snd =
      some (.error (.nameIndex (.duplicateRight "eve" (Sample.ul 100 0) (Sample.ul 200 0)))) := by decide +kernel

end Verif.Props
