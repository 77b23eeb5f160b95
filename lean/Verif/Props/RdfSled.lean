import Verif.Proof.RdfSled
import Verif.Props.RdfSample

/-!
# C60: crashes of RDF stores on sled

`x : RdfState` is a graph over entities with the names in use; `r.HoldsState ix st x` says that a client of `r` sees exactly that;
`x.step op` is what the operation does to it and how it ends (Spec/Rdf.lean).
-/

set_option maxRecDepth 100000

namespace Verif.Props

open Verif Spec ConcreteId RdfSled

variable {NP EP E : Type} {cl : Codec String} {cr : Codec Ulid} {c : Codecs NP EP} {mN : NP → NP → NP} {mE : EP → EP → EP}
  {C : List Ulid} {n k : Nat} {r : Rdf IndexDb (SledStore Ulid)} {x : RdfState NP EP}

/-! ## C60 An RDF store on sled survives crashes -/

/-- Each function of the RDF layer is the sequence of sled calls given by `prog`: made without interruption, they leave the
store, and return the result, that the function does. -/
theorem C60_alone (r : Rdf IndexDb (SledStore Ulid)) (op : Op E Entity NP EP) :
    (prog cl cr c mN mE op (idsOf r)).run (dbOf r) =
      (dbOf (r.call (SledIndex.impl cl cr) (SledStore.impl c mN mE) op).1,
        idsOf (r.call (SledIndex.impl cl cr) (SledStore.impl c mN mE) op).1,
        (r.call (SledIndex.impl cl cr) (SledStore.impl c mN mE) op).2) :=
  matches_call op r

section
variable (hl : cl.RoundTrips) (hr : cr.RoundTrips) (tl : cl.Total) (tr : cr.Total) (hc : c.RoundTrip)
include hl hr tl tr hc

/-- However the store came about, with any number of crashes in the middle of any calls, it holds exactly one graph over
entities, with the names in use. -/
theorem C60_holds (h : Reach cl cr c mN mE E C n k r) :
    ∃! x : RdfState NP EP, r.HoldsState (SledIndex.impl cl cr) (SledStore.impl c mN mE) x := by
  obtain ⟨x, hx⟩ := h.is hl hr tl tr hc
  exact ⟨x, hx.holds hc, fun y hy => hy.unique (hx.holds hc)⟩

/-- A call that is not interrupted has the specified effect and result. -/
theorem C60_call (op : Op E Entity NP EP) (hC : ∀ v ∈ ulids op.entities, v ∈ C)
    (h : Reach cl cr c mN mE E C (n + op.draws) (k + op.creations) r)
    (hx : r.HoldsState (SledIndex.impl cl cr) (SledStore.impl c mN mE) x) :
    (r.call (SledIndex.impl cl cr) (SledStore.impl c mN mE) op).2 = (x.step c.okN c.okE mN mE op).2.result .serialization ∧
    (r.call (SledIndex.impl cl cr) (SledStore.impl c mN mE) op).1.HoldsState (SledIndex.impl cl cr) (SledStore.impl c mN mE)
      (x.step c.okN c.okE mN mE op).1 := by
  obtain ⟨y, hy⟩ := h.is hl hr tl tr hc
  obtain rfl := hx.unique (hy.holds hc)
  obtain ⟨h1, h2⟩ := done_is (mN := mN) (mE := mE) hl hr tl tr hc op hC hy
  exact ⟨h2, h1.holds hc⟩

/-- A crash in the middle of a call leaves all of its effect; or the effect of a part of the source; and apart from that at most
some of the names that were to be used next.  Whatever supplies of ids the database is opened with again. -/
theorem C60_crash (op : Op E Entity NP EP) (hC : ∀ v ∈ ulids op.entities, v ∈ C)
    (h : Reach cl cr c mN mE E C (n + op.draws) (k + op.creations) r)
    (hx : r.HoldsState (SledIndex.impl cl cr) (SledStore.impl c mN mE) x) {d : RdfDb} (hd : d ∈ crashStates cl cr c mN mE r op) :
    ∃ x', RdfState.Cut c.okN c.okE mN mE x x' op ∧
      ∀ u g, (openOn d u g).HoldsState (SledIndex.impl cl cr) (SledStore.impl c mN mE) x' := by
  obtain ⟨y, hy⟩ := h.is hl hr tl tr hc
  obtain rfl := hx.unique (hy.holds hc)
  obtain ⟨x', h1, h2⟩ := crash_leaves hl hr tl tr hc op hC hy hd
  refine ⟨x', h1, fun u g => ?_⟩
  have : Is cl cr c [] 0 0 (openOn d u g) x' := by
    obtain ⟨f, a1, a2, a3, -⟩ := h2
    refine Leaves.is ⟨f, a1, a2, a3, fun _ h => by cases h⟩ ?_
    exact ⟨fun _ h => by omega, fun _ h => by omega, fun _ h => by omega, fun _ h => by omega, fun _ h => (by cases h),
      fun _ h => by omega, fun _ _ => ⟨fun _ h => by omega, fun _ h => by omega⟩⟩
  exact this.holds hc

/-- An operation that is no merge can be repeated after a crash in it (or after several): it ends up as, and returns what, it
would have without the crash. -/
theorem C60_again (op : Op E Entity NP EP) (hm : ∀ e p, op ≠ .mergeNode e p) (hm' : ∀ t p, op ≠ .mergeEdge t p)
    (hm'' : ∀ src, op ≠ .merge src) (hC : ∀ v ∈ ulids op.entities, v ∈ C)
    (h : Reach cl cr c mN mE E C (n + op.draws) (k + op.creations) r)
    (hx : r.HoldsState (SledIndex.impl cl cr) (SledStore.impl c mN mE) x) {d : RdfDb} (hd : d ∈ crashStates cl cr c mN mE r op)
    {n' k' : Nat} {u g : Gen Ulid} (hi : NewIds cl cr c C (n' + op.draws) (k' + op.creations) u g d) :
    ((openOn d u g).call (SledIndex.impl cl cr) (SledStore.impl c mN mE) op).2 =
      (r.call (SledIndex.impl cl cr) (SledStore.impl c mN mE) op).2 ∧
    ((openOn d u g).call (SledIndex.impl cl cr) (SledStore.impl c mN mE) op).1.HoldsState (SledIndex.impl cl cr)
      (SledStore.impl c mN mE) (x.step c.okN c.okE mN mE op).1 ∧
    ∀ d' ∈ crashStates cl cr c mN mE (openOn d u g) op, ∃ x', x'.step c.okN c.okE mN mE op = x.step c.okN c.okE mN mE op ∧
      ∀ u g, (openOn d' u g).HoldsState (SledIndex.impl cl cr) (SledStore.impl c mN mE) x' := by
  obtain ⟨x', h1, h2⟩ := C60_crash hl hr tl tr hc op hC h hx hd
  obtain ⟨h3, h4⟩ := C60_call hl hr tl tr hc op hC (.crash op hC h hd hi) (h2 u g)
  have e := Cut.again _ _ h1 hm hm' hm''
  rw [e] at h3 h4
  refine ⟨h3.trans (C60_call hl hr tl tr hc op hC h hx).1.symm, h4, fun d' hd' => ?_⟩
  obtain ⟨x'', k1, k2⟩ := C60_crash hl hr tl tr hc op hC (.crash op hC h hd hi) (h2 u g) hd'
  exact ⟨x'', (Cut.again _ _ k1 hm hm' hm'').trans e, k2⟩

end

/-! ### examples -/

/-- a store with two names and an edge -/
def crashRdf : Rdf IndexDb (SledStore Ulid) :=
  ((openOn { names := .empty, data := .empty } (Sample.ul 0) (Sample.eg 0)).callAll (SledIndex.impl Sample.names Sample.ids)
    (SledStore.impl Sample.bc Sample.mN Sample.mE)
    ([.insertNode (.string "alice") 10, .insertEdge ⟨.string "alice", .string "knows", .string "bob"⟩ 7] :
      List (Op String Entity Nat Nat))).1

/-- what is being added when the process crashes -/
def crashOp : Op String Entity Nat Nat :=
  .extend { nodes := [.ok (.string "carol", 1)]
            edges := [.ok (⟨.string "carol", .string "knows", .string "dave"⟩, 2), .ok (⟨.ulid 5, .string "knows", .ulid 5⟩, 3)] }

theorem new_empty (n k : Nat) (hn : n ≤ 100) (hk : k ≤ 100) :
    NewIds Sample.names Sample.ids Sample.bc [5] n k (Sample.ul 0) (Sample.eg 0) { names := .empty, data := .empty } :=
  ⟨Sample.ul_fresh _ _ (by omega), fun _ _ => rfl, fun _ _ _ h => (by cases h), fun _ _ _ _ h => (by cases h),
    fun v hv => Sample.ul_clean _ _ (by omega) v (by simp at hv; simp [hv]), Sample.eg_fresh _ _ (by omega), fun _ h => (by cases h)⟩

theorem crashRdf_reach (n k : Nat) (hn : n ≤ 90) (hk : k ≤ 90) :
    Reach Sample.names Sample.ids Sample.bc Sample.mN Sample.mE String [5] n k crashRdf := by
  have h0 := Reach.new (mN := Sample.mN) (mE := Sample.mE) (E := String) (new_empty (n + 1) (k + 3 + 1) (by omega) (by omega))
  have h1 := Reach.op (n := n + 1) (k := k + 3) (.insertNode (.string "alice") 10) (by simp [Op.entities, ulids]) h0
  exact Reach.op (n := n) (k := k) (.insertEdge ⟨.string "alice", .string "knows", .string "bob"⟩ 7)
    (by simp [Op.entities, RdfState.parts, ulids]) h1

/-- What can be looked up, and how many nodes and edges there are, at the crash points of `crashOp`: names can be left over that
nothing is said about, here "carol" and then "dave". -/
theorem C60_names_witness :
    (crashStates Sample.names Sample.ids Sample.bc Sample.mN Sample.mE crashRdf crashOp).map (fun d =>
      let r := openOn d (Sample.ul 0) (Sample.eg 0)
      let ix := SledIndex.impl Sample.names Sample.ids
      let st := SledStore.impl Sample.bc Sample.mN Sample.mE
      (["carol", "dave"].map (fun s => (r.lookupEntity (SX := SErr) ix (.string s)).isOk),
        (r.iterVertices ix st).length, (r.iterEdges ix st .OSP).length)) =
    [([false, false], 1, 1), ([false, false], 1, 1), ([true, false], 1, 1), ([true, false], 2, 1), ([true, false], 2, 1),
      ([true, false], 2, 1), ([true, false], 2, 1), ([true, true], 2, 1), ([true, true], 2, 2), ([true, true], 2, 2),
      ([true, true], 2, 3)] := by decide +kernel

/-- the database left when the edge has not been written -/
def crashDb : RdfDb :=
  (crashStates Sample.names Sample.ids Sample.bc Sample.mN Sample.mE crashRdf crashOp)[7]'(by decide +kernel)

theorem crashDb_mem : crashDb ∈ crashStates Sample.names Sample.ids Sample.bc Sample.mN Sample.mE crashRdf crashOp :=
  List.getElem_mem _

theorem crashDb_new : NewIds Sample.names Sample.ids Sample.bc [5] 5 10 (Sample.ul 500) (Sample.eg 500) crashDb := by
  have hv : Sled.iterVertices Ulid Sample.bc crashDb.data = [.ok (Sample.ul 0 0, 10), .ok (Sample.ul 0 3, 1)] := by decide +kernel
  have he : Sled.iterEdges Ulid Sample.bc crashDb.data .SPO = [.ok (⟨Sample.ul 0 0, Sample.ul 0 1, Sample.ul 0 2⟩, 7)] := by
    decide +kernel
  refine ⟨Sample.ul_fresh _ _ (by decide), by decide +kernel, fun j hj p h => ?_, fun j hj t p h => ?_,
    fun v hv => Sample.ul_clean _ _ (by decide) v (by simp at hv; simp [hv]), Sample.eg_fresh _ _ (by decide), ?_⟩
  · rw [hv] at h
    have : ∀ j < 10, Sample.ul 500 j ≠ Sample.ul 0 0 ∧ Sample.ul 500 j ≠ Sample.ul 0 3 := by decide +kernel
    simp [this j hj] at h
  · rw [he] at h
    have : ∀ j < 10, Sample.ul 0 0 ≠ Sample.ul 500 j ∧ Sample.ul 0 1 ≠ Sample.ul 500 j ∧ Sample.ul 0 2 ≠ Sample.ul 500 j := by
      decide +kernel
    simp only [List.mem_singleton, Except.ok.injEq, Prod.mk.injEq] at h
    rw [h.1]
    exact this j hj
  · unfold SledStore.Unused
    decide +kernel

/-- repeating the interrupted operation completes it -/
example (x : RdfState Nat Nat)
    (hx : crashRdf.HoldsState (SledIndex.impl Sample.names Sample.ids) (SledStore.impl Sample.bc Sample.mN Sample.mE) x) :
    ((openOn crashDb (Sample.ul 500) (Sample.eg 500)).call (SledIndex.impl Sample.names Sample.ids)
      (SledStore.impl Sample.bc Sample.mN Sample.mE) crashOp).1.HoldsState (SledIndex.impl Sample.names Sample.ids)
      (SledStore.impl Sample.bc Sample.mN Sample.mE) (x.step Sample.bc.okN Sample.bc.okE Sample.mN Sample.mE crashOp).1 :=
  have e1 : crashOp.draws = 2 := rfl
  have e2 : crashOp.creations = 7 := rfl
  (C60_again Sample.names_rt Sample.ids_rt Sample.names_total Sample.ids_total Sample.bc_rt crashOp (fun _ _ h => by cases h)
    (fun _ _ h => by cases h) (fun _ h => by cases h) (C := [5]) (n := 0) (k := 0)
    (fun v hv => by simpa [crashOp, Op.entities, itemEntities, RdfState.parts, ulids] using hv)
    (by rw [e1, e2]; exact crashRdf_reach _ _ (by decide) (by decide)) hx crashDb_mem (n' := 3) (k' := 3)
    (by rw [e1, e2]; exact crashDb_new)).2.1

/-- what it holds in the end -/
example :
    let r := ((openOn crashDb (Sample.ul 500) (Sample.eg 500)).call (SledIndex.impl Sample.names Sample.ids)
      (SledStore.impl Sample.bc Sample.mN Sample.mE) crashOp)
    r.2 = .ok () ∧ r.1.iterVertices (SledIndex.impl Sample.names Sample.ids) (SledStore.impl Sample.bc Sample.mN Sample.mE) =
      [.ok (.string "alice", 10), .ok (.string "carol", 1)] := by decide +kernel

/-- A merge must not be repeated without looking: a crash can strike when it is already done. -/
theorem C60_merge_witness :
    let ix := SledIndex.impl Sample.names Sample.ids
    let st := SledStore.impl Sample.bc Sample.mN Sample.mE
    let op : Op String Entity Nat Nat := .mergeNode (.string "alice") 5
    (crashStates Sample.names Sample.ids Sample.bc Sample.mN Sample.mE crashRdf op).map (fun d =>
      ((openOn d (Sample.ul 500) (Sample.eg 500)).call ix st op).1.iterVertices ix st) =
    [[.ok (.string "alice", 15)], [.ok (.string "alice", 15)], [.ok (.string "alice", 20)]] := by decide +kernel

end Verif.Props
