import Verif.Proof.RdfSplit
import Verif.Props.RdfSled

/-!
# C65: crashes of RDF stores whose names and data are in different databases

`moments r ops` are the contents of the two databases, one sled call after the other, while the calls `ops` are made on `r`.  A crash
takes the names back to one of them, the data to another one.
-/

set_option maxRecDepth 100000

namespace Verif.Props

open Verif Spec ConcreteId RdfSled

variable {NP EP E : Type} {cl : Codec String} {cr : Codec Ulid} {c : Codecs NP EP} {mN : NP → NP → NP} {mE : EP → EP → EP}
  {C : List Ulid} {n k : Nat} {r : Rdf IndexDb (SledStore Ulid)} {x y : RdfState NP EP}

/-! ## C65 Names and data in different databases survive crashes together -/

section
variable (hl : cl.RoundTrips) (hr : cr.RoundTrips) (tl : cl.Total) (tr : cr.Total) (hc : c.RoundTrip)
include hl hr tl tr hc

/-- However the store came about, with any number of crashes each of which takes names and data back to different moments, it holds
exactly one graph over entities, with the names in use. -/
theorem C65_holds (h : SplitReach cl cr c mN mE E C n k r) :
    ∃! x : RdfState NP EP, r.HoldsState (SledIndex.impl cl cr) (SledStore.impl c mN mE) x := by
  obtain ⟨x, hx⟩ := h.is hl hr tl tr hc
  exact ⟨x, hx.holds hc, fun y hy => hy.unique (hx.holds hc)⟩

/-- All later calls have the specified effect and result. -/
theorem C65_call (op : Op E Entity NP EP) (hC : ∀ v ∈ ulids op.entities, v ∈ C)
    (h : SplitReach cl cr c mN mE E C (n + op.draws) (k + op.creations) r)
    (hx : r.HoldsState (SledIndex.impl cl cr) (SledStore.impl c mN mE) x) :
    (r.call (SledIndex.impl cl cr) (SledStore.impl c mN mE) op).2 = (x.step c.okN c.okE mN mE op).2.result .serialization ∧
    (r.call (SledIndex.impl cl cr) (SledStore.impl c mN mE) op).1.HoldsState (SledIndex.impl cl cr) (SledStore.impl c mN mE)
      (x.step c.okN c.okE mN mE op).1 := by
  obtain ⟨y, hy⟩ := h.is hl hr tl tr hc
  obtain rfl := hx.unique (hy.holds hc)
  obtain ⟨h1, h2⟩ := done_is (mN := mN) (mE := mE) hl hr tl tr hc op hC hy
  exact ⟨h2, h1.holds hc⟩

/-- At each moment the two databases together hold what has been done of the calls: some of them, and a part of the next. -/
theorem C65_moment (ops : List (Op E Entity NP EP)) (hC : ∀ v ∈ explicitUlids ops, v ∈ C)
    (h : SplitReach cl cr c mN mE E C (n + draws ops) (k + creations ops) r)
    (hx : r.HoldsState (SledIndex.impl cl cr) (SledStore.impl c mN mE) x) {d : RdfDb} (hd : d ∈ moments cl cr c mN mE r ops) :
    ∃ y, (∀ u g, (openOn d u g).HoldsState (SledIndex.impl cl cr) (SledStore.impl c mN mE) y) ∧
      (y = (x.stepAll c.okN c.okE mN mE ops).1 ∨ ∃ h1 op h2, ops = h1 ++ op :: h2 ∧
        RdfState.Cut c.okN c.okE mN mE (x.stepAll c.okN c.okE mN mE h1).1 y op) := by
  obtain ⟨z, hz⟩ := h.is hl hr tl tr hc
  obtain rfl := hx.unique (hz.holds hc)
  obtain ⟨y, h1, -, h3⟩ := moments_leaves hl hr tl tr hc ops hC hz hd
  exact ⟨y, fun u g => h1.opened hc u g, h3⟩

/-- If the index keeps at least the calls made to it up to the moment the data are taken back to, the graph is that of this moment.
Missing: the index keeping fewer; see `C65_violated`. -/
theorem C65_namesLast_partial (ops : List (Op E Entity NP EP)) (hC : ∀ v ∈ explicitUlids ops, v ∈ C)
    (h : SplitReach cl cr c mN mE E C (n + draws ops) (k + creations ops) r) {i j : Nat} (hij : j ≤ i) {a b : RdfDb}
    (ha : (moments cl cr c mN mE r ops)[i]? = some a) (hb : (moments cl cr c mN mE r ops)[j]? = some b) {u g : Gen Ulid}
    (hx : (openOn a u g).HoldsState (SledIndex.impl cl cr) (SledStore.impl c mN mE) x)
    (hy : (openOn b u g).HoldsState (SledIndex.impl cl cr) (SledStore.impl c mN mE) y) :
    (openOn { names := a.names, data := b.data } u g).HoldsState (SledIndex.impl cl cr) (SledStore.impl c mN mE)
      { known := x.known, graph := y.graph } := by
  obtain ⟨z, hz⟩ := h.is hl hr tl tr hc
  have ha' := List.mem_of_getElem? ha
  have hb' := List.mem_of_getElem? hb
  obtain ⟨xa, a1, -⟩ := moments_leaves hl hr tl tr hc ops hC hz ha'
  obtain ⟨xb, b1, -⟩ := moments_leaves hl hr tl tr hc ops hC hz hb'
  obtain rfl := hx.unique (a1.opened hc u g)
  obtain rfl := hy.unique (b1.opened hc u g)
  have hba := moments_more hl hr tl tr ops hij hb ha
  exact (names_last hba a1 b1 (later_names hl hr tl tr hc ops hC hz ha' hb' hba)).opened hc u g

/-- If the index keeps fewer calls, the graph is that of the moment of the data, except that the entities whose names are lost are now
known by their ids only. -/
theorem C65_namesFirst (ops : List (Op E Entity NP EP)) (hC : ∀ v ∈ explicitUlids ops, v ∈ C)
    (h : SplitReach cl cr c mN mE E C (n + draws ops) (k + creations ops) r) {i j : Nat} (hij : i ≤ j) {a b : RdfDb}
    (ha : (moments cl cr c mN mE r ops)[i]? = some a) (hb : (moments cl cr c mN mE r ops)[j]? = some b) {u g : Gen Ulid}
    (hx : (openOn a u g).HoldsState (SledIndex.impl cl cr) (SledStore.impl c mN mE) x)
    (hy : (openOn b u g).HoldsState (SledIndex.impl cl cr) (SledStore.impl c mN mE) y) :
    ∃ z, (openOn { names := a.names, data := b.data } u g).HoldsState (SledIndex.impl cl cr) (SledStore.impl c mN mE) z ∧
      z.known = x.known ∧
      Graph.Relabelled
        (relabel x.known (fun s => ((openOn b u g).lookupEntity (SX := SErr) (SledIndex.impl cl cr) (.string s)).toOption))
        y.graph z.graph := by
  obtain ⟨z, hz⟩ := h.is hl hr tl tr hc
  obtain ⟨xa, a1, -⟩ := moments_leaves hl hr tl tr hc ops hC hz (List.mem_of_getElem? ha)
  obtain ⟨xb, b1, -⟩ := moments_leaves hl hr tl tr hc ops hC hz (List.mem_of_getElem? hb)
  obtain rfl := hx.unique (a1.opened hc u g)
  obtain rfl := hy.unique (b1.opened hc u g)
  obtain ⟨w, w1, w2, f, w3, w4⟩ := names_first (moments_more hl hr tl tr ops hij ha hb) a1 b1
  refine ⟨w, w1.opened hc u g, w2, ?_⟩
  have e : (fun s => ((openOn b u g).lookupEntity (SX := SErr) (SledIndex.impl cl cr) (.string s)).toOption) = f := by
    funext s
    rw [Rdf.lookupEntity_eq (f := f) (by exact w3)]
    dsimp only
    cases f s <;> rfl
  rw [e]
  exact w4

end

/-! ### examples -/

/-- a new store -/
def splitRdf : Rdf IndexDb (SledStore Ulid) := openOn { names := .empty, data := .empty } (Sample.ul 0) (Sample.eg 0)

/-- what is done with it -/
def splitOps : List (Op String Entity Nat Nat) :=
  [.insertNode (.string "alice") 10, .insertEdge ⟨.string "alice", .string "knows", .string "bob"⟩ 7, .insertNode (.ulid 5) 11]

theorem splitOps_ulids : ∀ v ∈ explicitUlids splitOps, v ∈ [(5 : Ulid)] :=
  fun v hv => by simpa [splitOps, explicitUlids, Op.entities, RdfState.parts, ulids] using hv

theorem splitRdf_reach (n k : Nat) (hn : n ≤ 100) (hk : k ≤ 100) :
    SplitReach Sample.names Sample.ids Sample.bc Sample.mN Sample.mE String [5] n k splitRdf := .new (new_empty n k hn hk)

abbrev splitMoments : List RdfDb := moments Sample.names Sample.ids Sample.bc Sample.mN Sample.mE splitRdf splitOps

/-- the databases with the names of moment `i` and the data of moment `j` -/
def splitDb (i j : Nat) : RdfDb :=
  { names := (splitMoments.getD i (dbOf splitRdf)).names, data := (splitMoments.getD j (dbOf splitRdf)).data }

def splitOpen (i j : Nat) : Rdf IndexDb (SledStore Ulid) := openOn (splitDb i j) (Sample.ul 500) (Sample.eg 500)

theorem splitMoments_length : splitMoments.length = 14 := by decide +kernel

/-- The graph need not be that of any moment: the node that "alice" is the name of can have lost it.  The name can then not be looked
up; and making the calls again adds a second node of this name, which the edge does not lead from. -/
theorem C65_violated :
    let ix := SledIndex.impl Sample.names Sample.ids
    let st := SledStore.impl Sample.bc Sample.mN Sample.mE
    (splitOpen 13 13).iterVertices ix st = [.ok (.ulid 5, 11), .ok (.string "alice", 10)] ∧
    (splitOpen 0 13).iterVertices ix st = [.ok (.ulid 5, 11), .ok (.ulid (Sample.ul 0 0), 10)] ∧
    ((splitOpen 0 13).lookupEntity (SX := SErr) ix (.string "alice")).isOk = false ∧
    ((splitOpen 0 13).insertNode ix st (.string "alice") 10).1.iterVertices ix st =
      [.ok (.ulid 5, 11), .ok (.ulid (Sample.ul 0 0), 10), .ok (.string "alice", 10)] ∧
    ∀ j < 14, (splitOpen j j).iterVertices ix st ≠ (splitOpen 0 13).iterVertices ix st := by
  refine ⟨by decide +kernel, by decide +kernel, by decide +kernel, by decide +kernel, fun j hj e => ?_⟩
  have h : ∀ j < 14, ((splitOpen j j).iterVertices (SledIndex.impl Sample.names Sample.ids)
      (SledStore.impl Sample.bc Sample.mN Sample.mE)).map Except.toOption ≠
      ((splitOpen 0 13).iterVertices (SledIndex.impl Sample.names Sample.ids)
        (SledStore.impl Sample.bc Sample.mN Sample.mE)).map Except.toOption := by decide +kernel
  exact h j hj (congrArg (List.map Except.toOption) e)

/-- only "alice" is still known: the edge is read with the ids of the other two -/
example :
    let ix := SledIndex.impl Sample.names Sample.ids
    let st := SledStore.impl Sample.bc Sample.mN Sample.mE
    (splitOpen 4 13).iterVertices ix st = [.ok (.ulid 5, 11), .ok (.string "alice", 10)] ∧
    (splitOpen 4 13).iterEdges ix st .SPO = [.ok (⟨.string "alice", .ulid (Sample.ul 0 1), .ulid (Sample.ul 0 2)⟩, 7)] := by
  decide +kernel

/-- all names are known, but only the first call has reached the data -/
example :
    let ix := SledIndex.impl Sample.names Sample.ids
    let st := SledStore.impl Sample.bc Sample.mN Sample.mE
    (splitOpen 13 4).iterVertices ix st = [.ok (.string "alice", 10)] ∧ (splitOpen 13 4).iterEdges ix st .SPO = [] ∧
    ((splitOpen 13 4).lookupEntity (SX := SErr) ix (.string "bob")).toOption = some (Sample.ul 0 2) := by
  decide +kernel

/-- … which is the graph of that moment -/
example (x y : RdfState Nat Nat)
    (hx : (openOn (splitMoments.getD 13 (dbOf splitRdf)) (Sample.ul 500) (Sample.eg 500)).HoldsState
      (SledIndex.impl Sample.names Sample.ids) (SledStore.impl Sample.bc Sample.mN Sample.mE) x)
    (hy : (openOn (splitMoments.getD 4 (dbOf splitRdf)) (Sample.ul 500) (Sample.eg 500)).HoldsState
      (SledIndex.impl Sample.names Sample.ids) (SledStore.impl Sample.bc Sample.mN Sample.mE) y) :
    (splitOpen 13 4).HoldsState (SledIndex.impl Sample.names Sample.ids) (SledStore.impl Sample.bc Sample.mN Sample.mE)
      { known := x.known, graph := y.graph } := by
  have e1 : draws splitOps = 1 := rfl
  have e2 : creations splitOps = 5 := rfl
  have hlen := splitMoments_length
  refine C65_namesLast_partial Sample.names_rt Sample.ids_rt Sample.names_total Sample.ids_total Sample.bc_rt splitOps
    (C := [5]) (n := 0) (k := 0)
    splitOps_ulids (by rw [e1, e2]; exact splitRdf_reach _ _ (by decide) (by decide)) (i := 13) (j := 4) (by decide) ?_ ?_ hx hy
  · show splitMoments[13]? = _
    rw [List.getD_eq_getElem?_getD, List.getElem?_eq_getElem (by omega)]
    rfl
  · show splitMoments[4]? = _
    rw [List.getD_eq_getElem?_getD, List.getElem?_eq_getElem (by omega)]
    rfl

theorem splitDb_new : NewIds Sample.names Sample.ids Sample.bc [5] 5 10 (Sample.ul 500) (Sample.eg 500) (splitDb 0 13) := by
  have hv : Sled.iterVertices Ulid Sample.bc (splitDb 0 13).data = [.ok (5, 11), .ok (Sample.ul 0 0, 10)] := by decide +kernel
  have he : Sled.iterEdges Ulid Sample.bc (splitDb 0 13).data .SPO = [.ok (⟨Sample.ul 0 0, Sample.ul 0 1, Sample.ul 0 2⟩, 7)] := by
    decide +kernel
  refine ⟨Sample.ul_fresh _ _ (by decide), by decide +kernel, fun j hj p h => ?_, fun j hj t p h => ?_,
    fun v hv => Sample.ul_clean _ _ (by decide) v (by simp at hv; simp [hv]), Sample.eg_fresh _ _ (by decide), ?_⟩
  · rw [hv] at h
    have : ∀ j < 10, Sample.ul 500 j ≠ 5 ∧ Sample.ul 500 j ≠ Sample.ul 0 0 := by decide +kernel
    simp [this j hj] at h
  · rw [he] at h
    have : ∀ j < 10, Sample.ul 0 0 ≠ Sample.ul 500 j ∧ Sample.ul 0 1 ≠ Sample.ul 500 j ∧ Sample.ul 0 2 ≠ Sample.ul 500 j := by
      decide +kernel
    simp only [List.mem_singleton, Except.ok.injEq, Prod.mk.injEq] at h
    rw [h.1]
    exact this j hj
  · unfold SledStore.Unused
    decide +kernel

/-- the store without "alice" has come about -/
theorem splitOpen_reach : SplitReach Sample.names Sample.ids Sample.bc Sample.mN Sample.mE String [5] 5 10 (splitOpen 0 13) := by
  have hlen := splitMoments_length
  refine .crash (n' := 0) (k' := 0) splitOps splitOps_ulids (splitRdf_reach _ _ (by decide) (by decide))
    (a := splitMoments.getD 0 (dbOf splitRdf)) (b := splitMoments.getD 13 (dbOf splitRdf)) ?_ ?_ splitDb_new
  · rw [List.getD_eq_getElem?_getD, List.getElem?_eq_getElem (by omega)]
    exact List.getElem_mem _
  · rw [List.getD_eq_getElem?_getD, List.getElem?_eq_getElem (by omega)]
    exact List.getElem_mem _

/-- it holds one graph, and is used as any other -/
example : ∃! x : RdfState Nat Nat,
    (splitOpen 0 13).HoldsState (SledIndex.impl Sample.names Sample.ids) (SledStore.impl Sample.bc Sample.mN Sample.mE) x :=
  C65_holds Sample.names_rt Sample.ids_rt Sample.names_total Sample.ids_total Sample.bc_rt splitOpen_reach

end Verif.Props
