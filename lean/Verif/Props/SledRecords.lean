import Verif.Proof.SledProps
import Verif.Proof.SledLeak
import Verif.Props.SledSample

/-! # Orphaned edges (C32) and leaked property records (C33) -/

set_option linter.unusedSectionVars false
set_option maxRecDepth 100000

namespace Verif.Props

open Verif Spec ConcreteId

variable {Id NP EP E : Type} [LinearOrder Id] [ConcreteId Id] [LawfulId Id]

/-! ## C32 Orphaned edges are ignored by iteration
The code violates this: only the in-memory `iter_edges_with_props` ignores them. -/

/-- In memory, `iter_edges_with_props` yields no error, and exactly the edges none of whose endpoints is missing.
Missing from the full property: `iter_edges` (see `C32_violated_edges`) and the sled back-end. -/
theorem C32_mem_partial {mN : NP → NP → NP} {mE : EP → EP → EP} {s : Mem Id NP EP} {G : Graph Id NP EP}
    (hs : Mem.Built E mN mE s) (hG : Shows s.obs G) (o : EdgeOrder) :
    (∀ e, .error e ∉ s.iterEdgesWithProps o) ∧
    ∀ x, .ok x ∈ s.iterEdgesWithProps o ↔ G.nodes x.sub.1 = some x.sub.2 ∧
        G.edges ⟨x.sub.1, x.pred.1, x.obj.1⟩ = some x.pred.2 ∧ G.nodes x.obj.1 = some x.obj.2 := by
  rw [← hs.graph_of_shows hG, Mem.iterEdgesWithProps_eq]
  refine ⟨fun e he => ?_, fun x => ?_⟩
  · obtain ⟨_, _, h⟩ := List.mem_map.1 he; cases h
  · refine Iff.trans ?_ ((Mem.fullList_spec hs.agree o).2 x)
    simp

/-- What `iter_edges_with_props` of a sled store yields: one item per edge, in order; `MissingPropertyData` for the
orphaned ones. -/
theorem C32_sled_computed {c : Codecs NP EP} (hc : c.RoundTrip) {mN : NP → NP → NP} {mE : EP → EP → EP} {n m : Nat}
    {s : SledStore Id} (hs : SledStore.Reach E c mN mE n m s) {G : Graph Id NP EP} (hG : Shows (s.obs c) G)
    (o : EdgeOrder) :
    ∃ l, Lists (edgeLT o) G.edges l ∧ Sled.iterEdgesWithProps Id c s.db o = l.map (propsItem G) := by
  have h := hs.ok_of_shows hc hG
  obtain ⟨l, -, h2, h3⟩ := Sled.iterEdgesWithProps_map h.inv o
  rw [h.graph] at h2 h3
  exact ⟨l, h2, h3⟩

/-- Without orphaned edges the two back-ends agree with the documentation.  Missing from the full property: stores with
orphaned edges, for which the code fails. -/
theorem C32_sled_partial {c : Codecs NP EP} (hc : c.RoundTrip) {mN : NP → NP → NP} {mE : EP → EP → EP} {n m : Nat}
    {s : SledStore Id} (hs : SledStore.Reach E c mN mE n m s) {G : Graph Id NP EP} (hG : Shows (s.obs c) G)
    (hno : ∀ t p, G.edges t = some p → (G.nodes t.sub).isSome ∧ (G.nodes t.obj).isSome) (o : EdgeOrder) :
    ∃ l : List (PropsTriple Id NP EP), Sled.iterEdgesWithProps Id c s.db o = l.map .ok ∧
      l.Pairwise (fun a b => edgeLT o a.toTriple b.toTriple) ∧
      ∀ x, x ∈ l ↔ G.nodes x.sub.1 = some x.sub.2 ∧
        G.edges ⟨x.sub.1, x.pred.1, x.obj.1⟩ = some x.pred.2 ∧ G.nodes x.obj.1 = some x.obj.2 := by
  obtain ⟨l, hl, he⟩ := C32_sled_computed hc hs hG o
  have key : ∀ x ∈ l, ∃ a b, G.nodes x.1.sub = some a ∧ G.nodes x.1.obj = some b := by
    intro x hx
    obtain ⟨h1, h2⟩ := hno _ _ ((hl.2 x.1 x.2).1 hx)
    exact ⟨_, _, (Option.some_get h1).symm, (Option.some_get h2).symm⟩
  rw [he]
  refine ⟨_, map_all_ok (fun x hx => ?_), ?_, fun y => ?_⟩
  · obtain ⟨a, b, ha, hb⟩ := key x hx
    simp only [propsItem, ha, hb]
    exact ⟨_, rfl⟩
  · refine List.Pairwise.filterMap _ (fun x x' hxx y hy y' hy' => ?_) (List.Pairwise.and_mem.1 hl.1)
    obtain ⟨hx, hx', hlt⟩ := hxx
    obtain ⟨a, b, ha, hb⟩ := key x hx
    obtain ⟨a', b', ha', hb'⟩ := key x' hx'
    simp only [propsItem, ha, hb] at hy
    simp only [propsItem, ha', hb'] at hy'
    cases hy; cases hy'
    exact hlt
  · rw [List.mem_filterMap]
    constructor
    · rintro ⟨x, hx, h⟩
      obtain ⟨a, b, ha, hb⟩ := key x hx
      simp only [propsItem, ha, hb] at h
      cases h
      exact ⟨ha, (hl.2 _ _).1 hx, hb⟩
    · rintro ⟨h1, h2, h3⟩
      refine ⟨_, (hl.2 _ _).2 h2, ?_⟩
      simp only [propsItem, h1, h3]

/-- The sled back-end does not ignore an orphaned edge: `iter_edges_with_props` reports an error for it. -/
theorem C32_violated_sled : ∃ s : SledStore U64, SledStore.Reach String Sample.uc Sample.mN Sample.mE 0 0 s ∧
    ∃ G, Shows (s.obs Sample.uc) G ∧ (∃ t p, G.edges t = some p ∧ G.nodes t.obj = none) ∧
    .error .missing ∈ Sled.iterEdgesWithProps U64 Sample.uc s.db .SPO := by
  refine ⟨Sample.sstore, Sample.sstore_reach 0 0 (by decide) (by decide), _,
    (Sample.sstore_reach 0 0 (by decide) (by decide)).shows Sample.uc_rt, ⟨⟨2, 5, 9⟩, 8, ?_, ?_⟩, ?_⟩ <;> decide +kernel

/-- `iter_edges` does not ignore orphaned edges, on either back-end. -/
theorem C32_violated_edges :
    (∃ s : Mem U64 Nat Nat, Mem.Reach String Sample.mN Sample.mE 0 s ∧ ∃ G, Shows s.obs G ∧
      ∃ t p, .ok (t, p) ∈ s.iterEdges .SPO ∧ G.nodes t.obj = none) ∧
    ∃ s : SledStore U64, SledStore.Reach String Sample.uc Sample.mN Sample.mE 0 0 s ∧ ∃ G, Shows (s.obs Sample.uc) G ∧
      ∃ t p, .ok (t, p) ∈ Sled.iterEdges U64 Sample.uc s.db .SPO ∧ G.nodes t.obj = none := by
  constructor
  · have hb := (Sample.store_reach 0 (by decide)).built
    refine ⟨Sample.store, Sample.store_reach 0 (by decide), _, Mem.shows hb.agree, ⟨2, 5, 9⟩, 8, ?_, ?_⟩ <;> decide +kernel
  · refine ⟨Sample.sstore, Sample.sstore_reach 0 0 (by decide) (by decide), _,
      (Sample.sstore_reach 0 0 (by decide) (by decide)).shows Sample.uc_rt, ⟨2, 5, 9⟩, 8, ?_, ?_⟩ <;> decide +kernel

example : (∀ e, .error e ∉ Sample.store.iterEdgesWithProps .OSP) ∧ ∀ x, .ok x ∈ Sample.store.iterEdgesWithProps .OSP ↔
    (Sample.store.graph).nodes x.sub.1 = some x.sub.2 ∧
    (Sample.store.graph).edges ⟨x.sub.1, x.pred.1, x.obj.1⟩ = some x.pred.2 ∧
    (Sample.store.graph).nodes x.obj.1 = some x.obj.2 :=
  C32_mem_partial (Sample.store_reach 0 (by decide)).built (Mem.shows (Sample.store_reach 0 (by decide)).built.agree) .OSP

example : Sled.iterEdgesWithProps U64 Sample.uc Sample.sstore.db .POS =
    [.ok ⟨(2, 21), (2, 3), (2, 21)⟩, .ok ⟨(1, 10), (5, 4), (2, 21)⟩, .error .missing] := by decide +kernel

example : ∃ l, Lists (edgeLT .POS) (Sample.sstore.db.graph (Id := U64) Sample.uc).edges l ∧
    Sled.iterEdgesWithProps U64 Sample.uc Sample.sstore.db .POS =
      l.map (propsItem (Sample.sstore.db.graph Sample.uc)) :=
  C32_sled_computed Sample.uc_rt (Sample.sstore_reach 0 0 (by decide) (by decide))
    ((Sample.sstore_reach 0 0 (by decide) (by decide)).shows Sample.uc_rt) .POS

/-- `sstore` without the orphan -/
def Sample.tidy : SledStore U64 := Sample.sstore.apply Sample.uc Sample.mN Sample.mE (.removeEdge ⟨2, 5, 9⟩ : Op String U64 Nat Nat)

theorem Sample.tidy_reach : SledStore.Reach String Sample.uc Sample.mN Sample.mE 0 0 Sample.tidy :=
  .op _ (Sample.sstore_reach 0 0 (by decide) (by decide))

example : ∃ l : List (PropsTriple U64 Nat Nat), Sled.iterEdgesWithProps U64 Sample.uc Sample.tidy.db .OSP = l.map .ok ∧
    l.Pairwise (fun a b => edgeLT .OSP a.toTriple b.toTriple) ∧
    ∀ x, x ∈ l ↔ (Sample.tidy.db.graph Sample.uc).nodes x.sub.1 = some x.sub.2 ∧
      (Sample.tidy.db.graph Sample.uc).edges ⟨x.sub.1, x.pred.1, x.obj.1⟩ = some x.pred.2 ∧
      (Sample.tidy.db.graph Sample.uc).nodes x.obj.1 = some x.obj.2 :=
  C32_sled_partial Sample.uc_rt Sample.tidy_reach (Sample.tidy_reach.shows Sample.uc_rt) (fun t p h => by
    have hk := (Sled.shows (Sample.tidy_reach.ok Sample.uc_rt).inv).2 .SPO
    obtain ⟨l, h1, h2⟩ := hk
    have h3 : l.map .ok = ([.ok (⟨1, 5, 2⟩, 4), .ok (⟨2, 2, 2⟩, 3)] : List (Except SErr (Triple U64 × Nat))) :=
      h1.symm.trans (by decide +kernel)
    have h4 := (h2.2 t p).2 h
    have h5 : (.ok (t, p) : Except SErr (Triple U64 × Nat)) ∈ l.map .ok := List.mem_map.2 ⟨_, h4, rfl⟩
    rw [h3] at h5
    simp only [List.mem_cons, List.not_mem_nil, or_false, Except.ok.injEq, Prod.mk.injEq] at h5
    rcases h5 with ⟨rfl, -⟩ | ⟨rfl, -⟩ <;> decide +kernel) .OSP

/-! ## C33 Sled edge property storage does not leak
The code violates this: `insert_edge` leaves the record of the value it replaces.  Nothing else leaks. -/

/-- Over any number of runs of the process starting with an empty database (the ids drawn being different): besides the
records of the edges there are exactly as many records as calls of `insert_edge` replaced an edge. -/
theorem C33_exact {c : Codecs NP EP} (hc : c.RoundTrip) (mN : NP → NP → NP) (mE : EP → EP → EP)
    (l : List (Gen Id × Gen Ulid × List (Op E Id NP EP))) (hn : (l.flatMap SledStore.drawn).Nodup) {d : Db}
    (hd : d = SledStore.runs c mN mE Db.empty l) :
    ∃ leaked : List Bytes, leaked.Nodup ∧
      leaked.length = overwriting c.okN c.okE mN mE Graph.empty (l.flatMap (fun r => r.2.2)) ∧
      (∀ v ∈ leaked, ∀ o, ∀ e ∈ (d.tree o).entries, e.2 ≠ v) ∧
      ∀ v, (d.edgeProps.get v).isSome ↔ (∃ e ∈ d.spo.entries, e.2 = v) ∨ v ∈ leaked := by
  subst hd
  obtain ⟨L, h1, h2, h3, h4, h5⟩ := SledStore.runs_exact (Id := Id) hc mN mE l Db.empty (Db.inv_empty c) [] Db.exact_empty
    List.nodup_nil (by simp) (by simp) hn (fun v _ t ht => by cases ht)
  refine ⟨L, h2, by rw [h1]; simp [Db.graph_empty], ?_, fun v => ?_⟩
  · rintro v hv o ⟨k, w⟩ he rfl
    rw [BMap.mem_entries] at he
    obtain ⟨t, rfl⟩ := h3.keys o k _ he
    exact h5 _ hv t ((h3.same o t).symm.trans he)
  · rw [h4]
    refine or_congr_left ?_
    constructor
    · rintro ⟨t, ht⟩; exact ⟨((encodeSpo t).1, v), BMap.mem_entries.2 ht, rfl⟩
    · rintro ⟨⟨k, v⟩, hm, rfl⟩
      rw [BMap.mem_entries] at hm
      obtain ⟨t, rfl⟩ := h3.keys .SPO k _ hm
      exact ⟨t, hm⟩

theorem C33_count {c : Codecs NP EP} (hc : c.RoundTrip) (mN : NP → NP → NP) (mE : EP → EP → EP)
    (l : List (Gen Id × Gen Ulid × List (Op E Id NP EP))) (hn : (l.flatMap SledStore.drawn).Nodup) {d : Db}
    (hd : d = SledStore.runs c mN mE Db.empty l) (o : EdgeOrder) :
    d.recordCount = (Sled.iterEdges Id c d o).length +
      overwriting c.okN c.okE mN mE Graph.empty (l.flatMap (fun r => r.2.2)) := by
  subst hd
  obtain ⟨L, h1, h2, h3, h4, h5⟩ := SledStore.runs_exact (Id := Id) hc mN mE l Db.empty (Db.inv_empty c) [] Db.exact_empty
    List.nodup_nil (by simp) (by simp) hn (fun v _ t ht => by cases ht)
  have hl : ∀ o, (Sled.iterEdges Id c (SledStore.runs c mN mE Db.empty l) o).length =
      (Sled.iterEdges Id c (SledStore.runs c mN mE Db.empty l) .SPO).length := by
    intro o
    obtain ⟨l1, e1, s1⟩ := (Sled.shows h3).2 o
    obtain ⟨l2, e2, s2⟩ := (Sled.shows h3).2 .SPO
    have e1' : Sled.iterEdges Id c (SledStore.runs c mN mE Db.empty l) o = _ := e1
    have e2' : Sled.iterEdges Id c (SledStore.runs c mN mE Db.empty l) .SPO = _ := e2
    rw [e1', e2', List.length_map, List.length_map]
    have nd : ∀ {o} {l : List (Triple Id × EP)}, l.Pairwise (fun a b => edgeLT o a.1 b.1) → l.Nodup := by
      intro o l h
      refine h.imp (fun {a b} hab e => ?_)
      subst e
      rw [← encOf_lt] at hab
      exact lt_irrefl _ hab
    exact ((List.perm_ext_iff_of_nodup (nd s1.1) (nd s2.1)).2 (fun x => by rw [s1.2, s2.2])).length_eq
  rw [Db.count_exact h3 h4 h2 h5, hl o, h1]
  simp [Db.graph_empty]

/-- The property as stated holds as long as no call of `insert_edge` replaces an edge.  (Missing from the full property:
histories with such calls, for which the code fails.) -/
theorem C33_noOverwrite_partial {c : Codecs NP EP} (hc : c.RoundTrip) (mN : NP → NP → NP) (mE : EP → EP → EP)
    (l : List (Gen Id × Gen Ulid × List (Op E Id NP EP))) (hn : (l.flatMap SledStore.drawn).Nodup) {d : Db}
    (hd : d = SledStore.runs c mN mE Db.empty l)
    (ho : overwriting c.okN c.okE mN mE Graph.empty (l.flatMap (fun r => r.2.2)) = 0) :
    ∀ v, (d.edgeProps.get v).isSome ↔ ∃ e ∈ d.spo.entries, e.2 = v := by
  obtain ⟨L, -, h2, -, h4⟩ := C33_exact hc mN mE l hn hd
  rw [ho, List.length_eq_zero_iff] at h2
  subst h2
  simpa using h4

/-- Two insertions of the same edge leave an unreferenced record, for ever growing. -/
theorem C33_violated : ∃ s : SledStore U64, SledStore.Reach String Sample.uc Sample.mN Sample.mE 0 0 s ∧
    ∃ v, (s.db.edgeProps.get v).isSome ∧ ∀ o, ∀ e ∈ (s.db.tree o).entries, e.2 ≠ v := by
  refine ⟨Sample.sstore, Sample.sstore_reach 0 0 (by decide) (by decide), [0, 0, 0, 0, 0, 0, 0, 3], by decide +kernel,
    fun o => ?_⟩
  cases o <;> decide +kernel

/-- It grows without bound: for every `k` there is a history after which one edge is left, and `k` unreferenced
records. -/
theorem C33_unbounded (k : Nat) (hk : k < 2 ^ 64) :
    let h : List (Op String U64 Nat Nat) := List.replicate (k + 1) (.insertEdge ⟨1, 5, 2⟩ 7)
    let d := ((SledStore.new Db.empty (fun n => (Fin.ofNat _ n : U64)) (Sample.ul 0)).applyAll Sample.uc Sample.mN Sample.mE h).db
    (Sled.iterEdges U64 Sample.uc d .SPO).length = 1 ∧ d.recordCount = k + 1 := by
  intro h d
  have e : (SledStore.runs Sample.uc Sample.mN Sample.mE Db.empty
      [((fun n => (Fin.ofNat _ n : U64)), Sample.ul 0, h)]) = d := rfl
  have hg : genDraws h = k + 1 := by simp [h, genDraws, Op.genDraws]
  have hu : ulidDraws h = 0 := by simp [h, ulidDraws, Op.ulidDraws]
  have hn : ([((fun n => (Fin.ofNat _ n : U64)), Sample.ul 0, h)].flatMap (SledStore.drawn (E := String))).Nodup := by
    simp only [List.flatMap_cons, List.flatMap_nil, List.append_nil, SledStore.drawn, hg, hu, List.range_zero,
      List.map_nil]
    refine List.Nodup.map_on (fun i hi j hj hij => ?_) List.nodup_range
    have := congrArg Fin.val (toBe_inj.1 hij)
    simp only [Fin.ofNat, List.mem_range] at this hi hj
    rwa [Nat.mod_eq_of_lt (by omega), Nat.mod_eq_of_lt (by omega)] at this
  have count := C33_count Sample.uc_rt Sample.mN Sample.mE _ hn e.symm .SPO
  have ow : ∀ (j : Nat) (G : Graph U64 Nat Nat), (G.edges ⟨1, 5, 2⟩).isSome →
      overwriting Sample.uc.okN Sample.uc.okE Sample.mN Sample.mE G
        (List.replicate j (.insertEdge ⟨1, 5, 2⟩ 7) : List (Op String U64 Nat Nat)) = j := by
    intro j
    induction j with
    | zero => intro _ _; rfl
    | succ j ih =>
      intro G hG
      rw [List.replicate_succ, overwriting, ih]
      · simp only [overwrites, hG]; simp [Codecs.okE, Sample.uc, Sample.unary]; omega
      · rfl
  have ow' : overwriting Sample.uc.okN Sample.uc.okE Sample.mN Sample.mE Graph.empty
      ([((fun n => (Fin.ofNat _ n : U64)), Sample.ul 0, h)].flatMap (fun r => r.2.2)) = k := by
    simp only [List.flatMap_cons, List.flatMap_nil, List.append_nil, h, List.replicate_succ]
    rw [overwriting, ow k _ rfl]
    simp [overwrites, Graph.empty]
  rw [ow'] at count
  have one : (Sled.iterEdges U64 Sample.uc d .SPO).length = 1 := by
    obtain ⟨hi, hG⟩ := SledStore.runs_spec (Id := U64) Sample.uc_rt Sample.mN Sample.mE _ Db.empty
      (Db.inv_empty Sample.uc) hn (fun v _ t ht => by cases ht)
    rw [e] at hi hG
    have step : ∀ (j : Nat) (G : Graph U64 Nat Nat), (∀ t, G.edges t = if t = ⟨1, 5, 2⟩ then some 7 else none) →
        ∀ t, (stepAll Sample.uc.okN Sample.uc.okE Sample.mN Sample.mE G
          (List.replicate j (.insertEdge ⟨1, 5, 2⟩ 7) : List (Op String U64 Nat Nat))).edges t =
            if t = ⟨1, 5, 2⟩ then some 7 else none := by
      intro j
      induction j with
      | zero => intro G hG; exact hG
      | succ j ih =>
        intro G hG
        refine ih (G.insertEdge ⟨1, 5, 2⟩ 7) (fun t => ?_)
        simp only [Graph.insertEdge, hG]
        split <;> rfl
    have hedges : ∀ t, (d.graph (Id := U64) Sample.uc).edges t = if t = ⟨1, 5, 2⟩ then some 7 else none := by
      rw [hG]
      simp only [List.flatMap_cons, List.flatMap_nil, List.append_nil]
      exact step k (Graph.empty.insertEdge ⟨1, 5, 2⟩ 7) (fun t => rfl)
    obtain ⟨l, h1, h2⟩ := (Sled.shows hi).2 .SPO
    have h1' : Sled.iterEdges U64 Sample.uc d .SPO = l.map .ok := h1
    have hp : l.Perm [(⟨1, 5, 2⟩, 7)] := by
      refine (List.perm_ext_iff_of_nodup ?_ (List.nodup_singleton _)).2 (fun x => ?_)
      · refine h2.1.imp (fun {a b} hab e => ?_)
        subst e
        rw [← encOf_lt] at hab
        exact lt_irrefl _ hab
      · rw [h2.2 x.1 x.2, hedges]
        obtain ⟨t, p⟩ := x
        simp only [List.mem_singleton, Prod.mk.injEq]
        split
        · rename_i ht; simp [ht, eq_comm]
        · rename_i ht; simp [ht]
    rw [h1', List.length_map, hp.length_eq]
    rfl
  exact ⟨one, by rw [count, one]; omega⟩

/-- two runs; the second one replaces an edge of the first -/
def Sample.twoRuns : List (Gen U64 × Gen Ulid × List (Op String U64 Nat Nat)) :=
  [(Sample.cg 0, Sample.ul 0, Sample.hist), (Sample.cg 10, Sample.ul 10, [.insertEdge ⟨1, 5, 2⟩ 9, .extend Sample.goodSrc])]

def Sample.db2 : Db := SledStore.runs Sample.uc Sample.mN Sample.mE Db.empty Sample.twoRuns

example : ∃ leaked : List Bytes, leaked.length = 1 ∧
    (∀ v ∈ leaked, ∀ o, ∀ e ∈ (Sample.db2.tree o).entries, e.2 ≠ v) ∧
    ∀ v, (Sample.db2.edgeProps.get v).isSome ↔ (∃ e ∈ Sample.db2.spo.entries, e.2 = v) ∨ v ∈ leaked := by
  obtain ⟨L, h1, h2, h3⟩ := C33_exact Sample.uc_rt Sample.mN Sample.mE Sample.twoRuns (by decide +kernel)
    (d := Sample.db2) rfl
  exact ⟨L, h2.trans (by decide +kernel), h3⟩

example : Sample.db2.recordCount = 5 :=
  (C33_count Sample.uc_rt Sample.mN Sample.mE Sample.twoRuns (by decide +kernel) rfl .POS).trans (by decide +kernel)

/-- merges and extends of existing edges do not leak -/
def Sample.db1 : Db := SledStore.runs Sample.uc Sample.mN Sample.mE Db.empty
  [(Sample.cg 0, Sample.ul 0, Sample.hist ++ [.extend Sample.goodSrc, .merge Sample.badSrc, .removeNode 3])]

example : ∀ v, (Sample.db1.edgeProps.get v).isSome ↔ ∃ e ∈ Sample.db1.spo.entries, e.2 = v :=
  C33_noOverwrite_partial Sample.uc_rt Sample.mN Sample.mE
    [(Sample.cg 0, Sample.ul 0, Sample.hist ++ [.extend Sample.goodSrc, .merge Sample.badSrc, .removeNode 3])]
    (by decide +kernel) rfl (by decide +kernel)

end Verif.Props
