import Verif.Proof.Query
import Verif.Proof.SledProps
import Verif.Props.SledSample

/-!
# C14, C23, C25–C28, C34, C35: the sled back-end

`SledStore.Reach E c mN mE n m s` (`Spec/SledApi.lean`): `s` is a store on a database that started empty, was used by any
API calls, and may have been closed and reopened, also after crashes.  `Codecs.RoundTrip`: `bincode::deserialize` undoes
`bincode::serialize`.  `Op.step`: what a call does to the abstract graph when only some properties can be serialized.
-/

set_option linter.unusedSectionVars false
set_option maxRecDepth 100000

namespace Verif.Props

open Verif Spec ConcreteId

variable {Id NP EP E : Type} [LinearOrder Id] [ConcreteId Id] [LawfulId Id]
variable {mN : NP → NP → NP} {mE : EP → EP → EP} {c : Codecs NP EP}

/-! ## C26 Sled store refines the same abstract graph -/

/-- From an empty database, any history, including calls that fail because a value cannot be serialized or the source of a
bulk operation fails. -/
theorem C26_history (hc : c.RoundTrip) (mN : NP → NP → NP) (mE : EP → EP → EP) (g : Gen Id) (u : Gen Ulid)
    (h : List (Op E Id NP EP)) (hf : FreshIds (genDraws h) (ulidDraws h) g u) :
    Shows (((SledStore.new Db.empty g u).applyAll c mN mE h).obs c) (stepAll c.okN c.okE mN mE Graph.empty h) :=
  (SledStore.ok_applyAll (n := 0) (m := 0) (F := fun _ => False) hc mN mE h _ _ (by
    rw [Nat.zero_add, Nat.zero_add]; exact SledStore.ok_new c hf (fun _ _ => id) (fun _ _ => id))).shows

/-- If everything can be serialized, the graph is the one the in-memory store is specified by (C06). -/
theorem C26_total (hc : c.RoundTrip) (ht : c.Total) (mN : NP → NP → NP) (mE : EP → EP → EP) (g : Gen Id) (u : Gen Ulid)
    (h : List (Op E Id NP EP)) (hf : FreshIds (genDraws h) (ulidDraws h) g u) :
    Shows (((SledStore.new Db.empty g u).applyAll c mN mE h).obs c) (applyAll mN mE Graph.empty h) := by
  rw [← stepAll_total (okN := c.okN) (okE := c.okE) ht.1 ht.2]
  exact C26_history hc mN mE g u h hf

/-- One call on any reachable store: what it does, and what it returns. -/
theorem C26_call {n m : Nat} {s : SledStore Id} {G : Graph Id NP EP} (hc : c.RoundTrip) (o : Op E Id NP EP)
    (hs : SledStore.Reach E c mN mE (n + o.genDraws) (m + o.ulidDraws) s) (hG : Shows (s.obs c) G) :
    Shows ((s.call c mN mE o).1.obs c) (o.step c.okN c.okE mN mE G).1 ∧
      (s.call c mN mE o).2 = (o.step c.okN c.okE mN mE G).2.result :=
  ⟨(SledStore.good_call hc mN mE o (hs.ok_of_shows hc hG)).1.shows,
    (SledStore.good_call hc mN mE o (hs.ok_of_shows hc hG)).2⟩

/-- From any reachable store, any history; the store reached is reachable. -/
theorem C26_from_reachable {n m : Nat} {s : SledStore Id} {G : Graph Id NP EP} (hc : c.RoundTrip)
    (h : List (Op E Id NP EP)) (hs : SledStore.Reach E c mN mE (n + genDraws h) (m + ulidDraws h) s)
    (hG : Shows (s.obs c) G) :
    SledStore.Reach E c mN mE n m (s.applyAll c mN mE h) ∧
      Shows ((s.applyAll c mN mE h).obs c) (stepAll c.okN c.okE mN mE G h) :=
  ⟨SledStore.reach_applyAll h hs, (SledStore.ok_applyAll hc mN mE h _ _ (hs.ok_of_shows hc hG)).shows⟩

/-- Every reachable store shows some graph, and only one. -/
theorem C26_shows_unique {n m : Nat} {s : SledStore Id} (hc : c.RoundTrip) (hs : SledStore.Reach E c mN mE n m s) :
    ∃! G, Shows (s.obs c) G := ⟨s.db.graph c, hs.shows hc, fun _ h => (hs.graph_of_shows hc h).symm⟩

example : Shows (Sample.sstore.obs Sample.uc) (applyAll Sample.mN Sample.mE Graph.empty Sample.shist) :=
  C26_total Sample.uc_rt Sample.uc_total _ _ _ _ _ (Sample.cu_fresh _ _ _ _ (by decide) (by decide))

example : Sled.iterEdges U64 Sample.uc Sample.sstore.db .POS =
    [.ok (⟨2, 2, 2⟩, 3), .ok (⟨1, 5, 2⟩, 4), .ok (⟨2, 5, 9⟩, 8)] := by decide +kernel

/-- A format that can write small numbers only: the second insertion and the second half of the `extend` fail. -/
example : Shows (((SledStore.new Db.empty (Sample.cg 0) (Sample.ul 0)).applyAll Sample.bc Sample.mN Sample.mE
      ([.insertNode 1 10, .insertNode 2 300,
        .extend ⟨[.ok (3, 30)], [.ok (⟨1, 1, 1⟩, 5), .ok (⟨1, 1, 2⟩, 256), .ok (⟨1, 1, 3⟩, 6)]⟩] :
        List (Op String U64 Nat Nat))).obs Sample.bc)
    (stepAll Sample.bc.okN Sample.bc.okE Sample.mN Sample.mE Graph.empty
      ([.insertNode 1 10, .insertNode 2 300,
        .extend ⟨[.ok (3, 30)], [.ok (⟨1, 1, 1⟩, 5), .ok (⟨1, 1, 2⟩, 256), .ok (⟨1, 1, 3⟩, 6)]⟩] :
        List (Op String U64 Nat Nat))) :=
  C26_history Sample.bc_rt _ _ _ _ _ (Sample.cu_fresh _ _ _ _ (by decide) (by decide))

example : (Sample.sstore.call Sample.uc Sample.mN Sample.mE (.merge Sample.badSrc)).2 = .error (.right "disk") :=
  (C26_call (n := 0) (m := 0) (G := Sample.sstore.db.graph Sample.uc) Sample.uc_rt (.merge Sample.badSrc)
    (Sample.sstore_reach _ _ (by decide) (by decide)) ((Sample.sstore_reach 0 0 (by decide) (by decide)).shows Sample.uc_rt)).2

example : SledStore.Reach String Sample.uc Sample.mN Sample.mE 3 4
    (Sample.sstore.applyAll Sample.uc Sample.mN Sample.mE Sample.shist) :=
  (C26_from_reachable (G := Sample.sstore.db.graph Sample.uc) Sample.uc_rt Sample.shist
    (Sample.sstore_reach _ _ (by decide) (by decide)) ((Sample.sstore_reach 0 0 (by decide) (by decide)).shows Sample.uc_rt)).1

example : ∃! G, Shows (Sample.sstore.obs Sample.uc) G :=
  C26_shows_unique Sample.uc_rt (Sample.sstore_reach 0 0 (by decide) (by decide))

/-! ## C27 Mem and Sled back-ends are observationally equivalent -/

/-- The same history gives the same listings of nodes and, in every order, edges. -/
theorem C27_iter (hc : c.RoundTrip) (ht : c.Total) (mN : NP → NP → NP) (mE : EP → EP → EP) (g g' : Gen Id) (u : Gen Ulid)
    (h : List (Op E Id NP EP)) (hg : Fresh (draws h) g) (hf : FreshIds (genDraws h) (ulidDraws h) g' u) :
    ∃ (vs : List (Id × NP)) (es : EdgeOrder → List (Triple Id × EP)),
      ((Mem.new g).applyAll mN mE h).iterVertices = vs.map .ok ∧
      Sled.iterVertices Id c ((SledStore.new Db.empty g' u).applyAll c mN mE h).db = vs.map .ok ∧
      ∀ o, ((Mem.new g).applyAll mN mE h).iterEdges o = (es o).map .ok ∧
        Sled.iterEdges Id c ((SledStore.new Db.empty g' u).applyAll c mN mE h).db o = (es o).map .ok := by
  have h1 : Shows ((Mem.new g : Mem Id NP EP).applyAll mN mE h).obs (applyAll mN mE Graph.empty h) :=
    (Mem.ok_applyAll mN mE 0 _ _ h (by rw [Nat.zero_add]; exact Mem.ok_new hg)).shows
  have h2 := C26_total hc ht mN mE g' u h hf
  obtain ⟨⟨vs, hv, lv⟩, he⟩ := h1
  obtain ⟨⟨vs', hv', lv'⟩, he'⟩ := h2
  choose es hes les using he
  choose es' hes' les' using he'
  have ev : vs' = vs := Lists.unique (fun _ => lt_irrefl _) (fun _ _ _ => lt_trans) lv' lv
  have ee : ∀ o, es' o = es o := fun o => Lists.unique (edgeLT_irrefl o) (fun _ _ _ => edgeLT_trans o) (les' o) (les o)
  refine ⟨vs, es, hv, ev ▸ hv', fun o => ⟨hes o, ee o ▸ hes' o⟩⟩

/-- … and the same answers to every query. -/
theorem C27_query (hc : c.RoundTrip) (ht : c.Total) (mN : NP → NP → NP) (mE : EP → EP → EP) (g g' : Gen Id) (u : Gen Ulid)
    (h : List (Op E Id NP EP)) (hg : Fresh (draws h) g) (hf : FreshIds (genDraws h) (ulidDraws h) g' u)
    (q q' : Query Id) (hq : Spec.Query.Nodup q) (hq' : Spec.Query.Nodup q') (hqq : Spec.Query.Same q q') (k k' : Gen Id)
    (hk : Fresh ((Mem.new g : Mem Id NP EP).applyAll mN mE h).edgeCount k)
    (hk' : Fresh (((SledStore.new Db.empty g' u).applyAll c mN mE h).edgeCount c) k') :
    ∃ r, ((SledStore.new Db.empty g' u).applyAll c mN mE h).run c k' q' = .ok r ∧
      r.obs = (((Mem.new g).applyAll mN mE h).run k q).obs := by
  have h1 : Mem.Ok 0 ((Mem.new g : Mem Id NP EP).applyAll mN mE h) (applyAll mN mE Graph.empty h) :=
    (Mem.ok_applyAll mN mE 0 _ _ h (by rw [Nat.zero_add]; exact Mem.ok_new hg))
  have h2 : SledStore.Ok c 0 0 (fun _ => False) ((SledStore.new Db.empty g' u).applyAll c mN mE h)
      (stepAll c.okN c.okE mN mE (Graph.empty : Graph Id NP EP) h) :=
    SledStore.ok_applyAll (n := 0) (m := 0) hc mN mE h _ _ (by
      rw [Nat.zero_add, Nat.zero_add]; exact SledStore.ok_new c hf (fun _ _ => id) (fun _ _ => id))
  rw [stepAll_total (okN := c.okN) (okE := c.okE) ht.1 ht.2] at h2
  have hk2 : Fresh (0 + ((SledStore.new Db.empty g' u).applyAll c mN mE h).db.spo.entries.length) k' := by
    rw [Nat.zero_add, ← Sled.edgeCount_eq (Id := Id) c]; exact hk'
  obtain ⟨r, hr, hr2⟩ := Sled.run_spec h2.inv 0 hk2 q' hq'
  have h3 := Mem.run_spec h1.inv 0 (by rw [Nat.zero_add]; exact hk) q hq
  refine ⟨r, hr, Mem.obs_ext hr2.inv.toAgree h3.inv.toAgree ?_⟩
  rw [hr2.graph, h3.graph, h2.graph, h1.graph, select_same _ hqq]

example : ∃ (vs : List (U64 × Nat)) (es : EdgeOrder → List (Triple U64 × Nat)),
      ((Mem.new (Sample.cg 0)).applyAll Sample.mN Sample.mE Sample.shist).iterVertices = vs.map .ok ∧
      Sled.iterVertices U64 Sample.uc Sample.sstore.db = vs.map .ok ∧
      ∀ o, ((Mem.new (Sample.cg 0)).applyAll Sample.mN Sample.mE Sample.shist).iterEdges o = (es o).map .ok ∧
        Sled.iterEdges U64 Sample.uc Sample.sstore.db o = (es o).map .ok :=
  C27_iter Sample.uc_rt Sample.uc_total _ _ _ _ _ _ (Sample.cg_fresh _ _ (by decide))
    (Sample.cu_fresh _ _ _ _ (by decide) (by decide))

example : ∃ r, Sample.sstore.run Sample.uc (Sample.cg 3) (.PO [(5, 2), (2, 9)]) = .ok r ∧
    r.obs = (((Mem.new (Sample.cg 0)).applyAll Sample.mN Sample.mE Sample.shist).run (Sample.cg 8) (.PO [(2, 9), (5, 2)])).obs :=
  C27_query Sample.uc_rt Sample.uc_total _ _ _ _ _ _ (Sample.cg_fresh _ _ (by decide))
    (Sample.cu_fresh _ _ _ _ (by decide) (by decide)) _ _ (by unfold Spec.Query.Nodup; decide)
    (by unfold Spec.Query.Nodup; decide) ⟨rfl, fun x => by simp [Spec.Query.items, or_comm]⟩ _ _
    (Sample.cg_fresh _ _ (by decide +kernel)) (Sample.cg_fresh _ _ (by decide +kernel))

/-! ## C28 Sled single operations are atomic at every crash point -/

/-- Whatever is in the database: at every crash point of the six operations on single nodes and edges the database is
exactly what it was before the call, or exactly what a complete call makes of it. -/
theorem C28_atomic {c : Codecs NP EP} (mN : NP → NP → NP) (mE : EP → EP → EP) (s : SledStore Id) (o : Op E Id NP EP)
    (h1 : ∀ src, o ≠ .extend src) (h2 : ∀ src, o ≠ .merge src) {d : Db} (hd : d ∈ s.crashStates c mN mE o) :
    d = s.db ∨ d = (s.apply c mN mE o).db := SledStore.crash_single mN mE s o h1 h2 hd

/-- On a reachable store: the graph shown is that before or that after. -/
theorem C28_shows {n m : Nat} {s : SledStore Id} {G : Graph Id NP EP} (hc : c.RoundTrip) (o : Op E Id NP EP)
    (hs : SledStore.Reach E c mN mE (n + o.genDraws) (m + o.ulidDraws) s) (hG : Shows (s.obs c) G)
    (h1 : ∀ src, o ≠ .extend src) (h2 : ∀ src, o ≠ .merge src) {d : Db} (hd : d ∈ s.crashStates c mN mE o) :
    Shows (Sled.obs c d) G ∨ Shows (Sled.obs c d) (o.step c.okN c.okE mN mE G).1 := by
  rcases SledStore.crash_single mN mE s o h1 h2 hd with rfl | rfl
  · exact .inl hG
  · exact .inr (C26_call hc o hs hG).1

/-- `remove_edge` really goes through several states. -/
example : ((Sample.sstore.crashStates Sample.uc Sample.mN Sample.mE
    (.removeEdge ⟨1, 5, 2⟩ : Op String U64 Nat Nat)).map (fun d => d.spo.entries.length)) = [3, 2, 2, 2, 2] := by
  decide +kernel

example (d : Db) (hd : d ∈ Sample.sstore.crashStates Sample.uc Sample.mN Sample.mE
      (.removeEdge ⟨1, 5, 2⟩ : Op String U64 Nat Nat)) :
    d = Sample.sstore.db ∨
      d = (Sample.sstore.apply Sample.uc Sample.mN Sample.mE (.removeEdge ⟨1, 5, 2⟩ : Op String U64 Nat Nat)).db :=
  C28_atomic _ _ _ _ (by simp) (by simp) hd

example (d : Db) (hd : d ∈ Sample.sstore.crashStates Sample.uc Sample.mN Sample.mE
      (.mergeEdge ⟨1, 5, 2⟩ 8 : Op String U64 Nat Nat)) :
    Shows (Sled.obs Sample.uc d) (Sample.sstore.db.graph (Id := U64) Sample.uc) ∨ Shows (Sled.obs Sample.uc d)
      ((.mergeEdge ⟨1, 5, 2⟩ 8 : Op String U64 Nat Nat).step Sample.uc.okN Sample.uc.okE Sample.mN Sample.mE
        (Sample.sstore.db.graph Sample.uc)).1 :=
  C28_shows (n := 0) (m := 0) Sample.uc_rt _ (Sample.sstore_reach _ _ (by decide) (by decide))
    ((Sample.sstore_reach 0 0 (by decide) (by decide)).shows Sample.uc_rt) (by simp) (by simp) hd

/-! ## C35 Reopening preserves the graph -/

/-- A new store on the same database shows the same, and answers queries in the same way. -/
theorem C35_same (s : SledStore Id) (g : Gen Id) (u : Gen Ulid) (k : Gen Id) (q : Query Id) :
    (SledStore.new s.db g u).obs c = s.obs c ∧ (SledStore.new s.db g u).run c k q = s.run c k q := ⟨rfl, rfl⟩

/-- A history executed in any number of runs of the process, with the database closed and reopened in between, has the
same effect as the history executed in one run. -/
theorem C35_runs (hc : c.RoundTrip) (mN : NP → NP → NP) (mE : EP → EP → EP)
    (l : List (Gen Id × Gen Ulid × List (Op E Id NP EP))) (hn : (l.flatMap SledStore.drawn).Nodup) :
    Shows (Sled.obs c (SledStore.runs c mN mE Db.empty l))
      (stepAll c.okN c.okE mN mE Graph.empty (l.flatMap (fun r => r.2.2))) := by
  obtain ⟨h1, h2⟩ := SledStore.runs_spec hc mN mE l Db.empty (Db.inv_empty c) hn (fun v _ t => by
    simp [Db.idIn, Db.tree, Db.empty, BMap.get_empty])
  rw [Db.graph_empty] at h2
  rw [← h2]
  exact Sled.shows h1

/-- Split into two runs or not: the same observations. -/
theorem C35_split (hc : c.RoundTrip) (mN : NP → NP → NP) (mE : EP → EP → EP) (g g1 g2 : Gen Id) (u u1 u2 : Gen Ulid)
    (h1 h2 : List (Op E Id NP EP)) (hf : FreshIds (genDraws (h1 ++ h2)) (ulidDraws (h1 ++ h2)) g u)
    (hn : (([(g1, u1, h1), (g2, u2, h2)] : List (Gen Id × Gen Ulid × List (Op E Id NP EP))).flatMap SledStore.drawn).Nodup) :
    ((SledStore.new ((SledStore.new Db.empty g1 u1).applyAll c mN mE h1).db g2 u2).applyAll c mN mE h2).obs c =
      ((SledStore.new Db.empty g u).applyAll c mN mE (h1 ++ h2)).obs c := by
  have e1 := C35_runs hc mN mE _ hn
  have e2 := C26_history hc mN mE g u (h1 ++ h2) hf
  simp only [List.flatMap_cons, List.flatMap_nil, List.append_nil, SledStore.runs] at e1
  exact shows_obs e1 e2

/-- Reopened stores are covered by all theorems about reachable stores. -/
theorem C35_reachable {n m n' m' : Nat} {s : SledStore Id} {g : Gen Id} {u : Gen Ulid}
    (hs : SledStore.Reach E c mN mE n' m' s) (h : FreshIds n m g u) (hu : SledStore.Unused n m g u s.db) :
    SledStore.Reach E c mN mE n m (.new s.db g u) := .reopen hs h hu

def runsEx : List (Gen U64 × Gen Ulid × List (Op String U64 Nat Nat)) :=
  [(Sample.cg 0, Sample.ul 0, Sample.shist), (Sample.cg 100, Sample.ul 100, Sample.shist), (Sample.cg 50, Sample.ul 50, Sample.hist)]

example : Shows (Sled.obs Sample.uc (SledStore.runs Sample.uc Sample.mN Sample.mE Db.empty runsEx))
    (stepAll Sample.uc.okN Sample.uc.okE Sample.mN Sample.mE Graph.empty (runsEx.flatMap (fun r => r.2.2))) :=
  C35_runs Sample.uc_rt _ _ _ (by decide +kernel)

example : ((SledStore.new ((SledStore.new Db.empty (Sample.cg 0) (Sample.ul 0)).applyAll Sample.uc Sample.mN Sample.mE Sample.shist).db
      (Sample.cg 100) (Sample.ul 100)).applyAll Sample.uc Sample.mN Sample.mE Sample.hist).obs Sample.uc =
    ((SledStore.new Db.empty (Sample.cg 7) (Sample.ul 7)).applyAll Sample.uc Sample.mN Sample.mE (Sample.shist ++ Sample.hist)).obs Sample.uc :=
  C35_split Sample.uc_rt _ _ _ _ _ _ _ _ _ _ (Sample.cu_fresh _ _ _ _ (by decide) (by decide)) (by decide +kernel)

/-- `Unused` can be met: after the sample history, a counter restarted at 100. -/
example : SledStore.Unused 5 5 (Sample.cg 100) (Sample.ul 100) Sample.sstore.db := by
  unfold SledStore.Unused; decide +kernel

/-! ## C14 Queries return exactly the matching part of the graph (sled) -/

theorem C14_sled {n m n' : Nat} {s : SledStore Id} {G : Graph Id NP EP} (hc : c.RoundTrip)
    (hs : SledStore.Reach E c mN mE n m s) (hG : Shows (s.obs c) G) {g : Gen Id} (hg : Fresh (n' + s.edgeCount c) g)
    {q : Query Id} (hq : Spec.Query.Nodup q) :
    ∃ r, s.run c g q = .ok r ∧ Shows r.obs (select G q) := by
  obtain ⟨r, h1, h2⟩ := Sled.run_spec (hs.ok hc).inv n'
    (by rw [← Sled.edgeCount_eq (Id := Id) c]; exact hg) q hq
  rw [hs.graph_of_shows hc hG] at h2
  exact ⟨r, h1, h2.shows⟩

theorem C14_sled_order {n m : Nat} {s : SledStore Id} (hc : c.RoundTrip)
    (hs : SledStore.Reach E c mN mE n m s) {g g' : Gen Id} (hg : Fresh (s.edgeCount c) g)
    (hg' : Fresh (s.edgeCount c) g') {q q' : Query Id} (hq : Spec.Query.Nodup q) (hq' : Spec.Query.Nodup q')
    (hqq : Spec.Query.Same q q') :
    ∃ r r', s.run c g q = .ok r ∧ s.run c g' q' = .ok r' ∧ r.obs = r'.obs := by
  obtain ⟨r, h1, h2⟩ := Sled.run_spec (hs.ok hc).inv 0
    (by rw [Nat.zero_add, ← Sled.edgeCount_eq (Id := Id) c]; exact hg) q hq
  obtain ⟨r', h1', h2'⟩ := Sled.run_spec (hs.ok hc).inv 0
    (by rw [Nat.zero_add, ← Sled.edgeCount_eq (Id := Id) c]; exact hg') q' hq'
  rw [← select_same _ hqq] at h2'
  exact ⟨r, r', h1, h1', Mem.obs_ext h2.inv.toAgree h2'.inv.toAgree (h2.graph.trans h2'.graph.symm)⟩

example : ∃ r, Sample.sstore.run Sample.uc (Sample.cg 9) (.SO [(2, 9), (7, 7)]) = .ok r ∧
    Shows r.obs (select (Sample.sstore.db.graph Sample.uc) (.SO [(2, 9), (7, 7)])) :=
  C14_sled (n' := 0) Sample.uc_rt (Sample.sstore_reach 0 0 (by decide) (by decide))
    ((Sample.sstore_reach 0 0 (by decide) (by decide)).shows Sample.uc_rt) (Sample.cg_fresh _ _ (by decide +kernel))
    (by unfold Spec.Query.Nodup; decide)

example : ((Sample.sstore.run Sample.uc (Sample.cg 9) (.SO [(2, 9), (7, 7)])).toOption.map (fun r => r.iterEdges .SPO)) =
    some [.ok (⟨2, 5, 9⟩, 8)] := by decide +kernel

example : ∃ r r', Sample.sstore.run Sample.uc (Sample.cg 9) (.S [1, 2]) = .ok r ∧
    Sample.sstore.run Sample.uc (Sample.cg 5) (.S [2, 1]) = .ok r' ∧ r.obs = r'.obs :=
  C14_sled_order Sample.uc_rt (Sample.sstore_reach 0 0 (by decide) (by decide)) (Sample.cg_fresh _ _ (by decide +kernel))
    (Sample.cg_fresh _ _ (by decide +kernel)) (by unfold Spec.Query.Nodup; decide) (by unfold Spec.Query.Nodup; decide)
    ⟨rfl, fun x => by simp [Spec.Query.items, or_comm]⟩

/-! ## C23 Consuming and borrowing iterators agree (sled), on arbitrary contents -/

theorem C23_sled (c : Codecs NP EP) (d : Db) (o : EdgeOrder) :
    Sled.intoIterNodes (Id := Id) c d o = Sled.iterNodes c d o ∧
    Sled.intoIterVertices Id c d = Sled.iterVertices Id c d ∧
    Sled.intoIterEdges Id c d o = Sled.iterEdges Id c d o ∧
    Sled.intoIterEdgesWithProps Id c d o = Sled.iterEdgesWithProps Id c d o ∧
    (Sled.iterNodes c d o : Source SErr Id NP EP).nodes = Sled.iterVertices Id c d ∧
    (Sled.iterNodes c d o : Source SErr Id NP EP).edges = Sled.iterEdges Id c d o := by
  exact ⟨Sled.intoIterNodes_eq c d o, rfl, by cases o <;> rfl, by cases o <;> rfl, rfl, rfl⟩

example : (Sled.intoIterNodes Sample.bc { Sample.sstore.db with edgeProps := .empty } .POS : Source SErr U64 Nat Nat) =
    Sled.iterNodes Sample.bc { Sample.sstore.db with edgeProps := .empty } .POS := (C23_sled _ _ _).1

/-! ## C25 Repeated generator ids: exact damage (sled), on arbitrary contents -/

/-- If the drawn id is in use by another edge `u` of an ordering, `u` silently takes the new properties there. -/
theorem C25_sled_damage (hc : c.RoundTrip) (s : SledStore Id) {t u : Triple Id} {p : EP} (hp : (c.e.ser p).isSome)
    (o : EdgeOrder) (hu : s.db.idIn o u = some (toBeBytes (s.gen 0)).1) :
    .ok (u, p) ∈ Sled.iterEdges Id c (s.insertEdge c t p).1.db o := by
  obtain ⟨b, hb⟩ := Option.isSome_iff_exists.1 hp
  rw [Sled.iterEdges_mem]
  unfold SledStore.insertEdge
  simp only [Sled.insertEdge_run hb, Db.view, Db.setEdge_idIn, Db.withProps_idIn, hu, Db.setEdge_edgeProps, Gen.fresh,
    ite_self, Option.bind_some, BMap.get_insert_self, hc.2 _ _ hb]

/-- If it is not, no other edge changes, whatever happened before. -/
theorem C25_sled_no_damage (s : SledStore Id) {t u : Triple Id} {p q : EP} (o : EdgeOrder)
    (hu : s.db.idIn o u ≠ some (toBeBytes (s.gen 0)).1) (hne : u ≠ t) :
    .ok (u, q) ∈ Sled.iterEdges Id c (s.insertEdge c t p).1.db o ↔ .ok (u, q) ∈ Sled.iterEdges Id c s.db o := by
  rw [Sled.iterEdges_mem, Sled.iterEdges_mem]
  unfold SledStore.insertEdge
  cases hb : c.e.ser p with
  | none => simp only [Sled.insertEdge_err hb]
  | some b =>
    simp only [Sled.insertEdge_run hb, Db.view, Db.setEdge_idIn, Db.withProps_idIn, if_neg hne, Db.setEdge_edgeProps, Gen.fresh]
    cases hi : s.db.idIn o u with
    | none => rfl
    | some v =>
      rw [Option.bind_some, Option.bind_some, BMap.get_insert, if_neg]
      rintro rfl
      exact hu hi

/-- A database filled with a counter starting at 0, reopened with the counter starting at 0 again. -/
def reopened : SledStore U64 :=
  .new ((SledStore.new Db.empty (Sample.cg 0) (Sample.ul 0)).insertEdge Sample.uc ⟨1, 2, 3⟩ 7).1.db (Sample.cg 0) (Sample.ul 5)

/-- Inserting one edge changes the properties of the other. -/
theorem C25_sled_reopen_witness :
    Sled.iterEdges U64 Sample.uc reopened.db .SPO = [.ok (⟨1, 2, 3⟩, 7)] ∧
    Sled.iterEdges U64 Sample.uc (reopened.insertEdge Sample.uc ⟨2, 2, 2⟩ 8).1.db .SPO =
      [.ok (⟨1, 2, 3⟩, 8), .ok (⟨2, 2, 2⟩, 8)] := by decide +kernel

example : .ok (⟨1, 2, 3⟩, 8) ∈ Sled.iterEdges U64 Sample.uc (reopened.insertEdge Sample.uc ⟨2, 2, 2⟩ 8).1.db .OSP :=
  C25_sled_damage Sample.uc_rt _ rfl _ (by decide +kernel)

example : .ok (⟨2, 2, 2⟩, 3) ∈ Sled.iterEdges U64 Sample.uc (Sample.sstore.insertEdge Sample.uc ⟨9, 9, 9⟩ 1).1.db .POS :=
  (C25_sled_no_damage _ _ (by decide +kernel) (by decide)).2 (by decide +kernel)

/-! ## C34 Sled reads are total on arbitrary database contents

`VertexItem`, `EdgeItem`, `PropsItem` (`Spec/SledApi.lean`) say which item an entry of a tree stands for.  That no read
panics holds by construction of the model: the only panicking calls in the read paths are `BTreeMap::range`-like bounds,
which are well-formed by C03. -/

theorem C34_vertices (c : Codecs NP EP) (d : Db) :
    List.Forall₂ (VertexItem (Id := Id) c) d.nodeProps.entries (Sled.iterVertices Id c d) := Sled.iterVertices_items c d

theorem C34_edges (c : Codecs NP EP) (d : Db) (o : EdgeOrder) :
    List.Forall₂ (EdgeItem (Id := Id) c d o) (d.tree o).entries (Sled.iterEdges Id c d o) := Sled.iterEdges_items c d o

theorem C34_edges_with_props (c : Codecs NP EP) (d : Db) (o : EdgeOrder) :
    List.Forall₂ (PropsItem (Id := Id) c d o) (d.tree o).entries (Sled.iterEdgesWithProps Id c d o) :=
  Sled.iterEdgesWithProps_items c d o

/-- The items are determined by the entries. -/
theorem C34_deterministic (c : Codecs NP EP) (d : Db) (o : EdgeOrder) (e : Bytes × Bytes) :
    (∀ x y : Except SErr (Id × NP), VertexItem c e x → VertexItem c e y → x = y) ∧
    (∀ x y : Except SErr (Triple Id × EP), EdgeItem c d o e x → EdgeItem c d o e y → x = y) := by
  refine ⟨fun x y hx hy => ?_, fun x y hx hy => ?_⟩
  · generalize he : e = e' at hy
    cases hx <;> cases hy <;> first | rfl | skip
    all_goals rw [Prod.mk.injEq] at he; obtain ⟨h1, rfl⟩ := he
    all_goals first
      | exact absurd (h1 ▸ (toBeBytes _).2) ‹_›
      | simp_all [toBe_inj]
  · generalize he : e = e' at hy
    cases hx <;> cases hy <;> first | rfl | skip
    all_goals rw [Prod.mk.injEq] at he; obtain ⟨h1, rfl⟩ := he
    all_goals first
      | exact absurd (h1 ▸ (encOf o _).2) ‹_›
      | simp_all [encOf_inj]

/-- `vertices()` succeeds iff all node keys have the right size; it fails with `KeySizeError` only. -/
theorem C34_vertices_set (d : Db) :
    ((∃ ns : List Id, Sled.vertices Id d = .ok ns) ↔ ∀ e ∈ d.nodeProps.entries, e.1.length = idLen (Id := Id)) ∧
    (∀ ns : List Id, Sled.vertices Id d = .ok ns →
      d.nodeProps.entries.map Prod.fst = ns.map (fun n => (toBeBytes n).1)) ∧
    ∀ x, Sled.vertices Id d = .error x → x = .keySize := by
  refine ⟨⟨?_, ?_⟩, fun ns h => Sled.vertices_ok.1 h, fun x h => (Sled.vertices_err h).1⟩
  · rintro ⟨ns, h⟩ e he
    have := List.mem_map_of_mem (f := Prod.fst) he
    rw [Sled.vertices_ok.1 h] at this
    obtain ⟨n, -, hn⟩ := List.mem_map.1 this
    rw [← hn]; exact (toBeBytes n).2
  · intro h
    cases hv : Sled.vertices Id d with
    | ok ns => exact ⟨ns, rfl⟩
    | error x =>
      obtain ⟨-, e, he, hl⟩ := Sled.vertices_err hv
      exact absurd (h e he) hl

/-- Queries: what the query asks for is returned in so far as it is readable in the ordering used; otherwise the error is
`KeySizeError` and there is a wrong-sized key in this ordering, or it is `SerializationError` and a record that was asked
for cannot be decoded. -/
theorem C34_query (c : Codecs NP EP) (d : Db) {g : Gen Id} {q : Query Id}
    (hg : Fresh (d.tree (Query.order q)).entries.length g) (hq : Spec.Query.Nodup q) {G : Graph Id NP EP}
    (hG : Readable c d (Query.order q) G) :
    (Sled.runQuery c d g q = .error (.left .keySize) ∧
      ∃ e ∈ (d.tree (Query.order q)).entries, e.1.length ≠ tripleLen (Id := Id)) ∨
    (Sled.runQuery c d g q = .error (.left .serialization) ∧
      ((∃ t v, Query.Hits t q ∧ d.idIn (Query.order q) t = some v ∧ Undecodable c.e d.edgeProps v) ∨
        ∃ n, Query.Asks n q ∧ Undecodable c.n d.nodeProps (toBeBytes n).1)) ∨
    ∃ r, Sled.runQuery c d g q = .ok r ∧ Shows r.obs (select G q) ∧
      (∀ t v, Query.Hits t q → d.idIn (Query.order q) t = some v → ¬ Undecodable c.e d.edgeProps v) ∧
      ∀ n, Query.Asks n q → ¬ Undecodable c.n d.nodeProps (toBeBytes n).1 := by
  rcases Sled.run_any (c := c) d 0 q (by rw [Nat.zero_add]; exact hg) hq with ⟨e, h1, h2⟩ | ⟨r, h1, h2, h3⟩
  · cases e with
    | keySize => exact .inl ⟨h1, h2⟩
    | serialization => exact .inr (.inl ⟨h1, h2⟩)
    | sled => exact h2.elim
    | missing => exact h2.elim
  · rw [Sled.Readable.unique (Sled.shown_readable d _) hG] at h2
    exact .inr (.inr ⟨r, h1, h2.shows, h3⟩)

/-- Contents with every kind of damage. -/
def damaged : Db :=
  { nodeProps := (BMap.empty.insert (toBeBytes (1 : U64)).1 [5]).insert [7, 7] [1] |>.insert (toBeBytes (2 : U64)).1 []
    edgeProps := (BMap.empty.insert [1] [9]).insert [2] [9, 9]
    spo := ((BMap.empty.insert (encodeSpo (⟨1, 1, 1⟩ : Triple U64)).1 [1]).insert (encodeSpo (⟨1, 1, 2⟩ : Triple U64)).1 [2]).insert
      (encodeSpo (⟨1, 1, 3⟩ : Triple U64)).1 [3] |>.insert [0] [1]
    pos := .empty
    osp := .empty }

example : Sled.iterVertices U64 Sample.bc damaged =
    [.ok (1, 5), .error .serialization, .error .keySize] := by decide +kernel

example : Sled.iterEdges U64 Sample.bc damaged .SPO =
    [.error .keySize, .ok (⟨1, 1, 1⟩, 9), .error .serialization, .error .missing] := by decide +kernel

example : Sled.vertices U64 damaged = .error .keySize := by decide +kernel

example : ((Sled.runQuery Sample.bc damaged (Sample.cg 0) (.SPO [(1, 1, 1), (1, 1, 3)])).toOption.map (fun r => r.iterEdges .SPO)) =
    some [.ok (⟨1, 1, 1⟩, 9)] := by decide +kernel

example : (Sled.runQuery Sample.bc damaged (Sample.cg 0) (.S [1])).toOption.isNone = true := by decide +kernel

/-- The third alternative of `C34_query` on the damaged contents, for a query that avoids the unreadable record. -/
example (G : Graph U64 Nat Nat) (hG : Readable Sample.bc damaged .SPO G) :
    ∃ r, Sled.runQuery Sample.bc damaged (Sample.cg 0) (.SPO [(1, 1, 1), (1, 1, 3)]) = .ok r ∧
      Shows r.obs (select G (.SPO [(1, 1, 1), (1, 1, 3)])) := by
  have ok : (Sled.runQuery Sample.bc damaged (Sample.cg 0) (.SPO [(1, 1, 1), (1, 1, 3)])).toOption.isSome = true := by
    decide +kernel
  rcases C34_query (q := .SPO [(1, 1, 1), (1, 1, 3)]) Sample.bc damaged (Sample.cg_fresh _ 0 (by decide +kernel))
    (by unfold Spec.Query.Nodup; decide) hG with ⟨h, -⟩ | ⟨h, -⟩ | ⟨r, h1, h2, -⟩
  · rw [h] at ok; cases ok
  · rw [h] at ok; cases ok
  · exact ⟨r, h1, h2⟩

end Verif.Props
