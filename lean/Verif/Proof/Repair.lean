import Verif.Spec.Repair
import Verif.Proof.SledRace
import Verif.Proof.SledWell

/-! # Calls on arbitrary contents, edge by edge -/

set_option linter.unusedSectionVars false

namespace Verif

open Spec ConcreteId

variable {Id NP EP E : Type} [LinearOrder Id] [ConcreteId Id] [LawfulId Id]

namespace Sled

open Verif.Db

variable {c : Codecs NP EP} {mN : NP → NP → NP} {mE : EP → EP → EP}

/-- An edge has been written with a new id, and the record under its former id removed. -/
structure Wrote (c : Codecs NP EP) (d : Db) (i : Bytes) (t : Triple Id) (p : EP) (d' : Db) : Prop where
  ids : ∀ o u, d'.idIn o u = if u = t then some i else d.idIn o u
  record : ∃ b, c.e.ser p = some b ∧ d'.edgeProps.get i = some b
  others : ∀ v, v ≠ i → d.idIn .SPO t ≠ some v → d'.edgeProps.get v = d.edgeProps.get v

/-- edges written one after the other -/
def WroteAll (c : Codecs NP EP) : Db → List (Bytes × Triple Id × EP) → Db → Prop
  | d, [], d' => d' = d
  | d, x :: l, d' => ∃ d1, Wrote c d x.1 x.2.1 x.2.2 d1 ∧ WroteAll c d1 l d'

theorem WroteAll.rest {l : List (Bytes × Triple Id × EP)} {d d' : Db} (h : WroteAll c d l d') {t : Triple Id} (ht : ∀ x ∈ l, x.2.1 ≠ t)
    (o : EdgeOrder) : d'.idIn o t = d.idIn o t := by
  induction l generalizing d with
  | nil => rw [show d' = d from h]
  | cons x l ih =>
    obtain ⟨d1, h1, h2⟩ := h
    rw [ih h2 (fun y hy => ht y (List.mem_cons_of_mem _ hy)), h1.ids, if_neg (ht x List.mem_cons_self).symm]

theorem Wrote.unused {d d1 : Db} {i : Bytes} {t : Triple Id} {p : EP} (h : Wrote c d i t p d1) {l : List (Bytes × Triple Id × EP)}
    (hu : Unused d (((i, t, p) :: l).map (fun x => (x.1, x.2.1)))) : Unused d1 (l.map (fun x => (x.1, x.2.1))) := by
  obtain ⟨h1, h2⟩ := hu
  simp only [List.map_cons, List.nodup_cons] at h1
  refine ⟨h1.2, fun x hx u => ?_⟩
  rw [h.ids]
  split
  · intro e
    cases e
    exact h1.1 (List.mem_map.2 ⟨x, hx, rfl⟩)
  · exact h2 x (List.mem_cons_of_mem _ hx) u

theorem WroteAll.records {l : List (Bytes × Triple Id × EP)} {d d' : Db} (h : WroteAll c d l d')
    (hu : Unused d (l.map (fun x => (x.1, x.2.1)))) {v : Bytes} (hv : ∀ x ∈ l, x.1 ≠ v) (hn : ∀ x ∈ l, d.idIn .SPO x.2.1 ≠ some v) :
    d'.edgeProps.get v = d.edgeProps.get v := by
  induction l generalizing d with
  | nil => rw [show d' = d from h]
  | cons x l ih =>
    obtain ⟨d1, h1, h2⟩ := h
    refine (ih h2 (h1.unused hu) (fun y hy => hv y (List.mem_cons_of_mem _ hy)) (fun y hy => ?_)).trans
      (h1.others v (hv x List.mem_cons_self).symm (hn x List.mem_cons_self))
    rw [h1.ids]
    split
    · intro e; cases e; exact hv x List.mem_cons_self rfl
    · exact hn y (List.mem_cons_of_mem _ hy)

theorem WroteAll.stored (hc : c.RoundTrip) {l1 l2 : List (Bytes × Triple Id × EP)} {i : Bytes} {t : Triple Id} {p : EP} {d d' : Db}
    (h : WroteAll c d (l1 ++ (i, t, p) :: l2) d') (hu : Unused d ((l1 ++ (i, t, p) :: l2).map (fun x => (x.1, x.2.1))))
    (ht : ∀ x ∈ l2, x.2.1 ≠ t) : Stored c d' t p := by
  induction l1 generalizing d with
  | nil =>
    obtain ⟨d1, h1, h2⟩ := h
    refine ⟨i, fun o => ?_, ?_⟩
    · rw [h2.rest ht, h1.ids, if_pos rfl]
    · obtain ⟨b, hb, hg⟩ := h1.record
      refine ⟨b, (h2.records (h1.unused hu) (fun x hx e => ?_) (fun x hx => ?_)).trans hg, hc.2 p b hb⟩
      · have := hu.1
        simp only [List.nil_append, List.map_cons, List.nodup_cons] at this
        exact this.1 (List.mem_map.2 ⟨_, List.mem_map_of_mem hx, e⟩)
      · rw [h1.ids, if_neg (ht x hx)]
        exact hu.2 (i, t) (by simp) _
  | cons x l1 ih =>
    obtain ⟨d1, h1, h2⟩ := h
    exact ih h2 (h1.unused hu)

/-! ## single calls -/

theorem insertEdge_wrote {d : Db} {i : Id} {t : Triple Id} {p : EP} (h : ((insertEdge c i t p).run d).2 = .ok ()) :
    Wrote c d (be i) t p ((insertEdge c i t p).run d).1 := by
  unfold insertEdge at h ⊢
  cases hb : c.e.ser p with
  | none => rw [hb] at h; cases h
  | some b =>
    refine ⟨fun o u => (setEdge_idIn d t (be i) o u).trans rfl, ⟨b, hb, ?_⟩, fun v hv _ => ?_⟩
    · exact (BMap.get_insert ..).trans (if_pos rfl)
    · exact (BMap.get_insert ..).trans (if_neg hv)

theorem mergeEdge_wrote {d : Db} {i : Id} {t : Triple Id} {p : EP} (h : ((mergeEdge c mE i t p).run d).2 = .ok ()) :
    ∃ q, Wrote c d (be i) t q ((mergeEdge c mE i t p).run d).1 ∧
      ((d.idIn .SPO t).bind d.edgeProps.get = none ∧ q = p ∨
       ∃ b old, (d.idIn .SPO t).bind d.edgeProps.get = some b ∧ c.e.de b = some old ∧ q = mE old p) := by
  have hid : ∀ o u, (d.setEdge t (be i)).idIn o u = if u = t then some (be i) else d.idIn o u := fun o u => setEdge_idIn d t (be i) o u
  unfold mergeEdge transaction at h ⊢
  simp only [Prog.run] at h ⊢
  have e : d.idIn .SPO t = d.spo.get (encodeSpo t).1 := rfl
  cases hg : d.spo.get (encodeSpo t).1 with
  | none =>
    rw [hg] at h
    cases hb : c.e.ser p with
    | none => simp [hb] at h
    | some b =>
      refine ⟨p, ⟨fun o u => .trans (by cases o <;> rfl) (hid o u), ⟨b, hb, (BMap.get_insert ..).trans (if_pos rfl)⟩, fun v hv _ =>
        (BMap.get_insert ..).trans (if_neg hv)⟩, .inl ⟨by rw [e, hg]; rfl, rfl⟩⟩
  | some w =>
    rw [hg] at h
    cases hw : d.edgeProps.get w with
    | none =>
      simp only [hw] at h
      cases hb : c.e.ser p with
      | none => simp [hb] at h
      | some b =>
        simp only [hw]
        refine ⟨p, ⟨fun o u => .trans (by cases o <;> rfl) (hid o u), ⟨b, hb, (BMap.get_insert ..).trans (if_pos rfl)⟩, fun v hv hn =>
          (BMap.get_insert ..).trans ((if_neg hv).trans ((BMap.get_erase ..).trans (if_neg (fun e' => hn (by rw [e, hg, e'])))))⟩,
          .inl ⟨by rw [e, hg]; exact hw, rfl⟩⟩
    | some v =>
      simp only [hw] at h
      cases ho : c.e.de v with
      | none => simp [ho] at h
      | some old =>
        simp only [ho] at h
        cases hb : c.e.ser (mE old p) with
        | none => simp [hb] at h
        | some b =>
          simp only [hw, ho, hb]
          refine ⟨mE old p, ⟨fun o u => .trans (by cases o <;> rfl) (hid o u), ⟨b, hb, (BMap.get_insert ..).trans (if_pos rfl)⟩,
            fun v hv hn =>
              (BMap.get_insert ..).trans ((if_neg hv).trans ((BMap.get_erase ..).trans (if_neg (fun e' => hn (by rw [e, hg, e'])))))⟩,
            .inr ⟨v, old, by rw [e, hg]; exact hw, ho, rfl⟩⟩

theorem removeEdge_any (d : Db) (t : Triple Id) :
    ((removeEdge t).run d).2 = .ok () ∧ (∀ o u, ((removeEdge t).run d).1.idIn o u = if u = t then none else d.idIn o u) ∧
      ∀ v, d.idIn .SPO t ≠ some v → ((removeEdge t).run d).1.edgeProps.get v = d.edgeProps.get v := by
  have h0 : (d.spo.erase (encodeSpo t).1).get (encodeSpo t).1 = none := (BMap.get_erase ..).trans (if_pos rfl)
  have hr : (removeEdge t).run d = ({ (d.unsetEdge t |>.unsetEdge t) with
      edgeProps := match d.spo.get (encodeSpo t).1 with | some i => d.edgeProps.erase i | none => d.edgeProps }, .ok ()) := by
    unfold removeEdge
    simp only [Prog.run, h0]
    rfl
  rw [hr]
  refine ⟨rfl, fun o u => ?_, fun v hv => ?_⟩
  · rw [withProps_idIn, unsetEdge_idIn, unsetEdge_idIn]
    split <;> rfl
  · have e : d.idIn .SPO t = d.spo.get (encodeSpo t).1 := rfl
    rw [e] at hv
    cases hg : d.spo.get (encodeSpo t).1 with
    | none => simp only
    | some w =>
      simp only
      rw [BMap.get_erase, if_neg]
      rintro rfl
      exact hv hg

/-! ## loops -/

theorem extendNodes_run {α : Type} {k : Except (LR SErr E) Unit → Prog Db α} (l : List (Except E (Id × NP))) (d : Db) :
    ∃ d1 r, (extendNodes c k l).run d = (k r).run d1 ∧ d1.edgeProps = d.edgeProps ∧ ∀ o, d1.tree o = d.tree o := by
  induction l generalizing d with
  | nil => exact ⟨d, _, rfl, rfl, fun _ => rfl⟩
  | cons x l ih =>
    cases x with
    | error e => exact ⟨d, _, rfl, rfl, fun _ => rfl⟩
    | ok x =>
      unfold extendNodes
      cases c.n.ser x.2 with
      | none => exact ⟨d, _, rfl, rfl, fun _ => rfl⟩
      | some b =>
        obtain ⟨d1, r, h1, h2, h3⟩ := ih { d with nodeProps := d.nodeProps.insert (toBeBytes x.1).1 b }
        exact ⟨d1, r, h1, h2, fun o => (h3 o).trans (by cases o <;> rfl)⟩

theorem mergeNodes_run {α : Type} {k : Except (LR SErr E) Unit → Prog Db α} (l : List (Except E (Id × NP))) (d : Db) :
    ∃ d1 r, (mergeNodes c mN k l).run d = (k r).run d1 ∧ d1.edgeProps = d.edgeProps ∧ ∀ o, d1.tree o = d.tree o := by
  induction l generalizing d with
  | nil => exact ⟨d, _, rfl, rfl, fun _ => rfl⟩
  | cons x l ih =>
    cases x with
    | error e => exact ⟨d, _, rfl, rfl, fun _ => rfl⟩
    | ok x =>
      obtain ⟨f, hf, he⟩ := mergeNode_commit c mN x.1 x.2
      rw [mergeNodes, hf, tx_bind]
      have hsame : (commit f d).edgeProps = d.edgeProps ∧ ∀ o, (commit f d).tree o = d.tree o := by
        rcases he d with e | ⟨b, q, -, e⟩
        · rw [e]; exact ⟨rfl, fun _ => rfl⟩
        · rw [e]; exact ⟨rfl, fun o => by cases o <;> rfl⟩
      simp only [Prog.run]
      split
      · exact ⟨_, _, rfl, hsame.1, hsame.2⟩
      · obtain ⟨d1, r, h1, h2, h3⟩ := ih (commit f d)
        exact ⟨d1, r, h1, h2.trans hsame.1, fun o => (h3 o).trans (hsame.2 o)⟩

theorem extendEdges_wrote (l : List (Except E (Triple Id × EP))) (g : Gen Ulid) (d : Db) (hu : Unused d (Call.drawnFor g l))
    (h : ((extendEdges c g l).run d).2.2 = .ok ()) :
    ∃ L, WroteAll c d L ((extendEdges c g l).run d).1 ∧ L.map (fun x => (x.1, x.2.1)) = Call.drawnFor g l ∧ L.map Prod.snd = oks l := by
  induction l generalizing g d with
  | nil => exact ⟨[], rfl, rfl, rfl⟩
  | cons x l ih =>
    cases x with
    | error e => cases h
    | ok x =>
      obtain ⟨t, p⟩ := x
      unfold extendEdges at h ⊢
      cases hb : c.e.ser p with
      | none => simp only [hb] at h; cases h
      | some b =>
        simp only [hb, Prog.run] at h ⊢
        have hnew : d.spo.get (encodeSpo t).1 ≠ some (toBeBytes (Gen.fresh g).1).1 := hu.2 _ List.mem_cons_self t
        have key : ∀ d1 : Db, Wrote c d (toBeBytes (Gen.fresh g).1).1 t p d1 →
            ((extendEdges c (Gen.fresh g).2 l).run d1).2.2 = .ok () →
            ∃ L, WroteAll c d L ((extendEdges c (Gen.fresh g).2 l).run d1).1 ∧ L.map (fun x => (x.1, x.2.1)) = Call.drawnFor g (.ok (t, p) :: l) ∧
              L.map Prod.snd = oks (.ok (t, p) :: l) := by
          intro d1 hw h1
          have hu1 : Unused d1 (Call.drawnFor (Gen.fresh g).2 l) := by
            refine ⟨(List.nodup_cons.1 hu.1).2, fun x hx u => ?_⟩
            rw [hw.ids]
            split
            · exact fun e => (List.nodup_cons.1 hu.1).1 (List.mem_map.2 ⟨x, hx, (Option.some.inj e).symm⟩)
            · exact hu.2 x (List.mem_cons_of_mem _ hx) u
          obtain ⟨L, h3, h4, h5⟩ := ih (Gen.fresh g).2 d1 hu1 h1
          exact ⟨(_, t, p) :: L, ⟨d1, hw, h3⟩, by rw [List.map_cons, h4]; rfl, by rw [List.map_cons, h5]; rfl⟩
        cases hg : d.spo.get (encodeSpo t).1 with
        | none =>
          simp only [hg] at h ⊢
          refine key _ ⟨fun o u => .trans (by cases o <;> rfl) (setEdge_idIn d t _ o u), ⟨b, hb, (BMap.get_insert ..).trans (if_pos rfl)⟩,
            fun v hv _ => (BMap.get_insert ..).trans (if_neg hv)⟩ h
        | some w =>
          simp only [hg, Prog.run] at h ⊢
          refine key _ ⟨fun o u => .trans (by cases o <;> rfl) (setEdge_idIn d t _ o u), ⟨b, hb, ?_⟩, fun v hv hn => ?_⟩ h
          · refine (BMap.get_erase ..).trans ((if_neg ?_).trans ((BMap.get_insert ..).trans (if_pos rfl)))
            intro e; exact hnew (by rw [hg, e])
          · refine (BMap.get_erase ..).trans ((if_neg ?_).trans ((BMap.get_insert ..).trans (if_neg hv)))
            intro e; exact hn (by rw [e]; exact hg)

theorem mergeEdges_wrote (l : List (Except E (Triple Id × EP))) (g : Gen Id) (d : Db)
    (h : ((mergeEdges c mE g l).run d).2.2 = .ok ()) :
    ∃ L, WroteAll c d L ((mergeEdges c mE g l).run d).1 ∧ L.map (fun x => (x.1, x.2.1)) = Call.drawnFor g l := by
  induction l generalizing g d with
  | nil => exact ⟨[], rfl, rfl⟩
  | cons x l ih =>
    cases x with
    | error e => cases h
    | ok x =>
      obtain ⟨t, p⟩ := x
      rw [mergeEdges, Prog.run_bind] at h ⊢
      cases hr : ((mergeEdge c mE (Gen.fresh g).1 t p).run d).2 with
      | error e => simp only [hr] at h; cases h
      | ok _ =>
        simp only [hr] at h ⊢
        obtain ⟨q, hw, -⟩ := mergeEdge_wrote (c := c) (mE := mE) (i := (Gen.fresh g).1) hr
        obtain ⟨L, h3, h4⟩ := ih (Gen.fresh g).2 _ h
        exact ⟨(_, t, q) :: L, ⟨_, hw, h3⟩, by rw [List.map_cons, h4]; rfl⟩

theorem drawnFor_snd {J : Type} [LinearOrder J] [ConcreteId J] (g : Gen J) (l : List (Except E (Triple Id × EP))) (h : ¬ fails l) :
    (Call.drawnFor g l).map Prod.snd = (oks l).map Prod.fst := by
  induction l generalizing g with
  | nil => rfl
  | cons x l ih =>
    cases x with
    | error e => exact absurd rfl h
    | ok x => exact congrArg (x.1 :: ·) (ih _ h)

/-- `extend` with no failing node is its edge loop -/
theorem extend_run (u : Gen Ulid) (src : Source E Id NP EP) (d : Db) (h : ((extend c u src).run d).2.2 = .ok ()) :
    ∃ d1 : Db, d1.edgeProps = d.edgeProps ∧ (∀ o (t : Triple Id), d1.idIn o t = d.idIn o t) ∧
      (extend c u src).run d = (extendEdges c u src.edges).run d1 := by
  obtain ⟨d1, r, h1, h2, h3⟩ := extendNodes_run (c := c) (k := fun
    | .error e => .ret (u, .error e)
    | .ok () => extendEdges c u src.edges) src.nodes d
  have e : (extend c u src).run d = _ := h1
  cases r with
  | error x => rw [e] at h; cases h
  | ok _ => exact ⟨d1, h2, fun o t => by unfold Db.idIn; rw [h3], e⟩

theorem merge_run (g : Gen Id) (src : Source E Id NP EP) (d : Db) (h : ((merge c mN mE g src).run d).2.2 = .ok ()) :
    ∃ d1 : Db, d1.edgeProps = d.edgeProps ∧ (∀ o (t : Triple Id), d1.idIn o t = d.idIn o t) ∧
      (merge c mN mE g src).run d = (mergeEdges c mE g src.edges).run d1 := by
  obtain ⟨d1, r, h1, h2, h3⟩ := mergeNodes_run (c := c) (mN := mN) (k := fun
    | .error e => .ret (g, .error e)
    | .ok () => mergeEdges c mE g src.edges) src.nodes d
  have e : (merge c mN mE g src).run d = _ := h1
  cases r with
  | error x => rw [e] at h; cases h
  | ok _ => exact ⟨d1, h2, fun o t => by unfold Db.idIn; rw [h3], e⟩

theorem unused_congr {d d' : Db} {l : List (Bytes × Triple Id)} (h : ∀ o (t : Triple Id), d'.idIn o t = d.idIn o t) (hu : Unused d l) :
    Unused d' l := ⟨hu.1, fun x hx t => by rw [h]; exact hu.2 x hx t⟩

theorem wroteAll_congr {d d' r : Db} {l : List (Bytes × Triple Id × EP)} (he : d'.edgeProps = d.edgeProps)
    (h : ∀ o (t : Triple Id), d'.idIn o t = d.idIn o t) (hw : WroteAll c d' l r) :
    (l = [] ∧ r = d') ∨ WroteAll c d l r := by
  cases l with
  | nil => exact .inl ⟨rfl, hw⟩
  | cons x l =>
    obtain ⟨d1, h1, h2⟩ := hw
    exact .inr ⟨d1, ⟨fun o u => by rw [h1.ids, h], h1.record, fun v hv hn => by rw [h1.others v hv (by rw [h]; exact hn), he]⟩, h2⟩

/-- Other edges stay stored. -/
theorem WroteAll.keeps {l : List (Bytes × Triple Id × EP)} {d d' : Db} (h : WroteAll c d l d')
    (hu : Unused d (l.map (fun x => (x.1, x.2.1)))) {t : Triple Id} {p : EP} (ht : ∀ x ∈ l, x.2.1 ≠ t) (ha : Alone d t)
    (hs : Stored c d t p) : Stored c d' t p := by
  obtain ⟨v, h1, b, h2, h3⟩ := hs
  refine ⟨v, fun o => (h.rest ht o).trans (h1 o), b, (h.records hu (fun x hx e => ?_) (fun x hx e => ?_)).trans h2, h3⟩
  · exact hu.2 (x.1, x.2.1) (List.mem_map.2 ⟨x, hx, rfl⟩) t (by rw [e]; exact h1 .SPO)
  · exact ha .SPO .SPO x.2.1 (ht x hx) v (h1 .SPO) e

theorem extend_wrote {u : Gen Ulid} {src : Source E Id NP EP} {d : Db} (hu : Unused d (Call.drawnFor u src.edges))
    (h : ((extend c u src).run d).2.2 = .ok ()) :
    ∃ L d1, WroteAll c d1 L ((extend c u src).run d).1 ∧ d1.edgeProps = d.edgeProps ∧ (∀ o (t : Triple Id), d1.idIn o t = d.idIn o t) ∧
      L.map (fun x => (x.1, x.2.1)) = Call.drawnFor u src.edges ∧ L.map Prod.snd = oks src.edges := by
  obtain ⟨d1, h1, h2, h3⟩ := extend_run u src d h
  rw [h3] at h ⊢
  obtain ⟨L, i1, i2, i3⟩ := extendEdges_wrote (c := c) src.edges u d1 (unused_congr h2 hu) h
  exact ⟨L, d1, i1, h1, h2, i2, i3⟩

theorem mergeEdges_ok (l : List (Except E (Triple Id × EP))) (g : Gen Id) (d : Db) (h : ((mergeEdges c mE g l).run d).2.2 = .ok ()) :
    ¬ fails l := by
  induction l generalizing g d with
  | nil => exact fun h => nomatch h
  | cons x l ih =>
    cases x with
    | error e => cases h
    | ok x =>
      rw [mergeEdges, Prog.run_bind] at h
      cases hr : ((mergeEdge c mE (Gen.fresh g).1 x.1 x.2).run d).2 with
      | error e => simp only [hr] at h; cases h
      | ok _ => simp only [hr] at h; exact ih _ _ h

theorem merge_wrote {g : Gen Id} {src : Source E Id NP EP} {d : Db}
    (h : ((merge c mN mE g src).run d).2.2 = .ok ()) :
    ∃ L d1, WroteAll c d1 L ((merge c mN mE g src).run d).1 ∧ d1.edgeProps = d.edgeProps ∧ (∀ o (t : Triple Id), d1.idIn o t = d.idIn o t) ∧
      L.map (fun x => (x.1, x.2.1)) = Call.drawnFor g src.edges ∧ L.map (fun x => x.2.1) = (oks src.edges).map Prod.fst := by
  obtain ⟨d1, h1, h2, h3⟩ := merge_run g src d h
  rw [h3] at h ⊢
  obtain ⟨L, i1, i2⟩ := mergeEdges_wrote (c := c) (mE := mE) src.edges g d1 h
  refine ⟨L, d1, i1, h1, h2, i2, ?_⟩
  rw [← drawnFor_snd g src.edges (mergeEdges_ok _ _ _ h), ← i2, List.map_map]
  rfl

theorem extendEdges_ok (ht : c.Total) (l : List (Except E (Triple Id × EP))) (h : ¬ fails l) (g : Gen Ulid) (d : Db) :
    ((extendEdges c g l).run d).2.2 = .ok () := by
  induction l generalizing g d with
  | nil => rfl
  | cons x l ih =>
    cases x with
    | error e => exact absurd rfl h
    | ok x =>
      obtain ⟨b, hb⟩ := Option.isSome_iff_exists.1 (ht.2 x.2)
      unfold extendEdges
      simp only [hb, Prog.run]
      split
      · exact ih h _ _
      · exact ih h _ _

theorem extend_ok (ht : c.Total) (u : Gen Ulid) (src : Source E Id NP EP) (d : Db) (h1 : ¬ fails src.nodes) (h2 : ¬ fails src.edges) :
    ((extend c u src).run d).2.2 = .ok () := by
  unfold extend
  generalize src.nodes = l at h1
  induction l generalizing d with
  | nil => exact extendEdges_ok ht src.edges h2 u d
  | cons x l ih =>
    cases x with
    | error e => exact absurd rfl h1
    | ok x =>
      obtain ⟨b, hb⟩ := Option.isSome_iff_exists.1 (ht.1 x.2)
      unfold extendNodes
      simp only [hb, Prog.run]
      exact ih _ h1

/-! ## remove_node -/

theorem forwardBatch_error {l : List (Bytes × Bytes)} {b : Batch} {e : SErr} (h : forwardBatch Id b l = .error e) :
    ∃ x ∈ l, x.1.length ≠ tripleLen (Id := Id) := by
  induction l generalizing b with
  | nil => cases h
  | cons x l ih =>
    obtain ⟨k, v⟩ := x
    rw [forwardBatch] at h
    rcases key_cases (Id := Id) .SPO k with ⟨t, rfl⟩ | ⟨hl, hn⟩
    · cases hk : ByteArr.tryFrom (tripleLen (Id := Id)) (encOf .SPO t).1 with
      | none => exact ⟨_, List.mem_cons_self, fun hl => by unfold ByteArr.tryFrom at hk; rw [dif_pos hl] at hk; cases hk⟩
      | some key =>
        rw [hk] at h
        obtain ⟨x, hx, hl⟩ := ih h
        exact ⟨x, List.mem_cons_of_mem _ hx, hl⟩
    · exact ⟨_, List.mem_cons_self, hl⟩

theorem backwardBatch_error {l : List (Bytes × Bytes)} {b : Batch} {e : SErr} (h : backwardBatch Id b l = .error e) :
    ∃ x ∈ l, x.1.length ≠ tripleLen (Id := Id) := by
  induction l generalizing b with
  | nil => cases h
  | cons x l ih =>
    obtain ⟨k, v⟩ := x
    rw [backwardBatch] at h
    rcases key_cases (Id := Id) .OSP k with ⟨t, rfl⟩ | ⟨hl, hn⟩
    · cases hk : ByteArr.tryFrom (tripleLen (Id := Id)) (encOf .OSP t).1 with
      | none => exact ⟨_, List.mem_cons_self, fun hl => by unfold ByteArr.tryFrom at hk; rw [dif_pos hl] at hk; cases hk⟩
      | some key =>
        rw [hk] at h
        obtain ⟨x, hx, hl⟩ := ih h
        exact ⟨x, List.mem_cons_of_mem _ hx, hl⟩
    · exact ⟨_, List.mem_cons_self, hl⟩

theorem removeNode_any (n : Id) (d : Db) :
    (∃ e, (removeNode n).run d = (d, .error e) ∧
      ∃ x ∈ d.spo.rangeArr (keyBounds1 n) ++ d.osp.rangeArr (keyBounds1 n), x.1.length ≠ tripleLen (Id := Id)) ∨
    ∃ F B : List (Triple Id × Bytes), (removeNode n).run d = (dropped n F B d, .ok ()) ∧
      d.spo.rangeArr (keyBounds1 n) = F.map (fun x => ((encodeSpo x.1).1, x.2)) ∧
      d.osp.rangeArr (keyBounds1 n) = B.map (fun x => ((encodeOsp x.1).1, x.2)) := by
  unfold removeNode
  simp only [Prog.run, id]
  cases h1 : forwardBatch Id ⟨[], [], [], []⟩ (d.spo.rangeArr (keyBounds1 n)) with
  | error e =>
    obtain ⟨x, hx, hl⟩ := forwardBatch_error h1
    exact .inl ⟨e, rfl, x, List.mem_append.2 (.inl hx), hl⟩
  | ok fb =>
    simp only [Prog.run, id]
    cases h2 : backwardBatch Id ⟨[], [], [], []⟩ (d.osp.rangeArr (keyBounds1 n)) with
    | error e =>
      obtain ⟨x, hx, hl⟩ := backwardBatch_error h2
      exact .inl ⟨e, rfl, x, List.mem_append.2 (.inr hx), hl⟩
    | ok bb =>
      right
      obtain ⟨F, hF⟩ := forwardBatch_ok h1
      obtain ⟨B, hB⟩ := backwardBatch_ok h2
      refine ⟨F, B, ?_, hF, hB⟩
      rw [hF, forwardBatch_enc] at h1
      rw [hB, backwardBatch_enc] at h2
      cases h1; cases h2
      simp only [List.nil_append]
      rfl

theorem scanned_spo {d : Db} {n : Id} {F : List (Triple Id × Bytes)}
    (h : d.spo.rangeArr (keyBounds1 n) = F.map (fun x => ((encodeSpo x.1).1, x.2))) {t : Triple Id} {v : Bytes} :
    (t, v) ∈ F ↔ d.idIn .SPO t = some v ∧ t.sub = n := by
  rw [← scan_spo, h, List.mem_map]
  constructor
  · exact fun hx => ⟨_, hx, rfl⟩
  · rintro ⟨x, hx, e⟩
    rw [Prod.mk.injEq] at e
    have : x.1 = t := (encOf_inj (o := .SPO)).1 e.1
    rw [← this, ← e.2]; exact hx

theorem scanned_osp {d : Db} {n : Id} {F : List (Triple Id × Bytes)}
    (h : d.osp.rangeArr (keyBounds1 n) = F.map (fun x => ((encodeOsp x.1).1, x.2))) {t : Triple Id} {v : Bytes} :
    (t, v) ∈ F ↔ d.idIn .OSP t = some v ∧ t.obj = n := by
  rw [← scan_osp, h, List.mem_map]
  constructor
  · exact fun hx => ⟨_, hx, rfl⟩
  · rintro ⟨x, hx, e⟩
    rw [Prod.mk.injEq] at e
    have : x.1 = t := (encOf_inj (o := .OSP)).1 e.1
    rw [← this, ← e.2]; exact hx

/-! ## what iterators list -/

theorem mem_iterEdges_any {d : Db} {o : EdgeOrder} {t : Triple Id} {p : EP} :
    .ok (t, p) ∈ iterEdges Id c d o ↔ ∃ v b, d.idIn o t = some v ∧ d.edgeProps.get v = some b ∧ c.e.de b = some p := by
  unfold iterEdges
  rw [orderedEdges_eq, List.map_map, List.mem_map]
  constructor
  · rintro ⟨⟨k, v⟩, he, h⟩
    rw [BMap.mem_entries] at he
    rcases key_cases (Id := Id) o k with ⟨u, rfl⟩ | ⟨-, hn⟩
    · simp only [Function.comp_apply, decodeEntry_enc] at h
      unfold getData at h
      cases hg : d.edgeProps.get v with
      | none => simp only [hg] at h; cases h
      | some b =>
        simp only [hg] at h
        cases hb : c.e.de b with
        | none => simp only [deser, hb] at h; cases h
        | some q =>
          simp only [deser, hb] at h
          cases h
          exact ⟨v, b, he, hg, hb⟩
    · simp only [Function.comp_apply, decodeEntry, hn] at h
      cases h
  · rintro ⟨v, b, h1, h2, h3⟩
    refine ⟨((encOf o t).1, v), BMap.mem_entries.2 h1, ?_⟩
    simp only [Function.comp_apply, decodeEntry_enc, getData_some h2 h3]

/-! ## where the ids come from -/

section

variable (d0 : Db) (W : Bytes × Triple Id → Prop)

/-- Every id in an ordering was there at the start or was written. -/
def FromW (d : Db) : Prop := ∀ o (t : Triple Id) v, d.idIn o t = some v → d0.idIn o t = some v ∨ W (v, t)

variable {d0 W}

theorem FromW.same {d d' : Db} (h : FromW d0 W d) (ht : ∀ o, d'.tree o = d.tree o) : FromW d0 W d' := by
  intro o t v hv
  unfold Db.idIn at hv
  rw [ht] at hv
  exact h o t v hv

theorem FromW.set {d d' : Db} (h : FromW d0 W d) {t : Triple Id} {v : Bytes} (hw : W (v, t))
    (ht : ∀ o (u : Triple Id), d'.idIn o u = d.idIn o u ∨ d'.idIn o u = none ∨ u = t ∧ d'.idIn o u = some v) : FromW d0 W d' := by
  intro o u w hu
  rcases ht o u with e | e | ⟨rfl, e⟩
  · exact h o u w (by rw [← e]; exact hu)
  · rw [e] at hu; cases hu
  · rw [e] at hu; cases hu; exact .inr hw

theorem FromW.less {d d' : Db} (h : FromW d0 W d)
    (ht : ∀ o (u : Triple Id), d'.idIn o u = d.idIn o u ∨ d'.idIn o u = none) : FromW d0 W d' := by
  intro o u w hu
  rcases ht o u with e | e
  · exact h o u w (by rw [← e]; exact hu)
  · rw [e] at hu; cases hu

theorem FromW.put {d : Db} (h : FromW d0 W d) {t : Triple Id} {x : Option Bytes} (o : EdgeOrder) (hw : x = none ∨ ∃ v, x = some v ∧ W (v, t)) :
    FromW d0 W (match o with
      | .SPO => d.put .spo (encodeSpo t).1 x
      | .POS => d.put .pos (encodePos t).1 x
      | .OSP => d.put .osp (encodeOsp t).1 x) := by
  intro o' u w hu
  replace hu := (idIn_put (o := o') d o t x u).symm.trans (by cases o <;> exact hu)
  split at hu
  · rename_i e
    obtain ⟨-, rfl⟩ := e
    subst hu
    rcases hw with e | ⟨v, e, hv⟩
    · cases e
    · cases e; exact .inr hv
  · exact h o' u w hu

/-- a call that writes only what it may -/
abbrev Writes' (d0 : Db) (W : Bytes × Triple Id → Prop) {α : Type} (p : Prog Db α) : Prop :=
  Framed (FromW d0 W) (fun _ => ()) p (fun _ => True)

theorem Writes'.bind {α β : Type} {p : Prog Db α} {k : α → Prog Db β} (h : Writes' d0 W p) (hk : ∀ a, Writes' d0 W (k a)) :
    Writes' d0 W (p.bind k) := Framed.bind h (fun a _ => hk a)

theorem w_insertNode (n : Id) (p : NP) : Writes' d0 W (insertNode c n p) := by
  unfold insertNode
  split
  · trivial
  · exact fun d h => ⟨h.same (fun o => by cases o <;> rfl), rfl, trivial⟩

theorem w_mergeNode (n : Id) (p : NP) : Writes' d0 W (mergeNode c mN n p) := by
  obtain ⟨f, hf, he⟩ := mergeNode_commit c mN n p
  rw [hf]
  refine fun d h => ⟨?_, rfl, trivial⟩
  rcases he d with e | ⟨b, q, -, e⟩
  · show FromW d0 W (commit f d)
    rw [e]; exact h
  · show FromW d0 W (commit f d)
    rw [e]; exact h.same (fun o => by cases o <;> rfl)

theorem w_insertEdge {i : Id} {t : Triple Id} (p : EP) (hw : W (be i, t)) : Writes' d0 W (insertEdge c i t p) := by
  unfold insertEdge
  split
  · trivial
  · rename_i b hb
    refine fun d h => ⟨h.set hw (fun o u => ?_), rfl, trivial⟩
    have e := setEdge_idIn { d with edgeProps := d.edgeProps.insert (be i) b } t (be i) o u
    rw [withProps_idIn] at e
    by_cases hu : u = t
    · exact .inr (.inr ⟨hu, e.trans (if_pos hu)⟩)
    · exact .inl (e.trans (if_neg hu))

theorem w_mergeEdge {i : Id} {t : Triple Id} (p : EP) (hw : W (be i, t)) : Writes' d0 W (mergeEdge c mE i t p) := by
  obtain ⟨f, hf, he⟩ := mergeEdge_commit c mE i t p
  rw [hf]
  refine fun d h => ⟨?_, rfl, trivial⟩
  show FromW d0 W (commit f d)
  rcases he d with e | ⟨b, q, -, e⟩
  · rw [e]; exact h
  · rw [e]
    refine h.set hw (fun o u => ?_)
    rw [setEdge_idIn, withProps_idIn]
    by_cases hu : u = t
    · exact .inr (.inr ⟨hu, if_pos hu⟩)
    · exact .inl (if_neg hu)

theorem w_removeEdge (t : Triple Id) : Writes' d0 W (removeEdge t) := by
  unfold removeEdge
  refine fun d h => ⟨h.less (fun o u => ?_), rfl, fun d1 h1 => ⟨h1.put .SPO (.inl rfl), rfl, fun d2 h2 => ⟨h2.put .POS (.inl rfl), rfl,
    fun d3 h3 => ⟨h3.put .OSP (.inl rfl), rfl, ?_⟩⟩⟩⟩
  · show (removed d t).idIn o u = _ ∨ (removed d t).idIn o u = none
    rw [removed, unsetEdge_idIn, withProps_idIn]
    split
    · exact .inr rfl
    · exact .inl rfl
  · split
    · exact fun d4 h4 => ⟨h4.same (fun o => by cases o <;> rfl), rfl, trivial⟩
    · trivial

theorem w_removeNodeScanned (n : Id) (fwd bwd : List (Bytes × Bytes)) : Writes' d0 W (removeNodeScanned n fwd bwd) := by
  rcases removeNodeScanned_cases n fwd bwd with ⟨r, e⟩ | ⟨F, B, -, -, e⟩
  · rw [e]; trivial
  · rw [e]
    refine fun d h => ⟨FromW.less (d := d) h (fun o u => ?_), rfl, trivial⟩
    show (dropped n F B d).idIn o u = _ ∨ (dropped n F B d).idIn o u = none
    rw [dropped_idIn]
    split
    · exact .inr rfl
    · exact .inl rfl

theorem w_removeNode (n : Id) : Writes' d0 W (removeNode n) := by
  rw [removeNode_eq]
  intro d h
  refine ⟨h, rfl, ?_⟩
  dsimp only
  split
  · trivial
  · exact fun d' h' => ⟨h', rfl, w_removeNodeScanned ..⟩

theorem w_extendNodes {α : Type} {k : Except (LR SErr E) Unit → Prog Db α} (l : List (Except E (Id × NP)))
    (hk : ∀ r, Writes' d0 W (k r)) : Writes' d0 W (extendNodes c k l) := by
  induction l with
  | nil => exact hk _
  | cons x l ih =>
    cases x with
    | error e => exact hk _
    | ok x =>
      unfold extendNodes
      split
      · exact hk _
      · exact fun d h => ⟨h.same (fun o => by cases o <;> rfl), rfl, ih⟩

theorem w_mergeNodes {α : Type} {k : Except (LR SErr E) Unit → Prog Db α} (l : List (Except E (Id × NP)))
    (hk : ∀ r, Writes' d0 W (k r)) : Writes' d0 W (mergeNodes c mN k l) := by
  induction l with
  | nil => exact hk _
  | cons x l ih =>
    cases x with
    | error e => exact hk _
    | ok x =>
      refine (w_mergeNode x.1 x.2).bind (fun r => ?_)
      cases r with
      | error e => exact hk _
      | ok _ => exact ih

theorem w_mergeEdges (l : List (Except E (Triple Id × EP))) (g : Gen Id) (hw : ∀ x ∈ Call.drawnFor g l, W x) :
    Writes' d0 W (mergeEdges c mE g l) := by
  induction l generalizing g with
  | nil => trivial
  | cons x l ih =>
    cases x with
    | error e => trivial
    | ok x =>
      refine (w_mergeEdge x.2 (hw _ List.mem_cons_self)).bind (fun r => ?_)
      cases r with
      | error e => trivial
      | ok _ => exact ih _ (fun y hy => hw y (List.mem_cons_of_mem _ hy))

theorem w_extendEdges (l : List (Except E (Triple Id × EP))) (g : Gen Ulid) (hw : ∀ x ∈ Call.drawnFor g l, W x) :
    Writes' d0 W (extendEdges c g l) := by
  induction l generalizing g with
  | nil => trivial
  | cons x l ih =>
    cases x with
    | error e => trivial
    | ok x =>
      have hx := hw _ List.mem_cons_self
      have ih' := ih (Gen.fresh g).2 (fun y hy => hw y (List.mem_cons_of_mem _ hy))
      unfold extendEdges
      split
      · trivial
      · refine fun d h => ⟨h.same (fun o => by cases o <;> rfl), rfl, fun d1 h1 => ⟨h1.put .SPO (.inr ⟨_, rfl, hx⟩), rfl, fun d2 h2 => ⟨h2.put .POS (.inr ⟨_, rfl, hx⟩), rfl,
          fun d3 h3 => ⟨h3.put .OSP (.inr ⟨_, rfl, hx⟩), rfl, ?_⟩⟩⟩⟩
        split
        · exact fun d4 h4 => ⟨h4.same (fun o => by cases o <;> rfl), rfl, ih'⟩
        · exact ih'

theorem w_call (x : Call E Id NP EP) (hw : ∀ y ∈ x.writes, W y) : Writes' d0 W (x.prog c mN mE) := by
  cases x with
  | insertNode n p => exact (w_insertNode n p).bind (fun _ => trivial)
  | insertEdge i t p => exact (w_insertEdge p (hw _ List.mem_cons_self)).bind (fun _ => trivial)
  | removeNode n => exact (w_removeNode n).bind (fun _ => trivial)
  | removeNodeScan n fwd bwd => exact (w_removeNodeScanned n fwd bwd).bind (fun _ => trivial)
  | removeEdge t => exact (w_removeEdge t).bind (fun _ => trivial)
  | mergeNode n p => exact (w_mergeNode n p).bind (fun _ => trivial)
  | mergeEdge i t p => exact (w_mergeEdge p (hw _ List.mem_cons_self)).bind (fun _ => trivial)
  | extend u src =>
    refine (w_extendNodes src.nodes (fun r => ?_)).bind (fun _ => trivial)
    cases r with
    | error e => trivial
    | ok _ => exact w_extendEdges src.edges u hw
  | merge g src =>
    refine (w_mergeNodes src.nodes (fun r => ?_)).bind (fun _ => trivial)
    cases r with
    | error e => trivial
    | ok _ => exact w_mergeEdges src.edges g hw

end

/-- At any moment every id in an ordering was there at the start or was written by a call. -/
theorem ids_moment {d0 d : Db} {threads : List (List (Call E Id NP EP))} (h : Moment c mN mE d0 threads d) (o : EdgeOrder) (t : Triple Id)
    (v : Bytes) (hv : d.idIn o t = some v) : d0.idIn o t = some v ∨ (v, t) ∈ allWrites threads := by
  obtain ⟨rest, hs⟩ := h
  have := framed_steps (J := FromW d0 (· ∈ allWrites threads)) (loc := fun _ => ()) hs (fun _ _ _ h => .inl h) (fun q hq p hp => ?_)
  · exact this.1 o t v hv
  · obtain ⟨th, hth, rfl⟩ := List.mem_map.1 hq
    obtain ⟨x, hx, rfl⟩ := List.mem_map.1 hp
    exact w_call x (fun y hy => List.mem_flatMap.2 ⟨x, List.mem_flatten.2 ⟨th, hth, hx⟩, hy⟩)

end Sled

end Verif
