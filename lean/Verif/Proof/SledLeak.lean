import Verif.Spec.SledLeak
import Verif.Proof.SledReach

/-! # Which property records a sled database holds -/

set_option linter.unusedSectionVars false

namespace Verif

open Spec ConcreteId

variable {Id NP EP E : Type} [LinearOrder Id] [ConcreteId Id] [LawfulId Id]

namespace Db

/-- the records are those of the edges, and those in `L` -/
def Exact (Id : Type) [LinearOrder Id] [ConcreteId Id] (L : List Bytes) (d : Db) : Prop :=
  ∀ v, (d.edgeProps.get v).isSome ↔ (∃ t : Triple Id, d.idIn .SPO t = some v) ∨ v ∈ L

theorem exact_put {c : Codecs NP EP} {d : Db} {L : List Bytes} (h : Inv Id c d) (hx : Exact Id L d)
    (hL : ∀ v ∈ L, ∀ t : Triple Id, d.idIn .SPO t ≠ some v) {t : Triple Id} {v : Bytes} {m : Tree}
    (hm : ∀ w, (m.get w).isSome ↔ w = v ∨ (d.idIn .SPO t ≠ some w ∧ (d.edgeProps.get w).isSome)) :
    Exact Id L ({ d with edgeProps := m }.setEdge t v) := by
  intro w
  show (m.get w).isSome ↔ _
  rw [hm, hx]
  simp only [setEdge_idIn, withProps_idIn]
  constructor
  · rintro (rfl | ⟨h1, ⟨u, hu⟩ | h2⟩)
    · exact Or.inl ⟨t, if_pos rfl⟩
    · refine Or.inl ⟨u, ?_⟩
      rw [if_neg]
      · exact hu
      · rintro rfl; exact h1 hu
    · exact Or.inr h2
  · rintro (⟨u, hu⟩ | h2)
    · split at hu
      · cases hu; exact Or.inl rfl
      · rename_i hne
        exact Or.inr ⟨fun ht => hne (h.inj _ _ _ hu ht), Or.inl ⟨u, hu⟩⟩
    · exact Or.inr ⟨hL w h2 t, Or.inr h2⟩

/-- the record of the old value stays behind -/
theorem exact_leak {d : Db} {L : List Bytes} (hx : Exact Id L d)
    {t : Triple Id} {v o : Bytes} (ho : d.idIn .SPO t = some o) {m : Tree}
    (hm : ∀ w, (m.get w).isSome ↔ w = v ∨ (d.edgeProps.get w).isSome) :
    Exact Id (o :: L) ({ d with edgeProps := m }.setEdge t v) := by
  intro w
  show (m.get w).isSome ↔ _
  rw [hm, hx]
  simp only [setEdge_idIn, withProps_idIn, List.mem_cons]
  constructor
  · rintro (rfl | ⟨u, hu⟩ | h2)
    · exact Or.inl ⟨t, if_pos rfl⟩
    · by_cases e : u = t
      · subst e; rw [ho] at hu; cases hu; exact Or.inr (Or.inl rfl)
      · exact Or.inl ⟨u, by rw [if_neg e]; exact hu⟩
    · exact Or.inr (Or.inr h2)
  · rintro (⟨u, hu⟩ | rfl | h2)
    · split at hu
      · cases hu; exact Or.inl rfl
      · exact Or.inr (Or.inl ⟨u, hu⟩)
    · exact Or.inr (Or.inl ⟨t, ho⟩)
    · exact Or.inr (Or.inr h2)

theorem exact_drop {c : Codecs NP EP} {d d' : Db} {L : List Bytes} (h : Inv Id c d) (hx : Exact Id L d)
    (hL : ∀ v ∈ L, ∀ t : Triple Id, d.idIn .SPO t ≠ some v) (T : Triple Id → Prop)
    (hid : ∀ t : Triple Id, ∀ v, d'.idIn .SPO t = some v ↔ ¬ T t ∧ d.idIn .SPO t = some v)
    (hE : ∀ w, (d'.edgeProps.get w).isSome ↔
      (d.edgeProps.get w).isSome ∧ ¬ ∃ t : Triple Id, T t ∧ d.idIn .SPO t = some w) : Exact Id L d' := by
  intro w
  rw [hE, hx]
  simp only [hid]
  constructor
  · rintro ⟨⟨u, hu⟩ | h2, h3⟩
    · exact Or.inl ⟨u, fun hT => h3 ⟨u, hT, hu⟩, hu⟩
    · exact Or.inr h2
  · rintro (⟨u, hT, hu⟩ | h2)
    · exact ⟨Or.inl ⟨u, hu⟩, fun ⟨t, ht, ht'⟩ => hT (h.inj _ _ _ hu ht' ▸ ht)⟩
    · exact ⟨Or.inr h2, fun ⟨t, _, ht'⟩ => hL w h2 t ht'⟩

theorem exact_empty : Exact Id [] Db.empty := by
  intro v
  constructor
  · intro h; cases h
  · rintro (⟨t, ht⟩ | h)
    · cases ht
    · cases h

end Db

namespace Sled

open Db

variable {c : Codecs NP EP}

theorem mergedProps_get {d : Db} {t : Triple Id} {i b : Bytes} (w : Bytes) :
    ((mergedProps d t i b).get w).isSome ↔ w = i ∨ (d.idIn .SPO t ≠ some w ∧ (d.edgeProps.get w).isSome) := by
  have e : d.idIn .SPO t = d.spo.get (encodeSpo t).1 := rfl
  unfold mergedProps
  rw [e]
  cases d.spo.get (encodeSpo t).1 with
  | none =>
    simp only [BMap.get_insert]
    split <;> simp [*]
  | some o =>
    simp only [BMap.get_insert, BMap.get_erase]
    by_cases h1 : w = i <;> by_cases h2 : w = o
    · simp [h1]
    · simp [h1]
    · simp [h2]
    · simp only [h1, h2, if_false, false_or]
      simp [Ne.symm h2]

theorem extendedProps_get {d : Db} {t : Triple Id} {i b : Bytes} (hi : d.idIn .SPO t ≠ some i) (w : Bytes) :
    ((extendedProps d t i b).get w).isSome ↔ w = i ∨ (d.idIn .SPO t ≠ some w ∧ (d.edgeProps.get w).isSome) := by
  have e : d.idIn .SPO t = d.spo.get (encodeSpo t).1 := rfl
  unfold extendedProps
  rw [e] at hi ⊢
  cases ho : d.spo.get (encodeSpo t).1 with
  | none =>
    simp only [BMap.get_insert]
    split <;> simp [*]
  | some o =>
    rw [ho] at hi
    have hoi : o ≠ i := fun e => hi (by rw [e])
    simp only [BMap.get_insert, BMap.get_erase]
    by_cases h1 : w = i <;> by_cases h2 : w = o
    · exact absurd (h2.symm.trans h1) hoi
    · simp [h1, Ne.symm hoi]
    · simp [h2, hoi]
    · simp only [h1, h2, if_false, false_or]
      simp [Ne.symm h2]

theorem exact_removed {d : Db} {L : List Bytes} (h : Inv Id c d) (hx : Exact Id L d)
    (hL : ∀ v ∈ L, ∀ t : Triple Id, d.idIn .SPO t ≠ some v) (t : Triple Id) : Exact Id L (removed d t) := by
  refine exact_drop h hx hL (fun u => u = t) (fun u v => ?_) (fun w => ?_)
  · rw [removed, unsetEdge_idIn, withProps_idIn]
    split <;> simp [*]
  · show ((match d.spo.get (encodeSpo t).1 with
      | some i => d.edgeProps.erase i
      | none => d.edgeProps).get w).isSome ↔ _
    have e : d.idIn .SPO t = d.spo.get (encodeSpo t).1 := rfl
    simp only [exists_eq_left, e]
    cases d.spo.get (encodeSpo t).1 with
    | none => simp
    | some i =>
      simp only [BMap.get_erase]
      split
      · simp [*]
      · rename_i hne
        simp [Ne.symm hne]

theorem exact_removeNode {d : Db} {L : List Bytes} (h : Inv Id c d) (hx : Exact Id L d)
    (hL : ∀ v ∈ L, ∀ t : Triple Id, d.idIn .SPO t ≠ some v) (n : Id) :
    Exact Id L ((removeNode n).run d).1 := by
  obtain ⟨F, B, hF, hB, -, hrun⟩ := removeNode_run h.toAgree n
  rw [hrun]
  refine exact_drop h hx hL (fun u => u.sub = n ∨ u.obj = n) (fun u v => ?_) (fun w => ?_)
  · show (applyBatch (applyBatch d.spo (F.map (fun x => (encodeSpo x.1).1))) (B.map (fun x => (encodeSpo x.1).1))).get
      (encodeSpo u).1 = some v ↔ _
    rw [applyBatch_get, applyBatch_get]
    have e : d.idIn .SPO u = d.spo.get (encodeSpo u).1 := rfl
    have m1 : (encodeSpo u).1 ∈ B.map (fun x => (encodeSpo x.1).1) ↔ (∃ v, d.idIn .SPO u = some v) ∧ u.obj = n := by
      rw [List.mem_map]
      constructor
      · rintro ⟨⟨x, v⟩, hm, he⟩
        have := (encOf_inj .SPO).1 he
        subst this
        obtain ⟨h1, h2⟩ := (hB x v).1 hm
        exact ⟨⟨v, (h.same .OSP x).symm.trans h1⟩, h2⟩
      · rintro ⟨⟨v, hv⟩, ho⟩
        exact ⟨(u, v), (hB u v).2 ⟨(h.same .OSP u).trans hv, ho⟩, rfl⟩
    have m2 : (encodeSpo u).1 ∈ F.map (fun x => (encodeSpo x.1).1) ↔ (∃ v, d.idIn .SPO u = some v) ∧ u.sub = n := by
      rw [List.mem_map]
      constructor
      · rintro ⟨⟨x, v⟩, hm, he⟩
        have := (encOf_inj .SPO).1 he
        subst this
        obtain ⟨h1, h2⟩ := (hF x v).1 hm
        exact ⟨⟨v, h1⟩, h2⟩
      · rintro ⟨⟨v, hv⟩, ho⟩
        exact ⟨(u, v), (hF u v).2 ⟨hv, ho⟩, rfl⟩
    rw [← e]
    cases hv : d.idIn .SPO u with
    | none => simp
    | some v' =>
      simp only [hv, Option.some.injEq, exists_eq', true_and] at m1 m2
      simp only [m1, m2]
      by_cases h1 : u.sub = n <;> by_cases h2 : u.obj = n <;> simp [h1, h2]
  · show ((applyBatch (applyBatch d.edgeProps (F.map Prod.snd)) (B.map Prod.snd)).get w).isSome ↔ _
    rw [applyBatch_get, applyBatch_get]
    have m1 : w ∈ B.map Prod.snd ↔ ∃ t : Triple Id, t.obj = n ∧ d.idIn .SPO t = some w := by
      rw [List.mem_map]
      constructor
      · rintro ⟨⟨x, v⟩, hm, rfl⟩
        obtain ⟨h1, h2⟩ := (hB x v).1 hm
        exact ⟨x, h2, (h.same .OSP x).symm.trans h1⟩
      · rintro ⟨t, ho, hv⟩
        exact ⟨(t, w), (hB t w).2 ⟨(h.same .OSP t).trans hv, ho⟩, rfl⟩
    have m2 : w ∈ F.map Prod.snd ↔ ∃ t : Triple Id, t.sub = n ∧ d.idIn .SPO t = some w := by
      rw [List.mem_map]
      constructor
      · rintro ⟨⟨x, v⟩, hm, rfl⟩
        obtain ⟨h1, h2⟩ := (hF x v).1 hm
        exact ⟨x, h2, h1⟩
      · rintro ⟨t, ho, hv⟩
        exact ⟨(t, w), (hF t w).2 ⟨hv, ho⟩, rfl⟩
    have m3 : (∃ t : Triple Id, (t.sub = n ∨ t.obj = n) ∧ d.idIn .SPO t = some w) ↔
        w ∈ F.map Prod.snd ∨ w ∈ B.map Prod.snd := by
      rw [m1, m2, ← exists_or]
      simp only [or_and_right]
    rw [m3]
    by_cases h1 : w ∈ B.map Prod.snd
    · rw [if_pos h1]
      simp only [Option.isSome_none, Bool.false_eq_true, h1, or_true, not_true_eq_false, and_false]
    · rw [if_neg h1]
      by_cases h2 : w ∈ F.map Prod.snd
      · rw [if_pos h2]
        simp only [Option.isSome_none, Bool.false_eq_true, h2, true_or, not_true_eq_false, and_false]
      · rw [if_neg h2]
        simp only [h1, h2, or_self, not_false_eq_true, and_true]

end Sled

namespace SledStore

open Db

variable {c : Codecs NP EP} {n m : Nat} {F : Bytes → Prop} {s : SledStore Id} {G : Graph Id NP EP} {L : List Bytes}

theorem Ok.old {t : Triple Id} {o : Bytes} (h : Ok c n m F s G) (ho : s.db.idIn .SPO t = some o) :
    (G.edges t).isSome := by
  obtain ⟨b, p, h1, h2⟩ := h.inv.recs _ o ho
  rw [← h.graph]
  show (s.db.view c .SPO t).isSome
  rw [view_of_id ho h1 h2]; rfl

theorem Ok.noOld {t : Triple Id} (h : Ok c n m F s G) (ho : s.db.idIn .SPO t = none) : G.edges t = none := by
  rw [← h.graph]
  show s.db.view c .SPO t = none
  unfold view
  rw [ho]; rfl

/-- `s` holds `G`; the records not belonging to edges are those in `L`, all of which are in `F` -/
structure OkX (c : Codecs NP EP) (n m : Nat) (F : Bytes → Prop) (L : List Bytes) (s : SledStore Id)
    (G : Graph Id NP EP) : Prop where
  ok : Ok c n m (fun v => F v ∨ v ∈ L) s G
  exact : s.db.Exact Id L
  nodup : L.Nodup
  disj : ∀ v ∈ L, ¬ F v

theorem OkX.unref (h : OkX c n m F L s G) : ∀ v ∈ L, ∀ t : Triple Id, s.db.idIn .SPO t ≠ some v :=
  fun v hv => h.ok.fUnused v (Or.inr hv)

theorem okx_insertEdge (hc : c.RoundTrip) (h : OkX c (n + 1) m F L s G) (t : Triple Id) (p : EP) :
    ∃ L', L'.length = L.length + overwrites c.okE G t p ∧
      OkX c n m F L' (s.insertEdge c t p).1 (one (E := E) G (storeEdge c.okE G t p)).1 := by
  have hgood := (good_insertEdge (E := E) hc h.ok t p).1
  cases hb : c.e.ser p with
  | none =>
    refine ⟨L, by simp [overwrites, Codecs.okE, hb], hgood, ?_, h.nodup, h.disj⟩
    unfold SledStore.insertEdge
    rw [Sled.insertEdge_err hb]
    exact h.exact
  | some b =>
    have hrun : (s.insertEdge c t p).1.db =
        { s.db with edgeProps := s.db.edgeProps.insert (toBeBytes (Gen.fresh s.gen).1).1 b }.setEdge t
          (toBeBytes (Gen.fresh s.gen).1).1 := by
      unfold SledStore.insertEdge; rw [Sled.insertEdge_run hb]
    have hm : ∀ w, ((s.db.edgeProps.insert (toBeBytes (Gen.fresh s.gen).1).1 b).get w).isSome ↔
        w = (toBeBytes (Gen.fresh s.gen).1).1 ∨ (s.db.edgeProps.get w).isSome := by
      intro w
      rw [BMap.get_insert]
      split <;> simp [*]
    cases ho : s.db.idIn .SPO t with
    | none =>
      refine ⟨L, by simp [overwrites, Codecs.okE, hb, h.ok.noOld ho], hgood, ?_, h.nodup, h.disj⟩
      rw [hrun]
      refine exact_put h.ok.inv h.exact h.unref (fun w => ?_)
      rw [hm, ho]; simp
    | some o =>
      have hno := h.ok.old ho
      have hoL : o ∉ L := fun hm => h.unref o hm t ho
      refine ⟨o :: L, by simp [overwrites, Codecs.okE, hb, hno], ?_, ?_, List.nodup_cons.2 ⟨hoL, h.nodup⟩,
        fun v hv => ?_⟩
      · refine { hgood with fUnused := ?_, gF := ?_, uF := ?_ }
        · rintro v (hv | hv)
          · exact hgood.fUnused v (Or.inl hv)
          · rcases List.mem_cons.1 hv with rfl | hv
            · intro u hu
              rw [hrun, setEdge_idIn, withProps_idIn] at hu
              split at hu
              · cases hu
                exact h.ok.gUnused 0 (by omega) t ho
              · rename_i hne
                exact hne (h.ok.inv.inj _ _ _ hu ho)
            · exact hgood.fUnused v (Or.inr hv)
        · rintro i hi (hv | hv)
          · exact hgood.gF i hi (Or.inl hv)
          · rcases List.mem_cons.1 hv with hv | hv
            · exact h.ok.gUnused (i + 1) (by omega) t (ho.trans (congrArg some hv.symm))
            · exact hgood.gF i hi (Or.inr hv)
        · rintro i hi (hv | hv)
          · exact hgood.uF i hi (Or.inl hv)
          · rcases List.mem_cons.1 hv with hv | hv
            · exact h.ok.uUnused i hi t (ho.trans (congrArg some hv.symm))
            · exact hgood.uF i hi (Or.inr hv)
      · rw [hrun]
        exact exact_leak h.exact ho hm
      · rcases List.mem_cons.1 hv with rfl | hv
        · exact fun hF => h.ok.fUnused v (Or.inl hF) t ho
        · exact h.disj v hv

theorem exact_mergeEdge (h : OkX c (n + 1) m F L s G) (mE : EP → EP → EP) (t : Triple Id) (p : EP) :
    (s.mergeEdge c mE t p).1.db.Exact Id L := by
  unfold SledStore.mergeEdge
  rcases Sled.mergeEdge_run h.ok.inv mE (Gen.fresh s.gen).1 t p with ⟨h1, h2⟩ | ⟨b, h1, h2⟩
  · simp only [h2]; exact h.exact
  · simp only [h2]
    exact exact_put h.ok.inv h.exact h.unref Sled.mergedProps_get

theorem okx_mergeEdges (hc : c.RoundTrip) (mE : EP → EP → EP)
    (l : List (Except E (Triple Id × EP))) (s : SledStore Id) (G : Graph Id NP EP) (h : OkX c (n + l.length) m F L s G) :
    ((Sled.mergeEdges c mE s.gen l).run s.db).1.Exact Id L := by
  induction l generalizing s G with
  | nil => exact h.exact
  | cons a l ih =>
    cases a with
    | error e => exact h.exact
    | ok x =>
      have h0 : OkX c (n + l.length + 1) m F L s G := by
        rw [List.length_cons, ← Nat.add_assoc] at h; exact h
      obtain ⟨h1, -⟩ := good_mergeEdge (E := E) hc h0.ok mE x.1 x.2
      have h3 := exact_mergeEdge h0 mE x.1 x.2
      unfold SledStore.mergeEdge at h1 h3
      rw [Sled.mergeEdges, Prog.run_bind]
      rcases hr : (Sled.mergeEdge c mE (Gen.fresh s.gen).1 x.1 x.2).run s.db with ⟨d', r⟩
      rw [hr] at h1 h3
      cases r with
      | error e => exact h3
      | ok a => exact ih _ _ ⟨h1, h3, h.nodup, h.disj⟩

theorem exact_mergeNode (mN : NP → NP → NP) (x : Id) (p : NP) {d : Db} (h : d.Exact Id L) :
    ((Sled.mergeNode c mN x p).run d).1.Exact Id L := by
  unfold Sled.mergeNode transaction
  simp only [Prog.run]
  split
  · rename_i d' hd
    have : d'.edgeProps = d.edgeProps ∧ d'.spo = d.spo := by
      split at hd
      · split at hd
        · cases hd
        · cases hd; exact ⟨rfl, rfl⟩
      · split at hd
        · cases hd
        · split at hd
          · cases hd
          · cases hd; exact ⟨rfl, rfl⟩
    intro v
    have e : ∀ t : Triple Id, d'.idIn .SPO t = d.idIn .SPO t := by
      intro t; show d'.spo.get _ = d.spo.get _; rw [this.2]
    rw [this.1]
    simp only [e]
    exact h v
  · exact h

theorem okx_extendEdges (hc : c.RoundTrip)
    (l : List (Except E (Triple Id × EP))) (s : SledStore Id) (G : Graph Id NP EP) (h : OkX c n (m + l.length) F L s G) :
    ((Sled.extendEdges c s.ulid l).run s.db).1.Exact Id L := by
  induction l generalizing s G with
  | nil => exact h.exact
  | cons a l ih =>
    cases a with
    | error e => exact h.exact
    | ok x =>
      have h0 : OkX c n (m + l.length + 1) F L s G := by
        rw [List.length_cons, ← Nat.add_assoc] at h; exact h
      cases hb : c.e.ser x.2 with
      | none =>
        rw [Sled.extendEdges]
        simp only [hb]
        exact h.exact
      | some b =>
        rw [extendEdges_cons hb]
        obtain ⟨h1, h2⟩ := Sled.extendEdge_inv h.ok.inv (i := (toBeBytes (Gen.fresh s.ulid).1).1) (t := x.1)
          (h0.ok.uUnused 0 (by omega)) (hc.2 _ b hb)
        exact ih _ _ ⟨h0.ok.drawUlid h1 h2 (setEdge_ids (fun _ _ => withProps_idIn _ _ _ _)),
          exact_put h.ok.inv h.exact h.unref (Sled.extendedProps_get (h0.ok.uUnused 0 (by omega) _)), h.nodup,
          h.disj⟩

/-- the node loops write no records -/
theorem exact_mergeNodes (mN : NP → NP → NP) (l : List (Except E (Id × NP))) (d : Db) (h : d.Exact Id L) :
    ((Sled.mergeNodes c mN .ret l).run d).1.Exact Id L := by
  induction l generalizing d with
  | nil => exact h
  | cons a l ih =>
    cases a with
    | error e => exact h
    | ok x =>
      rw [Sled.mergeNodes, Prog.run_bind]
      have := exact_mergeNode (c := c) mN x.1 x.2 h
      rcases hr : (Sled.mergeNode c mN x.1 x.2).run d with ⟨d', r⟩
      rw [hr] at this
      cases r with
      | error e => exact this
      | ok a => exact ih _ this

theorem mergeNodes_then (mN : NP → NP → NP) {α : Type} (k : Except (LR SErr E) Unit → Prog Db α)
    (l : List (Except E (Id × NP))) (d : Db) :
    (Sled.mergeNodes c mN k l).run d =
      (k ((Sled.mergeNodes c mN .ret l).run d).2).run ((Sled.mergeNodes c mN .ret l).run d).1 := by
  induction l generalizing d with
  | nil => rfl
  | cons a l ih =>
    cases a with
    | error e => rfl
    | ok x =>
      rw [Sled.mergeNodes, Prog.run_bind, Sled.mergeNodes, Prog.run_bind]
      rcases (Sled.mergeNode c mN x.1 x.2).run d with ⟨d', r⟩
      cases r with
      | error e => rfl
      | ok a => exact ih _

theorem exact_extendNodes (l : List (Except E (Id × NP))) (d : Db) (h : d.Exact Id L) :
    ((Sled.extendNodes c .ret l).run d).1.Exact Id L := by
  induction l generalizing d with
  | nil => exact h
  | cons a l ih =>
    cases a with
    | error e => exact h
    | ok x =>
      rw [Sled.extendNodes]
      cases c.n.ser x.2 with
      | none => exact h
      | some b => exact ih _ h

theorem extendNodes_then {α : Type} (k : Except (LR SErr E) Unit → Prog Db α)
    (l : List (Except E (Id × NP))) (d : Db) :
    (Sled.extendNodes c k l).run d =
      (k ((Sled.extendNodes c .ret l).run d).2).run ((Sled.extendNodes c .ret l).run d).1 := by
  induction l generalizing d with
  | nil => rfl
  | cons a l ih =>
    cases a with
    | error e => rfl
    | ok x =>
      rw [Sled.extendNodes, Sled.extendNodes]
      cases c.n.ser x.2 with
      | none => rfl
      | some b => exact ih _

theorem exact_merge (hc : c.RoundTrip) (mN : NP → NP → NP) (mE : EP → EP → EP) (src : Source E Id NP EP)
    (h : OkX c (n + src.edges.length) m F L s G) : (s.merge c mN mE src).1.db.Exact Id L := by
  have h1 := exact_mergeNodes (c := c) mN src.nodes s.db h.exact
  obtain ⟨d', h2, h3⟩ := mergeNodes_spec hc mN .ret src.nodes s G h.ok
  show ((Sled.mergeNodes c mN _ src.nodes).run s.db).1.Exact Id L
  rw [mergeNodes_then]
  rw [h2] at h1 ⊢
  simp only [Prog.run] at h1 ⊢
  cases (takeIn (fun G x => storeMergedNode c.okN mN G x.1 x.2) G src.nodes).2.result with
  | error e => exact h1
  | ok a => exact okx_mergeEdges hc mE src.edges { s with db := d' } _ ⟨h3, h1, h.nodup, h.disj⟩

theorem exact_extend (hc : c.RoundTrip) (src : Source E Id NP EP)
    (h : OkX c n (m + src.edges.length) F L s G) : (s.extend c src).1.db.Exact Id L := by
  have h1 := exact_extendNodes (c := c) src.nodes s.db h.exact
  obtain ⟨d', h2, h3⟩ := extendNodes_spec hc .ret src.nodes s G h.ok
  show ((Sled.extendNodes c _ src.nodes).run s.db).1.Exact Id L
  rw [extendNodes_then]
  rw [h2] at h1 ⊢
  simp only [Prog.run] at h1 ⊢
  cases (takeIn (fun G x => storeNode c.okN G x.1 x.2) G src.nodes).2.result with
  | error e => exact h1
  | ok a => exact okx_extendEdges hc src.edges { s with db := d' } _ ⟨h3, h1, h.nodup, h.disj⟩

/-- every operation but insert_edge -/
theorem okx_call (hc : c.RoundTrip) (mN : NP → NP → NP) (mE : EP → EP → EP) (op : Op E Id NP EP)
    (hop : ∀ t p, op ≠ .insertEdge t p)
    (h : OkX c (n + op.genDraws) (m + op.ulidDraws) F L s G) :
    OkX c n m F L (s.call c mN mE op).1 (op.step c.okN c.okE mN mE G).1 := by
  refine ⟨(good_call hc mN mE op h.ok).1, ?_, h.nodup, h.disj⟩
  cases op with
  | insertEdge t p => exact absurd rfl (hop t p)
  | insertNode x p =>
    show ((Sled.insertNode c x p).run s.db).1.Exact Id L
    cases hb : c.n.ser p with
    | none => rw [Sled.insertNode_err hb]; exact h.exact
    | some b => rw [Sled.insertNode_run hb]; exact h.exact
  | removeNode x => exact Sled.exact_removeNode h.ok.inv h.exact h.unref x
  | removeEdge t =>
    show ((Sled.removeEdge t).run s.db).1.Exact Id L
    rw [(Sled.removeEdge_states s.db t).2]
    exact Sled.exact_removed h.ok.inv h.exact h.unref t
  | mergeNode x p => exact exact_mergeNode mN x p h.exact
  | mergeEdge t p => exact exact_mergeEdge h mE t p
  | extend src => exact exact_extend hc src h
  | merge src => exact exact_merge hc mN mE src h

theorem okx_applyAll (hc : c.RoundTrip) (mN : NP → NP → NP) (mE : EP → EP → EP) (h : List (Op E Id NP EP))
    (s : SledStore Id) (G : Graph Id NP EP) (L : List Bytes) (hs : OkX c (n + genDraws h) (m + ulidDraws h) F L s G) :
    ∃ L', L'.length = L.length + overwriting c.okN c.okE mN mE G h ∧
      OkX c n m F L' (s.applyAll c mN mE h) (stepAll c.okN c.okE mN mE G h) := by
  induction h generalizing s G L with
  | nil => exact ⟨L, rfl, hs⟩
  | cons op h ih =>
    have e1 : n + genDraws (op :: h) = n + genDraws h + op.genDraws := by
      unfold genDraws; rw [List.map_cons, List.sum_cons]; omega
    have e2 : m + ulidDraws (op :: h) = m + ulidDraws h + op.ulidDraws := by
      unfold ulidDraws; rw [List.map_cons, List.sum_cons]; omega
    rw [e1, e2] at hs
    by_cases hop : ∃ t p, op = .insertEdge t p
    · obtain ⟨t, p, rfl⟩ := hop
      obtain ⟨L1, hl1, h1⟩ := okx_insertEdge (E := E) hc hs t p
      obtain ⟨L2, hl2, h2⟩ := ih _ _ _ h1
      exact ⟨L2, by rw [hl2, hl1, overwriting, Nat.add_assoc]; rfl, h2⟩
    · have hne : ∀ t p, op ≠ .insertEdge t p := fun t p e => hop ⟨t, p, e⟩
      obtain ⟨L2, hl2, h2⟩ := ih _ _ _ (okx_call hc mN mE op hne hs)
      refine ⟨L2, ?_, h2⟩
      rw [hl2]
      cases op with
      | insertEdge t p => exact absurd rfl (hne t p)
      | _ => rfl

theorem overwriting_append (okN : NP → Bool) (okE : EP → Bool) (mN : NP → NP → NP) (mE : EP → EP → EP)
    (G : Graph Id NP EP) (h1 h2 : List (Op E Id NP EP)) :
    overwriting okN okE mN mE G (h1 ++ h2) =
      overwriting okN okE mN mE G h1 + overwriting okN okE mN mE (stepAll okN okE mN mE G h1) h2 := by
  induction h1 generalizing G with
  | nil => simp [overwriting, stepAll]
  | cons op h ih =>
    have e : stepAll okN okE mN mE G (op :: h) = stepAll okN okE mN mE (op.step okN okE mN mE G).1 h := rfl
    rw [List.cons_append, e]
    cases op with
    | insertEdge t p => rw [overwriting, overwriting, ih, Nat.add_assoc]
    | _ => rw [overwriting, overwriting, ih] <;> (intro _ _ e; cases e)

theorem runs_exact (hc : c.RoundTrip) (mN : NP → NP → NP) (mE : EP → EP → EP)
    (l : List (Gen Id × Gen Ulid × List (Op E Id NP EP))) (d : Db) (hd : d.Inv Id c) (L : List Bytes)
    (hx : d.Exact Id L) (hL : L.Nodup) (hLu : ∀ v ∈ L, ∀ t : Triple Id, d.idIn .SPO t ≠ some v)
    (hLd : ∀ v ∈ L, v ∉ l.flatMap drawn)
    (hn : (l.flatMap drawn).Nodup) (hu : ∀ v ∈ l.flatMap drawn, ∀ t : Triple Id, d.idIn .SPO t ≠ some v) :
    ∃ L', L'.length = L.length + overwriting c.okN c.okE mN mE (d.graph c) (l.flatMap (fun r => r.2.2)) ∧
      L'.Nodup ∧ (runs c mN mE d l).Inv Id c ∧ (runs c mN mE d l).Exact Id L' ∧
      ∀ v ∈ L', ∀ t : Triple Id, (runs c mN mE d l).idIn .SPO t ≠ some v := by
  induction l generalizing d L with
  | nil => exact ⟨L, rfl, hL, hd, hx, hLu⟩
  | cons r l ih =>
    obtain ⟨g, u, h⟩ := r
    rw [List.flatMap_cons, List.nodup_append] at hn
    obtain ⟨hn1, hn2, hn3⟩ := hn
    have gm : ∀ i < genDraws h, (toBeBytes (g i)).1 ∈ drawn (E := E) (g, u, h) := fun i hi =>
      List.mem_append_left _ (List.mem_map.2 ⟨i, List.mem_range.2 hi, rfl⟩)
    have um : ∀ i < ulidDraws h, (toBeBytes (u i)).1 ∈ drawn (E := E) (g, u, h) := fun i hi =>
      List.mem_append_right _ (List.mem_map.2 ⟨i, List.mem_range.2 hi, rfl⟩)
    have hfresh : FreshIds (genDraws h) (ulidDraws h) g u := by
      unfold drawn at hn1
      rw [List.nodup_append] at hn1
      obtain ⟨h1, h2, h3⟩ := hn1
      refine ⟨fun i hi j hj e => ?_, fun i hi j hj e => ?_, fun i hi j hj => ?_⟩
      · exact List.inj_on_of_nodup_map h1 (List.mem_range.2 hi) (List.mem_range.2 hj)
          (congrArg (fun x => (toBeBytes x).1) e)
      · exact List.inj_on_of_nodup_map h2 (List.mem_range.2 hi) (List.mem_range.2 hj)
          (congrArg (fun x => (toBeBytes x).1) e)
      · exact h3 _ (List.mem_map.2 ⟨i, List.mem_range.2 hi, rfl⟩) _ (List.mem_map.2 ⟨j, List.mem_range.2 hj, rfl⟩)
    have ok : OkX c (0 + genDraws h) (0 + ulidDraws h) (fun v => v ∈ l.flatMap drawn) L (SledStore.new d g u)
        (d.graph c) := by
      rw [Nat.zero_add, Nat.zero_add]
      exact
      { ok :=
        { inv := hd
          graph := rfl
          fresh := hfresh
          gUnused := fun i hi t => hu _ (List.mem_append_left _ (gm i hi)) t
          uUnused := fun i hi t => hu _ (List.mem_append_left _ (um i hi)) t
          fUnused := fun v hv t => hv.elim (fun hv => hu _ (List.mem_append_right _ hv) t) (fun hv => hLu v hv t)
          gF := fun i hi hv => hv.elim (fun hv => hn3 _ (gm i hi) _ hv rfl)
            (fun hv => hLd _ hv (List.mem_append_left _ (gm i hi)))
          uF := fun i hi hv => hv.elim (fun hv => hn3 _ (um i hi) _ hv rfl)
            (fun hv => hLd _ hv (List.mem_append_left _ (um i hi))) }
        exact := hx
        nodup := hL
        disj := fun v hv hv' => hLd v hv (List.mem_append_right _ hv') }
    obtain ⟨L1, hl1, ok'⟩ := okx_applyAll hc mN mE h _ _ L ok
    obtain ⟨L2, hl2, h2⟩ := ih _ ok'.ok.inv L1 ok'.exact ok'.nodup ok'.unref (fun v hv => ok'.disj v hv) hn2
      (fun v hv => ok'.ok.fUnused v (Or.inl hv))
    refine ⟨L2, ?_, h2⟩
    rw [hl2, hl1, List.flatMap_cons, overwriting_append, ok'.ok.graph, Nat.add_assoc]

end SledStore

namespace Db

theorem count_exact {c : Codecs NP EP} {d : Db} {L : List Bytes} (h : Inv Id c d) (hx : Exact Id L d)
    (hL : L.Nodup) (hLu : ∀ v ∈ L, ∀ t : Triple Id, d.idIn .SPO t ≠ some v) :
    d.recordCount = (Sled.iterEdges Id c d .SPO).length + L.length := by
  have hn : (d.spo.entries.map Prod.snd).Nodup := by
    have hs := List.Pairwise.and_mem.1 d.spo.sorted
    refine List.pairwise_map.2 (hs.imp (fun {a b} hab e => ?_))
    obtain ⟨ha, hb, hlt⟩ := hab
    obtain ⟨k, v⟩ := a
    obtain ⟨k', v'⟩ := b
    cases e
    rw [BMap.mem_entries] at ha hb
    obtain ⟨t, rfl⟩ := h.keys .SPO k _ ha
    obtain ⟨u, rfl⟩ := h.keys .SPO k' _ hb
    have := h.inj t u _ ha hb
    subst this
    exact lt_irrefl _ hlt
  have hperm : (d.edgeProps.entries.map Prod.fst).Perm (d.spo.entries.map Prod.snd ++ L) := by
    refine (List.perm_ext_iff_of_nodup (BMap.keys_nodup _) (List.nodup_append.2 ⟨hn, hL, ?_⟩)).2 (fun v => ?_)
    · intro v hv w hw e
      subst e
      obtain ⟨⟨k, v⟩, hm, rfl⟩ := List.mem_map.1 hv
      rw [BMap.mem_entries] at hm
      obtain ⟨t, rfl⟩ := h.keys .SPO k _ hm
      exact hLu _ hw t hm
    · have h1 : v ∈ d.edgeProps.entries.map Prod.fst ↔ (d.edgeProps.get v).isSome := by
        rw [List.mem_map, Option.isSome_iff_exists]
        constructor
        · rintro ⟨⟨k, b⟩, hm, rfl⟩; exact ⟨b, BMap.mem_entries.1 hm⟩
        · rintro ⟨b, hb⟩; exact ⟨(v, b), BMap.mem_entries.2 hb, rfl⟩
      rw [h1, hx, List.mem_append, List.mem_map]
      refine or_congr_left ?_
      constructor
      · rintro ⟨t, ht⟩; exact ⟨((encodeSpo t).1, v), BMap.mem_entries.2 ht, rfl⟩
      · rintro ⟨⟨k, v⟩, hm, rfl⟩
        rw [BMap.mem_entries] at hm
        obtain ⟨t, rfl⟩ := h.keys .SPO k _ hm
        exact ⟨t, hm⟩
  have := hperm.length_eq
  rw [List.length_map, List.length_append, List.length_map] at this
  rw [recordCount, this]
  congr 1
  unfold Sled.iterEdges
  rw [Sled.orderedEdges_eq, List.length_map, List.length_map]
  rfl

end Db

end Verif
