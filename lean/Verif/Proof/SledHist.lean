import Verif.Proof.SledOps

/-! # Bulk operations and histories of the sled back-end -/

set_option linter.unusedSectionVars false

namespace Verif

open Spec ConcreteId

variable {Id NP EP E : Type} [LinearOrder Id] [ConcreteId Id] [LawfulId Id]

theorem Prog.run_bind {S α β : Type} (p : Prog S α) (f : α → Prog S β) (s : S) :
    (p.bind f).run s = (f (p.run s).2).run (p.run s).1 := by
  induction p generalizing s with
  | ret a => rfl
  | call g k ih => exact ih s (g s)

namespace SledStore

open Db

variable {c : Codecs NP EP} {n m : Nat} {F : Bytes → Prop} {s : SledStore Id} {G : Graph Id NP EP}

/-- the node loop of merge, followed by `k` -/
theorem mergeNodes_spec (hc : c.RoundTrip) (mN : NP → NP → NP) {α : Type} (k : Except (LR SErr E) Unit → Prog Db α)
    (l : List (Except E (Id × NP))) (s : SledStore Id) (G : Graph Id NP EP) (h : Ok c n m F s G) :
    ∃ d', (Sled.mergeNodes c mN k l).run s.db =
        (k (takeIn (fun G x => storeMergedNode c.okN mN G x.1 x.2) G l).2.result).run d' ∧
      Ok c n m F { s with db := d' } (takeIn (fun G x => storeMergedNode c.okN mN G x.1 x.2) G l).1 := by
  induction l generalizing s G with
  | nil => exact ⟨s.db, rfl, h⟩
  | cons a l ih =>
    cases a with
    | error e => exact ⟨s.db, rfl, h⟩
    | ok x =>
      obtain ⟨h1, h2⟩ := good_mergeNode (E := E) hc h mN x.1 x.2
      unfold SledStore.mergeNode at h1 h2
      rw [Sled.mergeNodes, Prog.run_bind, takeIn]
      cases hs : storeMergedNode c.okN mN G x.1 x.2 with
      | none =>
        rw [hs] at h1 h2
        rcases hr : (Sled.mergeNode c mN x.1 x.2).run s.db with ⟨d', r⟩
        rw [hr] at h1 h2
        cases r with
        | ok a => cases h2
        | error e =>
          cases h2
          exact ⟨d', rfl, h1⟩
      | some G' =>
        rw [hs] at h1 h2
        rcases hr : (Sled.mergeNode c mN x.1 x.2).run s.db with ⟨d', r⟩
        rw [hr] at h1 h2
        cases r with
        | error a => cases h2
        | ok e => exact ih _ _ h1

theorem mergeEdges_spec (hc : c.RoundTrip) (mE : EP → EP → EP)
    (l : List (Except E (Triple Id × EP))) (s : SledStore Id) (G : Graph Id NP EP) (h : Ok c (n + l.length) m F s G) :
    ∃ d' g', (Sled.mergeEdges c mE s.gen l).run s.db =
        (d', g', (takeIn (fun G x => storeMergedEdge c.okE mE G x.1 x.2) G l).2.result) ∧
      Ok c n m F { s with db := d', gen := g' } (takeIn (fun G x => storeMergedEdge c.okE mE G x.1 x.2) G l).1 := by
  induction l generalizing s G with
  | nil => exact ⟨s.db, s.gen, rfl, h⟩
  | cons a l ih =>
    cases a with
    | error e => exact ⟨s.db, s.gen, rfl, h.mono (by simp) le_rfl⟩
    | ok x =>
      have h0 : Ok c (n + l.length + 1) m F s G := by
        rw [List.length_cons, ← Nat.add_assoc] at h; exact h
      obtain ⟨h1, h2⟩ := good_mergeEdge (E := E) hc h0 mE x.1 x.2
      unfold SledStore.mergeEdge at h1 h2
      rw [Sled.mergeEdges, Prog.run_bind, takeIn]
      cases hs : storeMergedEdge c.okE mE G x.1 x.2 with
      | none =>
        rw [hs] at h1 h2
        rcases hr : (Sled.mergeEdge c mE (Gen.fresh s.gen).1 x.1 x.2).run s.db with ⟨d', r⟩
        rw [hr] at h1 h2
        cases r with
        | ok a => cases h2
        | error e =>
          cases h2
          exact ⟨d', _, rfl, h1.mono (by simp) le_rfl⟩
      | some G' =>
        rw [hs] at h1 h2
        rcases hr : (Sled.mergeEdge c mE (Gen.fresh s.gen).1 x.1 x.2).run s.db with ⟨d', r⟩
        rw [hr] at h1 h2
        cases r with
        | error a => cases h2
        | ok e => exact ih _ _ h1

theorem extendNodes_spec (hc : c.RoundTrip) {α : Type} (k : Except (LR SErr E) Unit → Prog Db α)
    (l : List (Except E (Id × NP))) (s : SledStore Id) (G : Graph Id NP EP) (h : Ok c n m F s G) :
    ∃ d', (Sled.extendNodes c k l).run s.db =
        (k (takeIn (fun G x => storeNode c.okN G x.1 x.2) G l).2.result).run d' ∧
      Ok c n m F { s with db := d' } (takeIn (fun G x => storeNode c.okN G x.1 x.2) G l).1 := by
  induction l generalizing s G with
  | nil => exact ⟨s.db, rfl, h⟩
  | cons a l ih =>
    cases a with
    | error e => exact ⟨s.db, rfl, h⟩
    | ok x =>
      rw [Sled.extendNodes, takeIn]
      cases hb : c.n.ser x.2 with
      | none =>
        have : storeNode c.okN G x.1 x.2 = none := by simp [storeNode, Codecs.okN, hb]
        simp only [this]
        exact ⟨s.db, rfl, h⟩
      | some b =>
        have : storeNode c.okN G x.1 x.2 = some (G.insertNode x.1 x.2) := by simp [storeNode, Codecs.okN, hb]
        simp only [this]
        obtain ⟨h1, h2⟩ := insNode_inv h.inv (n := x.1) (hc.1 _ b hb)
        exact ih _ _ (h.db h1 (h2.trans (by rw [h.graph])) (fun t v ht => ⟨t, ht⟩))

theorem extendEdges_cons {x : Triple Id × EP} {b : Bytes} (hb : c.e.ser x.2 = some b) (u : Gen Ulid)
    (l : List (Except E (Triple Id × EP))) (d : Db) :
    (Sled.extendEdges c u (.ok x :: l)).run d = (Sled.extendEdges c (Gen.fresh u).2 l).run
      ({ d with edgeProps := Sled.extendedProps d x.1 (toBeBytes (Gen.fresh u).1).1 b }.setEdge x.1
        (toBeBytes (Gen.fresh u).1).1) := by
  rw [Sled.extendEdges]
  simp only [hb, Prog.run, Sled.extendedProps, Db.setEdge]
  cases ho : d.spo.get (encodeSpo x.1).1 with
  | none => simp only [ho]
  | some o => simp only [ho, Prog.run]

theorem extendEdges_spec (hc : c.RoundTrip)
    (l : List (Except E (Triple Id × EP))) (s : SledStore Id) (G : Graph Id NP EP) (h : Ok c n (m + l.length) F s G) :
    ∃ d' u', (Sled.extendEdges c s.ulid l).run s.db =
        (d', u', (takeIn (fun G x => storeEdge c.okE G x.1 x.2) G l).2.result) ∧
      Ok c n m F { s with db := d', ulid := u' } (takeIn (fun G x => storeEdge c.okE G x.1 x.2) G l).1 := by
  induction l generalizing s G with
  | nil => exact ⟨s.db, s.ulid, rfl, h⟩
  | cons a l ih =>
    cases a with
    | error e => exact ⟨s.db, s.ulid, rfl, h.mono le_rfl (by simp)⟩
    | ok x =>
      have h0 : Ok c n (m + l.length + 1) F s G := by
        rw [List.length_cons, ← Nat.add_assoc] at h; exact h
      cases hb : c.e.ser x.2 with
      | none =>
        have : storeEdge c.okE G x.1 x.2 = none := by simp [storeEdge, Codecs.okE, hb]
        rw [Sled.extendEdges, takeIn]
        simp only [this, hb]
        exact ⟨s.db, _, rfl, (h0.drawUlid h.inv h.graph (fun t v ht => Or.inr ⟨t, ht⟩)).mono le_rfl (by simp)⟩
      | some b =>
        have : storeEdge c.okE G x.1 x.2 = some (G.insertEdge x.1 x.2) := by simp [storeEdge, Codecs.okE, hb]
        rw [extendEdges_cons hb, takeIn]
        simp only [this]
        obtain ⟨h1, h2⟩ := Sled.extendEdge_inv h.inv (i := (toBeBytes (Gen.fresh s.ulid).1).1) (t := x.1)
          (h0.uUnused 0 (by omega)) (hc.2 _ b hb)
        exact ih _ _ (h0.drawUlid h1 (h2.trans (by rw [h.graph])) (setEdge_ids (fun _ _ => withProps_idIn _ _ _ _)))

theorem good_merge (hc : c.RoundTrip) (mN : NP → NP → NP) (mE : EP → EP → EP) (src : Source E Id NP EP)
    (h : Ok c (n + src.edges.length) m F s G) :
    Good c n m F (s.merge c mN mE src)
      (both G (fun G x => storeMergedNode c.okN mN G x.1 x.2) (fun G x => storeMergedEdge c.okE mE G x.1 x.2) src) := by
  unfold SledStore.merge both Good
  obtain ⟨d', h1, h2⟩ := mergeNodes_spec hc mN (fun
    | .error e => .ret (s.gen, .error e)
    | .ok () => Sled.mergeEdges c mE s.gen src.edges) src.nodes s G h
  have h1' : (Sled.merge c mN mE s.gen src).run s.db = _ := h1
  simp only [h1']
  rcases ht : takeIn (fun G x => storeMergedNode c.okN mN G x.1 x.2) G src.nodes with ⟨G', r⟩
  simp only [ht]
  rw [ht] at h2
  cases r with
  | done =>
    obtain ⟨d2, g2, h3, h4⟩ := mergeEdges_spec hc mE src.edges _ _ h2
    have h3' : (Sled.mergeEdges c mE s.gen src.edges).run d' = _ := h3
    simp only [Outcome.result, h3']
    exact ⟨h4, trivial⟩
  | unserializable => exact ⟨h2.mono (Nat.le_add_right _ _) le_rfl, rfl⟩
  | source e => exact ⟨h2.mono (Nat.le_add_right _ _) le_rfl, rfl⟩

theorem good_extend (hc : c.RoundTrip) (src : Source E Id NP EP)
    (h : Ok c n (m + src.edges.length) F s G) :
    Good c n m F (s.extend c src)
      (both G (fun G x => storeNode c.okN G x.1 x.2) (fun G x => storeEdge c.okE G x.1 x.2) src) := by
  unfold SledStore.extend both Good
  obtain ⟨d', h1, h2⟩ := extendNodes_spec hc (fun
    | .error e => .ret (s.ulid, .error e)
    | .ok () => Sled.extendEdges c s.ulid src.edges) src.nodes s G h
  have h1' : (Sled.extend c s.ulid src).run s.db = _ := h1
  simp only [h1']
  rcases ht : takeIn (fun G x => storeNode c.okN G x.1 x.2) G src.nodes with ⟨G', r⟩
  simp only [ht]
  rw [ht] at h2
  cases r with
  | done =>
    obtain ⟨d2, g2, h3, h4⟩ := extendEdges_spec hc src.edges _ _ h2
    have h3' : (Sled.extendEdges c s.ulid src.edges).run d' = _ := h3
    simp only [Outcome.result, h3']
    exact ⟨h4, trivial⟩
  | unserializable => exact ⟨h2.mono le_rfl (Nat.le_add_right _ _), rfl⟩
  | source e => exact ⟨h2.mono le_rfl (Nat.le_add_right _ _), rfl⟩

/-- Every operation, on every reachable state. -/
theorem good_call (hc : c.RoundTrip) (mN : NP → NP → NP) (mE : EP → EP → EP) (op : Op E Id NP EP)
    (h : Ok c (n + op.genDraws) (m + op.ulidDraws) F s G) :
    Good c n m F (s.call c mN mE op) (op.step c.okN c.okE mN mE G) := by
  cases op with
  | insertNode x p => exact good_insertNode hc h x p
  | insertEdge t p => exact good_insertEdge hc h t p
  | removeNode x => exact good_removeNode h x
  | removeEdge t => exact good_removeEdge h t
  | mergeNode x p => exact good_mergeNode hc h mN x p
  | mergeEdge t p => exact good_mergeEdge hc h mE t p
  | extend src => exact good_extend hc src h
  | merge src => exact good_merge hc mN mE src h

theorem ok_applyAll (hc : c.RoundTrip) (mN : NP → NP → NP) (mE : EP → EP → EP) (h : List (Op E Id NP EP))
    (s : SledStore Id) (G : Graph Id NP EP) (hs : Ok c (n + genDraws h) (m + ulidDraws h) F s G) :
    Ok c n m F (s.applyAll c mN mE h) (stepAll c.okN c.okE mN mE G h) := by
  induction h generalizing s G with
  | nil => exact hs
  | cons op h ih =>
    have e1 : n + genDraws (op :: h) = n + genDraws h + op.genDraws := by
      unfold genDraws; rw [List.map_cons, List.sum_cons]; omega
    have e2 : m + ulidDraws (op :: h) = m + ulidDraws h + op.ulidDraws := by
      unfold ulidDraws; rw [List.map_cons, List.sum_cons]; omega
    rw [e1, e2] at hs
    exact ih _ _ (good_call hc mN mE op hs).1

end SledStore

/-! ## when everything can be serialized -/

section
variable {okN : NP → Bool} {okE : EP → Bool} (hN : ∀ p, okN p = true) (hE : ∀ p, okE p = true)
  (mN : NP → NP → NP) (mE : EP → EP → EP)

theorem takeIn_total {α σ : Type} {f : σ → α → Option σ} {g : σ → α → σ} (h : ∀ s a, f s a = some (g s a)) (s : σ)
    (l : List (Except E α)) :
    takeIn f s l = ((okPrefix l).foldl g s, match firstErr l with | some e => .source e | none => .done) := by
  induction l generalizing s with
  | nil => rfl
  | cons a l ih =>
    cases a with
    | error e => rfl
    | ok a => simp only [takeIn, h, ih, okPrefix, firstErr, List.foldl_cons]

include hN in
theorem storeMergedNode_total (G : Graph Id NP EP) (n : Id) (p : NP) :
    storeMergedNode okN mN G n p = some (G.mergeNode mN n p) := by
  unfold storeMergedNode storeNode
  rw [if_pos (hN _)]
  congr 1

include hE in
theorem storeMergedEdge_total (G : Graph Id NP EP) (n : Triple Id) (p : EP) :
    storeMergedEdge okE mE G n p = some (G.mergeEdge mE n p) := by
  unfold storeMergedEdge storeEdge
  rw [if_pos (hE _)]
  congr 1

theorem both_total {fN : Graph Id NP EP → Id × NP → Option (Graph Id NP EP)} {gN}
    {fE : Graph Id NP EP → Triple Id × EP → Option (Graph Id NP EP)} {gE}
    (h1 : ∀ s a, fN s a = some (gN s a)) (h2 : ∀ s a, fE s a = some (gE s a)) (G : Graph Id NP EP)
    (src : Source E Id NP EP) :
    both G fN fE src = ((Source.edgePrefix src).foldl gE ((Source.nodePrefix src).foldl gN G),
      match Source.firstErr src with | some e => .source e | none => .done) := by
  unfold both Source.edgePrefix Source.nodePrefix Source.firstErr
  rw [takeIn_total h1]
  cases h : firstErr src.nodes with
  | some e => rfl
  | none => simp only [takeIn_total h2, Option.none_or]

include hN hE in
theorem step_total (G : Graph Id NP EP) (op : Op E Id NP EP) :
    (op.step okN okE mN mE G).1 = op.apply mN mE G := by
  cases op with
  | insertNode n p => simp only [Op.step, storeNode, hN, if_true]; rfl
  | insertEdge n p => simp only [Op.step, storeEdge, hE, if_true]; rfl
  | removeNode n => rfl
  | removeEdge n => rfl
  | mergeNode n p => simp only [Op.step, storeMergedNode_total hN]; rfl
  | mergeEdge n p => simp only [Op.step, storeMergedEdge_total hE]; rfl
  | extend src =>
    rw [Op.step, both_total (gN := fun G x => G.insertNode x.1 x.2) (gE := fun G x => G.insertEdge x.1 x.2)
      (fun G x => by simp [storeNode, hN]) (fun G x => by simp [storeEdge, hE])]
    rfl
  | merge src =>
    rw [Op.step, both_total (fun G x => storeMergedNode_total hN mN G x.1 x.2)
      (fun G x => storeMergedEdge_total hE mE G x.1 x.2)]
    rfl

include hN hE in
theorem stepAll_total (G : Graph Id NP EP) (h : List (Op E Id NP EP)) :
    stepAll okN okE mN mE G h = applyAll mN mE G h := by
  unfold stepAll applyAll
  congr 1
  funext G op
  exact step_total hN hE mN mE G op

end

end Verif
