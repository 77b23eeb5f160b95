import Verif.Proof.RdfQuery
import Verif.Proof.RdfSplit
import Verif.Proof.SledLazy
import Verif.Proof.RdfSledValues
import Verif.Spec.RdfSledQuery
import Verif.Props.Closure

/-! # Queries on an RDF store that changes -/

set_option linter.unusedSectionVars false

namespace Verif

open Spec ConcreteId

/-! ## closures which answer alike -/

section

variable {σ σ' α β γ ε : Type} {W : Prop}

/-- the same answer, unless the first one is an error (and `W` is false) -/
def Sim (W : Prop) (x y : Except ε β) : Prop := (W ∨ ∃ b, x = .ok b) → y = x

theorem Sim.bind {x : σ × Except ε β} {x' : σ' × Except ε β} {k : σ → β → σ × Except ε γ} {k' : σ' → β → σ' × Except ε γ} :
    Sim W x.2 x'.2 → (∀ s s' b, Sim W (k s b).2 (k' s' b).2) →
    Sim W (match x with | (s, .error e) => (s, .error e) | (s, .ok b) => k s b : σ × Except ε γ).2
      (match x' with | (s, .error e) => (s, .error e) | (s, .ok b) => k' s b : σ' × Except ε γ).2 := by
  intro h hk
  obtain ⟨s, e | b⟩ := x <;> obtain ⟨s', e' | b'⟩ := x'
  · intro hW
    rcases hW with hW | ⟨b, hb⟩
    · have := h (.inl hW)
      cases this
      rfl
    · cases hb
  · intro hW
    rcases hW with hW | ⟨b, hb⟩
    · cases h (.inl hW)
    · cases hb
  · cases h (.inr ⟨b, rfl⟩)
  · cases h (.inr ⟨b, rfl⟩)
    exact hk s s' b

theorem sim_collect [DecidableEq β] {f : σ → α → σ × Except ε β} {f' : σ' → α → σ' × Except ε β}
    (h : ∀ s s' a, Sim W (f s a).2 (f' s' a).2) (l : List α) (s : σ) (s' : σ') (acc : HSet β) :
    Sim W (collectMut f s l acc).2 (collectMut f' s' l acc).2 := by
  induction l generalizing s s' acc with
  | nil => exact fun _ => rfl
  | cons a l ih =>
    simp only [collectMut]
    have := Sim.bind (x := f s a) (x' := f' s' a) (k := fun s b => collectMut f s l (HSet.insert acc b))
      (k' := fun s b => collectMut f' s l (HSet.insert acc b)) (h s s' a) (fun s s' b => ih s s' (HSet.insert acc b))
    revert this
    rcases f s a with ⟨s1, e | b⟩ <;> rcases f' s' a with ⟨s1', e' | b'⟩ <;> exact fun this => this

theorem sim_pair {f : σ → α → σ × Except ε β} {f' : σ' → α → σ' × Except ε β}
    (h : ∀ s s' a, Sim W (f s a).2 (f' s' a).2) (s : σ) (s' : σ') (x : α × α) :
    Sim W (Query.pairMut f s x).2 (Query.pairMut f' s' x).2 := by
  simp only [Query.pairMut]
  refine Sim.bind (x := f s x.1) (h s s' _) (fun s s' a => ?_)
  exact Sim.bind (x := f s x.2) (h s s' _) (fun s s' b _ => rfl)

theorem sim_triple {f : σ → α → σ × Except ε β} {f' : σ' → α → σ' × Except ε β}
    (h : ∀ s s' a, Sim W (f s a).2 (f' s' a).2) (s : σ) (s' : σ') (x : α × α × α) :
    Sim W (Query.tripleMut f s x).2 (Query.tripleMut f' s' x).2 := by
  simp only [Query.tripleMut]
  refine Sim.bind (x := f s x.1) (h s s' _) (fun s s' a => ?_)
  refine Sim.bind (x := f s x.2.1) (h s s' _) (fun s s' b => ?_)
  exact Sim.bind (x := f s x.2.2) (h s s' _) (fun s s' c _ => rfl)

theorem Sim.map {x y : Except ε β} (h : Sim W x y) (g : β → γ) : Sim W (x.map g) (y.map g) := by
  intro hW
  cases x with
  | error e =>
    rcases hW with hW | ⟨b, hb⟩
    · rw [h (.inl hW)]
    · cases hb
  | ok b => rw [h (.inr ⟨b, rfl⟩)]

theorem sim_query [DecidableEq β] {f : σ → α → σ × Except ε β} {f' : σ' → α → σ' × Except ε β}
    (h : ∀ s s' a, Sim W (f s a).2 (f' s' a).2) (s : σ) (s' : σ') (q : Query α) :
    Sim W (q.tryMapMut f s).2 (q.tryMapMut f' s').2 := by
  cases q with
  | NodeProps l | S l | P l | O l => exact (sim_collect h l s s' []).map _
  | SP l | SO l | PO l => exact (sim_collect (sim_pair h) l s s' []).map _
  | SPO l => exact (sim_collect (sim_triple h) l s s' []).map _

/-- an error comes from one of the calls -/
theorem calls_error {f : Nat → α → Except ε β} {l : List α} {k : Nat} {e : ε}
    (h : (calls (fun k a => (k + 1, f k a)) k l).2 = .error e) : ∃ j, ∃ a ∈ l, f j a = .error e := by
  induction l generalizing k with
  | nil => cases h
  | cons a l ih =>
    simp only [calls] at h
    cases hf : f k a with
    | error e' =>
      rw [hf] at h
      cases h
      exact ⟨k, a, List.mem_cons_self, hf⟩
    | ok b =>
      rw [hf] at h
      dsimp only at h
      cases hc : (calls (fun k a => (k + 1, f k a)) (k + 1) l).2 with
      | error e' =>
        have : e' = e := by
          revert h hc
          rcases calls (fun k a => (k + 1, f k a)) (k + 1) l with ⟨s, e1 | bs⟩
          · intro h hc; cases h; cases hc; rfl
          · intro h hc; cases hc
        subst this
        obtain ⟨j, a', ha', h'⟩ := ih hc
        exact ⟨j, a', List.mem_cons_of_mem _ ha', h'⟩
      | ok bs =>
        revert h hc
        rcases calls (fun k a => (k + 1, f k a)) (k + 1) l with ⟨s, e1 | bs⟩
        · intro h hc; cases hc
        · intro h hc; cases h

theorem query_error [DecidableEq β] {f : Nat → α → Except ε β} {q : Query α} {k : Nat} {e : ε}
    (h : (q.tryMapMut (fun k a => (k + 1, f k a)) k).2 = .error e) : ∃ j, ∃ a ∈ (Spec.Query.items q).flatten, f j a = .error e := by
  have hq := Props.C68_query q (fun k a => (k + 1, f k a)) k
  rcases hc : calls (fun k a => (k + 1, f k a)) k (Spec.Query.items q).flatten with ⟨s, e1 | bs⟩ <;> rw [hc] at hq
  · dsimp only at hq
    rw [hq] at h
    cases h
    exact calls_error (by rw [hc])
  · obtain ⟨q', hq, -⟩ := hq
    rw [hq] at h
    cases h

end

namespace RdfSled

variable {NP EP E : Type} {cl : Codec String} {cr : Codec Ulid} {c : Codecs NP EP} {mN : NP → NP → NP} {mE : EP → EP → EP}

/-! ## recording names -/

theorem recordAt_fold {tell : Nat → IndexDb} {i : IndexDb} {S : Type} (r : Rdf IndexDb S) (hr : r.nameIndex = i) (L : List Ulid)
    (h : ∀ k, ∀ id ∈ L, Rdf.lookupId (SX := SErr) (SledIndex.impl cl cr) (tell k) id = Rdf.lookupId (SledIndex.impl cl cr) i id)
    (k : Nat) (m : MemIndex String Ulid) :
    Sled.tryFold (recordAt cl cr tell) (k, m) L =
      (Sled.tryFold (Rdf.record (SX := SErr) (QX := Unit) (SledIndex.impl cl cr) r) m L).map (fun m => (k + L.length, m)) := by
  induction L generalizing k m with
  | nil => rfl
  | cons id L ih =>
    rw [Sled.tryFold, Sled.tryFold]
    have e : recordAt cl cr tell (k, m) id =
        (Rdf.record (SX := SErr) (QX := Unit) (SledIndex.impl cl cr) r m id).map (fun m => (k + 1, m)) := by
      unfold recordAt Rdf.record
      dsimp only
      rw [h k id List.mem_cons_self, hr]
      cases Rdf.lookupId (SX := SErr) (SledIndex.impl cl cr) i id with
      | error e => rfl
      | ok e =>
        cases e with
        | string s =>
          dsimp only
          rcases m.set s id with ⟨m', e' | ⟨⟩⟩ <;> rfl
        | ulid u => rfl
    rw [e]
    cases hrec : Rdf.record (SX := SErr) (QX := Unit) (SledIndex.impl cl cr) r m id with
    | error e => rfl
    | ok m' =>
      simp only [Except.map]
      rw [ih (fun k id hid => h k id (List.mem_cons_of_mem _ hid)), List.length_cons]
      rw [show k + 1 + L.length = k + (L.length + 1) by omega]
      rfl

theorem recordEdgesAt_eq {tell : Nat → IndexDb} {i : IndexDb} {S : Type} (r : Rdf IndexDb S) (hr : r.nameIndex = i)
    (L : List (Triple Ulid × EP))
    (h : ∀ k, ∀ x ∈ L, ∀ id ∈ [x.1.sub, x.1.pred, x.1.obj],
      Rdf.lookupId (SX := SErr) (SledIndex.impl cl cr) (tell k) id = Rdf.lookupId (SledIndex.impl cl cr) i id)
    (k : Nat) (m : MemIndex String Ulid) :
    (recordEdgesAt cl cr tell (k, m) (L.map .ok)).map Prod.snd =
      Rdf.recordEdges (SX := SErr) (QX := Unit) (SledIndex.impl cl cr) r m (L.map .ok) := by
  induction L generalizing k m with
  | nil => rfl
  | cons x L ih =>
    simp only [List.map_cons, recordEdgesAt, Rdf.recordEdges]
    rw [recordAt_fold r hr _ (fun k id hid => h k x List.mem_cons_self id hid)]
    cases Sled.tryFold (Rdf.record (SX := SErr) (QX := Unit) (SledIndex.impl cl cr) r) m [x.1.sub, x.1.pred, x.1.obj] with
    | error e => rfl
    | ok m' =>
      simp only [Except.map]
      exact ih (fun k x hx => h k x (List.mem_cons_of_mem _ hx)) _ _

/-! ## the whole query -/

/-- what the reads of a query return, whatever the triple store is -/
def readsImpl (c : Codecs NP EP) (ρ : Sled.Reads) : RunImpl Unit SErr (Mem Ulid NP EP) Unit Ulid := fun _ g q =>
  match Sled.runLazy c g ρ q with
  | .error e => .error (.left e)
  | .ok r => .ok r

theorem runLazy_eq (mN : NP → NP → NP) (mE : EP → EP → EP) {ask tell : Nat → IndexDb} {ρ : Sled.Reads} {g u : Gen Ulid} {q : Query Entity} {q' : Query Ulid} {i : IndexDb}
    {res : Mem Ulid NP EP} (ht : translate cl cr ask q = .ok q')
    (hq : q.tryMap (fun e => Rdf.lookupEntity (SX := SErr) (SledIndex.impl cl cr) (⟨i, (), fun _ => 0⟩ : Rdf IndexDb Unit) e) = .ok q')
    (hr : Sled.runLazy c g ρ q' = .ok res)
    (hN : ∀ k, ∀ id ∈ res.vertices,
      Rdf.lookupId (SX := SErr) (SledIndex.impl cl cr) (tell k) id = Rdf.lookupId (SledIndex.impl cl cr) i id)
    {L : List (Triple Ulid × EP)} (hL : res.iterEdges .SPO = L.map .ok)
    (hE : ∀ k, ∀ x ∈ L, ∀ id ∈ [x.1.sub, x.1.pred, x.1.obj],
      Rdf.lookupId (SX := SErr) (SledIndex.impl cl cr) (tell k) id = Rdf.lookupId (SledIndex.impl cl cr) i id) :
    runLazy cl cr c ask tell ρ g u q =
      Rdf.run (SledIndex.impl cl cr) (readsImpl c ρ) (Mem.impl mN mE) (⟨i, (), fun _ => 0⟩ : Rdf IndexDb Unit) g u q := by
  unfold runLazy Rdf.run
  rw [ht, hq]
  dsimp only [readsImpl]
  rw [hr]
  dsimp only
  rw [show (Mem.impl mN mE).vertices res = .ok res.vertices from rfl, show (Mem.impl mN mE).iterEdges res .SPO = res.iterEdges .SPO from rfl]
  dsimp only
  rw [recordAt_fold (⟨i, (), fun _ => 0⟩ : Rdf IndexDb Unit) rfl _ hN]
  cases Sled.tryFold (Rdf.record (SX := SErr) (QX := Unit) (SledIndex.impl cl cr) (⟨i, (), fun _ => 0⟩ : Rdf IndexDb Unit)) .new res.vertices with
  | error e => rfl
  | ok m =>
    simp only [Except.map]
    rw [hL, ← recordEdgesAt_eq (⟨i, (), fun _ => 0⟩ : Rdf IndexDb Unit) rfl L hE (0 + res.vertices.length) m]
    cases recordEdgesAt cl cr tell (0 + res.vertices.length, m) (L.map .ok) <;> rfl

/-- the translation, when the names keep their ids -/
theorem translate_later {ask : Nat → IndexDb} {i : IndexDb} {q : Query Entity} {q' : Query Ulid}
    (h : ∀ k e v, entityIn cl cr (ask k) e = .ok v → entityIn cl cr i e = .ok v) (ht : translate cl cr ask q = .ok q') :
    q.tryMap (fun e => entityIn cl cr i e) = .ok q' := by
  have := sim_query (W := False) (f := fun (k : Nat) e => (k + 1, entityIn cl cr (ask k) e)) (f' := fun (k : Unit) e => (k, entityIn cl cr i e))
    (fun s s' a hh => by
      rcases hh with hh | ⟨b, hb⟩
      · cases hh
      · rw [hb]; exact h s a b hb) 0 () q (.inr ⟨q', ht⟩)
  rw [(Props.C68_pure q ⟨.ulid 0, .ulid 0, .ulid 0⟩ (fun e => entityIn cl cr i e) ()).1] at this
  exact this.trans ht

theorem translate_same (i : IndexDb) (q : Query Entity) : translate cl cr (fun _ => i) q = q.tryMap (fun e => entityIn cl cr i e) := by
  have := sim_query (W := True) (f := fun (k : Nat) e => (k + 1, entityIn cl cr i e)) (f' := fun (k : Unit) e => (k, entityIn cl cr i e))
    (fun s s' a hh => rfl) 0 () q (.inl trivial)
  rw [(Props.C68_pure q ⟨.ulid 0, .ulid 0, .ulid 0⟩ (fun e => entityIn cl cr i e) ()).1] at this
  exact this.symm

end RdfSled

end Verif
