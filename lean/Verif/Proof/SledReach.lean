import Verif.Proof.SledQuery

/-! # Crash points and reachable states of the sled back-end -/

set_option linter.unusedSectionVars false

namespace Verif

open Spec ConcreteId

variable {Id NP EP E : Type} [LinearOrder Id] [ConcreteId Id] [LawfulId Id]

namespace Prog

variable {S α β : Type}

theorem mem_states_bind {p : Prog S α} {f : α → Prog S β} {s x : S} (h : x ∈ (p.bind f).states s) :
    x ∈ p.states s ∨ x ∈ (f (p.run s).2).states (p.run s).1 := by
  induction p generalizing s with
  | ret a => exact Or.inr h
  | call g k ih =>
    simp only [bind, states, List.mem_cons] at h ⊢
    rcases h with rfl | h
    · exact Or.inl (Or.inl rfl)
    · rcases ih s h with h | h
      · exact Or.inl (Or.inr h)
      · exact Or.inr h

/-- every state is the initial or the final one -/
def Atomic (p : Prog S α) : Prop := ∀ s, ∀ x ∈ p.states s, x = s ∨ x = (p.run s).1

end Prog

namespace Sled

open Db

variable {c : Codecs NP EP}

theorem atomic_ret {α : Type} (a : α) : (Prog.ret a : Prog Db α).Atomic := by
  intro s x hx
  exact Or.inl (List.mem_singleton.1 hx)

theorem atomic_tx (f : Db → Except SErr Db) : (transaction f).Atomic := by
  intro s x hx
  simp only [transaction, Prog.states, List.mem_cons, List.not_mem_nil, or_false] at hx
  rcases hx with rfl | rfl
  · exact Or.inl rfl
  · exact Or.inr rfl

theorem atomic_read {α : Type} {k : Db → Prog Db α} (h : ∀ d, (k d).Atomic) : (Prog.call id k).Atomic := by
  intro s x hx
  simp only [Prog.states, List.mem_cons, id] at hx
  rcases hx with rfl | hx
  · exact Or.inl rfl
  · exact h s s x hx

theorem insertNode_atomic (n : Id) (p : NP) : (insertNode c n p).Atomic := by
  unfold insertNode
  split
  · exact atomic_ret _
  · intro s x hx
    simp only [Prog.states, List.mem_cons, List.not_mem_nil, or_false] at hx
    exact hx

theorem insertEdge_atomic (i : Id) (t : Triple Id) (p : EP) : (insertEdge c i t p).Atomic := by
  unfold insertEdge
  split
  · exact atomic_ret _
  · exact atomic_tx _

theorem mergeNode_atomic (mN : NP → NP → NP) (n : Id) (p : NP) : (mergeNode c mN n p).Atomic := atomic_tx _

theorem mergeEdge_atomic (mE : EP → EP → EP) (i : Id) (t : Triple Id) (p : EP) : (mergeEdge c mE i t p).Atomic :=
  atomic_tx _

theorem removeNode_atomic (n : Id) : (removeNode n).Atomic := by
  unfold removeNode
  refine atomic_read (fun d => ?_)
  split
  · exact atomic_ret _
  · refine atomic_read (fun d => ?_)
    split
    · exact atomic_ret _
    · exact atomic_tx _

theorem removeEdge_atomic (t : Triple Id) : (removeEdge t).Atomic := by
  intro s x hx
  obtain ⟨h1, h2⟩ := removeEdge_states s t
  rw [h1] at hx
  rw [h2]
  simpa using hx

end Sled

namespace SledStore

open Db

variable {c : Codecs NP EP} {n m : Nat} {F : Bytes → Prop} {s : SledStore Id} {G : Graph Id NP EP}

theorem mergeEdges_states (hc : c.RoundTrip) (mE : EP → EP → EP)
    (l : List (Except E (Triple Id × EP))) (s : SledStore Id) (G : Graph Id NP EP) (h : Ok c (n + l.length) m F s G)
    {x : Db} (hx : x ∈ (Sled.mergeEdges c mE s.gen l).states s.db) :
    ∃ l', l' <+: l ∧ x.Inv Id c ∧ x.graph c = (takeIn (fun G x => storeMergedEdge c.okE mE G x.1 x.2) G l').1 := by
  induction l generalizing s G with
  | nil =>
    have := List.mem_singleton.1 hx
    subst this
    exact ⟨[], List.prefix_refl _, h.inv, h.graph⟩
  | cons a l ih =>
    cases a with
    | error e =>
      have := List.mem_singleton.1 hx
      subst this
      exact ⟨[], List.nil_prefix, h.inv, h.graph⟩
    | ok y =>
      have h0 : Ok c (n + l.length + 1) m F s G := by
        rw [List.length_cons, ← Nat.add_assoc] at h; exact h
      obtain ⟨h1, h2⟩ := good_mergeEdge (E := E) hc h0 mE y.1 y.2
      unfold SledStore.mergeEdge at h1 h2
      rw [Sled.mergeEdges] at hx
      have hfinal : ∀ z, z = ((Sled.mergeEdge c mE (Gen.fresh s.gen).1 y.1 y.2).run s.db).1 →
          ∃ l', l' <+: .ok y :: l ∧ z.Inv Id c ∧
            z.graph c = (takeIn (fun G x => storeMergedEdge c.okE mE G x.1 x.2) G l').1 := by
        rintro z rfl
        refine ⟨[.ok y], ?_, h1.inv, ?_⟩
        · exact List.cons_prefix_cons.2 ⟨rfl, List.nil_prefix⟩
        · refine h1.graph.trans ?_
          rw [takeIn]
          cases storeMergedEdge c.okE mE G y.1 y.2 <;> rfl
      rcases Prog.mem_states_bind hx with hx | hx
      · rcases Sled.mergeEdge_atomic mE _ _ _ _ _ hx with rfl | hx
        · exact ⟨[], List.nil_prefix, h.inv, h.graph⟩
        · exact hfinal _ hx
      · cases hs : storeMergedEdge c.okE mE G y.1 y.2 with
        | none =>
          rw [hs] at h2
          cases hr : ((Sled.mergeEdge c mE (Gen.fresh s.gen).1 y.1 y.2).run s.db).2 with
          | ok a => rw [hr] at h2; cases h2
          | error e =>
            rw [hr] at hx
            exact hfinal _ (List.mem_singleton.1 hx)
        | some G' =>
          cases hr : ((Sled.mergeEdge c mE (Gen.fresh s.gen).1 y.1 y.2).run s.db).2 with
          | error a => rw [hr, hs] at h2; cases h2
          | ok e =>
            rw [hr] at hx
            rw [hs] at h1
            obtain ⟨l', hl, hi, hg⟩ := ih _ _ h1 hx
            refine ⟨.ok y :: l', List.cons_prefix_cons.2 ⟨rfl, hl⟩, hi, ?_⟩
            rw [takeIn, hs]
            exact hg

theorem mergeNodes_states (hc : c.RoundTrip) (mN : NP → NP → NP) {α : Type} (k : Except (LR SErr E) Unit → Prog Db α)
    (l : List (Except E (Id × NP))) (s : SledStore Id) (G : Graph Id NP EP) (h : Ok c n m F s G)
    {x : Db} (hx : x ∈ (Sled.mergeNodes c mN k l).states s.db) :
    (∃ l', l' <+: l ∧ x.Inv Id c ∧ x.graph c = (takeIn (fun G x => storeMergedNode c.okN mN G x.1 x.2) G l').1) ∨
    ∃ d', Ok c n m F { s with db := d' } (takeIn (fun G x => storeMergedNode c.okN mN G x.1 x.2) G l).1 ∧
      x ∈ (k (takeIn (fun G x => storeMergedNode c.okN mN G x.1 x.2) G l).2.result).states d' := by
  induction l generalizing s G with
  | nil => exact Or.inr ⟨s.db, h, hx⟩
  | cons a l ih =>
    cases a with
    | error e => exact Or.inr ⟨s.db, h, hx⟩
    | ok y =>
      obtain ⟨h1, h2⟩ := good_mergeNode (E := E) hc h mN y.1 y.2
      unfold SledStore.mergeNode at h1 h2
      rw [Sled.mergeNodes] at hx
      rcases Prog.mem_states_bind hx with hx | hx
      · left
        rcases Sled.mergeNode_atomic mN _ _ _ _ hx with rfl | rfl
        · exact ⟨[], List.nil_prefix, h.inv, h.graph⟩
        · refine ⟨[.ok y], List.cons_prefix_cons.2 ⟨rfl, List.nil_prefix⟩, h1.inv, ?_⟩
          refine h1.graph.trans ?_
          rw [takeIn]
          cases storeMergedNode c.okN mN G y.1 y.2 <;> rfl
      · cases hs : storeMergedNode c.okN mN G y.1 y.2 with
        | none =>
          rw [hs] at h1 h2
          cases hr : ((Sled.mergeNode c mN y.1 y.2).run s.db).2 with
          | ok a => rw [hr] at h2; cases h2
          | error e =>
            rw [hr] at hx h2
            cases h2
            right
            refine ⟨((Sled.mergeNode c mN y.1 y.2).run s.db).1, ?_, ?_⟩
            · rw [takeIn, hs]; exact h1
            · rw [takeIn, hs]; exact hx
        | some G' =>
          cases hr : ((Sled.mergeNode c mN y.1 y.2).run s.db).2 with
          | error a => rw [hr, hs] at h2; cases h2
          | ok e =>
            rw [hr] at hx
            rw [hs] at h1
            rcases ih _ _ h1 hx with ⟨l', hl, hi, hg⟩ | ⟨d', h3, h4⟩
            · refine Or.inl ⟨.ok y :: l', List.cons_prefix_cons.2 ⟨rfl, hl⟩, hi, ?_⟩
              rw [takeIn, hs]
              exact hg
            · refine Or.inr ⟨d', ?_, ?_⟩
              · rw [takeIn, hs]; exact h3
              · rw [takeIn, hs]; exact h4

theorem merge_states (hc : c.RoundTrip) (mN : NP → NP → NP) (mE : EP → EP → EP) (src : Source E Id NP EP)
    (h : Ok c (n + src.edges.length) m F s G) {x : Db} (hx : x ∈ (Sled.merge c mN mE s.gen src).states s.db) :
    ∃ src', Source.CutOff src' src ∧ x.Inv Id c ∧
      x.graph c = (both G (fun G x => storeMergedNode c.okN mN G x.1 x.2)
        (fun G x => storeMergedEdge c.okE mE G x.1 x.2) src').1 := by
  have nodesOnly : ∀ l', l' <+: src.nodes →
      (both G (fun G x => storeMergedNode c.okN mN G x.1 x.2) (fun G x => storeMergedEdge c.okE mE G x.1 x.2)
        (⟨l', []⟩ : Source E Id NP EP)).1 = (takeIn (fun G x => storeMergedNode c.okN mN G x.1 x.2) G l').1 := by
    intro l' _
    unfold both
    simp only
    rcases hq : takeIn (fun G x => storeMergedNode c.okN mN G x.1 x.2) G l' with ⟨a, b⟩
    cases b <;> simp [takeIn, hq]
  rcases mergeNodes_states hc mN _ src.nodes s G h hx with ⟨l', hl, hi, hg⟩ | ⟨d', hd, hx⟩
  · exact ⟨⟨l', []⟩, ⟨hl, List.nil_prefix, Or.inr rfl⟩, hi, by rw [nodesOnly l' hl]; exact hg⟩
  · rcases ht : takeIn (fun G x => storeMergedNode c.okN mN G x.1 x.2) G src.nodes with ⟨G', r⟩
    rw [ht] at hd hx
    cases r with
    | done =>
      obtain ⟨l', hl, hi, hg⟩ := mergeEdges_states hc mE src.edges _ _ hd hx
      refine ⟨⟨src.nodes, l'⟩, ⟨List.prefix_refl _, hl, Or.inl rfl⟩, hi, ?_⟩
      unfold both
      simp only [ht]
      exact hg
    | unserializable =>
      have := List.mem_singleton.1 hx
      subst this
      exact ⟨⟨src.nodes, []⟩, ⟨List.prefix_refl _, List.nil_prefix, Or.inl rfl⟩, hd.inv, by
        rw [nodesOnly _ (List.prefix_refl _), ht]; exact hd.graph⟩
    | source e =>
      have := List.mem_singleton.1 hx
      subst this
      exact ⟨⟨src.nodes, []⟩, ⟨List.prefix_refl _, List.nil_prefix, Or.inl rfl⟩, hd.inv, by
        rw [nodesOnly _ (List.prefix_refl _), ht]; exact hd.graph⟩

/-- crash points of all operations but the two bulk ones: before or after -/
theorem crash_single (mN : NP → NP → NP) (mE : EP → EP → EP) (s : SledStore Id) (o : Op E Id NP EP)
    (h1 : ∀ src, o ≠ .extend src) (h2 : ∀ src, o ≠ .merge src) {d : Db} (hd : d ∈ s.crashStates c mN mE o) :
    d = s.db ∨ d = (s.apply c mN mE o).db := by
  cases o with
  | insertNode n p => exact Sled.insertNode_atomic n p _ _ hd
  | insertEdge t p => exact Sled.insertEdge_atomic _ t p _ _ hd
  | removeNode n => exact Sled.removeNode_atomic n _ _ hd
  | removeEdge t => exact Sled.removeEdge_atomic t _ _ hd
  | mergeNode n p => exact Sled.mergeNode_atomic mN n p _ _ hd
  | mergeEdge t p => exact Sled.mergeEdge_atomic mE _ t p _ _ hd
  | extend src => exact absurd rfl (h1 src)
  | merge src => exact absurd rfl (h2 src)

theorem crash_inv (hc : c.RoundTrip) (mN : NP → NP → NP) (mE : EP → EP → EP) (o : Op E Id NP EP)
    (h : Ok c (n + o.genDraws) (m + o.ulidDraws) F s G) (ho : ∀ src, o ≠ .extend src) {d : Db}
    (hd : d ∈ s.crashStates c mN mE o) : d.Inv Id c := by
  by_cases hm : ∃ src, o = .merge src
  · obtain ⟨src, rfl⟩ := hm
    obtain ⟨_, _, hi, _⟩ := merge_states hc mN mE src h hd
    exact hi
  · rcases crash_single mN mE s o ho (fun src e => hm ⟨src, e⟩) hd with rfl | rfl
    · exact h.inv
    · exact (good_call hc mN mE o h).1.inv

theorem ok_open {d : Db} (hi : d.Inv Id c) {g : Gen Id} {u : Gen Ulid} (h : FreshIds n m g u) (hu : Unused n m g u d) :
    Ok c n m (fun _ => False) (SledStore.new d g u) (d.graph c) where
  inv := hi
  graph := rfl
  fresh := h
  gUnused i hi t ht := (hu _ (BMap.mem_entries.2 ht)).1 i hi rfl
  uUnused j hj t ht := (hu _ (BMap.mem_entries.2 ht)).2 j hj rfl
  fUnused _ hv := hv.elim
  gF _ _ := id
  uF _ _ := id

theorem Reach.ok (hc : c.RoundTrip) {mN : NP → NP → NP} {mE : EP → EP → EP} (h : Reach E c mN mE n m s) :
    Ok c n m (fun _ => False) s (s.db.graph c) := by
  induction h with
  | new h => exact ok_new c h (fun _ _ => id) (fun _ _ => id)
  | op o _ ih => exact (good_call hc mN mE o ih).1.congrGraph
  | reopen _ h hu ih => exact ok_open ih.inv h hu
  | crash o _ hd ho h hu ih => exact ok_open (crash_inv hc mN mE o ih ho hd) h hu

theorem Reach.shows (hc : c.RoundTrip) {mN : NP → NP → NP} {mE : EP → EP → EP} (h : Reach E c mN mE n m s) :
    Shows (s.obs c) (s.db.graph c) := (h.ok hc).shows

theorem Reach.graph_of_shows (hc : c.RoundTrip) {mN : NP → NP → NP} {mE : EP → EP → EP} (h : Reach E c mN mE n m s)
    (hG : Shows (s.obs c) G) : s.db.graph c = G := shows_unique (h.shows hc) hG

theorem Reach.ok_of_shows (hc : c.RoundTrip) {mN : NP → NP → NP} {mE : EP → EP → EP} (h : Reach E c mN mE n m s)
    (hG : Shows (s.obs c) G) : Ok c n m (fun _ => False) s G := by
  rw [← h.graph_of_shows hc hG]; exact h.ok hc

theorem reach_applyAll {mN : NP → NP → NP} {mE : EP → EP → EP} (h : List (Op E Id NP EP))
    (hs : Reach E c mN mE (n + genDraws h) (m + ulidDraws h) s) : Reach E c mN mE n m (s.applyAll c mN mE h) := by
  induction h generalizing s with
  | nil => exact hs
  | cons o h ih =>
    refine ih (s := s.apply c mN mE o) (.op o ?_)
    have e1 : n + genDraws h + o.genDraws = n + genDraws (o :: h) := by
      simp only [genDraws, List.map_cons, List.sum_cons]; omega
    have e2 : m + ulidDraws h + o.ulidDraws = m + ulidDraws (o :: h) := by
      simp only [ulidDraws, List.map_cons, List.sum_cons]; omega
    rw [e1, e2]; exact hs

/-! ## several runs -/

theorem runs_spec (hc : c.RoundTrip) (mN : NP → NP → NP) (mE : EP → EP → EP)
    (l : List (Gen Id × Gen Ulid × List (Op E Id NP EP))) (d : Db) (hd : d.Inv Id c)
    (hn : (l.flatMap drawn).Nodup) (hu : ∀ v ∈ l.flatMap drawn, ∀ t : Triple Id, d.idIn .SPO t ≠ some v) :
    (runs c mN mE d l).Inv Id c ∧
    (runs c mN mE d l).graph c = stepAll c.okN c.okE mN mE (d.graph c) (l.flatMap (fun r => r.2.2)) := by
  induction l generalizing d with
  | nil => exact ⟨hd, rfl⟩
  | cons r l ih =>
    obtain ⟨g, u, h⟩ := r
    rw [List.flatMap_cons, List.nodup_append] at hn
    obtain ⟨hn1, hn2, hn3⟩ := hn
    have gm : ∀ i < genDraws h, (toBeBytes (g i)).1 ∈ drawn (E := E) (g, u, h) := fun i hi =>
      List.mem_append_left _ (List.mem_map.2 ⟨i, List.mem_range.2 hi, rfl⟩)
    have um : ∀ i < ulidDraws h, (toBeBytes (u i)).1 ∈ drawn (E := E) (g, u, h) := fun i hi =>
      List.mem_append_right _ (List.mem_map.2 ⟨i, List.mem_range.2 hi, rfl⟩)
    have hfresh : FreshIds (genDraws h) (ulidDraws h) g u := by
      unfold drawn at hn1
      rw [List.nodup_append] at hn1
      obtain ⟨h1, h2, h3⟩ := hn1
      refine ⟨fun i hi j hj e => ?_, fun i hi j hj e => ?_, fun i hi j hj => ?_⟩
      · exact List.inj_on_of_nodup_map h1 (List.mem_range.2 hi) (List.mem_range.2 hj)
          (congrArg (fun x => (toBeBytes x).1) e)
      · exact List.inj_on_of_nodup_map h2 (List.mem_range.2 hi) (List.mem_range.2 hj)
          (congrArg (fun x => (toBeBytes x).1) e)
      · exact h3 _ (List.mem_map.2 ⟨i, List.mem_range.2 hi, rfl⟩) _ (List.mem_map.2 ⟨j, List.mem_range.2 hj, rfl⟩)
    have ok : Ok c (0 + genDraws h) (0 + ulidDraws h) (fun v => v ∈ l.flatMap drawn) (SledStore.new d g u) (d.graph c) := by
      rw [Nat.zero_add, Nat.zero_add]
      exact
      { inv := hd
        graph := rfl
        fresh := hfresh
        gUnused := fun i hi t => hu _ (List.mem_append_left _ (gm i hi)) t
        uUnused := fun i hi t => hu _ (List.mem_append_left _ (um i hi)) t
        fUnused := fun v hv t => hu _ (List.mem_append_right _ hv) t
        gF := fun i hi hv => hn3 _ (gm i hi) _ hv rfl
        uF := fun i hi hv => hn3 _ (um i hi) _ hv rfl }
    have ok' := ok_applyAll hc mN mE h _ _ ok
    obtain ⟨h1, h2⟩ := ih _ ok'.inv hn2 ok'.fUnused
    refine ⟨h1, h2.trans ?_⟩
    rw [ok'.graph, List.flatMap_cons]
    unfold stepAll
    rw [List.foldl_append]

end SledStore

end Verif
