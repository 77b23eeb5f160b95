import Verif.Spec.RdfSplit
import Verif.Proof.RdfSledNames

/-! # An RDF store whose names and data are in different databases -/

namespace Verif

open Spec ConcreteId

namespace Spec

variable {NP EP E : Type} {f g : String → Option Ulid} {G : Graph Ulid NP EP} {x y : RdfState NP EP}

/-- the graph mentions the id under which no name is known -/
def RdfState.Mentions (x : RdfState NP EP) (v : Ulid) : Prop :=
  (∃ p, x.graph.nodes (.ulid v) = some p) ∨ ∃ t p, x.graph.edges t = some p ∧ Entity.ulid v ∈ RdfState.parts t

/-- the graph over ids mentions `v` -/
def GMentions (G : Graph Ulid NP EP) (v : Ulid) : Prop :=
  (∃ p, G.nodes v = some p) ∨ ∃ t p, G.edges t = some p ∧ (t.sub = v ∨ t.pred = v ∨ t.obj = v)

theorem exists_ref (f : String → Option Ulid) (u : Ulid) : ∃ e, Ref f e u := by
  by_cases h : ∃ s, f s = some u
  · obtain ⟨s, h⟩ := h
    exact ⟨_, .name h⟩
  · exact ⟨_, .id (fun s hs => h ⟨s, hs⟩)⟩

open Classical in
/-- the id that `e` stands for -/
noncomputable def toId (f : String → Option Ulid) : Entity → Option Ulid
  | .string s => f s
  | .ulid u => if ∃ s, f s = some u then none else some u

theorem toId_eq {e : Entity} {u : Ulid} : toId f e = some u ↔ Ref f e u := by
  cases e with
  | string s =>
    constructor
    · exact fun h => .name h
    · intro h
      cases h with
      | name h => exact h
  | ulid v =>
    simp only [toId]
    constructor
    · intro h
      by_cases hn : ∃ s, f s = some v
      · rw [if_pos hn] at h
        cases h
      · rw [if_neg hn] at h
        rw [← Option.some.inj h]
        exact .id (fun s hs => hn ⟨s, hs⟩)
    · intro h
      cases h with
      | id h => exact if_neg (by rintro ⟨s, hs⟩; exact h s hs)

/-- what is seen of `G` with the names `f` -/
noncomputable def view (f : String → Option Ulid) (G : Graph Ulid NP EP) : RdfState NP EP where
  known s := (f s).isSome
  graph := {
    nodes := fun e => (toId f e).bind G.nodes
    edges := fun t => (toId f t.sub).bind fun s => (toId f t.pred).bind fun p => (toId f t.obj).bind fun o => G.edges ⟨s, p, o⟩ }

theorem view_agree (f : String → Option Ulid) (G : Graph Ulid NP EP) : Agree f G (view f G) where
  known _ := rfl
  nodes e u hr := by
    show (toId f e).bind G.nodes = _
    rw [toId_eq.2 hr]
    rfl
  edges t tu h1 h2 h3 := by
    show ((toId f t.sub).bind fun s => (toId f t.pred).bind fun p => (toId f t.obj).bind fun o => G.edges ⟨s, p, o⟩) = _
    rw [toId_eq.2 h1, toId_eq.2 h2, toId_eq.2 h3]
    rfl
  noNode e p hp := by
    obtain ⟨u, hu, -⟩ := Option.bind_eq_some_iff.1 hp
    exact ⟨u, toId_eq.1 hu⟩
  noEdge t p hp := by
    obtain ⟨u1, h1, hp⟩ := Option.bind_eq_some_iff.1 hp
    obtain ⟨u2, h2, hp⟩ := Option.bind_eq_some_iff.1 hp
    obtain ⟨u3, h3, -⟩ := Option.bind_eq_some_iff.1 hp
    exact ⟨⟨_, toId_eq.1 h1⟩, ⟨_, toId_eq.1 h2⟩, ⟨_, toId_eq.1 h3⟩⟩

/-- fewer names -/
theorem Ref.lost (hi : Inj g) (hfg : ∀ s u, f s = some u → g s = some u) {e : Entity} {u : Ulid} (h : Ref g e u) :
    Ref f (relabel (fun s => (f s).isSome) g e) u := by
  cases h with
  | name h =>
    rename_i s
    unfold relabel
    dsimp only
    by_cases hk : (f s).isSome = true
    · obtain ⟨v, hs⟩ := Option.isSome_iff_exists.1 hk
      have := hfg s v hs
      rw [h] at this
      rw [if_pos hk]
      exact .name (hs.trans this.symm)
    · rw [if_neg hk, h]
      refine .id (fun s' hs' => hk ?_)
      rw [hi h (hfg s' u hs'), hs']
      rfl
  | id h => exact .id (fun s hs => h s (hfg s u hs))

theorem relabelled (hi : Inj g) (hfi : Inj f) (hfg : ∀ s u, f s = some u → g s = some u) (hx : Agree f G x) (hy : Agree g G y) :
    Graph.Relabelled (relabel (fun s => (f s).isSome) g) y.graph x.graph where
  nodes e p := by
    constructor
    · intro hp
      obtain ⟨u, hu⟩ := hx.noNode e p hp
      obtain ⟨e', he'⟩ := exists_ref g u
      refine ⟨e', (Ref.lost hi hfg he').snd hfi hu, ?_⟩
      rw [hy.nodes _ _ he', ← hx.nodes _ _ hu, hp]
    · rintro ⟨e', rfl, hp⟩
      obtain ⟨u, hu⟩ := hy.noNode _ _ hp
      rw [hx.nodes _ _ (Ref.lost hi hfg hu), ← hy.nodes _ _ hu, hp]
  edges t p := by
    constructor
    · intro hp
      obtain ⟨⟨u1, h1⟩, ⟨u2, h2⟩, ⟨u3, h3⟩⟩ := hx.noEdge t p hp
      obtain ⟨e1, k1⟩ := exists_ref g u1
      obtain ⟨e2, k2⟩ := exists_ref g u2
      obtain ⟨e3, k3⟩ := exists_ref g u3
      refine ⟨⟨e1, e2, e3⟩, ?_, ?_⟩
      · have a1 := (Ref.lost hi hfg k1).snd hfi h1
        have a2 := (Ref.lost hi hfg k2).snd hfi h2
        have a3 := (Ref.lost hi hfg k3).snd hfi h3
        cases t
        simp only [Triple.map, a1, a2, a3]
      · rw [hy.edges _ ⟨u1, u2, u3⟩ k1 k2 k3, ← hx.edges t ⟨u1, u2, u3⟩ h1 h2 h3, hp]
    · rintro ⟨t', rfl, hp⟩
      obtain ⟨⟨u1, h1⟩, ⟨u2, h2⟩, ⟨u3, h3⟩⟩ := hy.noEdge _ p hp
      rw [hx.edges _ ⟨u1, u2, u3⟩ (Ref.lost hi hfg h1) (Ref.lost hi hfg h2) (Ref.lost hi hfg h3),
        ← hy.edges _ ⟨u1, u2, u3⟩ h1 h2 h3, hp]

/-- more names, of ids that the graph does not mention -/
theorem Ref.more (hfg : ∀ s u, f s = some u → g s = some u) {e : Entity} {u : Ulid} (h : Ref f e u)
    (hn : ∀ s, g s = some u → f s = some u) : Ref g e u := by
  cases h with
  | name h => exact .name (hfg _ _ h)
  | id h => exact .id (fun s hs => h s (hn s hs))

theorem Ref.fewer (hfg : ∀ s u, f s = some u → g s = some u) {e : Entity} {u : Ulid} (h : Ref g e u)
    (hn : ∀ s, g s = some u → f s = some u) : Ref f e u := by
  cases h with
  | name h => exact .name (hn _ h)
  | id h => exact .id (fun s hs => h s (hfg _ _ hs))

theorem more_agree (hfg : ∀ s u, f s = some u → g s = some u)
    (hn : ∀ s u, g s = some u → f s = none → ¬ GMentions G u) (hy : Agree f G y) :
    Agree g G { known := fun s => (g s).isSome, graph := y.graph } := by
  have key : ∀ u, GMentions G u → ∀ s, g s = some u → f s = some u := by
    intro u hu s hs
    cases hf : f s with
    | none => exact absurd hu (hn s u hs hf)
    | some v => rw [← hs, hfg s v hf]
  refine ⟨fun _ => rfl, fun e u hr => ?_, fun te tu h1 h2 h3 => ?_, fun e p hp => ?_, fun t p hp => ?_⟩
  · by_cases hm : GMentions G u
    · exact hy.nodes e u (hr.fewer hfg (key u hm))
    · have hG : G.nodes u = none := by
        rw [Option.eq_none_iff_forall_not_mem]
        exact fun p hp => hm (.inl ⟨p, hp⟩)
      show y.graph.nodes e = _
      rw [hG, Option.eq_none_iff_forall_not_mem]
      intro p hp
      obtain ⟨v, hv⟩ := hy.noNode e p hp
      have h2 := hy.nodes e v hv
      have hm' : GMentions G v := .inl ⟨p, by rw [← h2]; exact hp⟩
      rw [(hv.more hfg (key v hm')).fst hr] at hm'
      exact hm hm'
  · show y.graph.edges te = _
    by_cases hm : ∃ p, G.edges tu = some p
    · obtain ⟨p, hp⟩ := hm
      exact hy.edges te tu (h1.fewer hfg (key _ (.inr ⟨tu, p, hp, .inl rfl⟩)))
        (h2.fewer hfg (key _ (.inr ⟨tu, p, hp, .inr (.inl rfl)⟩))) (h3.fewer hfg (key _ (.inr ⟨tu, p, hp, .inr (.inr rfl)⟩)))
    · have hG : G.edges tu = none := by
        rw [Option.eq_none_iff_forall_not_mem]
        exact fun p hp => hm ⟨p, hp⟩
      rw [hG, Option.eq_none_iff_forall_not_mem]
      intro p hp
      obtain ⟨⟨u1, k1⟩, ⟨u2, k2⟩, ⟨u3, k3⟩⟩ := hy.noEdge te p hp
      have e := (hy.edges te ⟨u1, u2, u3⟩ k1 k2 k3).symm.trans hp
      refine hm ⟨p, ?_⟩
      have a1 := (k1.more hfg (key _ (.inr ⟨_, p, e, .inl rfl⟩))).fst h1
      have a2 := (k2.more hfg (key _ (.inr ⟨_, p, e, .inr (.inl rfl)⟩))).fst h2
      have a3 := (k3.more hfg (key _ (.inr ⟨_, p, e, .inr (.inr rfl)⟩))).fst h3
      cases tu
      simp only at a1 a2 a3
      rw [← a1, ← a2, ← a3]
      exact e
  · obtain ⟨v, hv⟩ := hy.noNode e p hp
    exact ⟨v, hv.more hfg (key v (.inl ⟨p, by rw [← hy.nodes e v hv]; exact hp⟩))⟩
  · obtain ⟨⟨u1, k1⟩, ⟨u2, k2⟩, ⟨u3, k3⟩⟩ := hy.noEdge t p hp
    have e := (hy.edges t ⟨u1, u2, u3⟩ k1 k2 k3).symm.trans hp
    exact ⟨⟨_, k1.more hfg (key _ (.inr ⟨_, p, e, .inl rfl⟩))⟩, ⟨_, k2.more hfg (key _ (.inr ⟨_, p, e, .inr (.inl rfl)⟩))⟩,
      ⟨_, k3.more hfg (key _ (.inr ⟨_, p, e, .inr (.inr rfl)⟩))⟩⟩

theorem Agree.mentions (hy : Agree f G y) {u : Ulid} (hu : ∀ s, f s ≠ some u) (h : GMentions G u) : y.Mentions u := by
  rcases h with ⟨p, hp⟩ | ⟨t, p, hp, ht⟩
  · exact .inl ⟨p, by rw [hy.nodes _ _ (.id hu), hp]⟩
  · obtain ⟨e1, k1⟩ := exists_ref f t.sub
    obtain ⟨e2, k2⟩ := exists_ref f t.pred
    obtain ⟨e3, k3⟩ := exists_ref f t.obj
    refine .inr ⟨⟨e1, e2, e3⟩, p, by rw [hy.edges ⟨e1, e2, e3⟩ t k1 k2 k3, hp], ?_⟩
    have key : ∀ {e v}, Ref f e v → v = u → .ulid u = e := by
      rintro e v h rfl
      cases h with
      | name h => exact absurd h (hu _)
      | id h => rfl
    simp only [RdfState.parts, List.mem_cons, List.not_mem_nil, or_false]
    rcases ht with ht | ht | ht
    · exact .inl (key k1 ht)
    · exact .inr (.inl (key k2 ht))
    · exact .inr (.inr (key k3 ht))

theorem Agree.mentioned (hy : Agree f G y) {u : Ulid} (h : y.Mentions u) : (∀ s, f s ≠ some u) ∧ GMentions G u := by
  have key : ∀ {v}, Ref f (.ulid u) v → (∀ s, f s ≠ some u) ∧ v = u := by
    intro v h
    cases h with
    | id h => exact ⟨h, rfl⟩
  rcases h with ⟨p, hp⟩ | ⟨t, p, hp, ht⟩
  · obtain ⟨v, hv⟩ := hy.noNode _ p hp
    obtain ⟨k1, rfl⟩ := key hv
    exact ⟨k1, .inl ⟨p, by rw [← hy.nodes _ _ hv, hp]⟩⟩
  · obtain ⟨⟨u1, k1⟩, ⟨u2, k2⟩, ⟨u3, k3⟩⟩ := hy.noEdge t p hp
    have e := (hy.edges t ⟨u1, u2, u3⟩ k1 k2 k3).symm.trans hp
    simp only [RdfState.parts, List.mem_cons, List.not_mem_nil, or_false] at ht
    rcases ht with ht | ht | ht
    · rw [← ht] at k1
      exact ⟨(key k1).1, .inr ⟨_, p, e, .inl (key k1).2⟩⟩
    · rw [← ht] at k2
      exact ⟨(key k2).1, .inr ⟨_, p, e, .inr (.inl (key k2).2)⟩⟩
    · rw [← ht] at k3
      exact ⟨(key k3).1, .inr ⟨_, p, e, .inr (.inr (key k3).2)⟩⟩

/-! ## what an operation mentions -/

def Graph.Mentions (H : Graph Entity NP EP) (v : Ulid) : Prop :=
  (∃ p, H.nodes (.ulid v) = some p) ∨ ∃ t p, H.edges t = some p ∧ Entity.ulid v ∈ RdfState.parts t

theorem mem_ulids {v : Ulid} {es : List Entity} : v ∈ ulids es ↔ Entity.ulid v ∈ es := by
  induction es with
  | nil => simp [ulids]
  | cons e es ih => cases e <;> simp [ulids, ih]

theorem insertNode_mentions {H : Graph Entity NP EP} {e : Entity} {p : NP} {v : Ulid} (h : (H.insertNode e p).Mentions v) :
    H.Mentions v ∨ v ∈ ulids [e] := by
  rw [mem_ulids, List.mem_singleton]
  by_cases he : Entity.ulid v = e
  · exact .inr he
  · refine .inl ?_
    rcases h with ⟨q, hq⟩ | h
    · refine .inl ⟨q, ?_⟩
      simpa [Graph.insertNode, he] using hq
    · exact .inr h

theorem insertEdge_mentions {H : Graph Entity NP EP} {t : Triple Entity} {p : EP} {v : Ulid} (h : (H.insertEdge t p).Mentions v) :
    H.Mentions v ∨ v ∈ ulids (RdfState.parts t) := by
  rw [mem_ulids]
  rcases h with h | ⟨t', q, hq, hv⟩
  · exact .inl (.inl h)
  · by_cases ht : t' = t
    · exact .inr (ht ▸ hv)
    · exact .inl (.inr ⟨t', q, by simpa [Graph.insertEdge, ht] using hq, hv⟩)

theorem change_mentions {es : List Entity} {o : Option (Graph Entity NP EP)} {v : Ulid}
    (ho : ∀ H, o = some H → H.Mentions v → x.Mentions v ∨ v ∈ ulids es) (h : (x.change (E := E) es o).1.Mentions v) :
    x.Mentions v ∨ v ∈ ulids es := by
  cases o with
  | none => exact .inl h
  | some H => exact ho H rfl h

theorem storeNode_mentions {ok : NP → Bool} {e : Entity} {p : NP} {v : Ulid} (H : Graph Entity NP EP)
    (hs : storeNode ok x.graph e p = some H) (h : H.Mentions v) : x.Mentions v ∨ v ∈ ulids [e] := by
  unfold storeNode at hs
  split at hs
  · cases hs
    exact insertNode_mentions h
  · cases hs

theorem storeEdge_mentions {ok : EP → Bool} {t : Triple Entity} {p : EP} {v : Ulid} (H : Graph Entity NP EP)
    (hs : storeEdge ok x.graph t p = some H) (h : H.Mentions v) : x.Mentions v ∨ v ∈ ulids (RdfState.parts t) := by
  unfold storeEdge at hs
  split at hs
  · cases hs
    exact insertEdge_mentions h
  · cases hs

theorem takeIn_mentions {α : Type} {F : RdfState NP EP → α → RdfState NP EP × RdfOutcome E} {N : α → List Entity} {v : Ulid}
    (hF : ∀ x a, (F x a).1.Mentions v → x.Mentions v ∨ v ∈ ulids (N a)) (l : List (Except E α)) (x : RdfState NP EP)
    (h : (RdfState.takeIn F x l).1.Mentions v) : x.Mentions v ∨ v ∈ ulids (itemEntities N l) := by
  induction l generalizing x with
  | nil => exact .inl h
  | cons a l ih =>
    cases a with
    | error e => exact .inl h
    | ok a =>
      have hN : itemEntities N (.ok (ε := E) a :: l) = N a ++ itemEntities N l := rfl
      rw [hN, mem_ulids, List.mem_append, ← mem_ulids, ← mem_ulids]
      unfold RdfState.takeIn at h
      have h1 := hF x a
      split at h
      · next x' e =>
        rw [e] at h1
        rcases ih x' h with h | h
        · rcases h1 h with h | h
          · exact .inl h
          · exact .inr (.inl h)
        · exact .inr (.inr h)
      · rcases h1 h with h | h
        · exact .inl h
        · exact .inr (.inl h)

theorem both_mentions {fN : RdfState NP EP → Entity × NP → RdfState NP EP × RdfOutcome E}
    {fE : RdfState NP EP → Triple Entity × EP → RdfState NP EP × RdfOutcome E} {v : Ulid}
    (hN : ∀ x a, (fN x a).1.Mentions v → x.Mentions v ∨ v ∈ ulids [a.1])
    (hE : ∀ x a, (fE x a).1.Mentions v → x.Mentions v ∨ v ∈ ulids (RdfState.parts a.1)) (src : Source E Entity NP EP)
    (h : (x.both fN fE src).1.Mentions v) : x.Mentions v ∨
      v ∈ ulids (itemEntities (fun x => [x.1]) src.nodes ++ itemEntities (fun x => RdfState.parts x.1) src.edges) := by
  rw [mem_ulids, List.mem_append, ← mem_ulids, ← mem_ulids]
  unfold RdfState.both at h
  have h1 := takeIn_mentions (N := fun x => [x.1]) hN src.nodes x
  split at h
  · next x' e =>
    rw [e] at h1
    rcases takeIn_mentions (N := fun x => RdfState.parts x.1) hE src.edges x' h with h | h
    · rcases h1 h with h | h
      · exact .inl h
      · exact .inr (.inl h)
    · exact .inr (.inr h)
  · rcases h1 h with h | h
    · exact .inl h
    · exact .inr (.inl h)

theorem remove_mentions {es : List Entity} {H : Graph Entity NP EP} {v : Ulid} (hH : H.Mentions v → x.Mentions v)
    (h : (x.remove (E := E) es H).1.Mentions v) : x.Mentions v := by
  unfold RdfState.remove at h
  split at h
  · exact h
  · exact hH h

theorem step_mentions {okN : NP → Bool} {okE : EP → Bool} {mN : NP → NP → NP} {mE : EP → EP → EP} (op : Op E Entity NP EP)
    {v : Ulid} (h : (x.step okN okE mN mE op).1.Mentions v) : x.Mentions v ∨ v ∈ ulids op.entities := by
  cases op with
  | insertNode e p => exact change_mentions (fun H => storeNode_mentions H) h
  | mergeNode e p => exact change_mentions (fun H => storeNode_mentions H) h
  | insertEdge t p => exact change_mentions (fun H => storeEdge_mentions H) h
  | mergeEdge t p => exact change_mentions (fun H => storeEdge_mentions H) h
  | removeNode e =>
    refine .inl (remove_mentions ?_ h)
    rintro (⟨p, hp⟩ | ⟨t, p, hp, hv⟩)
    · simp only [Graph.removeNode] at hp
      split at hp
      · cases hp
      · exact .inl ⟨p, hp⟩
    · simp only [Graph.removeNode] at hp
      split at hp
      · cases hp
      · exact .inr ⟨t, p, hp, hv⟩
  | removeEdge t =>
    refine .inl (remove_mentions ?_ h)
    rintro (⟨p, hp⟩ | ⟨t, p, hp, hv⟩)
    · exact .inl ⟨p, hp⟩
    · simp only [Graph.removeEdge] at hp
      split at hp
      · cases hp
      · exact .inr ⟨t, p, hp, hv⟩
  | extend src =>
    exact both_mentions (fun _ _ h => change_mentions (fun H => storeNode_mentions H) h)
      (fun _ _ h => change_mentions (fun H => storeEdge_mentions H) h) src h
  | merge src =>
    exact both_mentions (fun _ _ h => change_mentions (fun H => storeNode_mentions H) h)
      (fun _ _ h => change_mentions (fun H => storeEdge_mentions H) h) src h

theorem itemEntities_prefix {α : Type} (N : α → List Entity) {l' l : List (Except E α)} (h : l' <+: l) {e : Entity}
    (he : e ∈ itemEntities N l') : e ∈ itemEntities N l := by
  obtain ⟨l'', rfl⟩ := h
  rw [itemEntities, List.flatMap_append, List.mem_append]
  exact .inl he

theorem Cut.mentions {okN : NP → Bool} {okE : EP → Bool} {mN : NP → NP → NP} {mE : EP → EP → EP} {op : Op E Entity NP EP}
    {v : Ulid} (hc : RdfState.Cut okN okE mN mE x y op) (h : y.Mentions v) : x.Mentions v ∨ v ∈ ulids op.entities := by
  rcases hc with rfl | hc
  · exact step_mentions op h
  · have key : ∀ {src' src : Source E Entity NP EP}, Source.CutOff src' src →
        v ∈ ulids (itemEntities (fun x => [x.1]) src'.nodes ++ itemEntities (fun x => RdfState.parts x.1) src'.edges) →
        v ∈ ulids (itemEntities (fun x => [x.1]) src.nodes ++ itemEntities (fun x => RdfState.parts x.1) src.edges) := by
      intro src' src hs hv
      rw [mem_ulids, List.mem_append] at hv ⊢
      exact hv.imp (itemEntities_prefix _ hs.1) (itemEntities_prefix _ hs.2.1)
    cases op with
    | insertNode e p => obtain ⟨es, -, rfl⟩ := hc; exact .inl h
    | mergeNode e p => obtain ⟨es, -, rfl⟩ := hc; exact .inl h
    | insertEdge t p => obtain ⟨es, -, rfl⟩ := hc; exact .inl h
    | mergeEdge t p => obtain ⟨es, -, rfl⟩ := hc; exact .inl h
    | removeNode e => cases hc; exact .inl h
    | removeEdge t => cases hc; exact .inl h
    | extend src =>
      obtain ⟨src', es, h1, -, -, rfl⟩ := hc
      exact (step_mentions (.extend src') h).imp id (key h1)
    | merge src =>
      obtain ⟨src', es, h1, -, -, rfl⟩ := hc
      exact (step_mentions (.merge src') h).imp id (key h1)

end Spec

namespace Prog

variable {S α : Type}

theorem keeps_states {P : S → S → Prop} (hr : ∀ s, P s s) (ht : ∀ a b c, P a b → P b c → P a c) {p : Prog S α} (h : p.Keeps P)
    (s : S) : (∀ x ∈ p.states s, P s x ∧ P x (p.run s).1) ∧ (p.states s).Pairwise P := by
  induction p generalizing s with
  | ret a =>
    refine ⟨fun x hx => ?_, List.pairwise_singleton _ _⟩
    rw [List.mem_singleton.1 hx]
    exact ⟨hr _, hr _⟩
  | call f k ih =>
    obtain ⟨i1, i2⟩ := ih s (h.2 s) (f s)
    refine ⟨fun x hx => ?_, List.Pairwise.cons (fun x hx => ht _ _ _ (h.1 s) (i1 x hx).1) i2⟩
    rcases List.mem_cons.1 hx with rfl | hx
    · exact ⟨hr _, ht _ _ _ (h.1 _) (i1 _ (run_mem_states _ _)).1⟩
    · exact ⟨ht _ _ _ (h.1 s) (i1 x hx).1, (i1 x hx).2⟩

end Prog

namespace RdfSled

variable {NP EP E : Type} {cl : Codec String} {cr : Codec Ulid} {c : Codecs NP EP} {mN : NP → NP → NP} {mE : EP → EP → EP}
  {C : List Ulid} {n k : Nat} {r : Rdf IndexDb (SledStore Ulid)} {x y : RdfState NP EP}

section
variable (hl : cl.RoundTrips) (hr : cr.RoundTrips) (tl : cl.Total) (tr : cr.Total) (hc : c.RoundTrip)
include hl hr tl tr

theorem moments_names (ops : List (Op E Entity NP EP)) (r : Rdf IndexDb (SledStore Ulid)) :
    (∀ d ∈ moments cl cr c mN mE r ops, MoreNames cl cr (dbOf r) d) ∧
    (moments cl cr c mN mE r ops).Pairwise (MoreNames cl cr) := by
  induction ops generalizing r with
  | nil =>
    refine ⟨fun x hx => ?_, List.pairwise_singleton _ _⟩
    rw [List.mem_singleton.1 hx]
    exact .refl _
  | cons op ops ih =>
    obtain ⟨i1, i2⟩ := ih (r.call (SledIndex.impl cl cr) (SledStore.impl c mN mE) op).1
    obtain ⟨j1, j2⟩ := Prog.keeps_states MoreNames.refl (fun _ _ _ h h' => h.trans h')
      (prog_keeps hl hr tl tr (c := c) (mN := mN) (mE := mE) op (idsOf r)) (dbOf r)
    have e := congrArg Prod.fst (matches_call (cl := cl) (cr := cr) (c := c) (mN := mN) (mE := mE) op r)
    rw [e] at j1
    refine ⟨fun d hd => ?_, List.pairwise_append.2 ⟨j2, i2, fun a ha b hb => (j1 a ha).2.trans (i1 b hb)⟩⟩
    rcases List.mem_append.1 hd with hd | hd
    · exact (j1 d hd).1
    · exact ((j1 _ (Prog.run_mem_states _ _)).1.trans (by rw [e]; exact .refl _)).trans (i1 d hd)

include hc in
theorem moments_leaves (ops : List (Op E Entity NP EP)) (hC : ∀ v ∈ explicitUlids ops, v ∈ C) {r : Rdf IndexDb (SledStore Ulid)}
    {x : RdfState NP EP} (h : Is cl cr c C (n + draws ops) (k + creations ops) r x) {d : RdfDb}
    (hd : d ∈ moments cl cr c mN mE r ops) :
    ∃ y, Leaves cl cr c C d y ∧ (∀ v, y.Mentions v → x.Mentions v ∨ v ∈ C) ∧
      (y = (x.stepAll c.okN c.okE mN mE ops).1 ∨ ∃ h1 op h2, ops = h1 ++ op :: h2 ∧
        RdfState.Cut c.okN c.okE mN mE (x.stepAll c.okN c.okE mN mE h1).1 y op) := by
  induction ops generalizing r x with
  | nil =>
    rw [List.mem_singleton.1 hd]
    exact ⟨x, h.leaves, fun _ h => .inl h, .inl rfl⟩
  | cons op ops ih =>
    have hC1 : ∀ v ∈ ulids op.entities, v ∈ C := fun v hv => hC v (by
      rw [explicitUlids, List.flatMap_cons, Rdf.ulids_append]; exact List.mem_append_left _ hv)
    have hC2 : ∀ v ∈ explicitUlids ops, v ∈ C := fun v hv => hC v (by
      rw [explicitUlids, List.flatMap_cons, Rdf.ulids_append]; exact List.mem_append_right _ hv)
    have h' : Is cl cr c C (n + draws ops + op.draws) (k + creations ops + op.creations) r x := by
      have e1 : n + draws ops + op.draws = n + draws (op :: ops) := by simp [draws]; omega
      have e2 : k + creations ops + op.creations = k + creations (op :: ops) := by simp [creations]; omega
      rw [e1, e2]
      exact h
    rcases List.mem_append.1 hd with hd | hd
    · obtain ⟨y, y1, y2⟩ := crash_leaves hl hr tl tr hc op hC1 h' hd
      refine ⟨y, y2, fun v hv => (Cut.mentions y1 hv).imp id (hC1 v), .inr ⟨[], op, ops, rfl, y1⟩⟩
    · obtain ⟨y, y1, y2, y3⟩ := ih hC2 (done_is (mN := mN) (mE := mE) hl hr tl tr hc op hC1 h').1 hd
      refine ⟨y, y1, fun v hv => ?_, ?_⟩
      · rcases y2 v hv with hv | hv
        · exact (step_mentions op hv).imp id (hC1 v)
        · exact .inr hv
      · rcases y3 with rfl | ⟨h1, op', h2, rfl, y4⟩
        · exact .inl rfl
        · exact .inr ⟨op :: h1, op', h2, rfl, y4⟩

omit hl hr tl tr in
theorem shows_fun {ix : BidirIndex I IX String Ulid} {i : I} {f g : String → Option Ulid} (h : ix.Shows i f) (h' : ix.Shows i g) :
    f = g := by
  funext s
  have := h.1 s
  rw [h'.1 s] at this
  exact (Except.ok.inj this).symm

omit hl hr tl tr in
theorem MoreNames.of_shows {a b : RdfDb} (h : MoreNames cl cr a b) {f g : String → Option Ulid}
    (hf : (SledIndex.impl cl cr).Shows a.names f) (hg : (SledIndex.impl cl cr).Shows b.names g) :
    ∀ s u, f s = some u → g s = some u := by
  obtain ⟨g', h1, h2⟩ := h f hf
  rw [shows_fun hg h1]
  exact h2

omit hl hr tl tr in
/-- the names of an earlier moment -/
theorem names_first {a b : RdfDb} (hab : MoreNames cl cr a b) (ha : Leaves cl cr c C a x) (hb : Leaves cl cr c C b y) :
    ∃ z, Leaves cl cr c C { names := a.names, data := b.data } z ∧ z.known = x.known ∧
      ∃ g, (SledIndex.impl cl cr).Shows b.names g ∧ Graph.Relabelled (relabel x.known g) y.graph z.graph := by
  obtain ⟨f, f1, -, f3, f4⟩ := ha
  obtain ⟨g, g1, g2, g3, -⟩ := hb
  have hfg := hab.of_shows f1 g1
  have hk : x.known = fun s => (f s).isSome := funext f3.known
  refine ⟨view f (b.data.graph c), ⟨f, f1, g2, view_agree _ _, f4⟩, hk.symm, g, g1, ?_⟩
  rw [hk]
  exact relabelled g1.inj f1.inj hfg (view_agree _ _) g3

end

/-- the names of a later moment -/
theorem names_last {a b : RdfDb} (hba : MoreNames cl cr b a) (ha : Leaves cl cr c C a x) (hb : Leaves cl cr c C b y)
    (hn : ∀ f g, (SledIndex.impl cl cr).Shows b.names f → (SledIndex.impl cl cr).Shows a.names g →
      ∀ s u, g s = some u → f s = none → ¬ GMentions (b.data.graph c) u) :
    Leaves cl cr c C { names := a.names, data := b.data } { known := x.known, graph := y.graph } := by
  obtain ⟨g, g1, -, g3, g4⟩ := ha
  obtain ⟨f, f1, f2, f3, -⟩ := hb
  have hk : x.known = fun s => (g s).isSome := funext g3.known
  rw [hk]
  exact ⟨g, g1, f2, more_agree (hba.of_shows f1 g1) (hn f g f1 g1) f3, g4⟩

/-- an id that is in use and is no name does not become one -/
theorem Is.claim (h : Is cl cr c C n k r x) {v : Ulid} (hv : x.Mentions v) : Is cl cr c (v :: C) n k r x := by
  obtain ⟨f, G, h⟩ := h
  obtain ⟨h1, h2⟩ := h.agree.mentioned hv
  refine ⟨f, G, h.names, h.graph, h.agree, h.spare, fun w hw => ?_⟩
  rcases List.mem_cons.1 hw with rfl | hw
  · refine ⟨h1, fun j hj e => ?_⟩
    rcases h2 with ⟨p, hp⟩ | ⟨t, p, hp, ht⟩
    · rw [← e, h.spare.nodes j hj] at hp
      cases hp
    · have := h.spare.edges j hj t (by rw [e]; exact ht)
      rw [this] at hp
      cases hp
  · exact h.clean w hw

section
variable (hl : cl.RoundTrips) (hr : cr.RoundTrips) (tl : cl.Total) (tr : cr.Total) (hc : c.RoundTrip)
include hl hr tl tr hc

/-- names that come later are those of ids not in use before -/
theorem later_names (ops : List (Op E Entity NP EP)) (hC : ∀ v ∈ explicitUlids ops, v ∈ C) {r : Rdf IndexDb (SledStore Ulid)}
    (h : Is cl cr c C (n + draws ops) (k + creations ops) r x) {a b : RdfDb} (ha : a ∈ moments cl cr c mN mE r ops)
    (hb : b ∈ moments cl cr c mN mE r ops) (hba : MoreNames cl cr b a) :
    ∀ f g, (SledIndex.impl cl cr).Shows b.names f → (SledIndex.impl cl cr).Shows a.names g →
      ∀ s u, g s = some u → f s = none → ¬ GMentions (b.data.graph c) u := by
  intro f g hf hg s u hs hn hm
  have hfg := hba.of_shows hf hg
  obtain ⟨y, ⟨f', f1, f2, f3, f4⟩, y2, -⟩ := moments_leaves hl hr tl tr hc ops hC h hb
  obtain rfl := shows_fun hf f1
  have hu : ∀ s', f s' ≠ some u := by
    intro s' hs'
    have := hg.inj hs (hfg s' u hs')
    rw [this, hs'] at hn
    cases hn
  rcases y2 u (f3.mentions hu hm) with hx | hx
  · obtain ⟨z, ⟨g', g1, -, -, g4⟩, -⟩ := moments_leaves hl hr tl tr hc ops (fun v hv => List.mem_cons_of_mem _ (hC v hv)) (h.claim hx) ha
    obtain rfl := shows_fun hg g1
    exact g4 u List.mem_cons_self s hs
  · obtain ⟨z, ⟨g', g1, -, -, g4⟩, -⟩ := moments_leaves hl hr tl tr hc ops hC h ha
    obtain rfl := shows_fun hg g1
    exact g4 u hx s hs

omit hc in
theorem moments_more (ops : List (Op E Entity NP EP)) {r : Rdf IndexDb (SledStore Ulid)} {i j : Nat} (hij : i ≤ j) {a b : RdfDb}
    (ha : (moments cl cr c mN mE r ops)[i]? = some a) (hb : (moments cl cr c mN mE r ops)[j]? = some b) : MoreNames cl cr a b := by
  rcases Nat.eq_or_lt_of_le hij with rfl | hij
  · rw [ha] at hb
    cases hb
    exact .refl _
  · obtain ⟨hi, rfl⟩ := List.getElem?_eq_some_iff.1 ha
    obtain ⟨hj, rfl⟩ := List.getElem?_eq_some_iff.1 hb
    exact List.pairwise_iff_getElem.1 (moments_names hl hr tl tr ops r).2 i j hi hj hij

theorem split_leaves (ops : List (Op E Entity NP EP)) (hC : ∀ v ∈ explicitUlids ops, v ∈ C) {r : Rdf IndexDb (SledStore Ulid)}
    (h : Is cl cr c C (n + draws ops) (k + creations ops) r x) {a b : RdfDb} (ha : a ∈ moments cl cr c mN mE r ops)
    (hb : b ∈ moments cl cr c mN mE r ops) : ∃ z, Leaves cl cr c C { names := a.names, data := b.data } z := by
  obtain ⟨xa, a1, -⟩ := moments_leaves hl hr tl tr hc ops hC h ha
  obtain ⟨xb, b1, -⟩ := moments_leaves hl hr tl tr hc ops hC h hb
  obtain ⟨i, hi⟩ := List.mem_iff_getElem?.1 ha
  obtain ⟨j, hj⟩ := List.mem_iff_getElem?.1 hb
  rcases Nat.le_total i j with hij | hij
  · obtain ⟨z, hz, -⟩ := names_first (moments_more hl hr tl tr ops hij hi hj) a1 b1
    exact ⟨z, hz⟩
  · have := moments_more hl hr tl tr ops hij hj hi
    exact ⟨_, names_last this a1 b1 (later_names hl hr tl tr hc ops hC h ha hb this)⟩

theorem SplitReach.is (h : SplitReach cl cr c mN mE E C n k r) : ∃ x, Is cl cr c C n k r x := by
  induction h with
  | new h => exact Reach.is hl hr tl tr hc (.new (mN := mN) (mE := mE) (E := E) h)
  | op op hC h ih =>
    obtain ⟨x, ih⟩ := ih
    exact ⟨_, (done_is hl hr tl tr hc op hC ih).1⟩
  | crash ops hC h ha hb hi ih =>
    obtain ⟨x, ih⟩ := ih
    obtain ⟨z, hz⟩ := split_leaves hl hr tl tr hc ops hC ih ha hb
    exact ⟨z, hz.is hi⟩

omit hl hr tl tr in
/-- what a client sees after opening the database, whatever the ids to come -/
theorem Leaves.opened {d : RdfDb} (h : Leaves cl cr c C d x) (u g : Gen Ulid) :
    (openOn d u g).HoldsState (SledIndex.impl cl cr) (SledStore.impl c mN mE) x := by
  have : Is cl cr c [] 0 0 (openOn d u g) x := by
    obtain ⟨f, a1, a2, a3, -⟩ := h
    refine Leaves.is ⟨f, a1, a2, a3, fun _ h => by cases h⟩ ?_
    exact ⟨fun _ h => by omega, fun _ h => by omega, fun _ h => by omega, fun _ h => by omega, fun _ h => (by cases h),
      fun _ h => by omega, fun _ _ => ⟨fun _ h => by omega, fun _ h => by omega⟩⟩
  exact this.holds hc

end

end RdfSled

end Verif
