import Verif.Spec.Rdf
import Verif.Proof.Index
import Verif.Proof.Lists

/-! # The RDF layer implements a graph over entities -/

set_option linter.unusedSectionVars false

namespace Verif

open Spec

variable {I S Q IX SX QX X NP EP E : Type}

/-! ## names and ids -/

namespace BidirIndex

variable {ix : BidirIndex I IX String Ulid} {i : I} {f : String → Option Ulid}

theorem Shows.inj (h : ix.Shows i f) {a a' : String} {b : Ulid} (h1 : f a = some b) (h2 : f a' = some b) : a = a' := by
  obtain ⟨o, -, ho⟩ := h.2 b
  have e1 := (ho a).2 h1
  have e2 := (ho a').2 h2
  rw [e1] at e2
  exact Option.some.inj e2

theorem Shows.lookupId (h : ix.Shows i f) (u : Ulid) :
    ∃ e, Rdf.lookupId (SX := SX) ix i u = .ok e ∧ Ref f e u := by
  obtain ⟨o, h1, ho⟩ := h.2 u
  unfold Rdf.lookupId
  rw [h1]
  cases o with
  | none => exact ⟨_, rfl, .id (fun s hs => by have := (ho s).2 hs; cases this)⟩
  | some s => exact ⟨_, rfl, .name ((ho s).1 rfl)⟩

end BidirIndex

namespace Spec

variable {f : String → Option Ulid} {G : Graph Ulid NP EP} {x : RdfState NP EP}

theorem Ref.fst {e : Entity} {u u' : Ulid} (h : Ref f e u) (h' : Ref f e u') : u = u' := by
  cases h with
  | name h => cases h' with | name h' => rw [h] at h'; exact Option.some.inj h'
  | id h => cases h' with | id h' => rfl

/-- no id has two names -/
def Inj (f : String → Option Ulid) : Prop := ∀ {a a' : String} {b : Ulid}, f a = some b → f a' = some b → a = a'

theorem Ref.snd (hi : Inj f) {e e' : Entity} {u : Ulid} (h : Ref f e u) (h' : Ref f e' u) : e = e' := by
  cases h with
  | name h => cases h' with
    | name h' => rw [hi h h']
    | id h' => exact absurd h (h' _)
  | id h => cases h' with
    | name h' => exact absurd h' (h _)
    | id h' => rfl

theorem Ref.eq_iff (hi : Inj f) {e e' : Entity} {u u' : Ulid} (h : Ref f e u) (h' : Ref f e' u') : e = e' ↔ u = u' :=
  ⟨fun he => by subst he; exact h.fst h', fun hu => by subst hu; exact h.snd hi h'⟩

/-- a triple of entities and the triple of its ids -/
def RefT (f : String → Option Ulid) (te : Triple Entity) (tu : Triple Ulid) : Prop :=
  Ref f te.sub tu.sub ∧ Ref f te.pred tu.pred ∧ Ref f te.obj tu.obj

theorem RefT.eq_iff (hi : Inj f) {e e' : Triple Entity} {u u' : Triple Ulid} (h : RefT f e u) (h' : RefT f e' u') :
    e = e' ↔ u = u' := by
  have a := h.1.eq_iff hi h'.1
  have b := h.2.1.eq_iff hi h'.2.1
  have c := h.2.2.eq_iff hi h'.2.2
  cases e; cases e'; cases u; cases u'
  simp only [Triple.mk.injEq]
  simp only at a b c
  rw [a, b, c]

namespace Agree

theorem setNode (h : Agree f G x) (hi : Inj f) {e : Entity} {u : Ulid} (hr : Ref f e u) (v : Option NP) :
    Agree f { G with nodes := fun m => if m = u then v else G.nodes m }
      { x with graph := { x.graph with nodes := fun m => if m = e then v else x.graph.nodes m } } where
  known := h.known
  nodes e' u' hr' := by
    have := hr'.eq_iff hi hr
    by_cases he : e' = e
    · simp only [he, this.1 he, if_true]
    · have hu : u' ≠ u := fun hu => he (this.2 hu)
      simp only [he, hu, if_false]
      exact h.nodes _ _ hr'
  edges := h.edges
  noNode e' p hp := by
    by_cases he : e' = e
    · exact ⟨u, he ▸ hr⟩
    · simp only [he, if_false] at hp
      exact h.noNode _ _ hp
  noEdge := h.noEdge

theorem setEdge (h : Agree f G x) (hi : Inj f) {e : Triple Entity} {u : Triple Ulid} (hr : RefT f e u) (v : Option EP) :
    Agree f { G with edges := fun m => if m = u then v else G.edges m }
      { x with graph := { x.graph with edges := fun m => if m = e then v else x.graph.edges m } } where
  known := h.known
  nodes := h.nodes
  edges e' u' h1 h2 h3 := by
    have := RefT.eq_iff hi ⟨h1, h2, h3⟩ hr
    by_cases he : e' = e
    · simp only [he, this.1 he, if_true]
    · have hu : u' ≠ u := fun hu => he (this.2 hu)
      simp only [he, hu, if_false]
      exact h.edges _ _ h1 h2 h3
  noNode := h.noNode
  noEdge e' p hp := by
    by_cases he : e' = e
    · subst he; exact ⟨⟨_, hr.1⟩, ⟨_, hr.2.1⟩, ⟨_, hr.2.2⟩⟩
    · simp only [he, if_false] at hp
      exact h.noEdge _ _ hp

theorem removeNode (h : Agree f G x) (hi : Inj f) {e : Entity} {u : Ulid} (hr : Ref f e u) :
    Agree f (G.removeNode u) { x with graph := x.graph.removeNode e } where
  known := h.known
  nodes := (h.setNode hi hr none).nodes
  edges e' u' h1 h2 h3 := by
    simp only [Graph.removeNode, h1.eq_iff hi hr, h3.eq_iff hi hr, h.edges _ _ h1 h2 h3]
  noNode := (h.setNode hi hr none).noNode
  noEdge e' p hp := by
    simp only [Graph.removeNode] at hp
    split at hp
    · cases hp
    · exact h.noEdge _ _ hp

/-- nothing to learn -/
theorem learn (h : Agree f G x) {es : List Entity} (hs : ∀ s, Entity.string s ∈ es → (f s).isSome) :
    Agree f G (x.learn es) where
  known s := by
    simp only [RdfState.learn, h.known]
    by_cases hm : Entity.string s ∈ es
    · simp [hm, hs s hm]
    · simp [hm]
  nodes := h.nodes
  edges := h.edges
  noNode := h.noNode
  noEdge := h.noEdge

end Agree

theorem Spare.mono {k : Nat} {u : Gen Ulid} (h : Spare (k + 1) u f G) : Spare k u f G where
  fresh i hi j hj := h.fresh i (by omega) j (by omega)
  names j hj := h.names j (by omega)
  nodes j hj := h.nodes j (by omega)
  edges j hj := h.edges j (by omega)

theorem Clean.mono {k : Nat} {u : Gen Ulid} {l : List Ulid} (h : Clean (k + 1) u f l) : Clean k u f l :=
  fun v hv => ⟨(h v hv).1, fun j hj => (h v hv).2 j (by omega)⟩

end Spec

/-! ## the invariant -/

namespace Rdf

variable {ix : BidirIndex I IX String Ulid} {st : StoreImpl S SX Ulid NP EP}
  {okN : NP → Bool} {okE : EP → Bool} {bad : SX} {mN : NP → NP → NP} {mE : EP → EP → EP}
  {Ok : Nat → S → Graph Ulid NP EP → Prop} {C : List Ulid}

/-- `r` holds the graph of `x`; it can take `n` edges and create `k` ids. -/
structure Inv (ix : BidirIndex I IX String Ulid) (Ok : Nat → S → Graph Ulid NP EP → Prop) (C : List Ulid) (n k : Nat)
    (r : Rdf I S) (f : String → Option Ulid) (G : Graph Ulid NP EP) (x : RdfState NP EP) : Prop where
  names : ix.Shows r.nameIndex f
  graph : Ok n r.graph G
  agree : Agree f G x
  spare : Spare k r.ulid f G
  clean : Clean k r.ulid f C

variable {n k : Nat} {r : Rdf I S} {f : String → Option Ulid} {G : Graph Ulid NP EP} {x : RdfState NP EP}

theorem Inv.inj (h : Inv ix Ok C n k r f G x) : Inj f := h.names.inj

/-- explicit ULIDs in `e` are among `C` -/
def In (C : List Ulid) (e : Entity) : Prop := ∀ u, e = .ulid u → u ∈ C

theorem Inv.ne (h : Inv ix Ok C n k r f G x) {e : Entity} {u : Ulid} (he : In C e) (hr : Ref f e u) :
    ∀ j < k, r.ulid j ≠ u := by
  intro j hj hu
  cases hr with
  | name hs => exact h.spare.names j hj _ (hu ▸ hs)
  | id _ => exact (h.clean u (he u rfl)).2 j hj hu

theorem Inv.fewerIds (h : Inv ix Ok C n (k + 1) r f G x) : Inv ix Ok C n k r f G x :=
  ⟨h.names, h.graph, h.agree, h.spare.mono, h.clean.mono⟩

theorem Inv.fewerIds' {m : Nat} (h : Inv ix Ok C n (k + m) r f G x) : Inv ix Ok C n k r f G x := by
  induction m with
  | zero => exact h
  | succ m ih => exact ih (h.fewerIds)

theorem Inv.fewer' (law : StoreLaw st okN okE bad mN mE Ok) {m : Nat} (h : Inv ix Ok C (n + m) k r f G x) :
    Inv ix Ok C n k r f G x := by
  induction m with
  | zero => exact h
  | succ m ih => exact ih ⟨h.names, law.fewer h.graph, h.agree, h.spare, h.clean⟩

/-- giving the name `s` to the next id -/
theorem Inv.create (h : Inv ix Ok C n (k + 1) r f G x) {s : String} (hs : f s = none) {i : I}
    (hi : ix.Shows i (fun a => if a = s then some (r.ulid 0) else f a)) :
    Inv ix Ok C n k { r with ulid := fun j => r.ulid (j + 1), nameIndex := i }
      (fun a => if a = s then some (r.ulid 0) else f a) G (x.learn [.string s]) := by
  have old : ∀ e u, Ref (fun a => if a = s then some (r.ulid 0) else f a) e u →
      e = .string s ∧ u = r.ulid 0 ∨ Ref f e u := by
    intro e u hr
    cases hr with
    | @name a _ ha =>
      by_cases e : a = s
      · simp only [e, if_true, Option.some.injEq] at ha; exact .inl ⟨by rw [e], ha.symm⟩
      · simp only [e, if_false] at ha; exact .inr (.name ha)
    | id hu =>
      refine .inr (.id (fun a ha => ?_))
      by_cases e : a = s
      · subst e; rw [hs] at ha; cases ha
      · exact hu a (by simp only [e, if_false]; exact ha)
  have new : ∀ e u, Ref f e u → u ≠ r.ulid 0 → Ref (fun a => if a = s then some (r.ulid 0) else f a) e u := by
    intro e u hr hu
    cases hr with
    | @name a _ ha =>
      have e : a ≠ s := fun e => by rw [e, hs] at ha; cases ha
      exact .name (by simp only [e, if_false]; exact ha)
    | id hn =>
      refine .id (fun a ha => ?_)
      by_cases e : a = s
      · simp only [e, if_true, Option.some.injEq] at ha; exact hu ha.symm
      · simp only [e, if_false] at ha; exact hn a ha
  have nos : ∀ u, ¬ Ref f (.string s) u := fun u hr => by
    cases hr with | name ha => rw [hs] at ha; cases ha
  have h0 : 0 < k + 1 := Nat.succ_pos k
  refine ⟨hi, h.graph, ⟨?_, ?_, ?_, ?_, ?_⟩, ⟨?_, ?_, ?_, ?_⟩, ?_⟩
  · intro a
    simp only [RdfState.learn, h.agree.known, List.mem_singleton, Entity.string.injEq]
    by_cases e : a = s <;> simp [e]
  · intro e u hr
    rcases old e u hr with ⟨rfl, rfl⟩ | hr
    · rw [h.spare.nodes 0 h0]
      cases hx : (x.learn [.string s]).graph.nodes (.string s) with
      | none => rfl
      | some p => obtain ⟨u, hu⟩ := h.agree.noNode _ _ hx; exact absurd hu (nos u)
    · exact h.agree.nodes e u hr
  · intro te tu h1 h2 h3
    by_cases hn : te.sub = .string s ∧ tu.sub = r.ulid 0 ∨ te.pred = .string s ∧ tu.pred = r.ulid 0 ∨
        te.obj = .string s ∧ tu.obj = r.ulid 0
    · rw [h.spare.edges 0 h0 tu (by rcases hn with h | h | h <;> simp [h.2])]
      cases hx : (x.learn [.string s]).graph.edges te with
      | none => rfl
      | some p =>
        obtain ⟨⟨_, h1⟩, ⟨_, h2⟩, ⟨_, h3⟩⟩ := h.agree.noEdge _ _ hx
        rcases hn with hn | hn | hn
        · rw [hn.1] at h1; exact absurd h1 (nos _)
        · rw [hn.1] at h2; exact absurd h2 (nos _)
        · rw [hn.1] at h3; exact absurd h3 (nos _)
    · push Not at hn
      refine h.agree.edges te tu ?_ ?_ ?_
      · rcases old _ _ h1 with ⟨a, b⟩ | h
        · exact absurd b (hn.1 a)
        · exact h
      · rcases old _ _ h2 with ⟨a, b⟩ | h
        · exact absurd b (hn.2.1 a)
        · exact h
      · rcases old _ _ h3 with ⟨a, b⟩ | h
        · exact absurd b (hn.2.2 a)
        · exact h
  · intro e p hp
    obtain ⟨u, hu⟩ := h.agree.noNode e p hp
    refine ⟨u, new e u hu (fun he => ?_)⟩
    have := h.agree.nodes e u hu
    rw [he, h.spare.nodes 0 h0] at this
    rw [show x.graph.nodes e = some p from hp] at this
    cases this
  · intro t p hp
    obtain ⟨⟨a, ha⟩, ⟨b, hb⟩, ⟨c, hc⟩⟩ := h.agree.noEdge t p hp
    have key : ¬ (a = r.ulid 0 ∨ b = r.ulid 0 ∨ c = r.ulid 0) := fun he => by
      have := h.agree.edges t ⟨a, b, c⟩ ha hb hc
      rw [h.spare.edges 0 h0 ⟨a, b, c⟩ he, show x.graph.edges t = some p from hp] at this
      cases this
    push Not at key
    exact ⟨⟨a, new _ _ ha key.1⟩, ⟨b, new _ _ hb key.2.1⟩, ⟨c, new _ _ hc key.2.2⟩⟩
  · intro i hi j hj he
    have := h.spare.fresh (i + 1) (by omega) (j + 1) (by omega) he
    omega
  · intro j hj a ha
    by_cases e : a = s
    · simp only [e, if_true, Option.some.injEq] at ha
      have := h.spare.fresh 0 h0 (j + 1) (by omega) ha
      omega
    · simp only [e, if_false] at ha
      exact h.spare.names (j + 1) (by omega) a ha
  · intro j hj; exact h.spare.nodes (j + 1) (by omega)
  · intro j hj; exact h.spare.edges (j + 1) (by omega)
  · intro v hv
    refine ⟨fun a ha => ?_, fun j hj => (h.clean v hv).2 (j + 1) (by omega)⟩
    by_cases e : a = s
    · simp only [e, if_true, Option.some.injEq] at ha
      exact (h.clean v hv).2 0 h0 ha
    · simp only [e, if_false] at ha
      exact (h.clean v hv).1 a ha

theorem create_entity (hix : ix.Lawful) (h : Inv ix Ok C n (k + 1) r f G x) {e : Entity} (he : In C e) :
    ∃ r' f' u, r.lookupOrCreateEntity (SX := SX) ix e = (r', .ok u) ∧ Inv ix Ok C n k r' f' G (x.learn [e]) ∧
      Ref f' e u ∧ ∀ e' u', In C e' → Ref f e' u' → Ref f' e' u' := by
  cases e with
  | ulid v =>
    refine ⟨r, f, v, rfl, ?_, .id (h.clean v (he v rfl)).1, fun _ _ _ h => h⟩
    have := h.fewerIds
    exact ⟨this.names, this.graph, this.agree.learn (fun s hs => by simp at hs), this.spare, this.clean⟩
  | string s =>
    unfold lookupOrCreateEntity
    dsimp only
    rw [h.names.1 s]
    cases hs : f s with
    | some v =>
      refine ⟨r, f, v, rfl, ?_, .name hs, fun _ _ _ h => h⟩
      have := h.fewerIds
      refine ⟨this.names, this.graph, this.agree.learn (fun a ha => ?_), this.spare, this.clean⟩
      simp only [List.mem_singleton, Entity.string.injEq] at ha
      rw [ha, hs]; rfl
    | none =>
      obtain ⟨i, h1, h2⟩ := hix _ _ s (r.ulid 0) h.names hs (h.spare.names 0 (Nat.succ_pos k))
      refine ⟨_, _, r.ulid 0, ?_, h.create hs h2, .name (by simp), fun e' u' he' hr => ?_⟩
      · simp only [Gen.fresh, h1]
      · cases hr with
        | @name a _ ha =>
          have e : a ≠ s := fun e => by rw [e, hs] at ha; cases ha
          exact .name (by simp only [e, if_false]; exact ha)
        | id hn =>
          refine .id (fun a ha => ?_)
          by_cases e : a = s
          · simp only [e, if_true, Option.some.injEq] at ha
            exact (h.clean u' (he' u' rfl)).2 0 (Nat.succ_pos k) ha
          · simp only [e, if_false] at ha; exact hn a ha

/-- explicit ULIDs in `t` are among `C` -/
def InT (C : List Ulid) (t : Triple Entity) : Prop := In C t.sub ∧ In C t.pred ∧ In C t.obj

theorem create_triple (hix : ix.Lawful) (h : Inv ix Ok C n (k + 3) r f G x) {t : Triple Entity} (ht : InT C t) :
    ∃ r' f' u, r.createTriple (SX := SX) ix t = (r', .ok u) ∧ Inv ix Ok C n k r' f' G (x.learn (RdfState.parts t)) ∧
      RefT f' t u := by
  obtain ⟨r1, f1, s, e1, i1, h1, m1⟩ := create_entity (SX := SX) hix h ht.1
  obtain ⟨r2, f2, p, e2, i2, h2, m2⟩ := create_entity (SX := SX) hix i1 ht.2.1
  obtain ⟨r3, f3, o, e3, i3, h3, m3⟩ := create_entity (SX := SX) hix i2 ht.2.2
  refine ⟨r3, f3, ⟨s, p, o⟩, ?_, ?_, m3 _ _ ht.1 (m2 _ _ ht.1 h1), m3 _ _ ht.2.1 h2, h3⟩
  · unfold createTriple
    rw [e1]; dsimp only
    rw [e2]; dsimp only
    rw [e3]
  · have : ((x.learn [t.sub]).learn [t.pred]).learn [t.obj] = x.learn (RdfState.parts t) := by
      simp only [RdfState.learn, RdfState.parts, List.mem_cons, List.not_mem_nil, or_false, Bool.decide_or,
        Bool.or_assoc]
    rw [← this]; exact i3

/-! ## the operations -/

theorem onGraph_ok {res : S × Except SX Unit} (h : res.2 = .ok ()) :
    r.onGraph (IX := IX) res = ({ r with graph := res.1 }, .ok ()) := by
  obtain ⟨s, e⟩ := res; cases h; rfl

theorem onGraph_error {res : S × Except SX Unit} (h : res.2 = .error bad) :
    r.onGraph (IX := IX) res = ({ r with graph := res.1 }, .error (.graph bad)) := by
  obtain ⟨s, e⟩ := res; cases h; rfl

/-- the store did to its graph what the specification does to the graph over entities -/
def Done (ix : BidirIndex I IX String Ulid) (Ok : Nat → S → Graph Ulid NP EP → Prop) (C : List Ulid) (bad : SX) (n k : Nat)
    (res : Rdf I S × Except (LR (RdfErr IX SX) E) Unit) (y : RdfState NP EP × RdfOutcome E) : Prop :=
  (∃ f G, Inv ix Ok C n k res.1 f G y.1) ∧ res.2 = y.2.result bad

theorem node_done (h : Inv ix Ok C n k r f G x) {e : Entity} {u : Ulid} (he : In C e) (hr : Ref f e u) (v : NP)
    {res : S × Except SX Unit} (hd : Did (Ok n) bad G (storeNode okN G u v) res) {es : List Entity}
    {y : RdfState NP EP} (hy : y.learn es = x) :
    Done (E := E) ix Ok C bad n k ((r.onGraph (IX := IX) res).1, tag (r.onGraph (IX := IX) res).2)
      (y.change es (storeNode okN x.graph e v)) := by
  subst hy
  unfold storeNode at hd ⊢
  cases ho : okN v with
  | true =>
    rw [ho] at hd
    obtain ⟨h1, h2⟩ := hd
    rw [onGraph_ok h1]
    refine ⟨⟨f, _, h.names, h2, h.agree.setNode h.inj hr (some v), ?_, h.clean⟩, rfl⟩
    refine ⟨h.spare.fresh, h.spare.names, fun j hj => ?_, h.spare.edges⟩
    simp only [Graph.insertNode, h.ne he hr j hj, if_false]
    exact h.spare.nodes j hj
  | false =>
    rw [ho] at hd
    obtain ⟨h1, h2⟩ := hd
    rw [onGraph_error h1]
    exact ⟨⟨f, G, h.names, h2, h.agree, h.spare, h.clean⟩, rfl⟩

theorem Inv.neT (h : Inv ix Ok C n k r f G x) {e : Triple Entity} {u : Triple Ulid} (he : InT C e) (hr : RefT f e u)
    {j : Nat} (hj : j < k) {t : Triple Ulid} (ht : t.sub = r.ulid j ∨ t.pred = r.ulid j ∨ t.obj = r.ulid j) : t ≠ u := by
  rintro rfl
  rcases ht with ht | ht | ht
  · exact h.ne he.1 hr.1 j hj ht.symm
  · exact h.ne he.2.1 hr.2.1 j hj ht.symm
  · exact h.ne he.2.2 hr.2.2 j hj ht.symm

theorem edge_done {m : Nat} (h : Inv ix Ok C m k r f G x) {e : Triple Entity} {u : Triple Ulid} (he : InT C e) (hr : RefT f e u) (v : EP)
    {res : S × Except SX Unit} (hd : Did (Ok n) bad G (storeEdge okE G u v) res) {es : List Entity}
    {y : RdfState NP EP} (hy : y.learn es = x) :
    Done (E := E) ix Ok C bad n k ((r.onGraph (IX := IX) res).1, tag (r.onGraph (IX := IX) res).2)
      (y.change es (storeEdge okE x.graph e v)) := by
  subst hy
  unfold storeEdge at hd ⊢
  cases ho : okE v with
  | true =>
    rw [ho] at hd
    obtain ⟨h1, h2⟩ := hd
    rw [onGraph_ok h1]
    refine ⟨⟨f, _, h.names, h2, h.agree.setEdge h.inj hr (some v), ?_, h.clean⟩, rfl⟩
    refine ⟨h.spare.fresh, h.spare.names, h.spare.nodes, fun j hj t ht => ?_⟩
    simp only [Graph.insertEdge, h.neT he hr hj ht, if_false]
    exact h.spare.edges j hj t ht
  | false =>
    rw [ho] at hd
    obtain ⟨h1, h2⟩ := hd
    rw [onGraph_error h1]
    exact ⟨⟨f, G, h.names, h2, h.agree, h.spare, h.clean⟩, rfl⟩

theorem done_insertNode (hix : ix.Lawful) (law : StoreLaw st okN okE bad mN mE Ok)
    (h : Inv ix Ok C n (k + 1) r f G x) {e : Entity} (he : In C e) (p : NP) :
    Done (E := E) ix Ok C bad n k ((r.insertNode ix st e p).1, tag (r.insertNode ix st e p).2)
      (x.change [e] (storeNode okN x.graph e p)) := by
  obtain ⟨r', f', u, e1, i1, h1, -⟩ := create_entity (SX := SX) hix h he
  unfold insertNode
  rw [e1]
  exact node_done i1 he h1 p (law.insertNode i1.graph u p) rfl

theorem done_mergeNode (hix : ix.Lawful) (law : StoreLaw st okN okE bad mN mE Ok)
    (h : Inv ix Ok C n (k + 1) r f G x) {e : Entity} (he : In C e) (p : NP) :
    Done (E := E) ix Ok C bad n k ((r.mergeNode ix st e p).1, tag (r.mergeNode ix st e p).2)
      (x.change [e] (storeMergedNode okN mN x.graph e p)) := by
  obtain ⟨r', f', u, e1, i1, h1, -⟩ := create_entity (SX := SX) hix h he
  unfold mergeNode
  rw [e1]
  have ea : x.graph.nodes e = G.nodes u := i1.agree.nodes e u h1
  unfold storeMergedNode
  rw [ea]
  exact node_done i1 he h1 _ (law.mergeNode i1.graph u p) rfl

theorem done_insertEdge (hix : ix.Lawful) (law : StoreLaw st okN okE bad mN mE Ok)
    (h : Inv ix Ok C (n + 1) (k + 3) r f G x) {t : Triple Entity} (ht : InT C t) (p : EP) :
    Done (E := E) ix Ok C bad n k ((r.insertEdge ix st t p).1, tag (r.insertEdge ix st t p).2)
      (x.change (RdfState.parts t) (storeEdge okE x.graph t p)) := by
  obtain ⟨r', f', u, e1, i1, h1⟩ := create_triple (SX := SX) hix h ht
  unfold insertEdge
  rw [e1]
  exact edge_done i1 ht h1 p (law.insertEdge i1.graph u p) rfl

theorem done_mergeEdge (hix : ix.Lawful) (law : StoreLaw st okN okE bad mN mE Ok)
    (h : Inv ix Ok C (n + 1) (k + 3) r f G x) {t : Triple Entity} (ht : InT C t) (p : EP) :
    Done (E := E) ix Ok C bad n k ((r.mergeEdge ix st t p).1, tag (r.mergeEdge ix st t p).2)
      (x.change (RdfState.parts t) (storeMergedEdge okE mE x.graph t p)) := by
  obtain ⟨r', f', u, e1, i1, h1⟩ := create_triple (SX := SX) hix h ht
  unfold mergeEdge
  rw [e1]
  have ea : x.graph.edges t = G.edges u := i1.agree.edges t u h1.1 h1.2.1 h1.2.2
  unfold storeMergedEdge
  rw [ea]
  exact edge_done i1 ht h1 _ (law.mergeEdge i1.graph u p) rfl

/-! ## look-ups -/

/-- the id of an entity, or its name if that is unknown -/
theorem lookupEntity_eq (hn : ix.Shows r.nameIndex f) (e : Entity) :
    r.lookupEntity (SX := SX) ix e = match e with
      | .ulid u => .ok u
      | .string s => match f s with | some u => .ok u | none => .error (.nameNotFound s) := by
  cases e with
  | ulid u => rfl
  | string s =>
    unfold lookupEntity
    dsimp only
    rw [hn.1 s]
    cases f s <;> rfl

theorem lookup_known (h : Inv ix Ok C n k r f G x) {e : Entity} (he : In C e) {es : List Entity} :
    (∃ u, r.lookupEntity (SX := SX) ix e = .ok u ∧ Ref f e u ∧ x.unknown (e :: es) = x.unknown es) ∨
    ∃ s, r.lookupEntity (SX := SX) ix e = .error (.nameNotFound s) ∧ x.unknown (e :: es) = some s := by
  rw [lookupEntity_eq h.names]
  cases e with
  | ulid u => exact .inl ⟨u, rfl, .id (h.clean u (he u rfl)).1, rfl⟩
  | string s =>
    dsimp only
    simp only [RdfState.unknown, h.agree.known]
    cases hs : f s with
    | none => exact .inr ⟨s, rfl, rfl⟩
    | some u => exact .inl ⟨u, rfl, .name hs, rfl⟩

theorem lookup_triple (h : Inv ix Ok C n k r f G x) {t : Triple Entity} (ht : InT C t) :
    (∃ u, t.tryMap (fun e => r.lookupEntity (SX := SX) ix e) = .ok u ∧ RefT f t u ∧
      x.unknown (RdfState.parts t) = none) ∨
    ∃ s, t.tryMap (fun e => r.lookupEntity (SX := SX) ix e) = .error (.nameNotFound s) ∧
      x.unknown (RdfState.parts t) = some s := by
  unfold Triple.tryMap RdfState.parts
  dsimp only
  rcases lookup_known (SX := SX) h ht.1 (es := [t.pred, t.obj]) with ⟨a, e1, h1, u1⟩ | ⟨s, e1, u1⟩
  · rcases lookup_known (SX := SX) h ht.2.1 (es := [t.obj]) with ⟨b, e2, h2, u2⟩ | ⟨s, e2, u2⟩
    · rcases lookup_known (SX := SX) h ht.2.2 (es := []) with ⟨c, e3, h3, u3⟩ | ⟨s, e3, u3⟩
      · exact .inl ⟨⟨a, b, c⟩, by rw [e1, e2, e3], ⟨h1, h2, h3⟩, by rw [u1, u2, u3]; rfl⟩
      · exact .inr ⟨s, by rw [e1, e2, e3], by rw [u1, u2, u3]⟩
    · exact .inr ⟨s, by rw [e1, e2], by rw [u1, u2]⟩
  · exact .inr ⟨s, by rw [e1], u1⟩

theorem done_removeNode (law : StoreLaw st okN okE bad mN mE Ok)
    (h : Inv ix Ok C n k r f G x) {e : Entity} (he : In C e) :
    Done (E := E) ix Ok C bad n k ((r.removeNode ix st e).1, tag (r.removeNode ix st e).2)
      (x.remove [e] (x.graph.removeNode e)) := by
  unfold removeNode RdfState.remove
  rcases lookup_known (SX := SX) h he (es := []) with ⟨u, e1, hr, u1⟩ | ⟨s, e1, u1⟩
  · rw [e1, u1]
    dsimp only [RdfState.unknown]
    obtain ⟨h1, h2⟩ := law.removeNode h.graph u
    rw [onGraph_ok h1]
    refine ⟨⟨f, _, h.names, h2, h.agree.removeNode h.inj hr, ?_, h.clean⟩, rfl⟩
    refine ⟨h.spare.fresh, h.spare.names, fun j hj => ?_, fun j hj t ht => ?_⟩
    · simp only [Graph.removeNode, h.spare.nodes j hj, ite_self]
    · simp only [Graph.removeNode, h.spare.edges j hj t ht, ite_self]
  · rw [e1, u1]
    exact ⟨⟨f, G, h⟩, rfl⟩

theorem done_removeEdge (law : StoreLaw st okN okE bad mN mE Ok)
    (h : Inv ix Ok C n k r f G x) {t : Triple Entity} (ht : InT C t) :
    Done (E := E) ix Ok C bad n k ((r.removeEdge ix st t).1, tag (r.removeEdge ix st t).2)
      (x.remove (RdfState.parts t) (x.graph.removeEdge t)) := by
  unfold removeEdge RdfState.remove
  rcases lookup_triple (SX := SX) h ht with ⟨u, e1, hr, u1⟩ | ⟨s, e1, u1⟩
  · rw [e1, u1]
    dsimp only
    obtain ⟨h1, h2⟩ := law.removeEdge h.graph u
    rw [onGraph_ok h1]
    refine ⟨⟨f, _, h.names, h2, h.agree.setEdge h.inj hr none, ?_, h.clean⟩, rfl⟩
    refine ⟨h.spare.fresh, h.spare.names, h.spare.nodes, fun j hj t ht => ?_⟩
    simp only [Graph.removeEdge, h.spare.edges j hj t ht, ite_self]
  · rw [e1, u1]
    exact ⟨⟨f, G, h⟩, rfl⟩

/-! ## the loops -/

theorem done_absorb (law : StoreLaw st okN okE bad mN mE Ok) {α : Type} {d c : Nat}
    {F : Rdf I S → α → Rdf I S × Except (RdfErr IX SX) Unit} {Y : RdfState NP EP → α → RdfState NP EP × RdfOutcome E}
    {good : α → Prop}
    (hF : ∀ {n k r f G x}, Inv ix Ok C (n + d) (k + c) r f G x → ∀ a, good a →
      Done (E := E) ix Ok C bad n k ((F r a).1, tag (F r a).2) (Y x a))
    (l : List (Except E α)) (hl : ∀ a, .ok a ∈ l → good a) {n k : Nat} {r : Rdf I S} {x : RdfState NP EP}
    (h : ∃ f G, Inv ix Ok C (n + d * l.length) (k + c * l.length) r f G x) :
    Done ix Ok C bad n k (absorb F r l) (RdfState.takeIn Y x l) := by
  induction l generalizing r x with
  | nil => exact ⟨h, rfl⟩
  | cons a l ih =>
    obtain ⟨f, G, h⟩ := h
    cases a with
    | error e => exact ⟨⟨f, G, (h.fewerIds').fewer' law⟩, rfl⟩
    | ok a =>
      rw [List.length_cons, Nat.mul_succ, Nat.mul_succ, ← Nat.add_assoc, ← Nat.add_assoc] at h
      obtain ⟨⟨f', G', h1⟩, h2⟩ := hF h a (hl a (by simp))
      unfold absorb RdfState.takeIn
      cases hy : Y x a with
      | mk x' o =>
        rw [hy] at h1 h2
        cases hf : F r a with
        | mk r' res =>
          rw [hf] at h1 h2
          cases o with
          | done =>
            cases res with
            | error e => cases h2
            | ok u => exact ih (fun b hb => hl b (List.mem_cons_of_mem _ hb)) ⟨f', G', h1⟩
          | unserializable =>
            cases res with
            | ok u => cases h2
            | error e => exact ⟨⟨f', G', (h1.fewerIds').fewer' law⟩, h2⟩
          | unknown s =>
            cases res with
            | ok u => cases h2
            | error e => exact ⟨⟨f', G', (h1.fewerIds').fewer' law⟩, h2⟩
          | source s =>
            cases res with
            | ok u => cases h2
            | error e => exact ⟨⟨f', G', (h1.fewerIds').fewer' law⟩, h2⟩

/-- nodes, then edges -/
theorem done_both (law : StoreLaw st okN okE bad mN mE Ok)
    {FN : Rdf I S → Entity × NP → Rdf I S × Except (RdfErr IX SX) Unit}
    {FE : Rdf I S → Triple Entity × EP → Rdf I S × Except (RdfErr IX SX) Unit}
    {YN : RdfState NP EP → Entity × NP → RdfState NP EP × RdfOutcome E}
    {YE : RdfState NP EP → Triple Entity × EP → RdfState NP EP × RdfOutcome E}
    (hN : ∀ {n k r f G x}, Inv ix Ok C (n + 0) (k + 1) r f G x → ∀ a, In C a.1 →
      Done (E := E) ix Ok C bad n k ((FN r a).1, tag (FN r a).2) (YN x a))
    (hE : ∀ {n k r f G x}, Inv ix Ok C (n + 1) (k + 3) r f G x → ∀ a, InT C a.1 →
      Done (E := E) ix Ok C bad n k ((FE r a).1, tag (FE r a).2) (YE x a))
    (src : Source E Entity NP EP) (hsN : ∀ a, .ok a ∈ src.nodes → In C a.1) (hsE : ∀ a, .ok a ∈ src.edges → InT C a.1)
    (h : Inv ix Ok C (n + src.edges.length) (k + (src.nodes.length + 3 * src.edges.length)) r f G x) :
    Done ix Ok C bad n k
      (match absorb FN r src.nodes with
        | (r, .error e) => (r, .error e)
        | (r, .ok ()) => absorb FE r src.edges)
      (x.both YN YE src) := by
  have h' : Inv ix Ok C (n + src.edges.length + 0 * src.nodes.length)
      (k + 3 * src.edges.length + 1 * src.nodes.length) r f G x := by
    rw [Nat.zero_mul, Nat.add_zero, Nat.one_mul, show k + 3 * src.edges.length + src.nodes.length =
      k + (src.nodes.length + 3 * src.edges.length) by omega]
    exact h
  obtain ⟨⟨f1, G1, h1⟩, h2⟩ := done_absorb law hN src.nodes hsN ⟨f, G, h'⟩
  unfold RdfState.both
  cases hy : RdfState.takeIn YN x src.nodes with
  | mk x' o =>
    rw [hy] at h1 h2
    cases hf : absorb FN r src.nodes with
    | mk r' res =>
      rw [hf] at h1 h2
      have hstop : Inv ix Ok C n k r' f1 G1 x' := (h1.fewerIds').fewer' law
      cases o with
      | done =>
        cases res with
        | error e => cases h2
        | ok u =>
          refine done_absorb law hE src.edges hsE ⟨f1, G1, ?_⟩
          rw [Nat.one_mul]; exact h1
      | unserializable =>
        cases res with
        | ok u => cases h2
        | error e => exact ⟨⟨f1, G1, hstop⟩, h2⟩
      | unknown s =>
        cases res with
        | ok u => cases h2
        | error e => exact ⟨⟨f1, G1, hstop⟩, h2⟩
      | source s =>
        cases res with
        | ok u => cases h2
        | error e => exact ⟨⟨f1, G1, hstop⟩, h2⟩

/-! ## histories -/

theorem in_of_ulids {es : List Entity} (h : ∀ u ∈ ulids es, u ∈ C) {e : Entity} (he : e ∈ es) : In C e := by
  rintro u rfl
  refine h u ?_
  induction es with
  | nil => cases he
  | cons a es ih =>
    rcases List.mem_cons.1 he with rfl | he'
    · simp [ulids]
    · cases a with
      | string s => exact ih h he'
      | ulid v =>
        simp only [ulids, List.mem_cons]
        exact .inr (ih (fun u hu => h u (by simp [ulids, hu])) he')

theorem inT_of_ulids {es : List Entity} (h : ∀ u ∈ ulids es, u ∈ C) {t : Triple Entity}
    (ht : ∀ e ∈ RdfState.parts t, e ∈ es) : InT C t :=
  ⟨in_of_ulids h (ht _ (by simp [RdfState.parts])), in_of_ulids h (ht _ (by simp [RdfState.parts])),
    in_of_ulids h (ht _ (by simp [RdfState.parts]))⟩

theorem mem_itemEntities {α : Type} {F : α → List Entity} {l : List (Except E α)} {a : α} (ha : .ok a ∈ l) {e : Entity}
    (he : e ∈ F a) : e ∈ itemEntities F l :=
  List.mem_flatMap.2 ⟨_, ha, he⟩

theorem done_call (hix : ix.Lawful) (law : StoreLaw st okN okE bad mN mE Ok) (op : Op E Entity NP EP)
    (hC : ∀ u ∈ ulids op.entities, u ∈ C) (h : Inv ix Ok C (n + op.draws) (k + op.creations) r f G x) :
    Done ix Ok C bad n k (r.call ix st op) (x.step okN okE mN mE op) := by
  cases op with
  | insertNode e p => exact done_insertNode hix law h (in_of_ulids hC (by simp [Op.entities])) p
  | insertEdge t p => exact done_insertEdge hix law h (inT_of_ulids hC (by simp [Op.entities])) p
  | removeNode e => exact done_removeNode law h (in_of_ulids hC (by simp [Op.entities]))
  | removeEdge t => exact done_removeEdge law h (inT_of_ulids hC (by simp [Op.entities]))
  | mergeNode e p => exact done_mergeNode hix law h (in_of_ulids hC (by simp [Op.entities])) p
  | mergeEdge t p => exact done_mergeEdge hix law h (inT_of_ulids hC (by simp [Op.entities])) p
  | extend src =>
    refine done_both law (fun h a ha => done_insertNode hix law h ha a.2)
      (fun h a ha => done_insertEdge hix law h ha a.2) src (fun a ha => ?_) (fun a ha => ?_) h
    · exact in_of_ulids hC (List.mem_append_left _ (mem_itemEntities ha (by simp)))
    · exact inT_of_ulids hC (fun e he => List.mem_append_right _ (mem_itemEntities ha he))
  | merge src =>
    refine done_both law (fun h a ha => done_mergeNode hix law h ha a.2)
      (fun h a ha => done_mergeEdge hix law h ha a.2) src (fun a ha => ?_) (fun a ha => ?_) h
    · exact in_of_ulids hC (List.mem_append_left _ (mem_itemEntities ha (by simp)))
    · exact inT_of_ulids hC (fun e he => List.mem_append_right _ (mem_itemEntities ha he))

theorem ulids_append (l l' : List Entity) : ulids (l ++ l') = ulids l ++ ulids l' := by
  induction l with
  | nil => rfl
  | cons a l ih => cases a <;> simp [ulids, ih]

theorem done_callAll (hix : ix.Lawful) (law : StoreLaw st okN okE bad mN mE Ok) (h : List (Op E Entity NP EP))
    (hC : ∀ u ∈ explicitUlids h, u ∈ C) (hi : ∃ f G, Inv ix Ok C (n + draws h) (k + creations h) r f G x) :
    (∃ f G, Inv ix Ok C n k (r.callAll ix st h).1 f G (x.stepAll okN okE mN mE h).1) ∧
    (r.callAll ix st h).2 = (x.stepAll okN okE mN mE h).2.map (RdfOutcome.result bad) := by
  induction h generalizing r x with
  | nil => exact ⟨hi, rfl⟩
  | cons op h ih =>
    obtain ⟨f, G, hi⟩ := hi
    have hC1 : ∀ u ∈ ulids op.entities, u ∈ C := fun u hu => hC u (by
      unfold explicitUlids; rw [List.flatMap_cons, ulids_append]; exact List.mem_append_left _ hu)
    have hC2 : ∀ u ∈ explicitUlids h, u ∈ C := fun u hu => hC u (by
      unfold explicitUlids; rw [List.flatMap_cons, ulids_append]; exact List.mem_append_right _ hu)
    have hd : Inv ix Ok C (n + draws h + op.draws) (k + creations h + op.creations) r f G x := by
      have e1 : draws (op :: h) = op.draws + draws h := by simp [draws]
      have e2 : creations (op :: h) = op.creations + creations h := by simp [creations]
      rw [e1, e2] at hi
      rw [show n + draws h + op.draws = n + (op.draws + draws h) by omega,
        show k + creations h + op.creations = k + (op.creations + creations h) by omega]
      exact hi
    obtain ⟨h1, h2⟩ := done_call hix law op hC1 hd
    obtain ⟨h3, h4⟩ := ih hC2 h1
    exact ⟨h3, by
      show _ :: _ = List.map _ (_ :: _)
      rw [List.map_cons, h2, h4]⟩

/-! ## iteration -/

/-- the entity of each id -/
theorem decoder (hn : ix.Shows r.nameIndex f) : ∃ dec : Ulid → Entity,
    (∀ u, lookupId (SX := SX) ix r.nameIndex u = .ok (dec u)) ∧ ∀ u, Ref f (dec u) u := by
  choose dec h using fun u => hn.lookupId (SX := SX) u
  exact ⟨dec, fun u => (h u).1, fun u => (h u).2⟩

variable {dec : Ulid → Entity}

theorem dec_inj (hd : ∀ u, Ref f (dec u) u) {u v : Ulid} (h : dec u = dec v) : u = v := by
  have := hd u; rw [h] at this; exact this.fst (hd v)

theorem dec_ref (hi : Inj f) (hd : ∀ u, Ref f (dec u) u) {e : Entity} {u : Ulid} (h : Ref f e u) : dec u = e :=
  (hd u).snd hi h

theorem tmap_inj (hd : ∀ u, Ref f (dec u) u) {t t' : Triple Ulid} (h : t.map dec = t'.map dec) : t = t' := by
  cases t; cases t'
  simp only [Triple.map, Triple.mk.injEq] at h
  rw [dec_inj hd h.1, dec_inj hd h.2.1, dec_inj hd h.2.2]

theorem vertexItem_ok {i : I} (h : ∀ u, lookupId (SX := SX) ix i u = .ok (dec u)) (a : Ulid × NP) :
    vertexItem (SX := SX) ix i (.ok a) = .ok (dec a.1, a.2) := by
  unfold vertexItem
  dsimp only
  rw [h]

theorem tryMap_ok {i : I} (h : ∀ u, lookupId (SX := SX) ix i u = .ok (dec u)) (t : Triple Ulid) :
    t.tryMap (fun u => lookupId (SX := SX) ix i u) = .ok (t.map dec) := by
  unfold Triple.tryMap
  simp only [h]
  rfl

theorem edgeItem_ok {i : I} (h : ∀ u, lookupId (SX := SX) ix i u = .ok (dec u)) (a : Triple Ulid × EP) :
    edgeItem (SX := SX) ix i (.ok a) = .ok (a.1.map dec, a.2) := by
  unfold edgeItem
  dsimp only
  rw [tryMap_ok h]

theorem propsItem_ok {i : I} (h : ∀ u, lookupId (SX := SX) ix i u = .ok (dec u)) (a : PropsTriple Ulid NP EP) :
    propsItem (SX := SX) ix i (.ok a) =
      .ok { sub := (dec a.sub.1, a.sub.2), pred := (dec a.pred.1, a.pred.2), obj := (dec a.obj.1, a.obj.2) } := by
  unfold propsItem
  simp only [h]

theorem nodes_decode (hi : Inj f) (ha : Agree f G x) (hd : ∀ u, Ref f (dec u) u) (e : Entity) (p : NP) :
    x.graph.nodes e = some p ↔ ∃ u, dec u = e ∧ G.nodes u = some p := by
  constructor
  · intro h
    obtain ⟨u, hu⟩ := ha.noNode e p h
    exact ⟨u, dec_ref hi hd hu, by rw [← ha.nodes e u hu, h]⟩
  · rintro ⟨u, rfl, h⟩
    rw [ha.nodes _ u (hd u), h]

theorem edges_decode (hi : Inj f) (ha : Agree f G x) (hd : ∀ u, Ref f (dec u) u) (t : Triple Entity) (p : EP) :
    x.graph.edges t = some p ↔ ∃ u : Triple Ulid, u.map dec = t ∧ G.edges u = some p := by
  constructor
  · intro h
    obtain ⟨⟨a, h1⟩, ⟨b, h2⟩, ⟨c, h3⟩⟩ := ha.noEdge t p h
    refine ⟨⟨a, b, c⟩, ?_, by rw [← ha.edges t ⟨a, b, c⟩ h1 h2 h3, h]⟩
    simp only [Triple.map, dec_ref hi hd h1, dec_ref hi hd h2, dec_ref hi hd h3]
  · rintro ⟨u, rfl, h⟩
    rw [ha.edges _ u (hd _) (hd _) (hd _), h]

/-- reading a sorted list of ids as entities -/
theorem represents (hn : ix.Shows r.nameIndex f) (ha : Agree f G x) {o : Obs SX Ulid NP EP} (h : Spec.Shows o G)
    (ord : EdgeOrder) : Represents (E := RdfErr IX SX)
      { nodes := o.vertices.map (vertexItem ix r.nameIndex), edges := (o.edges ord).map (edgeItem ix r.nameIndex) }
      x.graph := by
  obtain ⟨dec, h1, hd⟩ := decoder (SX := SX) hn
  have hi : Inj f := hn.inj
  constructor
  · obtain ⟨l, e, hl⟩ := h.1
    refine ⟨l.map (fun a => (dec a.1, a.2)), ?_, ?_, ?_⟩
    · simp only [e, List.map_map]
      exact List.map_congr_left (fun a _ => vertexItem_ok h1 a)
    · rw [List.map_map, List.Nodup, List.pairwise_map]
      exact hl.1.imp (fun {a b} hab he => by
        have := dec_inj hd he
        rw [this] at hab; exact lt_irrefl _ hab)
    · intro e p
      rw [nodes_decode hi ha hd, List.mem_map]
      constructor
      · rintro ⟨a, ha, h⟩; cases h; exact ⟨a.1, rfl, (hl.2 _ _).1 ha⟩
      · rintro ⟨u, rfl, h⟩; exact ⟨(u, p), (hl.2 _ _).2 h, rfl⟩
  · obtain ⟨l, e, hl⟩ := h.2 ord
    refine ⟨l.map (fun a => (a.1.map dec, a.2)), ?_, ?_, ?_⟩
    · simp only [e, List.map_map]
      exact List.map_congr_left (fun a _ => edgeItem_ok h1 a)
    · rw [List.map_map, List.Nodup, List.pairwise_map]
      exact hl.1.imp (fun {a b} hab he => by
        have := tmap_inj hd he
        rw [this] at hab; exact edgeLT_irrefl _ _ hab)
    · intro e p
      rw [edges_decode hi ha hd, List.mem_map]
      constructor
      · rintro ⟨a, ha, h⟩; cases h; exact ⟨a.1, rfl, (hl.2 _ _).1 ha⟩
      · rintro ⟨u, rfl, h⟩; exact ⟨(u, p), (hl.2 _ _).2 h, rfl⟩

theorem showsProps (hn : ix.Shows r.nameIndex f) (ha : Agree f G x) {l : List (Except SX (PropsTriple Ulid NP EP))}
    (h : ShowsProps l G) : ShowsProps (l.map (propsItem (IX := IX) ix r.nameIndex)) x.graph := by
  obtain ⟨dec, h1, hd⟩ := decoder (SX := SX) hn
  have hi : Inj f := hn.inj
  have key : ∀ (a : Except SX (PropsTriple Ulid NP EP)) y, propsItem (IX := IX) ix r.nameIndex a = .ok y → ∃ z : PropsTriple Ulid NP EP, a = .ok z ∧
      y = { sub := (dec z.sub.1, z.sub.2), pred := (dec z.pred.1, z.pred.2), obj := (dec z.obj.1, z.obj.2) } := by
    intro a y hy
    cases a with
    | error e => cases hy
    | ok z => rw [propsItem_ok h1] at hy; cases hy; exact ⟨z, rfl, rfl⟩
  have conv : ∀ z : PropsTriple Ulid NP EP, (x.graph.nodes (dec z.sub.1) = some z.sub.2 ∧
      x.graph.edges (z.toTriple.map dec) = some z.pred.2 ∧ x.graph.nodes (dec z.obj.1) = some z.obj.2) ↔
      (G.nodes z.sub.1 = some z.sub.2 ∧ G.edges z.toTriple = some z.pred.2 ∧ G.nodes z.obj.1 = some z.obj.2) := by
    intro z
    rw [ha.nodes _ _ (hd _), ha.nodes _ _ (hd _), ha.edges _ z.toTriple (hd _) (hd _) (hd _)]
  refine ⟨?_, fun y => ?_, fun hno e he => ?_⟩
  · rw [List.pairwise_map]
    refine h.once.imp (fun {a b} hab y y' hy hy' he => ?_)
    obtain ⟨z, rfl, rfl⟩ := key _ _ hy
    obtain ⟨z', rfl, rfl⟩ := key _ _ hy'
    exact hab z z' rfl rfl (tmap_inj hd (t := z.toTriple) (t' := z'.toTriple) he)
  · rw [List.mem_map]
    constructor
    · rintro ⟨a, hm, hy⟩
      obtain ⟨z, rfl, rfl⟩ := key _ _ hy
      exact (conv z).2 ((h.mem z).1 hm)
    · rintro ⟨e1, e2, e3⟩
      obtain ⟨t, ht, e2'⟩ := (edges_decode hi ha hd _ _).1 e2
      obtain ⟨⟨a, pa⟩, ⟨b, pb⟩, ⟨c, pc⟩⟩ := y
      cases ht
      refine ⟨.ok ⟨(t.sub, pa), (t.pred, pb), (t.obj, pc)⟩, (h.mem _).2 ((conv _).1 ⟨e1, e2, e3⟩), ?_⟩
      rw [propsItem_ok h1]
  · obtain ⟨a, hm, hy⟩ := List.mem_map.1 he
    cases a with
    | ok z => rw [propsItem_ok h1] at hy; cases hy
    | error e' =>
      refine h.noError (fun t p ht => ?_) e' hm
      have := hno (t.map dec) p (by rw [ha.edges _ t (hd _) (hd _) (hd _), ht])
      simp only [Triple.map] at this
      rw [ha.nodes _ _ (hd _), ha.nodes _ _ (hd _)] at this
      exact this

theorem collect_ok' {α : Type} (l : List α) : Sled.collect (X := X) (l.map .ok) = .ok l := by
  induction l with
  | nil => rfl
  | cons a l ih => simp only [List.map_cons, Sled.collect, ih]

theorem shows_of (law : StoreLaw st okN okE bad mN mE Ok) (hn : ix.Shows r.nameIndex f) (hg : Ok n r.graph G)
    (ha : Agree f G x) : Shows ix st r x.graph := by
  have hs := law.shows hg
  have rep := fun o => represents hn ha hs o
  refine ⟨fun o => ?_, rep, fun o => ?_, fun o => ?_, fun o => showsProps hn ha (law.props hg o), fun o => ?_, ?_⟩
  · unfold iterNodes
    rw [law.iterNodes hg]; exact rep o
  · unfold intoIterNodes
    rw [law.intoIterNodes hg]; exact rep o
  · unfold intoIterVertices intoIterEdges
    rw [law.intoIterVertices hg, law.intoIterEdges hg]; exact rep o
  · unfold intoIterEdgesWithProps
    rw [law.intoProps hg]
    exact showsProps hn ha (law.props hg o)
  · obtain ⟨l, h1, h2⟩ := law.vertices hg
    obtain ⟨dec, hd1, hd⟩ := decoder (SX := SX) hn
    obtain ⟨l', e, hl⟩ := hs.1
    dsimp only at e
    have hl' : l = l'.map Prod.fst := by
      rw [e, List.map_map] at h2
      have := congrArg (Sled.collect (X := SX)) h2
      rw [collect_ok', show l'.map (Except.map Prod.fst ∘ Except.ok) = (l'.map Prod.fst).map (Except.ok (ε := SX)) by
        rw [List.map_map]; rfl, collect_ok'] at this
      exact (Except.ok.inj this).symm
    refine ⟨l.map dec, ?_, ?_, fun e => ?_⟩
    · unfold vertices
      rw [h1]
      dsimp only
      rw [show l.map (fun id => lookupId (SX := SX) ix r.nameIndex id) = (l.map dec).map .ok by
        rw [List.map_map]; exact List.map_congr_left (fun u _ => hd1 u), collect_ok']
    · rw [hl', List.map_map, List.Nodup, List.pairwise_map]
      exact hl.1.imp (fun {a b} hab he => by
        have := dec_inj hd he
        rw [this] at hab; exact lt_irrefl _ hab)
    · rw [Option.isSome_iff_exists, List.mem_map]
      constructor
      · rintro ⟨u, hu, rfl⟩
        rw [hl', List.mem_map] at hu
        obtain ⟨a, ha', rfl⟩ := hu
        exact ⟨a.2, (nodes_decode hn.inj ha hd _ _).2 ⟨a.1, rfl, (hl.2 _ _).1 ha'⟩⟩
      · rintro ⟨p, hp⟩
        obtain ⟨u, rfl, hu⟩ := (nodes_decode hn.inj ha hd _ _).1 hp
        exact ⟨u, by rw [hl']; exact List.mem_map.2 ⟨_, (hl.2 _ _).2 hu, rfl⟩, rfl⟩

end Rdf

end Verif
