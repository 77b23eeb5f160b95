import Verif.Proof.RdfWorld
import Verif.Proof.RdfSelf
import Verif.Props.Rdf

/-! # Programs with many RDF stores: each command does what it should -/

set_option linter.unusedSectionVars false

namespace Verif

open Spec ConcreteId

variable {E NP EP : Type} {cl : Codec String} {cr : Codec Ulid} {c : Codecs NP EP} {mN : NP → NP → NP} {mE : EP → EP → EP}

namespace RdfWorld

open World (add)

/-- the names and the graph over ids belong to `x`, and `m` names can be created -/
structure StateOk (K : List Ulid) (m : Nat) (names : Gen Ulid) (f : String → Option Ulid) (G : Graph Ulid NP EP) (x : RdfState NP EP) :
    Prop where
  agree : Agree f G x
  spare : Spare m names f G
  clean : Clean m names f K
  tame : Tame K x.graph

theorem StateOk.advance {K : List Ulid} {m d : Nat} {names names' : Gen Ulid} {f : String → Option Ulid} {G : Graph Ulid NP EP}
    {x : RdfState NP EP} (h : StateOk K (m + d) names f G x) (ha : Gen.Adv d names names') : StateOk K m names' f G x where
  agree := h.agree
  tame := h.tame
  spare :=
    { fresh := ha.distinct h.spare.fresh
      names := fun j hj s => by obtain ⟨i, hi, e⟩ := ha.get hj; rw [e]; exact h.spare.names i hi s
      nodes := fun j hj => by obtain ⟨i, hi, e⟩ := ha.get hj; rw [e]; exact h.spare.nodes i hi
      edges := fun j hj t => by obtain ⟨i, hi, e⟩ := ha.get hj; rw [e]; exact h.spare.edges i hi t }
  clean := fun v hv => ⟨(h.clean v hv).1, fun j hj => by obtain ⟨i, hi, e⟩ := ha.get hj; rw [e]; exact (h.clean v hv).2 i hi⟩

/-- what a variable holds is as it should be -/
inductive VarOk (uses : Nat → Nat → Prop) (K : List Ulid) (C : Costs) (gens : Nat → Gen Ulid) (names : Gen Ulid) :
    Option (RdfHeld NP EP) → Option (RdfPlace NP EP) → Prop
  | none : VarOk uses K C gens names none none
  | mem {k : Nat} {i : MemIndex String Ulid} {s : Mem Ulid NP EP} {f : String → Option Ulid} {G : Graph Ulid NP EP} {x : RdfState NP EP}
      (hi : MemIndex.impl.Shows i f) (hs : Mem.Ok (C.1 k) { s with gen := gens k } G) (hx : StateOk K C.2 names f G x) :
      VarOk uses K C gens names (some (.mem k i s)) (some (.own x))
  | sled {k b : Nat} (h : uses b k) : VarOk uses K C gens names (some (.sled k b)) (some (.on b))

structure DbOk (cl : Codec String) (cr : Codec Ulid) (c : Codecs NP EP) (U : Nat → Prop) (K : List Ulid) (C : Costs)
    (gens : Nat → Gen Ulid) (names : Gen Ulid) (d : RdfDb) (f : String → Option Ulid) (G : Graph Ulid NP EP) (x : RdfState NP EP) :
    Prop where
  index : (SledIndex.impl cl cr).Shows d.names f
  inv : d.data.Inv Ulid c
  graph : d.data.graph c = G
  gen : ∀ k, U k → ∀ i < C.1 k, ∀ t : Triple Ulid, d.data.idIn .SPO t ≠ some (toBeBytes (gens k i)).1
  state : StateOk K C.2 names f G x

structure Ok (cl : Codec String) (cr : Codec Ulid) (c : Codecs NP EP) (uses : Nat → Nat → Prop) (K : List Ulid) (C : Costs)
    (W : RdfWorld NP EP) (S : Spec.RdfWorld NP EP) : Prop where
  apart : RdfApart uses K C W.gens W.names
  dbs : ∀ b, ∃ f G, DbOk cl cr c (uses b) K C W.gens W.names (W.dbs b) f G (S.dbs b)
  vars : ∀ v, VarOk uses K C W.gens W.names (W.vars v) (S.vars v)

variable {uses : Nat → Nat → Prop} {K : List Ulid} {C D : Costs} {W : RdfWorld NP EP} {S : Spec.RdfWorld NP EP}

/-- ids are drawn -/
theorem Ok.advance (h : Ok cl cr c uses K (add C D) W S) {gens : Nat → Gen Ulid} {names : Gen Ulid}
    (hg : ∀ k, Gen.Adv (D.1 k) (W.gens k) (gens k)) (hu : Gen.Adv D.2 W.names names) :
    Ok cl cr c uses K C { W with gens := gens, names := names } S where
  apart :=
    { gen := fun k => (hg k).distinct (h.apart.gen k)
      name := hu.distinct h.apart.name
      cross := fun b k k' hk hk' i hi j hj e => by
        obtain ⟨i', hi', e1⟩ := (hg k).get hi
        obtain ⟨j', hj', e2⟩ := (hg k').get hj
        exact h.apart.cross b k k' hk hk' i' hi' j' hj' (by rw [← e1, ← e2]; exact e)
      explicit := fun u hu' j hj => by
        obtain ⟨j', hj', e2⟩ := hu.get hj
        show names j ≠ u
        rw [e2]
        exact h.apart.explicit u hu' j' hj' }
  dbs b := by
    obtain ⟨f, G, hd⟩ := h.dbs b
    refine ⟨f, G, hd.index, hd.inv, hd.graph, fun k hk i hi t => ?_, hd.state.advance hu⟩
    obtain ⟨i', hi', e1⟩ := (hg k).get hi
    show _ ≠ some (toBeBytes (gens k i)).1
    rw [e1]
    exact hd.gen k hk i' hi' t
  vars v := by
    show VarOk uses K C gens names (W.vars v) (S.vars v)
    have := h.vars v
    generalize W.vars v = a at this ⊢
    generalize S.vars v = b at this ⊢
    cases this with
    | none => exact .none
    | mem h1 h2 h3 => exact .mem h1 (h2.advance (hg _)) (h3.advance hu)
    | sled h1 => exact .sled h1

theorem Ok.mono (h : Ok cl cr c uses K (add C D) W S) : Ok cl cr c uses K C W S :=
  h.advance (fun _ => .refl _ _) (.refl _ _)

theorem Ok.setVar (h : Ok cl cr c uses K C W S) (v : Nat) {a : Option (RdfHeld NP EP)} {p : Option (RdfPlace NP EP)}
    (hv : VarOk uses K C W.gens W.names a p) : Ok cl cr c uses K C (W.setVar v a) (S.setVar v p) where
  apart := h.apart
  dbs := h.dbs
  vars w := by
    show VarOk uses K C W.gens W.names (Function.update W.vars v a w) (Function.update S.vars v p w)
    by_cases hw : w = v
    · subst hw; rw [Function.update_self, Function.update_self]; exact hv
    · rw [Function.update_of_ne hw, Function.update_of_ne hw]; exact h.vars w

/-- a new in-memory store, or a new state of one -/
theorem Ok.putMem {k n m : Nat} (h : Ok cl cr c uses K (add C ((costs k n).1, m)) W S) (v : Nat)
    {r : Rdf (MemIndex String Ulid) (Mem Ulid NP EP)} {f : String → Option Ulid} {G : Graph Ulid NP EP} {x : RdfState NP EP}
    (hi : MemIndex.impl.Shows r.nameIndex f) (hs : Mem.Ok (C.1 k) r.graph G) (hx : StateOk K C.2 r.ulid f G x)
    (ha : Gen.Adv n (W.gens k) r.graph.gen) (hu : Gen.Adv m W.names r.ulid) :
    Ok cl cr c uses K C (W.putMem v k r) (S.setVar v (some (.own x))) := by
  have h1 := h.advance (gens := Function.update W.gens k r.graph.gen) (names := r.ulid) (fun k' => by
    by_cases e : k' = k
    · subst e; rw [Function.update_self]; exact ha.mono (by simp [costs])
    · rw [Function.update_of_ne e]; exact .refl _ _) hu
  refine h1.setVar v (.mem hi ?_ hx)
  show Mem.Ok (C.1 k) { r.graph with gen := Function.update W.gens k r.graph.gen k } G
  rw [Function.update_self]
  exact hs

theorem Ok.setDb {W' : RdfWorld NP EP} {b : Nat} (h : Ok cl cr c uses K C W' S) {d : RdfDb} {f : String → Option Ulid}
    {G : Graph Ulid NP EP} {x : RdfState NP EP} (hd : DbOk cl cr c (uses b) K C W'.gens W'.names d f G x) :
    Ok cl cr c uses K C { W' with dbs := Function.update W'.dbs b d } { S with dbs := Function.update S.dbs b x } where
  apart := h.apart
  vars := h.vars
  dbs b' := by
    show ∃ f G, DbOk cl cr c (uses b') K C W'.gens W'.names (Function.update W'.dbs b d b') f G (Function.update S.dbs b x b')
    by_cases e : b' = b
    · subst e; rw [Function.update_self, Function.update_self]; exact ⟨f, G, hd⟩
    · rw [Function.update_of_ne e, Function.update_of_ne e]; exact h.dbs b'

theorem Ok.store {k n m : Nat} (h : Ok cl cr c uses K (add C ((costs k n).1, m)) W S) {b : Nat} (hk : uses b k)
    {f : String → Option Ulid} {G : Graph Ulid NP EP} {x : RdfState NP EP}
    (hd : DbOk cl cr c (uses b) K (add C ((costs k n).1, m)) W.gens W.names (W.dbs b) f G x) :
    SledStore.Ok c (C.1 k + n) 0 (World.Others uses C W.gens b k) (W.sledStore k b).graph G := by
  have e1 : (add C ((costs k n).1, m)).1 k = C.1 k + n := by simp [add, costs]
  have e3 : ∀ k' i, i < C.1 k' → i < (add C ((costs k n).1, m)).1 k' := fun k' i hi => by simp only [add]; omega
  have hg := h.apart.gen k
  rw [e1] at hg
  constructor
  · exact hd.inv
  · exact hd.graph
  · exact ⟨hg, fun i hi => absurd hi (by omega), fun i hi j hj => absurd hj (by omega)⟩
  · exact fun i hi => hd.gen k hk i (by rw [e1]; exact hi)
  · exact fun j hj => absurd hj (by omega)
  · rintro v ⟨k', -, hk', i, hi, rfl⟩
    exact hd.gen k' hk' i (e3 _ _ hi)
  · rintro i hi ⟨k', hne, hk', j, hj, e⟩
    exact hne (h.apart.cross b k k' hk hk' i (by rw [e1]; exact hi) j (e3 _ _ hj) (World.toBe_inj e)).symm
  · exact fun j hj => absurd hj (by omega)

theorem Ok.none_iff (h : Ok cl cr c uses K C W S) (v : Nat) : W.vars v = none ↔ S.vars v = none := by
  have := h.vars v
  generalize W.vars v = a at this ⊢
  generalize S.vars v = b at this ⊢
  cases this <;> simp

theorem Ok.tame (h : Ok cl cr c uses K C W S) {v : Nat} {p : RdfPlace NP EP} (hS : S.vars v = some p) : Tame K (S.state p).graph := by
  have hv := h.vars v
  rw [hS] at hv
  generalize W.vars v = a at hv
  cases hv with
  | mem _ _ h3 => exact h3.tame
  | @sled k b _ =>
    obtain ⟨f, G, hd⟩ := h.dbs b
    exact hd.state.tame

theorem ofCall_result {IX SX : Type} (bad : SX) (o : RdfOutcome E) : RdfRes.ofCall (IX := IX) (o.result bad) = o.res := by
  cases o <;> rfl

theorem Ok.call (hl : cl.RoundTrips) (hr : cr.RoundTrips) (tl : cl.Total) (tr : cr.Total) (hc : c.RoundTrip) (ht : c.Total) {v : Nat}
    {op : Op E Entity NP EP} (hK : ∀ u ∈ ulids op.entities, u ∈ K)
    (h : Ok cl cr c uses K (add C (rdfCosts W v op.draws op.creations)) W S) :
    Ok cl cr c uses K C (W.call cl cr c mN mE v op).1 (S.step mN mE (.call v op)).1 ∧
      (W.call cl cr c mN mE v op).2 = (S.step mN mE (.call v op)).2 := by
  have hv := h.vars v
  unfold RdfWorld.call Spec.RdfWorld.step
  simp only
  cases hW : W.vars v with
  | none =>
    rw [(h.none_iff v).1 hW]
    exact ⟨h.mono, rfl⟩
  | some held =>
    rw [hW] at hv
    cases hS : S.vars v with
    | none => rw [hS] at hv; cases hv
    | some p =>
      rw [hS] at hv
      cases hv with
      | @mem k i s f G x hi hs hx =>
        have e : rdfCosts W v op.draws op.creations = ((costs k op.draws).1, op.creations) := by simp only [rdfCosts, hW, genOf]
        rw [e] at h hs hx
        have e1 : (add C ((costs k op.draws).1, op.creations)).1 k = C.1 k + op.draws := by simp [add, costs]
        rw [e1] at hs
        have hd := Rdf.done_call (ix := MemIndex.impl) MemIndex.lawful (Mem.lawLeft mN mE (W.gens k) (C.1 k + op.draws)) op hK
          (n := C.1 k) (k := C.2) (r := W.memStore k i s) (f := f) (G := G) (x := x)
          ⟨hi, ⟨hs, ⟨0, by omega, by funext i; simp [memStore]⟩⟩, hx.agree, hx.spare, hx.clean⟩
        have ha := Rdf.call_adv (ix := MemIndex.impl) (st := Mem.impl mN mE) (W.memStore k i s) op
        obtain ⟨⟨f', G', hinv⟩, hres⟩ := hd
        refine ⟨?_, ?_⟩
        · exact h.putMem v hinv.names hinv.graph.1 ⟨hinv.agree, hinv.spare, hinv.clean, tame_step hx.tame hK⟩ hinv.graph.2.drawn ha
        · show RdfRes.ofCall _ = _
          rw [hres, ofCall_result]
          rfl
      | @sled k b hk =>
        have e : rdfCosts W v op.draws op.creations = ((costs k op.draws).1, op.creations) := by simp only [rdfCosts, hW, genOf]
        rw [e] at h
        obtain ⟨f, G, hdb⟩ := h.dbs b
        have hs := h.store hk hdb
        have hx := hdb.state
        have oN : c.okN = fun _ => true := funext ht.1
        have oE : c.okE = fun _ => true := funext ht.2
        have hd := Rdf.done_call (SledIndex.lawful hl hr tl tr)
          (SledStore.lawLeft hc (World.Others uses C W.gens b k) mN mE (W.gens k) (C.1 k + op.draws) 0) op hK
          (n := C.1 k) (k := C.2) (r := W.sledStore k b) (f := f) (G := G) (x := S.dbs b)
          ⟨hdb.index, ⟨hs, ⟨0, by omega, by funext i; simp [sledStore]⟩⟩, hx.agree, hx.spare, hx.clean⟩
        rw [oN, oE] at hd
        have ha := Rdf.call_adv (ix := SledIndex.impl cl cr) (st := SledStore.impl c mN mE) (W.sledStore k b) op
        obtain ⟨⟨f', G', hinv⟩, hres⟩ := hd
        generalize hrr : (W.sledStore k b).call (SledIndex.impl cl cr) (SledStore.impl c mN mE) op = r at hinv hres ha
        have a1 : Gen.Adv op.draws (W.gens k) r.1.graph.gen := hinv.graph.2.drawn
        have h1 := h.advance (gens := Function.update W.gens k r.1.graph.gen) (names := r.1.ulid) (fun k' => by
          by_cases e : k' = k
          · subst e; rw [Function.update_self]; exact a1.mono (by simp [costs])
          · rw [Function.update_of_ne e]; exact .refl _ _) ha
        have h2 := h1.setDb (b := b) (d := ⟨r.1.nameIndex, r.1.graph.db⟩) (f := f') (G := G')
          (x := ((S.dbs b).step (fun _ => true) (fun _ => true) mN mE op).1)
          ⟨hinv.names, hinv.graph.1.inv, hinv.graph.1.graph, ?_, ⟨hinv.agree, hinv.spare, hinv.clean, tame_step hx.tame hK⟩⟩
        · subst hrr
          refine ⟨h2, ?_⟩
          show RdfRes.ofCall _ = _
          rw [hres, ofCall_result]
          rfl
        · intro k' hk' i hi t
          show _ ≠ some (toBeBytes (Function.update W.gens k r.1.graph.gen k' i)).1
          by_cases e : k' = k
          · subst e; rw [Function.update_self]; exact hinv.graph.1.gUnused i hi t
          · rw [Function.update_of_ne e]
            exact hinv.graph.1.fUnused _ ⟨k', e, hk', i, hi, rfl⟩ t

/-- a store on a database can be read even if no ids are left -/
theorem DbOk.read {U : Nat → Prop} {b k : Nat} {f : String → Option Ulid} {G : Graph Ulid NP EP} {x : RdfState NP EP}
    (hd : DbOk cl cr c U K C W.gens W.names (W.dbs b) f G x) : SledStore.Ok c 0 0 (fun _ => False) (W.sledStore k b).graph G where
  inv := hd.inv
  graph := hd.graph
  fresh := ⟨fun i hi => absurd hi (by omega), fun i hi => absurd hi (by omega), fun i hi => absurd hi (by omega)⟩
  gUnused := fun i hi => absurd hi (by omega)
  uUnused := fun i hi => absurd hi (by omega)
  fUnused := fun _ h => h.elim
  gF := fun i hi => absurd hi (by omega)
  uF := fun i hi => absurd hi (by omega)

/-- what a store shows to others -/
theorem Ok.source (hc : c.RoundTrip) (h : Ok cl cr c uses K C W S) {w : Nat} {x : RdfHeld NP EP} {q : RdfPlace NP EP}
    (hx : W.vars w = some x) (hq : S.vars w = some q) {α : Type} (f : {F : Type} → Source F Entity NP EP → α) (P : α → Prop)
    (hP : ∀ (F : Type) (src : Source F Entity NP EP), Represents src (S.state q).graph →
      (src.nodes.length, src.edges.length) = sizes cl cr c mN mE W w → P (f src)) :
    P (W.withSource cl cr c mN mE f x) := by
  have hv := h.vars w
  rw [hx, hq] at hv
  cases hv with
  | @mem k i s f G x hi hs hst =>
    refine hP _ _ ?_ ?_
    · exact (Rdf.shows_of (r := W.memStore k i s) (Mem.law mN mE) hi hs hst.agree).intoIterNodes .SPO
    · simp only [sizes, hx, withSource]
  | @sled k b hk =>
    obtain ⟨f, G, hd⟩ := h.dbs b
    refine hP _ _ ?_ ?_
    · exact (Rdf.shows_of (r := W.sledStore k b) (SledStore.lawF (fun _ => False) hc mN mE) hd.index hd.read hd.state.agree).intoIterNodes .SPO
    · simp only [sizes, hx, withSource]

theorem feed_none {v w : Nat} {f : Graph Entity NP EP → Graph Entity NP EP → Graph Entity NP EP} (hS : S.vars w = none) :
    (S.feed v w f : _ × RdfRes E) = (S, .noStore) := by
  simp only [Spec.RdfWorld.feed, hS]

theorem call_none {v : Nat} (hS : S.vars v = none) (op : Op E Entity NP EP) : S.step mN mE (.call v op) = (S, .noStore) := by
  simp only [Spec.RdfWorld.step, hS]

theorem call_some {v : Nat} {p : RdfPlace NP EP} (hS : S.vars v = some p) (op : Op E Entity NP EP) :
    S.step mN mE (.call v op) = (S.setState v ((S.state p).step (fun _ => true) (fun _ => true) mN mE op).1 p,
      ((S.state p).step (fun _ => true) (fun _ => true) mN mE op).2.res) := by
  simp only [Spec.RdfWorld.step, hS]

/-- `extend` and `merge` of two stores -/
theorem Ok.feed (hl : cl.RoundTrips) (hr : cr.RoundTrips) (tl : cl.Total) (tr : cr.Total) (hc : c.RoundTrip) (ht : c.Total) {v w : Nat}
    (op : {F : Type} → Source F Entity NP EP → Op F Entity NP EP) (f : Graph Entity NP EP → Graph Entity NP EP → Graph Entity NP EP)
    (hf : ∀ (F : Type) (src : Source F Entity NP EP) (x : RdfState NP EP) H, Represents src H →
      x.step (fun _ => true) (fun _ => true) mN mE (op src) = ({ known := RdfState.hear x.known H, graph := f x.graph H }, .done))
    (ho : ∀ (F : Type) (src : Source F Entity NP EP), (op src).draws = src.edges.length ∧
      (op src).creations = src.nodes.length + 3 * src.edges.length ∧
      (op src).entities = itemEntities (fun x => [x.1]) src.nodes ++ itemEntities (fun x => RdfState.parts x.1) src.edges)
    (h : Ok cl cr c uses K (add C (rdfFeedCosts cl cr c mN mE W v w)) W S) :
    Ok cl cr c uses K C (W.feed cl cr c mN mE v w op : _ × RdfRes E).1 (S.feed v w f : _ × RdfRes E).1 ∧
      (W.feed cl cr c mN mE v w op : _ × RdfRes E).2 = (S.feed v w f).2 := by
  unfold RdfWorld.feed
  cases hW : W.vars w with
  | none =>
    rw [feed_none ((h.none_iff w).1 hW)]
    exact ⟨h.mono, rfl⟩
  | some x =>
    cases hS : S.vars w with
    | none => rw [(h.none_iff w).2 hS] at hW; cases hW
    | some q =>
      by_cases hvw : v = w
      · simp only [if_pos hvw, Spec.RdfWorld.feed, hS]
        exact ⟨h.mono, trivial⟩
      · simp only [if_neg hvw]
        refine h.source hc hW hS _ (fun r : RdfWorld NP EP × RdfRes E => Ok cl cr c uses K C r.1 (S.feed v w f : _ × RdfRes E).1 ∧
          r.2 = (S.feed v w f).2) ?_
        intro F src hsrc hlen
        have hW' : (W.setVar w none).vars v = W.vars v := Function.update_of_ne hvw _ _
        have hS' : (S.setVar w none).vars v = S.vars v := Function.update_of_ne hvw _ _
        obtain ⟨o1, o2, o3⟩ := ho F src
        have ec : rdfCosts (W.setVar w none) v (op src).draws (op src).creations = rdfFeedCosts cl cr c mN mE W v w := by
          simp only [rdfFeedCosts, rdfCosts, hW', o1, o2, ← hlen]
        have h1 : Ok cl cr c uses K (add C (rdfCosts (W.setVar w none) v (op src).draws (op src).creations)) (W.setVar w none)
            (S.setVar w none) := by
          rw [ec]; exact h.setVar w .none
        obtain ⟨r1, r2⟩ := h1.call (mN := mN) (mE := mE) hl hr tl tr hc ht (by rw [o3]; exact hsrc.ulids (h.tame hS))
        have es : (S.feed v w f : _ × RdfRes E) = (((S.setVar w none).step mN mE (.call v (op src))).1,
            ((S.setVar w none).step mN mE (.call v (op src))).2.blur) := by
          simp only [Spec.RdfWorld.feed, hS, if_neg hvw]
          cases hp : S.vars v with
          | none =>
            rw [call_none (by rw [hS', hp])]; rfl
          | some p =>
            rw [call_some (by rw [hS', hp])]
            have eg : (S.setVar w none).state p = S.state p := by cases p <;> rfl
            rw [eg, hf F src _ _ hsrc]
            rfl
        rw [es]
        exact ⟨r1, congrArg RdfRes.blur r2⟩

/-- the names which the answer to a query knows are those in it -/
theorem known_answer {f : String → Option Ulid} {R : Graph Ulid NP EP} {H : Graph Entity NP EP} {i : MemIndex String Ulid}
    (hn : MemIndex.impl.Shows i f) (ha : Agree f R { known := fun s => (f s).isSome, graph := H })
    (hf : ∀ s v, f s = some v → (R.nodes v).isSome ∨ ∃ t, (R.edges t).isSome ∧ v ∈ Rdf.idParts t) :
    (fun s => (f s).isSome) = RdfState.hear (fun _ => false) H := by
  have hi : Spec.Inj f := fun h1 h2 => hn.inj h1 h2
  have hd : ∀ u, ∃ e, Ref f e u := fun u => (hn.lookupId (SX := Unit) u).imp (fun _ h => h.2)
  funext s
  unfold RdfState.hear
  classical
  rw [Bool.false_or, Bool.eq_iff_iff, decide_eq_true_eq, Option.isSome_iff_exists]
  constructor
  · rintro ⟨v, hv⟩
    rcases hf s v hv with h | ⟨t, ht, hm⟩
    · exact .inl (by rw [ha.nodes _ _ (.name hv)]; exact h)
    · obtain ⟨a, ra⟩ := hd t.sub
      obtain ⟨b, rb⟩ := hd t.pred
      obtain ⟨d, rd⟩ := hd t.obj
      refine .inr ⟨⟨a, b, d⟩, by rw [ha.edges ⟨a, b, d⟩ t ra rb rd]; exact ht, ?_⟩
      simp only [Rdf.idParts, List.mem_cons, List.not_mem_nil, or_false] at hm
      simp only [RdfState.parts, List.mem_cons, List.not_mem_nil, or_false]
      rcases hm with rfl | rfl | rfl
      · exact .inl ((Ref.name hv).snd hi ra)
      · exact .inr (.inl ((Ref.name hv).snd hi rb))
      · exact .inr (.inr ((Ref.name hv).snd hi rd))
  · have key : (∃ u, Ref f (.string s) u) → ∃ v, f s = some v := by
      rintro ⟨u, hu⟩
      cases hu with
      | name h => exact ⟨_, h⟩
    rintro (h | ⟨t, ht, hm⟩)
    · obtain ⟨p, hp⟩ := Option.isSome_iff_exists.1 h
      exact key (ha.noNode _ _ hp)
    · obtain ⟨p, hp⟩ := Option.isSome_iff_exists.1 ht
      obtain ⟨n1, n2, n3⟩ := ha.noEdge _ _ hp
      simp only [RdfState.parts, List.mem_cons, List.not_mem_nil, or_false] at hm
      rcases hm with h | h | h
      · exact key (by rw [h]; exact n1)
      · exact key (by rw [h]; exact n2)
      · exact key (by rw [h]; exact n3)

/-- the answer to a query -/
theorem StateOk.answer {m : Nat} {names : Gen Ulid} {f f' : String → Option Ulid} {G R : Graph Ulid NP EP} {x : RdfState NP EP}
    {q : Query Entity} {i : MemIndex String Ulid} (h : StateOk K m names f G x) (hn : MemIndex.impl.Shows i f')
    (ha : Agree f' R { known := fun s => (f' s).isSome, graph := select x.graph q })
    (hsub : ∀ s v, f' s = some v → f s = some v) (hN : ∀ v p, R.nodes v = some p → G.nodes v = some p)
    (hE : ∀ t p, R.edges t = some p → G.edges t = some p)
    (hf : ∀ s v, f' s = some v → (R.nodes v).isSome ∨ ∃ t, (R.edges t).isSome ∧ v ∈ Rdf.idParts t) :
    StateOk K m names f' R { known := RdfState.hear (fun _ => false) (select x.graph q), graph := select x.graph q } where
  agree := by rw [← known_answer hn ha hf]; exact ha
  tame := tame_select h.tame q
  clean := fun v hv => ⟨fun s e => (h.clean v hv).1 s (hsub _ _ e), (h.clean v hv).2⟩
  spare :=
    { fresh := h.spare.fresh
      names := fun j hj s e => h.spare.names j hj s (hsub _ _ e)
      nodes := fun j hj => by
        cases e : R.nodes (names j) with
        | none => rfl
        | some p => have := hN _ _ e; rw [h.spare.nodes j hj] at this; cases this
      edges := fun j hj t ht => by
        cases e : R.edges t with
        | none => rfl
        | some p => have := hE _ _ e; rw [h.spare.edges j hj t ht] at this; cases this }

theorem spec_query {v r : Nat} {q : Query Entity} {p : RdfPlace NP EP} (hS : S.vars v = some p) {x : RdfState NP EP} (hx : S.state p = x) :
    (∀ s, x.unknown (queryEntities q) = some s → (S.query v q r : _ × RdfRes E) = (S, .unknown s)) ∧
    (x.unknown (queryEntities q) = none → NamesOnce (select x.graph q) → (S.query v q r : _ × RdfRes E) =
      (S.setVar r (some (.own { known := RdfState.hear (fun _ => false) (select x.graph q), graph := select x.graph q })), .done)) ∧
    (x.unknown (queryEntities q) = none → ¬ NamesOnce (select x.graph q) → (S.query v q r : _ × RdfRes E) = (S, .twice)) := by
  subst hx
  refine ⟨fun s h => ?_, fun h hn => ?_, fun h hn => ?_⟩
  · simp only [Spec.RdfWorld.query, hS, h]
  · simp only [Spec.RdfWorld.query, hS, h]
    rw [if_pos hn]
  · simp only [Spec.RdfWorld.query, hS, h]
    rw [if_neg hn]

theorem Ok.query (hc : c.RoundTrip) {v r k : Nat} {q : Query Entity} (hK : ∀ u ∈ ulids (queryEntities q), u ∈ K)
    (h : Ok cl cr c uses K (add C (costs k (sizes cl cr c mN mE W v).2)) W S) :
    Ok cl cr c uses K C (W.query cl cr c mN mE v q r k : _ × RdfRes E).1 (S.query v q r : _ × RdfRes E).1 ∧
      (W.query cl cr c mN mE v q r k : _ × RdfRes E).2 = (S.query v q r).2 := by
  have hv := h.vars v
  have hIn : ∀ e ∈ queryEntities q, Rdf.In K e := fun e he u hu => hK u (mem_ulids.2 (hu ▸ he))
  have hfr := h.apart.gen k
  have e1 : (add C (costs k (sizes cl cr c mN mE W v).2)).1 k = C.1 k + (sizes cl cr c mN mE W v).2 := by simp [add, costs]
  rw [e1] at hfr
  unfold RdfWorld.query
  cases hW : W.vars v with
  | none =>
    rw [show (S.query v q r : _ × RdfRes E) = (S, .noStore) by simp only [Spec.RdfWorld.query, (h.none_iff v).1 hW]]
    exact ⟨h.mono, rfl⟩
  | some held =>
    rw [hW] at hv
    cases hS : S.vars v with
    | none => rw [hS] at hv; cases hv
    | some p =>
      rw [hS] at hv
      cases hv with
      | @mem k' i s f G x hi hs hx =>
        have hinv : Rdf.Inv MemIndex.impl Mem.Ok K _ _ (W.memStore k' i s) f G x := ⟨hi, hs, hx.agree, hx.spare, hx.clean⟩
        obtain ⟨q1, q2, q3⟩ := spec_query (E := E) (r := r) (q := q) hS (x := x) rfl
        cases hun : x.unknown (queryEntities q) with
        | some s' =>
          simp only [Rdf.run, Rdf.query_unknown hinv hIn hun, q1 _ hun]
          exact ⟨h.mono, rfl⟩
        | none =>
          have hlen : (sizes cl cr c mN mE W v).2 = ((Mem.impl mN mE).iterEdges (W.memStore k' i s).graph .SPO).length := by
            simp only [sizes, hW, withSource, Rdf.intoIterNodes, (Mem.law mN mE).intoIterNodes hs, memStore, List.length_map]
          rw [hlen] at hfr h
          rcases Rdf.run_spec (Mem.runLaw mN mE) (Mem.law mN mE) hi hs hx.agree q (Rdf.known_all (SX := Unit) hinv hIn hun) (C.1 k)
            (W.gens k) W.names hfr with ⟨hno, res, f', R, r1, r2, r3, r4, r5, r6, r7, r8, r9, q', r10, r11⟩ | ⟨hno, s', u', -, r1⟩
          · simp only [r1]
            rw [q2 hun hno]
            refine ⟨h.putMem r r3 r4 (r2 ▸ (hx.advance (m := C.2) (d := 0) (.refl _ _)).answer r3 r5 r6 r7 r8 r9) ?_ (r2 ▸ .refl _ _), rfl⟩
            have e2 := (Mem.run_from hs.inv (C.1 k) hfr q' r10).2
            rw [show ({ s with gen := W.gens k' } : Mem Ulid NP EP).run (W.gens k) q' = res.graph from Except.ok.inj r11] at e2
            exact e2
          · simp only [r1]
            rw [q3 hun hno]
            exact ⟨h.mono, rfl⟩
      | @sled k' b hk =>
        obtain ⟨f, G, hd⟩ := h.dbs b
        have hs := hd.read (k := k')
        have hx := hd.state
        have hi : (SledIndex.impl cl cr).Shows (W.sledStore k' b).nameIndex f := hd.index
        have law := SledStore.lawF (m := 0) (fun _ => False) hc mN mE
        have hinv : Rdf.Inv (SledIndex.impl cl cr) (fun n s G => SledStore.Ok c n 0 (fun _ => False) s G) K 0 _ (W.sledStore k' b) f G
          (S.dbs b) := ⟨hi, hs, hx.agree, hx.spare, hx.clean⟩
        obtain ⟨q1, q2, q3⟩ := spec_query (E := E) (r := r) (q := q) hS (x := S.dbs b) rfl
        cases hun : (S.dbs b).unknown (queryEntities q) with
        | some s' =>
          simp only [Rdf.run, Rdf.query_unknown hinv hIn hun, q1 _ hun]
          exact ⟨h.mono, rfl⟩
        | none =>
          have hlen : (sizes cl cr c mN mE W v).2 = ((SledStore.impl c mN mE).iterEdges (W.sledStore k' b).graph .SPO).length := by
            simp only [sizes, hW, withSource, Rdf.intoIterNodes, law.intoIterNodes hs, List.length_map]
          rw [hlen] at hfr h
          rcases Rdf.run_spec (SledStore.runLawF _ hc mN mE) (Mem.law mN mE) hi hs hx.agree q (Rdf.known_all (SX := SErr) hinv hIn hun)
            (C.1 k) (W.gens k) W.names hfr with
              ⟨hno, res, f', R, r1, r2, r3, r4, r5, r6, r7, r8, r9, q', r10, r11⟩ | ⟨hno, s', u', -, r1⟩
          · simp only [r1]
            rw [q2 hun hno]
            refine ⟨h.putMem r r3 r4 (r2 ▸ (hx.advance (m := C.2) (d := 0) (.refl _ _)).answer r3 r5 r6 r7 r8 r9) ?_ (r2 ▸ .refl _ _), rfl⟩
            have hlen' : ((SledStore.impl c mN mE).iterEdges (W.sledStore k' b).graph .SPO).length = (W.dbs b).data.spo.entries.length :=
              Sled.edgeCount_eq (Id := Ulid) c _
            rw [hlen'] at hfr ⊢
            obtain ⟨res', e3, e2⟩ := Sled.run_from hd.inv (C.1 k) hfr q' r10
            rw [show res' = res.graph from Except.ok.inj (e3.symm.trans r11)] at e2
            exact e2.2
          · simp only [r1]
            rw [q3 hun hno]
            exact ⟨h.mono, rfl⟩

theorem Ok.step (hl : cl.RoundTrips) (hr : cr.RoundTrips) (tl : cl.Total) (tr : cr.Total) (hc : c.RoundTrip) (ht : c.Total)
    {x : RdfCmd E NP EP} (hK : ∀ u ∈ RdfCmd.ulids x, u ∈ K) (hu : ∀ v b k, x = .openSled v b k → uses b k)
    (h : Ok cl cr c uses K (add C (rdfCmdCosts cl cr c mN mE W x)) W S) :
    Ok cl cr c uses K C (W.step cl cr c mN mE x).1 (S.step mN mE x).1 ∧ (W.step cl cr c mN mE x).2 = (S.step mN mE x).2 := by
  cases x with
  | newMem v k =>
    refine ⟨Ok.putMem (k := k) (n := 0) (m := 0) (f := fun _ => none) (G := Graph.empty) ?_ v MemIndex.shows_new (Mem.ok_new ?_)
      ⟨Props.agree_empty, ⟨h.apart.name, nofun, fun _ _ => rfl, fun _ _ _ _ => rfl⟩, fun u hu => ⟨nofun, h.apart.explicit u hu⟩, ?_⟩
      (.refl _ _) (.refl _ _), rfl⟩
    · have e : ((costs k 0).1, 0) = ((fun _ => 0, 0) : Costs) := by simp [costs]
      rw [e]; exact h
    · exact h.apart.gen k
    · rintro u (h | ⟨t, h, -⟩) <;> cases h
  | openSled v b k => exact ⟨h.setVar v (.sled (hu v b k rfl)), rfl⟩
  | drop v => exact ⟨h.setVar v .none, rfl⟩
  | call v op => exact h.call hl hr tl tr hc ht hK
  | extend v w =>
    exact Ok.feed hl hr tl tr hc ht .extend _ (fun _ src x H hr => hr.rdf_extend mN mE x) (fun _ src => ⟨rfl, rfl, rfl⟩) h
  | merge v w =>
    exact Ok.feed hl hr tl tr hc ht .merge _ (fun _ src x H hr => hr.rdf_merge mN mE x) (fun _ src => ⟨rfl, rfl, rfl⟩) h
  | run v q r k => exact Ok.query hc hK h

theorem Ok.exec (hl : cl.RoundTrips) (hr : cr.RoundTrips) (tl : cl.Total) (tr : cr.Total) (hc : c.RoundTrip) (ht : c.Total)
    (l : List (RdfCmd E NP EP)) (hK : ∀ x ∈ l, ∀ u ∈ RdfCmd.ulids x, u ∈ K)
    (hu : ∀ b k, RdfUses l b k → uses b k) {W : RdfWorld NP EP} {S : Spec.RdfWorld NP EP}
    (h : Ok cl cr c uses K (add C (rdfProgCosts cl cr c mN mE W l)) W S) :
    Ok cl cr c uses K C (W.exec cl cr c mN mE l).1 (S.exec mN mE l).1 ∧ (W.exec cl cr c mN mE l).2 = (S.exec mN mE l).2 := by
  induction l generalizing W S with
  | nil => exact ⟨h, rfl⟩
  | cons x l ih =>
    have h' : Ok cl cr c uses K (add (add C (rdfProgCosts cl cr c mN mE (W.step cl cr c mN mE x).1 l)) (rdfCmdCosts cl cr c mN mE W x))
        W S := by
      have e : add C (rdfProgCosts cl cr c mN mE W (x :: l)) =
          add (add C (rdfProgCosts cl cr c mN mE (W.step cl cr c mN mE x).1 l)) (rdfCmdCosts cl cr c mN mE W x) := by
        simp only [add, rdfProgCosts, Nat.add_assoc]
      rw [← e]; exact h
    obtain ⟨h1, h2⟩ := h'.step (mN := mN) (mE := mE) hl hr tl tr hc ht (hK x (by simp))
      (fun v b k e => hu b k ⟨v, by rw [← e]; simp⟩)
    obtain ⟨h3, h4⟩ := ih (fun y hy => hK y (List.mem_cons_of_mem _ hy))
      (fun b k hk => hu b k (by obtain ⟨v, hv⟩ := hk; exact ⟨v, List.mem_cons_of_mem _ hv⟩)) h1
    exact ⟨h3, by simp only [RdfWorld.exec, Spec.RdfWorld.exec, h2, h4]⟩

theorem shows_known {I S IX SX : Type} {ix : BidirIndex I IX String Ulid} {st : StoreImpl S SX Ulid NP EP} {r : Rdf I S}
    {f : String → Option Ulid} {G : Graph Ulid NP EP} {x : RdfState NP EP} (hn : ix.Shows r.nameIndex f) (ha : Agree f G x)
    (hs : r.Shows ix st x.graph) : RdfShows ix st r x := by
  refine ⟨hs, fun s => ?_⟩
  rw [ha.known s, Rdf.lookupEntity_eq hn]
  dsimp only
  cases f s <;> simp

theorem Ok.agrees (hc : c.RoundTrip) (h : Ok cl cr c uses K C W S) : RdfAgrees cl cr c mN mE W S := by
  refine ⟨fun k b => ?_, fun v => ?_⟩
  · obtain ⟨f, G, hd⟩ := h.dbs b
    exact shows_known hd.index hd.state.agree
      (Rdf.shows_of (r := W.sledStore k b) (SledStore.lawF (fun _ => False) hc mN mE) hd.index hd.read hd.state.agree)
  · have := h.vars v
    generalize W.vars v = a at this ⊢
    generalize S.vars v = p at this ⊢
    cases this with
    | none => trivial
    | mem hi hs hx => exact shows_known hi hx.agree (Rdf.shows_of (Mem.law mN mE) hi hs hx.agree)
    | sled _ => rfl

/-! ## two stores on one database -/

/-- a call on a store on a database -/
theorem Ok.sledCall (hl : cl.RoundTrips) (hr : cr.RoundTrips) (tl : cl.Total) (tr : cr.Total) (hc : c.RoundTrip) (ht : c.Total)
    {k b : Nat} (hk : uses b k) {op : Op E Entity NP EP} (hK : ∀ u ∈ ulids op.entities, u ∈ K)
    (h : Ok cl cr c uses K (add C ((costs k op.draws).1, op.creations)) W S) :
    RdfShows (SledIndex.impl cl cr) (SledStore.impl c mN mE)
      ((W.sledStore k b).call (SledIndex.impl cl cr) (SledStore.impl c mN mE) op).1
      ((S.dbs b).step (fun _ => true) (fun _ => true) mN mE op).1 ∧
    ((W.sledStore k b).call (SledIndex.impl cl cr) (SledStore.impl c mN mE) op).2 =
      ((S.dbs b).step (fun _ => true) (fun _ => true) mN mE op).2.result .serialization := by
  obtain ⟨f, G, hdb⟩ := h.dbs b
  have hx := hdb.state
  have law := SledStore.lawF (m := 0) (World.Others uses C W.gens b k) hc mN mE
  have hd := Rdf.done_call (SledIndex.lawful hl hr tl tr) law op hK
    (n := C.1 k) (k := C.2) (r := W.sledStore k b) (f := f) (G := G) (x := S.dbs b)
    ⟨hdb.index, h.store hk hdb, hx.agree, hx.spare, hx.clean⟩
  have oN : c.okN = fun _ => true := funext ht.1
  have oE : c.okE = fun _ => true := funext ht.2
  rw [oN, oE] at hd
  obtain ⟨⟨f', G', hinv⟩, hres⟩ := hd
  exact ⟨shows_known hinv.names hinv.agree (Rdf.shows_of law hinv.names hinv.graph hinv.agree), hres⟩

/-- a store knows the names in its graph -/
theorem Ok.hear (h : Ok cl cr c uses K C W S) (b : Nat) : RdfState.hear (S.dbs b).known (S.dbs b).graph = (S.dbs b).known := by
  obtain ⟨f, G, hdb⟩ := h.dbs b
  have ha := hdb.state.agree
  funext s
  unfold RdfState.hear
  cases hs : (S.dbs b).known s with
  | true => rfl
  | false =>
    have hf : ∀ u, ¬ Ref f (.string s) u := by
      rintro u hu
      cases hu with
      | name e => rw [ha.known s, e] at hs; cases hs
    rw [Bool.false_or]
    refine @decide_eq_false _ (_) ?_
    rintro (hm | ⟨t, ht, hm⟩)
    · obtain ⟨p, hp⟩ := Option.isSome_iff_exists.1 hm
      obtain ⟨u, hu⟩ := ha.noNode _ _ hp
      exact hf u hu
    · obtain ⟨p, hp⟩ := Option.isSome_iff_exists.1 ht
      obtain ⟨⟨u1, n1⟩, ⟨u2, n2⟩, ⟨u3, n3⟩⟩ := ha.noEdge _ _ hp
      simp only [RdfState.parts, List.mem_cons, List.not_mem_nil, or_false] at hm
      rcases hm with e | e | e
      · exact hf u1 (e ▸ n1)
      · exact hf u2 (e ▸ n2)
      · exact hf u3 (e ▸ n3)

/-- `extend` or `merge` of two stores on one database -/
theorem Ok.self (hl : cl.RoundTrips) (hr : cr.RoundTrips) (tl : cl.Total) (tr : cr.Total) (hc : c.RoundTrip) (ht : c.Total)
    {v w k k' b : Nat} (hv : W.vars v = some (.sled k b)) (hw : W.vars w = some (.sled k' b))
    (op : {F : Type} → Source F Entity NP EP → Op F Entity NP EP) (f : Graph Entity NP EP → Graph Entity NP EP → Graph Entity NP EP)
    (hf : ∀ (F : Type) (src : Source F Entity NP EP) (x : RdfState NP EP) H, Represents src H →
      x.step (fun _ => true) (fun _ => true) mN mE (op src) = ({ known := RdfState.hear x.known H, graph := f x.graph H }, .done))
    (ho : ∀ (F : Type) (src : Source F Entity NP EP), (op src).draws = src.edges.length ∧
      (op src).creations = src.nodes.length + 3 * src.edges.length ∧
      (op src).entities = itemEntities (fun x => [x.1]) src.nodes ++ itemEntities (fun x => RdfState.parts x.1) src.edges)
    (h : Ok cl cr c uses K (add C (rdfFeedCosts cl cr c mN mE W v w)) W S) :
    ∃ f' G, (SledIndex.impl cl cr).Shows (W.dbs b).names f' ∧
      SledStore.Ok c (C.1 k + (W.dbs b).data.spo.entries.length) 0 (World.Others uses C W.gens b k) (W.sledStore k b).graph G ∧
      let src := (W.sledStore k' b).intoIterNodes (SledIndex.impl cl cr) (SledStore.impl c mN mE) .SPO
      RdfShows (SledIndex.impl cl cr) (SledStore.impl c mN mE)
        ((W.sledStore k b).call (SledIndex.impl cl cr) (SledStore.impl c mN mE) (op src)).1
        { known := (S.dbs b).known, graph := f (S.dbs b).graph (S.dbs b).graph } ∧
      ((W.sledStore k b).call (SledIndex.impl cl cr) (SledStore.impl c mN mE) (op src)).2 = .ok () := by
  have hk : uses b k := by
    have := h.vars v
    rw [hv] at this
    generalize S.vars v = p at this
    cases this with
    | sled h => exact h
  obtain ⟨f', G, hdb⟩ := h.dbs b
  have hsrc : Represents ((W.sledStore k' b).intoIterNodes (SledIndex.impl cl cr) (SledStore.impl c mN mE) .SPO) (S.dbs b).graph :=
    (Rdf.shows_of (r := W.sledStore k' b) (SledStore.lawF (fun _ => False) hc mN mE) hdb.index hdb.read hdb.state.agree).intoIterNodes .SPO
  have hlen : ((W.sledStore k' b).intoIterNodes (SledIndex.impl cl cr) (SledStore.impl c mN mE) .SPO).edges.length =
      (W.dbs b).data.spo.entries.length := by
    show ((Sled.intoIterNodes c (W.dbs b).data .SPO).edges.map _).length = _
    rw [List.length_map, Sled.intoIterNodes_spo, List.length_map]
  obtain ⟨o1, o2, o3⟩ := ho _ ((W.sledStore k' b).intoIterNodes (SledIndex.impl cl cr) (SledStore.impl c mN mE) .SPO)
  have ec : rdfFeedCosts cl cr c mN mE W v w =
      ((costs k (op ((W.sledStore k' b).intoIterNodes (SledIndex.impl cl cr) (SledStore.impl c mN mE) .SPO)).draws).1,
        (op ((W.sledStore k' b).intoIterNodes (SledIndex.impl cl cr) (SledStore.impl c mN mE) .SPO)).creations) := by
    simp only [rdfFeedCosts, rdfCosts, hv, genOf, sizes, hw, withSource, o1, o2]
  rw [ec] at h hdb
  have hs := h.store hk hdb
  rw [o1, hlen] at hs
  refine ⟨f', G, hdb.index, hs, ?_⟩
  obtain ⟨r1, r2⟩ := h.sledCall (mN := mN) (mE := mE) hl hr tl tr hc ht hk (by
    rw [o3]; exact hsrc.ulids hdb.state.tame)
  rw [hf _ _ _ _ hsrc, h.hear b] at r1
  rw [hf _ _ _ _ hsrc] at r2
  exact ⟨r1, r2⟩

theorem ok_start (tl : cl.Total) (tr : cr.Total) {gens : Nat → Gen Ulid} {names : Gen Ulid} (h : RdfApart uses K C gens names) :
    Ok cl cr c uses K C (RdfWorld.start gens names : RdfWorld NP EP) .start where
  apart := h
  vars _ := .none
  dbs b := ⟨fun _ => none, Graph.empty, SledIndex.shows_empty tl tr, Db.inv_empty c, rfl, fun k hk i hi t => by
      show BMap.get BMap.empty _ ≠ _
      rw [BMap.get_empty]; exact nofun,
    ⟨Props.agree_empty, ⟨h.name, nofun, fun _ _ => rfl, fun _ _ _ _ => rfl⟩, fun u hu => ⟨nofun, h.explicit u hu⟩, by
      rintro u (h | ⟨t, h, -⟩) <;> cases h⟩⟩

end RdfWorld

end Verif
