import Verif.Spec.RdfWorld
import Verif.Proof.World
import Verif.Proof.RdfStore
import Verif.Proof.RdfQuery
import Verif.Proof.RdfNames
import Verif.Props.Closure

/-! # Programs with many RDF stores -/

set_option linter.unusedSectionVars false

namespace Verif

open Spec ConcreteId

variable {I S Q IX SX QX X NP EP E : Type}

/-! ## streams -/

theorem Gen.Left.stepBy {α : Type} {g g' g'' : Gen α} {N k m : Nat} (h : Gen.Left g N (k + m) g') (h' : Gen.Adv m g' g'') :
    Gen.Left g N k g'' := by
  obtain ⟨d, h, rfl⟩ := h
  obtain ⟨d', h', rfl⟩ := h'
  exact ⟨d + d', by omega, by funext i; rw [Nat.add_assoc]⟩

theorem Gen.Left.drawn {α : Type} {g g' : Gen α} {k m : Nat} (h : Gen.Left g (k + m) k g') : Gen.Adv m g g' := by
  obtain ⟨d, h, e⟩ := h
  exact ⟨d, by omega, e⟩

namespace Spec

theorem Did.and {Ok : S → Graph Ulid NP EP → Prop} {P : S → Prop} {bad : X} {G : Graph Ulid NP EP} {o : Option (Graph Ulid NP EP)}
    {r : S × Except X Unit} (h : Did Ok bad G o r) (hp : P r.1) : Did (fun s G => Ok s G ∧ P s) bad G o r := by
  cases o <;> exact ⟨h.1, h.2, hp⟩

/-- a store which besides does not draw more ids than it has to -/
theorem StoreLaw.and {st : StoreImpl S X Ulid NP EP} {okN : NP → Bool} {okE : EP → Bool} {bad : X} {mN : NP → NP → NP}
    {mE : EP → EP → EP} {Ok : Nat → S → Graph Ulid NP EP → Prop} (law : StoreLaw st okN okE bad mN mE Ok) (gen : S → Gen Ulid)
    (h1 : ∀ s x p, Gen.Adv 0 (gen s) (gen (st.insertNode s x p).1)) (h2 : ∀ s x p, Gen.Adv 1 (gen s) (gen (st.insertEdge s x p).1))
    (h3 : ∀ s x, Gen.Adv 0 (gen s) (gen (st.removeNode s x).1)) (h4 : ∀ s x, Gen.Adv 0 (gen s) (gen (st.removeEdge s x).1))
    (h5 : ∀ s x p, Gen.Adv 0 (gen s) (gen (st.mergeNode s x p).1)) (h6 : ∀ s x p, Gen.Adv 1 (gen s) (gen (st.mergeEdge s x p).1))
    (g : Gen Ulid) (N : Nat) : StoreLaw st okN okE bad mN mE (fun n s G => Ok n s G ∧ Gen.Left g N n (gen s)) where
  insertNode h x p := (law.insertNode h.1 x p).and (h.2.stepBy (m := 0) (h1 _ _ _))
  insertEdge h x p := (law.insertEdge h.1 x p).and (h.2.stepBy (m := 1) (h2 _ _ _))
  removeNode h x := (law.removeNode h.1 x).and (h.2.stepBy (m := 0) (h3 _ _))
  removeEdge h x := (law.removeEdge h.1 x).and (h.2.stepBy (m := 0) (h4 _ _))
  mergeNode h x p := (law.mergeNode h.1 x p).and (h.2.stepBy (m := 0) (h5 _ _ _))
  mergeEdge h x p := (law.mergeEdge h.1 x p).and (h.2.stepBy (m := 1) (h6 _ _ _))
  fewer h := ⟨law.fewer h.1, h.2.mono (Nat.le_succ _)⟩
  shows h := law.shows h.1
  vertices h := law.vertices h.1
  iterNodes h := law.iterNodes h.1
  intoIterNodes h := law.intoIterNodes h.1
  intoIterVertices h := law.intoIterVertices h.1
  intoIterEdges h := law.intoIterEdges h.1
  props h := law.props h.1
  propsSorted h := law.propsSorted h.1
  intoProps h := law.intoProps h.1

end Spec

theorem Mem.lawLeft (mN : NP → NP → NP) (mE : EP → EP → EP) (g : Gen Ulid) (N : Nat) :
    StoreLaw (Mem.impl (Id := Ulid) mN mE) (fun _ => true) (fun _ => true) () mN mE (fun n s G => Mem.Ok n s G ∧ Gen.Left g N n s.gen) :=
  (Mem.law mN mE).and Mem.gen (fun s x p => by show Gen.Adv 0 s.gen (s.insertNode x p).gen; rw [insertNode_gen]; exact .refl _ _)
    (fun s x p => insertEdge_adv s x p)
    (fun s x => by show Gen.Adv 0 s.gen (s.removeNode x).gen; rw [removeNode_gen]; exact .refl _ _)
    (fun s x => by show Gen.Adv 0 s.gen (s.removeEdge x).gen; rw [removeEdge_gen]; exact .refl _ _)
    (fun s x p => by show Gen.Adv 0 s.gen (s.mergeNode mN x p).gen; rw [mergeNode_gen]; exact .refl _ _)
    (fun s x p => mergeEdge_adv mE s x p) g N

theorem SledStore.lawLeft {c : Codecs NP EP} (hc : c.RoundTrip) (F : Bytes → Prop) (mN : NP → NP → NP) (mE : EP → EP → EP) (g : Gen Ulid)
    (N m : Nat) : StoreLaw (SledStore.impl (Id := Ulid) c mN mE) c.okN c.okE .serialization mN mE
      (fun n s G => SledStore.Ok c n m F s G ∧ Gen.Left g N n s.gen) :=
  (SledStore.lawF F hc mN mE).and SledStore.gen (fun s x p => call_gen c mN mE s (.insertNode x p : Op Unit Ulid NP EP))
    (fun s x p => call_gen c mN mE s (.insertEdge x p : Op Unit Ulid NP EP))
    (fun s x => call_gen c mN mE s (.removeNode x : Op Unit Ulid NP EP))
    (fun s x => call_gen c mN mE s (.removeEdge x : Op Unit Ulid NP EP))
    (fun s x p => call_gen c mN mE s (.mergeNode x p : Op Unit Ulid NP EP))
    (fun s x p => call_gen c mN mE s (.mergeEdge x p : Op Unit Ulid NP EP)) g N

/-! ## ids of names -/

namespace Rdf

variable {ix : BidirIndex I IX String Ulid} {st : StoreImpl S SX Ulid NP EP}

theorem create_adv (r : Rdf I S) (e : Entity) : Gen.Adv 1 r.ulid (r.lookupOrCreateEntity (SX := SX) ix e).1.ulid := by
  cases e with
  | ulid u => exact .refl _ _
  | string s =>
    unfold lookupOrCreateEntity
    dsimp only
    cases ix.leftToRight r.nameIndex s with
    | error e => exact .refl _ _
    | ok o =>
      cases o with
      | some u => exact .refl _ _
      | none =>
        dsimp only
        rcases ix.set r.nameIndex s (Gen.fresh r.ulid).1 with ⟨i, e | u⟩ <;> exact .fresh _

theorem createTriple_adv (r : Rdf I S) (t : Triple Entity) : Gen.Adv 3 r.ulid (r.createTriple (SX := SX) ix t).1.ulid := by
  unfold createTriple
  have h1 := create_adv (SX := SX) (ix := ix) r t.sub
  generalize r.lookupOrCreateEntity (SX := SX) ix t.sub = z1 at h1 ⊢
  rcases z1 with ⟨r1, e | s⟩
  · exact h1.mono (by omega)
  · dsimp only at h1 ⊢
    have h2 := create_adv (SX := SX) (ix := ix) r1 t.pred
    generalize r1.lookupOrCreateEntity (SX := SX) ix t.pred = z2 at h2 ⊢
    rcases z2 with ⟨r2, e | p⟩
    · exact (h1.trans h2).mono (by omega)
    · dsimp only at h2 ⊢
      have h3 := create_adv (SX := SX) (ix := ix) r2 t.obj
      generalize r2.lookupOrCreateEntity (SX := SX) ix t.obj = z3 at h3 ⊢
      rcases z3 with ⟨r3, e | o⟩ <;> exact (h1.trans h2).trans h3

theorem onGraph_ulid (r : Rdf I S) (y : S × Except SX Unit) : (r.onGraph (IX := IX) y).1.ulid = r.ulid := by
  rcases y with ⟨g, e | u⟩ <;> rfl

theorem insertNode_adv (r : Rdf I S) (e : Entity) (p : NP) : Gen.Adv 1 r.ulid (r.insertNode ix st e p).1.ulid := by
  unfold insertNode
  have h1 := create_adv (SX := SX) (ix := ix) r e
  generalize r.lookupOrCreateEntity (SX := SX) ix e = z1 at h1 ⊢
  rcases z1 with ⟨r1, e | s⟩
  · exact h1
  · dsimp only at h1 ⊢; rw [onGraph_ulid]; exact h1

theorem mergeNode_adv (r : Rdf I S) (e : Entity) (p : NP) : Gen.Adv 1 r.ulid (r.mergeNode ix st e p).1.ulid := by
  unfold mergeNode
  have h1 := create_adv (SX := SX) (ix := ix) r e
  generalize r.lookupOrCreateEntity (SX := SX) ix e = z1 at h1 ⊢
  rcases z1 with ⟨r1, e | s⟩
  · exact h1
  · dsimp only at h1 ⊢; rw [onGraph_ulid]; exact h1

theorem insertEdge_adv (r : Rdf I S) (t : Triple Entity) (p : EP) : Gen.Adv 3 r.ulid (r.insertEdge ix st t p).1.ulid := by
  unfold insertEdge
  have h1 := createTriple_adv (SX := SX) (ix := ix) r t
  generalize r.createTriple (SX := SX) ix t = z1 at h1 ⊢
  rcases z1 with ⟨r1, e | s⟩
  · exact h1
  · dsimp only at h1 ⊢; rw [onGraph_ulid]; exact h1

theorem mergeEdge_adv (r : Rdf I S) (t : Triple Entity) (p : EP) : Gen.Adv 3 r.ulid (r.mergeEdge ix st t p).1.ulid := by
  unfold mergeEdge
  have h1 := createTriple_adv (SX := SX) (ix := ix) r t
  generalize r.createTriple (SX := SX) ix t = z1 at h1 ⊢
  rcases z1 with ⟨r1, e | s⟩
  · exact h1
  · dsimp only at h1 ⊢; rw [onGraph_ulid]; exact h1

theorem absorb_adv {α : Type} {d : Nat} {f : Rdf I S → α → Rdf I S × Except X Unit} (hf : ∀ r a, Gen.Adv d r.ulid (f r a).1.ulid)
    (l : List (Except E α)) (r : Rdf I S) : Gen.Adv (d * l.length) r.ulid (absorb f r l).1.ulid := by
  induction l generalizing r with
  | nil => exact .refl _ _
  | cons a l ih =>
    cases a with
    | error e => exact .refl _ _
    | ok a =>
      unfold absorb
      have h1 := hf r a
      generalize f r a = z1 at h1 ⊢
      rcases z1 with ⟨r1, e | s⟩
      · exact h1.mono (by rw [List.length_cons, Nat.mul_succ]; omega)
      · exact (h1.trans (ih r1)).mono (by rw [List.length_cons, Nat.mul_succ]; omega)

/-- A call does not take more ids for names than there are entities in it. -/
theorem call_adv (r : Rdf I S) (op : Op E Entity NP EP) : Gen.Adv op.creations r.ulid (r.call ix st op).1.ulid := by
  cases op with
  | insertNode e p => exact insertNode_adv r e p
  | insertEdge t p => exact insertEdge_adv r t p
  | mergeNode e p => exact mergeNode_adv r e p
  | mergeEdge t p => exact mergeEdge_adv r t p
  | removeNode e =>
    show Gen.Adv 0 r.ulid (r.removeNode ix st e).1.ulid
    unfold removeNode
    rcases r.lookupEntity (SX := SX) ix e with e | u
    · exact .refl _ _
    · dsimp only; rw [onGraph_ulid]; exact .refl _ _
  | removeEdge t =>
    show Gen.Adv 0 r.ulid (r.removeEdge ix st t).1.ulid
    unfold removeEdge
    rcases t.tryMap (fun e => r.lookupEntity (SX := SX) ix e) with e | u
    · exact .refl _ _
    · dsimp only; rw [onGraph_ulid]; exact .refl _ _
  | extend src =>
    show Gen.Adv _ _ (r.extend ix st src).1.ulid
    unfold extend
    have h1 := absorb_adv (E := E) (fun r (a : Entity × NP) => insertNode_adv (ix := ix) (st := st) r a.1 a.2) src.nodes r
    generalize absorb (fun r (x : Entity × NP) => r.insertNode ix st x.1 x.2) r src.nodes = z1 at h1 ⊢
    rcases z1 with ⟨r1, e | s⟩
    · exact h1.mono (by simp only [Op.creations]; omega)
    · have h2 := absorb_adv (E := E) (fun r (a : Triple Entity × EP) => insertEdge_adv (ix := ix) (st := st) r a.1 a.2) src.edges r1
      exact (h1.trans h2).mono (by simp only [Op.creations]; omega)
  | merge src =>
    show Gen.Adv _ _ (r.merge ix st src).1.ulid
    unfold merge
    have h1 := absorb_adv (E := E) (fun r (a : Entity × NP) => mergeNode_adv (ix := ix) (st := st) r a.1 a.2) src.nodes r
    generalize absorb (fun r (x : Entity × NP) => r.mergeNode ix st x.1 x.2) r src.nodes = z1 at h1 ⊢
    rcases z1 with ⟨r1, e | s⟩
    · exact h1.mono (by simp only [Op.creations]; omega)
    · have h2 := absorb_adv (E := E) (fun r (a : Triple Entity × EP) => mergeEdge_adv (ix := ix) (st := st) r a.1 a.2) src.edges r1
      exact (h1.trans h2).mono (by simp only [Op.creations]; omega)

end Rdf

/-! ## taking in a graph -/

namespace Spec

variable {x : RdfState NP EP}

theorem takeIn_done {α : Type} {f : RdfState NP EP → α → RdfState NP EP × RdfOutcome E} {es : α → List Entity}
    {h : Graph Entity NP EP → α → Graph Entity NP EP} (hf : ∀ x a, f x a = ({ known := (x.learn (es a)).known, graph := h x.graph a }, .done))
    (l : List α) (x : RdfState NP EP) :
    RdfState.takeIn f x (l.map .ok) =
      ({ known := fun s => x.known s || decide (Entity.string s ∈ l.flatMap es), graph := l.foldl h x.graph }, .done) := by
  induction l generalizing x with
  | nil => simp [RdfState.takeIn]
  | cons a l ih =>
    rw [List.map_cons, RdfState.takeIn, hf]
    dsimp only
    rw [ih]
    simp only [RdfState.learn, List.flatMap_cons, List.mem_append, Bool.decide_or, Bool.or_assoc, List.foldl_cons]

theorem hear_eq {ln : List (Entity × NP)} {le : List (Triple Entity × EP)} {H : Graph Entity NP EP}
    (hn : ∀ e p, (e, p) ∈ ln ↔ H.nodes e = some p) (he : ∀ t p, (t, p) ∈ le ↔ H.edges t = some p) (known : String → Bool) :
    (fun s => (known s || decide (Entity.string s ∈ ln.flatMap (fun a => [a.1]))) ||
      decide (Entity.string s ∈ le.flatMap (fun a => RdfState.parts a.1))) = RdfState.hear known H := by
  funext s
  unfold RdfState.hear
  rw [Bool.or_assoc]
  congr 1
  rw [← Bool.decide_or, decide_eq_decide]
  unfold Mentions
  refine or_congr ?_ ?_
  · rw [List.mem_flatMap, Option.isSome_iff_exists]
    constructor
    · rintro ⟨a, ha, h⟩
      rw [List.mem_singleton] at h
      rw [h]
      exact ⟨a.2, (hn _ _).1 ha⟩
    · rintro ⟨p, hp⟩
      exact ⟨_, (hn _ _).2 hp, by simp⟩
  · rw [List.mem_flatMap]
    constructor
    · rintro ⟨a, ha, h⟩
      exact ⟨a.1, Option.isSome_iff_exists.2 ⟨a.2, (he _ _).1 ha⟩, h⟩
    · rintro ⟨t, ht, h⟩
      obtain ⟨p, hp⟩ := Option.isSome_iff_exists.1 ht
      exact ⟨(t, p), (he _ _).2 hp, h⟩

theorem mergedNode (mN : NP → NP → NP) (G : Graph Entity NP EP) (e : Entity) (p : NP) :
    storeMergedNode (fun _ => true) mN G e p = some (G.mergeNode mN e p) := by
  unfold storeMergedNode storeNode
  rw [if_pos rfl]
  congr 1

theorem mergedEdge (mE : EP → EP → EP) (G : Graph Entity NP EP) (t : Triple Entity) (p : EP) :
    storeMergedEdge (fun _ => true) mE G t p = some (G.mergeEdge mE t p) := by
  unfold storeMergedEdge storeEdge
  rw [if_pos rfl]
  congr 1

theorem Represents.rdf_extend {src : Source E Entity NP EP} {H : Graph Entity NP EP} (hr : Represents src H) (mN : NP → NP → NP)
    (mE : EP → EP → EP) (x : RdfState NP EP) : x.step (fun _ => true) (fun _ => true) mN mE (.extend src) =
      ({ known := RdfState.hear x.known H, graph := x.graph.overlay H }, .done) := by
  obtain ⟨⟨ln, hln, hnn, hmn⟩, ⟨le, hle, hne, hme⟩⟩ := hr
  simp only [RdfState.step, RdfState.both, hln, hle]
  rw [takeIn_done (α := Entity × NP) (f := fun x i => x.change [i.1] (storeNode (fun _ => true) x.graph i.1 i.2)) (es := fun a => [a.1])
    (h := fun G a => G.insertNode a.1 a.2) (fun x a => rfl)]
  dsimp only
  rw [takeIn_done (α := Triple Entity × EP) (f := fun x i => x.change (RdfState.parts i.1) (storeEdge (fun _ => true) x.graph i.1 i.2))
    (es := fun a => RdfState.parts a.1) (h := fun G a => G.insertEdge a.1 a.2) (fun x a => rfl)]
  rw [hear_eq hmn hme, foldl_insertNode hnn, foldl_insertEdge hne]
  refine Prod.ext ?_ rfl
  dsimp only
  congr 1
  refine Graph.ext' (fun m => ?_) (fun t => ?_)
  · simp [Graph.overlay, alGet_eq_of_lists hnn hmn]
  · simp [Graph.overlay, alGet_eq_of_lists hne hme]

theorem Represents.rdf_merge {src : Source E Entity NP EP} {H : Graph Entity NP EP} (hr : Represents src H) (mN : NP → NP → NP)
    (mE : EP → EP → EP) (x : RdfState NP EP) : x.step (fun _ => true) (fun _ => true) mN mE (.merge src) =
      ({ known := RdfState.hear x.known H, graph := x.graph.mergeWith mN mE H }, .done) := by
  obtain ⟨⟨ln, hln, hnn, hmn⟩, ⟨le, hle, hne, hme⟩⟩ := hr
  simp only [RdfState.step, RdfState.both, hln, hle]
  rw [takeIn_done (es := fun a => [a.1]) (h := fun G a => G.mergeNode mN a.1 a.2) (fun x a => by
    rw [mergedNode]; rfl)]
  dsimp only
  rw [takeIn_done (es := fun a => RdfState.parts a.1) (h := fun G a => G.mergeEdge mE a.1 a.2) (fun x a => by
    rw [mergedEdge]; rfl)]
  rw [hear_eq hmn hme, foldl_mergeNode mN hnn, foldl_mergeEdge mE hne]
  refine Prod.ext ?_ rfl
  dsimp only
  congr 1
  refine Graph.ext' (fun m => ?_) (fun t => ?_)
  · simp [Graph.mergeWith, alGet_eq_of_lists hnn hmn]
  · simp [Graph.mergeWith, alGet_eq_of_lists hne hme]

/-! ## explicit ULIDs -/

/-- the ULIDs in the graph are among `K` -/
def Tame (K : List Ulid) (H : Graph Entity NP EP) : Prop := ∀ u, Mentions H (.ulid u) → u ∈ K

theorem mem_ulids {u : Ulid} {es : List Entity} : u ∈ ulids es ↔ Entity.ulid u ∈ es := by
  induction es with
  | nil => simp [ulids]
  | cons a es ih => cases a <;> simp [ulids, ih]

variable {K : List Ulid} {H H' : Graph Entity NP EP}

theorem Tame.sub (h : Tame K H) (hn : ∀ e, (H'.nodes e).isSome → (H.nodes e).isSome) (he : ∀ t, (H'.edges t).isSome → (H.edges t).isSome) :
    Tame K H' := by
  rintro u (hu | ⟨t, ht, hu⟩)
  · exact h u (.inl (hn _ hu))
  · exact h u (.inr ⟨t, he t ht, hu⟩)

theorem Tame.node (h : Tame K H) {e : Entity} (hK : ∀ u ∈ ulids [e], u ∈ K)
    (hn : ∀ e', e' ≠ e → (H'.nodes e').isSome → (H.nodes e').isSome) (he : H'.edges = H.edges) : Tame K H' := by
  rintro u (hu | ⟨t, ht, hu⟩)
  · by_cases hc : Entity.ulid u = e
    · exact hK u (mem_ulids.2 (by simp [hc]))
    · exact h u (.inl (hn _ hc hu))
  · exact h u (.inr ⟨t, he ▸ ht, hu⟩)

theorem Tame.edge (h : Tame K H) {t : Triple Entity} (hK : ∀ u ∈ ulids (RdfState.parts t), u ∈ K)
    (he : ∀ t', t' ≠ t → (H'.edges t').isSome → (H.edges t').isSome) (hn : H'.nodes = H.nodes) : Tame K H' := by
  rintro u (hu | ⟨t', ht, hu⟩)
  · exact h u (.inl (hn ▸ hu))
  · by_cases hc : t' = t
    · exact hK u (mem_ulids.2 (hc ▸ hu))
    · exact h u (.inr ⟨t', he _ hc ht, hu⟩)

theorem Tame.change (h : Tame K x.graph) {es : List Entity} {o : Option (Graph Entity NP EP)} (ho : ∀ H', o = some H' → Tame K H') :
    Tame K (x.change (E := E) es o).1.graph := by
  cases o with
  | none => exact h
  | some H' => exact ho H' rfl

theorem tame_takeIn {α : Type} {f : RdfState NP EP → α → RdfState NP EP × RdfOutcome E} {es : α → List Entity}
    (hf : ∀ x a, Tame K x.graph → (∀ u ∈ ulids (es a), u ∈ K) → Tame K (f x a).1.graph) (l : List (Except E α))
    (hl : ∀ u ∈ ulids (itemEntities es l), u ∈ K) {x : RdfState NP EP} (h : Tame K x.graph) :
    Tame K (RdfState.takeIn f x l).1.graph := by
  induction l generalizing x with
  | nil => exact h
  | cons a l ih =>
    cases a with
    | error e => exact h
    | ok a =>
      have h1 := hf x a h (fun u hu => hl u (by
        rw [mem_ulids] at hu ⊢
        exact List.mem_flatMap.2 ⟨.ok a, by simp, hu⟩))
      unfold RdfState.takeIn
      rcases hx : f x a with ⟨x', o⟩
      rw [hx] at h1
      cases o with
      | done =>
        refine ih (fun u hu => hl u ?_) h1
        rw [mem_ulids] at hu ⊢
        obtain ⟨b, hb, hu⟩ := List.mem_flatMap.1 hu
        exact List.mem_flatMap.2 ⟨b, List.mem_cons_of_mem _ hb, hu⟩
      | _ => exact h1

theorem tame_both {fN : RdfState NP EP → Entity × NP → RdfState NP EP × RdfOutcome E}
    {fE : RdfState NP EP → Triple Entity × EP → RdfState NP EP × RdfOutcome E}
    (hN : ∀ x a, Tame K x.graph → (∀ u ∈ ulids [a.1], u ∈ K) → Tame K (fN x a).1.graph)
    (hE : ∀ x a, Tame K x.graph → (∀ u ∈ ulids (RdfState.parts a.1), u ∈ K) → Tame K (fE x a).1.graph) (src : Source E Entity NP EP)
    (hs : ∀ u ∈ ulids (itemEntities (fun x => [x.1]) src.nodes ++ itemEntities (fun x => RdfState.parts x.1) src.edges), u ∈ K)
    {x : RdfState NP EP} (h : Tame K x.graph) : Tame K (x.both fN fE src).1.graph := by
  rw [Rdf.ulids_append] at hs
  have h1 := tame_takeIn hN src.nodes (fun u hu => hs u (List.mem_append_left _ hu)) h
  unfold RdfState.both
  rcases hx : RdfState.takeIn fN x src.nodes with ⟨x', o⟩
  rw [hx] at h1
  cases o with
  | done => exact tame_takeIn hE src.edges (fun u hu => hs u (List.mem_append_right _ hu)) h1
  | _ => exact h1

theorem tame_storeNode (h : Tame K H) {okN : NP → Bool} {e : Entity} {p : NP} (hK : ∀ u ∈ ulids [e], u ∈ K) :
    ∀ H', storeNode okN H e p = some H' → Tame K H' := by
  intro H' hh
  unfold storeNode at hh
  split at hh
  · obtain rfl := Option.some.inj hh
    exact h.node hK (fun e' he hs => by simp only [Graph.insertNode, he, if_false] at hs; exact hs) rfl
  · cases hh

theorem tame_storeEdge (h : Tame K H) {okE : EP → Bool} {t : Triple Entity} {p : EP} (hK : ∀ u ∈ ulids (RdfState.parts t), u ∈ K) :
    ∀ H', storeEdge okE H t p = some H' → Tame K H' := by
  intro H' hh
  unfold storeEdge at hh
  split at hh
  · obtain rfl := Option.some.inj hh
    exact h.edge hK (fun e' he hs => by simp only [Graph.insertEdge, he, if_false] at hs; exact hs) rfl
  · cases hh

theorem tame_step (h : Tame K x.graph) {okN : NP → Bool} {okE : EP → Bool} {mN : NP → NP → NP} {mE : EP → EP → EP}
    {op : Op E Entity NP EP} (hK : ∀ u ∈ ulids op.entities, u ∈ K) : Tame K (x.step okN okE mN mE op).1.graph := by
  have ite_some : ∀ {α : Type} {c : Prop} [Decidable c] {o : Option α}, (if c then none else o).isSome → o.isSome := by
    intro α c _ o h; split at h
    · cases h
    · exact h
  cases op with
  | insertNode e p => exact h.change (tame_storeNode h hK)
  | insertEdge t p => exact h.change (tame_storeEdge h hK)
  | mergeNode e p => exact h.change (tame_storeNode h hK)
  | mergeEdge t p => exact h.change (tame_storeEdge h hK)
  | removeNode e =>
    show Tame K (x.remove [e] (x.graph.removeNode e)).1.graph
    unfold RdfState.remove
    cases x.unknown [e] with
    | some s => exact h
    | none => exact h.sub (fun e' hs => ite_some hs) (fun t' hs => ite_some hs)
  | removeEdge t =>
    show Tame K (x.remove (RdfState.parts t) (x.graph.removeEdge t)).1.graph
    unfold RdfState.remove
    cases x.unknown (RdfState.parts t) with
    | some s => exact h
    | none => exact h.sub (fun e' hs => hs) (fun t' hs => ite_some hs)
  | extend src =>
    exact tame_both (fun x a hx ha => hx.change (tame_storeNode hx ha)) (fun x a hx ha => hx.change (tame_storeEdge hx ha)) src hK h
  | merge src =>
    exact tame_both (fun x a hx ha => hx.change (tame_storeNode hx ha)) (fun x a hx ha => hx.change (tame_storeEdge hx ha)) src hK h

/-- What a graph shows mentions no other ULIDs. -/
theorem Represents.ulids {F : Type} {src : Source F Entity NP EP} (hr : Represents src H) (h : Tame K H) :
    ∀ u ∈ Spec.ulids (itemEntities (fun x => [x.1]) src.nodes ++ itemEntities (fun x => RdfState.parts x.1) src.edges), u ∈ K := by
  obtain ⟨⟨ln, hln, hnn, hmn⟩, ⟨le, hle, hne, hme⟩⟩ := hr
  intro u hu
  rw [mem_ulids, List.mem_append] at hu
  refine h u ?_
  rcases hu with hu | hu
  · obtain ⟨a, ha, hu⟩ := List.mem_flatMap.1 hu
    rw [hln] at ha
    obtain ⟨b, hb, rfl⟩ := List.mem_map.1 ha
    simp only [List.mem_singleton] at hu
    rw [hu]
    exact .inl (Option.isSome_iff_exists.2 ⟨_, (hmn _ _).1 hb⟩)
  · obtain ⟨a, ha, hu⟩ := List.mem_flatMap.1 hu
    rw [hle] at ha
    obtain ⟨b, hb, rfl⟩ := List.mem_map.1 ha
    exact .inr ⟨b.1, Option.isSome_iff_exists.2 ⟨_, (hme _ _).1 hb⟩, hu⟩

theorem tame_select (h : Tame K H) (q : Query Entity) : Tame K (select H q) := by
  have ite_some : ∀ {α : Type} {c : Prop} [Decidable c] {o : Option α}, (if c then o else none).isSome → o.isSome := by
    intro α c _ o h; split at h
    · exact h
    · cases h
  cases q with
  | NodeProps l => exact h.sub (fun e hs => ite_some hs) (fun t hs => by cases hs)
  | SPO | S | P | O | SP | SO | PO => exact h.sub (fun e hs => by cases hs) (fun t hs => ite_some hs)

end Spec

/-! ## the names in a query -/

namespace Rdf

variable {ix : BidirIndex I IX String Ulid} {st : StoreImpl S SX Ulid NP EP} {Ok : Nat → S → Graph Ulid NP EP → Prop} {C : List Ulid}
variable {n k : Nat} {r : Rdf I S} {f : String → Option Ulid} {G : Graph Ulid NP EP} {x : RdfState NP EP}

theorem known_all (h : Inv ix Ok C n k r f G x) {es : List Entity} (hC : ∀ e ∈ es, In C e) (hu : x.unknown es = none) :
    ∀ e ∈ es, ∃ u, r.lookupEntity (SX := SX) ix e = .ok u ∧ Ref f e u := by
  induction es with
  | nil => intro e he; cases he
  | cons a es ih =>
    rcases lookup_known (SX := SX) h (hC a (by simp)) (es := es) with ⟨u, h1, h2, h3⟩ | ⟨s, -, h3⟩
    · intro e he
      rcases List.mem_cons.1 he with rfl | he
      · exact ⟨u, h1, h2⟩
      · exact ih (fun e he => hC e (List.mem_cons_of_mem _ he)) (h3 ▸ hu) e he
    · rw [h3] at hu; cases hu

theorem calls_unknown (h : Inv ix Ok C n k r f G x) {es : List Entity} (hC : ∀ e ∈ es, In C e) {s : String} (hu : x.unknown es = some s) :
    calls (fun (_ : Unit) e => ((), r.lookupEntity (SX := SX) ix e)) () es = ((), .error (.nameNotFound s)) := by
  induction es with
  | nil => cases hu
  | cons a es ih =>
    unfold calls
    rcases lookup_known (SX := SX) h (hC a (by simp)) (es := es) with ⟨u, h1, h2, h3⟩ | ⟨s', h1, h3⟩
    · rw [h1]
      dsimp only
      rw [ih (fun e he => hC e (List.mem_cons_of_mem _ he)) (h3 ▸ hu)]
    · rw [h1]
      rw [h3] at hu
      cases hu
      rfl

theorem query_unknown (h : Inv ix Ok C n k r f G x) {q : Query Entity} (hC : ∀ e ∈ queryEntities q, In C e) {s : String}
    (hu : x.unknown (queryEntities q) = some s) :
    q.tryMap (fun e => r.lookupEntity (SX := SX) ix e) = .error (.nameNotFound s) := by
  have h1 := Props.C68_query q (fun (_ : Unit) e => ((), r.lookupEntity (SX := SX) ix e)) ()
  rw [show (Spec.Query.items q).flatten = queryEntities q from rfl, calls_unknown h hC hu] at h1
  dsimp only at h1
  rw [(Props.C68_pure q ⟨.ulid 0, .ulid 0, .ulid 0⟩ (fun e => r.lookupEntity (SX := SX) ix e) ()).1] at h1
  exact (Prod.ext_iff.1 h1).2

end Rdf

end Verif
