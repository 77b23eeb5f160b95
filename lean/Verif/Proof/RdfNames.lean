import Verif.Proof.Rdf
import Verif.Props.Query

/-! # Names keep their ids, whatever the store below does -/

set_option linter.unusedSectionVars false

namespace Verif

open Spec

variable {I S IX SX X NP EP E : Type}

namespace Rdf

variable {ix : BidirIndex I IX String Ulid} {st : StoreImpl S SX Ulid NP EP}

/-- `P k i u f`: the index `i` shows `f`, and this can be kept up for `k` more names with ids from `u`. -/
structure Grows (ix : BidirIndex I IX String Ulid) (P : Nat → I → Gen Ulid → (String → Option Ulid) → Prop) : Prop where
  shows : ∀ {k i u f}, P k i u f → ix.Shows i f
  fewer : ∀ {k i u f}, P (k + 1) i u f → P k i u f
  set : ∀ {k i u f s}, P (k + 1) i u f → f s = none → ∃ f', P k (ix.set i s (u 0)).1 (fun j => u (j + 1)) f' ∧
    (∀ a b, f a = some b → f' a = some b) ∧ ((ix.set i s (u 0)).2 = .ok () → f' s = some (u 0))

variable {P : Nat → I → Gen Ulid → (String → Option Ulid) → Prop} {k : Nat} {r : Rdf I S} {f : String → Option Ulid}

/-- After a call with result `y.2`, the store `y.1` knows the names in `f`, and if it succeeded, those in `es`. -/
def Uses {A : Type} (P : Nat → I → Gen Ulid → (String → Option Ulid) → Prop) (k : Nat) (f : String → Option Ulid)
    (es : List Entity) (y : Rdf I S × Except X A) : Prop :=
  ∃ f', P k y.1.nameIndex y.1.ulid f' ∧ (∀ a b, f a = some b → f' a = some b) ∧
    ∀ a, y.2 = .ok a → ∀ s, .string s ∈ es → (f' s).isSome

variable {A B : Type}

theorem Uses.error {y : Rdf I S × Except X A} {es es' : List Entity} {X' B : Type} {e : X'} (h : Uses P k f es y) :
    Uses P k f es' ((y.1, .error e) : Rdf I S × Except X' B) := by
  obtain ⟨f', h1, h2, -⟩ := h
  exact ⟨f', h1, h2, fun a ha => by cases ha⟩

theorem Grows.fewer' (hg : Grows ix P) {m : Nat} {i : I} {u : Gen Ulid} (h : P (k + m) i u f) : P k i u f := by
  induction m with
  | zero => exact h
  | succ m ih => exact ih (hg.fewer h)

theorem Uses.fewer (hg : Grows ix P) {m : Nat} {y : Rdf I S × Except X A} {es : List Entity}
    (h : Uses P (k + m) f es y) : Uses P k f es y := by
  obtain ⟨f', h1, h2⟩ := h
  exact ⟨f', hg.fewer' h1, h2⟩

/-- one call after a successful one -/
theorem Uses.trans {k' : Nat} {y : Rdf I S × Except X A} {X' : Type} {z : Rdf I S × Except X' B} {es es' : List Entity}
    (h : Uses P k f es y) {a : A} (ha : y.2 = .ok a)
    (h' : ∀ f', P k y.1.nameIndex y.1.ulid f' → Uses P k' f' es' z) : Uses P k' f (es ++ es') z := by
  obtain ⟨f1, h1, m1, o1⟩ := h
  obtain ⟨f2, h2, m2, o2⟩ := h' f1 h1
  refine ⟨f2, h2, fun a b hab => m2 a b (m1 a b hab), fun b hb s hs => ?_⟩
  rcases List.mem_append.1 hs with hs | hs
  · obtain ⟨v, hv⟩ := Option.isSome_iff_exists.1 (o1 a ha s hs)
    rw [m2 _ _ hv]; rfl
  · exact o2 b hb s hs

/-- the same names, another result -/
theorem Uses.congr {y : Rdf I S × Except X A} {X' : Type} {z : Rdf I S × Except X' B} {es es' : List Entity}
    (h : Uses P k f es y) (h1 : z.1.nameIndex = y.1.nameIndex) (h2 : z.1.ulid = y.1.ulid)
    (h3 : ∀ b, z.2 = .ok b → ∃ a, y.2 = .ok a) (he : ∀ e ∈ es', e ∈ es) : Uses P k f es' z := by
  obtain ⟨f', p1, p2, p3⟩ := h
  refine ⟨f', by rw [h1, h2]; exact p1, p2, fun b hb s hs => ?_⟩
  obtain ⟨a, ha⟩ := h3 b hb
  exact p3 a ha s (he _ hs)

theorem uses_nil (h : P k r.nameIndex r.ulid f) (x : Except X A) : Uses P k f [] (r, x) :=
  ⟨f, h, fun _ _ h => h, fun _ _ s hs => by cases hs⟩

theorem uses_error (h : P k r.nameIndex r.ulid f) (es : List Entity) (e : X) :
    Uses P k f es ((r, .error e) : Rdf I S × Except X A) :=
  ⟨f, h, fun _ _ h => h, fun _ ha => by cases ha⟩

theorem uses_entity (hg : Grows ix P) (h : P (k + 1) r.nameIndex r.ulid f) (e : Entity) :
    Uses P k f [e] (r.lookupOrCreateEntity (SX := SX) ix e) := by
  cases e with
  | ulid v => exact ⟨f, hg.fewer h, fun _ _ h => h, fun _ _ s hs => by simp at hs⟩
  | string s =>
    unfold lookupOrCreateEntity
    dsimp only
    rw [(hg.shows h).1 s]
    cases hs : f s with
    | some v =>
      refine ⟨f, hg.fewer h, fun _ _ h => h, fun _ _ s' hs' => ?_⟩
      simp only [List.mem_singleton, Entity.string.injEq] at hs'
      rw [hs', hs]; rfl
    | none =>
      obtain ⟨f', h1, h2, h3⟩ := hg.set h hs
      dsimp only [Gen.fresh]
      cases hset : ix.set r.nameIndex s (r.ulid 0) with
      | mk i res =>
        rw [hset] at h1 h3
        cases res with
        | error e => exact ⟨f', h1, h2, fun a ha => by cases ha⟩
        | ok v =>
          refine ⟨f', h1, h2, fun _ _ s' hs' => ?_⟩
          simp only [List.mem_singleton, Entity.string.injEq] at hs'
          rw [hs', h3 rfl]; rfl

theorem uses_triple (hg : Grows ix P) (h : P (k + 3) r.nameIndex r.ulid f) (t : Triple Entity) :
    Uses P k f (RdfState.parts t) (r.createTriple (SX := SX) ix t) := by
  have h1 := uses_entity (SX := SX) hg h t.sub
  unfold createTriple
  cases e1 : r.lookupOrCreateEntity (SX := SX) ix t.sub with
  | mk r1 res =>
    rw [e1] at h1
    cases res with
    | error e => exact (h1.fewer hg).error
    | ok a =>
      have h2 : Uses P (k + 1) f ([t.sub] ++ [t.pred]) (r1.lookupOrCreateEntity (SX := SX) ix t.pred) :=
        h1.trans rfl (fun f1 hf1 => uses_entity (SX := SX) hg hf1 t.pred)
      dsimp only
      cases e2 : r1.lookupOrCreateEntity (SX := SX) ix t.pred with
      | mk r2 res =>
        rw [e2] at h2
        cases res with
        | error e => exact (h2.fewer hg).error
        | ok b =>
          have h3 : Uses P k f ([t.sub] ++ [t.pred] ++ [t.obj]) (r2.lookupOrCreateEntity (SX := SX) ix t.obj) :=
            h2.trans rfl (fun f1 hf1 => uses_entity (SX := SX) hg hf1 t.obj)
          dsimp only
          cases e3 : r2.lookupOrCreateEntity (SX := SX) ix t.obj with
          | mk r3 res =>
            rw [e3] at h3
            cases res with
            | error e => exact h3.error
            | ok c => exact h3.congr rfl rfl (fun _ _ => ⟨c, rfl⟩) (fun e he => he)

theorem uses_onGraph {y : Rdf I S × Except X A} {es : List Entity} {a : A} (h : Uses P k f es y) (ha : y.2 = .ok a)
    (x : S × Except SX Unit) : Uses P k f es (y.1.onGraph (IX := IX) x) := by
  obtain ⟨g, res⟩ := x
  cases res <;> exact h.congr rfl rfl (fun _ _ => ⟨a, ha⟩) (fun e he => he)

theorem uses_insertNode (hg : Grows ix P) (h : P (k + 1) r.nameIndex r.ulid f) (e : Entity) (p : NP) :
    Uses P k f [e] (r.insertNode ix st e p) := by
  have h1 := uses_entity (SX := SX) hg h e
  unfold insertNode
  cases e1 : r.lookupOrCreateEntity (SX := SX) ix e with
  | mk r1 res =>
    rw [e1] at h1
    cases res with
    | error e => exact h1.error
    | ok a => exact uses_onGraph h1 rfl _

theorem uses_mergeNode (hg : Grows ix P) (h : P (k + 1) r.nameIndex r.ulid f) (e : Entity) (p : NP) :
    Uses P k f [e] (r.mergeNode ix st e p) := by
  have h1 := uses_entity (SX := SX) hg h e
  unfold mergeNode
  cases e1 : r.lookupOrCreateEntity (SX := SX) ix e with
  | mk r1 res =>
    rw [e1] at h1
    cases res with
    | error e => exact h1.error
    | ok a => exact uses_onGraph h1 rfl _

theorem uses_insertEdge (hg : Grows ix P) (h : P (k + 3) r.nameIndex r.ulid f) (t : Triple Entity) (p : EP) :
    Uses P k f (RdfState.parts t) (r.insertEdge ix st t p) := by
  have h1 := uses_triple (SX := SX) hg h t
  unfold insertEdge
  cases e1 : r.createTriple (SX := SX) ix t with
  | mk r1 res =>
    rw [e1] at h1
    cases res with
    | error e => exact h1.error
    | ok a => exact uses_onGraph h1 rfl _

theorem uses_mergeEdge (hg : Grows ix P) (h : P (k + 3) r.nameIndex r.ulid f) (t : Triple Entity) (p : EP) :
    Uses P k f (RdfState.parts t) (r.mergeEdge ix st t p) := by
  have h1 := uses_triple (SX := SX) hg h t
  unfold mergeEdge
  cases e1 : r.createTriple (SX := SX) ix t with
  | mk r1 res =>
    rw [e1] at h1
    cases res with
    | error e => exact h1.error
    | ok a => exact uses_onGraph h1 rfl _

theorem uses_absorb (hg : Grows ix P) {α : Type} {c : Nat} {F : Rdf I S → α → Rdf I S × Except X Unit}
    {ents : α → List Entity} (hF : ∀ {k r f}, P (k + c) r.nameIndex r.ulid f → ∀ a, Uses P k f (ents a) (F r a))
    (l : List (Except E α)) {k : Nat} {r : Rdf I S} {f : String → Option Ulid}
    (h : P (k + c * l.length) r.nameIndex r.ulid f) :
    Uses P k f (itemEntities ents l) (absorb F r l) := by
  induction l generalizing r f with
  | nil => exact uses_nil h _
  | cons a l ih =>
    cases a with
    | error e => exact uses_error (hg.fewer' h) _ _
    | ok a =>
      rw [List.length_cons, Nat.mul_succ, ← Nat.add_assoc] at h
      have h1 := hF h a
      unfold absorb
      cases e1 : F r a with
      | mk r1 res =>
        rw [e1] at h1
        cases res with
        | error e => exact (h1.fewer hg).error
        | ok u =>
          have : itemEntities ents (Except.ok (ε := E) a :: l) = ents a ++ itemEntities ents l := rfl
          rw [this]
          exact h1.trans rfl (fun f1 hf1 => ih hf1)

theorem Uses.tag {y : Rdf I S × Except X Unit} {es : List Entity} (h : Uses P k f es y) :
    Uses P k f es (y.1, Rdf.tag (E := E) y.2) :=
  h.congr rfl rfl (fun b hb => by
    obtain ⟨r, res⟩ := y
    cases res with
    | error e => cases hb
    | ok a => exact ⟨a, rfl⟩) (fun e he => he)

theorem lookup_isSome (hn : ix.Shows r.nameIndex f) {s : String} {v : Ulid}
    (h : r.lookupEntity (SX := SX) ix (.string s) = .ok v) : f s = some v := by
  unfold lookupEntity at h
  dsimp only at h
  rw [hn.1 s] at h
  cases hs : f s with
  | none => rw [hs] at h; cases h
  | some w => rw [hs] at h; cases h; rfl

theorem uses_call (hg : Grows ix P) (op : Op E Entity NP EP) (h : P (k + op.creations) r.nameIndex r.ulid f) :
    Uses P k f op.entities (r.call ix st op) := by
  cases op with
  | insertNode e p => exact (uses_insertNode hg h e p).tag
  | insertEdge t p => exact (uses_insertEdge hg h t p).tag
  | mergeNode e p => exact (uses_mergeNode hg h e p).tag
  | mergeEdge t p => exact (uses_mergeEdge hg h t p).tag
  | removeNode e =>
    refine Uses.tag (y := r.removeNode ix st e) ?_
    unfold removeNode
    cases hl : r.lookupEntity (SX := SX) ix e with
    | error e => exact uses_error h _ _
    | ok u =>
      refine uses_onGraph (X := Unit) (y := (r, .ok ())) ⟨f, h, fun _ _ h => h, fun _ _ s hs => ?_⟩ rfl _
      simp only [Op.entities, List.mem_singleton] at hs
      subst hs
      rw [lookup_isSome (hg.shows h) hl]; rfl
  | removeEdge t =>
    refine Uses.tag (y := r.removeEdge ix st t) ?_
    unfold removeEdge
    cases hl : t.tryMap (fun e => r.lookupEntity (SX := SX) ix e) with
    | error e => exact uses_error h _ _
    | ok u =>
      refine uses_onGraph (X := Unit) (y := (r, .ok ())) ⟨f, h, fun _ _ h => h, fun _ _ s hs => ?_⟩ rfl _
      obtain ⟨l1, l2, l3⟩ := (Props.C42_triple_tryMap t _ u).1 hl
      simp only [Op.entities, RdfState.parts, List.mem_cons, List.not_mem_nil, or_false] at hs
      rcases hs with hs | hs | hs
      · rw [← hs] at l1; rw [lookup_isSome (hg.shows h) l1]; rfl
      · rw [← hs] at l2; rw [lookup_isSome (hg.shows h) l2]; rfl
      · rw [← hs] at l3; rw [lookup_isSome (hg.shows h) l3]; rfl
  | extend src =>
    show Uses P k f _ (r.extend ix st src)
    unfold extend
    have h' : P (k + 3 * src.edges.length + 1 * src.nodes.length) r.nameIndex r.ulid f := by
      rw [Nat.one_mul, show k + 3 * src.edges.length + src.nodes.length =
        k + (src.nodes.length + 3 * src.edges.length) by omega]
      exact h
    have h1 := uses_absorb (E := E) (F := fun r x => insertNode ix st r x.1 x.2) hg (ents := fun x => [x.1])
      (fun h a => uses_insertNode hg h a.1 a.2) src.nodes h'
    split
    · next e1 => rw [e1] at h1; exact (h1.fewer hg).error
    · next e1 =>
      rw [e1] at h1
      exact h1.trans rfl (fun f1 hf1 => uses_absorb (E := E) (F := fun r x => insertEdge ix st r x.1 x.2) hg
        (ents := fun x => RdfState.parts x.1) (fun h a => uses_insertEdge hg h a.1 a.2) src.edges hf1)
  | merge src =>
    show Uses P k f _ (r.merge ix st src)
    unfold merge
    have h' : P (k + 3 * src.edges.length + 1 * src.nodes.length) r.nameIndex r.ulid f := by
      rw [Nat.one_mul, show k + 3 * src.edges.length + src.nodes.length =
        k + (src.nodes.length + 3 * src.edges.length) by omega]
      exact h
    have h1 := uses_absorb (E := E) (F := fun r x => mergeNode ix st r x.1 x.2) hg (ents := fun x => [x.1])
      (fun h a => uses_mergeNode hg h a.1 a.2) src.nodes h'
    split
    · next e1 => rw [e1] at h1; exact (h1.fewer hg).error
    · next e1 =>
      rw [e1] at h1
      exact h1.trans rfl (fun f1 hf1 => uses_absorb (E := E) (F := fun r x => mergeEdge ix st r x.1 x.2) hg
        (ents := fun x => RdfState.parts x.1) (fun h a => uses_mergeEdge hg h a.1 a.2) src.edges hf1)

theorem knows_callAll (hg : Grows ix P) (ops : List (Op E Entity NP EP))
    (h : P (k + creations ops) r.nameIndex r.ulid f) :
    ∃ f', P k (r.callAll ix st ops).1.nameIndex (r.callAll ix st ops).1.ulid f' ∧ ∀ a b, f a = some b → f' a = some b := by
  induction ops generalizing r f with
  | nil => exact ⟨f, h, fun _ _ h => h⟩
  | cons op ops ih =>
    have e : creations (op :: ops) = op.creations + creations ops := by simp [creations]
    rw [e, show k + (op.creations + creations ops) = k + creations ops + op.creations by omega] at h
    obtain ⟨f1, h1, h2, -⟩ := uses_call (st := st) hg op h
    obtain ⟨f2, h3, h4⟩ := ih h1
    exact ⟨f2, h3, fun a b hab => h4 a b (h2 a b hab)⟩

/-! ## two ways to keep it up -/

/-- with a lawful index and ids not used before -/
theorem grows_lawful (hix : ix.Lawful) : Grows ix (fun k i u f => ix.Shows i f ∧ Fresh k u ∧ ∀ j < k, ∀ s, f s ≠ some (u j)) where
  shows h := h.1
  fewer {k i u f} h := ⟨h.1, fun a ha b hb => h.2.1 a (by omega) b (by omega), fun j hj => h.2.2 j (by omega)⟩
  set {k i u f s} h hs := by
    obtain ⟨i', h1, h2⟩ := hix i f s (u 0) h.1 hs (h.2.2 0 (Nat.succ_pos k))
    refine ⟨fun a => if a = s then some (u 0) else f a, ⟨by rw [h1]; exact h2, ?_, ?_⟩, ?_, fun _ => by simp⟩
    · intro a ha b hb he
      have := h.2.1 (a + 1) (by omega) (b + 1) (by omega) he
      omega
    · intro j hj a ha
      by_cases e : a = s
      · simp only [e, if_true, Option.some.injEq] at ha
        have := h.2.1 0 (by omega) (j + 1) (by omega) ha
        omega
      · simp only [e, if_false] at ha
        exact h.2.2 (j + 1) (by omega) a ha
    · intro a b hab
      have : a ≠ s := fun e => by rw [e, hs] at hab; cases hab
      simp only [this, if_false, hab]

/-- with an index on which a failed `set` changes nothing, whatever the ids -/
theorem grows_safe (hix : ix.Lawful)
    (hsafe : ∀ i f a b, ix.Shows i f → (∃ a', f a' = some b) → f a = none →
      (ix.set i a b).1 = i ∧ (ix.set i a b).2 ≠ .ok ()) :
    Grows ix (fun _ i _ f => ix.Shows i f) where
  shows h := h
  fewer h := h
  set {k i u f s} h hs := by
    by_cases hu : ∃ a', f a' = some (u 0)
    · obtain ⟨h1, h2⟩ := hsafe i f s (u 0) h hu hs
      exact ⟨f, by rw [h1]; exact h, fun _ _ h => h, fun he => absurd he h2⟩
    · push Not at hu
      obtain ⟨i', h1, h2⟩ := hix i f s (u 0) h hs hu
      refine ⟨_, by rw [h1]; exact h2, fun a b hab => ?_, fun _ => by simp⟩
      have : a ≠ s := fun e => by rw [e, hs] at hab; cases hab
      simp only [this, if_false, hab]

end Rdf

end Verif
