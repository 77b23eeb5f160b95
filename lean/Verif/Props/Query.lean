import Verif.Proof.Query
import Verif.Proof.MemReach
import Verif.Props.Sample

/-!
# C14 (in-memory part), C42, C43: queries
-/

set_option linter.unusedSectionVars false
set_option maxRecDepth 100000

namespace Verif.Props

open Verif Spec ConcreteId

/-! ## C14 Queries return exactly the matching part of the graph -/

section
variable {Id NP EP E : Type} [LinearOrder Id] [ConcreteId Id] [LawfulId Id]
variable {mN : NP → NP → NP} {mE : EP → EP → EP}

/-- The answer is a reachable store showing exactly the selected part (`Spec.select`).  Nothing of the answer
depends on how the queried store was built.  The queried store is not changed: `run` takes `&self`. -/
theorem C14_mem {n m : Nat} {s : Mem Id NP EP} {G : Graph Id NP EP} (hs : Mem.Reach E mN mE m s)
    (hG : Shows s.obs G) {g : Gen Id} (hg : Fresh (n + s.edgeCount) g) {q : Query Id} (hq : Spec.Query.Nodup q) :
    Mem.Reach E mN mE n (s.run g q) ∧ Shows (s.run g q).obs (select G q) :=
  ⟨.run hs hg hq, by rw [← hs.graph_of_shows hG]; exact (Mem.run_spec hs.inv n hg q hq).shows⟩

/-- The iteration order of the query set, and the ids the generators give, do not matter. -/
theorem C14_mem_order {n m : Nat} {s : Mem Id NP EP} (hs : Mem.Reach E mN mE m s) {g g' : Gen Id}
    (hg : Fresh (n + s.edgeCount) g) (hg' : Fresh (n + s.edgeCount) g') {q q' : Query Id}
    (hq : Spec.Query.Nodup q) (hq' : Spec.Query.Nodup q') (hqq : Spec.Query.Same q q') :
    (s.run g q).obs = (s.run g' q').obs := by
  have h1 := (Mem.run_spec hs.inv n hg q hq)
  have h2 := (Mem.run_spec hs.inv n hg' q' hq')
  rw [← select_same _ hqq] at h2
  exact Mem.obs_ext h1.inv.toAgree h2.inv.toAgree (h1.graph.trans h2.graph.symm)

/-- a two-pattern predicate-object query whose first pattern has no match -/
example : (Sample.store.run (Sample.cg 9) (.PO [(2, 9), (5, 2)])).iterEdges .SPO = [.ok (⟨1, 5, 2⟩, 71)] := by
  decide +kernel

example : Shows (Sample.store.run (Sample.cg 9) (.PO [(2, 9), (5, 2)])).obs
    (select Sample.store.graph (.PO [(2, 9), (5, 2)])) :=
  (C14_mem (n := 0) (Sample.store_reach 0 (by decide)) (Mem.shows (Sample.store_reach 0 (by decide)).inv.toAgree)
    (Sample.cg_fresh _ _ (by decide +kernel)) (by unfold Spec.Query.Nodup; decide)).2

example : (Sample.store.run (Sample.cg 9) (.S [1, 2])).obs = (Sample.store.run (Sample.cg 3) (.S [2, 1])).obs :=
  C14_mem_order (n := 0) (Sample.store_reach 0 (by decide)) (Sample.cg_fresh _ _ (by decide +kernel))
    (Sample.cg_fresh _ _ (by decide +kernel)) (by unfold Spec.Query.Nodup; decide)
    (by unfold Spec.Query.Nodup; decide)
    ⟨rfl, fun x => by simp [Spec.Query.items, or_comm]⟩

end

/-! ## C42 Query mapping -/

section
variable {α β γ ε : Type} [DecidableEq β] [DecidableEq γ]

theorem C42_map (f : α → β) (q : Query α) :
    Spec.Query.kind (q.map f) = Spec.Query.kind q ∧ Spec.Query.Nodup (q.map f) ∧
    ∀ x, x ∈ Spec.Query.items (q.map f) ↔ ∃ y ∈ Spec.Query.items q, x = y.map f := by
  have inj1 : Function.Injective (fun a : β => [a]) := fun a b h => by simpa using h
  have inj2 : Function.Injective (fun x : β × β => [x.1, x.2]) := fun a b h => by
    simp at h; exact Prod.ext h.1 h.2
  have inj3 : Function.Injective (fun x : β × β × β => [x.1, x.2.1, x.2.2]) := fun a b h => by
    simp at h; exact Prod.ext h.1 (Prod.ext h.2.1 h.2.2)
  cases q
  case NodeProps l | S l | P l | O l =>
    refine ⟨rfl, (HSet.nodup_collect _).map inj1, fun x => ?_⟩
    simp only [Query.map, Spec.Query.items, List.mem_map, HSet.mem_collect]
    constructor
    · rintro ⟨b, ⟨a, ha, rfl⟩, rfl⟩; exact ⟨[a], ⟨a, ha, rfl⟩, rfl⟩
    · rintro ⟨_, ⟨a, ha, rfl⟩, rfl⟩; exact ⟨f a, ⟨a, ha, rfl⟩, rfl⟩
  case SP l | SO l | PO l =>
    refine ⟨rfl, (HSet.nodup_collect _).map inj2, fun x => ?_⟩
    simp only [Query.map, Spec.Query.items, List.mem_map, HSet.mem_collect]
    constructor
    · rintro ⟨b, ⟨a, ha, rfl⟩, rfl⟩; exact ⟨[a.1, a.2], ⟨a, ha, rfl⟩, rfl⟩
    · rintro ⟨_, ⟨a, ha, rfl⟩, rfl⟩; exact ⟨(f a.1, f a.2), ⟨a, ha, rfl⟩, rfl⟩
  case SPO l =>
    refine ⟨rfl, (HSet.nodup_collect _).map inj3, fun x => ?_⟩
    simp only [Query.map, Spec.Query.items, List.mem_map, HSet.mem_collect]
    constructor
    · rintro ⟨b, ⟨a, ha, rfl⟩, rfl⟩; exact ⟨[a.1, a.2.1, a.2.2], ⟨a, ha, rfl⟩, rfl⟩
    · rintro ⟨_, ⟨a, ha, rfl⟩, rfl⟩; exact ⟨(f a.1, f a.2.1, f a.2.2), ⟨a, ha, rfl⟩, rfl⟩

theorem C42_map_comp (f : α → β) (g : β → γ) (q : Query α) :
    Spec.Query.Same ((q.map f).map g) (q.map (g ∘ f)) := by
  refine ⟨((C42_map g _).1.trans (C42_map f q).1).trans (C42_map (g ∘ f) q).1.symm, fun x => ?_⟩
  rw [(C42_map g _).2.2, (C42_map (g ∘ f) q).2.2]
  simp only [(C42_map f q).2.2]
  constructor
  · rintro ⟨_, ⟨y, hy, rfl⟩, rfl⟩; exact ⟨y, hy, by simp⟩
  · rintro ⟨y, hy, rfl⟩; exact ⟨_, ⟨y, hy, rfl⟩, by simp⟩

/-- If `f` succeeds on every id occurring in the query, `try_map f` succeeds and agrees with `map`. -/
theorem C42_tryMap_ok (f : α → Except ε β) (g : α → β) (q : Query α)
    (h : ∀ x ∈ Spec.Query.items q, ∀ a ∈ x, f a = .ok (g a)) : q.tryMap f = .ok (q.map g) := by
  cases q
  case NodeProps l | S l | P l | O l =>
    simp only [Query.tryMap, Query.map]
    rw [collectResult_ok (g := g) (fun a ha => h [a] (List.mem_map.2 ⟨a, ha, rfl⟩) a (by simp))]
    rfl
  case SP l | SO l | PO l =>
    simp only [Query.tryMap, Query.map]
    rw [collectResult_ok (g := fun (x : α × α) => (g x.1, g x.2)) (fun x hx => by
      have h1 := h [x.1, x.2] (List.mem_map.2 ⟨x, hx, rfl⟩) x.1 (by simp)
      have h2 := h [x.1, x.2] (List.mem_map.2 ⟨x, hx, rfl⟩) x.2 (by simp)
      simp [Query.tryPair, h1, h2])]
    rfl
  case SPO l =>
    simp only [Query.tryMap, Query.map]
    rw [collectResult_ok (g := fun (x : α × α × α) => (g x.1, g x.2.1, g x.2.2)) (fun x hx => by
      have h1 := h _ (List.mem_map.2 ⟨x, hx, rfl⟩) x.1 (by simp)
      have h2 := h _ (List.mem_map.2 ⟨x, hx, rfl⟩) x.2.1 (by simp)
      have h3 := h _ (List.mem_map.2 ⟨x, hx, rfl⟩) x.2.2 (by simp)
      simp [Query.tryTriple, h1, h2, h3])]
    rfl

/-- If `try_map f` fails with `e`, then `f` failed with `e` on an id occurring in the query. -/
theorem C42_tryMap_error (f : α → Except ε β) (q : Query α) (e : ε) (h : q.tryMap f = .error e) :
    ∃ x ∈ Spec.Query.items q, ∃ a ∈ x, f a = .error e := by
  have pair : ∀ x : α × α, Query.tryPair f x = .error e → ∃ a ∈ [x.1, x.2], f a = .error e := by
    intro x hx
    unfold Query.tryPair at hx
    split at hx
    · cases hx; exact ⟨x.1, by simp, by assumption⟩
    · split at hx
      · cases hx; exact ⟨x.2, by simp, by assumption⟩
      · cases hx
  have trip : ∀ x : α × α × α, Query.tryTriple f x = .error e → ∃ a ∈ [x.1, x.2.1, x.2.2], f a = .error e := by
    intro x hx
    unfold Query.tryTriple at hx
    split at hx
    · cases hx; exact ⟨x.1, by simp, by assumption⟩
    · split at hx
      · cases hx; exact ⟨x.2.1, by simp, by assumption⟩
      · split at hx
        · cases hx; exact ⟨x.2.2, by simp, by assumption⟩
        · cases hx
  have hmap : ∀ {δ : Type} (c : δ → Query β) (r : Except ε δ), r.map c = .error e → r = .error e := by
    intro δ c r hr; cases r <;> cases hr; rfl
  cases q
  case NodeProps l | S l | P l | O l =>
    obtain ⟨a, ha, hf⟩ := collectResult_err (hmap _ _ h)
    exact ⟨[a], List.mem_map.2 ⟨a, ha, rfl⟩, a, by simp, hf⟩
  case SP l | SO l | PO l =>
    obtain ⟨x, hx, hf⟩ := collectResult_err (hmap _ _ h)
    exact ⟨_, List.mem_map.2 ⟨x, hx, rfl⟩, pair x hf⟩
  case SPO l =>
    obtain ⟨x, hx, hf⟩ := collectResult_err (hmap _ _ h)
    exact ⟨_, List.mem_map.2 ⟨x, hx, rfl⟩, trip x hf⟩

/-- `try_map f` succeeds exactly when `f` succeeds on every id occurring in the query. -/
theorem C42_tryMap_iff (f : α → Except ε β) (q : Query α) :
    (∃ q', q.tryMap f = .ok q') ↔ ∀ x ∈ Spec.Query.items q, ∀ a ∈ x, ∃ b, f a = .ok b := by
  have hmap : ∀ {δ : Type} (c : δ → Query β) (r : Except ε δ) (q' : Query β), r.map c = .ok q' →
      ∃ d, r = .ok d := by
    intro δ c r q' hr
    cases r with
    | error e => cases hr
    | ok d => exact ⟨d, rfl⟩
  have pair : ∀ (x : α × α) b, Query.tryPair f x = .ok b → ∀ a ∈ [x.1, x.2], ∃ b, f a = .ok b := by
    intro x b hx
    unfold Query.tryPair at hx
    split at hx
    · cases hx
    · split at hx
      · cases hx
      · intro a ha; simp at ha; rcases ha with rfl | rfl <;> exact ⟨_, by assumption⟩
  have trip : ∀ (x : α × α × α) b, Query.tryTriple f x = .ok b → ∀ a ∈ [x.1, x.2.1, x.2.2], ∃ b, f a = .ok b := by
    intro x b hx
    unfold Query.tryTriple at hx
    split at hx
    · cases hx
    · split at hx
      · cases hx
      · split at hx
        · cases hx
        · intro a ha; simp at ha; rcases ha with rfl | rfl | rfl <;> exact ⟨_, by assumption⟩
  constructor
  · rintro ⟨q', h⟩ x hx
    cases q
    case NodeProps l | S l | P l | O l =>
      obtain ⟨r, hr⟩ := hmap _ _ _ h
      obtain ⟨a, ha, rfl⟩ := List.mem_map.1 hx
      intro b hb
      rw [List.mem_singleton] at hb; subst hb
      exact collectResult_all hr _ ha
    case SP l | SO l | PO l =>
      obtain ⟨r, hr⟩ := hmap _ _ _ h
      obtain ⟨y, hy, rfl⟩ := List.mem_map.1 hx
      obtain ⟨b, hb⟩ := collectResult_all hr _ hy
      exact pair y b hb
    case SPO l =>
      obtain ⟨r, hr⟩ := hmap _ _ _ h
      obtain ⟨y, hy, rfl⟩ := List.mem_map.1 hx
      obtain ⟨b, hb⟩ := collectResult_all hr _ hy
      exact trip y b hb
  · intro h
    cases hq : q.tryMap f with
    | ok q' => exact ⟨q', rfl⟩
    | error e =>
      obtain ⟨x, hx, a, ha, hf⟩ := C42_tryMap_error f q e hq
      obtain ⟨b, hb⟩ := h x hx a ha
      rw [hf] at hb; cases hb

/-- `Query::from(triples)` asks for exactly those triples. -/
theorem C42_ofTriples (l : List (Triple β)) :
    Spec.Query.kind (Query.ofTriples l) = .spo ∧ Spec.Query.Nodup (Query.ofTriples l) ∧
    ∀ a b c, [a, b, c] ∈ Spec.Query.items (Query.ofTriples l) ↔ (⟨a, b, c⟩ : Triple β) ∈ l := by
  refine ⟨rfl, (HSet.nodup_collect _).map (fun a b h => ?_), fun a b c => ?_⟩
  · simp at h; exact Prod.ext h.1 (Prod.ext h.2.1 h.2.2)
  · simp only [Query.ofTriples, Spec.Query.items, List.mem_map, HSet.mem_collect]
    constructor
    · rintro ⟨x, ⟨t, ht, rfl⟩, h⟩
      simp only [List.cons.injEq, and_true] at h
      obtain ⟨rfl, rfl, rfl⟩ := h
      exact ht
    · intro h; exact ⟨_, ⟨_, h, rfl⟩, rfl⟩

example : (Query.SP [((1 : Nat), (2 : Nat)), (3, 4), (5, 2)]).map (· % 2) = Query.SP [(1, 0)] := rfl
example : ((Query.SO [((1 : Nat), (2 : Nat)), (3, 4)]).tryMap
    (fun x => if x = 3 then (Except.error "three" : Except String Nat) else .ok (x + 1))) = .error "three" := rfl
example : ((Query.SO [((1 : Nat), (2 : Nat)), (3, 4)]).tryMap
    (fun x => if x = 9 then (Except.error "nine" : Except String Nat) else .ok (x + 1))) =
      .ok (Query.SO [(2, 3), (4, 5)]) := rfl
example : ∀ x ∈ Spec.Query.items (Query.SO [((1 : Nat), (2 : Nat)), (3, 4)]), ∀ a ∈ x,
    (fun x => if x = 9 then (Except.error "nine" : Except String Nat) else .ok (x + 1)) a = .ok (a + 1) := by
  decide
example : Query.ofTriples [(⟨1, 2, 3⟩ : Triple Nat), ⟨4, 5, 6⟩, ⟨1, 2, 3⟩] = .SPO [(1, 2, 3), (4, 5, 6)] := rfl

end

/-- `Triple::try_map` succeeds exactly if `f` does on all three ids, and then agrees with `map`. -/
theorem C42_triple_tryMap {α β ε : Type} (t : Triple α) (f : α → Except ε β) (u : Triple β) :
    t.tryMap f = .ok u ↔ f t.sub = .ok u.sub ∧ f t.pred = .ok u.pred ∧ f t.obj = .ok u.obj := by
  obtain ⟨s, p, o⟩ := t
  obtain ⟨s', p', o'⟩ := u
  simp only [Triple.tryMap]
  cases f s <;> cases f p <;> cases f o <;> simp

/-- Its error is that of the first id on which `f` fails, in the order subject, predicate, object. -/
theorem C42_triple_tryMap_error {α β ε : Type} (t : Triple α) (f : α → Except ε β) (e : ε) :
    t.tryMap f = .error e ↔ f t.sub = .error e ∨ (∃ s, f t.sub = .ok s) ∧ (f t.pred = .error e ∨
      (∃ p, f t.pred = .ok p) ∧ f t.obj = .error e) := by
  obtain ⟨s, p, o⟩ := t
  simp only [Triple.tryMap]
  cases f s <;> cases f p <;> cases f o <;> simp

theorem C42_triple_map {α β γ : Type} (t : Triple α) (f : α → β) (g : β → γ) :
    (t.map f).sub = f t.sub ∧ (t.map f).pred = f t.pred ∧ (t.map f).obj = f t.obj ∧
      (t.map f).map g = t.map (g ∘ f) := ⟨rfl, rfl, rfl, rfl⟩

theorem C42_propsTriple_tryMap {I N D I' N' D' ε : Type} (t : PropsTriple I N D)
    (f : I × N → Except ε (I' × N')) (g : I × D → Except ε (I' × D')) (u : PropsTriple I' N' D') :
    t.tryMap f g = .ok u ↔ f t.sub = .ok u.sub ∧ g t.pred = .ok u.pred ∧ f t.obj = .ok u.obj := by
  obtain ⟨s, p, o⟩ := t
  obtain ⟨s', p', o'⟩ := u
  simp only [PropsTriple.tryMap]
  cases f s <;> cases g p <;> cases f o <;> simp

theorem C42_propsTriple_map {I N D I' N' D' ε : Type} (t : PropsTriple I N D)
    (f : I × N → I' × N') (g : I × D → I' × D') :
    t.tryMap (ε := ε) (.ok ∘ f) (.ok ∘ g) = .ok (t.map f g) := rfl

example : (⟨1, 2, 3⟩ : Triple Nat).tryMap (fun n => if n = 2 then .error "two" else .ok (n + 1)) = .error "two" ∧
    (⟨1, 4, 3⟩ : Triple Nat).tryMap (fun n => if n = 2 then .error "two" else .ok (n + 1)) = .ok ⟨2, 5, 4⟩ :=
  ⟨(C42_triple_tryMap_error _ _ _).2 (.inr ⟨⟨2, rfl⟩, .inl rfl⟩), (C42_triple_tryMap _ _ _).2 ⟨rfl, rfl, rfl⟩⟩

/-! ## C43 query! builds the full cartesian product -/

section
variable {Id : Type} [DecidableEq Id]

/-- What the pattern asks for, as kind and lists of alternatives. -/
def patMeaning : QueryPat Id → Option (QKind × List (List Id))
  | .nodeProps (.ids l) => some (.nodeProps, [l])
  | .edge (.ids s) .any .any => some (.s, [s])
  | .edge .any (.ids p) .any => some (.p, [p])
  | .edge .any .any (.ids o) => some (.o, [o])
  | .edge (.ids s) (.ids p) .any => some (.sp, [s, p])
  | .edge (.ids s) .any (.ids o) => some (.so, [s, o])
  | .edge .any (.ids p) (.ids o) => some (.po, [p, o])
  | .edge (.ids s) (.ids p) (.ids o) => some (.spo, [s, p, o])
  | .nodeProps .any => none
  | .edge .any .any .any => none

/-- `x` picks one element from each list. -/
def Picks : List Id → List (List Id) → Prop := List.Forall₂ (· ∈ ·)

/-- A pattern that names something expands; the query has the kind of the pattern, lists nothing twice, and asks
for exactly the cartesian product.  A pattern without any name does not compile. -/
theorem C43_expand (pat : QueryPat Id) :
    match patMeaning pat with
    | none => pat.expand = none
    | some (k, ls) => ∃ q, pat.expand = some q ∧ Spec.Query.kind q = k ∧ Spec.Query.Nodup q ∧
        ∀ x, x ∈ Spec.Query.items q ↔ Picks x ls := by
  have inj1 : Function.Injective (fun a : Id => [a]) := fun a b h => by simpa using h
  have inj2 : Function.Injective (fun x : Id × Id => [x.1, x.2]) := fun a b h => by
    simp at h; exact Prod.ext h.1 h.2
  have inj3 : Function.Injective (fun x : Id × Id × Id => [x.1, x.2.1, x.2.2]) := fun a b h => by
    simp at h; exact Prod.ext h.1 (Prod.ext h.2.1 h.2.2)
  have one : ∀ (l : List Id) (x : List Id), x ∈ (HSet.collect l).map (fun a => [a]) ↔ Picks x [l] := by
    intro l x
    simp only [Picks, List.mem_map, HSet.mem_collect]
    constructor
    · rintro ⟨a, ha, rfl⟩; exact .cons ha .nil
    · intro h
      cases h with
      | cons ha h => cases h; exact ⟨_, ha, rfl⟩
  have two : ∀ (l m : List Id) (x : List Id),
      x ∈ (QueryPat.pairs l m).map (fun a => [a.1, a.2]) ↔ Picks x [l, m] := by
    intro l m x
    simp only [Picks, List.mem_map]
    constructor
    · rintro ⟨⟨a, b⟩, ha, rfl⟩
      rw [QueryPat.mem_pairs] at ha
      exact .cons ha.1 (.cons ha.2 .nil)
    · intro h
      cases h with
      | cons ha h => cases h with
        | cons hb h => cases h; exact ⟨(_, _), (QueryPat.mem_pairs _ _ _ _).2 ⟨ha, hb⟩, rfl⟩
  have three : ∀ (l m k : List Id) (x : List Id),
      x ∈ (QueryPat.triples l m k).map (fun a => [a.1, a.2.1, a.2.2]) ↔ Picks x [l, m, k] := by
    intro l m k x
    simp only [Picks, List.mem_map]
    constructor
    · rintro ⟨⟨a, b, c⟩, ha, rfl⟩
      rw [QueryPat.mem_triples] at ha
      exact .cons ha.1 (.cons ha.2.1 (.cons ha.2.2 .nil))
    · intro h
      cases h with
      | cons ha h => cases h with
        | cons hb h => cases h with
          | cons hc h =>
            cases h; exact ⟨(_, _, _), (QueryPat.mem_triples _ _ _ _ _ _).2 ⟨ha, hb, hc⟩, rfl⟩
  match pat with
  | .nodeProps .any => exact rfl
  | .edge .any .any .any => exact rfl
  | .nodeProps (.ids l) => exact ⟨_, rfl, rfl, (HSet.nodup_collect l).map inj1, one l⟩
  | .edge (.ids l) .any .any => exact ⟨_, rfl, rfl, (HSet.nodup_collect l).map inj1, one l⟩
  | .edge .any (.ids l) .any => exact ⟨_, rfl, rfl, (HSet.nodup_collect l).map inj1, one l⟩
  | .edge .any .any (.ids l) => exact ⟨_, rfl, rfl, (HSet.nodup_collect l).map inj1, one l⟩
  | .edge (.ids l) (.ids m) .any => exact ⟨_, rfl, rfl, (QueryPat.nodup_pairs l m).map inj2, two l m⟩
  | .edge (.ids l) .any (.ids m) => exact ⟨_, rfl, rfl, (QueryPat.nodup_pairs l m).map inj2, two l m⟩
  | .edge .any (.ids l) (.ids m) => exact ⟨_, rfl, rfl, (QueryPat.nodup_pairs l m).map inj2, two l m⟩
  | .edge (.ids l) (.ids m) (.ids k) => exact ⟨_, rfl, rfl, (QueryPat.nodup_triples l m k).map inj3, three l m k⟩

example : (QueryPat.edge (.ids [1, 2]) .any (.ids [(3 : Nat), 3])).expand = some (.SO [(1, 3), (2, 3)]) := rfl
example : patMeaning (QueryPat.edge (.ids [1, 2]) .any (.ids [(3 : Nat), 3])) = some (.so, [[1, 2], [3, 3]]) := rfl

end

end Verif.Props
