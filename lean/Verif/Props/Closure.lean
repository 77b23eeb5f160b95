import Verif.Proof.Closure

/-!
# C68: closures that keep state

`Triple::map`, `Triple::try_map`, `Query::try_map` with closures that change what they have captured, such as the one with which
`RdfTripleStore` gives ids to names.
-/

namespace Verif.Props

open Verif Spec

variable {σ α β ε : Type}

/-- `Triple::try_map` calls the closure on subject, predicate and object in this order, and stops when it fails. -/
theorem C68_triple (t : Triple α) (f : σ → α → σ × Except ε β) (s : σ) :
    match calls f s [t.sub, t.pred, t.obj] with
    | (s', .error e) => t.tryMapMut f s = (s', .error e)
    | (s', .ok bs) => ∃ u : Triple β, t.tryMapMut f s = (s', .ok u) ∧ bs = [u.sub, u.pred, u.obj] := by
  simp only [calls, Triple.tryMapMut]
  rcases f s t.sub with ⟨s1, e | b⟩
  · rfl
  · simp only
    rcases f s1 t.pred with ⟨s2, e | b2⟩
    · rfl
    · simp only
      rcases f s2 t.obj with ⟨s3, e | b3⟩
      · rfl
      · exact ⟨⟨b, b2, b3⟩, rfl, rfl⟩

/-- `Triple::map` calls the closure on subject, predicate and object in this order. -/
theorem C68_triple_map (t : Triple α) (f : σ → α → σ × β) (s : σ) :
    ∃ u : Triple β, t.mapMut f s = ((calls (fun s a => (f s a).map id (Except.ok (ε := Empty))) s [t.sub, t.pred, t.obj]).1, u) ∧
      (calls (fun s a => (f s a).map id (Except.ok (ε := Empty))) s [t.sub, t.pred, t.obj]).2 = .ok [u.sub, u.pred, u.obj] :=
  ⟨(t.mapMut f s).2, rfl, rfl⟩

/-- `Query::try_map` calls the closure on each id of each item in turn, once for each time it occurs, until it fails; the answers make
up a query of the same kind. -/
theorem C68_query [DecidableEq β] (q : Query α) (f : σ → α → σ × Except ε β) (s : σ) :
    match calls f s (Spec.Query.items q).flatten with
    | (s', .error e) => q.tryMapMut f s = (s', .error e)
    | (s', .ok bs) => ∃ q' : Query β, q.tryMapMut f s = (s', .ok q') ∧ Spec.Query.kind q' = Spec.Query.kind q ∧
        Spec.Query.Nodup q' ∧ ∀ x, x ∈ Spec.Query.items q' ↔ x ∈ regroup (Spec.Query.items q) bs := by
  have inj1 : Function.Injective (fun a : β => [a]) := fun a b h => by simpa using h
  have inj2 : Function.Injective (fun x : β × β => [x.1, x.2]) := fun a b h => by
    simp at h; exact Prod.ext h.1 h.2
  have inj3 : Function.Injective (fun x : β × β × β => [x.1, x.2.1, x.2.2]) := fun a b h => by
    simp at h; exact Prod.ext h.1 (Prod.ext h.2.1 h.2.2)
  cases q
  case NodeProps l | S l | P l | O l =>
    have h := collectMut_set (rows_one (f := f)) inj1 s l
    rw [show Spec.Query.items _ = l.map fun a => [a] from rfl]
    simp only [Query.tryMapMut]
    generalize calls f s (l.map fun a => [a]).flatten = r at h ⊢
    rcases r with ⟨s2, e | bs⟩
    · simp only at h ⊢; rw [h]; rfl
    · obtain ⟨zs, h1, h2, h3⟩ := h
      simp only
      rw [h1]
      exact ⟨_, rfl, rfl, h2, h3⟩
  case SP l | SO l | PO l =>
    have h := collectMut_set (rows_pair (f := f)) inj2 s l
    rw [show Spec.Query.items _ = l.map fun x => [x.1, x.2] from rfl]
    simp only [Query.tryMapMut]
    generalize calls f s (l.map fun x => [x.1, x.2]).flatten = r at h ⊢
    rcases r with ⟨s2, e | bs⟩
    · simp only at h ⊢; rw [h]; rfl
    · obtain ⟨zs, h1, h2, h3⟩ := h
      simp only
      rw [h1]
      exact ⟨_, rfl, rfl, h2, h3⟩
  case SPO l =>
    have h := collectMut_set (rows_triple (f := f)) inj3 s l
    rw [show Spec.Query.items _ = l.map fun x => [x.1, x.2.1, x.2.2] from rfl]
    simp only [Query.tryMapMut]
    generalize calls f s (l.map fun x => [x.1, x.2.1, x.2.2]).flatten = r at h ⊢
    rcases r with ⟨s2, e | bs⟩
    · simp only at h ⊢; rw [h]; rfl
    · obtain ⟨zs, h1, h2, h3⟩ := h
      simp only
      rw [h1]
      exact ⟨_, rfl, rfl, h2, h3⟩

/-- A closure that logs its calls finds the ids of the query in its log, in order, up to the one on which it failed. -/
theorem C68_log [DecidableEq β] (q : Query α) (f : σ → α → σ × Except ε β) (s : σ) (log : List α) :
    (q.tryMapMut (fun (x : σ × List α) a => (((f x.1 a).1, x.2 ++ [a]), (f x.1 a).2)) (s, log)).1.2 =
      log ++ asked f s (Spec.Query.items q).flatten := by
  have key : ∀ (l : List α) (s : σ) (log : List α),
      (calls (fun (x : σ × List α) a => (((f x.1 a).1, x.2 ++ [a]), (f x.1 a).2)) (s, log) l).1.2 = log ++ asked f s l := by
    intro l
    induction l with
    | nil => intro s log; simp [calls, asked]
    | cons a l ih =>
      intro s log
      simp only [calls, asked]
      rcases hf : f s a with ⟨s1, e | b⟩
      · rfl
      · simp only
        have hi := ih s1 (log ++ [a])
        rcases hl : calls (fun (x : σ × List α) a => (((f x.1 a).1, x.2 ++ [a]), (f x.1 a).2)) (s1, log ++ [a]) l with ⟨s2, e | bs⟩ <;>
          · rw [hl] at hi; simp only at hi ⊢; rw [hi]; simp
  have h := C68_query q (fun (x : σ × List α) a => (((f x.1 a).1, x.2 ++ [a]), (f x.1 a).2)) (s, log)
  have k := key (Spec.Query.items q).flatten s log
  rcases hl : calls (fun (x : σ × List α) a => (((f x.1 a).1, x.2 ++ [a]), (f x.1 a).2)) (s, log) (Spec.Query.items q).flatten
    with ⟨s2, e | bs⟩ <;> rw [hl] at h k
  · simp only at h; rw [h]; exact k
  · obtain ⟨q', h, -⟩ := h; rw [h]; exact k

/-- A closure without state: the functions of C42. -/
theorem C68_pure [DecidableEq β] (q : Query α) (t : Triple α) (f : α → Except ε β) (s : σ) :
    q.tryMapMut (fun s a => (s, f a)) s = (s, q.tryMap f) ∧ t.tryMapMut (fun s a => (s, f a)) s = (s, t.tryMap f) := by
  have one : ∀ (γ δ : Type) [DecidableEq δ] (F : γ → Except ε δ) (l : List γ) (acc : HSet δ),
      collectMut (fun s a => (s, F a)) s l acc = (s, collectResult F l acc) := by
    intro γ δ _ F l
    induction l with
    | nil => intro acc; rfl
    | cons a l ih =>
      intro acc
      simp only [collectMut, collectResult]
      cases F a with
      | error e => rfl
      | ok b => exact ih _
  have two : Query.pairMut (fun s a => (s, f a)) = fun (s : σ) x => (s, Query.tryPair f x) := by
    funext s x
    simp only [Query.pairMut, Query.tryPair]
    cases f x.1 with
    | error e => rfl
    | ok a => cases h : f x.2 <;> simp only
  have three : Query.tripleMut (fun s a => (s, f a)) = fun (s : σ) x => (s, Query.tryTriple f x) := by
    funext s x
    simp only [Query.tripleMut, Query.tryTriple]
    cases f x.1 with
    | error e => rfl
    | ok a =>
      simp only
      cases f x.2.1 with
      | error e => rfl
      | ok b => cases h : f x.2.2 <;> simp only
  constructor
  · cases q <;> simp only [Query.tryMapMut, Query.tryMap, two, three, one] <;> rfl
  · simp only [Triple.tryMapMut, Triple.tryMap]
    cases f t.sub with
    | error e => rfl
    | ok a =>
      simp only
      cases f t.pred with
      | error e => rfl
      | ok b => cases h : f t.obj <;> simp only

/-- The way `RdfTripleStore` gives ids to the entities of a triple (src/rdf/insert.rs:24, src/rdf/merge.rs:52) is `Triple::try_map` with a closure that
changes the store. -/
theorem C68_rdf {I IX S SX : Type} (ix : BidirIndex I IX String Ulid) (r : Rdf I S) (t : Triple Entity) :
    r.createTriple (SX := SX) ix t = t.tryMapMut (fun r e => Rdf.lookupOrCreateEntity ix r e) r := by
  simp only [Rdf.createTriple, Triple.tryMapMut]
  rcases r.lookupOrCreateEntity ix t.sub with ⟨r1, e | a⟩
  · rfl
  · simp only
    rcases r1.lookupOrCreateEntity ix t.pred with ⟨r2, e | b⟩
    · rfl
    · simp only
      rcases r2.lookupOrCreateEntity ix t.obj with ⟨r3, e | c⟩ <;> rfl

/-! ### Examples -/

/-- numbers its calls, and fails at the fourth -/
def third (s : Nat) (a : String) : Nat × Except String (String × Nat) := if s < 3 then (s + 1, .ok (a, s)) else (s + 1, .error a)

example : ((⟨"a", "b", "a"⟩ : Triple String).tryMapMut third 0).1 = 3 ∧
    ((⟨"a", "b", "a"⟩ : Triple String).tryMapMut third 0).2.toOption = some ⟨("a", 0), ("b", 1), ("a", 2)⟩ := by decide
example : ((⟨"a", "b", "c"⟩ : Triple String).tryMapMut third 2).1 = 4 ∧
    ((⟨"a", "b", "c"⟩ : Triple String).tryMapMut third 2).2.toOption = none := by decide
-- the closure tells the two occurrences of an id apart
example : ((Query.SO [("a", "b"), ("c", "a")]).tryMapMut (fun s a => if s < 4 then (s + 1, .ok (a, s)) else (s + 1, .error a)) 0).2.toOption.map
    Spec.Query.items = some [[("a", 0), ("b", 1)], [("c", 2), ("a", 3)]] := by decide
example : ((Query.SO [("a", "b"), ("c", "a")]).tryMapMut third 0).1 = 4 := by decide
example : asked third 0 (Spec.Query.items (Query.SO [("a", "b"), ("c", "a"), ("d", "e")])).flatten = ["a", "b", "c", "a"] := by decide

end Verif.Props
