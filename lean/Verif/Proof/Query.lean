import Verif.Model.Query
import Verif.Spec.QuerySet
import Verif.Spec.Graph

/-! # HashSet and Query functions -/

namespace Verif

namespace HSet
variable {α : Type} [DecidableEq α]

theorem mem_insert (s : HSet α) (a x : α) : x ∈ HSet.insert s a ↔ x ∈ s ∨ x = a := by
  unfold HSet.insert
  split
  · rename_i h
    constructor
    · exact .inl
    · rintro (h' | rfl)
      · exact h'
      · exact h
  · simp

theorem nodup_insert {s : HSet α} (a : α) (h : s.Nodup) : (HSet.insert s a).Nodup := by
  unfold HSet.insert
  split
  · exact h
  · rename_i ha
    exact List.nodup_append.2 ⟨h, by simp, by
      intro x hx y hy e
      rw [List.mem_singleton] at hy
      subst hy e
      exact ha hx⟩

theorem mem_foldl_insert (l : List α) (s : HSet α) (x : α) : x ∈ l.foldl HSet.insert s ↔ x ∈ s ∨ x ∈ l := by
  induction l generalizing s with
  | nil => simp
  | cons a l ih => rw [List.foldl_cons, ih, mem_insert, List.mem_cons, or_assoc]

theorem nodup_foldl_insert (l : List α) {s : HSet α} (h : s.Nodup) : (l.foldl HSet.insert s).Nodup := by
  induction l generalizing s with
  | nil => exact h
  | cons a l ih => exact ih (nodup_insert a h)

theorem mem_collect (l : List α) (x : α) : x ∈ HSet.collect l ↔ x ∈ l := by
  simp [HSet.collect, mem_foldl_insert]

theorem nodup_collect (l : List α) : (HSet.collect l).Nodup := nodup_foldl_insert l List.nodup_nil

end HSet

theorem collectResult_ok {α ε β : Type} [DecidableEq β] {f : α → Except ε β} {g : α → β} {l : List α}
    (h : ∀ a ∈ l, f a = .ok (g a)) (acc : HSet β) :
    collectResult f l acc = .ok ((l.map g).foldl HSet.insert acc) := by
  induction l generalizing acc with
  | nil => rfl
  | cons a l ih =>
    rw [collectResult, h a (by simp)]
    exact ih (fun b hb => h b (List.mem_cons_of_mem _ hb)) _

theorem collectResult_all {α ε β : Type} [DecidableEq β] {f : α → Except ε β} {l : List α} {acc r : HSet β}
    (h : collectResult f l acc = .ok r) : ∀ a ∈ l, ∃ b, f a = .ok b := by
  induction l generalizing acc with
  | nil => simp
  | cons a l ih =>
    rw [collectResult] at h
    cases hf : f a with
    | error e => rw [hf] at h; cases h
    | ok b =>
      rw [hf] at h
      intro x hx
      rcases List.mem_cons.1 hx with rfl | hx
      · exact ⟨b, hf⟩
      · exact ih h x hx

theorem collectResult_err {α ε β : Type} [DecidableEq β] {f : α → Except ε β} {l : List α} {acc : HSet β} {e : ε}
    (h : collectResult f l acc = .error e) : ∃ a ∈ l, f a = .error e := by
  induction l generalizing acc with
  | nil => cases h
  | cons a l ih =>
    rw [collectResult] at h
    cases hf : f a with
    | error e' => rw [hf] at h; cases h; exact ⟨a, by simp, hf⟩
    | ok b =>
      rw [hf] at h
      obtain ⟨x, hx, hx'⟩ := ih h
      exact ⟨x, List.mem_cons_of_mem _ hx, hx'⟩

theorem QueryPat.mem_pairs {Id : Type} [DecidableEq Id] (as bs : List Id) (a b : Id) :
    (a, b) ∈ QueryPat.pairs as bs ↔ a ∈ as ∧ b ∈ bs := by
  unfold QueryPat.pairs
  have inner : ∀ (x : Id) (acc : HSet (Id × Id)),
      bs.foldl (fun acc b => HSet.insert acc (x, b)) acc = (bs.map (fun b => (x, b))).foldl HSet.insert acc := by
    intro x acc; rw [List.foldl_map]
  have key : ∀ (as : List Id) (acc : HSet (Id × Id)),
      (a, b) ∈ as.foldl (fun acc a => bs.foldl (fun acc b => HSet.insert acc (a, b)) acc) acc ↔
        (a, b) ∈ acc ∨ (a ∈ as ∧ b ∈ bs) := by
    intro as
    induction as with
    | nil => simp
    | cons x as ih =>
      intro acc
      rw [List.foldl_cons, ih, inner, HSet.mem_foldl_insert, List.mem_map]
      simp only [Prod.mk.injEq, List.mem_cons]
      grind
  simp [key]

theorem QueryPat.nodup_pairs {Id : Type} [DecidableEq Id] (as bs : List Id) : (QueryPat.pairs as bs).Nodup := by
  unfold QueryPat.pairs
  have key : ∀ (as : List Id) (acc : HSet (Id × Id)), acc.Nodup →
      (as.foldl (fun acc a => bs.foldl (fun acc b => HSet.insert acc (a, b)) acc) acc).Nodup := by
    intro as
    induction as with
    | nil => exact fun _ h => h
    | cons x as ih =>
      intro acc h
      refine ih _ ?_
      have := HSet.nodup_foldl_insert (bs.map (fun b => (x, b))) h
      rwa [List.foldl_map] at this
  exact key as [] List.nodup_nil

theorem QueryPat.mem_triples {Id : Type} [DecidableEq Id] (as bs cs : List Id) (a b c : Id) :
    (a, b, c) ∈ QueryPat.triples as bs cs ↔ a ∈ as ∧ b ∈ bs ∧ c ∈ cs := by
  unfold QueryPat.triples
  have inner : ∀ (x : Id) (bs : List Id) (acc : HSet (Id × Id × Id)),
      (a, b, c) ∈ bs.foldl (fun acc b => cs.foldl (fun acc c => HSet.insert acc (x, b, c)) acc) acc ↔
        (a, b, c) ∈ acc ∨ (a = x ∧ b ∈ bs ∧ c ∈ cs) := by
    intro x bs
    induction bs with
    | nil => simp
    | cons y bs ih =>
      intro acc
      have := List.foldl_map (f := fun c => (x, y, c)) (g := HSet.insert) (l := cs) (init := acc)
      rw [List.foldl_cons, ih, ← this, HSet.mem_foldl_insert, List.mem_map]
      simp only [Prod.mk.injEq, List.mem_cons]
      grind
  have key : ∀ (as : List Id) (acc : HSet (Id × Id × Id)),
      (a, b, c) ∈ as.foldl (fun acc a => bs.foldl (fun acc b =>
        cs.foldl (fun acc c => HSet.insert acc (a, b, c)) acc) acc) acc ↔
        (a, b, c) ∈ acc ∨ (a ∈ as ∧ b ∈ bs ∧ c ∈ cs) := by
    intro as
    induction as with
    | nil => simp
    | cons x as ih =>
      intro acc
      rw [List.foldl_cons, ih, inner]
      simp only [List.mem_cons]
      grind
  simp [key]

theorem QueryPat.nodup_triples {Id : Type} [DecidableEq Id] (as bs cs : List Id) :
    (QueryPat.triples as bs cs).Nodup := by
  unfold QueryPat.triples
  have inner : ∀ (x : Id) (bs : List Id) (acc : HSet (Id × Id × Id)), acc.Nodup →
      (bs.foldl (fun acc b => cs.foldl (fun acc c => HSet.insert acc (x, b, c)) acc) acc).Nodup := by
    intro x bs
    induction bs with
    | nil => exact fun _ h => h
    | cons y bs ih =>
      intro acc h
      refine ih _ ?_
      have := HSet.nodup_foldl_insert (cs.map (fun c => (x, y, c))) h
      rwa [List.foldl_map] at this
  have key : ∀ (as : List Id) (acc : HSet (Id × Id × Id)), acc.Nodup →
      (as.foldl (fun acc a => bs.foldl (fun acc b =>
        cs.foldl (fun acc c => HSet.insert acc (a, b, c)) acc) acc) acc).Nodup := by
    intro as
    induction as with
    | nil => exact fun _ h => h
    | cons x as ih => exact fun acc h => ih _ (inner x bs acc h)
  exact key as [] List.nodup_nil

open Spec in
/-- the part selected depends on the query only as a set -/
theorem select_same {Id NP EP : Type} [DecidableEq Id] (G : Graph Id NP EP) {q q' : Query Id}
    (h : Spec.Query.Same q q') : select G q = select G q' := by
  obtain ⟨hk, hi⟩ := h
  cases q <;> cases q' <;> simp only [Spec.Query.kind, reduceCtorEq] at hk <;>
    simp only [Spec.Query.items] at hi
  case NodeProps.NodeProps l m | S.S l m | P.P l m | O.O l m =>
    have : ∀ x, x ∈ l ↔ x ∈ m := fun x => by simpa using hi [x]
    simp [select, this]
  case SP.SP l m | SO.SO l m | PO.PO l m =>
    have : ∀ x y, (x, y) ∈ l ↔ (x, y) ∈ m := fun x y => by simpa using hi [x, y]
    simp [select, this]
  case SPO.SPO l m =>
    have : ∀ x y z, (x, y, z) ∈ l ↔ (x, y, z) ∈ m := fun x y z => by simpa using hi [x, y, z]
    simp [select, this]

end Verif
