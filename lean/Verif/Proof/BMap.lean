import Verif.Model.BMap
import Mathlib.Data.List.Nodup

/-! # Lemmas about ordered maps -/

namespace Verif

variable {K V : Type} [LinearOrder K]

theorem alGet_mem {l : List (K × V)} {k : K} {v : V} (h : alGet l k = some v) : (k, v) ∈ l := by
  induction l with
  | nil => simp [alGet] at h
  | cons a l ih =>
    unfold alGet at h
    split at h
    · rename_i e; cases h; subst e; simp
    · exact List.mem_cons_of_mem _ (ih h)

theorem alGet_of_mem {l : List (K × V)} {k : K} {v : V}
    (hs : l.Pairwise (fun a b => a.1 < b.1)) (h : (k, v) ∈ l) : alGet l k = some v := by
  induction l with
  | nil => simp at h
  | cons a l ih =>
    rw [List.pairwise_cons] at hs
    rcases List.mem_cons.1 h with h | h
    · subst h; simp [alGet]
    · have := hs.1 _ h
      rw [alGet, if_neg (ne_of_lt this), ih hs.2 h]

theorem alGet_eq_none {l : List (K × V)} {k : K} (h : ∀ e ∈ l, e.1 ≠ k) : alGet l k = none := by
  cases hg : alGet l k with
  | none => rfl
  | some v => exact absurd rfl (h _ (alGet_mem hg))

theorem alGet_alInsert {l : List (K × V)} {k k' : K} {v : V}
    (hs : l.Pairwise (fun a b => a.1 < b.1)) :
    alGet (alInsert l k v) k' = if k' = k then some v else alGet l k' := by
  induction l with
  | nil => simp [alInsert, alGet, eq_comm]
  | cons a l ih =>
    rw [List.pairwise_cons] at hs
    unfold alInsert
    split
    · simp [alGet, eq_comm]
    · split
      · rename_i h1 h2
        rw [alGet, ih hs.2, alGet]
        by_cases e : k' = k
        · subst e; simp [ne_of_lt h2]
        · simp [e]
      · rename_i h1 h2
        have e : k = a.1 := le_antisymm (not_lt.1 h2) (not_lt.1 h1)
        subst e
        by_cases e : k' = a.1
        · simp [alGet, e]
        · have e' : ¬ a.1 = k' := fun h => e h.symm
          simp [alGet, e, e']

theorem alGet_filter {l : List (K × V)} {k : K} {p : K → Bool}
    (hs : l.Pairwise (fun a b => a.1 < b.1)) :
    alGet (l.filter (fun e => p e.1)) k = if p k = true then alGet l k else none := by
  induction l with
  | nil => simp [alGet]
  | cons a l ih =>
    rw [List.pairwise_cons] at hs
    rw [List.filter_cons]
    split
    · rename_i h
      rw [alGet, alGet, ih hs.2]
      by_cases e : a.1 = k
      · subst e; simp [h]
      · simp [e]
    · rename_i h
      rw [ih hs.2, alGet]
      by_cases e : a.1 = k
      · subst e; simp [h]
      · simp [e]

theorem sorted_ext {l m : List (K × V)} (hl : l.Pairwise (fun a b => a.1 < b.1))
    (hm : m.Pairwise (fun a b => a.1 < b.1)) (h : ∀ e, e ∈ l ↔ e ∈ m) : l = m := by
  induction l generalizing m with
  | nil =>
    cases m with
    | nil => rfl
    | cons b m => exact absurd ((h b).2 (by simp)) (by simp)
  | cons a l ih =>
    cases m with
    | nil => exact absurd ((h a).1 (by simp)) (by simp)
    | cons b m =>
      rw [List.pairwise_cons] at hl hm
      have hab : a = b := by
        rcases List.mem_cons.1 ((h a).1 (by simp)) with e | e
        · exact e
        · rcases List.mem_cons.1 ((h b).2 (by simp)) with e' | e'
          · exact e'.symm
          · exact absurd (lt_trans (hm.1 _ e) (hl.1 _ e')) (lt_irrefl _)
      subst hab
      congr 1
      refine ih hl.2 hm.2 (fun e => ?_)
      constructor
      · intro he
        rcases List.mem_cons.1 ((h e).1 (List.mem_cons_of_mem _ he)) with e' | e'
        · subst e'; exact absurd (hl.1 _ he) (lt_irrefl _)
        · exact e'
      · intro he
        rcases List.mem_cons.1 ((h e).2 (List.mem_cons_of_mem _ he)) with e' | e'
        · subst e'; exact absurd (hm.1 _ he) (lt_irrefl _)
        · exact e'

namespace BMap

theorem mem_entries {m : BMap K V} {k : K} {v : V} : (k, v) ∈ m.entries ↔ m.get k = some v :=
  ⟨alGet_of_mem m.sorted, alGet_mem⟩

theorem ext_get {m n : BMap K V} (h : ∀ k, m.get k = n.get k) : m = n := by
  have : m.entries = n.entries :=
    sorted_ext m.sorted n.sorted (fun ⟨k, v⟩ => by rw [mem_entries, mem_entries, h])
  cases m; cases n; cases this; rfl

@[simp] theorem get_empty (k : K) : (empty : BMap K V).get k = none := rfl

theorem get_insert (m : BMap K V) (k k' : K) (v : V) :
    (m.insert k v).get k' = if k' = k then some v else m.get k' :=
  alGet_alInsert m.sorted

theorem get_erase (m : BMap K V) (k k' : K) :
    (m.erase k).get k' = if k' = k then none else m.get k' := by
  have := alGet_filter (k := k') (p := fun x => decide (x ≠ k)) m.sorted
  unfold get erase
  simp only at this ⊢
  rw [this]
  by_cases h : k' = k <;> simp [h]

@[simp] theorem get_insert_self (m : BMap K V) (k : K) (v : V) :
    (m.insert k v).get k = some v := by simp [get_insert]

@[simp] theorem get_erase_self (m : BMap K V) (k : K) :
    (m.erase k).get k = none := by simp [get_erase]

theorem mem_range {m : BMap K V} {b : Bound K × Bound K} {k : K} {v : V} :
    (k, v) ∈ m.range b ↔ m.get k = some v ∧ Bound.contains b k = true := by
  simp [range, mem_entries]

theorem range_sorted (m : BMap K V) (b : Bound K × Bound K) :
    (m.range b).Pairwise (fun a b => a.1 < b.1) := m.sorted.filter _

theorem insert_comm (m : BMap K V) {k k' : K} (h : k ≠ k') (v v' : V) :
    (m.insert k v).insert k' v' = (m.insert k' v').insert k v := by
  apply ext_get; intro x
  simp only [get_insert]
  by_cases h1 : x = k
  · subst h1; simp [h]
  · simp [h1]

theorem insert_insert (m : BMap K V) (k : K) (v v' : V) :
    (m.insert k v).insert k v' = m.insert k v' := by
  apply ext_get; intro x
  simp only [get_insert]
  split <;> rfl

theorem erase_erase (m : BMap K V) (k : K) : (m.erase k).erase k = m.erase k := by
  apply ext_get; intro x
  simp only [get_erase]
  split <;> rfl

theorem erase_of_none (m : BMap K V) {k : K} (h : m.get k = none) : m.erase k = m := by
  apply ext_get; intro x
  rw [get_erase]
  split
  · subst_vars; exact h.symm
  · rfl

theorem insert_of_get (m : BMap K V) {k : K} {v : V} (h : m.get k = some v) :
    m.insert k v = m := by
  apply ext_get; intro x
  rw [get_insert]
  split
  · subst_vars; exact h.symm
  · rfl

theorem keys_nodup (m : BMap K V) : (m.entries.map Prod.fst).Nodup := by
  rw [List.nodup_iff_pairwise_ne, List.pairwise_map]
  exact m.sorted.imp (fun h => ne_of_lt h)

theorem isEmpty_iff {m : BMap K V} : m.entries = [] ↔ ∀ k, m.get k = none := by
  constructor
  · intro h k; unfold get; rw [h]; rfl
  · intro h
    cases he : m.entries with
    | nil => rfl
    | cons a l =>
      have : (a.1, a.2) ∈ m.entries := by rw [he]; simp
      rw [mem_entries, h] at this; cases this

end BMap

end Verif
