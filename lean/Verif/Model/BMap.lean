import Mathlib.Order.Defs.LinearOrder
import Mathlib.Data.List.Pairwise
import Verif.Model.Id

/-!
# Ordered maps

`std::collections::BTreeMap` and `sled::Tree`, by their documented behaviour: a finite map whose
iteration is in increasing key order and which holds each key at most once.  Represented by a sorted
association list; the tree structure inside the libraries is not modelled.
-/

namespace Verif

/-- Value stored for `k` in an association list (first hit). -/
def alGet {K V : Type} [DecidableEq K] : List (K × V) → K → Option V
  | [], _ => none
  | e :: l, k => if e.1 = k then some e.2 else alGet l k

/-- Insert into a sorted association list, replacing an existing entry. -/
def alInsert {K V : Type} [LinearOrder K] : List (K × V) → K → V → List (K × V)
  | [], k, v => [(k, v)]
  | e :: l, k, v =>
    if k < e.1 then (k, v) :: e :: l
    else if e.1 < k then e :: alInsert l k v
    else (k, v) :: l

/-- `BTreeMap<K, V>` / `sled::Tree`. -/
structure BMap (K V : Type) [LinearOrder K] where
  /-- `iter()` / `into_iter()` / `range(..)`: the entries in increasing key order. -/
  entries : List (K × V)
  sorted : entries.Pairwise (fun a b => a.1 < b.1)

theorem alInsert_mem {K V : Type} [LinearOrder K] {l : List (K × V)} {k : K} {v : V} {e : K × V}
    (h : e ∈ alInsert l k v) : e = (k, v) ∨ e ∈ l := by
  induction l with
  | nil => simpa [alInsert] using h
  | cons a l ih =>
    unfold alInsert at h
    split at h
    · rcases List.mem_cons.1 h with h | h
      · exact .inl h
      · exact .inr h
    · split at h
      · rcases List.mem_cons.1 h with h | h
        · exact .inr (by simp [h])
        · rcases ih h with h | h
          · exact .inl h
          · exact .inr (List.mem_cons_of_mem _ h)
      · rcases List.mem_cons.1 h with h | h
        · exact .inl h
        · exact .inr (List.mem_cons_of_mem _ h)

theorem alInsert_sorted {K V : Type} [LinearOrder K] {l : List (K × V)} {k : K} {v : V}
    (h : l.Pairwise (fun a b => a.1 < b.1)) :
    (alInsert l k v).Pairwise (fun a b => a.1 < b.1) := by
  induction l with
  | nil => simp [alInsert]
  | cons a l ih =>
    unfold alInsert
    rw [List.pairwise_cons] at h
    split
    · rename_i hlt
      refine List.pairwise_cons.2 ⟨?_, List.pairwise_cons.2 h⟩
      intro b hb
      rcases List.mem_cons.1 hb with rfl | hb
      · exact hlt
      · exact lt_trans hlt (h.1 b hb)
    · split
      · rename_i hlt
        refine List.pairwise_cons.2 ⟨?_, ih h.2⟩
        intro b hb
        rcases alInsert_mem hb with rfl | hb
        · exact hlt
        · exact h.1 b hb
      · rename_i h1 h2
        have e : k = a.1 := le_antisymm (not_lt.1 h2) (not_lt.1 h1)
        refine List.pairwise_cons.2 ⟨?_, h.2⟩
        intro b hb
        show k < b.1
        rw [e]; exact h.1 b hb

namespace BMap
variable {K V : Type} [LinearOrder K]

/-- `BTreeMap::new()`. -/
def empty : BMap K V := ⟨[], List.Pairwise.nil⟩

/-- `get(&k)`. -/
def get (m : BMap K V) (k : K) : Option V := alGet m.entries k

/-- `insert(k, v)` (the returned old value is `get` before the call); also what
`entry(k)` followed by `Vacant::insert`, `Occupied::insert` or `*get_mut() = v` does. -/
def insert (m : BMap K V) (k : K) (v : V) : BMap K V :=
  ⟨alInsert m.entries k v, alInsert_sorted m.sorted⟩

/-- `remove(&k)`. -/
def erase (m : BMap K V) (k : K) : BMap K V :=
  ⟨m.entries.filter (fun e => decide (e.1 ≠ k)), m.sorted.filter _⟩

/-- `range(bounds)`: the entries whose key lies within the bounds, in increasing key order. -/
def range (m : BMap K V) (b : Bound K × Bound K) : List (K × V) :=
  m.entries.filter (fun e => Bound.contains b e.1)

end BMap

end Verif
