import Verif.Spec.Grows
import Verif.Proof.EndsCalls
import Verif.Proof.SledFrame

/-! # How much the trees can grow -/

namespace Verif

open Spec ConcreteId

variable {S α β : Type} {tree : S → Tree}

namespace Prog

theorem Adds.mono {n m : Nat} {p : Prog S α} (h : p.Adds tree n) (hn : n ≤ m) : p.Adds tree m := by
  induction p generalizing n m with
  | ret a => trivial
  | call f k ih =>
    intro s
    rcases h s with ⟨h1, h2⟩ | ⟨n, b, rfl, h1, h2⟩
    · exact .inl ⟨h1, ih s h2 hn⟩
    · exact .inr ⟨m - 1, b, by omega, h1, ih s h2 (by omega)⟩

theorem Adds.ret {n : Nat} (a : α) : (Prog.ret a : Prog S α).Adds tree n := trivial

theorem Adds.nothing {n : Nat} {f : S → S} {k : S → Prog S α} (h : ∀ s a, (tree (f s)).get a ≠ none → (tree s).get a ≠ none)
    (hk : ∀ s, (k s).Adds tree n) : (Prog.call f k).Adds tree n := fun s => .inl ⟨h s, hk s⟩

theorem Adds.one {n : Nat} {f : S → S} {k : S → Prog S α} (b : Bytes)
    (h : ∀ s a, (tree (f s)).get a ≠ none → (tree s).get a ≠ none ∨ a = b) (hk : ∀ s, (k s).Adds tree n) :
    (Prog.call f k).Adds tree (n + 1) := fun s => .inr ⟨n, b, rfl, h s, hk s⟩

theorem Adds.bind {n m : Nat} {p : Prog S α} (h : p.Adds tree n) {g : α → Prog S β} (hg : ∀ a, (g a).Adds tree m) :
    (p.bind g).Adds tree (n + m) := by
  induction p generalizing n with
  | ret a => exact (hg a).mono (by omega)
  | call f k ih =>
    intro s
    rcases h s with ⟨h1, h2⟩ | ⟨n, b, rfl, h1, h2⟩
    · exact .inl ⟨h1, ih s h2⟩
    · exact .inr ⟨n + m, b, by omega, h1, ih s h2⟩

theorem Adds.drop {n : Nat} {p : Prog S α} (h : p.Adds tree n) {g : α → β} : (p.bind (fun a => .ret (g a))).Adds tree n :=
  Adds.bind (m := 0) h (fun _ => trivial)

end Prog

/-- what the functions of a thread may still add -/
def Stock (tree : S → Tree) (q : List (Prog S α)) (n : Nat) : Prop :=
  ∃ ns, List.Forall₂ (fun p m => Prog.Adds tree p m) q ns ∧ n = ns.sum

/-- the same of all threads -/
def AllStock (tree : S → Tree) (qs : List (List (Prog S α))) (n : Nat) : Prop := ∃ ns, List.Forall₂ (Stock tree) qs ns ∧ n = ns.sum

theorem AllStock.one {pre post : List (List (Prog S α))} {q q' : List (Prog S α)} {n : Nat} (h : AllStock tree (pre ++ q :: post) n)
    {P : Nat → Prop} (hq : ∀ m, Stock tree q m → ∃ m' j, m' + j ≤ m ∧ P j ∧ Stock tree q' m') :
    ∃ n' j, n' + j ≤ n ∧ P j ∧ AllStock tree (pre ++ q' :: post) n' := by
  obtain ⟨ns, h, rfl⟩ := h
  obtain ⟨ns1, ns2, h1, h2, rfl⟩ := forall₂_break h
  cases h2 with
  | @cons _ m _ ns2 h2 h3 =>
    obtain ⟨m', j, hle, hP, hm⟩ := hq m h2
    exact ⟨(ns1 ++ m' :: ns2).sum, j, by simp; omega, hP, ns1 ++ m' :: ns2, List.rel_append h1 (.cons hm h3), rfl⟩

theorem Stock.drop {p : Prog S α} {q : List (Prog S α)} {n : Nat} (h : Stock tree (p :: q) n) : ∃ n', n' ≤ n ∧ Stock tree q n' := by
  obtain ⟨ns, h, rfl⟩ := h
  cases h with
  | @cons _ m _ ns h1 h2 => exact ⟨ns.sum, by simp, ns, h2, rfl⟩

/-- a step adds some keys, and what may still be added gets less -/
theorem AllStock.step {x y : S × List (List (Prog S α))} (h : Step x y) {n : Nat} (hx : AllStock tree x.2 n) :
    ∃ n' j, n' + j ≤ n ∧ (∃ l : List Bytes, l.length = j ∧ ∀ a, (tree y.1).get a ≠ none → (tree x.1).get a ≠ none ∨ a ∈ l) ∧
      AllStock tree y.2 n' := by
  cases h with
  | call s pre post f k q =>
    refine hx.one (P := fun j => ∃ l : List Bytes, l.length = j ∧ ∀ a, (tree (f s)).get a ≠ none → (tree s).get a ≠ none ∨ a ∈ l)
      (fun m hm => ?_)
    obtain ⟨ns, hm, rfl⟩ := hm
    cases hm with
    | @cons _ m _ ns h1 h2 =>
      rcases h1 s with ⟨h3, h4⟩ | ⟨m, b, rfl, h3, h4⟩
      · exact ⟨(m :: ns).sum, 0, by simp, ⟨[], rfl, fun a ha => .inl (h3 a ha)⟩, m :: ns, .cons h4 h2, rfl⟩
      · exact ⟨(m :: ns).sum, 1, by simp; omega, ⟨[b], rfl, fun a ha => (h3 a ha).imp id (by simp)⟩, m :: ns, .cons h4 h2, rfl⟩
  | ret s pre post a q =>
    refine hx.one (P := fun j => ∃ l : List Bytes, l.length = j ∧ ∀ a, (tree s).get a ≠ none → (tree s).get a ≠ none ∨ a ∈ l)
      (fun m hm => ?_)
    obtain ⟨m', hle, h⟩ := hm.drop
    exact ⟨m', 0, by omega, ⟨[], rfl, fun a ha => .inl ha⟩, h⟩
  | fail s pre post p q =>
    refine hx.one (P := fun j => ∃ l : List Bytes, l.length = j ∧ ∀ a, (tree s).get a ≠ none → (tree s).get a ≠ none ∨ a ∈ l)
      (fun m hm => ?_)
    obtain ⟨m', hle, h⟩ := hm.drop
    exact ⟨m', 0, by omega, ⟨[], rfl, fun a ha => .inl ha⟩, h⟩

theorem AllStock.steps {x y : S × List (List (Prog S α))} (h : Steps x y) {n : Nat} {K : List Bytes} (hx : AllStock tree x.2 n)
    (hK : ∀ a, (tree x.1).get a ≠ none → a ∈ K) :
    ∃ (n' : Nat) (K' : List Bytes), n' + K'.length ≤ n + K.length ∧ (∀ a ∈ K, a ∈ K') ∧ AllStock tree y.2 n' ∧
      ∀ a, (tree y.1).get a ≠ none → a ∈ K' := by
  induction h with
  | refl => exact ⟨n, K, le_rfl, fun _ h => h, hx, hK⟩
  | tail _ hs ih =>
    obtain ⟨n1, K1, h1, h2, h3, h4⟩ := ih
    obtain ⟨n2, j, h5, ⟨l, rfl, h6⟩, h7⟩ := h3.step hs
    refine ⟨n2, l ++ K1, by simp; omega, fun a ha => by simp [h2 a ha], h7, fun a ha => ?_⟩
    rcases h6 a ha with h | h
    · simp [h4 a h]
    · simp [h]

/-- all keys there are up to some moment -/
theorem AllStock.along {x : Nat → S × List (List (Prog S α))} (hx : ∀ m, Steps (x m) (x (m + 1))) {n : Nat} (h0 : AllStock tree (x 0).2 n)
    (M : Nat) : ∃ (n' : Nat) (K : List Bytes), n' + K.length ≤ n + (tree (x 0).1).entries.length ∧ AllStock tree (x M).2 n' ∧
      ∀ m ≤ M, ∀ a, (tree (x m).1).get a ≠ none → a ∈ K := by
  have start : ∀ a, (tree (x 0).1).get a ≠ none → a ∈ (tree (x 0).1).entries.map Prod.fst := by
    intro a ha
    obtain ⟨v, hv⟩ := Option.ne_none_iff_exists'.1 ha
    exact List.mem_map.2 ⟨_, BMap.mem_entries.2 hv, rfl⟩
  induction M with
  | zero =>
    refine ⟨n, (tree (x 0).1).entries.map Prod.fst, by simp, h0, fun m hm a ha => ?_⟩
    obtain rfl : m = 0 := by omega
    exact start a ha
  | succ M ih =>
    obtain ⟨n1, K1, h1, h2, h3⟩ := ih
    obtain ⟨n2, K2, h4, h5, h6, h7⟩ := h2.steps (hx M) (h3 M le_rfl)
    refine ⟨n2, K2, by omega, h6, fun m hm a ha => ?_⟩
    rcases Nat.lt_or_ge M m with h | h
    · obtain rfl : m = M + 1 := by omega
      exact h7 a ha
    · exact h5 a (h3 m h a ha)

theorem le_sum {l : List Nat} {n : Nat} (h : n ∈ l) : n ≤ l.sum := by
  induction l with
  | nil => cases h
  | cons a l ih =>
    rw [List.sum_cons]
    rcases List.mem_cons.1 h with rfl | h
    · omega
    · have := ih h; omega

/-- keys that are there at some moments -/
theorem keys_le {x : Nat → S × List (List (Prog S α))} (hx : ∀ m, Steps (x m) (x (m + 1))) {n : Nat} (h0 : AllStock tree (x 0).2 n)
    {l : List (Nat × Bytes)} (hn : (l.map Prod.snd).Nodup) (hl : ∀ e ∈ l, (tree (x e.1).1).get e.2 ≠ none) :
    l.length ≤ (tree (x 0).1).entries.length + n := by
  obtain ⟨n', K, h1, _, h2⟩ := AllStock.along hx h0 (l.map Prod.fst).sum
  have hsub : l.map Prod.snd ⊆ K := by
    intro a ha
    obtain ⟨e, he, rfl⟩ := List.mem_map.1 ha
    exact h2 e.1 (le_sum (List.mem_map.2 ⟨e, he, rfl⟩)) _ (hl e he)
  have := (hn.subperm hsub).length_le
  rw [List.length_map] at this
  omega

theorem size_le {x y : S × List (List (Prog S α))} (h : Steps x y) {n : Nat} (h0 : AllStock tree x.2 n) :
    (tree y.1).entries.length ≤ (tree x.1).entries.length + n := by
  obtain ⟨n', K, h1, _, _, h2⟩ := h0.steps h (K := (tree x.1).entries.map Prod.fst) (fun a ha => by
    obtain ⟨v, hv⟩ := Option.ne_none_iff_exists'.1 ha
    exact List.mem_map.2 ⟨_, BMap.mem_entries.2 hv, rfl⟩)
  have hn : ((tree y.1).entries.map Prod.fst).Nodup := by
    refine List.Pairwise.imp (fun h => ne_of_lt h) ((List.pairwise_map).2 (tree y.1).sorted)
  have hsub : (tree y.1).entries.map Prod.fst ⊆ K := by
    intro a ha
    obtain ⟨e, he, rfl⟩ := List.mem_map.1 ha
    refine h2 _ ?_
    rw [BMap.mem_entries.1 (show (e.1, e.2) ∈ _ from he)]
    simp
  have := (hn.subperm hsub).length_le
  rw [List.length_map] at this h1
  omega

theorem allStock_of {C : Type} {prog : C → Prog S α} {adds : C → Nat} (h : ∀ y, (prog y).Adds tree (adds y)) (threads : List (List C)) :
    AllStock tree (threads.map (List.map prog)) (total adds threads) := by
  refine ⟨threads.map (fun th => (th.map adds).sum), ?_, rfl⟩
  rw [List.forall₂_map_left_iff, List.forall₂_map_right_iff, List.forall₂_same]
  intro th _
  refine ⟨th.map adds, ?_, rfl⟩
  rw [List.forall₂_map_left_iff, List.forall₂_map_right_iff, List.forall₂_same]
  exact fun y _ => h y

end Verif
