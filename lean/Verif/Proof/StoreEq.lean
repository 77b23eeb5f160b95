import Verif.Proof.MemEq
import Verif.Spec.StoreEq

/-! # Equality of stores, for any `==` of properties -/

namespace Verif

open Spec

section
variable {κ ν : Type} [DecidableEq κ] [BEq ν]

theorem pair_beq (x y : κ × ν) : (x == y) = true ↔ x.1 = y.1 ∧ (x.2 == y.2) = true :=
  Bool.and_eq_true_iff.trans (and_congr beq_iff_eq Iff.rfl)

theorem list_beq_keys {l m : List (κ × ν)} (h : (l == m) = true) : l.map Prod.fst = m.map Prod.fst := by
  induction l generalizing m with
  | nil => cases m <;> simp at h ⊢
  | cons x l ih =>
    cases m with
    | nil => simp at h
    | cons y m =>
      simp only [List.cons_beq_cons, Bool.and_eq_true] at h
      simp only [List.map_cons, List.cons.injEq]
      exact ⟨((pair_beq x y).1 h.1).1, ih h.2⟩

theorem list_beq_mem {l m : List (κ × ν)} (h : (l == m) = true) {k : κ} {p : ν} (hk : (k, p) ∈ l) :
    ∃ q, (k, q) ∈ m ∧ (p == q) = true := by
  induction l generalizing m with
  | nil => cases hk
  | cons x l ih =>
    cases m with
    | nil => simp at h
    | cons y m =>
      simp only [List.cons_beq_cons, Bool.and_eq_true] at h
      obtain ⟨h1, h2⟩ := (pair_beq x y).1 h.1
      rcases List.mem_cons.1 hk with e | hk
      · subst e
        exact ⟨y.2, by rw [show k = y.1 from h1]; exact List.mem_cons_self, h2⟩
      · obtain ⟨q, hq, hpq⟩ := ih h.2 hk
        exact ⟨q, List.mem_cons_of_mem _ hq, hpq⟩

theorem list_beq_of {l m : List (κ × ν)} (h : l.map Prod.fst = m.map Prod.fst)
    (hv : ∀ k p q, (k, p) ∈ l → (k, q) ∈ m → (p == q) = true) : (l == m) = true := by
  induction l generalizing m with
  | nil => cases m <;> simp at h ⊢
  | cons x l ih =>
    cases m with
    | nil => simp at h
    | cons y m =>
      simp only [List.map_cons, List.cons.injEq] at h
      rw [List.cons_beq_cons, Bool.and_eq_true]
      refine ⟨(pair_beq x y).2 ⟨h.1, hv x.1 _ _ List.mem_cons_self ?_⟩, ih h.2 fun k p q hp hq =>
        hv k p q (List.mem_cons_of_mem _ hp) (List.mem_cons_of_mem _ hq)⟩
      rw [h.1]; exact List.mem_cons_self

theorem lists_beq {lt : κ → κ → Prop} (hirr : ∀ a, ¬ lt a a) (htr : ∀ a b c, lt a b → lt b c → lt a c) {f g : κ → Option ν}
    {l m : List (κ × ν)} (hl : Lists lt f l) (hm : Lists lt g m) : (l == m) = true ↔ SameValues f g := by
  have mem : ∀ {f : κ → Option ν} {l : List (κ × ν)}, Lists lt f l → ∀ k, k ∈ l.map Prod.fst ↔ (f k).isSome := by
    intro f l h k
    rw [List.mem_map, Option.isSome_iff_exists]
    constructor
    · rintro ⟨x, hx, rfl⟩; exact ⟨x.2, (h.2 _ _).1 hx⟩
    · rintro ⟨v, hv⟩; exact ⟨(k, v), (h.2 _ _).2 hv, rfl⟩
  constructor
  · intro h k
    have e : (f k).isSome ↔ (g k).isSome := by rw [← mem hl, ← mem hm, list_beq_keys h]
    cases hf : f k with
    | none =>
      cases hg : g k with
      | none => exact .inl ⟨rfl, rfl⟩
      | some q => rw [hf, hg] at e; simp at e
    | some p =>
      obtain ⟨q, hq, hpq⟩ := list_beq_mem h ((hl.2 _ _).2 hf)
      exact .inr ⟨p, q, rfl, (hm.2 _ _).1 hq, hpq⟩
  · intro h
    refine list_beq_of ?_ fun k p q hp hq => ?_
    · have keys : ∀ {f : κ → Option ν} {l : List (κ × ν)}, Lists lt f l →
          Lists lt (fun k => (f k).map fun _ => ()) (l.map fun x => (x.1, ())) := by
        intro f l h
        refine ⟨List.pairwise_map.2 h.1, fun k v => ?_⟩
        simp only [List.mem_map, Prod.mk.injEq, Option.map_eq_some_iff, and_true]
        constructor
        · rintro ⟨x, hx, rfl⟩; exact ⟨x.2, (h.2 _ _).1 hx⟩
        · rintro ⟨p, hp⟩; exact ⟨(k, p), (h.2 _ _).2 hp, rfl⟩
      have e : (fun k => (f k).map fun _ => ()) = fun k => (g k).map fun _ => () := by
        funext k
        rcases h k with ⟨h1, h2⟩ | ⟨p, q, h1, h2, -⟩ <;> simp [h1, h2]
      have := Lists.unique hirr htr (keys hl) (e ▸ keys hm)
      have := congrArg (List.map Prod.fst) this
      rw [List.map_map, List.map_map] at this
      exact this
    · rcases h k with ⟨h1, -⟩ | ⟨p', q', h1, h2, h3⟩
      · rw [(hl.2 _ _).1 hp] at h1; cases h1
      · rw [(hl.2 _ _).1 hp] at h1
        rw [(hm.2 _ _).1 hq] at h2
        cases h1; cases h2
        exact h3

theorem zip_agree (l m : List (κ × ν)) : (∀ x ∈ l.zip m, (x.1 == x.2) = true) ↔ AgreeUpToEnd l m := by
  constructor
  · intro h i x y hx hy
    have : (l.zip m)[i]? = some (x, y) := by rw [List.getElem?_zip_eq_some]; exact ⟨hx, hy⟩
    exact (pair_beq x y).1 (h (x, y) (List.mem_of_getElem? this))
  · rintro h ⟨x, y⟩ hx
    obtain ⟨i, hi⟩ := List.mem_iff_getElem?.1 hx
    rw [List.getElem?_zip_eq_some] at hi
    exact (pair_beq x y).2 (h i x y hi.1 hi.2)

theorem list_beq_agree (l m : List (κ × ν)) : (l == m) = true ↔ l.length = m.length ∧ AgreeUpToEnd l m := by
  rw [← zip_agree]
  induction l generalizing m with
  | nil => cases m <;> simp
  | cons x l ih =>
    cases m with
    | nil => simp
    | cons y m =>
      simp only [List.cons_beq_cons, Bool.and_eq_true, ih, List.length_cons, List.zip_cons_cons, List.mem_cons, forall_eq_or_imp]
      constructor
      · rintro ⟨h1, h2, h3⟩; exact ⟨by omega, h1, h3⟩
      · rintro ⟨h1, h2, h3⟩; exact ⟨h2, by omega, h3⟩

theorem agree_symm (hs : ∀ p q : ν, (p == q) = true → (q == p) = true) {l m : List (κ × ν)} (h : AgreeUpToEnd l m) :
    AgreeUpToEnd m l := fun i x y hx hy =>
  ⟨(h i y x hy hx).1.symm, hs _ _ (h i y x hy hx).2⟩

theorem list_beq_symm {α : Type} [BEq α] (hs : ∀ p q : α, (p == q) = true → (q == p) = true) {l m : List α}
    (h : (l == m) = true) : (m == l) = true := by
  induction l generalizing m with
  | nil => cases m <;> simp at h ⊢
  | cons x l ih =>
    cases m with
    | nil => simp at h
    | cons y m =>
      simp only [List.cons_beq_cons, Bool.and_eq_true] at h ⊢
      exact ⟨hs _ _ h.1, ih h.2⟩

theorem list_beq_trans {α : Type} [BEq α] (ht : ∀ p q r : α, (p == q) = true → (q == r) = true → (p == r) = true) {l m k : List α}
    (h : (l == m) = true) (h' : (m == k) = true) : (l == k) = true := by
  induction l generalizing m k with
  | nil => cases m <;> simp_all
  | cons x l ih =>
    cases m with
    | nil => simp at h
    | cons y m =>
      cases k with
      | nil => simp at h'
      | cons z k =>
        simp only [List.cons_beq_cons, Bool.and_eq_true] at h h' ⊢
        exact ⟨ht _ _ _ h.1 h'.1, ih h.2 h'.2⟩

theorem pair_symm (hs : ∀ p q : ν, (p == q) = true → (q == p) = true) (x y : κ × ν) (h : (x == y) = true) : (y == x) = true := by
  rw [pair_beq] at h ⊢
  exact ⟨h.1.symm, hs _ _ h.2⟩

theorem pair_trans (ht : ∀ p q r : ν, (p == q) = true → (q == r) = true → (p == r) = true) (x y z : κ × ν) (h : (x == y) = true)
    (h' : (y == z) = true) : (x == z) = true := by
  rw [pair_beq] at h h' ⊢
  exact ⟨h.1.trans h'.1, ht _ _ _ h.2 h'.2⟩

end

theorem tryEq_true {L R Id NP EP : Type} [DecidableEq Id] [BEq NP] [BEq EP] (a : Source L Id NP EP) (b : Source R Id NP EP) :
    tryEq a b = .ok true ↔ ∃ (an : List (Id × NP)) (ae : List (Triple Id × EP)) (bn : List (Id × NP)) (be : List (Triple Id × EP)),
      a.nodes = an.map .ok ∧ a.edges = ae.map .ok ∧ b.nodes = bn.map .ok ∧
      b.edges = be.map .ok ∧ (an == bn) = true ∧ (ae == be) = true := by
  constructor
  · intro h
    unfold tryEq at h
    split at h
    · cases h
    · rename_i r hr
      cases h
      exfalso
      clear * - hr
      generalize a.nodes = xs, b.nodes = ys at hr
      induction xs generalizing ys with
      | nil => cases ys <;> simp [tryEqLoop] at hr
      | cons x xs ih =>
        cases ys with
        | nil => simp [tryEqLoop] at hr
        | cons y ys =>
          simp only [tryEqLoop] at hr
          cases x <;> cases y <;> simp at hr
          split at hr
          · cases hr
          · exact ih _ hr
    · rename_i h1
      split at h
      · cases h
      · rename_i r hr
        cases h
        exfalso
        clear * - hr
        generalize a.edges = xs, b.edges = ys at hr
        induction xs generalizing ys with
        | nil => cases ys <;> simp [tryEqLoop] at hr
        | cons x xs ih =>
          cases ys with
          | nil => simp [tryEqLoop] at hr
          | cons y ys =>
            simp only [tryEqLoop] at hr
            cases x <;> cases y <;> simp at hr
            split at hr
            · cases hr
            · exact ih _ hr
      · rename_i h2
        obtain ⟨an, bn, e1, e2, e3⟩ := (tryEqLoop_none _ _).1 h1
        obtain ⟨ae, be, e4, e5, e6⟩ := (tryEqLoop_none _ _).1 h2
        exact ⟨an, ae, bn, be, e1, e4, e2, e5, e3, e6⟩
  · rintro ⟨an, ae, bn, be, h1, h2, h3, h4, h5, h6⟩
    rw [tryEq_lists h1 h2 h3 h4, h5, h6]
    rfl

theorem tryEq_same {L R Id NP EP : Type} [LinearOrder Id] [BEq NP] [BEq EP] {a : Source L Id NP EP} {b : Source R Id NP EP}
    {G H : Graph Id NP EP} (ha : RepresentsSorted a G) (hb : RepresentsSorted b H) :
    (tryEq a b = .ok true ↔ G.Same H) ∧ (tryEq a b = .ok false ↔ ¬ G.Same H) := by
  obtain ⟨⟨an, han, han'⟩, ⟨ae, hae, hae'⟩⟩ := ha
  obtain ⟨⟨bn, hbn, hbn'⟩, ⟨be, hbe, hbe'⟩⟩ := hb
  rw [tryEq_lists han hae hbn hbe, Graph.Same, ← lists_beq lt_irrefl (fun _ _ _ => lt_trans) han' hbn',
    ← lists_beq (edgeLT_irrefl _) (fun _ _ _ => edgeLT_trans _) hae' hbe', ← Bool.and_eq_true_iff]
  cases (an == bn && ae == be) <;> simp

end Verif
