import Verif.Spec.Graph
import Verif.Proof.BMap
import Mathlib.Data.List.Perm.Subperm
import Mathlib.Data.List.Nodup
import Mathlib.Tactic.Tauto

/-! # Enumerations of finite maps -/

namespace Verif

open Spec

section edgeLT
variable {Id : Type} [LinearOrder Id]

theorem lex3_irrefl (a b c : Id) : ¬ lex3 a b c a b c := by
  simp [lex3]

theorem lex3_trans {a b c a' b' c' a'' b'' c'' : Id} (h : lex3 a b c a' b' c')
    (h' : lex3 a' b' c' a'' b'' c'') : lex3 a b c a'' b'' c'' := by
  unfold lex3 at *
  rcases h with h | ⟨rfl, h⟩
  · rcases h' with h' | ⟨rfl, h'⟩
    · exact .inl (lt_trans h h')
    · exact .inl h
  · rcases h' with h' | ⟨rfl, h'⟩
    · exact .inl h'
    · refine .inr ⟨rfl, ?_⟩
      rcases h with h | ⟨rfl, h⟩
      · rcases h' with h' | ⟨rfl, h'⟩
        · exact .inl (lt_trans h h')
        · exact .inl h
      · rcases h' with h' | ⟨rfl, h'⟩
        · exact .inl h'
        · exact .inr ⟨rfl, lt_trans h h'⟩

theorem lex3_total (a b c a' b' c' : Id) :
    lex3 a b c a' b' c' ∨ (a = a' ∧ b = b' ∧ c = c') ∨ lex3 a' b' c' a b c := by
  unfold lex3
  rcases lt_trichotomy a a' with h | h | h
  · exact .inl (.inl h)
  · rcases lt_trichotomy b b' with h' | h' | h'
    · exact .inl (.inr ⟨h, .inl h'⟩)
    · rcases lt_trichotomy c c' with h'' | h'' | h''
      · exact .inl (.inr ⟨h, .inr ⟨h', h''⟩⟩)
      · exact .inr (.inl ⟨h, h', h''⟩)
      · exact .inr (.inr (.inr ⟨h.symm, .inr ⟨h'.symm, h''⟩⟩))
    · exact .inr (.inr (.inr ⟨h.symm, .inl h'⟩))
  · exact .inr (.inr (.inl h))

theorem edgeLT_irrefl (o : EdgeOrder) (t : Triple Id) : ¬ edgeLT o t t := by
  cases o <;> exact lex3_irrefl _ _ _

theorem edgeLT_trans (o : EdgeOrder) {t u v : Triple Id} (h : edgeLT o t u) (h' : edgeLT o u v) :
    edgeLT o t v := by
  cases o <;> exact lex3_trans h h'

theorem edgeLT_total (o : EdgeOrder) (t u : Triple Id) : edgeLT o t u ∨ t = u ∨ edgeLT o u t := by
  obtain ⟨a, b, c⟩ := t
  obtain ⟨a', b', c'⟩ := u
  cases o
  · rcases lex3_total a b c a' b' c' with h | ⟨rfl, rfl, rfl⟩ | h
    · exact .inl h
    · exact .inr (.inl rfl)
    · exact .inr (.inr h)
  · rcases lex3_total b c a b' c' a' with h | ⟨rfl, rfl, rfl⟩ | h
    · exact .inl h
    · exact .inr (.inl rfl)
    · exact .inr (.inr h)
  · rcases lex3_total c a b c' a' b' with h | ⟨rfl, rfl, rfl⟩ | h
    · exact .inl h
    · exact .inr (.inl rfl)
    · exact .inr (.inr h)

end edgeLT

/-- an enumeration is determined by the map it enumerates -/
theorem pairwise_ext {α : Type} {r : α → α → Prop} (hirr : ∀ a, ¬ r a a)
    (htr : ∀ a b c, r a b → r b c → r a c) {l m : List α} (hl : l.Pairwise r) (hm : m.Pairwise r)
    (h : ∀ e, e ∈ l ↔ e ∈ m) : l = m := by
  induction l generalizing m with
  | nil =>
    cases m with
    | nil => rfl
    | cons b m => exact absurd ((h b).2 (by simp)) (by simp)
  | cons a l ih =>
    cases m with
    | nil => exact absurd ((h a).1 (by simp)) (by simp)
    | cons b m =>
      rw [List.pairwise_cons] at hl hm
      have hab : a = b := by
        rcases List.mem_cons.1 ((h a).1 (by simp)) with e | e
        · exact e
        · rcases List.mem_cons.1 ((h b).2 (by simp)) with e' | e'
          · exact e'.symm
          · exact absurd (htr _ _ _ (hm.1 _ e) (hl.1 _ e')) (hirr _)
      subst hab
      congr 1
      refine ih hl.2 hm.2 (fun e => ?_)
      constructor
      · intro he
        rcases List.mem_cons.1 ((h e).1 (List.mem_cons_of_mem _ he)) with e' | e'
        · subst e'; exact absurd (hl.1 _ he) (hirr _)
        · exact e'
      · intro he
        rcases List.mem_cons.1 ((h e).2 (List.mem_cons_of_mem _ he)) with e' | e'
        · subst e'; exact absurd (hm.1 _ he) (hirr _)
        · exact e'

theorem Lists.unique {κ ν : Type} {lt : κ → κ → Prop} (hirr : ∀ a, ¬ lt a a)
    (htr : ∀ a b c, lt a b → lt b c → lt a c) {f : κ → Option ν} {l m : List (κ × ν)}
    (hl : Lists lt f l) (hm : Lists lt f m) : l = m :=
  pairwise_ext (r := fun a b => lt a.1 b.1) (fun a => hirr a.1) (fun a b c => htr a.1 b.1 c.1)
    hl.1 hm.1 (fun ⟨k, v⟩ => by rw [hl.2, hm.2])

theorem Lists.nodup {κ ν : Type} {lt : κ → κ → Prop} (hirr : ∀ a, ¬ lt a a)
    {f : κ → Option ν} {l : List (κ × ν)} (hl : Lists lt f l) : (l.map Prod.fst).Nodup := by
  rw [List.nodup_iff_pairwise_ne, List.pairwise_map]
  exact hl.1.imp (fun {a b} h (e : a.1 = b.1) => hirr b.1 (by rw [e] at h; exact h))

theorem BMap.lists {K V : Type} [LinearOrder K] (m : BMap K V) : Lists (· < ·) m.get m.entries :=
  ⟨m.sorted, fun _ _ => BMap.mem_entries⟩

/-- two graphs with the same enumeration are equal -/
theorem Lists.map_eq {κ ν : Type} {lt lt' : κ → κ → Prop} {f g : κ → Option ν} {l : List (κ × ν)}
    (hf : Lists lt f l) (hg : Lists lt' g l) : f = g := by
  funext k
  cases h : f k with
  | some v => exact ((hg.2 k v).1 ((hf.2 k v).2 h)).symm
  | none =>
    cases h' : g k with
    | none => rfl
    | some v => rw [(hf.2 k v).1 ((hg.2 k v).2 h')] at h; cases h

/-- Two stores showing the same graph look the same. -/
theorem shows_obs {E Id NP EP : Type} [LinearOrder Id] {o1 o2 : Obs E Id NP EP} {G : Graph Id NP EP} (h1 : Shows o1 G)
    (h2 : Shows o2 G) : o1 = o2 := by
  obtain ⟨v1, s1⟩ := o1
  obtain ⟨v2, s2⟩ := o2
  obtain ⟨⟨l1, a1, b1⟩, c1⟩ := h1
  obtain ⟨⟨l2, a2, b2⟩, c2⟩ := h2
  simp only at a1 a2
  have hv : v1 = v2 := by rw [a1, a2, Lists.unique (fun _ => lt_irrefl _) (fun _ _ _ => lt_trans) b1 b2]
  have hs : s1 = s2 := by
    funext o
    obtain ⟨k1, d1, f1⟩ := c1 o
    obtain ⟨k2, d2, f2⟩ := c2 o
    simp only at d1 d2
    rw [d1, d2, Lists.unique (edgeLT_irrefl o) (fun _ _ _ => edgeLT_trans o) f1 f2]
  rw [hv, hs]

/-- A store showing a graph determines it. -/
theorem shows_unique {E Id NP EP : Type} [LinearOrder Id] {o : Obs E Id NP EP}
    {G H : Graph Id NP EP} (hG : Shows o G) (hH : Shows o H) : G = H := by
  obtain ⟨⟨l, hl, hl'⟩, he⟩ := hG
  obtain ⟨⟨m, hm, hm'⟩, he'⟩ := hH
  have inj : ∀ {α : Type} {a b : List α}, a.map (Except.ok (ε := E)) = b.map .ok → a = b := by
    intro α a b h
    exact List.map_injective_iff.2 (fun x y h => by cases h; rfl) h
  have h1 : l = m := inj (hl.symm.trans hm)
  subst h1
  obtain ⟨a, ha, ha'⟩ := he .SPO
  obtain ⟨b, hb, hb'⟩ := he' .SPO
  have h2 : a = b := inj (ha.symm.trans hb)
  subst h2
  refine Graph.ext' (fun n => ?_) (fun t => ?_)
  · rw [Lists.map_eq hl' hm']
  · rw [Lists.map_eq ha' hb']

/-! ## folds of insertions -/

section
variable {Id NP EP : Type} [DecidableEq Id]

theorem alGet_of_nodup {K V : Type} [DecidableEq K] {l : List (K × V)} (h : (l.map Prod.fst).Nodup)
    {k : K} {v : V} : (k, v) ∈ l ↔ alGet l k = some v := by
  induction l with
  | nil => simp [alGet]
  | cons a l ih =>
    rw [List.map_cons, List.nodup_cons] at h
    unfold alGet
    split
    · rename_i e
      subst e
      constructor
      · intro hm
        rcases List.mem_cons.1 hm with hm | hm
        · rw [← hm]
        · exact absurd (List.mem_map.2 ⟨_, hm, rfl⟩) h.1
      · intro hv
        cases hv; simp
    · rename_i e
      rw [← ih h.2, List.mem_cons]
      constructor
      · rintro (rfl | h)
        · exact absurd rfl e
        · exact h
      · exact .inr

theorem foldl_insertNode {l : List (Id × NP)} (h : (l.map Prod.fst).Nodup) (G : Graph Id NP EP) :
    l.foldl (fun G x => G.insertNode x.1 x.2) G =
      { G with nodes := fun n => (alGet l n).or (G.nodes n) } := by
  induction l generalizing G with
  | nil => simp [alGet]
  | cons a l ih =>
    rw [List.map_cons, List.nodup_cons] at h
    rw [List.foldl_cons, ih h.2]
    refine Graph.ext' (fun n => ?_) (fun t => ?_)
    · simp only [Graph.insertNode, alGet]
      by_cases e : n = a.1
      · subst e
        have : alGet l a.1 = none := by
          cases hg : alGet l a.1 with
          | none => rfl
          | some v =>
            exact absurd (List.mem_map.2 ⟨_, (alGet_of_nodup h.2).2 hg, rfl⟩) h.1
        simp [this]
      · have e' : ¬ a.1 = n := fun h => e h.symm
        simp [e, e']
    · rfl

theorem foldl_insertEdge {l : List (Triple Id × EP)} (h : (l.map Prod.fst).Nodup)
    (G : Graph Id NP EP) :
    l.foldl (fun G x => G.insertEdge x.1 x.2) G =
      { G with edges := fun n => (alGet l n).or (G.edges n) } := by
  induction l generalizing G with
  | nil => simp [alGet]
  | cons a l ih =>
    rw [List.map_cons, List.nodup_cons] at h
    rw [List.foldl_cons, ih h.2]
    refine Graph.ext' (fun n => ?_) (fun n => ?_)
    · rfl
    · simp only [Graph.insertEdge, alGet]
      by_cases e : n = a.1
      · subst e
        have : alGet l a.1 = none := by
          cases hg : alGet l a.1 with
          | none => rfl
          | some v =>
            exact absurd (List.mem_map.2 ⟨_, (alGet_of_nodup h.2).2 hg, rfl⟩) h.1
        simp [this]
      · have e' : ¬ a.1 = n := fun h => e h.symm
        simp [e, e']

theorem alGet_eq_of_lists {K V : Type} [DecidableEq K] {l : List (K × V)} {f : K → Option V}
    (h : (l.map Prod.fst).Nodup) (hf : ∀ k v, (k, v) ∈ l ↔ f k = some v) (k : K) :
    alGet l k = f k := by
  cases hg : f k with
  | some v => exact (alGet_of_nodup h).1 ((hf k v).2 hg)
  | none =>
    cases hl : alGet l k with
    | none => rfl
    | some v => rw [(hf k v).1 ((alGet_of_nodup h).2 hl)] at hg; cases hg

theorem foldl_mergeNode (f : NP → NP → NP) {l : List (Id × NP)} (h : (l.map Prod.fst).Nodup)
    (G : Graph Id NP EP) :
    l.foldl (fun G x => G.mergeNode f x.1 x.2) G =
      { G with nodes := fun n => Graph.mergeOpt f (G.nodes n) (alGet l n) } := by
  induction l generalizing G with
  | nil =>
    refine Graph.ext' (fun n => ?_) (fun t => rfl)
    simp only [List.foldl_nil, alGet]
    cases G.nodes n <;> rfl
  | cons a l ih =>
    rw [List.map_cons, List.nodup_cons] at h
    rw [List.foldl_cons, ih h.2]
    refine Graph.ext' (fun n => ?_) (fun t => ?_)
    · simp only [Graph.mergeNode, alGet]
      by_cases e : n = a.1
      · subst e
        have : alGet l a.1 = none := by
          cases hg : alGet l a.1 with
          | none => rfl
          | some v =>
            exact absurd (List.mem_map.2 ⟨_, (alGet_of_nodup h.2).2 hg, rfl⟩) h.1
        cases hG : G.nodes a.1 <;> simp [this, Graph.mergeOpt]
      · have e' : ¬ a.1 = n := fun h => e h.symm
        simp [e, e']
    · rfl

theorem foldl_mergeEdge (f : EP → EP → EP) {l : List (Triple Id × EP)} (h : (l.map Prod.fst).Nodup)
    (G : Graph Id NP EP) :
    l.foldl (fun G x => G.mergeEdge f x.1 x.2) G =
      { G with edges := fun n => Graph.mergeOpt f (G.edges n) (alGet l n) } := by
  induction l generalizing G with
  | nil =>
    refine Graph.ext' (fun n => rfl) (fun n => ?_)
    simp only [List.foldl_nil, alGet]
    cases G.edges n <;> rfl
  | cons a l ih =>
    rw [List.map_cons, List.nodup_cons] at h
    rw [List.foldl_cons, ih h.2]
    refine Graph.ext' (fun n => rfl) (fun n => ?_)
    simp only [Graph.mergeEdge, alGet]
    by_cases e : n = a.1
    · subst e
      have : alGet l a.1 = none := by
        cases hg : alGet l a.1 with
        | none => rfl
        | some v =>
          exact absurd (List.mem_map.2 ⟨_, (alGet_of_nodup h.2).2 hg, rfl⟩) h.1
      cases hG : G.edges a.1 <;> simp [this, Graph.mergeOpt]
    · have e' : ¬ a.1 = n := fun h => e h.symm
      simp [e, e']

end

end Verif
