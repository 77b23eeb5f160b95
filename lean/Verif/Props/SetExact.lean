import Verif.Props.Set
import Verif.Spec.StoreEq

/-!
# C20, C22, C63: exactly when `difference` and `==` are right
-/

set_option linter.unusedSectionVars false
set_option maxRecDepth 100000

namespace Verif.Props

open Verif Spec ConcreteId

variable {Id NP EP E : Type} [LinearOrder Id] [ConcreteId Id] [LawfulId Id]
variable {mN : NP → NP → NP} {mE : EP → EP → EP}

/-! ## C20 difference -/

/-- `difference` is right if and only if, of the edges of `self` that are not in `other`:
those above every edge of `other` have no removed endpoint, and those below some edge of `other` have a removed endpoint whenever
they have one that `other` holds, `self` does not, and which is below some node of `self`. -/
theorem C20_exact {n m : Nat} {s r : Mem Id NP EP} {G H : Graph Id NP EP} {other : Source E Id NP EP}
    (hs : Mem.Reach E mN mE m s) (hG : Shows s.obs G) (hH : RepresentsSorted other H) {g : Gen Id}
    (hg : Fresh (n + s.edgeCount) g) (hr : s.difference g other = .ok r) :
    Shows r.obs (G.diff H) ↔ ∀ t, (G.edges t).isSome → H.edges t = none →
      ((∀ u, (H.edges u).isSome → edgeLT .SPO u t) →
        ∀ x, x = t.sub ∨ x = t.obj → (G.nodes x).isSome → H.nodes x = none) ∧
      ((∃ u, (H.edges u).isSome ∧ ¬ edgeLT .SPO u t) →
        (∃ x, (x = t.sub ∨ x = t.obj) ∧ (H.nodes x).isSome ∧ ∃ y, (G.nodes y).isSome ∧ x ≤ y) →
        ∃ x, (x = t.sub ∨ x = t.obj) ∧ (G.nodes x).isSome ∧ (H.nodes x).isSome) := by
  obtain ⟨r', D, e, hr', hD, hn, he⟩ := C20_computed hs hG hH hg
  obtain rfl : r' = r := by rw [hr] at e; cases e; rfl
  have key : Shows r'.obs (G.diff H) ↔ ∀ t p, D.edges t = some p ↔ (G.diff H).edges t = some p := by
    constructor
    · intro h t p
      rw [shows_unique hD h]
    · intro h
      have : D = G.diff H := Graph.ext' (fun x => by rw [hn]; rfl) (fun t => Option.ext (h t))
      rw [← this]; exact hD
  have gone : ∀ t p, (G.diff H).edges t = some p ↔ G.edges t = some p ∧ H.edges t = none ∧
      ∀ x, x = t.sub ∨ x = t.obj → (G.nodes x).isSome → H.nodes x = none := by
    intro t p
    simp only [Graph.diff]
    rw [Option.ite_none_left_eq_some]
    simp only [not_or, not_and, Option.not_isSome_iff_eq_none]
    constructor
    · rintro ⟨⟨a, b, c⟩, d⟩
      exact ⟨d, a, by rintro x (rfl | rfl) <;> assumption⟩
    · rintro ⟨d, a, b⟩
      exact ⟨⟨a, b _ (.inl rfl), b _ (.inr rfl)⟩, d⟩
  rw [key]
  constructor
  · intro h t ht hu
    obtain ⟨p, hp⟩ := Option.isSome_iff_exists.1 ht
    constructor
    · intro ha
      exact ((gone t p).1 ((h t p).1 ((he t p).2 ⟨hp, hu, .inl ha⟩))).2.2
    · rintro ⟨u, hu1, hu2⟩ ⟨x, hx, hx1, hx2⟩
      by_contra hno
      have : (G.diff H).edges t = some p := (gone t p).2 ⟨hp, hu, fun x hx h1 =>
        Option.not_isSome_iff_eq_none.1 (fun h2 => hno ⟨x, hx, h1, h2⟩)⟩
      obtain ⟨-, -, h1 | h1⟩ := (he t p).1 ((h t p).2 this)
      · exact hu2 (h1 u hu1)
      · exact h1 x hx ⟨hx1, hx2⟩
  · intro h t p
    rw [he, gone]
    constructor
    · rintro ⟨hp, hu, hor⟩
      refine ⟨hp, hu, ?_⟩
      rcases hor with ha | hb
      · exact (h t (by rw [hp]; rfl) hu).1 ha
      · intro x hx hx1
        by_contra hx2
        exact hb x hx ⟨Option.isSome_iff_ne_none.2 hx2, x, hx1, le_refl _⟩
    · rintro ⟨hp, hu, hc⟩
      refine ⟨hp, hu, ?_⟩
      by_cases ha : ∀ u, (H.edges u).isSome → edgeLT .SPO u t
      · exact .inl ha
      · right
        intro x hx hx1
        simp only [not_forall] at ha
        obtain ⟨u, hu1, hu2⟩ := ha
        obtain ⟨y, hy, hy1, hy2⟩ := (h t (by rw [hp]; rfl) hu).2 ⟨u, hu1, hu2⟩ ⟨x, hx, hx1⟩
        rw [hc y hy hy1] at hy2
        cases hy2

/-- Without orphaned edges in `self`: `difference` is right if and only if no edge above every edge of `other` has an endpoint that
`other` holds. -/
theorem C20_exact_intact {n m : Nat} {s r : Mem Id NP EP} {G H : Graph Id NP EP} {other : Source E Id NP EP}
    (hs : Mem.Reach E mN mE m s) (hG : Shows s.obs G) (hH : RepresentsSorted other H) {g : Gen Id}
    (hg : Fresh (n + s.edgeCount) g) (hr : s.difference g other = .ok r)
    (hi : ∀ t, (G.edges t).isSome → (G.nodes t.sub).isSome ∧ (G.nodes t.obj).isSome) :
    Shows r.obs (G.diff H) ↔ ∀ t, (G.edges t).isSome → (∀ u, (H.edges u).isSome → edgeLT .SPO u t) →
      H.nodes t.sub = none ∧ H.nodes t.obj = none := by
  rw [C20_exact hs hG hH hg hr]
  constructor
  · intro h t ht ha
    have hu : H.edges t = none := Option.not_isSome_iff_eq_none.1 (fun h => edgeLT_irrefl _ _ (ha t h))
    exact ⟨(h t ht hu).1 ha _ (.inl rfl) (hi t ht).1, (h t ht hu).1 ha _ (.inr rfl) (hi t ht).2⟩
  · intro h t ht hu
    constructor
    · rintro ha x (rfl | rfl) -
      · exact (h t ht ha).1
      · exact (h t ht ha).2
    · rintro - ⟨x, hx, hx1, -⟩
      refine ⟨x, hx, ?_, hx1⟩
      rcases hx with rfl | rfl
      · exact (hi t ht).1
      · exact (hi t ht).2

/-- the theorem at work: node 2 goes, and the edge (1,5,2) with it, because `other` has an edge above -/
example : ∃ r, Sample.diffStore.difference (Sample.cg 5) Sample.diffSrc = .ok r ∧ Shows r.obs (Sample.diffGraph.diff
    { nodes := fun n => if n = 2 then some 0 else none, edges := fun t => if t = ⟨4, 4, 4⟩ then some 0 else none }) := by
  have hs := Sample.diffStore_reach 0 (by decide)
  have hG := Mem.shows hs.inv.toAgree
  rw [Sample.diffStore_graph] at hG
  have hg : Fresh (0 + Sample.diffStore.edgeCount) (Sample.cg 5) := Sample.cg_fresh _ _ (by decide +kernel)
  obtain ⟨r, -, hr, -⟩ := C20_computed (n := 0) (g := Sample.cg 5) hs hG Sample.diffSrc_sorted hg
  refine ⟨r, hr, (C20_exact_intact hs hG Sample.diffSrc_sorted hg hr ?_).2 ?_⟩
  · intro t ht
    simp only [Sample.diffGraph] at ht
    split at ht
    · rename_i h; subst h; decide
    · split at ht
      · rename_i h; subst h; decide
      · simp at ht
  · intro t ht ha
    have := ha ⟨4, 4, 4⟩ (by decide)
    simp only [Sample.diffGraph] at ht
    split at ht
    · rename_i h; subst h; simp [edgeLT, lex3] at this
    · split at ht
      · rename_i h; subst h; simp [edgeLT, lex3] at this
      · simp at ht

/-- … and the wrong result when it does not have one -/
example : ∃ (r : Mem U64 Nat Nat) (other : Source String U64 Nat Nat) (H : Graph U64 Nat Nat), RepresentsSorted other H ∧
    Sample.diffStore.difference (Sample.cg 5) other = .ok r ∧ ¬ Shows r.obs (Sample.diffGraph.diff H) := by
  have hs := Sample.diffStore_reach 0 (by decide)
  have hG := Mem.shows hs.inv.toAgree
  rw [Sample.diffStore_graph] at hG
  have hg : Fresh (0 + Sample.diffStore.edgeCount) (Sample.cg 5) := Sample.cg_fresh _ _ (by decide +kernel)
  have hH : RepresentsSorted ({ nodes := [.ok (2, 0)], edges := [] } : Source String U64 Nat Nat)
      { nodes := fun n => if n = 2 then some 0 else none, edges := fun _ => none } := by
    refine ⟨⟨[(2, 0)], rfl, by simp, fun n p => ?_⟩, ⟨[], rfl, by simp, fun t p => by simp⟩⟩
    by_cases h : n = 2
    · subst h; simp [eq_comm]
    · simp [h]
  obtain ⟨r, -, hr, -⟩ := C20_computed (n := 0) (g := Sample.cg 5) hs hG hH hg
  refine ⟨r, _, _, hH, hr, ?_⟩
  rw [C20_exact hs hG hH hg hr]
  intro h
  have := (h ⟨1, 5, 2⟩ (by decide) rfl).1 (fun u hu => by cases hu) 2 (.inr rfl) (by decide)
  cases this

/-! ## C22 == -/

theorem prefix_of_sorted {α : Type} {lt : α → α → Prop} (irr : ∀ a, ¬ lt a a) (tr : ∀ a b c, lt a b → lt b c → lt a c)
    {l : List α} : ∀ {k : List α}, l.Pairwise lt → k.Pairwise lt → (∀ x ∈ l, x ∈ k) → (∀ x ∈ l, ∀ y ∈ k, y ∉ l → lt x y) →
      l <+: k := by
  induction l with
  | nil => intro k _ _ _ _; exact List.nil_prefix
  | cons a l ih =>
    intro k hl hk hs hb
    rw [List.pairwise_cons] at hl
    cases k with
    | nil => cases hs a (by simp)
    | cons b k =>
      rw [List.pairwise_cons] at hk
      obtain rfl : a = b := by
        by_contra hab
        have h1 : lt b a := by
          rcases List.mem_cons.1 (hs a (by simp)) with h | h
          · exact absurd h hab
          · exact hk.1 a h
        have h2 : lt a b := by
          by_cases hm : b ∈ a :: l
          · rcases List.mem_cons.1 hm with h | h
            · exact absurd h.symm hab
            · exact hl.1 b h
          · exact hb a (by simp) b (by simp) hm
        exact irr _ (tr _ _ _ h1 h2)
      rw [List.cons_prefix_cons]
      refine ⟨rfl, ih hl.2 hk.2 (fun x hx => ?_) (fun x hx y hy hn => ?_)⟩
      · rcases List.mem_cons.1 (hs x (List.mem_cons_of_mem _ hx)) with h | h
        · subst h; exact absurd (hl.1 x hx) (irr x)
        · exact h
      · refine hb x (List.mem_cons_of_mem _ hx) y (List.mem_cons_of_mem _ hy) ?_
        rintro hm
        rcases List.mem_cons.1 hm with h | h
        · subst h; exact irr y (hk.1 y hy)
        · exact hn h

theorem lists_prefix {κ ν : Type} {lt : κ → κ → Prop} (irr : ∀ a, ¬ lt a a) (tr : ∀ a b c, lt a b → lt b c → lt a c)
    {f g : κ → Option ν} {l k : List (κ × ν)} (hl : Lists lt f l) (hk : Lists lt g k) :
    l <+: k ↔ (∀ a v, f a = some v → g a = some v) ∧
      ∀ a b, (f a).isSome → (g b).isSome → f b = none → lt a b := by
  constructor
  · rintro ⟨m, rfl⟩
    have hs : ∀ a v, f a = some v → g a = some v := fun a v h =>
      (hk.2 a v).1 (List.mem_append_left _ ((hl.2 a v).2 h))
    refine ⟨hs, fun a b ha hb hn => ?_⟩
    obtain ⟨v, hv⟩ := Option.isSome_iff_exists.1 ha
    obtain ⟨w, hw⟩ := Option.isSome_iff_exists.1 hb
    rcases List.mem_append.1 ((hk.2 b w).2 hw) with h | h
    · rw [(hl.2 b w).1 h] at hn; cases hn
    · exact (List.pairwise_append.1 hk.1).2.2 (a, v) ((hl.2 a v).2 hv) (b, w) h
  · rintro ⟨hs, hb⟩
    refine prefix_of_sorted (lt := fun a b => lt a.1 b.1) (fun a => irr a.1) (fun a b c => tr a.1 b.1 c.1) hl.1 hk.1 ?_ ?_
    · rintro ⟨a, v⟩ h
      exact (hk.2 a v).2 (hs a v ((hl.2 a v).1 h))
    · rintro ⟨a, v⟩ h ⟨b, w⟩ h' hn
      refine hb a b (by rw [(hl.2 a v).1 h]; rfl) (by rw [(hk.2 b w).1 h']; rfl) ?_
      cases hf : f b with
      | none => rfl
      | some u =>
        have := hs b u hf
        rw [(hk.2 b w).1 h'] at this
        cases this
        exact absurd ((hl.2 b w).2 hf) hn

/-- Which graphs `==` takes for equal: those of which one is the other with further edges, all of them after its own. -/
theorem C22_exact [BEq NP] [LawfulBEq NP] [BEq EP] [LawfulBEq EP] {n m : Nat} {a b : Mem Id NP EP} {G H : Graph Id NP EP}
    (ha : Mem.Reach E mN mE n a) (hb : Mem.Reach E mN mE m b) (hG : Shows a.obs G) (hH : Shows b.obs H) :
    a.eq b = true ↔ G.Begins H ∨ H.Begins G := by
  rw [C22_computed ha hb]
  have inj' : Function.Injective (Except.ok : Triple Id × EP → Except Unit (Triple Id × EP)) :=
    fun _ _ h => by cases h; rfl
  have inj : ∀ {α : Type} {x y : List α}, x.map (Except.ok (ε := Unit)) = y.map .ok → x = y :=
    fun h => List.map_injective_iff.2 (fun _ _ h => by cases h; rfl) h
  obtain ⟨⟨l, hl, hl'⟩, hE⟩ := hG
  obtain ⟨⟨l2, hl2, hl2'⟩, hE2⟩ := hH
  obtain ⟨k, hk, hk'⟩ := hE .SPO
  obtain ⟨k2, hk2, hk2'⟩ := hE2 .SPO
  have e1 : a.iterVertices = b.iterVertices ↔ G.nodes = H.nodes := by
    have h1 : a.iterVertices = l.map .ok := hl
    have h2 : b.iterVertices = l2.map .ok := hl2
    rw [h1, h2]
    constructor
    · intro h
      have := inj h
      subst this
      funext x
      exact Option.ext (fun p => by rw [← hl'.2, ← hl2'.2])
    · intro h
      rw [h] at hl'
      rw [Lists.unique (fun _ => lt_irrefl _) (fun _ _ _ => lt_trans) hl' hl2']
  have h1 : a.iterEdges .SPO = k.map .ok := hk
  have h2 : b.iterEdges .SPO = k2.map .ok := hk2
  rw [e1, h1, h2, List.prefix_map_iff_of_injective inj', List.prefix_map_iff_of_injective inj',
    lists_prefix (edgeLT_irrefl .SPO) (fun _ _ _ => edgeLT_trans .SPO) hk' hk2',
    lists_prefix (edgeLT_irrefl .SPO) (fun _ _ _ => edgeLT_trans .SPO) hk2' hk']
  constructor
  · rintro ⟨h, ⟨x, y⟩ | ⟨x, y⟩⟩
    · exact .inl ⟨h, x, y⟩
    · exact .inr ⟨h.symm, x, y⟩
  · rintro (h | h)
    · exact ⟨h.nodes, .inl ⟨h.edges, h.after⟩⟩
    · exact ⟨h.nodes.symm, .inr ⟨h.edges, h.after⟩⟩

/-- So every store is `==` to a different one: itself with an edge after all of its own. -/
theorem C22_every_store [BEq NP] [LawfulBEq NP] [BEq EP] [LawfulBEq EP] {n : Nat} {a : Mem Id NP EP} {G : Graph Id NP EP}
    (ha : Mem.Reach E mN mE (n + 1) a) (hG : Shows a.obs G) (t : Triple Id) (p : EP)
    (ht : ∀ u, (G.edges u).isSome → edgeLT .SPO u t) :
    a.eq (a.insertEdge t p) = true ∧ (a.insertEdge t p).eq a = true ∧ ∃ H, Shows (a.insertEdge t p).obs H ∧ G ≠ H := by
  have hb : Mem.Reach E mN mE n (a.insertEdge t p) := .op (.insertEdge t p) ha
  have hG' := ha.graph_of_shows hG
  have hH : (a.insertEdge t p).graph = G.insertEdge t p := by
    rw [← hG']
    exact (Mem.ok_insertEdge n a _ t p ha.ok).graph
  have hS := Mem.shows hb.inv.toAgree
  rw [hH] at hS
  have hn : G.edges t = none := Option.not_isSome_iff_eq_none.1 (fun h => edgeLT_irrefl _ _ (ht t h))
  have hB : G.Begins (G.insertEdge t p) := by
    refine ⟨rfl, fun u q h => ?_, fun u v hu hv hv' => ?_⟩
    · simp only [Graph.insertEdge]
      rw [if_neg]
      · exact h
      · rintro rfl; rw [hn] at h; cases h
    · simp only [Graph.insertEdge] at hv
      split at hv
      · rename_i h; subst h; exact ht u hu
      · rw [hv'] at hv; cases hv
  refine ⟨(C22_exact ha hb hG hS).2 (.inl hB), (C22_exact hb ha hS hG).2 (.inr hB), _, hS, fun h => ?_⟩
  have := congrFun (congrArg Graph.edges h) t
  rw [hn] at this
  simp [Graph.insertEdge] at this

example : Sample.diffStore.eq (Sample.diffStore.insertEdge ⟨4, 4, 4⟩ 9) = true :=
  (C22_every_store (n := 0) (Sample.diffStore_reach 1 (by decide))
    (Mem.shows (Sample.diffStore_reach 1 (by decide)).inv.toAgree) ⟨4, 4, 4⟩ 9 (by
      rw [Sample.diffStore_graph]
      intro u hu
      simp only [Sample.diffGraph] at hu
      split at hu
      · rename_i h; subst h; simp [edgeLT, lex3]
      · split at hu
        · rename_i h; subst h; simp [edgeLT, lex3]
        · simp at hu)).1

/-- … and any store can be in the middle where `==` is not transitive. -/
theorem C63_every_middle [BEq NP] [LawfulBEq NP] [BEq EP] [LawfulBEq EP] {n : Nat} {b : Mem Id NP EP} {G : Graph Id NP EP}
    (hb : Mem.Reach E mN mE (n + 1) b) (hG : Shows b.obs G) (t : Triple Id) (p q : EP) (hpq : p ≠ q)
    (ht : ∀ u, (G.edges u).isSome → edgeLT .SPO u t) :
    (b.insertEdge t p).eq b = true ∧ b.eq (b.insertEdge t q) = true ∧ (b.insertEdge t p).eq (b.insertEdge t q) = false := by
  refine ⟨(C22_every_store hb hG t p ht).2.1, (C22_every_store hb hG t q ht).1, ?_⟩
  rw [Bool.eq_false_iff]
  have key : ∀ p, Mem.Reach E mN mE n (b.insertEdge t p) ∧ Shows (b.insertEdge t p).obs (G.insertEdge t p) := by
    intro p
    have h1 : Mem.Reach E mN mE n (b.insertEdge t p) := .op (.insertEdge t p) hb
    have h2 := Mem.shows h1.inv.toAgree
    rw [(Mem.ok_insertEdge n b _ t p hb.ok).graph, hb.graph_of_shows hG] at h2
    exact ⟨h1, h2⟩
  rw [Ne, C22_exact (key p).1 (key q).1 (key p).2 (key q).2]
  have e : ∀ p, (G.insertEdge t p).edges t = some p := fun p => by simp [Graph.insertEdge]
  rintro (h | h)
  · have := h.edges t p (e p)
    rw [e q] at this; cases this; exact hpq rfl
  · have := h.edges t q (e q)
    rw [e p] at this; cases this; exact hpq rfl

example : (Sample.diffStore.insertEdge ⟨4, 4, 4⟩ 9).eq (Sample.diffStore.insertEdge ⟨4, 4, 4⟩ 8) = false :=
  (C63_every_middle (n := 0) (Sample.diffStore_reach 1 (by decide))
    (Mem.shows (Sample.diffStore_reach 1 (by decide)).inv.toAgree) ⟨4, 4, 4⟩ 9 8 (by decide) (by
      rw [Sample.diffStore_graph]
      intro u hu
      simp only [Sample.diffGraph] at hu
      split at hu
      · rename_i h; subst h; simp [edgeLT, lex3]
      · split at hu
        · rename_i h; subst h; simp [edgeLT, lex3]
        · simp at hu)).2.2

end Verif.Props
