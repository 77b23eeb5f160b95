import Verif.Proof.MemSetErr
import Verif.Props.Sample

/-!
# C18–C22, C44–C46: set operations, equality and Debug of the in-memory store
-/

set_option linter.unusedSectionVars false
set_option maxRecDepth 100000

namespace Verif.Props

open Verif Spec ConcreteId

variable {Id NP EP E : Type} [LinearOrder Id] [ConcreteId Id] [LawfulId Id]
variable {mN : NP → NP → NP} {mE : EP → EP → EP}

/-! ## C18 union -/

/-- `other` is any store that shows `H` (its iterators may list `H` in any order). -/
theorem C18_union {n m : Nat} {s : Mem Id NP EP} {G H : Graph Id NP EP} {other : Source E Id NP EP}
    (hs : Mem.Reach E mN mE m s) (hG : Shows s.obs G) (hH : Represents other H) {g : Gen Id}
    (hg : Fresh (n + s.edgeCount + other.edges.length) g) :
    ∃ r, s.union g other = .ok r ∧ Mem.Reach E mN mE n r ∧ Shows r.obs (G.overlay H) := by
  obtain ⟨r, h1, h2⟩ := Mem.union_spec hs.inv.toAgree hH n hg
  rw [hs.graph_of_shows hG] at h2
  exact ⟨r, h1, .union hs hg h1, h2.shows⟩

example : ∃ r, Sample.store.union (Sample.cg 5) Sample.goodSrc = .ok r ∧
    Shows r.obs (Sample.store.graph.overlay Sample.goodGraph) := by
  obtain ⟨r, h1, -, h2⟩ := C18_union (n := 0) (g := Sample.cg 5) (Sample.store_reach 0 (by decide))
    (Mem.shows (Sample.store_reach 0 (by decide)).inv.toAgree) (RepresentsSorted.represents Sample.goodSrc_sorted)
    (Sample.cg_fresh _ _ (by decide +kernel))
  exact ⟨r, h1, h2⟩

/-! ## C19 intersection -/

theorem C19_intersection {n m : Nat} {s : Mem Id NP EP} {G H : Graph Id NP EP} {other : Source E Id NP EP}
    (hs : Mem.Reach E mN mE m s) (hG : Shows s.obs G) (hH : RepresentsSorted other H) {g : Gen Id}
    (hg : Fresh (n + s.edgeCount) g) :
    ∃ r, s.intersection g other = .ok r ∧ Mem.Reach E mN mE n r ∧ Shows r.obs (G.inter H) := by
  obtain ⟨r, h1, h2⟩ := Mem.intersection_spec hs.inv.toAgree hH n hg
  rw [hs.graph_of_shows hG] at h2
  exact ⟨r, h1, .intersection hs hg h1, h2.shows⟩

/-- the common edge keeps the left store's properties (71, not 4) -/
example : ∃ r, Sample.store.intersection (Sample.cg 5) Sample.goodSrc = .ok r ∧
    r.iterEdges .POS = [.ok (⟨1, 5, 2⟩, 71)] ∧ r.iterVertices = [.ok (2, 20)] := by
  obtain ⟨r, h1, h3, h2⟩ := C19_intersection (n := 0) (g := Sample.cg 5) (Sample.store_reach 0 (by decide))
    (Mem.shows (Sample.store_reach 0 (by decide)).inv.toAgree) Sample.goodSrc_sorted
    (Sample.cg_fresh _ _ (by decide +kernel))
  refine ⟨r, h1, ?_⟩
  let k : Mem U64 Nat Nat := ((Mem.new (Sample.cg 0)).insertNode 2 20).insertEdge ⟨1, 5, 2⟩ 71
  have hk : Mem.Reach String Sample.mN Sample.mE 0 k :=
    .op (.insertEdge ⟨1, 5, 2⟩ 71) (.op (.insertNode 2 20) (.new (Sample.cg_fresh 1 0 (by decide))))
  have : k.obs = r.obs := by
    refine Mem.obs_ext hk.inv.toAgree h3.inv.toAgree ?_
    rw [h3.graph_of_shows h2]
    refine Graph.ext' (fun x => ?_) (fun t => ?_)
    · have e : k.graph.nodes x = if x = 2 then some 20 else none := by
        rw [show k.graph = _ from (Mem.ok_insertEdge 0 _ _ ⟨1, 5, 2⟩ 71 (Mem.ok_insertNode 1 _ _ 2 20
          (Mem.ok_new (Sample.cg_fresh 1 0 (by decide))))).graph]
        rfl
      rw [e]
      simp only [Graph.inter, Sample.goodGraph]
      by_cases h : x = 2
      · subst h; decide +kernel
      · by_cases h' : x = 3
        · subst h'; decide +kernel
        · simp [h, h']
    · have e : k.graph.edges t = if t = ⟨1, 5, 2⟩ then some 71 else none := by
        rw [show k.graph = _ from (Mem.ok_insertEdge 0 _ _ ⟨1, 5, 2⟩ 71 (Mem.ok_insertNode 1 _ _ 2 20
          (Mem.ok_new (Sample.cg_fresh 1 0 (by decide))))).graph]
        rfl
      rw [e]
      simp only [Graph.inter, Sample.goodGraph]
      by_cases h : t = ⟨1, 5, 2⟩
      · subst h; decide +kernel
      · by_cases h' : t = ⟨3, 3, 3⟩
        · subst h'; decide +kernel
        · simp [h, h']
  have h1 : k.iterVertices = r.iterVertices := congrArg Obs.vertices this
  have h2 : k.iterEdges = r.iterEdges := congrArg Obs.edges this
  rw [← h1, ← h2]
  decide +kernel

/-! ## C20 difference

The intended meaning is `Graph.diff`.  The code does not compute it: the tail loop (src/mem/set.rs:187-192)
copies the edges that are above every edge of `other` without looking at `removed_nodes`. -/

/-- What `difference` really computes. -/
theorem C20_computed {n m : Nat} {s : Mem Id NP EP} {G H : Graph Id NP EP} {other : Source E Id NP EP}
    (hs : Mem.Reach E mN mE m s) (hG : Shows s.obs G) (hH : RepresentsSorted other H) {g : Gen Id}
    (hg : Fresh (n + s.edgeCount) g) :
    ∃ r D, s.difference g other = .ok r ∧ Mem.Reach E mN mE n r ∧ Shows r.obs D ∧
      (∀ x, D.nodes x = if (H.nodes x).isSome then none else G.nodes x) ∧
      (∀ t p, D.edges t = some p ↔ G.edges t = some p ∧ H.edges t = none ∧
        ((∀ u, (H.edges u).isSome → edgeLT .SPO u t) ∨
          ∀ x, x = t.sub ∨ x = t.obj → ¬ ((H.nodes x).isSome ∧ ∃ y, (G.nodes y).isSome ∧ x ≤ y))) := by
  obtain ⟨r, D, h1, h2, h3⟩ := Mem.difference_spec hs.inv.toAgree hH n hg
  rw [hs.graph_of_shows hG] at h2
  exact ⟨r, D, h1, .difference hs hg h1, h3.shows, h2.nodes, h2.edges⟩

/-- `difference` computes `Graph.diff` under two extra conditions, which are not checked by the code and fail in
general:
(1) no edge of `self` is orphaned;
(2) every edge of `self` that has a removed endpoint lies below some edge of `other` (in SPO order).
Missing for the full property: those two conditions; `C20_violated` shows that it is false without them. -/
theorem C20_difference_partial {n m : Nat} {s : Mem Id NP EP} {G H : Graph Id NP EP} {other : Source E Id NP EP}
    (hs : Mem.Reach E mN mE m s) (hG : Shows s.obs G) (hH : RepresentsSorted other H) {g : Gen Id}
    (hg : Fresh (n + s.edgeCount) g)
    (h1 : ∀ t, (G.edges t).isSome → (G.nodes t.sub).isSome ∧ (G.nodes t.obj).isSome)
    (h2 : ∀ t, (G.edges t).isSome → ((H.nodes t.sub).isSome ∨ (H.nodes t.obj).isSome) →
      ∃ u, (H.edges u).isSome ∧ ¬ edgeLT .SPO u t) :
    ∃ r, s.difference g other = .ok r ∧ Mem.Reach E mN mE n r ∧ Shows r.obs (G.diff H) := by
  obtain ⟨r, D, e, hr, hD, hn, he⟩ := C20_computed hs hG hH hg
  refine ⟨r, e, hr, ?_⟩
  have : D = G.diff H := by
    refine Graph.ext' (fun x => by rw [hn]; rfl) (fun t => Option.ext (fun p => ?_))
    rw [he]
    simp only [Graph.diff]
    cases hGt : G.edges t with
    | none => simp
    | some q =>
      have hsome : (G.edges t).isSome := by rw [hGt]; rfl
      obtain ⟨hs1, ho1⟩ := h1 t hsome
      have h2' := h2 t hsome
      simp only [hs1, ho1, true_and]
      constructor
      · rintro ⟨hq, hH, hor⟩
        rw [if_neg]
        · exact hq
        · rintro (h | h)
          · rw [hH] at h; cases h
          · rcases hor with hall | hend
            · obtain ⟨u, hu, hu'⟩ := h2' h
              exact hu' (hall u hu)
            · rcases h with h | h
              · exact hend _ (.inl rfl) ⟨h, t.sub, hs1, le_refl _⟩
              · exact hend _ (.inr rfl) ⟨h, t.obj, ho1, le_refl _⟩
      · intro hif
        rw [Option.ite_none_left_eq_some] at hif
        obtain ⟨hn, hq⟩ := hif
        simp only [not_or, Option.not_isSome_iff_eq_none] at hn
        obtain ⟨a, b, c⟩ := hn
        refine ⟨hq, a, .inr ?_⟩
        rintro x (rfl | rfl) ⟨hx, -⟩
        · rw [b] at hx; cases hx
        · rw [c] at hx; cases hx
  rw [← this]; exact hD

/-- the hypotheses hold with a removed endpoint below an edge of `other`: node 2 and with it the edge (1,5,2) go -/
example : ∃ r G, Sample.diffStore.difference (Sample.cg 5) Sample.diffSrc = .ok r ∧ Shows r.obs G ∧
    G.edges ⟨1, 5, 2⟩ = none ∧ G.edges ⟨1, 5, 1⟩ = some 6 ∧ G.nodes 2 = none ∧ G.nodes 1 = some 10 := by
  have hs := Sample.diffStore_reach 0 (by decide)
  have hG : Sample.diffStore.graph = Sample.diffGraph := Sample.diffStore_graph
  obtain ⟨r, h1, -, h2⟩ := C20_difference_partial (n := 0) (g := Sample.cg 5) hs (Mem.shows hs.inv.toAgree)
    Sample.diffSrc_sorted (Sample.cg_fresh _ _ (by decide +kernel))
    (by
      rw [hG]; intro t ht
      simp only [Sample.diffGraph] at ht
      split at ht
      · rename_i h; subst h; decide
      · split at ht
        · rename_i h; subst h; decide
        · simp at ht)
    (by
      rw [hG]; intro t ht _
      refine ⟨⟨4, 4, 4⟩, by decide, ?_⟩
      simp only [Sample.diffGraph] at ht
      split at ht
      · rename_i h; subst h; simp [edgeLT, lex3]
      · split at ht
        · rename_i h; subst h; simp [edgeLT, lex3]
        · simp at ht)
  refine ⟨r, _, h1, h2, ?_⟩
  rw [hG]
  decide

/-- The property is false: subtracting a store that holds node 2 and no edge leaves the edge (1,5,2) in the result,
although node 2 was removed. -/
theorem C20_violated : ∃ (s : Mem U64 Nat Nat) (other : Source Unit U64 Nat Nat) (g : Gen U64)
    (G H : Graph U64 Nat Nat) (r : Mem U64 Nat Nat),
    Mem.Reach Unit Sample.mN Sample.mE 0 s ∧ Shows s.obs G ∧ RepresentsSorted other H ∧ Fresh s.edgeCount g ∧
      s.difference g other = .ok r ∧ .ok (⟨1, 5, 2⟩, 7) ∈ r.iterEdges .SPO ∧
      (∀ p, .ok (2, p) ∉ r.iterVertices) ∧ ¬ Shows r.obs (G.diff H) := by
  let s : Mem U64 Nat Nat := (((Mem.new (Sample.cg 0)).insertNode 1 10).insertNode 2 20).insertEdge ⟨1, 5, 2⟩ 7
  let H : Graph U64 Nat Nat := { nodes := fun n => if n = 2 then some 0 else none, edges := fun _ => none }
  have hs : Mem.Reach Unit Sample.mN Sample.mE 0 s :=
    .op (.insertEdge ⟨1, 5, 2⟩ 7) (.op (.insertNode 2 20) (.op (.insertNode 1 10)
      (.new (Sample.cg_fresh 1 0 (by omega)))))
  have hH : RepresentsSorted ({ nodes := [.ok (2, 0)], edges := [] } : Source Unit U64 Nat Nat) H := by
    refine ⟨⟨[(2, 0)], rfl, by simp, fun n p => ?_⟩, ⟨[], rfl, by simp, fun t p => by simp [H]⟩⟩
    by_cases h : n = 2
    · subst h; simp [H, eq_comm]
    · simp [H, h]
  have hg : Fresh (0 + s.edgeCount) (Sample.cg 0) := Sample.cg_fresh _ _ (by
    have : s.edgeCount = 1 := by rfl
    omega)
  have hedge : s.graph.edges ⟨1, 5, 2⟩ = some 7 := by rfl
  obtain ⟨r, D, e, hr, hD, hn, he⟩ := C20_computed hs (Mem.shows hs.inv.toAgree) hH hg
  have hD1 : D.edges ⟨1, 5, 2⟩ = some 7 := (he _ _).2 ⟨hedge, rfl, .inl (fun u hu => by cases hu)⟩
  have hDn : D.nodes 2 = none := by rw [hn]; simp [H]
  have hgr := hr.graph_of_shows hD
  refine ⟨s, _, Sample.cg 0, s.graph, H, r, hs, Mem.shows hs.inv.toAgree, hH, by rw [← Nat.zero_add s.edgeCount]; exact hg,
    e, ?_, ?_, ?_⟩
  · rw [Mem.iterEdges_mem hr.inv.toAgree, hgr]; exact hD1
  · intro p hp
    rw [Mem.iterVertices_eq] at hp
    simp only [List.mem_map, Except.ok.injEq, exists_eq_right, BMap.mem_entries] at hp
    have : r.graph.nodes 2 = some p := hp
    rw [hgr, hDn] at this
    cases this
  · intro hS
    have := shows_unique hD hS
    rw [this] at hD1
    have h2 : (s.graph.nodes 2).isSome := by rfl
    simp only [Graph.diff, H] at hD1
    simp [h2] at hD1

/-! ## C21 try_eq decides graph equality -/

/-- For two stores of any kind that show `G` and `H` without error. -/
theorem C21_tryEq {L R : Type} [BEq NP] [LawfulBEq NP] [BEq EP] [LawfulBEq EP] {a : Source L Id NP EP} {b : Source R Id NP EP}
    {G H : Graph Id NP EP} (ha : RepresentsSorted a G) (hb : RepresentsSorted b H) :
    (tryEq a b = .ok true ↔ G = H) ∧ (tryEq a b = .ok false ↔ G ≠ H) :=
  tryEq_spec ha hb

/-- For two in-memory stores, whatever ids their generators gave. -/
theorem C21_mem [BEq NP] [LawfulBEq NP] [BEq EP] [LawfulBEq EP] {a b : Mem Id NP EP} {G H : Graph Id NP EP}
    (ha : Mem.Built E mN mE a) (hb : Mem.Built E mN mE b) (hG : Shows a.obs G) (hH : Shows b.obs H) :
    (tryEq (a.iterNodes .SPO) (b.iterNodes .SPO) = .ok true ↔ G = H) ∧
    (tryEq (a.iterNodes .SPO) (b.iterNodes .SPO) = .ok false ↔ G ≠ H) := by
  rw [← Mem.intoIterNodes_eq, ← Mem.intoIterNodes_eq, ← ha.graph_of_shows hG, ← hb.graph_of_shows hH]
  exact tryEq_spec (Mem.intoIterNodes_sorted ha.agree) (Mem.intoIterNodes_sorted hb.agree)

/-- stores built in different orders, with different generators -/
example : tryEq (Sample.store.iterNodes .SPO) (Sample.store'.iterNodes .SPO) = .ok true ∧
    tryEq (Sample.store.iterNodes .SPO) (Sample.storeU.iterNodes .SPO) = .ok false := ⟨by rfl, by rfl⟩

example : tryEq Sample.goodSrc Sample.goodSrcU = .ok true := (C21_tryEq Sample.goodSrc_sorted Sample.goodSrcU_sorted).1.2 rfl

example : Sample.store.graph ≠ Sample.storeU.graph :=
  (C21_mem (Sample.store_reach 0 (by decide)).built (Mem.Reach.built
    (.op (.insertEdge ⟨1, 5, 2⟩ 7) (.op (.insertNode 1 10) (.new (Sample.cg_fresh 1 0 (by decide)))) :
      Mem.Reach String Sample.mN Sample.mE 0 Sample.storeU))
    (Mem.shows (Sample.store_reach 0 (by decide)).inv.toAgree)
    (Mem.shows (Sample.storeU_reach 0 (by decide)).inv.toAgree)).2.1 (by rfl)

/-- An error of `a` is reported as `Left`, exactly when it is reached before any difference and before any error
of `b`: in the nodes, or, if the nodes are all equal, in the edges. -/
theorem C21_left_error {L R : Type} [BEq NP] [LawfulBEq NP] [BEq EP] [LawfulBEq EP] (a : Source L Id NP EP) (b : Source R Id NP EP)
    (e : L) : tryEq a b = .error (.left e) ↔
      (∃ c : List (Id × NP), (c.map .ok ++ [.error e]) <+: a.nodes ∧ c.map .ok <+: b.nodes ∧
        c.length < b.nodes.length) ∨
      ((∃ l : List (Id × NP), a.nodes = l.map .ok ∧ b.nodes = l.map .ok) ∧
        ∃ c : List (Triple Id × EP), (c.map .ok ++ [.error e]) <+: a.edges ∧ c.map .ok <+: b.edges ∧
          c.length < b.edges.length) := by
  rw [tryEq_left, tryEqLoop_left, tryEqLoop_none, tryEqLoop_left]
  simp only [beq_iff_eq]
  constructor
  · rintro (h | ⟨⟨c, _, h1, h2, rfl⟩, h⟩)
    · obtain ⟨c, _, h1, h2, rfl, h3⟩ := h; exact .inl ⟨c, h1, h2, h3⟩
    · exact .inr ⟨⟨c, h1, h2⟩, by obtain ⟨c, _, h1, h2, rfl, h3⟩ := h; exact ⟨c, h1, h2, h3⟩⟩
  · rintro (h | ⟨⟨c, h1, h2⟩, h⟩)
    · obtain ⟨c, h1, h2, h3⟩ := h; exact .inl ⟨c, c, h1, h2, rfl, h3⟩
    · exact .inr ⟨⟨c, c, h1, h2, rfl⟩, by obtain ⟨c, h1, h2, h3⟩ := h; exact ⟨c, c, h1, h2, rfl, h3⟩⟩

theorem C21_right_error {L R : Type} [BEq NP] [LawfulBEq NP] [BEq EP] [LawfulBEq EP] (a : Source L Id NP EP) (b : Source R Id NP EP)
    (e : R) : tryEq a b = .error (.right e) ↔
      (∃ (c : List (Id × NP)) (x : Id × NP), (c ++ [x]).map .ok <+: a.nodes ∧
        (c.map .ok ++ [.error e]) <+: b.nodes) ∨
      ((∃ l : List (Id × NP), a.nodes = l.map .ok ∧ b.nodes = l.map .ok) ∧
        ∃ (c : List (Triple Id × EP)) (x : Triple Id × EP), (c ++ [x]).map .ok <+: a.edges ∧
          (c.map .ok ++ [.error e]) <+: b.edges) := by
  rw [tryEq_right, tryEqLoop_right, tryEqLoop_none, tryEqLoop_right]
  simp only [beq_iff_eq]
  constructor
  · rintro (h | ⟨⟨c, _, h1, h2, rfl⟩, h⟩)
    · obtain ⟨c, _, x, h1, h2, rfl⟩ := h; exact .inl ⟨c, x, h1, h2⟩
    · exact .inr ⟨⟨c, h1, h2⟩, by obtain ⟨c, _, x, h1, h2, rfl⟩ := h; exact ⟨c, x, h1, h2⟩⟩
  · rintro (h | ⟨⟨c, h1, h2⟩, h⟩)
    · obtain ⟨c, x, h1, h2⟩ := h; exact .inl ⟨c, c, x, h1, h2, rfl⟩
    · exact .inr ⟨⟨c, c, h1, h2, rfl⟩, by obtain ⟨c, x, h1, h2⟩ := h; exact ⟨c, c, x, h1, h2, rfl⟩⟩

example : tryEq Sample.goodSrc { Sample.badSrc with nodes := Sample.goodSrc.nodes, edges := [.error "disk"] } =
    .error (.right "disk") :=
  (C21_right_error _ _ _).2 (.inr ⟨⟨[(2, 21), (3, 30)], rfl, rfl⟩, [], (⟨1, 5, 2⟩, 4), by simp [Sample.goodSrc],
    by simp⟩)

example : tryEq { Sample.badSrc with nodes := Sample.goodSrc.nodes, edges := [.error "disk"] } Sample.goodSrc =
    .error (.left "disk") :=
  (C21_left_error _ _ _).2 (.inr ⟨⟨[(2, 21), (3, 30)], rfl, rfl⟩, [], by simp, by simp, by simp [Sample.goodSrc]⟩)

/-! ## C22 == on MemTripleStore

The code zips the two SPO maps without comparing their lengths (src/mem.rs:264-284). -/

/-- What `==` really decides: equal nodes, and the edges of one store are an initial segment (in SPO order) of the edges of
the other. -/
theorem C22_computed [BEq NP] [LawfulBEq NP] [BEq EP] [LawfulBEq EP] {n m : Nat} {a b : Mem Id NP EP}
    (ha : Mem.Reach E mN mE n a) (hb : Mem.Reach E mN mE m b) :
    a.eq b = true ↔ a.iterVertices = b.iterVertices ∧
      (a.iterEdges .SPO <+: b.iterEdges .SPO ∨ b.iterEdges .SPO <+: a.iterEdges .SPO) := by
  have inj : Function.Injective (Except.ok : Id × NP → Except Unit (Id × NP)) := fun _ _ h => by cases h; rfl
  have inj' : Function.Injective (Except.ok : Triple Id × EP → Except Unit (Triple Id × EP)) :=
    fun _ _ h => by cases h; rfl
  rw [Mem.eq_iff ha.inv hb.inv, Mem.iterVertices_eq, Mem.iterVertices_eq, Mem.iterEdges_eq, Mem.iterEdges_eq,
    (List.map_injective_iff.2 inj).eq_iff, List.prefix_map_iff_of_injective inj',
    List.prefix_map_iff_of_injective inj']

/-- Stores with the same graph are `==`. -/
theorem C22_complete [BEq NP] [LawfulBEq NP] [BEq EP] [LawfulBEq EP] {n m : Nat} {a b : Mem Id NP EP} {G : Graph Id NP EP}
    (ha : Mem.Reach E mN mE n a) (hb : Mem.Reach E mN mE m b) (hG : Shows a.obs G) (hH : Shows b.obs G) :
    a.eq b = true := by
  rw [C22_computed ha hb]
  have : a.obs = b.obs := Mem.obs_ext ha.inv.toAgree hb.inv.toAgree
    ((ha.graph_of_shows hG).trans (hb.graph_of_shows hH).symm)
  have h1 : a.iterVertices = b.iterVertices := congrArg Obs.vertices this
  have h2 : a.iterEdges = b.iterEdges := congrArg Obs.edges this
  exact ⟨h1, by rw [h2]; exact .inl (List.prefix_refl _)⟩

/-- `==` decides graph equality for stores with equally many edges.  Missing for the full property: the condition on the
number of edges, which the code does not check; `C22_violated` shows that it is false without it. -/
theorem C22_eq_partial [BEq NP] [LawfulBEq NP] [BEq EP] [LawfulBEq EP] {n m : Nat} {a b : Mem Id NP EP} {G H : Graph Id NP EP}
    (ha : Mem.Reach E mN mE n a) (hb : Mem.Reach E mN mE m b) (hG : Shows a.obs G) (hH : Shows b.obs H)
    (hlen : (a.iterEdges .SPO).length = (b.iterEdges .SPO).length) : a.eq b = true ↔ G = H := by
  constructor
  · intro h
    rw [C22_computed ha hb] at h
    obtain ⟨h1, h2⟩ := h
    have h3 : a.iterEdges .SPO = b.iterEdges .SPO := by
      rcases h2 with h | h
      · exact h.eq_of_length hlen
      · exact (h.eq_of_length hlen.symm).symm
    obtain ⟨⟨l, hl, hl'⟩, hE⟩ := hG
    obtain ⟨⟨l2, hl2, hl2'⟩, hE2⟩ := hH
    obtain ⟨k, hk, hk'⟩ := hE .SPO
    obtain ⟨k2, hk2, hk2'⟩ := hE2 .SPO
    have inj : ∀ {α : Type} {x y : List α}, x.map (Except.ok (ε := Unit)) = y.map .ok → x = y :=
      fun h => List.map_injective_iff.2 (fun _ _ h => by cases h; rfl) h
    have e1 : l = l2 := inj (hl.symm.trans (h1.trans hl2))
    have e2 : k = k2 := inj (hk.symm.trans (h3.trans hk2))
    subst e1 e2
    refine Graph.ext' (fun x => ?_) (fun t => ?_)
    · rw [Lists.map_eq hl' hl2']
    · rw [Lists.map_eq hk' hk2']
  · rintro rfl; exact C22_complete ha hb hG hH

example : Sample.store.eq Sample.store' = true :=
  C22_complete (Sample.store_reach 0 (by decide)) (Sample.store'_reach 0 (by decide))
    (Mem.shows (Sample.store_reach 0 (by decide)).inv.toAgree)
    (by
      rw [(C22_eq_partial (Sample.store_reach 0 (by decide)) (Sample.store'_reach 0 (by decide))
        (Mem.shows (Sample.store_reach 0 (by decide)).inv.toAgree)
        (Mem.shows (Sample.store'_reach 0 (by decide)).inv.toAgree) (by decide +kernel)).1 (by rfl)]
      exact Mem.shows (Sample.store'_reach 0 (by decide)).inv.toAgree)

/-- The property is false: a store with one edge `==` the empty store. -/
theorem C22_violated : ∃ (a b : Mem U64 Nat Nat) (G H : Graph U64 Nat Nat),
    Mem.Reach Unit Sample.mN Sample.mE 0 a ∧ Mem.Reach Unit Sample.mN Sample.mE 0 b ∧ Shows a.obs G ∧ Shows b.obs H ∧
      a.eq b = true ∧ b.eq a = true ∧ G ≠ H := by
  have ha : Mem.Reach Unit Sample.mN Sample.mE 0 ((Mem.new (Sample.cg 0) : Mem U64 Nat Nat).insertEdge ⟨1, 2, 3⟩ 7) :=
    .op (.insertEdge ⟨1, 2, 3⟩ 7) (.new (Sample.cg_fresh 1 0 (by omega)))
  have hb : Mem.Reach Unit Sample.mN Sample.mE 0 (Mem.new (Sample.cg 0) : Mem U64 Nat Nat) :=
    .new (Sample.cg_fresh 0 0 (by omega))
  refine ⟨_, _, _, _, ha, hb, Mem.shows ha.inv.toAgree, Mem.shows hb.inv.toAgree, by rfl, by rfl, ?_⟩
  intro h
  have := congrFun (congrArg Graph.edges h) ⟨1, 2, 3⟩
  have e : ((Mem.new (Sample.cg 0) : Mem U64 Nat Nat).insertEdge ⟨1, 2, 3⟩ 7).graph.edges ⟨1, 2, 3⟩ = some 7 := by rfl
  rw [e] at this
  cases this

/-! ## C44 Set-operation laws -/

section
omit [ConcreteId Id] [LawfulId Id]
variable {Id NP EP : Type}

/-- the keys present in a graph -/
def SameKeys (G H : Graph Id NP EP) : Prop :=
  (∀ n, (G.nodes n).isSome = (H.nodes n).isSome) ∧ ∀ t, (G.edges t).isSome = (H.edges t).isSome

def SubKeys (G H : Graph Id NP EP) : Prop :=
  (∀ n, (G.nodes n).isSome → (H.nodes n).isSome) ∧ ∀ t, (G.edges t).isSome → (H.edges t).isSome
end

/-- `a.union(b)` and `b.union(a)` have the same keys, which are those of `a` and those of `b`. -/
theorem C44_union {n m m' : Nat} {a b : Mem Id NP EP} {G H : Graph Id NP EP}
    (ha : Mem.Reach Unit mN mE m a) (hb : Mem.Reach Unit mN mE m' b) (hG : Shows a.obs G) (hH : Shows b.obs H)
    {g g' : Gen Id} (hg : Fresh (n + a.edgeCount + (b.intoIterNodes .SPO).edges.length) g)
    (hg' : Fresh (n + b.edgeCount + (a.intoIterNodes .SPO).edges.length) g') :
    ∃ r r' K K', a.union g (b.intoIterNodes .SPO) = .ok r ∧ b.union g' (a.intoIterNodes .SPO) = .ok r' ∧
      Shows r.obs K ∧ Shows r'.obs K' ∧ SameKeys K K' ∧ SubKeys G K ∧ SubKeys H K ∧
      (∀ x, (K.nodes x).isSome = ((G.nodes x).isSome || (H.nodes x).isSome)) ∧
      (∀ x, (K.edges x).isSome = ((G.edges x).isSome || (H.edges x).isSome)) := by
  have hbR : Represents (b.intoIterNodes .SPO) H := hb.graph_of_shows hH ▸ Mem.intoIterNodes_represents hb.inv.toAgree .SPO
  have haR : Represents (a.intoIterNodes .SPO) G := ha.graph_of_shows hG ▸ Mem.intoIterNodes_represents ha.inv.toAgree .SPO
  obtain ⟨r, h1, -, h2⟩ := C18_union ha hG hbR hg
  obtain ⟨r', h1', -, h2'⟩ := C18_union hb hH haR hg'
  refine ⟨r, r', _, _, h1, h1', h2, h2', ⟨fun x => ?_, fun x => ?_⟩, ⟨fun x => ?_, fun x => ?_⟩, ⟨fun x => ?_, fun x => ?_⟩,
    fun x => ?_, fun x => ?_⟩ <;> simp only [Graph.overlay, Option.isSome_or]
  · exact Bool.or_comm _ _
  · exact Bool.or_comm _ _
  · intro h; simp [h]
  · intro h; simp [h]
  · intro h; simp [h]
  · intro h; simp [h]
  · exact Bool.or_comm _ _
  · exact Bool.or_comm _ _

/-- `a.union(a)` shows the same graph as `a`. -/
theorem C44_union_idempotent {n m : Nat} {a : Mem Id NP EP}
    (ha : Mem.Reach Unit mN mE m a)
    {g : Gen Id} (hg : Fresh (n + a.edgeCount + (a.intoIterNodes .SPO).edges.length) g) :
    ∃ r, a.union g (a.intoIterNodes .SPO) = .ok r ∧ r.obs = a.obs := by
  obtain ⟨r, h1, h2⟩ := Mem.union_spec ha.inv.toAgree (Mem.intoIterNodes_represents ha.inv.toAgree .SPO) n hg
  refine ⟨r, h1, Mem.obs_ext h2.inv.toAgree ha.inv.toAgree (h2.graph.trans ?_)⟩
  refine Graph.ext' (fun x => ?_) (fun x => ?_) <;> simp [Graph.overlay]

/-- `(a ∪ b) ∪ c` and `a ∪ (b ∪ c)` show the same graph, properties included. -/
theorem C44_union_associative {n k m m' : Nat} {a b : Mem Id NP EP} {c : Source Unit Id NP EP} {C : Graph Id NP EP}
    (ha : Mem.Reach Unit mN mE m a) (hb : Mem.Reach Unit mN mE m' b) (hc : Represents c C)
    {g1 g2 g3 g4 : Gen Id} {ab abc bc abc' : Mem Id NP EP}
    (hg1 : Fresh (n + a.edgeCount + (b.intoIterNodes .SPO).edges.length) g1)
    (h1 : a.union g1 (b.intoIterNodes .SPO) = .ok ab)
    (hg2 : Fresh (n + ab.edgeCount + c.edges.length) g2) (h2 : ab.union g2 c = .ok abc)
    (hg3 : Fresh (k + b.edgeCount + c.edges.length) g3) (h3 : b.union g3 c = .ok bc)
    (hg4 : Fresh (k + a.edgeCount + (bc.intoIterNodes .SPO).edges.length) g4)
    (h4 : a.union g4 (bc.intoIterNodes .SPO) = .ok abc') : abc.obs = abc'.obs := by
  obtain ⟨r1, e1, o1⟩ := Mem.union_spec ha.inv.toAgree (Mem.intoIterNodes_represents hb.inv.toAgree .SPO) n hg1
  rw [e1] at h1; cases h1
  obtain ⟨r2, e2, o2⟩ := Mem.union_spec o1.inv.toAgree hc n hg2
  rw [e2] at h2; cases h2
  obtain ⟨r3, e3, o3⟩ := Mem.union_spec hb.inv.toAgree hc k hg3
  rw [e3] at h3; cases h3
  obtain ⟨r4, e4, o4⟩ := Mem.union_spec ha.inv.toAgree (Mem.intoIterNodes_represents o3.inv.toAgree .SPO) k hg4
  rw [e4] at h4; cases h4
  refine Mem.obs_ext o2.inv.toAgree o4.inv.toAgree ?_
  rw [o2.graph, o4.graph, o1.graph, o3.graph]
  refine Graph.ext' (fun x => ?_) (fun x => ?_) <;> simp only [Graph.overlay, Option.or_assoc]

/-- `a.intersection(b)` and `b.intersection(a)` have the same keys: those in both. -/
theorem C44_intersection {n m m' : Nat} {a b : Mem Id NP EP} {G H : Graph Id NP EP}
    (ha : Mem.Reach Unit mN mE m a) (hb : Mem.Reach Unit mN mE m' b) (hG : Shows a.obs G) (hH : Shows b.obs H)
    {g g' : Gen Id} (hg : Fresh (n + a.edgeCount) g) (hg' : Fresh (n + b.edgeCount) g') :
    ∃ r r' K K', a.intersection g (b.intoIterNodes .SPO) = .ok r ∧ b.intersection g' (a.intoIterNodes .SPO) = .ok r' ∧
      Shows r.obs K ∧ Shows r'.obs K' ∧ SameKeys K K' ∧ SubKeys K G ∧ SubKeys K H ∧
      (∀ x, (K.nodes x).isSome = ((G.nodes x).isSome && (H.nodes x).isSome)) ∧
      (∀ x, (K.edges x).isSome = ((G.edges x).isSome && (H.edges x).isSome)) := by
  have hbR : RepresentsSorted (b.intoIterNodes .SPO) H := hb.graph_of_shows hH ▸ Mem.intoIterNodes_sorted hb.inv.toAgree
  have haR : RepresentsSorted (a.intoIterNodes .SPO) G := ha.graph_of_shows hG ▸ Mem.intoIterNodes_sorted ha.inv.toAgree
  obtain ⟨r, h1, -, h2⟩ := C19_intersection ha hG hbR hg
  obtain ⟨r', h1', -, h2'⟩ := C19_intersection hb hH haR hg'
  have kn : ∀ (G H : Graph Id NP EP) x, ((G.inter H).nodes x).isSome = ((G.nodes x).isSome && (H.nodes x).isSome) := by
    intro G H x; simp only [Graph.inter]; cases (H.nodes x).isSome <;> simp
  have ke : ∀ (G H : Graph Id NP EP) x, ((G.inter H).edges x).isSome = ((G.edges x).isSome && (H.edges x).isSome) := by
    intro G H x; simp only [Graph.inter]; cases (H.edges x).isSome <;> simp
  refine ⟨r, r', _, _, h1, h1', h2, h2', ⟨fun x => ?_, fun x => ?_⟩, ⟨fun x => ?_, fun x => ?_⟩, ⟨fun x => ?_, fun x => ?_⟩,
    kn _ _, ke _ _⟩ <;> simp only [kn, ke]
  · exact Bool.and_comm _ _
  · exact Bool.and_comm _ _
  · intro h; simp at h; exact h.1
  · intro h; simp at h; exact h.1
  · intro h; simp at h; exact h.2
  · intro h; simp at h; exact h.2

/-- `a.intersection(a)` shows the same graph as `a`. -/
theorem C44_intersection_idempotent {n m : Nat} {a : Mem Id NP EP} (ha : Mem.Reach Unit mN mE m a)
    {g : Gen Id} (hg : Fresh (n + a.edgeCount) g) :
    ∃ r, a.intersection g (a.intoIterNodes .SPO) = .ok r ∧ r.obs = a.obs := by
  obtain ⟨r, h1, h2⟩ := Mem.intersection_spec ha.inv.toAgree (Mem.intoIterNodes_sorted ha.inv.toAgree) n hg
  refine ⟨r, h1, Mem.obs_ext h2.inv.toAgree ha.inv.toAgree (h2.graph.trans ?_)⟩
  refine Graph.ext' (fun x => ?_) (fun x => ?_) <;> simp only [Graph.inter]
  · cases a.graph.nodes x <;> rfl
  · cases a.graph.edges x <;> rfl

/-- `(a ∩ b) ∩ c` and `a ∩ (b ∩ c)` show the same graph, properties included. -/
theorem C44_intersection_associative {n k m m' : Nat} {a b : Mem Id NP EP} {c : Source Unit Id NP EP}
    {C : Graph Id NP EP} (ha : Mem.Reach Unit mN mE m a) (hb : Mem.Reach Unit mN mE m' b) (hc : RepresentsSorted c C)
    {g1 g2 g3 g4 : Gen Id} {ab abc bc abc' : Mem Id NP EP}
    (hg1 : Fresh (n + a.edgeCount) g1) (h1 : a.intersection g1 (b.intoIterNodes .SPO) = .ok ab)
    (hg2 : Fresh (n + ab.edgeCount) g2) (h2 : ab.intersection g2 c = .ok abc)
    (hg3 : Fresh (k + b.edgeCount) g3) (h3 : b.intersection g3 c = .ok bc)
    (hg4 : Fresh (k + a.edgeCount) g4)
    (h4 : a.intersection g4 (bc.intoIterNodes .SPO) = .ok abc') : abc.obs = abc'.obs := by
  obtain ⟨r1, e1, o1⟩ := Mem.intersection_spec ha.inv.toAgree (Mem.intoIterNodes_sorted hb.inv.toAgree) n hg1
  rw [e1] at h1; cases h1
  obtain ⟨r2, e2, o2⟩ := Mem.intersection_spec o1.inv.toAgree hc n hg2
  rw [e2] at h2; cases h2
  obtain ⟨r3, e3, o3⟩ := Mem.intersection_spec hb.inv.toAgree hc k hg3
  rw [e3] at h3; cases h3
  obtain ⟨r4, e4, o4⟩ := Mem.intersection_spec ha.inv.toAgree (Mem.intoIterNodes_sorted o3.inv.toAgree) k hg4
  rw [e4] at h4; cases h4
  refine Mem.obs_ext o2.inv.toAgree o4.inv.toAgree ?_
  rw [o2.graph, o4.graph, o1.graph, o3.graph]
  refine Graph.ext' (fun x => ?_) (fun x => ?_) <;> simp only [Graph.inter]
  · by_cases h : (C.nodes x).isSome = true <;> simp [h]
  · by_cases h : (C.edges x).isSome = true <;> simp [h]

example : ∃ r, Sample.storeU.union (Sample.cg 5) (Sample.storeU.intoIterNodes .SPO) = .ok r ∧
    r.obs = Sample.storeU.obs :=
  C44_union_idempotent (n := 0) (Sample.storeU_reach 0 (by decide)) (Sample.cg_fresh _ _ (by decide +kernel))

example : ∃ r, Sample.storeU.intersection (Sample.cg 5) (Sample.storeU.intoIterNodes .SPO) = .ok r ∧
    r.obs = Sample.storeU.obs :=
  C44_intersection_idempotent (n := 0) (Sample.storeU_reach 0 (by decide)) (Sample.cg_fresh _ _ (by decide +kernel))

/-- the keys agree although the properties do not: `a ∪ b` takes the properties of `b` -/
example : ∃ r r' K K', Sample.storeU.union (Sample.cg 5) (Sample.storeU2.intoIterNodes .SPO) = .ok r ∧
    Sample.storeU2.union (Sample.cg 7) (Sample.storeU.intoIterNodes .SPO) = .ok r' ∧
    Shows r.obs K ∧ Shows r'.obs K' ∧ SameKeys K K' := by
  obtain ⟨r, r', K, K', h1, h2, h3, h4, h5, -⟩ := C44_union (n := 0) (g := Sample.cg 5) (g' := Sample.cg 7)
    (Sample.storeU_reach 0 (by decide)) (Sample.storeU2_reach 0 (by decide))
    (Mem.shows (Sample.storeU_reach 0 (by decide)).inv.toAgree)
    (Mem.shows (Sample.storeU2_reach 0 (by decide)).inv.toAgree)
    (Sample.cg_fresh _ _ (by decide +kernel)) (Sample.cg_fresh _ _ (by decide +kernel))
  exact ⟨r, r', K, K', h1, h2, h3, h4, h5⟩

example : ∃ r r' K K', Sample.storeU.intersection (Sample.cg 5) (Sample.storeU2.intoIterNodes .SPO) = .ok r ∧
    Sample.storeU2.intersection (Sample.cg 7) (Sample.storeU.intoIterNodes .SPO) = .ok r' ∧
    Shows r.obs K ∧ Shows r'.obs K' ∧ SameKeys K K' := by
  obtain ⟨r, r', K, K', h1, h2, h3, h4, h5, -⟩ := C44_intersection (n := 0) (g := Sample.cg 5) (g' := Sample.cg 7)
    (Sample.storeU_reach 0 (by decide)) (Sample.storeU2_reach 0 (by decide))
    (Mem.shows (Sample.storeU_reach 0 (by decide)).inv.toAgree)
    (Mem.shows (Sample.storeU2_reach 0 (by decide)).inv.toAgree)
    (Sample.cg_fresh _ _ (by decide +kernel)) (Sample.cg_fresh _ _ (by decide +kernel))
  exact ⟨r, r', K, K', h1, h2, h3, h4, h5⟩

/-- the hypotheses of the associativity laws hold for every three stores with enough fresh ids -/
example : ∃ ab abc bc abc', Sample.storeU.union (Sample.cg 5) (Sample.storeU2.intoIterNodes .SPO) = .ok ab ∧
    ab.union (Sample.cg 5) Sample.goodSrcU = .ok abc ∧ Sample.storeU2.union (Sample.cg 5) Sample.goodSrcU = .ok bc ∧
    Sample.storeU.union (Sample.cg 5) (bc.intoIterNodes .SPO) = .ok abc' :=
  ⟨_, _, _, _, by rfl, by rfl, by rfl, by rfl⟩

/-! ## C45 Debug output depends only on the graph -/

theorem C45_debug (F : DebugFmt Id NP EP) {n m : Nat} {a b : Mem Id NP EP} {G : Graph Id NP EP}
    (ha : Mem.Reach E mN mE n a) (hb : Mem.Reach E mN mE m b) (hG : Shows a.obs G) (hH : Shows b.obs G)
    (hh : ∀ t u, (G.edges t).isSome → (G.edges u).isSome → F.hash (encodeSpo t) = F.hash (encodeSpo u) → t = u) :
    a.debug F = b.debug F := by
  have h1 := ha.graph_of_shows hG
  have h2 := hb.graph_of_shows hH
  exact Mem.debug_eq F ha.inv hb.inv (h1.trans h2.symm) (h1 ▸ hh)

/-- with the key itself as hash -/
example : Sample.store.debug Sample.fmt = Sample.store'.debug Sample.fmt :=
  C45_debug Sample.fmt (Sample.store_reach 0 (by decide)) (Sample.store'_reach 0 (by decide))
    (Mem.shows (Sample.store_reach 0 (by decide)).inv.toAgree)
    (by
      rw [(C22_eq_partial (Sample.store_reach 0 (by decide)) (Sample.store'_reach 0 (by decide))
        (Mem.shows (Sample.store_reach 0 (by decide)).inv.toAgree)
        (Mem.shows (Sample.store'_reach 0 (by decide)).inv.toAgree) (by decide +kernel)).1 (by rfl)]
      exact Mem.shows (Sample.store'_reach 0 (by decide)).inv.toAgree)
    (fun t u _ _ h => Sample.fmt_hash_inj t u h)

/-! ## C46 Errors of the set operations -/

/-- An error of a set operation is always an error that `other` itself yielded, tagged `Right`; for any `other`,
sorted or not. -/
theorem C46_errors {s : Mem Id NP EP} {g : Gen Id} {other : Source E Id NP EP} {x : SetErr Unit E Unit}
    (h : s.union g other = .error x ∨ s.intersection g other = .error x ∨ s.difference g other = .error x) :
    ∃ e, x = .right e ∧ (.error e ∈ other.nodes ∨ .error e ∈ other.edges) := by
  rcases h with h | h | h
  · exact Mem.union_err h
  · exact Mem.intersection_err h
  · exact Mem.difference_err h

/-- With an `other` that iterates without error the set operations succeed. -/
theorem C46_succeed (s : Mem Id NP EP) (g : Gen Id) (other : Source E Id NP EP)
    (hn : ∀ e, .error e ∉ other.nodes) (he : ∀ e, .error e ∉ other.edges) :
    (∃ r, s.union g other = .ok r) ∧ (∃ r, s.intersection g other = .ok r) ∧
      ∃ r, s.difference g other = .ok r := by
  refine ⟨?_, ?_, ?_⟩
  · cases h : s.union g other with
    | ok r => exact ⟨r, rfl⟩
    | error x => obtain ⟨e, -, h | h⟩ := C46_errors (.inl h); exacts [absurd h (hn e), absurd h (he e)]
  · cases h : s.intersection g other with
    | ok r => exact ⟨r, rfl⟩
    | error x => obtain ⟨e, -, h | h⟩ := C46_errors (.inr (.inl h)); exacts [absurd h (hn e), absurd h (he e)]
  · cases h : s.difference g other with
    | ok r => exact ⟨r, rfl⟩
    | error x => obtain ⟨e, -, h | h⟩ := C46_errors (.inr (.inr h)); exacts [absurd h (hn e), absurd h (he e)]

/-- `union` reports the first error of `other`; nodes are read before edges. -/
theorem C46_union_error (s : Mem Id NP EP) (g : Gen Id) (other : Source E Id NP EP) (e : E) :
    s.union g other = .error (.right e) ↔
      (∃ (c : List (Id × NP)), (c.map .ok ++ [.error e]) <+: other.nodes) ∨
      (∃ (c : List (Id × NP)), other.nodes = c.map .ok) ∧
        ∃ (c : List (Triple Id × EP)), (c.map .ok ++ [.error e]) <+: other.edges := by
  rw [Mem.union_eq, ← firstErr_some_iff, ← firstErr_some_iff, ← firstErr_none_iff, Source.firstErr]
  cases h : Spec.firstErr other.nodes with
  | some x => simp
  | none => cases h' : Spec.firstErr other.edges <;> simp

example : Sample.store.union (Sample.cg 5) Sample.badSrc = .error (.right "disk") :=
  (C46_union_error _ _ _ _).2 (.inr ⟨⟨[(3, 30)], rfl⟩, [(⟨3, 3, 3⟩, 5)], [.ok (⟨4, 4, 4⟩, 6)], rfl⟩)

example : ∃ r, Sample.store.difference (Sample.cg 5) Sample.goodSrc = .ok r :=
  (C46_succeed _ _ _ (by simp [Sample.goodSrc]) (by simp [Sample.goodSrc])).2.2

end Verif.Props
