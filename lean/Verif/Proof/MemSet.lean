import Verif.Proof.MemQuery
import Verif.Proof.Triple
import Verif.Proof.Walk

/-! # Set operations on the in-memory store -/

set_option linter.unusedSectionVars false

namespace Verif

open Spec ConcreteId

variable {Id NP EP E : Type} [LinearOrder Id] [ConcreteId Id] [LawfulId Id]

theorem foldl_insertNode_fun {L : List (Id × NP)} {f : Id → Option NP}
    (hf : ∀ x ∈ L, f x.1 = some x.2) (G : Graph Id NP EP) :
    L.foldl (fun G x => G.insertNode x.1 x.2) G =
      { G with nodes := fun t => if t ∈ L.map Prod.fst then f t else G.nodes t } := by
  induction L generalizing G with
  | nil => simp
  | cons a L ih =>
    rw [List.foldl_cons, ih (fun x hx => hf x (List.mem_cons_of_mem _ hx))]
    refine Graph.ext' (fun t => ?_) (fun _ => rfl)
    have := hf a (by simp)
    simp only [Graph.insertNode, List.map_cons, List.mem_cons]
    by_cases h1 : t ∈ L.map Prod.fst
    · simp [h1]
    · by_cases h2 : t = a.1
      · subst h2; simp [h1, this]
      · simp [h1, h2]

namespace Mem

theorem addAll_eq {α σ F : Type} (f : σ → α → σ) (st : σ) (l : List (Except F α)) :
    addAll f st l = match Spec.firstErr l with
      | some e => .error e
      | none => .ok ((okPrefix l).foldl f st) := by
  unfold addAll
  rw [absorb_spec]
  cases Spec.firstErr l <;> rfl

theorem errLeft_map_ok {α : Type} (l : List α) : errLeft (E := E) (l.map .ok) = l.map .ok := by
  simp [errLeft, Function.comp_def]

theorem errRight_map_ok {α : Type} (l : List α) : errRight (E := E) (l.map .ok) = l.map .ok := by
  simp [errRight, Function.comp_def]

theorem firstErr_errRight {α : Type} (l : List (Except E α)) :
    Spec.firstErr (errRight l) = (Spec.firstErr l).map .right := by
  induction l with
  | nil => rfl
  | cons a l ih => cases a <;> simp_all [errRight, Spec.firstErr]

theorem okPrefix_errRight {α : Type} (l : List (Except E α)) :
    okPrefix (errRight l) = okPrefix l := by
  induction l with
  | nil => rfl
  | cons a l ih => cases a <;> simp_all [errRight, okPrefix]

theorem addAll_map_ok {α σ F : Type} (f : σ → α → σ) (st : σ) (l : List α) :
    addAll (F := F) f st (l.map .ok) = .ok (l.foldl f st) := by
  rw [addAll_eq, firstErr_map_ok, okPrefix_map_ok]

/-- the store as a source -/
theorem into_eq (s : Mem Id NP EP) :
    s.intoIterNodes .SPO = { nodes := s.nodeProps.entries.map .ok, edges := (s.edgeList .SPO).map .ok } := by
  rw [intoIterNodes_eq, iterNodes, iterEdges_eq]; rfl

theorem intoIterNodes_sorted {s : Mem Id NP EP} (h : Agree s) :
    RepresentsSorted (s.intoIterNodes .SPO) s.graph := by
  rw [into_eq]
  exact ⟨⟨_, rfl, s.nodeProps.lists⟩, ⟨_, rfl, edgeList_lists h .SPO⟩⟩

/-! ## union -/

theorem union_eq (s : Mem Id NP EP) (g : Gen Id) (other : Source E Id NP EP) :
    s.union g other = match Source.firstErr other with
      | some e => .error (.right e)
      | none => .ok ((okPrefix other.edges).foldl (fun r x => r.insertEdge x.1 x.2)
          ((okPrefix other.nodes).foldl (fun r x => r.insertNode x.1 x.2)
            ((s.edgeList .SPO).foldl (fun r x => r.insertEdge x.1 x.2)
              (s.nodeProps.entries.foldl (fun r x => r.insertNode x.1 x.2) (new g))))) := by
  unfold union
  rw [into_eq]
  simp only [errLeft_map_ok, addAll_map_ok]
  rw [addAll_eq, firstErr_errRight, okPrefix_errRight, Source.firstErr]
  cases hn : Spec.firstErr other.nodes with
  | some e => rfl
  | none =>
    simp only [Option.map_none, Option.none_or]
    rw [addAll_eq, firstErr_errRight, okPrefix_errRight]
    cases Spec.firstErr other.edges <;> rfl

theorem union_spec {s : Mem Id NP EP} (h : Agree s) {g : Gen Id} {other : Source E Id NP EP}
    {H : Graph Id NP EP} (hs : Represents other H) (n : Nat)
    (hg : Fresh (n + s.edgeCount + other.edges.length) g) :
    ∃ r, s.union g other = .ok r ∧ Ok n r (s.graph.overlay H) := by
  obtain ⟨⟨ln, hln, hnn, hmn⟩, ⟨le, hle, hne, hme⟩⟩ := hs
  rw [union_eq, Source.firstErr, hln, hle, firstErr_map_ok, firstErr_map_ok, okPrefix_map_ok, okPrefix_map_ok]
  refine ⟨_, rfl, ?_⟩
  have h0 := ok_new (NP := NP) (EP := EP) hg
  have h1 := fold_free (fun (r : Mem Id NP EP) (x : Id × NP) => r.insertNode x.1 x.2)
    (fun G x => G.insertNode x.1 x.2) (fun n s G a h => ok_insertNode n s G a.1 a.2 h) h0
    s.nodeProps.entries
  rw [foldl_insertNode_fun (f := s.graph.nodes) (fun x hx => BMap.mem_entries.1 hx)] at h1
  have h2 := fold_cost (fun (r : Mem Id NP EP) (x : Triple Id × EP) => r.insertEdge x.1 x.2)
    (fun G x => G.insertEdge x.1 x.2) (fun n s G a h => ok_insertEdge n s G a.1 a.2 h)
    (n := n + other.edges.length) (s.edgeList .SPO) (h1.mono (by rw [edgeCount_eq]; omega))
  rw [foldl_insertEdge_fun (f := s.graph.edges) (fun x hx => ((edgeList_lists h .SPO).2 _ _).1 hx)] at h2
  have h3 := fold_free (fun (r : Mem Id NP EP) (x : Id × NP) => r.insertNode x.1 x.2)
    (fun G x => G.insertNode x.1 x.2) (fun n s G a h => ok_insertNode n s G a.1 a.2 h) h2 ln
  rw [foldl_insertNode_fun (f := H.nodes) (fun x hx => (hmn _ _).1 hx)] at h3
  have h4 := fold_cost (fun (r : Mem Id NP EP) (x : Triple Id × EP) => r.insertEdge x.1 x.2)
    (fun G x => G.insertEdge x.1 x.2) (fun n s G a h => ok_insertEdge n s G a.1 a.2 h)
    (n := n) le (h3.mono (by simp [hle]))
  rw [foldl_insertEdge_fun (f := H.edges) (fun x hx => (hme _ _).1 hx)] at h4
  refine h4.congr (Graph.ext' (fun m => ?_) (fun t => ?_))
  · simp only [Graph.overlay]
    have key : ∀ (l : List (Id × NP)) (f : Id → Option NP) (hm : ∀ n p, (n, p) ∈ l ↔ f n = some p),
        m ∈ l.map Prod.fst ↔ (f m).isSome := by
      intro l f hm
      simp [List.mem_map, hm, Option.isSome_iff_exists]
    simp only [key ln H.nodes hmn, key s.nodeProps.entries s.graph.nodes (fun _ _ => BMap.mem_entries)]
    cases H.nodes m <;> cases s.graph.nodes m <;> rfl
  · simp only [Graph.overlay]
    have key : ∀ (l : List (Triple Id × EP)) (f : Triple Id → Option EP)
        (hm : ∀ n p, (n, p) ∈ l ↔ f n = some p), t ∈ l.map Prod.fst ↔ (f t).isSome := by
      intro l f hm
      simp [List.mem_map, hm, Option.isSome_iff_exists]
    simp only [key le H.edges hme, key (s.edgeList .SPO) s.graph.edges (edgeList_lists h .SPO).2]
    cases H.edges t <;> cases s.graph.edges t <;> rfl

/-! ## intersection -/

theorem mem_keys {K V : Type} {l : List (K × V)} {f : K → Option V} (hm : ∀ n p, (n, p) ∈ l ↔ f n = some p)
    (k : K) : k ∈ l.map Prod.fst ↔ (f k).isSome := by
  simp [List.mem_map, hm, Option.isSome_iff_exists]

theorem mem_keys_filter {K V : Type} {l : List (K × V)} {f : K → Option V}
    (hm : ∀ n p, (n, p) ∈ l ↔ f n = some p) (p : K → Bool) (k : K) :
    k ∈ (l.filter (fun x => p x.1)).map Prod.fst ↔ (f k).isSome ∧ p k = true := by
  simp [List.mem_map, hm, Option.isSome_iff_exists]

theorem intersection_spec {s : Mem Id NP EP} (h : Agree s) {g : Gen Id} {other : Source E Id NP EP}
    {H : Graph Id NP EP} (hs : RepresentsSorted other H) (n : Nat)
    (hg : Fresh (n + s.edgeCount) g) :
    ∃ r, s.intersection g other = .ok r ∧ Ok n r (s.graph.inter H) := by
  obtain ⟨⟨ln, hln, hnn, hmn⟩, ⟨le, hle, hne, hme⟩⟩ := hs
  unfold intersection
  rw [into_eq, hln, hle]
  simp only [errLeft_map_ok, errRight_map_ok, nextItem_map_ok, walk_eq]
  refine ⟨_, rfl, ?_⟩
  rw [mergeWalk_both' (lt := fun a b : Id => a < b) lt_irrefl (fun _ _ _ => lt_trans)
    lt_trichotomy Prod.fst Prod.fst (by simp) (by simp) (fun (st : Mem Id NP EP) (l : Id × NP) =>
      st.insertNode l.1 l.2) (new g) s.nodeProps.sorted hnn (fun x => (H.nodes x.1).isSome)
      (fun l _ => by rw [← mem_keys hmn, List.mem_map]),
    mergeWalk_both' (lt := edgeLT (Id := Id) .SPO) (edgeLT_irrefl _) (fun _ _ _ => edgeLT_trans _)
    (edgeLT_total _) Prod.fst Prod.fst (fun _ _ => ltOp_iff _ _) (fun _ _ => ltOp_iff _ _)
    (fun (st : Mem Id NP EP) (l : Triple Id × EP) =>
      st.insertEdge l.1 l.2) _ (edgeList_lists h .SPO).1 hne (fun x => (H.edges x.1).isSome)
      (fun l _ => by rw [← mem_keys hme, List.mem_map])]
  have h1 := fold_free (fun (r : Mem Id NP EP) (x : Id × NP) => r.insertNode x.1 x.2)
    (fun G x => G.insertNode x.1 x.2) (fun n s G a h => ok_insertNode n s G a.1 a.2 h)
    (ok_new (NP := NP) (EP := EP) hg)
    (s.nodeProps.entries.filter (fun x => (H.nodes x.1).isSome))
  rw [foldl_insertNode_fun (f := s.graph.nodes)
    (fun x hx => BMap.mem_entries.1 (List.mem_filter.1 hx).1)] at h1
  have h2 := fold_cost (fun (r : Mem Id NP EP) (x : Triple Id × EP) => r.insertEdge x.1 x.2)
    (fun G x => G.insertEdge x.1 x.2) (fun n s G a h => ok_insertEdge n s G a.1 a.2 h)
    (n := n) ((s.edgeList .SPO).filter (fun x => (H.edges x.1).isSome)) (h1.mono (by
      rw [edgeCount_eq]
      have := List.length_filter_le (fun x : Triple Id × EP => (H.edges x.1).isSome) (s.edgeList .SPO)
      omega))
  rw [foldl_insertEdge_fun (f := s.graph.edges)
    (fun x hx => ((edgeList_lists h .SPO).2 _ _).1 (List.mem_filter.1 hx).1)] at h2
  refine h2.congr (Graph.ext' (fun m => ?_) (fun t => ?_))
  · simp only [Graph.inter, Graph.empty,
      mem_keys_filter (f := s.graph.nodes) (fun _ _ => BMap.mem_entries) (fun k => (H.nodes k).isSome)]
    cases H.nodes m <;> cases s.graph.nodes m <;> rfl
  · simp only [Graph.inter, Graph.empty,
      mem_keys_filter (edgeList_lists h .SPO).2 (fun k => (H.edges k).isSome)]
    cases H.edges t <;> cases s.graph.edges t <;> rfl

/-! ## difference -/

/-- What `difference` computes (not what it is meant to compute, see the Props file). -/
structure DiffComputed (G H D : Graph Id NP EP) : Prop where
  nodes : ∀ n, D.nodes n = if (H.nodes n).isSome then none else G.nodes n
  /-- an edge of `G` survives iff it is not in `H` and either no edge of `H` is above it, or neither endpoint
  is a node of `H` lying below-or-at some node of `G` -/
  edges : ∀ t p, D.edges t = some p ↔ G.edges t = some p ∧ H.edges t = none ∧
    ((∀ u, (H.edges u).isSome → edgeLT .SPO u t) ∨
      ∀ n, n = t.sub ∨ n = t.obj → ¬ ((H.nodes n).isSome ∧ ∃ m, (G.nodes m).isSome ∧ n ≤ m))

theorem HSet_foldl_mem {α : Type} [DecidableEq α] (l : List α) (acc : HSet α) (x : α) :
    x ∈ l.foldl HSet.insert acc ↔ x ∈ l ∨ x ∈ acc := by
  induction l generalizing acc with
  | nil => simp
  | cons a l ih =>
    rw [List.foldl_cons, ih]
    unfold HSet.insert
    split
    · rename_i h
      simp only [List.mem_cons]
      constructor
      · tauto
      · rintro ((rfl | h') | h') <;> tauto
    · simp only [List.mem_append, List.mem_cons, List.mem_nil_iff, or_false]
      tauto

theorem length_filter_disj {α : Type} (p q : α → Bool) (l : List α) (h : ∀ a ∈ l, ¬ (p a = true ∧ q a = true)) :
    (l.filter p).length + (l.filter q).length ≤ l.length := by
  induction l with
  | nil => simp
  | cons a l ih =>
    have := ih (fun b hb => h b (List.mem_cons_of_mem _ hb))
    have ha := h a (by simp)
    cases hp : p a <;> cases hq : q a <;> simp_all <;> omega

theorem diff_aux {P Q N R X : Prop} (hd : P → ¬ Q) (hd' : Q → N) (hd'' : N → ¬ P → Q) :
    ((P ∧ N) ∧ ¬ R ∨ Q) ∧ X ↔ X ∧ N ∧ (Q ∨ ¬ R) := by
  tauto

open Classical in
theorem difference_spec {s : Mem Id NP EP} (h : Agree s) {g : Gen Id} {other : Source E Id NP EP}
    {H : Graph Id NP EP} (hs : RepresentsSorted other H) (n : Nat)
    (hg : Fresh (n + s.edgeCount) g) :
    ∃ r D, s.difference g other = .ok r ∧ DiffComputed s.graph H D ∧ Ok n r D := by
  obtain ⟨⟨ln, hln, hnn, hmn⟩, ⟨le, hle, hne, hme⟩⟩ := hs
  unfold difference
  rw [into_eq, hln, hle]
  simp only [errLeft_map_ok, errRight_map_ok, nextItem_map_ok, walk_eq, drain_eq]
  -- the two components of the node loop
  have hp1 := mergeWalk_proj (σ := Mem Id NP EP × HSet Id) Prod.fst
    (fun (l r : Id × NP) => decide (l.1 < r.1)) (fun (r l : Id × NP) => decide (r.1 < l.1))
    (onL := fun st l => (st.1.insertNode l.1 l.2, st.2))
    (onR := fun st r => (st.1, HSet.insert st.2 r.1))
    (onB := fun st _ r => (st.1, HSet.insert st.2 r.1))
    (onL' := fun st l => st.insertNode l.1 l.2) (onR' := fun st _ => st) (onB' := fun st _ _ => st)
    (fun _ _ => rfl) (fun _ _ => rfl) (fun _ _ _ => rfl) (new g, []) s.nodeProps.entries ln
  have hp2 := mergeWalk_proj (σ := Mem Id NP EP × HSet Id) Prod.snd
    (fun (l r : Id × NP) => decide (l.1 < r.1)) (fun (r l : Id × NP) => decide (r.1 < l.1))
    (onL := fun st l => (st.1.insertNode l.1 l.2, st.2))
    (onR := fun st r => (st.1, HSet.insert st.2 r.1))
    (onB := fun st _ r => (st.1, HSet.insert st.2 r.1))
    (onL' := fun st _ => st) (onR' := fun st r => HSet.insert st r.1)
    (onB' := fun st _ r => HSet.insert st r.1)
    (fun _ _ => rfl) (fun _ _ => rfl) (fun _ _ _ => rfl) (new g, []) s.nodeProps.entries ln
  generalize mergeWalk (fun (l r : Id × NP) => decide (l.1 < r.1)) (fun (r l : Id × NP) => decide (r.1 < l.1))
    (fun (st : Mem Id NP EP × HSet Id) l => (st.1.insertNode l.1 l.2, st.2))
    (fun st r => (st.1, HSet.insert st.2 r.1))
    (fun st _ r => (st.1, HSet.insert st.2 r.1)) (new g, []) s.nodeProps.entries ln = W at hp1 hp2 ⊢
  obtain ⟨hW1, hWr⟩ := hp1
  obtain ⟨hW2, -⟩ := hp2
  have memN : ∀ k, (∃ r ∈ ln, r.1 = k) ↔ (H.nodes k).isSome := fun k => by rw [← mem_keys hmn, List.mem_map]
  have memE : ∀ k, (∃ r ∈ le, r.1 = k) ↔ (H.edges k).isSome := fun k => by rw [← mem_keys hme, List.mem_map]
  have memS : ∀ k, (∃ r ∈ s.nodeProps.entries, r.1 = k) ↔ (s.graph.nodes k).isSome := fun k => by
    rw [← mem_keys (f := s.graph.nodes) (fun _ _ => BMap.mem_entries), List.mem_map]
  rw [mergeWalk_left' (lt := fun a b : Id => a < b) lt_irrefl (fun _ _ _ => lt_trans)
    lt_trichotomy Prod.fst Prod.fst (by simp) (by simp) _ _ s.nodeProps.sorted hnn
    (fun x => decide ((∃ k, (H.nodes k).isSome ∧ x.1 < k) ∧ H.nodes x.1 = none)) (by
      intro l _
      rw [decide_eq_true_eq]
      simp only [← memN]
      constructor
      · rintro ⟨⟨k, ⟨r, hr, rfl⟩, hlt⟩, hnone⟩
        refine ⟨⟨r, hr, hlt⟩, fun r' hr' e => ?_⟩
        have := (memN l.1).1 ⟨r', hr', e⟩
        rw [hnone] at this; cases this
      · rintro ⟨⟨r, hr, hlt⟩, hne'⟩
        refine ⟨⟨r.1, ⟨r, hr, rfl⟩, hlt⟩, ?_⟩
        rw [← Option.not_isSome_iff_eq_none, ← memN]
        rintro ⟨r', hr', e⟩
        exact hne' r' hr' e)] at hW1
  rw [mergeWalk_rest' (lt := fun a b : Id => a < b) lt_irrefl (fun _ _ _ => lt_trans)
    lt_trichotomy Prod.fst Prod.fst (by simp) (by simp) _ _ _ _ s.nodeProps.sorted hnn
    (fun x => decide (∀ k, (H.nodes k).isSome → k < x.1)) (by
      intro l _
      rw [decide_eq_true_eq]
      simp only [← memN]
      constructor
      · exact fun h r hr => h r.1 ⟨r, hr, rfl⟩
      · rintro h k ⟨r, hr, rfl⟩; exact h r hr)] at hWr
  rw [mergeWalk_right' (lt := fun a b : Id => a < b) lt_irrefl (fun _ _ _ => lt_trans)
    lt_trichotomy Prod.fst Prod.fst (by simp) (by simp) _ _ s.nodeProps.sorted hnn
    (fun x => decide (∃ m, (s.graph.nodes m).isSome ∧ x.1 ≤ m)) (by
      intro l _
      rw [decide_eq_true_eq]
      simp only [← memS]
      constructor
      · rintro ⟨m, ⟨r, hr, rfl⟩, hle⟩; exact ⟨r, hr, not_lt.2 hle⟩
      · rintro ⟨r, hr, hle⟩; exact ⟨r.1, ⟨r, hr, rfl⟩, not_lt.1 hle⟩)] at hW2
  have hrem : ∀ x, W.1.2.contains x = true ↔ (H.nodes x).isSome ∧ ∃ m, (s.graph.nodes m).isSome ∧ x ≤ m := by
    intro x
    rw [hW2, List.contains_iff_mem, ← List.foldl_map (f := Prod.fst) (g := HSet.insert), HSet_foldl_mem]
    rw [mem_keys_filter hmn (fun k => decide (∃ m, (s.graph.nodes m).isSome ∧ k ≤ m))]
    simp
  rw [hW1, hWr]
  clear hW1 hWr hW2
  generalize W.1.2 = removed at hrem ⊢
  rw [mergeWalk_rest' (lt := edgeLT (Id := Id) .SPO) (edgeLT_irrefl _) (fun _ _ _ => edgeLT_trans _)
    (edgeLT_total _) Prod.fst Prod.fst (fun _ _ => ltOp_iff _ _) (fun _ _ => ltOp_iff _ _)
    _ _ _ _ (edgeList_lists h .SPO).1 hne (fun x => decide (∀ u, (H.edges u).isSome → edgeLT .SPO u x.1)) (by
      intro l _
      rw [decide_eq_true_eq]
      simp only [← memE]
      constructor
      · exact fun h r hr => h r.1 ⟨r, hr, rfl⟩
      · rintro h k ⟨r, hr, rfl⟩; exact h r hr),
    mergeWalk_left' (lt := edgeLT (Id := Id) .SPO) (edgeLT_irrefl _) (fun _ _ _ => edgeLT_trans _)
    (edgeLT_total _) Prod.fst Prod.fst (fun _ _ => ltOp_iff _ _) (fun _ _ => ltOp_iff _ _)
    _ _ (edgeList_lists h .SPO).1 hne
    (fun x => decide ((∃ u, (H.edges u).isSome ∧ edgeLT .SPO x.1 u) ∧ H.edges x.1 = none)) (by
      intro l _
      rw [decide_eq_true_eq]
      simp only [← memE]
      constructor
      · rintro ⟨⟨k, ⟨r, hr, rfl⟩, hlt⟩, hnone⟩
        refine ⟨⟨r, hr, hlt⟩, fun r' hr' e => ?_⟩
        have := (memE l.1).1 ⟨r', hr', e⟩
        rw [hnone] at this; cases this
      · rintro ⟨⟨r, hr, hlt⟩, hne'⟩
        refine ⟨⟨r.1, ⟨r, hr, rfl⟩, hlt⟩, ?_⟩
        rw [← Option.not_isSome_iff_eq_none, ← memE]
        rintro ⟨r', hr', e⟩
        exact hne' r' hr' e)]
  rw [← List.foldl_filter (p := fun l : Triple Id × EP => !(removed.contains l.1.sub || removed.contains l.1.obj))
    (f := fun (st : Mem Id NP EP) l => st.insertEdge l.1 l.2), ← List.foldl_append, ← List.foldl_append]
  -- nodes
  have h1 := fold_free (fun (r : Mem Id NP EP) (x : Id × NP) => r.insertNode x.1 x.2)
    (fun G x => G.insertNode x.1 x.2) (fun n s G a h => ok_insertNode n s G a.1 a.2 h)
    (ok_new (NP := NP) (EP := EP) hg)
    (s.nodeProps.entries.filter (fun x => decide ((∃ k, (H.nodes k).isSome ∧ x.1 < k) ∧ H.nodes x.1 = none)) ++
      s.nodeProps.entries.filter (fun x => decide (∀ k, (H.nodes k).isSome → k < x.1)))
  rw [foldl_insertNode_fun (f := s.graph.nodes) (fun x hx => by
    rcases List.mem_append.1 hx with hx | hx <;> exact BMap.mem_entries.1 (List.mem_filter.1 hx).1)] at h1
  have hlen := length_filter_disj
    (fun x => decide ((∃ u, (H.edges u).isSome ∧ edgeLT .SPO x.1 u) ∧ H.edges x.1 = none))
    (fun x => decide (∀ u, (H.edges u).isSome → edgeLT .SPO u x.1)) (s.edgeList .SPO) (by
      intro a _
      simp only [decide_eq_true_eq]
      rintro ⟨⟨⟨u, hu, hlt⟩, -⟩, hall⟩
      exact edgeLT_irrefl _ _ (edgeLT_trans _ hlt (hall u hu)))
  have hlen' := List.length_filter_le (fun l : Triple Id × EP =>
      !(removed.contains l.1.sub || removed.contains l.1.obj))
    ((s.edgeList .SPO).filter
      (fun x => decide ((∃ u, (H.edges u).isSome ∧ edgeLT .SPO x.1 u) ∧ H.edges x.1 = none)))
  have h2 := fold_cost (fun (r : Mem Id NP EP) (x : Triple Id × EP) => r.insertEdge x.1 x.2)
    (fun G x => G.insertEdge x.1 x.2) (fun n s G a h => ok_insertEdge n s G a.1 a.2 h) (n := n)
    (((s.edgeList .SPO).filter
      (fun x => decide ((∃ u, (H.edges u).isSome ∧ edgeLT .SPO x.1 u) ∧ H.edges x.1 = none))).filter
        (fun l => !(removed.contains l.1.sub || removed.contains l.1.obj)) ++
      (s.edgeList .SPO).filter (fun x => decide (∀ u, (H.edges u).isSome → edgeLT .SPO u x.1)))
    (h1.mono (by rw [edgeCount_eq, List.length_append]; omega))
  rw [foldl_insertEdge_fun (f := s.graph.edges) (fun x hx => by
    rcases List.mem_append.1 hx with hx | hx
    · exact ((edgeList_lists h .SPO).2 _ _).1 (List.mem_filter.1 (List.mem_filter.1 hx).1).1
    · exact ((edgeList_lists h .SPO).2 _ _).1 (List.mem_filter.1 hx).1)] at h2
  refine ⟨_, _, rfl, ⟨fun m => ?_, fun t p => ?_⟩, h2⟩
  · simp only [List.map_append, List.mem_append, Graph.empty,
      mem_keys_filter (f := s.graph.nodes) (fun _ _ => BMap.mem_entries)
        (fun k => decide ((∃ u, (H.nodes u).isSome ∧ k < u) ∧ H.nodes k = none)),
      mem_keys_filter (f := s.graph.nodes) (fun _ _ => BMap.mem_entries)
        (fun k => decide (∀ u, (H.nodes u).isSome → u < k)), decide_eq_true_eq]
    cases hH : H.nodes m with
    | some v =>
      have : ¬ ∀ u, (H.nodes u).isSome → u < m := fun hh => lt_irrefl _ (hh m (by rw [hH]; rfl))
      simp [this]
    | none =>
      cases hG : s.graph.nodes m with
      | none => simp
      | some p =>
        by_cases hh : ∃ u, (H.nodes u).isSome ∧ m < u
        · simp [hh]
        · have : ∀ u, (H.nodes u).isSome → u < m := by
            intro u hu
            rcases lt_trichotomy u m with h' | rfl | h'
            · exact h'
            · rw [hH] at hu; cases hu
            · exact absurd ⟨u, hu, h'⟩ hh
          rw [if_pos (.inr ⟨rfl, this⟩)]; rfl
  · have hq2 := mem_keys_filter (edgeList_lists h .SPO).2
        (fun k => decide (∀ u, (H.edges u).isSome → edgeLT .SPO u k)) t
    have hq1 : t ∈ (((s.edgeList .SPO).filter
      (fun x => decide ((∃ u, (H.edges u).isSome ∧ edgeLT .SPO x.1 u) ∧ H.edges x.1 = none))).filter
        (fun l => !(removed.contains l.1.sub || removed.contains l.1.obj))).map Prod.fst ↔
        (s.graph.edges t).isSome ∧ ((∃ u, (H.edges u).isSome ∧ edgeLT .SPO t u) ∧ H.edges t = none) ∧
          ¬ (removed.contains t.sub = true ∨ removed.contains t.obj = true) := by
      rw [List.filter_filter]
      rw [mem_keys_filter (edgeList_lists h .SPO).2 (fun k => (!(removed.contains k.sub || removed.contains k.obj)) &&
        decide ((∃ u, (H.edges u).isSome ∧ edgeLT .SPO k u) ∧ H.edges k = none))]
      simp only [Bool.and_eq_true, decide_eq_true_eq, Bool.not_eq_true', Bool.or_eq_false_iff, not_or,
        Bool.not_eq_true]
      tauto
    rw [decide_eq_true_eq] at hq2
    rw [hrem, hrem] at hq1
    simp only [List.map_append, List.mem_append, Graph.empty, hq1, hq2]
    have hnn' : (∀ n, n = t.sub ∨ n = t.obj → ¬ ((H.nodes n).isSome ∧ ∃ m, (s.graph.nodes m).isSome ∧ n ≤ m)) ↔
        ¬ (((H.nodes t.sub).isSome ∧ ∃ m, (s.graph.nodes m).isSome ∧ t.sub ≤ m) ∨
          ((H.nodes t.obj).isSome ∧ ∃ m, (s.graph.nodes m).isSome ∧ t.obj ≤ m)) := by
      constructor
      · rintro hh (h' | h')
        · exact hh _ (.inl rfl) h'
        · exact hh _ (.inr rfl) h'
      · rintro hh n (rfl | rfl) h'
        · exact hh (.inl h')
        · exact hh (.inr h')
    rw [hnn', Option.ite_none_right_eq_some]
    generalize (((H.nodes t.sub).isSome ∧ ∃ m, (s.graph.nodes m).isSome ∧ t.sub ≤ m) ∨
          ((H.nodes t.obj).isSome ∧ ∃ m, (s.graph.nodes m).isSome ∧ t.obj ≤ m)) = R
    cases hG : s.graph.edges t with
    | none => simp
    | some q =>
      have hd : (∃ u, (H.edges u).isSome ∧ edgeLT .SPO t u) → ¬ ∀ u, (H.edges u).isSome → edgeLT .SPO u t := by
        rintro ⟨u, hu, hlt⟩ hall
        exact edgeLT_irrefl _ _ (edgeLT_trans _ hlt (hall u hu))
      have hd' : (∀ u, (H.edges u).isSome → edgeLT .SPO u t) → H.edges t = none := by
        intro hall
        rw [← Option.not_isSome_iff_eq_none]
        exact fun hs => edgeLT_irrefl _ _ (hall t hs)
      have hd'' : H.edges t = none → ¬ (∃ u, (H.edges u).isSome ∧ edgeLT .SPO t u) →
          ∀ u, (H.edges u).isSome → edgeLT .SPO u t := by
        intro hnone hno u hu
        rcases edgeLT_total .SPO u t with h' | rfl | h'
        · exact h'
        · rw [hnone] at hu; cases hu
        · exact absurd ⟨u, hu, h'⟩ hno
      simp only [Option.isSome_some, true_and, Option.some.injEq]
      exact diff_aux hd hd' hd''

end Mem

end Verif
