import Verif.Spec.Conformance
import Verif.Proof.RdfStore
import Verif.Proof.MemReach
import Verif.Proof.MemSet

/-! # The conformance tests pass on every lawful back-end -/

namespace Verif.Conformance

open Spec

variable {S X Q QX NP EP α β : Type}

/-- The test does not panic, and the result has the property. -/
def Passes (t : Test α) (P : α → Prop) : Prop := ∃ a, t = some a ∧ P a

theorem Passes.bind {t : Test α} {P : α → Prop} {f : α → Test β} {R : β → Prop} (h : Passes t P)
    (h' : ∀ a, P a → Passes (f a) R) : Passes (t >>= f) R := by
  obtain ⟨a, rfl, ha⟩ := h
  exact h' a ha

theorem Passes.done {t : Test Unit} {P : Unit → Prop} (h : Passes t P) : t = some () := by
  obtain ⟨_, rfl, -⟩ := h
  rfl

theorem passes_assert {p : Prop} [Decidable p] (h : p) : Passes (assert p) (fun _ => True) :=
  ⟨(), if_pos h, trivial⟩

theorem passes_sameSet [DecidableEq α] {xs ys : List α} (h1 : ∀ x ∈ xs, x ∈ ys) (h2 : ∀ y ∈ ys, y ∈ xs) :
    Passes (assertSameSet xs ys) (fun _ => True) :=
  ⟨(), if_pos ⟨h1, h2⟩, trivial⟩

theorem ok_list {xs : List (Except X α)} (h : ∀ e, .error e ∉ xs) : ∃ l : List α, xs = l.map .ok := by
  induction xs with
  | nil => exact ⟨[], rfl⟩
  | cons x xs ih =>
    obtain ⟨l', e⟩ := ih (fun e he => h e (List.mem_cons_of_mem _ he))
    cases x with
    | error e => exact absurd (List.mem_cons_self ..) (h e)
    | ok x => exact ⟨x :: l', by rw [e]; rfl⟩

theorem expectAll_map (l : List α) : expectAll (l.map (Except.ok (ε := X))) = some l := by
  unfold expectAll
  induction l with
  | nil => rfl
  | cons a l ih => rw [List.map_cons, List.mapM_cons, ih]; rfl

theorem expectDb_ok {r : S × Except X α} {a : α} (h : r.2 = .ok a) : expectDb r = some r.1 := by
  unfold expectDb; rw [h]

/-! ## calls on a lawful back-end -/

theorem passes_did {Ok : S → Graph Ulid NP EP → Prop} {bad : X} {G G' : Graph Ulid NP EP} {r : S × Except X Unit}
    (h : Did Ok bad G (some G') r) : Passes (expectDb r) (fun s => Ok s G') :=
  ⟨_, expectDb_ok h.1, h.2⟩

variable {b : Backend S X Q QX NP EP} {mN : NP → NP → NP} {mE : EP → EP → EP} {bad : X} {qbad : QX}
  {Ok : Nat → Nat → S → Graph Ulid NP EP → Prop} {QOk : Nat → Q → Graph Ulid NP EP → Prop} {n m : Nat} {s : S} {q : Q}
  {G H : Graph Ulid NP EP}

namespace Law

variable (law : Law b mN mE bad qbad Ok QOk)
include law

theorem insertNode (h : Ok n m s G) (x : Ulid) (p : NP) :
    Passes (expectDb (b.st.insertNode s x p)) (fun s => Ok n m s (G.insertNode x p)) :=
  passes_did ((law.store m).insertNode h x p)

theorem insertEdge (h : Ok (n + 1) m s G) (t : Triple Ulid) (p : EP) :
    Passes (expectDb (b.st.insertEdge s t p)) (fun s => Ok n m s (G.insertEdge t p)) :=
  passes_did ((law.store m).insertEdge h t p)

theorem removeNode (h : Ok n m s G) (x : Ulid) :
    Passes (expectDb (b.st.removeNode s x)) (fun s => Ok n m s (G.removeNode x)) :=
  passes_did ((law.store m).removeNode h x)

theorem removeEdge (h : Ok n m s G) (t : Triple Ulid) :
    Passes (expectDb (b.st.removeEdge s t)) (fun s => Ok n m s (G.removeEdge t)) :=
  passes_did ((law.store m).removeEdge h t)

theorem mergeNode (h : Ok n m s G) (x : Ulid) (p : NP) :
    Passes (expectDb (b.st.mergeNode s x p)) (fun s => Ok n m s (G.mergeNode mN x p)) := by
  have := (law.store m).mergeNode h x p
  rw [storeMergedNode_total (fun _ => rfl)] at this
  exact passes_did this

theorem mergeEdge (h : Ok (n + 1) m s G) (t : Triple Ulid) (p : EP) :
    Passes (expectDb (b.st.mergeEdge s t p)) (fun s => Ok n m s (G.mergeEdge mE t p)) := by
  have := (law.store m).mergeEdge h t p
  rw [storeMergedEdge_total (fun _ => rfl)] at this
  exact passes_did this

theorem insertNodes (h : Ok n m s G) (l : List (Ulid × NP)) :
    Passes (insertNodes b s l) (fun s => Ok n m s (l.foldl (fun G x => G.insertNode x.1 x.2) G)) := by
  unfold Conformance.insertNodes
  induction l generalizing s G with
  | nil => exact ⟨s, rfl, h⟩
  | cons x l ih => exact (law.insertNode h x.1 x.2).bind fun s h => ih h

theorem insertEdges (l : List (Triple Ulid × EP)) (h : Ok (n + l.length) m s G) :
    Passes (insertEdges b s l) (fun s => Ok n m s (l.foldl (fun G x => G.insertEdge x.1 x.2) G)) := by
  unfold Conformance.insertEdges
  induction l generalizing s G with
  | nil => exact ⟨s, rfl, h⟩
  | cons x l ih => exact (law.insertEdge (n := n + l.length) h x.1 x.2).bind fun s h => ih h

end Law

/-! ## reading -/

theorem lists_unique_nodes {f : Ulid → Option NP} {l l' : List (Ulid × NP)} (h : Lists (· < ·) f l) (h' : Lists (· < ·) f l') :
    l = l' := Lists.unique (fun _ => lt_irrefl _) (fun _ _ _ => lt_trans) h h'

theorem lists_unique_edges {o : EdgeOrder} {f : Triple Ulid → Option EP} {l l' : List (Triple Ulid × EP)}
    (h : Lists (edgeLT o) f l) (h' : Lists (edgeLT o) f l') : l = l' :=
  Lists.unique (edgeLT_irrefl o) (fun _ _ _ => edgeLT_trans o) h h'

section
variable {st : StoreImpl S X Ulid NP EP} {okN : NP → Bool} {okE : EP → Bool} {Ok : Nat → S → Graph Ulid NP EP → Prop}
  (law : StoreLaw st okN okE bad mN mE Ok)
include law

theorem vertices_eq (h : Ok n s G) {l : List (Ulid × NP)} (hl : Lists (· < ·) G.nodes l) : st.iterVertices s = l.map .ok := by
  obtain ⟨l', h1, h2⟩ := (law.shows h).1
  rw [lists_unique_nodes hl h2]
  exact h1

theorem edges_eq (h : Ok n s G) {o : EdgeOrder} {l : List (Triple Ulid × EP)} (hl : Lists (edgeLT o) G.edges l) :
    st.iterEdges s o = l.map .ok := by
  obtain ⟨l', h1, h2⟩ := (law.shows h).2 o
  rw [lists_unique_edges hl h2]
  exact h1

theorem props_eq (h : Ok n s G) {o : EdgeOrder} {l : List (PropsTriple Ulid NP EP)}
    (hs : l.Pairwise (fun a b => edgeLT o a.toTriple b.toTriple))
    (hm : ∀ x, x ∈ l ↔ G.nodes x.sub.1 = some x.sub.2 ∧ G.edges x.toTriple = some x.pred.2 ∧ G.nodes x.obj.1 = some x.obj.2)
    (ho : ∀ t p, G.edges t = some p → (G.nodes t.sub).isSome ∧ (G.nodes t.obj).isSome) :
    st.iterEdgesWithProps s o = l.map .ok := by
  have h1 := law.props h o
  have h2 := law.propsSorted h o
  obtain ⟨l', e⟩ : ∃ l' : List (PropsTriple Ulid NP EP), st.iterEdgesWithProps s o = l'.map .ok :=
    ok_list (h1.noError ho)
  rw [e]
  congr 1
  have hm' := h1.mem
  rw [e] at h2 hm'
  have hs' : l'.Pairwise (fun a b => edgeLT o a.toTriple b.toTriple) := by
    rw [List.pairwise_map] at h2
    exact h2.imp (fun {a b} hab => hab a b rfl rfl)
  have hp : l'.Perm l := by
    refine (List.perm_ext_iff_of_nodup ?_ ?_).2 (fun x => ?_)
    · exact hs'.imp (fun {a b} hab e => by rw [e] at hab; exact edgeLT_irrefl o _ hab)
    · exact hs.imp (fun {a b} hab e => by rw [e] at hab; exact edgeLT_irrefl o _ hab)
    · rw [hm, ← hm' x]
      simp
  refine hp.eq_of_pairwise (fun x y _ _ hab hba => ?_) hs' hs
  exact absurd (edgeLT_trans o hab hba) (edgeLT_irrefl o _)

theorem passes_props (h : Ok n s G) {o : EdgeOrder} {l : List (PropsTriple Ulid NP EP)}
    (hl : Lists (edgeLT o) G.edges (l.map (fun x => (x.toTriple, x.pred.2))))
    (hx : ∀ x ∈ l, G.nodes x.sub.1 = some x.sub.2 ∧ G.nodes x.obj.1 = some x.obj.2) :
    Passes (expectAll (st.iterEdgesWithProps s o)) (· = l) := by
  refine ⟨l, ?_, rfl⟩
  rw [props_eq law h (l := l), expectAll_map]
  · have := hl.1
    rw [List.pairwise_map] at this
    exact this
  · intro x
    constructor
    · intro h
      exact ⟨(hx x h).1, (hl.2 _ _).1 (List.mem_map.2 ⟨x, h, rfl⟩), (hx x h).2⟩
    · rintro ⟨h1, h2, h3⟩
      obtain ⟨y, hy, e⟩ := List.mem_map.1 ((hl.2 _ _).2 h2)
      have := hx y hy
      obtain ⟨⟨a, p⟩, ⟨b, q⟩, ⟨c, r⟩⟩ := x
      obtain ⟨⟨a', p'⟩, ⟨b', q'⟩, ⟨c', r'⟩⟩ := y
      simp only [PropsTriple.toTriple, Prod.mk.injEq, Triple.mk.injEq] at e h1 h3 this
      obtain ⟨⟨rfl, rfl, rfl⟩, rfl⟩ := e
      rw [h1, h3] at this
      simp only [Option.some.injEq] at this
      obtain ⟨rfl, rfl⟩ := this
      exact hy
  · intro t p h
    obtain ⟨y, hy, e⟩ := List.mem_map.1 ((hl.2 _ _).2 h)
    cases e
    have := hx y hy
    simp only [PropsTriple.toTriple]
    rw [this.1, this.2]
    exact ⟨rfl, rfl⟩

theorem passes_vertices (h : Ok n s G) {l : List (Ulid × NP)} (hl : Lists (· < ·) G.nodes l) :
    Passes (expectAll (st.iterVertices s)) (· = l) := ⟨l, by rw [vertices_eq law h hl, expectAll_map], rfl⟩

theorem passes_edges (h : Ok n s G) {o : EdgeOrder} {l : List (Triple Ulid × EP)} (hl : Lists (edgeLT o) G.edges l) :
    Passes (expectAll (st.iterEdges s o)) (· = l) := ⟨l, by rw [edges_eq law h hl, expectAll_map], rfl⟩

/-- whatever the order -/
theorem passes_edges_mem (h : Ok n s G) (o : EdgeOrder) :
    Passes (expectAll (st.iterEdges s o)) (fun l => (l.map Prod.fst).Nodup ∧ ∀ t p, (t, p) ∈ l ↔ G.edges t = some p) := by
  obtain ⟨l, h1, h2⟩ := (law.shows h).2 o
  refine ⟨l, (congrArg expectAll h1).trans (expectAll_map l), ?_, h2.2⟩
  rw [List.nodup_iff_pairwise_ne, List.pairwise_map]
  exact h2.1.imp (fun {a b} hab e => by rw [e] at hab; exact edgeLT_irrefl o _ hab)

theorem passes_vertices_mem (h : Ok n s G) :
    Passes (expectAll (st.iterVertices s)) (fun l => (l.map Prod.fst).Nodup ∧ ∀ x p, (x, p) ∈ l ↔ G.nodes x = some p) := by
  obtain ⟨l, h1, h2⟩ := (law.shows h).1
  refine ⟨l, (congrArg expectAll h1).trans (expectAll_map l), ?_, h2.2⟩
  rw [List.nodup_iff_pairwise_ne, List.pairwise_map]
  exact h2.1.imp (fun {a b} hab e => by rw [e] at hab; exact lt_irrefl _ hab)

theorem sorted_source (h : Ok n s G) : RepresentsSorted (st.iterNodes s .SPO) G := by
  rw [law.iterNodes h]
  exact ⟨(law.shows h).1, (law.shows h).2 .SPO⟩

theorem into_source (h : Ok n s G) : RepresentsSorted (st.intoIterNodes s .SPO) G := by
  rw [law.intoIterNodes h]
  exact ⟨(law.shows h).1, (law.shows h).2 .SPO⟩

end

/-! ## the tests -/

section
variable (law : Law b mN mE bad qbad Ok QOk)
include law

theorem iterNodes_nodes (h : Ok n m s G) {l : List (Ulid × NP)} (hl : Lists (· < ·) G.nodes l) :
    Passes (expectAll (b.st.iterNodes s .SPO).nodes) (· = l) := by
  rw [(law.store m).iterNodes h]
  exact passes_vertices (law.store m) h hl

theorem iterNodes_edges (h : Ok n m s G) {l : List (Triple Ulid × EP)} (hl : Lists (edgeLT .SPO) G.edges l) :
    Passes (expectAll (b.st.iterNodes s .SPO).edges) (· = l) := by
  rw [(law.store m).iterNodes h]
  exact passes_edges (law.store m) h hl

theorem iterNodes_none (h : Ok n m s G) (hl : ∀ t, G.edges t = none) : (b.st.iterNodes s .SPO).edges.length = 0 := by
  rw [(law.store m).iterNodes h]
  have : Lists (edgeLT .SPO) G.edges [] := ⟨.nil, fun t p => by simp [hl]⟩
  show (b.st.iterEdges s .SPO).length = 0
  rw [edges_eq (law.store m) h this]
  rfl

theorem insert_node [DecidableEq NP] {c : Config NP EP} (hc : c.Increasing) (h : Ok n m s Graph.empty) :
    testInsertNode b c s = some () := by
  have h12 := hc.n12; have h23 := hc.n23; have h34 := hc.n34
  refine Passes.done (P := fun _ => True) ?_
  refine (law.insertNode h _ _).bind fun s h => ?_
  refine (law.insertNode h _ _).bind fun s h => ?_
  refine (law.insertNode h _ _).bind fun s h => ?_
  refine (law.insertNode h _ _).bind fun s h => ?_
  refine (iterNodes_nodes law h (l := _) ⟨?_, fun k v => ?_⟩).bind fun _ e => (passes_assert e).bind fun _ _ => ?_
  · simp; grind
  · simp only [Graph.insertNode, Graph.empty]; grind
  refine (passes_assert (iterNodes_none law h (fun t => rfl))).bind fun _ _ => ?_
  refine (law.insertNode h _ _).bind fun s h => ?_
  refine (iterNodes_nodes law h (l := _) ⟨?_, fun k v => ?_⟩).bind fun _ e => (passes_assert e).bind fun _ _ => ?_
  · simp; grind
  · simp only [Graph.insertNode, Graph.empty]; grind
  exact passes_assert (iterNodes_none law h (fun t => rfl))

theorem insert_edge [DecidableEq NP] [DecidableEq EP] {c : Config NP EP} (hc : c.Increasing) (h : Ok (n + 4) m s Graph.empty) :
    testInsertEdge b c s = some () := by
  have h12 := hc.n12; have h23 := hc.n23; have h34 := hc.n34
  refine Passes.done (P := fun _ => True) ?_
  refine (law.insertNodes h _).bind fun s h => ?_
  refine (law.insertEdge h _ _).bind fun s h => ?_
  refine (law.insertEdge h _ _).bind fun s h => ?_
  refine (law.insertEdge h _ _).bind fun s h => ?_
  refine (law.insertEdge h _ _).bind fun s h => ?_
  refine (iterNodes_nodes law h (l := _) ⟨?_, fun k v => ?_⟩).bind fun _ e => (passes_assert e).bind fun _ _ => ?_
  · simp; grind
  · simp only [List.foldl, Graph.insertEdge, Graph.insertNode, Graph.empty]; grind
  refine (iterNodes_edges law h (l := _) ⟨?_, fun k v => ?_⟩).bind fun _ e => passes_assert e
  · simp [edgeLT, lex3]; grind
  · simp only [List.foldl, Graph.insertEdge, Graph.insertNode, Graph.empty]; grind

theorem populate (c : Config NP EP) (h : Ok (n + 3) m s G) :
    Passes (populateGraph b c s) (fun s => Ok n m s
      (((((((G.insertNode c.node1 c.nodeData1).insertNode c.node2 c.nodeData2).insertNode c.node3 c.nodeData3).insertNode
        c.node4 c.nodeData4).insertEdge ⟨c.node1, c.edge1, c.node2⟩ c.edgeData1).insertEdge ⟨c.node2, c.edge2, c.node3⟩
        c.edgeData2).insertEdge ⟨c.node3, c.edge3, c.node4⟩ c.edgeData3)) :=
  (law.insertNodes h _).bind fun _ h => law.insertEdges _ h

theorem remove_node [DecidableEq NP] [DecidableEq EP] {c : Config NP EP} (hc : c.Increasing) (h : Ok (n + 3) m s Graph.empty) :
    testRemoveNode b c s = some () := by
  have h12 := hc.n12; have h23 := hc.n23; have h34 := hc.n34
  refine Passes.done (P := fun _ => True) ?_
  refine (populate law c h).bind fun s h => ?_
  refine (law.removeNode h _).bind fun s h => ?_
  refine (law.removeNode h _).bind fun s h => ?_
  refine (passes_vertices (law.store m) h (l := _) ⟨?_, fun k v => ?_⟩).bind fun _ e => (passes_assert e).bind fun _ _ => ?_
  · simp; grind
  · simp only [Graph.removeNode, Graph.insertEdge, Graph.insertNode, Graph.empty]; grind
  refine (passes_edges (law.store m) h (l := _) ⟨?_, fun k v => ?_⟩).bind fun _ e => (passes_assert e).bind fun _ _ => ?_
  · simp
  · simp only [Graph.removeNode, Graph.insertEdge, Graph.insertNode, Graph.empty]; grind
  refine (passes_props (law.store m) h (l := _) ⟨?_, fun t p => ?_⟩ ?_).bind fun _ e => passes_assert e
  · simp
  · simp only [Graph.removeNode, Graph.insertEdge, Graph.insertNode, Graph.empty, PropsTriple.toTriple, List.map]; grind
  · simp only [Graph.removeNode, Graph.insertEdge, Graph.insertNode, Graph.empty, List.mem_cons, List.not_mem_nil, or_false, forall_eq]; grind

theorem remove_edge [DecidableEq NP] [DecidableEq EP] {c : Config NP EP} (hc : c.Increasing) (h : Ok (n + 3) m s Graph.empty) :
    testRemoveEdge b c s = some () := by
  have h12 := hc.n12; have h23 := hc.n23; have h34 := hc.n34
  refine Passes.done (P := fun _ => True) ?_
  refine (populate law c h).bind fun s h => ?_
  refine (law.removeEdge h _).bind fun s h => ?_
  refine (law.removeEdge h _).bind fun s h => ?_
  refine (passes_vertices (law.store m) h (l := _) ⟨?_, fun k v => ?_⟩).bind fun _ e => (passes_assert e).bind fun _ _ => ?_
  · simp; grind
  · simp only [Graph.removeEdge, Graph.insertEdge, Graph.insertNode, Graph.empty]; grind
  refine (passes_edges (law.store m) h (l := _) ⟨?_, fun k v => ?_⟩).bind fun _ e => (passes_assert e).bind fun _ _ => ?_
  · simp
  · simp only [Graph.removeEdge, Graph.insertEdge, Graph.insertNode, Graph.empty]; grind
  refine (passes_props (law.store m) h (l := _) ⟨?_, fun t p => ?_⟩ ?_).bind fun _ e => passes_assert e
  · simp
  · simp only [Graph.removeEdge, Graph.insertEdge, Graph.insertNode, Graph.empty, PropsTriple.toTriple, List.map]; grind
  · simp only [Graph.removeEdge, Graph.insertEdge, Graph.insertNode, Graph.empty, List.mem_cons, List.not_mem_nil, or_false, forall_eq]; grind

/-! src/conformance/iter.rs -/

theorem build_iter (c : Config NP EP) (h : Ok (n + 3) m s G) :
    Passes (buildIter b c s) (fun s => Ok n m s
      (((((((G.insertNode c.node1 c.nodeData1).insertNode c.node2 c.nodeData2).insertNode c.node3 c.nodeData3).insertNode
        c.node4 c.nodeData4).insertEdge ⟨c.node1, c.edge1, c.node2⟩ c.edgeData1).insertEdge ⟨c.node2, c.edge2, c.node3⟩
        c.edgeData2).insertEdge ⟨c.node3, c.edge3, c.node4⟩ c.edgeData3)) := by
  refine (law.insertNode h _ _).bind fun s h => ?_
  refine (law.insertNode h _ _).bind fun s h => ?_
  refine (law.insertNode h _ _).bind fun s h => ?_
  refine (law.insertNode h _ _).bind fun s h => ?_
  refine (law.insertEdge h _ _).bind fun s h => ?_
  refine (law.insertEdge h _ _).bind fun s h => ?_
  exact law.insertEdge h _ _

omit law in
theorem iter_edges {c : Config NP EP} (hc : c.ForIter) (o : EdgeOrder) :
    Lists (edgeLT o) ((((((((Graph.empty.insertNode c.node1 c.nodeData1).insertNode c.node2 c.nodeData2).insertNode c.node3
      c.nodeData3).insertNode c.node4 c.nodeData4).insertEdge ⟨c.node1, c.edge1, c.node2⟩ c.edgeData1).insertEdge
      ⟨c.node2, c.edge2, c.node3⟩ c.edgeData2).insertEdge ⟨c.node3, c.edge3, c.node4⟩ c.edgeData3)).edges (c.expectedEdges o) := by
  have h1 := hc.n14; have h2 := hc.n42; have h3 := hc.n23; have h4 := hc.e13; have h5 := hc.e32
  constructor
  · cases o <;> simp [Config.expectedEdges, edgeLT, lex3] <;> grind
  · intro t p
    simp only [Graph.insertEdge, Graph.insertNode, Graph.empty]
    cases o <;> simp only [Config.expectedEdges] <;> grind

omit law in
theorem iter_nodes {c : Config NP EP} (hc : c.ForIter) :
    Lists (· < ·) ((((((((Graph.empty.insertNode c.node1 c.nodeData1).insertNode c.node2 c.nodeData2).insertNode c.node3
      c.nodeData3).insertNode c.node4 c.nodeData4).insertEdge ⟨c.node1, c.edge1, c.node2⟩ c.edgeData1).insertEdge
      ⟨c.node2, c.edge2, c.node3⟩ c.edgeData2).insertEdge ⟨c.node3, c.edge3, c.node4⟩ c.edgeData3)).nodes
      [(c.node1, c.nodeData1), (c.node4, c.nodeData4), (c.node2, c.nodeData2), (c.node3, c.nodeData3)] := by
  have h1 := hc.n14; have h2 := hc.n42; have h3 := hc.n23
  constructor
  · simp; grind
  · intro t p
    simp only [Graph.insertEdge, Graph.insertNode, Graph.empty]
    grind

theorem iter_full [DecidableEq NP] [DecidableEq EP] {c : Config NP EP} (hc : c.ForIter) (o : EdgeOrder)
    (h : Ok (n + 3) m s Graph.empty) : testIter b c o s = some () := by
  have h1 := hc.n14; have h2 := hc.n42; have h3 := hc.n23
  refine Passes.done (P := fun _ => True) ?_
  refine (build_iter law c h).bind fun s h => ?_
  refine (passes_props (law.store m) h (l := c.expectedFull o) ?_ ?_).bind fun _ e => passes_assert e
  · have := iter_edges hc o
    cases o <;> exact this
  · simp only [Graph.insertEdge, Graph.insertNode, Graph.empty]
    cases o <;> simp only [Config.expectedFull, Config.full1, Config.full2, Config.full3, List.mem_cons, List.not_mem_nil, or_false, forall_eq_or_imp, forall_eq] <;> grind

theorem iter_edge [DecidableEq EP] {c : Config NP EP} (hc : c.ForIter) (o : EdgeOrder)
    (h : Ok (n + 3) m s Graph.empty) : testIterEdge b c o s = some () := by
  refine Passes.done (P := fun _ => True) ?_
  refine (build_iter law c h).bind fun s h => ?_
  exact (passes_edges (law.store m) h (iter_edges hc o)).bind fun _ e => passes_assert e

theorem iter_node [DecidableEq NP] {c : Config NP EP} (hc : c.ForIter)
    (h : Ok (n + 3) m s Graph.empty) : testIterNode b c s = some () := by
  refine Passes.done (P := fun _ => True) ?_
  refine (build_iter law c h).bind fun s h => ?_
  exact (passes_vertices (law.store m) h (iter_nodes hc)).bind fun _ e => passes_assert e

theorem into_iter_full [DecidableEq NP] [DecidableEq EP] {c : Config NP EP} (hc : c.ForIter) (o : EdgeOrder)
    (h : Ok (n + 3) m s Graph.empty) : testIntoIter b c o s = some () := by
  have := iter_full law hc o h
  obtain ⟨s', e, h'⟩ := build_iter law c h
  unfold testIntoIter
  unfold testIter at this
  rw [e] at this ⊢
  show (do
    let full ← expectAll (b.st.intoIterEdgesWithProps s' o)
    assert (full = c.expectedFull o)) = some ()
  rw [(law.store m).intoProps h' o]
  exact this

theorem into_iter_edge [DecidableEq EP] {c : Config NP EP} (hc : c.ForIter) (o : EdgeOrder)
    (h : Ok (n + 3) m s Graph.empty) : testIntoIterEdge b c o s = some () := by
  refine Passes.done (P := fun _ => True) ?_
  refine (build_iter law c h).bind fun s h => ?_
  rw [(law.store m).intoIterEdges h]
  exact (passes_edges (law.store m) h (iter_edges hc o)).bind fun _ e => passes_assert e

theorem into_iter_node [DecidableEq NP] {c : Config NP EP} (hc : c.ForIter)
    (h : Ok (n + 3) m s Graph.empty) : testIntoIterNode b c s = some () := by
  refine Passes.done (P := fun _ => True) ?_
  refine (build_iter law c h).bind fun s h => ?_
  rw [(law.store m).intoIterVertices h]
  exact (passes_vertices (law.store m) h (iter_nodes hc)).bind fun _ e => passes_assert e

/-! src/conformance/extend.rs -/

theorem extend [DecidableEq NP] [DecidableEq EP] {c : Config NP EP} (hc : c.ForExtend) {s' : S} {n' m' : Nat}
    (h : Ok (n + 2) (m + 1) s Graph.empty) (h' : Ok (n' + 1) m' s' Graph.empty) : testExtend b c s s' = some () := by
  have h1 := hc.n12; have h2 := hc.n13; have h3 := hc.n23; have h4 := hc.n41
  refine Passes.done (P := fun _ => True) ?_
  refine (law.insertNode h _ _).bind fun s h => ?_
  refine (law.insertNode h _ _).bind fun s h => ?_
  refine (law.insertEdge h _ _).bind fun s h => ?_
  refine (law.insertNode h' _ _).bind fun s' h' => ?_
  refine (law.insertNode h' _ _).bind fun s' h' => ?_
  refine (law.insertEdge h' _ _).bind fun s' h' => ?_
  have hr := into_source (law.store m') h'
  have hlen : (b.st.intoIterNodes s' .SPO).edges.length = 1 := by
    obtain ⟨-, l, e, hl⟩ := hr
    rw [e, List.length_map]
    rw [lists_unique_edges hl (l' := [(⟨c.node3, c.edge1, c.node4⟩, c.edgeData2)]) ⟨by simp, fun t p => by
      simp only [Graph.insertEdge, Graph.insertNode, Graph.empty]; grind⟩]
    rfl
  obtain ⟨e1, h⟩ := law.extend (n := n) (m := m) (by rw [hlen]; exact h) hr.represents
  refine Passes.bind (P := (· = (b.extend s (b.st.intoIterNodes s' .SPO)).1)) ⟨_, expectDb_ok e1, rfl⟩ fun s hs => ?_
  subst hs
  refine (passes_vertices_mem (law.store m) h).bind fun l hl => ?_
  have hp : l.Perm [(c.node1, c.nodeData4), (c.node2, c.nodeData2), (c.node3, c.nodeData3)] := by
    refine (List.perm_ext_iff_of_nodup (List.Nodup.of_map _ hl.1) ?_).2 fun x => ?_
    · simp; grind
    · obtain ⟨x, p⟩ := x
      rw [hl.2]
      simp only [Graph.overlay, Graph.insertEdge, Graph.insertNode, Graph.empty]; grind
  refine (passes_assert hp.length_eq).bind fun _ _ => ?_
  refine (passes_assert (hp.mem_iff.2 (by simp))).bind fun _ _ => ?_
  refine (passes_assert (hp.mem_iff.2 (by simp))).bind fun _ _ => ?_
  refine (passes_assert (hp.mem_iff.2 (by simp))).bind fun _ _ => ?_
  refine (passes_edges_mem (law.store m) h .SPO).bind fun l hl => ?_
  have hp : l.Perm [(⟨c.node3, c.edge1, c.node1⟩, c.edgeData2), (⟨c.node1, c.edge1, c.node2⟩, c.edgeData1)] := by
    refine (List.perm_ext_iff_of_nodup (List.Nodup.of_map _ hl.1) ?_).2 fun x => ?_
    · simp; grind
    · obtain ⟨x, p⟩ := x
      rw [hl.2]
      simp only [Graph.overlay, Graph.insertEdge, Graph.insertNode, Graph.empty, h4]
      have h5 : (⟨c.node3, c.edge1, c.node1⟩ : Triple Ulid) ≠ ⟨c.node1, c.edge1, c.node2⟩ := by
        intro e; exact h2 (congrArg Triple.sub e).symm
      by_cases e1 : x = ⟨c.node3, c.edge1, c.node1⟩
      · subst e1; simp [h5]; exact eq_comm
      · by_cases e2 : x = ⟨c.node1, c.edge1, c.node2⟩
        · subst e2; simp [h5.symm]; exact eq_comm
        · simp [e1, e2]
  refine (passes_assert hp.length_eq).bind fun _ _ => ?_
  refine (passes_assert (hp.mem_iff.2 (by simp))).bind fun _ _ => ?_
  exact passes_assert (hp.mem_iff.2 (by simp))

/-! src/conformance/query.rs -/

theorem build_query (c : QConfig NP EP) (h : Ok (n + 5) m s G) :
    Passes (buildQuery b c s) (fun s => Ok n m s
      ((((((((((G.insertNode c.node0 c.nodeProps0).insertNode c.node1 c.nodeProps1).insertNode c.node2 c.nodeProps2).insertNode c.node3
        c.nodeProps3).insertNode c.node4 c.nodeProps4).insertEdge ⟨c.node0, c.edge1, c.node1⟩ c.edge01Props).insertEdge
        ⟨c.node0, c.edge2, c.node2⟩ c.edge02Props).insertEdge ⟨c.node1, c.edge1, c.node2⟩ c.edgeProps1).insertEdge
        ⟨c.node2, c.edge2, c.node4⟩ c.edgeProps2).insertEdge ⟨c.node3, c.edge2, c.node4⟩ c.edgeProps3)) :=
  (law.insertNodes h _).bind fun _ h => law.insertEdges _ h

omit law in
theorem query_edges {c : QConfig NP EP} (hc : c.Distinct) (t : Triple Ulid) (p : EP) :
    ((((((((((Graph.empty.insertNode c.node0 c.nodeProps0).insertNode c.node1 c.nodeProps1).insertNode c.node2
      c.nodeProps2).insertNode c.node3 c.nodeProps3).insertNode c.node4 c.nodeProps4).insertEdge ⟨c.node0, c.edge1, c.node1⟩
      c.edge01Props).insertEdge ⟨c.node0, c.edge2, c.node2⟩ c.edge02Props).insertEdge ⟨c.node1, c.edge1, c.node2⟩
      c.edgeProps1).insertEdge ⟨c.node2, c.edge2, c.node4⟩ c.edgeProps2).insertEdge ⟨c.node3, c.edge2, c.node4⟩
      c.edgeProps3).edges t = some p ↔
    (t, p) ∈ [((⟨c.node0, c.edge1, c.node1⟩ : Triple Ulid), c.edge01Props), (⟨c.node0, c.edge2, c.node2⟩, c.edge02Props),
      (⟨c.node1, c.edge1, c.node2⟩, c.edgeProps1), (⟨c.node2, c.edge2, c.node4⟩, c.edgeProps2),
      (⟨c.node3, c.edge2, c.node4⟩, c.edgeProps3)] := by
  have h1 := hc.nodes; have h2 := hc.edges
  simp only [List.nodup_cons, List.mem_cons, List.not_mem_nil, or_false, not_or] at h1
  simp only [Graph.insertEdge, Graph.insertNode, Graph.empty]
  grind

/-- the number of edges -/
theorem query_count {c : QConfig NP EP} (hc : c.Distinct) (h : Ok n m s (((((((((((Graph.empty : Graph Ulid NP EP).insertNode
      c.node0 c.nodeProps0).insertNode c.node1 c.nodeProps1).insertNode c.node2
      c.nodeProps2).insertNode c.node3 c.nodeProps3).insertNode c.node4 c.nodeProps4).insertEdge ⟨c.node0, c.edge1, c.node1⟩
      c.edge01Props).insertEdge ⟨c.node0, c.edge2, c.node2⟩ c.edge02Props).insertEdge ⟨c.node1, c.edge1, c.node2⟩
      c.edgeProps1).insertEdge ⟨c.node2, c.edge2, c.node4⟩ c.edgeProps2).insertEdge ⟨c.node3, c.edge2, c.node4⟩
      c.edgeProps3)) : (b.st.iterEdges s .SPO).length ≤ 5 := by
  obtain ⟨l, e, hl⟩ := ((law.store m).shows h).2 .SPO
  have e : b.st.iterEdges s .SPO = l.map .ok := e
  rw [e, List.length_map]
  have hn : l.Nodup := hl.1.imp (fun {a b} hab e => by rw [e] at hab; exact edgeLT_irrefl _ _ hab)
  exact List.Subperm.length_le (l₂ := [((⟨c.node0, c.edge1, c.node1⟩ : Triple Ulid), c.edge01Props),
      (⟨c.node0, c.edge2, c.node2⟩, c.edge02Props), (⟨c.node1, c.edge1, c.node2⟩, c.edgeProps1),
      (⟨c.node2, c.edge2, c.node4⟩, c.edgeProps2), (⟨c.node3, c.edge2, c.node4⟩, c.edgeProps3)])
    (List.subperm_of_subset hn (fun x hx => (query_edges hc _ _).1 ((hl.2 x.1 x.2).1 hx)))

omit law in
theorem fresh_mono {k k' : Nat} {g : Gen Ulid} (h : Fresh k g) (hk : k' ≤ k) : Fresh k' g :=
  fun i hi j hj e => h i (lt_of_lt_of_le hi hk) j (lt_of_lt_of_le hj hk) e

theorem query_node_props [DecidableEq NP] {c : QConfig NP EP} (hc : c.Distinct) {g : Gen Ulid} (hg : Fresh 5 g)
    (h : Ok (n + 5) m s Graph.empty) : testQueryNodeProps b c g s = some () := by
  have h1 := hc.nodes
  simp only [List.nodup_cons, List.mem_cons, List.not_mem_nil, or_false, not_or] at h1
  refine Passes.done (P := fun _ => True) ?_
  refine (build_query law c h).bind fun s h => ?_
  obtain ⟨res, e, hres⟩ := law.run m n 0 s _ g (.NodeProps [c.node1, c.node2]) h
    (by unfold Query.Nodup Query.items; simp; grind)
    (fresh_mono hg (by rw [Nat.zero_add]; exact query_count law hc h))
  rw [e]
  refine Passes.bind (P := (· = res)) ⟨res, rfl, rfl⟩ fun _ e => ?_
  subst e
  refine (passes_vertices_mem law.query hres).bind fun l hl => ?_
  refine Passes.bind (P := fun _ => True) ?_ fun _ _ => ?_
  · refine passes_sameSet (fun x hx => ?_) (fun x hx => (hl.2 x.1 x.2).2 ?_)
    · have := (hl.2 x.1 x.2).1 hx
      obtain ⟨x, p⟩ := x
      simp only [select, Graph.insertEdge, Graph.insertNode, Graph.empty, List.mem_cons, List.not_mem_nil, or_false] at this
      simp only [List.mem_cons, Prod.mk.injEq, List.not_mem_nil, or_false]
      clear hx hl hres e h hg
      split at this
      · grind
      · cases this
    · obtain ⟨x, p⟩ := x
      simp only [List.mem_cons, Prod.mk.injEq, List.not_mem_nil, or_false] at hx
      simp only [select, Graph.insertEdge, Graph.insertNode, Graph.empty, List.mem_cons, List.not_mem_nil, or_false]
      clear hl hres e h hg
      split <;> grind
  · refine passes_assert ?_
    rw [edges_eq law.query hres (l := []) ⟨.nil, fun t p => by simp [select]⟩]
    rfl

/-- the other queries: `expected` are the edges asked for -/
theorem query_test [DecidableEq EP] {c : QConfig NP EP} (hc : c.Distinct) {g : Gen Ulid} (hg : Fresh 5 g)
    (h : Ok (n + 5) m s Graph.empty) (q : Query Ulid) (hq : Query.Nodup q) (o : EdgeOrder) (expected : List (Triple Ulid × EP))
    (hn : ∀ G : Graph Ulid NP EP, (select G q).nodes = fun _ => none)
    (he : ∀ (G : Graph Ulid NP EP), (∀ t p, G.edges t = some p ↔
      (t, p) ∈ [((⟨c.node0, c.edge1, c.node1⟩ : Triple Ulid), c.edge01Props), (⟨c.node0, c.edge2, c.node2⟩, c.edge02Props),
      (⟨c.node1, c.edge1, c.node2⟩, c.edgeProps1), (⟨c.node2, c.edge2, c.node4⟩, c.edgeProps2),
      (⟨c.node3, c.edge2, c.node4⟩, c.edgeProps3)]) → ∀ t p, (select G q).edges t = some p ↔ (t, p) ∈ expected) :
    testQuery b c g s q o expected = some () := by
  refine Passes.done (P := fun _ => True) ?_
  refine (build_query law c h).bind fun s h => ?_
  obtain ⟨res, e, hres⟩ := law.run m n 0 s _ g q h hq (fresh_mono hg (by rw [Nat.zero_add]; exact query_count law hc h))
  rw [e]
  refine Passes.bind (P := (· = res)) ⟨res, rfl, rfl⟩ fun _ e => ?_
  subst e
  refine (passes_edges_mem law.query hres o).bind fun l hl => ?_
  have he := he _ (query_edges hc)
  refine Passes.bind (P := fun _ => True) ?_ fun _ _ => ?_
  · exact passes_sameSet (fun x hx => (he _ _).1 ((hl.2 _ _).1 hx)) (fun x hx => (hl.2 _ _).2 ((he _ _).2 hx))
  · refine passes_assert ?_
    rw [vertices_eq law.query hres (l := []) ⟨.nil, fun t p => by simp [hn]⟩]
    rfl

theorem queries [DecidableEq EP] {c : QConfig NP EP} (hc : c.Distinct) {g : Gen Ulid} (hg : Fresh 5 g)
    (h : Ok (n + 5) m s Graph.empty) :
    testQueryEdgeProps b c g s = some () ∧ testQueryS b c g s = some () ∧ testQuerySP b c g s = some () ∧
    testQueryP b c g s = some () ∧ testQueryPO b c g s = some () ∧ testQueryO b c g s = some () ∧
    testQueryOS b c g s = some () := by
  have h1 := hc.nodes; have h2 := hc.edges
  simp only [List.nodup_cons, List.mem_cons, List.not_mem_nil, or_false, not_or] at h1
  obtain ⟨⟨h01, h02, h03, h04⟩, ⟨h12, h13, h14⟩, ⟨h23, h24⟩, h34, -⟩ := h1
  refine ⟨?_, ?_, ?_, ?_, ?_, ?_, ?_⟩ <;>
    refine query_test law hc hg h _ (by unfold Query.Nodup Query.items; simp <;> grind) _ _ (fun _ => rfl)
      (fun G hG t p => ?_)
  all_goals
    have := hG t p
    clear hG
    obtain ⟨a, b, d⟩ := t
    simp only [List.mem_cons, Prod.mk.injEq, Triple.mk.injEq, List.not_mem_nil, or_false] at this
    simp only [select, List.mem_cons, Prod.mk.injEq, Triple.mk.injEq, List.not_mem_nil, or_false]
    grind

/-! src/conformance/merge.rs -/

theorem count_edges (h : Ok n m s G) {l : List (Triple Ulid × EP)} (hn : l.Nodup)
    (hl : ∀ t p, G.edges t = some p ↔ (t, p) ∈ l) : (b.st.intoIterNodes s .SPO).edges.length = l.length := by
  obtain ⟨-, l', e, hl'⟩ := into_source (law.store m) h
  rw [e, List.length_map]
  have hn' : l'.Nodup := hl'.1.imp (fun {a b} hab e => by rw [e] at hab; exact edgeLT_irrefl _ _ hab)
  exact ((List.perm_ext_iff_of_nodup hn' hn).2 fun x => (hl'.2 x.1 x.2).trans (hl x.1 x.2)).length_eq

theorem assert_try_eq [DecidableEq NP] [DecidableEq EP] {s' : S} {n' m' : Nat} {G' : Graph Ulid NP EP} (h : Ok n m s G)
    (h' : Ok n' m' s' G') (e : G = G') : Passes (assertTryEq b s s') (fun _ => True) := by
  have := (tryEq_spec (sorted_source (law.store m) h) (sorted_source (law.store m') h')).1.2 e
  unfold assertTryEq
  rw [this]
  exact Passes.bind (P := (· = true)) ⟨true, rfl, rfl⟩ fun _ e => passes_assert e

end

/-- the graph `build_graph` builds -/
def mergeGraph (c : MConfig NP EP) : Graph Ulid NP EP :=
  ((((((Graph.empty.insertNode c.node1 c.node1Props).insertNode c.node2 c.node2Props).insertNode c.node3
    c.node3Props).insertNode c.node4 c.node4Props).insertEdge ⟨c.node1, c.edge1, c.node3⟩ c.edge1Props).insertEdge
    ⟨c.node1, c.edge2, c.node3⟩ c.edge2Props).insertEdge ⟨c.node3, c.edge3, c.node4⟩ c.edge3Props

section
variable {b : Backend S X Q QX TestMergeable TestMergeable} {bad : X} {qbad : QX}
  {Ok : Nat → Nat → S → Graph Ulid TestMergeable TestMergeable → Prop} {QOk : Nat → Q → Graph Ulid TestMergeable TestMergeable → Prop}
  {n m : Nat} {s : S} {G : Graph Ulid TestMergeable TestMergeable}
  (law : Law b TestMergeable.merge TestMergeable.merge bad qbad Ok QOk)
include law

theorem build_merge (c : MConfig TestMergeable TestMergeable) (h : Ok (n + 3) m s Graph.empty) :
    Passes (buildMerge b c s) (fun s => Ok n m s (mergeGraph c)) := by
  refine (law.insertNode h _ _).bind fun s h => ?_
  refine (law.insertNode h _ _).bind fun s h => ?_
  refine (law.insertNode h _ _).bind fun s h => ?_
  refine (law.insertNode h _ _).bind fun s h => ?_
  refine (law.insertEdge h _ _).bind fun s h => ?_
  refine (law.insertEdge h _ _).bind fun s h => ?_
  exact law.insertEdge h _ _

omit law in
theorem mergeGraph_edges {c : MConfig NP EP} (hc : c.Distinct) (t : Triple Ulid) (p : EP) :
    (mergeGraph c).edges t = some p ↔ (t, p) ∈ [((⟨c.node1, c.edge1, c.node3⟩ : Triple Ulid), c.edge1Props),
      (⟨c.node1, c.edge2, c.node3⟩, c.edge2Props), (⟨c.node3, c.edge3, c.node4⟩, c.edge3Props)] := by
  have h1 := hc.nodes; have h2 := hc.edges
  simp only [List.nodup_cons, List.mem_cons, List.not_mem_nil, or_false, not_or] at h1
  simp only [mergeGraph, Graph.insertEdge, Graph.insertNode, Graph.empty]
  grind

omit law in
theorem mergeGraph_nodes {c : MConfig NP EP} (hc : c.Distinct) (x : Ulid) (p : NP) :
    (mergeGraph c).nodes x = some p ↔ (x, p) ∈ [(c.node1, c.node1Props), (c.node2, c.node2Props), (c.node3, c.node3Props),
      (c.node4, c.node4Props)] := by
  have h1 := hc.nodes
  simp only [List.nodup_cons, List.mem_cons, List.not_mem_nil, or_false, not_or] at h1
  simp only [mergeGraph, Graph.insertEdge, Graph.insertNode, Graph.empty]
  grind

theorem merged {c c' : MConfig TestMergeable TestMergeable} (hc : c'.Distinct) {s' : S} {n' m' : Nat}
    (h : Ok (n + 3) m s (mergeGraph c)) (h' : Ok n' m' s' (mergeGraph c')) :
    Passes (expectDb (b.merge s (b.st.intoIterNodes s' .SPO))) (fun s => Ok n m s
      ((mergeGraph c).mergeWith TestMergeable.merge TestMergeable.merge (mergeGraph c'))) := by
  have h1 := hc.nodes; have h2 := hc.edges
  simp only [List.nodup_cons, List.mem_cons, List.not_mem_nil, or_false, not_or] at h1
  have hr := into_source (law.store m') h'
  have hlen := count_edges law h' (by simp; grind) (mergeGraph_edges hc)
  obtain ⟨e1, h⟩ := law.merge (n := n) (m := m) (by rw [hlen]; exact h) hr.represents
  exact ⟨_, expectDb_ok e1, h⟩

omit law in
theorem TestMergeable.merge_self (p : TestMergeable) : p.merge p = p := by
  obtain ⟨a, b⟩ := p
  cases a <;> cases b <;> rfl

omit law in
/-- merging two graphs that differ only in the properties of `node_2` and `edge_3` -/
theorem mergeGraph_merge {c : MConfig TestMergeable TestMergeable} (p p' q q' : TestMergeable) :
    (mergeGraph { c with node2Props := p, edge3Props := q }).mergeWith TestMergeable.merge TestMergeable.merge
      (mergeGraph { c with node2Props := p', edge3Props := q' }) =
    mergeGraph { c with node2Props := p.merge p', edge3Props := q.merge q' } := by
  refine Graph.ext' (fun x => ?_) (fun t => ?_) <;>
    simp only [mergeGraph, Graph.mergeWith, Graph.insertEdge, Graph.insertNode, Graph.empty] <;>
    repeat' split
  all_goals simp only [Graph.mergeOpt, TestMergeable.merge_self]

theorem merge_test {c : MConfig TestMergeable TestMergeable} (hc : c.Distinct) {db : Nat → S}
    (h : ∀ k, Ok (n + 6) m (db k) Graph.empty) : testMerge b c db = some () := by
  have hc1 : ∀ p q, MConfig.Distinct { c with node2Props := p, edge3Props := q } := fun _ _ => ⟨hc.nodes, hc.edges⟩
  refine Passes.done (P := fun _ => True) ?_
  refine (build_merge law _ (h 0)).bind fun g1 h1 => ?_
  refine (build_merge law _ (h 1)).bind fun g2 h2 => ?_
  refine (build_merge law _ (h 2)).bind fun x12 h12 => ?_
  refine (build_merge law _ (h 3)).bind fun x21 h21 => ?_
  refine (build_merge law _ (h 4)).bind fun o2 ho2 => ?_
  refine (merged law (hc1 _ _) h1 ho2).bind fun a12 ha12 => ?_
  refine (build_merge law _ (h 5)).bind fun o1 ho1 => ?_
  refine (merged law (hc1 _ _) h2 ho1).bind fun a21 ha21 => ?_
  refine (assert_try_eq law ha12 h12 (mergeGraph_merge _ _ _ _)).bind fun _ _ => ?_
  exact assert_try_eq law ha21 h21 (mergeGraph_merge _ _ _ _)

theorem merge_node_test {c : MConfig TestMergeable TestMergeable} (hc : c.Distinct) (hp : c.node1Props.b = none) {db : Nat → S}
    (h : ∀ k, Ok (n + 3) m (db k) Graph.empty) : testMergeNode b c db = some () := by
  refine Passes.done (P := fun _ => True) ?_
  refine (build_merge law _ (h 0)).bind fun g1 h1 => ?_
  refine (law.mergeNode h1 _ _).bind fun g1 h1 => ?_
  refine (law.mergeNode h1 _ _).bind fun g1 h1 => ?_
  refine (build_merge law _ (h 1)).bind fun e he => ?_
  refine assert_try_eq law h1 he ?_
  have h1 := hc.nodes
  simp only [List.nodup_cons, List.mem_cons, List.not_mem_nil, or_false, not_or] at h1
  have e1 : c.node1Props.merge ⟨some "baz", none⟩ = ⟨some "baz", none⟩ := by
    generalize c.node1Props = x at hp
    obtain ⟨a, b⟩ := x
    simp only at hp
    subst hp; rfl
  have e2 : TestMergeable.merge ⟨some "bar", some "bar"⟩ ⟨some "baz", none⟩ = ⟨some "baz", some "bar"⟩ := rfl
  refine Graph.ext' (fun x => ?_) (fun t => ?_) <;>
    simp only [mergeGraph, Graph.mergeNode, Graph.insertEdge, Graph.insertNode, Graph.empty]
  grind

theorem make_graph (a d e p : Ulid) (h : Ok (n + 1) m s Graph.empty) : Passes (makeGraph b a d e p s) (fun s => Ok n m s
    ((((Graph.empty.insertNode a TestMergeable.default).insertNode d TestMergeable.default).insertNode e
      TestMergeable.default).insertEdge ⟨a, p, d⟩ ⟨some "foo", none⟩)) := by
  refine (law.insertNode h _ _).bind fun s h => ?_
  refine (law.insertNode h _ _).bind fun s h => ?_
  refine (law.insertNode h _ _).bind fun s h => ?_
  exact law.insertEdge h _ _

theorem merge_edge_test {a d e p : Ulid} (hn : a ≠ d ∨ d ≠ e) {db : Nat → S} (h : ∀ k, Ok (n + 3) m (db k) Graph.empty) :
    testMergeEdge b a d e p db = some () := by
  refine Passes.done (P := fun _ => True) ?_
  refine (make_graph law _ _ _ _ (h 0)).bind fun g1 h1 => ?_
  refine (make_graph law _ _ _ _ (h 1)).bind fun g2 h2 => ?_
  refine (law.insertEdge h2 _ _).bind fun g2 h2 => ?_
  refine (law.insertEdge h2 _ _).bind fun g2 h2 => ?_
  refine (law.mergeEdge h1 _ _).bind fun g1 h1 => ?_
  refine (law.mergeEdge h1 _ _).bind fun g1 h1 => ?_
  refine assert_try_eq law h1 h2 ?_
  have e2 : TestMergeable.merge ⟨some "foo", none⟩ ⟨none, some "bar"⟩ = ⟨some "foo", some "bar"⟩ := rfl
  refine Graph.ext' (fun x => ?_) (fun t => ?_) <;>
    simp only [Graph.mergeEdge, Graph.insertEdge, Graph.insertNode, Graph.empty]
  grind

end

end Verif.Conformance
