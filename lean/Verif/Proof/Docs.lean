import Verif.Spec.Docs
import Verif.Proof.Conformance
import Verif.Proof.Query

/-! # The examples of the documentation hold on every lawful back-end -/

namespace Verif.Docs

open Spec Conformance

variable {S X Q QX NP EP : Type} {b : Backend S X Q QX NP EP} {mN : NP → NP → NP} {mE : EP → EP → EP} {bad : X} {qbad : QX}
  {Ok : Nat → Nat → S → Graph Ulid NP EP → Prop} {QOk : Nat → Q → Graph Ulid NP EP → Prop} {n m : Nat} {s : S}

/-- the graph of the examples -/
def Values.graph (v : Values NP EP) : Graph Ulid NP EP :=
  ((((Graph.empty.insertNode v.node1 v.foo).insertNode v.node2 v.bar).insertNode v.node3 v.baz).insertEdge
    ⟨v.node1, v.edge, v.node2⟩ v.p123).insertEdge ⟨v.node1, v.edge, v.node3⟩ v.p456

theorem Values.lists {v : Values NP EP} (hv : v.Increasing) : Lists (edgeLT .SPO) v.graph.edges
    [(⟨v.node1, v.edge, v.node2⟩, v.p123), (⟨v.node1, v.edge, v.node3⟩, v.p456)] := by
  have h12 := hv.n12; have h23 := hv.n23
  constructor
  · simp [edgeLT, lex3]; grind
  · intro t p
    simp only [Values.graph, Graph.insertEdge, Graph.insertNode, Graph.empty]; grind

section
variable (law : Law b mN mE bad qbad Ok QOk)
include law

theorem build_ok (v : Values NP EP) (h : Ok (n + 2) m s Graph.empty) : Passes (build b v s) (fun s => Ok n m s v.graph) := by
  refine (law.insertNode h _ _).bind fun s h => ?_
  refine (law.insertNode h _ _).bind fun s h => ?_
  refine (law.insertNode h _ _).bind fun s h => ?_
  refine (law.insertEdge h _ _).bind fun s h => ?_
  exact law.insertEdge h _ _

theorem example_iter [DecidableEq NP] [DecidableEq EP] {v : Values NP EP} (hv : v.Increasing) (h : Ok (n + 2) m s Graph.empty) :
    exampleIter b v s = some () := by
  have h12 := hv.n12; have h23 := hv.n23
  refine Passes.done (P := fun _ => True) ?_
  refine (build_ok law v h).bind fun s h => ?_
  refine (passes_vertices (law.store m) h (l := _) ⟨?_, fun k p => ?_⟩).bind fun _ e => (passes_assert e).bind fun _ _ => ?_
  · simp; grind
  · simp only [Values.graph, Graph.insertEdge, Graph.insertNode, Graph.empty]; grind
  refine (passes_props (law.store m) h (l := _) (Values.lists hv) ?_).bind fun _ e => passes_assert e
  simp only [Values.graph, Graph.insertEdge, Graph.insertNode, Graph.empty, List.mem_cons, List.not_mem_nil, or_false,
    forall_eq_or_imp, forall_eq]
  grind

theorem run_ok {v : Values NP EP} (hv : v.Increasing) (h : Ok n m s v.graph) (q : Query Ulid) (hq : Query.Nodup q) {g : Gen Ulid}
    (hg : Fresh 2 g) : Passes (expect (b.run s g q)) (fun r => QOk 0 r (select v.graph q)) := by
  obtain ⟨res, e, hres⟩ := law.run m n 0 s _ g q h hq (by rw [edges_eq (law.store m) h (Values.lists hv)]; exact hg)
  rw [e]
  exact ⟨res, rfl, hres⟩

theorem example_query [DecidableEq EP] {v : Values NP EP} (hv : v.Increasing) (h : Ok (n + 2) m s Graph.empty) {g1 g2 : Gen Ulid}
    (h1 : Fresh 2 g1) (h2 : Fresh 2 g2) : exampleQuery b v g1 g2 s = some () := by
  have h12 := hv.n12; have h23 := hv.n23
  have hl := (Values.lists hv).2
  refine Passes.done (P := fun _ => True) ?_
  refine (build_ok law v h).bind fun s h => ?_
  refine Passes.bind (P := (· = .O [v.node3])) ⟨_, rfl, rfl⟩ fun _ e => ?_
  subst e
  refine (run_ok law hv h _ (by simp [Query.Nodup, Query.items]) h1).bind fun r hr => ?_
  refine (passes_edges law.query hr (l := _) ⟨List.pairwise_singleton _ _, fun t p => ?_⟩).bind
    fun _ e => (passes_assert e).bind fun _ _ => ?_
  · have := hl t p
    obtain ⟨a, b, d⟩ := t
    simp only [List.mem_cons, Prod.mk.injEq, Triple.mk.injEq, List.not_mem_nil, or_false] at this
    simp only [select, List.mem_cons, Prod.mk.injEq, Triple.mk.injEq, List.not_mem_nil, or_false]
    grind
  refine Passes.bind (P := (· = .P [v.edge])) ⟨_, rfl, rfl⟩ fun _ e => ?_
  subst e
  refine (run_ok law hv h _ (by simp [Query.Nodup, Query.items]) h2).bind fun r hr => ?_
  refine (passes_edges law.query hr (l := _) ⟨(Values.lists hv).1, fun t p => ?_⟩).bind fun _ e => passes_assert e
  have := hl t p
  obtain ⟨a, b, d⟩ := t
  simp only [List.mem_cons, Prod.mk.injEq, Triple.mk.injEq, List.not_mem_nil, or_false] at this
  simp only [select, List.mem_cons, Prod.mk.injEq, Triple.mk.injEq, List.not_mem_nil, or_false]
  grind

end

theorem sameQuery_iff {Id : Type} [DecidableEq Id] (q r : Query Id) : sameQuery q r = true ↔ SameQuery q r := by
  have key : ∀ {α : Type} (a b : List α), (a ⊆ b ∧ b ⊆ a) ↔ ∀ x, x ∈ a ↔ x ∈ b :=
    fun a b => ⟨fun h x => ⟨fun hx => h.1 hx, fun hx => h.2 hx⟩, fun h => ⟨fun x => (h x).1, fun x => (h x).2⟩⟩
  constructor
  · intro h
    cases q <;> cases r <;> simp only [sameQuery, Bool.false_eq_true, decide_eq_true_eq, key] at h <;> constructor <;> exact h
  · intro h
    cases h <;> simp only [sameQuery, decide_eq_true_eq, key] <;> assumption

end Verif.Docs
