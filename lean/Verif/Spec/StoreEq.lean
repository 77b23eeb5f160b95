import Verif.Spec.Graph

/-! # Equality up to the `==` of the properties -/

namespace Verif.Spec

/-- The same keys have values, and these are `==`. -/
def SameValues {κ ν : Type} [BEq ν] (f g : κ → Option ν) : Prop :=
  ∀ k, (f k = none ∧ g k = none) ∨ ∃ p q, f k = some p ∧ g k = some q ∧ (p == q) = true

/-- The same nodes and edges, with properties that are `==`. -/
def Graph.Same {Id NP EP : Type} [BEq NP] [BEq EP] (G H : Graph Id NP EP) : Prop :=
  SameValues G.nodes H.nodes ∧ SameValues G.edges H.edges

/-- Wherever both lists have an element, these have the same key and `==` values. -/
def AgreeUpToEnd {κ ν : Type} [BEq ν] (l m : List (κ × ν)) : Prop :=
  ∀ (i : Nat) (x y : κ × ν), l[i]? = some x → m[i]? = some y → x.1 = y.1 ∧ (x.2 == y.2) = true

/-- every property of the graph is `==` to itself -/
def Graph.Reflexive {Id NP EP : Type} [BEq NP] [BEq EP] (G : Graph Id NP EP) : Prop :=
  (∀ n p, G.nodes n = some p → (p == p) = true) ∧ ∀ t p, G.edges t = some p → (p == p) = true

/-- `H` is `G`, or `G` with further edges, all of them after those of `G` in the numeric order. -/
structure Graph.Begins {Id NP EP : Type} [LinearOrder Id] (G H : Graph Id NP EP) : Prop where
  nodes : G.nodes = H.nodes
  edges : ∀ t p, G.edges t = some p → H.edges t = some p
  after : ∀ t u, (G.edges t).isSome → (H.edges u).isSome → G.edges u = none → edgeLT .SPO t u

end Verif.Spec
