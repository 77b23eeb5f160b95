import Verif.Model.Docs
import Verif.Spec.Conformance

/-! # What the examples of the documentation rely on -/

namespace Verif.Docs

/-- `Ulid(123)`, `Ulid(456)`, `Ulid(789)` increase. -/
structure Values.Increasing {NP EP : Type} (v : Values NP EP) : Prop where
  n12 : v.node1 < v.node2
  n23 : v.node2 < v.node3

/-- Two queries of the same kind about the same elements. -/
inductive SameQuery {Id : Type} : Query Id → Query Id → Prop
  | NodeProps {a b} (h : ∀ x, x ∈ a ↔ x ∈ b) : SameQuery (.NodeProps a) (.NodeProps b)
  | SPO {a b} (h : ∀ x, x ∈ a ↔ x ∈ b) : SameQuery (.SPO a) (.SPO b)
  | O {a b} (h : ∀ x, x ∈ a ↔ x ∈ b) : SameQuery (.O a) (.O b)
  | S {a b} (h : ∀ x, x ∈ a ↔ x ∈ b) : SameQuery (.S a) (.S b)
  | P {a b} (h : ∀ x, x ∈ a ↔ x ∈ b) : SameQuery (.P a) (.P b)
  | PO {a b} (h : ∀ x, x ∈ a ↔ x ∈ b) : SameQuery (.PO a) (.PO b)
  | SO {a b} (h : ∀ x, x ∈ a ↔ x ∈ b) : SameQuery (.SO a) (.SO b)
  | SP {a b} (h : ∀ x, x ∈ a ↔ x ∈ b) : SameQuery (.SP a) (.SP b)

end Verif.Docs
