import Verif.Spec.Rdf

/-! # The order in which two RDF stores list the same graph -/

namespace Verif.Spec

variable {NP EP : Type}

/-- `e` comes before `e'`: its id is less. -/
def Before (f : String → Option Ulid) (e e' : Entity) : Prop := ∃ u u', Ref f e u ∧ Ref f e' u' ∧ u < u'

/-- `t` comes before `t'` in the order of their ids. -/
def BeforeT (f : String → Option Ulid) (t t' : Triple Entity) : Prop :=
  ∃ u u' : Triple Ulid, (Ref f t.sub u.sub ∧ Ref f t.pred u.pred ∧ Ref f t.obj u.obj) ∧
    (Ref f t'.sub u'.sub ∧ Ref f t'.pred u'.pred ∧ Ref f t'.obj u'.obj) ∧ edgeLT .SPO u u'

/-- Two namings put the nodes and edges of `H` in the same order. -/
def SameOrder (f f' : String → Option Ulid) (H : Graph Entity NP EP) : Prop :=
  (∀ e e', (H.nodes e).isSome → (H.nodes e').isSome → (Before f e e' ↔ Before f' e e')) ∧
  ∀ t t', (H.edges t).isSome → (H.edges t').isSome → (BeforeT f t t' ↔ BeforeT f' t t')

end Verif.Spec
