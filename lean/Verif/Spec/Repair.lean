import Verif.Spec.SledRace

/-!
# Edges one by one, in a database that may be in disorder
-/

namespace Verif.Spec

open ConcreteId

variable {Id NP EP E : Type} [LinearOrder Id] [ConcreteId Id]

/-- The edge is stored with these properties: all orderings have it, with the same id, and under this id is its record. -/
def Stored (c : Codecs NP EP) (d : Db) (t : Triple Id) (p : EP) : Prop :=
  ∃ v, (∀ o, d.idIn o t = some v) ∧ ∃ b, d.edgeProps.get v = some b ∧ c.e.de b = some p

/-- No ordering has the edge. -/
def Absent (d : Db) (t : Triple Id) : Prop := ∀ o, d.idIn o t = none

/-- The ids are different, and the ordering SPO has none of them yet. -/
def Unused (d : Db) (l : List (Bytes × Triple Id)) : Prop :=
  (l.map Prod.fst).Nodup ∧ ∀ x ∈ l, ∀ t : Triple Id, d.idIn .SPO t ≠ some x.1

/-- No other edge has the id of this edge, in any ordering. -/
def Alone (d : Db) (t : Triple Id) : Prop := ∀ o o' u, u ≠ t → ∀ v, d.idIn o t = some v → d.idIn o' u ≠ some v

end Verif.Spec
