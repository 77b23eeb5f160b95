import Verif.Spec.SledFrame
import Verif.Spec.SledRemove

/-!
# Threads that also call `extend`

`extend` is not one transaction, not even one per item: here it counts as one operation per item.
-/

namespace Verif

open Spec ConcreteId

variable {Id NP EP E : Type} [LinearOrder Id] [ConcreteId Id]

namespace Sled

/-- The atomic operations of a call: `extend` and `merge` are as many operations as there are items. -/
def Call.items : Call E Id NP EP → List (Op E Id NP EP)
  | .extend _ src =>
    (oks src.nodes).map (fun x => .insertNode x.1 x.2) ++
      if fails src.nodes then [] else (oks src.edges).map (fun x => .insertEdge x.1 x.2)
  | x => x.ops

/-- Some thread calls `extend` with the edge. -/
def Extended (threads : List (List (Call E Id NP EP))) (t : Triple Id) : Prop :=
  ∃ th ∈ threads, ∃ x ∈ th, x.IsExtend ∧ x.TouchesEdge t

end Sled

end Verif
