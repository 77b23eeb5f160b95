import Verif.Model.UlidGen

/-! # What may happen to a ULID generator -/

namespace Verif.UlidGen

/-- `generate` fails in the `k`-th call. -/
def Overflows (env : Nat → Reading × Reading) (k : Nat) : Prop := (generate (state env k) (env k).1).2 = none

/-- The clock shows, in the first `n'` calls on one generator, a later time than in all of the first `n` calls on another. -/
def Later (env : Nat → Reading × Reading) (n : Nat) (env' : Nat → Reading × Reading) (n' : Nat) : Prop :=
  ∀ i < n, ∀ j < n', (env i).1.ms < (env' j).1.ms

end Verif.UlidGen
