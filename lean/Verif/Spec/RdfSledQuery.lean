import Verif.Spec.RdfSledScan
import Verif.Model.RdfSledQuery

/-!
# When a query on an RDF store reads what

First the names in the query are looked up, one after the other; then the triple store is read; then the names of the ids in the result
are looked up.
-/

namespace Verif

namespace RdfSled

/-- The names in the query are looked up at the moments `ask 0`, `ask 1`, …, not after the moment `b`; the triple store is read from
the moment `b` to the moment `e`; the names in the result are looked up at the moments `tell 0`, `tell 1`, …, not before the
moment `e`.  `q'`: what the query on the triple store asks for. -/
structure Asked (D : Nat → RdfDb) (ask : Nat → Nat) (b e : Nat) (tell : Nat → Nat) (q' : Query Ulid) (ρ : Sled.Reads) : Prop where
  order : b ≤ e
  names : ∀ k, ask k ≤ b
  data : Sled.Asked (fun m => (D (min (b + m) e)).data) q' ρ
  result : ∀ k, e ≤ tell k

end RdfSled

end Verif
