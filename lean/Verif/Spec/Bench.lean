import Verif.Model.Bench
import Verif.Spec.Conformance

/-! # What the benchmarks are about -/

namespace Verif.Bench

open Spec

variable {NP EP : Type}

/-- the nodes `ids`, each with the property `p` -/
def nodesOnly (p : NP) (ids : List Ulid) : Graph Ulid NP EP where
  nodes x := if x ∈ ids then some p else none
  edges _ := none

/-- the edges `l`, each with its property -/
def edgesOnly (p : Triple Ulid → EP) (l : List (Triple Ulid)) : Graph Ulid NP EP where
  nodes _ := none
  edges t := if t ∈ l then some (p t) else none

end Verif.Bench
