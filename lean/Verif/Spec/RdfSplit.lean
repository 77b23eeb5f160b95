import Verif.Spec.RdfSled

/-!
# An RDF store whose names and data are in different databases

`RdfTripleStore::new(SledHashIndex::new(db1), SledTripleStore::new(db2, g))` (src/rdf.rs:62-68) takes an index and a store that need
not be on one `sled::Db`.  Each database then keeps, in a crash, a prefix of the calls made to it, and these are unrelated.
-/

namespace Verif

open Spec

namespace Spec

variable {NP EP : Type}

/-- Names that are not known are replaced by the ids they have. -/
def relabel (known : String → Bool) (idOf : String → Option Ulid) : Entity → Entity
  | .string s =>
    if known s then .string s
    else match idOf s with
      | some v => .ulid v
      | none => .string s
  | .ulid v => .ulid v

/-- `H` is `G` with its entities renamed. -/
structure Graph.Relabelled (f : Entity → Entity) (G H : Graph Entity NP EP) : Prop where
  nodes : ∀ e p, H.nodes e = some p ↔ ∃ e', f e' = e ∧ G.nodes e' = some p
  edges : ∀ t p, H.edges t = some p ↔ ∃ t' : Triple Entity, t'.map f = t ∧ G.edges t' = some p

end Spec

namespace RdfSled

variable {NP EP E : Type}

variable (cl : Codec String) (cr : Codec Ulid) (c : Codecs NP EP) (mN : NP → NP → NP) (mE : EP → EP → EP)

/-- The contents of the databases, one sled call after the other, while the calls `h` are made. -/
def moments : Rdf IndexDb (SledStore Ulid) → List (Op E Entity NP EP) → List RdfDb
  | r, [] => [dbOf r]
  | r, op :: h =>
    crashStates cl cr c mN mE r op ++ moments (r.call (SledIndex.impl cl cr) (SledStore.impl c mN mE) op).1 h

/-- `SplitReach n k r`: as `Reach`, but after a crash the names are those of one moment, the data those of another one. -/
inductive SplitReach (E : Type) (C : List Ulid) : Nat → Nat → Rdf IndexDb (SledStore Ulid) → Prop
  | new {n k : Nat} {u g : Gen Ulid} (h : NewIds cl cr c C n k u g { names := .empty, data := .empty }) :
      SplitReach E C n k (openOn { names := .empty, data := .empty } u g)
  | op {n k : Nat} {r : Rdf IndexDb (SledStore Ulid)} (op : Op E Entity NP EP) (hC : ∀ v ∈ ulids op.entities, v ∈ C)
      (h : SplitReach E C (n + op.draws) (k + op.creations) r) :
      SplitReach E C n k (r.call (SledIndex.impl cl cr) (SledStore.impl c mN mE) op).1
  | crash {n k n' k' : Nat} {r : Rdf IndexDb (SledStore Ulid)} (ops : List (Op E Entity NP EP))
      (hC : ∀ v ∈ explicitUlids ops, v ∈ C) (h : SplitReach E C (n' + draws ops) (k' + creations ops) r) {a b : RdfDb}
      (ha : a ∈ moments cl cr c mN mE r ops) (hb : b ∈ moments cl cr c mN mE r ops) {u g : Gen Ulid}
      (hi : NewIds cl cr c C n k u g { names := a.names, data := b.data }) :
      SplitReach E C n k (openOn { names := a.names, data := b.data } u g)

end RdfSled

end Verif
