import Verif.Model.RdfSled
import Verif.Spec.Rdf

/-!
# What a client of an RDF store on sled can do and see, crashes included

Only dispatch to the functions of the model, and what a crash may leave behind.
-/

namespace Verif

open Spec

variable {I S IX SX NP EP E : Type}

/-- Iteration shows the graph of `x`, and exactly its names can be looked up. -/
def Rdf.HoldsState (ix : BidirIndex I IX String Ulid) (st : StoreImpl S SX Ulid NP EP) (r : Rdf I S) (x : RdfState NP EP) :
    Prop :=
  r.Shows ix st x.graph ∧ ∀ s, (∃ v, r.lookupEntity (SX := SX) ix (.string s) = .ok v) ↔ x.known s = true

namespace Spec

/-- `es` are some of the names in the item of `src` that follows on those in `src'`. -/
def NextNames (src' src : Source E Entity NP EP) (es : List Entity) : Prop :=
  es = [] ∨
  (∃ a, src'.nodes ++ [.ok a] <+: src.nodes ∧ src'.edges = [] ∧ es <+: [a.1]) ∨
  ∃ a, src'.nodes = src.nodes ∧ src'.edges ++ [.ok a] <+: src.edges ∧ es <+: RdfState.parts a.1

/-- What a crash may leave of the operation `op` begun in `x`: all of it; or a part of the source, taken in without failure; and
then some of the names that were to be used next, but not what was to be done with them. -/
def RdfState.Cut (okN : NP → Bool) (okE : EP → Bool) (mN : NP → NP → NP) (mE : EP → EP → EP) (x x' : RdfState NP EP)
    (op : Op E Entity NP EP) : Prop :=
  x' = (x.step okN okE mN mE op).1 ∨
  match op with
  | .insertNode e _ => ∃ es, es <+: [e] ∧ x' = x.learn es
  | .mergeNode e _ => ∃ es, es <+: [e] ∧ x' = x.learn es
  | .insertEdge t _ => ∃ es, es <+: RdfState.parts t ∧ x' = x.learn es
  | .mergeEdge t _ => ∃ es, es <+: RdfState.parts t ∧ x' = x.learn es
  | .removeNode _ => x' = x
  | .removeEdge _ => x' = x
  | .extend src => ∃ src' es, Source.CutOff src' src ∧ NextNames src' src es ∧
      (x.step okN okE mN mE (.extend src')).2 = .done ∧ x' = (x.step okN okE mN mE (.extend src')).1.learn es
  | .merge src => ∃ src' es, Source.CutOff src' src ∧ NextNames src' src es ∧
      (x.step okN okE mN mE (.merge src')).2 = .done ∧ x' = (x.step okN okE mN mE (.merge src')).1.learn es

end Spec

namespace RdfSled

variable (cl : Codec String) (cr : Codec Ulid) (c : Codecs NP EP) (mN : NP → NP → NP) (mE : EP → EP → EP)

/-- the result of a function that works on one item -/
def single (m : Task Unit) (i : Ids) : Prog RdfDb (Ids × Except (LR Err E) Unit) :=
  (m i).bind (fun r => .ret (r.1, Rdf.tag r.2))

/-- The API function named by `op`, as a sequence of sled calls. -/
def prog (op : Op E Entity NP EP) : Ids → Prog RdfDb (Ids × Except (LR Err E) Unit) :=
  match op with
  | .insertNode e p => single (insertNode cl cr c e p)
  | .insertEdge t p => single (insertEdge cl cr c t p)
  | .removeNode e => single (removeNode cl cr e)
  | .removeEdge t => single (removeEdge cl cr t)
  | .mergeNode e p => single (mergeNode cl cr c mN e p)
  | .mergeEdge t p => single (mergeEdge cl cr c mE t p)
  | .extend src => extend cl cr c src
  | .merge src => merge cl cr c mN mE src

/-- the database an RDF store works on -/
def dbOf (r : Rdf IndexDb (SledStore Ulid)) : RdfDb := { names := r.nameIndex, data := r.graph.db }

/-- its supplies of ids -/
def idsOf (r : Rdf IndexDb (SledStore Ulid)) : Ids := { ulid := r.ulid, gen := r.graph.gen }

/-- What can be left in the database if the process is killed, or sled fails, during a call. -/
def crashStates (r : Rdf IndexDb (SledStore Ulid)) (op : Op E Entity NP EP) : List RdfDb :=
  (prog cl cr c mN mE op (idsOf r)).states (dbOf r)

/-- The next `k` ids of `u` are different; none of them names anything, occurs in the graph, or is in `C`.  The next `n` ids of
`g` are different, and no edge has its properties under them. -/
structure NewIds (C : List Ulid) (n k : Nat) (u g : Gen Ulid) (d : RdfDb) : Prop where
  ulids : Fresh k u
  names : ∀ j < k, (SledIndex.impl cl cr).rightToLeft d.names (u j) = .ok none
  nodes : ∀ j < k, ∀ p, .ok (u j, p) ∉ Sled.iterVertices Ulid c d.data
  edges : ∀ j < k, ∀ t p, .ok (t, p) ∈ Sled.iterEdges Ulid c d.data .SPO → t.sub ≠ u j ∧ t.pred ≠ u j ∧ t.obj ≠ u j
  explicit : ∀ v ∈ C, ∀ j < k, u j ≠ v
  gens : Fresh n g
  records : SledStore.Unused n 0 g u d.data

/-- `Reach n k r`: `r` is an RDF store that a client can hold, having created it on an empty database and made any API calls,
closed the database and opened it again any number of times, whether regularly or after a crash in the middle of any call.
The explicitly given ULIDs are in `C`.  The next `n` ids of the generator and `k` of `Ulid::new()` are different from those in
use. -/
inductive Reach (E : Type) (C : List Ulid) : Nat → Nat → Rdf IndexDb (SledStore Ulid) → Prop
  | new {n k : Nat} {u g : Gen Ulid} (h : NewIds cl cr c C n k u g { names := .empty, data := .empty }) :
      Reach E C n k (openOn { names := .empty, data := .empty } u g)
  | op {n k : Nat} {r : Rdf IndexDb (SledStore Ulid)} (op : Op E Entity NP EP) (hC : ∀ v ∈ ulids op.entities, v ∈ C)
      (h : Reach E C (n + op.draws) (k + op.creations) r) :
      Reach E C n k (r.call (SledIndex.impl cl cr) (SledStore.impl c mN mE) op).1
  | reopen {n k n' k' : Nat} {r : Rdf IndexDb (SledStore Ulid)} {u g : Gen Ulid} (h : Reach E C n' k' r)
      (hi : NewIds cl cr c C n k u g (dbOf r)) : Reach E C n k (openOn (dbOf r) u g)
  | crash {n k n' k' : Nat} {r : Rdf IndexDb (SledStore Ulid)} (op : Op E Entity NP EP)
      (hC : ∀ v ∈ ulids op.entities, v ∈ C) (h : Reach E C (n' + op.draws) (k' + op.creations) r) {d : RdfDb}
      (hd : d ∈ crashStates cl cr c mN mE r op) {u g : Gen Ulid} (hi : NewIds cl cr c C n k u g d) :
      Reach E C n k (openOn d u g)

end RdfSled

end Verif
