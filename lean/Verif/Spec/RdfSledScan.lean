import Verif.Spec.RdfSledLoose
import Verif.Spec.SledScan

/-!
# Reading an RDF store on sled while others write to it

An item of `iter_edges` is made in steps: an entry is read from an ordering, then its property record, then the names of the three
ids, one by one.  Others may write between these.
-/

namespace Verif

open Spec ConcreteId

variable {Id NP EP E : Type}

/-- The id is one of a node, or occurs in a key of some ordering. -/
def Sled.Uses [LinearOrder Id] [ConcreteId Id] (d : Db) (u : Id) : Prop :=
  d.nodeProps.get (toBeBytes u).1 ≠ none ∨
    ∃ (o : EdgeOrder) (t : Triple Id), (d.tree o).get (encOf o t).1 ≠ none ∧ (u = t.sub ∨ u = t.pred ∨ u = t.obj)

namespace RdfSled

/-- `D 0`, `D 1`, …: the database at successive moments of one execution of the threads. -/
def Moments (cl : Codec String) (cr : Codec Ulid) (c : Codecs NP EP) (mN : NP → NP → NP) (mE : EP → EP → EP) (d0 : RdfDb)
    (threads : List (List (PieceCall E NP EP))) (D : Nat → RdfDb) : Prop :=
  ∃ X : Nat → RdfDb × List (List (Prog RdfDb Unit)),
    Steps (d0, threads.map (List.map (PieceCall.prog cl cr c mN mE))) (X 0) ∧ (∀ m, Steps (X m) (X (m + 1))) ∧ ∀ m, D m = (X m).1

/-- The ids which the calls may give to names do not occur in the triple store at the start, nor are they given as arguments. -/
structure FreshNames (d : Db) (xs : List (Call E NP EP)) : Prop where
  unused : ∀ u ∈ xs.flatMap Call.ulids, ¬ Sled.Uses d u
  given : ∀ u ∈ xs.flatMap Call.ulids, ∀ x ∈ xs, u ∉ ulids x.op.entities

/-- an entry of an ordering: the moments when it, its record, and the names of its subject, predicate and object were read -/
structure Seen extends Sled.Seen where
  sub : Nat
  pred : Nat
  obj : Nat

/-- A complete traversal of an ordering, each entry with the moments of the look-ups that follow. -/
structure Reading (D : Nat → RdfDb) (o : EdgeOrder) (l : List Seen) : Prop where
  data : Sled.Reading (fun m => (D m).data) o (.unbounded, .unbounded) (l.map Seen.toSeen)
  names : ∀ x ∈ l, x.look ≤ x.sub ∧ x.sub ≤ x.pred ∧ x.pred ≤ x.obj

/-- a traversal of the nodes: with each entry the moment at which its name is looked up -/
structure NodeReading (D : Nat → RdfDb) (l : List (Nat × (Nat × Bytes × Bytes))) : Prop where
  data : Sled.Scan (fun m => (D m).data.nodeProps) (.unbounded, .unbounded) 0 none (l.map Prod.snd)
  names : ∀ x ∈ l, x.2.1 ≤ x.1

/-- The call does not remove the edge, or one of its ends, and does not merge into it.  (`f`: the names when the process was
started.) -/
def Call.Spares (f : String → Option Ulid) (t : Triple Ulid) (x : Call E NP EP) : Prop :=
  match x.op with
  | .removeNode e => idIn f e ≠ some t.sub ∧ idIn f e ≠ some t.obj
  | .removeEdge t' => tripleIn f t' ≠ some t
  | .mergeEdge t' _ => tripleIn f t' ≠ some t
  | .merge src => ∀ y ∈ oks src.edges, tripleIn f y.1 ≠ some t
  | _ => True

/-- The call does not remove the node. -/
def Call.Leaves (f : String → Option Ulid) (n : Ulid) (x : Call E NP EP) : Prop :=
  ∀ e, x.op = .removeNode e → idIn f e ≠ some n

end RdfSled

end Verif
