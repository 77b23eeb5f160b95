import Verif.Spec.SledFrame
import Verif.Model.SledScan

/-!
# Reading a sled database while others write to it

sled's iterators are not snapshots: an entry is read from the tree when `next` is called, or earlier, with other entries of the
same leaf.  The property record of an edge is looked up in another tree after that.
-/

namespace Verif

open Spec ConcreteId

variable {Id NP EP E : Type} [LinearOrder Id] [ConcreteId Id]

/-- `D 0`, `D 1`, …: the database at successive moments of one execution of the threads. -/
def Sled.Moments (c : Codecs NP EP) (mN : NP → NP → NP) (mE : EP → EP → EP) (d0 : Db)
    (threads : List (List (Sled.Call E Id NP EP))) (D : Nat → Db) : Prop :=
  ∃ X : Nat → Db × List (List (Prog Db Unit)), Steps (Sled.start c mN mE d0 threads) (X 0) ∧
    (∀ m, Steps (X m) (X (m + 1))) ∧ ∀ m, D m = (X m).1

/-- The key comes after `cur`, if there is one. -/
def Sled.After (cur : Option Bytes) (k : Bytes) : Prop :=
  match cur with
  | none => True
  | some k0 => k0 < k

/-- A complete traversal, after `cur`, of the part of a tree within the bounds, `T m` being the tree at the moment `m`.  Every entry
is read at some moment (given with it); these moments follow one another.  A key is passed over only if it was absent at some moment
in between. -/
inductive Sled.Scan (T : Nat → Tree) (b : Bound Bytes × Bound Bytes) : Nat → Option Bytes → List (Nat × Bytes × Bytes) → Prop
  | done {m : Nat} {cur : Option Bytes}
      (h : ∀ k, Sled.After cur k → Bound.contains b k → ∃ m', m ≤ m' ∧ (T m').get k = none) : Scan T b m cur []
  | next {m m' : Nat} {cur : Option Bytes} {k v : Bytes} {l : List (Nat × Bytes × Bytes)}
      (hm : m ≤ m') (hk : Sled.After cur k) (hb : Bound.contains b k) (hv : (T m').get k = some v)
      (h : ∀ k', Sled.After cur k' → k' < k → Bound.contains b k' → ∃ m'', m ≤ m'' ∧ m'' ≤ m' ∧ (T m'').get k' = none)
      (rest : Scan T b m' (some k) l) : Scan T b m cur ((m', k, v) :: l)

/-- an entry of an ordering: the moments when it and its record were read, its key and its value -/
structure Sled.Seen where
  scan : Nat
  look : Nat
  key : Bytes
  id : Bytes

/-- A complete traversal of an ordering within bounds, each entry with a later moment at which its record is looked up. -/
structure Sled.Reading (D : Nat → Db) (o : EdgeOrder) (b : Bound Bytes × Bound Bytes) (l : List Sled.Seen) : Prop where
  scan : Sled.Scan (fun m => (D m).tree o) b 0 none (l.map (fun x => (x.scan, x.key, x.id)))
  later : ∀ x ∈ l, x.scan ≤ x.look

/-- Only `insert_edge` calls touch the edge. -/
def Sled.OnlyInserted (threads : List (List (Sled.Call E Id NP EP))) (t : Triple Id) : Prop :=
  ∀ th ∈ threads, ∀ x ∈ th, x.TouchesEdge t → ∃ i p, x = .insertEdge i t p

/-- No `remove_node` call has the node as its argument. -/
def Sled.NodeKept (threads : List (List (Sled.Call E Id NP EP))) (n : Id) : Prop :=
  ∀ th ∈ threads, ∀ x ∈ th, x ≠ .removeNode n ∧ ∀ f b, x ≠ .removeNodeScan n f b

/-- how many look-ups a query makes at most in each ordering -/
def Sled.Reads.size (ρ : Sled.Reads) : Nat := ρ.points.length + (ρ.ranges.map List.length).sum

/-- What `run` may see when `D 0`, `D 1`, … are the contents of the database at successive moments. -/
structure Sled.Asked (D : Nat → Db) (q : Query Id) (ρ : Sled.Reads) : Prop where
  nodes : ∀ d ∈ ρ.nodes, ∃ m, d = D m
  nodesLen : ∀ ids, q = .NodeProps ids → ρ.nodes.length = ids.length
  points : ∀ x ∈ ρ.points, ∃ m m', m ≤ m' ∧ x = (D m, D m')
  pointsLen : ∀ ts, q = .SPO ts → ρ.points.length = ts.length
  ranges : List.Forall₂ (fun b x => ∃ l, Sled.Reading D b.1 b.2 l ∧ x = l.map (fun e => (D e.look, e.key, e.id)))
    (Sled.ranges q) ρ.ranges

end Verif
