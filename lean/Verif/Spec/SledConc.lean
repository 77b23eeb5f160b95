import Verif.Spec.SledApi

/-!
# Concurrent use of a sled database

Any number of threads, each with its own handle (`SledTripleStore`) on the same database, call API functions.  A call is
the sequence of sled calls it makes (`Prog`); `Steps` interleaves those of different threads in any way, and lets any call
fail with a storage error.
-/

namespace Verif

open Spec ConcreteId

variable {Id NP EP E : Type} [LinearOrder Id] [ConcreteId Id]

/-- An API call; `i`, `u`, `g`: the ids its generator, or `Ulid::new()`, will return.

`removeNodeScan`: a call of `remove_node` that has made its two range scans, with the results `fwd` and `bwd`.  The scans
of sled are lazy, so in the presence of other threads the items of a scan may have been read at different moments. -/
inductive Sled.Call (E Id NP EP : Type) where
  | insertNode (n : Id) (p : NP)
  | insertEdge (i : Id) (t : Triple Id) (p : EP)
  | removeNode (n : Id)
  | removeNodeScan (n : Id) (fwd bwd : List (Bytes × Bytes))
  | removeEdge (t : Triple Id)
  | mergeNode (n : Id) (p : NP)
  | mergeEdge (i : Id) (t : Triple Id) (p : EP)
  | extend (u : Gen Ulid) (src : Source E Id NP EP)
  | merge (g : Gen Id) (src : Source E Id NP EP)

namespace Sled.Call

/-- the program of a call, dropping its result -/
def prog (c : Codecs NP EP) (mN : NP → NP → NP) (mE : EP → EP → EP) : Call E Id NP EP → Prog Db Unit
  | .insertNode n p => (Sled.insertNode c n p).bind (fun _ => .ret ())
  | .insertEdge i t p => (Sled.insertEdge c i t p).bind (fun _ => .ret ())
  | .removeNode n => (Sled.removeNode n).bind (fun _ => .ret ())
  | .removeNodeScan n fwd bwd => (Sled.removeNodeScanned n fwd bwd).bind (fun _ => .ret ())
  | .removeEdge t => (Sled.removeEdge t).bind (fun _ => .ret ())
  | .mergeNode n p => (Sled.mergeNode c mN n p).bind (fun _ => .ret ())
  | .mergeEdge i t p => (Sled.mergeEdge c mE i t p).bind (fun _ => .ret ())
  | .extend u src => (Sled.extend c u src).bind (fun _ => .ret ())
  | .merge g src => (Sled.merge c mN mE g src).bind (fun _ => .ret ())

/-- the edges a bulk operation may write, with the ids drawn for them -/
def drawnFor {J : Type} [LinearOrder J] [ConcreteId J] (g : Gen J) :
    List (Except E (Triple Id × EP)) → List (Bytes × Triple Id)
  | [] => []
  | .error _ :: _ => []
  | .ok x :: l => ((toBeBytes (Gen.fresh g).1).1, x.1) :: drawnFor (Gen.fresh g).2 l

/-- the edges a call may write, with the ids drawn for them -/
def writes : Call E Id NP EP → List (Bytes × Triple Id)
  | .insertEdge i t _ => [((toBeBytes i).1, t)]
  | .mergeEdge i t _ => [((toBeBytes i).1, t)]
  | .extend u src => drawnFor u src.edges
  | .merge g src => drawnFor g src.edges
  | _ => []

/-- `remove_edge t` -/
def Removes (t : Triple Id) : Call E Id NP EP → Prop
  | .removeEdge t' => t' = t
  | _ => False

/-- `extend` -/
def IsExtend : Call E Id NP EP → Prop
  | .extend _ _ => True
  | _ => False

end Sled.Call

/-- the state of the process at the start -/
def Sled.start (c : Codecs NP EP) (mN : NP → NP → NP) (mE : EP → EP → EP) (d : Db)
    (threads : List (List (Sled.Call E Id NP EP))) : Db × List (List (Prog Db Unit)) :=
  (d, threads.map (List.map (Sled.Call.prog c mN mE)))

/-- The database `d` is a possible one at some moment while the threads run. -/
def Sled.Moment (c : Codecs NP EP) (mN : NP → NP → NP) (mE : EP → EP → EP) (d0 : Db)
    (threads : List (List (Sled.Call E Id NP EP))) (d : Db) : Prop :=
  ∃ rest, Steps (Sled.start c mN mE d0 threads) (d, rest)

/-- everything the threads may write: edges, with the ids drawn for them -/
def Sled.allWrites (threads : List (List (Sled.Call E Id NP EP))) : List (Bytes × Triple Id) :=
  threads.flatten.flatMap Sled.Call.writes

/-- The ids drawn by all the threads are distinct, and unused in the database. -/
def Sled.DistinctIds (d0 : Db) (threads : List (List (Sled.Call E Id NP EP))) : Prop :=
  ((Sled.allWrites threads).map Prod.fst).Nodup ∧ ∀ x ∈ Sled.allWrites threads, d0.edgeProps.get x.1 = none

/-- What a scan of `remove_node` has seen was in the database at the start or was written by some thread. -/
def Sled.ScansSeen (d0 : Db) (threads : List (List (Sled.Call E Id NP EP))) : Prop :=
  ∀ th ∈ threads, ∀ n fwd bwd, Sled.Call.removeNodeScan n fwd bwd ∈ th →
    (∀ e ∈ fwd, d0.spo.get e.1 = some e.2 ∨ ∃ t, (e.2, t) ∈ Sled.allWrites threads ∧ e.1 = (encodeSpo t).1) ∧
    ∀ e ∈ bwd, d0.osp.get e.1 = some e.2 ∨ ∃ t, (e.2, t) ∈ Sled.allWrites threads ∧ e.1 = (encodeOsp t).1

/-- No thread calls `remove_edge t` while another may write the edge `t`. -/
def Sled.NoRace (threads : List (List (Sled.Call E Id NP EP))) : Prop :=
  threads.Pairwise (fun th th' => ∀ x ∈ th, ∀ y ∈ th', ∀ t,
    (x.Removes t → ∀ v, (v, t) ∉ y.writes) ∧ (y.Removes t → ∀ v, (v, t) ∉ x.writes))

/-- All threads have finished all their calls, no call having failed with a storage error, and left `d`. -/
def Sled.Final (c : Codecs NP EP) (mN : NP → NP → NP) (mE : EP → EP → EP) (d0 : Db)
    (threads : List (List (Sled.Call E Id NP EP))) (d : Db) : Prop :=
  ∃ rest, CalmSteps (Sled.start c mN mE d0 threads) (d, rest) ∧ ∀ th ∈ rest, th = []

namespace Spec

/-- The list is an interleaving of the given lists; `part`: some elements may have been dropped. -/
inductive Shuffle {α : Type} (part : Bool) : List (List α) → List α → Prop
  | nil (ls : List (List α)) (h : ∀ l ∈ ls, l = []) : Shuffle part ls []
  | take (pre post : List (List α)) (a : α) (l h : List α) :
      Shuffle part (pre ++ l :: post) h → Shuffle part (pre ++ (a :: l) :: post) (a :: h)
  | drop (pre post : List (List α)) (a : α) (l h : List α) :
      part = true → Shuffle part (pre ++ l :: post) h → Shuffle part (pre ++ (a :: l) :: post) h

/-- the items of an iterator before its first error -/
def oks {E α : Type} : List (Except E α) → List α
  | .ok a :: l => a :: oks l
  | _ => []

/-- whether an iterator yields an error -/
def fails {E α : Type} : List (Except E α) → Bool
  | .ok _ :: l => fails l
  | .error _ :: _ => true
  | [] => false

end Spec

/-- The atomic operations of a call: `merge` is as many operations as there are items. -/
def Sled.Call.ops : Sled.Call E Id NP EP → List (Op E Id NP EP)
  | .insertNode n p => [.insertNode n p]
  | .insertEdge _ t p => [.insertEdge t p]
  | .removeNode n => [.removeNode n]
  | .removeNodeScan n _ _ => [.removeNode n]
  | .removeEdge t => [.removeEdge t]
  | .mergeNode n p => [.mergeNode n p]
  | .mergeEdge _ t p => [.mergeEdge t p]
  | .extend _ src => [.extend src]
  | .merge _ src =>
    (oks src.nodes).map (fun x => .mergeNode x.1 x.2) ++
      if fails src.nodes then [] else (oks src.edges).map (fun x => .mergeEdge x.1 x.2)

/-- neither `remove_node` nor `extend` -/
def Sled.Call.Simple : Sled.Call E Id NP EP → Prop
  | .removeNode _ | .removeNodeScan _ _ _ | .extend _ _ => False
  | _ => True

/-- All orderings list the same triples with the same ids, each in its order. -/
def Sled.Consistent (Id : Type) [LinearOrder Id] [ConcreteId Id] (d : Db) : Prop :=
  ∃ ids : Triple Id → Option Bytes, ∀ o, ∃ l, Sled.orderedEdges Id d o = l.map .ok ∧ Lists (edgeLT o) ids l

end Verif
