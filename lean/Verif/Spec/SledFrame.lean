import Verif.Spec.SledConc

/-! # Which edges and nodes a concurrent call touches -/

namespace Verif

open Spec ConcreteId

variable {Id NP EP E : Type} [LinearOrder Id] [ConcreteId Id]

/-- The call may write or remove the edge. -/
def Sled.Call.TouchesEdge (t : Triple Id) : Sled.Call E Id NP EP → Prop
  | .insertNode _ _ => False
  | .insertEdge _ u _ => t = u
  | .removeNode n => t.sub = n ∨ t.obj = n
  | .removeNodeScan n _ _ => t.sub = n ∨ t.obj = n
  | .removeEdge u => t = u
  | .mergeNode _ _ => False
  | .mergeEdge _ u _ => t = u
  | .extend _ src => ∃ p, .ok (t, p) ∈ src.edges
  | .merge _ src => ∃ p, .ok (t, p) ∈ src.edges

/-- The call may write or remove the node. -/
def Sled.Call.TouchesNode (n : Id) : Sled.Call E Id NP EP → Prop
  | .insertNode m _ => n = m
  | .insertEdge _ _ _ => False
  | .removeNode m => n = m
  | .removeNodeScan m _ _ => n = m
  | .removeEdge _ => False
  | .mergeNode m _ => n = m
  | .mergeEdge _ _ _ => False
  | .extend _ src => ∃ p, .ok (n, p) ∈ src.nodes
  | .merge _ src => ∃ p, .ok (n, p) ∈ src.nodes

/-- a call of `remove_node` that has made its scans -/
def Sled.Call.IsScan : Sled.Call E Id NP EP → Prop
  | .removeNodeScan _ _ _ => True
  | _ => False

/-- What a scan of `remove_node n` has seen are edges at `n`, with ids which were in the database at the start or were drawn
for that edge by some thread. -/
def Sled.ScansOf (d0 : Db) (threads : List (List (Sled.Call E Id NP EP))) : Prop :=
  ∀ th ∈ threads, ∀ n fwd bwd, Sled.Call.removeNodeScan n fwd bwd ∈ th →
    (∀ e ∈ fwd, ∃ t : Triple Id, t.sub = n ∧ e.1 = (encodeSpo t).1 ∧
      (d0.spo.get e.1 = some e.2 ∨ (e.2, t) ∈ Sled.allWrites threads)) ∧
    ∀ e ∈ bwd, ∃ t : Triple Id, t.obj = n ∧ e.1 = (encodeOsp t).1 ∧
      (d0.osp.get e.1 = some e.2 ∨ (e.2, t) ∈ Sled.allWrites threads)

/-- Every edge and every node is touched by one thread at most. -/
def Sled.Apart (threads : List (List (Sled.Call E Id NP EP))) : Prop :=
  threads.Pairwise (fun th th' => ∀ x ∈ th, ∀ y ∈ th',
    (∀ t, ¬ (x.TouchesEdge t ∧ y.TouchesEdge t)) ∧ ∀ n, ¬ (x.TouchesNode n ∧ y.TouchesNode n))

/-- An edge that an `extend` of one thread writes is not touched by the other threads. -/
def Sled.ExtendsAlone (threads : List (List (Sled.Call E Id NP EP))) : Prop :=
  threads.Pairwise (fun th th' => ∀ x ∈ th, ∀ y ∈ th', x.IsExtend ∨ y.IsExtend → ∀ t, ¬ (x.TouchesEdge t ∧ y.TouchesEdge t))

end Verif
