import Verif.Spec.SledConc

/-! # Well-formed database contents, and the results of concurrent calls -/

namespace Verif

open Spec ConcreteId

variable {Id NP EP E : Type} [LinearOrder Id] [ConcreteId Id]

/-- Every key has the size of what it stands for, and every value is the serialization of something. -/
structure Sled.WellFormed (Id : Type) [LinearOrder Id] [ConcreteId Id] (c : Codecs NP EP) (d : Db) : Prop where
  nodes : ∀ k b, d.nodeProps.get k = some b → k.length = idLen (Id := Id) ∧ ∃ p, c.n.ser p = some b
  recs : ∀ k b, d.edgeProps.get k = some b → ∃ p, c.e.ser p = some b
  keys : ∀ o k v, (d.tree o).get k = some v → k.length = tripleLen (Id := Id)

namespace Sled.Call

/-- the program of a call, with its result -/
def result (c : Codecs NP EP) (mN : NP → NP → NP) (mE : EP → EP → EP) :
    Call E Id NP EP → Prog Db (Except (LR SErr E) Unit)
  | .insertNode n p => (Sled.insertNode c n p).bind (fun r => .ret (SledStore.tag r))
  | .insertEdge i t p => (Sled.insertEdge c i t p).bind (fun r => .ret (SledStore.tag r))
  | .removeNode n => (Sled.removeNode n).bind (fun r => .ret (SledStore.tag r))
  | .removeNodeScan n fwd bwd => (Sled.removeNodeScanned n fwd bwd).bind (fun r => .ret (SledStore.tag r))
  | .removeEdge t => (Sled.removeEdge t).bind (fun r => .ret (SledStore.tag r))
  | .mergeNode n p => (Sled.mergeNode c mN n p).bind (fun r => .ret (SledStore.tag r))
  | .mergeEdge i t p => (Sled.mergeEdge c mE i t p).bind (fun r => .ret (SledStore.tag r))
  | .extend u src => (Sled.extend c u src).bind (fun r => .ret r.2)
  | .merge g src => (Sled.merge c mN mE g src).bind (fun r => .ret r.2)

/-- the call writes properties it has to serialize -/
def Writes : Call E Id NP EP → Prop
  | .removeNode _ | .removeNodeScan _ _ _ | .removeEdge _ => False
  | _ => True

/-- the error is one that the source of the call yields -/
def Yields (e : E) : Call E Id NP EP → Prop
  | .extend _ src | .merge _ src => .error e ∈ src.nodes ∨ .error e ∈ src.edges
  | _ => False

/-- What a call may return: success, an error of its source, or that something could not be serialized. -/
inductive Returns (c : Codecs NP EP) (x : Call E Id NP EP) : Except (LR SErr E) Unit → Prop
  | ok : Returns c x (.ok ())
  | source {e : E} (h : x.Yields e) : Returns c x (.error (.right e))
  | unserializable (h : x.Writes) (hp : (∃ p, c.n.ser p = none) ∨ ∃ p, c.e.ser p = none) :
      Returns c x (.error (.left .serialization))

end Sled.Call

/-- the scans of `remove_node` have read keys of the right size -/
def Sled.ScansSized (threads : List (List (Sled.Call E Id NP EP))) : Prop :=
  ∀ th ∈ threads, ∀ n fwd bwd, Sled.Call.removeNodeScan n fwd bwd ∈ th →
    ∀ e ∈ fwd ++ bwd, e.1.length = tripleLen (Id := Id)

end Verif
