import Verif.Spec.Reads

/-!
# What calls do to one ordering

For the final state of an ordering when calls race on the same edges.
-/

namespace Verif

open Spec ConcreteId

variable {Id NP EP E : Type} [LinearOrder Id] [ConcreteId Id]

namespace Spec

/-- An edge is entered into an ordering with an id, or taken out of it. -/
inductive Ev (Id : Type) where
  | put (v : Bytes) (t : Triple Id)
  | del (t : Triple Id)

/-- the edge it is about -/
def Ev.About (t : Triple Id) : Ev Id → Prop
  | .put _ u => u = t
  | .del u => u = t

/-- the entries of an ordering after an event -/
def Ev.on (b : Triple Id → Option Bytes) : Ev Id → Triple Id → Option Bytes
  | .put v t, u => if u = t then some v else b u
  | .del t, u => if u = t then none else b u

/-- every stored value can be read -/
def Decodable (c : Codecs NP EP) (d : Db) : Prop :=
  (∀ k b, d.nodeProps.get k = some b → (c.n.de b).isSome) ∧ ∀ k b, d.edgeProps.get k = some b → (c.e.de b).isSome

end Spec

namespace Sled.Call

/-- what a call does to the orderings, all values being serializable; `remove_node` is left out -/
def events : Call E Id NP EP → List (Ev Id)
  | .insertEdge i t _ => [.put (be i) t]
  | .mergeEdge i t _ => [.put (be i) t]
  | .removeEdge t => [.del t]
  | .extend u src => if fails src.nodes then [] else (drawnFor u src.edges).map (fun x => .put x.1 x.2)
  | .merge g src => if fails src.nodes then [] else (drawnFor g src.edges).map (fun x => .put x.1 x.2)
  | _ => []

/-- The call removes no node of the edge. -/
def Spares (t : Triple Id) : Call E Id NP EP → Prop
  | .removeNode n => t.sub ≠ n ∧ t.obj ≠ n
  | .removeNodeScan n _ _ => t.sub ≠ n ∧ t.obj ≠ n
  | _ => True

/-- What the scans of `remove_node` have returned are keys that begin with the node. -/
def Scans : Call E Id NP EP → Prop
  | .removeNodeScan n fwd bwd => ∀ e, e ∈ fwd ∨ e ∈ bwd → be n <+: e.1
  | _ => True

/-- The call may write the edge. -/
def MayWrite (t : Triple Id) (x : Call E Id NP EP) : Prop := ∃ v, (v, t) ∈ x.writes

end Sled.Call

end Verif
