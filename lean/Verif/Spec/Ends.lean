import Verif.Spec.SledTx

/-!
# That calls come to an end

How many steps a function makes at most, and when a transaction is run again.
-/

namespace Verif

open Spec ConcreteId

/-- Whatever the calls of sled find, the function makes at most `n` of them. -/
def Prog.AtMost {S α : Type} : Nat → Prog S α → Prop
  | _, .ret _ => True
  | 0, .call _ _ => False
  | n + 1, .call _ k => ∀ s, (k s).AtMost n

/-- Whatever the calls of sled find, the function makes at least `n` of them. -/
def Prog.AtLeast {S α : Type} : Nat → Prog S α → Prop
  | 0, _ => True
  | _ + 1, .ret _ => False
  | n + 1, .call _ k => ∀ s, (k s).AtLeast n

namespace Sled

variable {Id NP EP E : Type}

/-- The largest number of calls of sled which an API call makes. -/
def PieceCall.cost (x : PieceCall E Id NP EP) : Nat :=
  match x.1 with
  | .removeNode _ => (x.2.1.length + 1) + (x.2.2.length + 1) + 1
  | .removeEdge _ => 5
  | .extend _ src => (oks src.nodes).length + if fails src.nodes then 0 else 5 * (oks src.edges).length
  | .merge _ src => (oks src.nodes).length + if fails src.nodes then 0 else (oks src.edges).length
  | _ => 1

end Sled

namespace RdfSled

variable {NP EP E : Type}

/-- how many names there are among the entities -/
def namesIn : List Entity → Nat
  | [] => 0
  | .string _ :: l => namesIn l + 1
  | .ulid _ :: l => namesIn l

/-- The largest number of calls of sled which an API call makes: one to look up a name, one more to create it; and those of the
triple store. -/
def PieceCall.cost (x : PieceCall E NP EP) : Nat :=
  match x.1.op with
  | .removeNode e => namesIn [e] + ((x.2.1.length + 1) + (x.2.2.length + 1) + 1)
  | .removeEdge t => namesIn (RdfState.parts t) + 5
  | .insertNode e _ => 2 * namesIn [e] + 1
  | .mergeNode e _ => 2 * namesIn [e] + 1
  | .insertEdge t _ => 2 * namesIn (RdfState.parts t) + 1
  | .mergeEdge t _ => 2 * namesIn (RdfState.parts t) + 1
  | .extend src | .merge src => ((oks src.nodes).map (fun y => 2 * namesIn [y.1] + 1)).sum +
      if fails src.nodes then 0 else ((oks src.edges).map (fun y => 2 * namesIn (RdfState.parts y.1) + 1)).sum

end RdfSled

/-- All that threads of calls may do: the calls of sled, and as many returns. -/
def Spec.work {C : Type} (cost : C → Nat) (threads : List (List C)) : Nat := (threads.map (fun th => (th.map (fun y => cost y + 1)).sum)).sum

namespace Tx

variable {S T X α : Type} [DecidableEq T] [Trees S T]

/-- A thread gives up a transaction, to run it again. -/
def GivesUp (x y : S × List (Thread S T X α)) (o : Overlay T) : Prop :=
  ∃ s pre post q z, x = (s, pre ++ (some z, q) :: post) ∧ y = (s, pre ++ (none, q) :: post) ∧ z.over = o

/-- It does so because something that it has read is not there any more. -/
def Conflict (x y : S × List (Thread S T X α)) : Prop := ∃ o, GivesUp x y o ∧ ¬ o.Valid x.1

/-- It does so for no reason. -/
def Spurious (x y : S × List (Thread S T X α)) : Prop := ∃ o, GivesUp x y o ∧ o.Valid x.1

end Tx

end Verif
