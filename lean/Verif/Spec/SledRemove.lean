import Verif.Spec.SledConc
import Verif.Model.SledRemove

/-!
# Threads that also call `remove_node`

An API call, and the sizes of the pieces in which its range scans read the orderings if it is a `remove_node`.
-/

namespace Verif

open Spec ConcreteId

variable {Id NP EP E : Type} [LinearOrder Id] [ConcreteId Id]

namespace Sled

abbrev PieceCall (E Id NP EP : Type) := Call E Id NP EP × List Nat × List Nat

/-- the program of a call, dropping its result -/
def PieceCall.prog (c : Codecs NP EP) (mN : NP → NP → NP) (mE : EP → EP → EP) (x : PieceCall E Id NP EP) : Prog Db Unit :=
  match x.1 with
  | .removeNode n => (removeNodePieces x.2.1 x.2.2 n).bind (fun _ => .ret ())
  | y => y.prog c mN mE

/-- the calls without the sizes -/
def calls (threads : List (List (PieceCall E Id NP EP))) : List (List (Call E Id NP EP)) := threads.map (List.map Prod.fst)

/-- The database `d` is a possible one at some moment while the threads run. -/
def MomentP (c : Codecs NP EP) (mN : NP → NP → NP) (mE : EP → EP → EP) (d0 : Db)
    (threads : List (List (PieceCall E Id NP EP))) (d : Db) : Prop :=
  ∃ rest, Steps (d0, threads.map (List.map (PieceCall.prog c mN mE))) (d, rest)

/-- All threads have finished all their calls, no call having failed with a storage error, and left `d`. -/
def FinalP (c : Codecs NP EP) (mN : NP → NP → NP) (mE : EP → EP → EP) (d0 : Db)
    (threads : List (List (PieceCall E Id NP EP))) (d : Db) : Prop :=
  ∃ rest, CalmSteps (d0, threads.map (List.map (PieceCall.prog c mN mE))) (d, rest) ∧ ∀ th ∈ rest, th = []

/-- anything but `extend` (and a `remove_node` that is half done) -/
def Call.Whole : Call E Id NP EP → Prop
  | .removeNodeScan _ _ _ | .extend _ _ => False
  | _ => True

/-- No thread calls `remove_node n` while another may write an edge from or to `n`. -/
def NoNodeRace (threads : List (List (Call E Id NP EP))) : Prop :=
  threads.Pairwise (fun th th' => ∀ x ∈ th, ∀ y ∈ th', ∀ n (t : Triple Id), t.sub = n ∨ t.obj = n →
    (x = .removeNode n → ∀ v, (v, t) ∉ y.writes) ∧ (y = .removeNode n → ∀ v, (v, t) ∉ x.writes))

end Sled

end Verif
