import Verif.Model.SledTx
import Verif.Spec.RdfSledLoose
import Verif.Spec.SledRemove
import Verif.Spec.History

/-!
# Processes whose transactions are run by sled as it likes
-/

namespace Verif

open Spec ConcreteId

/-- Every step of the function is an `insert`, a `remove`, or a read on one tree, or a transaction with one of the closures. -/
def Prog.MadeOf {S T X α : Type} [Trees S T] (closures : Tx T X → Prop) : Prog S α → Prop
  | .ret _ => True
  | .call f k => (Tx.Plain f k ∨ ∃ b back, closures b ∧ Tx.Performs b back f k) ∧ ∀ s, (k s).MadeOf closures

namespace Tx

variable {S T X α : Type} [DecidableEq T] [Trees S T]

/-- `s'` is a possible state at some moment while the threads run. -/
def Moment (closures : Tx T X → Prop) (s : S) (threads : List (List (Prog S α))) (s' : S) : Prop :=
  ∃ rest, FineSteps closures false (s, threads.map idle) (s', rest)

/-- All threads have finished, no call having failed with a storage error, and left `s'`. -/
def Final (closures : Tx T X → Prop) (s : S) (threads : List (List (Prog S α))) (s' : S) : Prop :=
  ∃ rest, FineSteps closures true (s, threads.map idle) (s', rest) ∧ ∀ th ∈ rest, th = idle []

/-- A process goes through the states `y 0`, …, `y N`, one step at a time; `part`: calls may fail with storage errors. -/
def Course (closures : Tx T X → Prop) (part : Bool) (y : Nat → S × List (Thread S T X α)) (N : Nat) : Prop :=
  ∀ k < N, Fine closures (!part) (y k) (y (k + 1))

/-- What the threads in transactions have read is what the trees hold. -/
def AllValid (x : S × List (Thread S T X α)) : Prop := ∀ th ∈ x.2, ∀ y, th.1 = some y → y.over.Valid x.1

end Tx

end Verif
