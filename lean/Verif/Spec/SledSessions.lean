import Verif.Spec.SledLoose

/-!
# One process after the other

A database outlives the processes that use it: each runs its threads, and ends in between when it crashes.
-/

namespace Verif

open Spec ConcreteId

variable {Id NP EP E : Type} [LinearOrder Id] [ConcreteId Id]

namespace Sled

/-- a process: what its threads call, and whether it crashes -/
structure Session (E Id NP EP : Type) where
  crash : Bool
  threads : List (List (PieceCall E Id NP EP))

/-- what it may make of the database: anything that is there at some moment if it crashes, otherwise what is there in the end -/
def Session.Leads (c : Codecs NP EP) (mN : NP → NP → NP) (mE : EP → EP → EP) (d : Db) (s : Session E Id NP EP) (d' : Db) : Prop :=
  match s.crash with
  | true => MomentP c mN mE d s.threads d'
  | false => FinalP c mN mE d s.threads d'

/-- the threads of all processes -/
def everyCall (ss : List (Session E Id NP EP)) : List (List (Call E Id NP EP)) := ss.flatMap (fun s => calls s.threads)

/-- Two threads touch the edge, one of them by `extend`. -/
def ExtendRaced (threads : List (List (Call E Id NP EP))) (t : Triple Id) : Prop :=
  ¬ threads.Pairwise (fun th th' => ∀ x ∈ th, ∀ y ∈ th', x.IsExtend ∨ y.IsExtend → ¬ (x.TouchesEdge t ∧ y.TouchesEdge t))

/-- The edge may be in some orderings only when the process has ended: it crashed while the edge was written by `extend`, or
its threads raced. -/
def Session.Breaks (s : Session E Id NP EP) (t : Triple Id) : Prop :=
  EdgeRaced (calls s.threads) t ∨ if s.crash then Extended (calls s.threads) t else ExtendRaced (calls s.threads) t

/-- What the processes may make of a graph, `B` being the edges which are in some orderings only: each does its operations one by
one, or some of them if it crashes, and `remove_node` may leave what it may leave in a race, and edges in `B` to the node. -/
def LooseSessions (okN : NP → Bool) (okE : EP → Bool) (mN : NP → NP → NP) (mE : EP → EP → EP) :
    (Triple Id → Prop) → Graph Id NP EP → List (Session E Id NP EP) → Graph Id NP EP → Prop
  | _, G, [], G' => G' = G
  | B, G, s :: ss, G'' => ∃ h G', Shuffle s.crash ((calls s.threads).map (List.flatMap Call.items)) h ∧
      Runs (LooseStep okN okE mN mE (FromRaced (calls s.threads)) (fun t => B t ∨ ToRaced (calls s.threads) t)) G h G' ∧
      LooseSessions okN okE mN mE (fun t => B t ∨ s.Breaks t) G' ss G''

end Sled

end Verif
