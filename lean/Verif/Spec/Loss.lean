import Verif.Spec.History
import Verif.Spec.RdfSledLoose

/-!
# Power losses

The crate never flushes a database, and sled writes to disk every now and then.  When the power fails, a database is as it was at some
earlier moment (sled has one log for all trees); then processes go on from there.
-/

namespace Verif

namespace Spec

/-- what happens to a database: a process runs its threads (`crash`: it need not come to the end), or the power fails -/
inductive Event (C : Type) where
  | process (crash : Bool) (threads : List (List C))
  | loss

/-- the moments of a database: what it has been, one state after the other; those which are lost are forgotten -/
inductive Trail {S C : Type} (prog : C → Prog S Unit) (d0 : S) : List (Event C) → List S → Prop
  | start : Trail prog d0 [] [d0]
  | process {es : List (Event C)} {ds : List S} {d : S} {crash : Bool} {threads : List (List C)} {x : Nat → S × List (List (Prog S Unit))}
      {N : Nat} : Trail prog d0 es ds → ds.getLast? = some d → Course crash x N → x 0 = (d, threads.map (List.map prog)) →
      (crash = false → ∀ th ∈ (x N).2, th = []) →
      Trail prog d0 (es ++ [.process crash threads]) (ds ++ (List.range (N + 1)).map (fun k => (x k).1))
  | loss {es : List (Event C)} {ds ds' : List S} : Trail prog d0 es ds → ds' <+: ds → ds' ≠ [] → Trail prog d0 (es ++ [.loss]) ds'

/-- What is left of processes, those before some point of time and perhaps the first part of one; its second part being lost, it
counts as crashed. -/
def CutOff {C : Type} (ss ss' : List (Bool × List (List C))) : Prop :=
  ∃ k, ss' = ss.take k ∨ ∃ th, (∃ crash, ss[k]? = some (crash, th)) ∧ ss' = ss.take k ++ [(true, th)]

/-- the processes whose work is still there, with the threads of each, and whether it counts as crashed -/
inductive Survive {C : Type} : List (Event C) → List (Bool × List (List C)) → Prop
  | start : Survive [] []
  | process {es : List (Event C)} {ss : List (Bool × List (List C))} {crash : Bool} {threads : List (List C)} : Survive es ss →
      Survive (es ++ [.process crash threads]) (ss ++ [(crash, threads)])
  | loss {es : List (Event C)} {ss ss' : List (Bool × List (List C))} : Survive es ss → CutOff ss ss' → Survive (es ++ [.loss]) ss'

/-- all processes -/
def processes {C : Type} (es : List (Event C)) : List (Bool × List (List C)) :=
  es.filterMap (fun e => match e with | .process crash threads => some (crash, threads) | .loss => none)

end Spec

/-- a process of a triple store -/
def Sled.Session.of {E Id NP EP : Type} (s : Bool × List (List (Sled.PieceCall E Id NP EP))) : Sled.Session E Id NP EP :=
  { crash := s.1, threads := s.2 }

/-- a process of an RDF store -/
def RdfSled.Session.of {E NP EP : Type} (s : Bool × List (List (RdfSled.PieceCall E NP EP))) : RdfSled.Session E NP EP :=
  { crash := s.1, threads := s.2 }

end Verif
