import Verif.Model.Index
import Verif.Spec.SledApi

/-!
# Specification of bidirectional indices

An index is meant to be a finite one-to-one relation between names and ids.
-/

namespace Verif

variable {I X L R : Type}

namespace BidirIndex

/-- `set` for each pair in turn, whatever the results. -/
def sets (ix : BidirIndex I X L R) (i : I) (l : List (L × R)) : I := l.foldl (fun i x => (ix.set i x.1 x.2).1) i

/-- None of these `set` calls fails. -/
def AllOk (ix : BidirIndex I X L R) : I → List (L × R) → Prop
  | _, [] => True
  | i, x :: l => (ix.set i x.1 x.2).2 = .ok () ∧ AllOk ix (ix.set i x.1 x.2).1 l

/-- Look-ups find exactly the pairs in `l`, in both directions, and fail for nothing that can be looked up at all
(`okL`, `okR`). -/
structure Lists (ix : BidirIndex I X L R) (okL : L → Prop) (okR : R → Prop) (i : I) (l : List (L × R)) : Prop where
  left : ∀ a b, ix.leftToRight i a = .ok (some b) ↔ (a, b) ∈ l
  right : ∀ a b, ix.rightToLeft i b = .ok (some a) ↔ (a, b) ∈ l
  leftTotal : ∀ a, okL a → ∃ o, ix.leftToRight i a = .ok o
  rightTotal : ∀ b, okR b → ∃ o, ix.rightToLeft i b = .ok o

/-- No id has two names and no name two ids. -/
def _root_.Verif.Spec.OneToOne (l : List (L × R)) : Prop := ∀ x ∈ l, ∀ y ∈ l, x.1 = y.1 ↔ x.2 = y.2

/-- The index answers all look-ups from the partial map `f` and its inverse. -/
def Shows (ix : BidirIndex I X L R) (i : I) (f : L → Option R) : Prop :=
  (∀ a, ix.leftToRight i a = .ok (f a)) ∧
  ∀ b, ∃ o, ix.rightToLeft i b = .ok o ∧ ∀ a, o = some a ↔ f a = some b

/-- What a client may rely on: a new name can be given to a new id, which changes no other look-up. -/
def Lawful [DecidableEq L] (ix : BidirIndex I X L R) : Prop :=
  ∀ i f a b, ix.Shows i f → f a = none → (∀ a', f a' ≠ some b) →
    ∃ i', ix.set i a b = (i', .ok ()) ∧ ix.Shows i' (fun a' => if a' = a then some b else f a')

end BidirIndex

/-- every value can be serialized -/
def Codec.Total {P : Type} (c : Codec P) : Prop := ∀ p, (c.ser p).isSome

/-- the value can be serialized -/
def Codec.Can {P : Type} (c : Codec P) (p : P) : Prop := (c.ser p).isSome

/-- the kind of conflict an error reports, and the values it names, without their order -/
inductive Spec.Conflict (L R : Type) where
  | right (l : L) (old new : R)
  | left (r : R) (old new : L)

/-- `MemHashIndex` puts the new value first -/
def MemIndexErr.conflict : MemIndexErr L R → Spec.Conflict L R
  | .duplicateRight l new old => .right l old new
  | .duplicateLeft r new old => .left r old new

/-- `SledHashIndex` puts the old value first -/
def SledIndexErr.conflict : SledIndexErr L R → Option (Spec.Conflict L R)
  | .duplicateRight l old new => some (.right l old new)
  | .duplicateLeft r old new => some (.left r old new)
  | _ => none

end Verif
