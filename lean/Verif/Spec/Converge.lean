import Verif.Spec.RdfWorld
import Verif.Spec.SledSessions

/-!
# What stores have heard

If merging is a join, what a store shows should depend only on what it has been told, not on the order, on how often, or by whom.
-/

namespace Verif

namespace Spec

/-- `f` joins values: neither order nor repetition matters -/
structure Joins {α : Type} (f : α → α → α) : Prop where
  comm : ∀ a b, f a b = f b a
  assoc : ∀ a b c, f (f a b) c = f a (f b c)
  idem : ∀ a, f a a = a

/-- the least value above (`f a v = v`: `v` is above `a`) all values in `S`; none if there are none -/
def Lub {α : Type} (f : α → α → α) (S : α → Prop) : Option α → Prop
  | none => ∀ a, ¬ S a
  | some v => (∃ a, S a) ∧ (∀ a, S a → f a v = v) ∧ ∀ w, (∀ a, S a → f a w = w) → f v w = w

/-- something a store may be told -/
inductive Fact (K NP EP : Type) where
  | node (n : K) (p : NP)
  | edge (t : Triple K) (p : EP)

section
variable {K NP EP E : Type}

/-- `G` is what all the facts amount to. -/
def Sums (mN : NP → NP → NP) (mE : EP → EP → EP) (F : Fact K NP EP → Prop) (G : Graph K NP EP) : Prop :=
  (∀ n, Lub mN (fun p => F (.node n p)) (G.nodes n)) ∧ ∀ t, Lub mE (fun p => F (.edge t p)) (G.edges t)

/-- what a graph tells -/
def Graph.facts (G : Graph K NP EP) : Fact K NP EP → Prop
  | .node n p => G.nodes n = some p
  | .edge t p => G.edges t = some p

/-- what a source tells before its first error -/
def Source.facts (src : Source E K NP EP) : Fact K NP EP → Prop
  | .node n p => (n, p) ∈ Source.nodePrefix src
  | .edge t p => (t, p) ∈ Source.edgePrefix src

/-- what an operation that merges tells a store; `none`: it is another operation -/
def Op.told : Op E K NP EP → Option (Fact K NP EP → Prop)
  | .mergeNode n p => some (fun x => x = .node n p)
  | .mergeEdge t p => some (fun x => x = .edge t p)
  | .merge src => some (Source.facts src)
  | _ => none

/-! ## Programs -/

/-- what happens in a program where stores are only told something -/
inductive Talk (K NP EP : Type) where
  | newMem (v : Nat)
  | openSled (v b : Nat)
  | drop (v : Nat)
  | tell (v : Nat) (F : Fact K NP EP → Prop)
  | feed (v w : Nat)

/-- a variable has heard something itself, or refers to what a database has -/
inductive HeardPlace (K NP EP : Type) where
  | own (F : Fact K NP EP → Prop)
  | on (b : Nat)

/-- what everybody has heard -/
structure Hearsay (K NP EP : Type) where
  dbs : Nat → Fact K NP EP → Prop
  vars : Nat → Option (HeardPlace K NP EP)

namespace Hearsay

def setVar (H : Hearsay K NP EP) (v : Nat) (p : Option (HeardPlace K NP EP)) : Hearsay K NP EP :=
  { H with vars := Function.update H.vars v p }

def heard (H : Hearsay K NP EP) : HeardPlace K NP EP → Fact K NP EP → Prop
  | .own F => F
  | .on b => H.dbs b

/-- who has heard what `p` has hears `F` -/
def hear (H : Hearsay K NP EP) (v : Nat) (F : Fact K NP EP → Prop) : HeardPlace K NP EP → Hearsay K NP EP
  | .own F₀ => H.setVar v (some (.own (fun x => F₀ x ∨ F x)))
  | .on b => { H with dbs := Function.update H.dbs b (fun x => H.dbs b x ∨ F x) }

def step (H : Hearsay K NP EP) : Talk K NP EP → Hearsay K NP EP
  | .newMem v => H.setVar v (some (.own (fun _ => False)))
  | .openSled v b => H.setVar v (some (.on b))
  | .drop v => H.setVar v none
  | .tell v F =>
    match H.vars v with
    | none => H
    | some p => H.hear v F p
  | .feed v w =>
    match H.vars w with
    | none => H
    | some q =>
      if v = w then H
      else
        match H.vars v with
        | none => H.setVar w none
        | some p => (H.setVar w none).hear v (H.heard q) p

end Hearsay
end

section
variable {E Id NP EP : Type}

/-- what a command tells whom; `none`: it is another command -/
def Cmd.talk : Cmd E Id NP EP → Option (Talk Id NP EP)
  | .newMem v _ => some (.newMem v)
  | .openSled v b _ => some (.openSled v b)
  | .drop v => some (.drop v)
  | .call v op => op.told.map (.tell v)
  | .merge v w => some (.feed v w)
  | _ => none

/-- everybody knows only what they show -/
def Hearsay.of (S : World Id NP EP) : Hearsay Id NP EP :=
  { dbs := fun b => (S.dbs b).facts
    vars := fun v => (S.vars v).map (fun p => match p with | .own G => .own G.facts | .on b => .on b) }

/-- Every store shows what it has heard. -/
def Knows [LinearOrder Id] [ConcreteId Id] (c : Codecs NP EP) (mN : NP → NP → NP) (mE : EP → EP → EP) (W : Verif.World Id NP EP)
    (H : Hearsay Id NP EP) : Prop :=
  (∀ b, ∃ G, Sums mN mE (H.dbs b) G ∧ Shows (Sled.obs c (W.dbs b)) G) ∧
  ∀ v, match W.vars v, H.vars v with
    | none, none => True
    | some (.mem _ s), some (.own F) => ∃ G, Sums mN mE F G ∧ Shows s.obs G
    | some (.sled _ b), some (.on b') => b = b'
    | _, _ => False

/-- the same for programs with RDF stores -/
def RdfCmd.talk : RdfCmd E NP EP → Option (Talk Entity NP EP)
  | .newMem v _ => some (.newMem v)
  | .openSled v b _ => some (.openSled v b)
  | .drop v => some (.drop v)
  | .call v op => op.told.map (.tell v)
  | .merge v w => some (.feed v w)
  | _ => none

def Hearsay.ofRdf (S : RdfWorld NP EP) : Hearsay Entity NP EP :=
  { dbs := fun b => (S.dbs b).graph.facts
    vars := fun v => (S.vars v).map (fun p => match p with | .own x => .own x.graph.facts | .on b => .on b) }

def RdfKnows (cl : Codec String) (cr : Codec Ulid) (c : Codecs NP EP) (mN : NP → NP → NP) (mE : EP → EP → EP) (W : Verif.RdfWorld NP EP)
    (H : Hearsay Entity NP EP) : Prop :=
  (∀ k b, ∃ G, Sums mN mE (H.dbs b) G ∧ (W.sledStore k b).Shows (SledIndex.impl cl cr) (SledStore.impl c mN mE) G) ∧
  ∀ v, match W.vars v, H.vars v with
    | none, none => True
    | some (.mem k i s), some (.own F) => ∃ G, Sums mN mE F G ∧ (W.memStore k i s).Shows MemIndex.impl (Mem.impl mN mE) G
    | some (.sled _ b), some (.on b') => b = b'
    | _, _ => False

end

end Spec

/-! ## Threads and processes -/

namespace Sled

open Spec

variable {E Id NP EP : Type}

/-- what a call tells the database; `none`: it is another call -/
def Call.told : Call E Id NP EP → Option (Fact Id NP EP → Prop)
  | .mergeNode n p => some (fun x => x = .node n p)
  | .mergeEdge _ t p => some (fun x => x = .edge t p)
  | .merge _ src => some (Source.facts src)
  | _ => none

/-- the process tells the database this -/
def Session.Tells (s : Session E Id NP EP) (x : Fact Id NP EP) : Prop := ∃ th ∈ s.threads, ∃ y ∈ th, ∃ F, y.1.told = some F ∧ F x

end Sled

end Verif
