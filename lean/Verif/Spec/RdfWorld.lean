import Verif.Model.RdfWorld
import Verif.Spec.World

/-!
# What programs with many RDF stores are to do

A variable holds a graph over entities and the names in use, or refers to those of a database.
-/

namespace Verif.Spec

variable {E NP EP : Type}

/-- `e` occurs in the graph -/
def Mentions (H : Graph Entity NP EP) (e : Entity) : Prop :=
  (H.nodes e).isSome ∨ ∃ t, (H.edges t).isSome ∧ e ∈ RdfState.parts t

/-- what is known after the graph has been taken in -/
noncomputable def RdfState.hear (known : String → Bool) (H : Graph Entity NP EP) (s : String) : Bool :=
  open Classical in known s || decide (Mentions H (.string s))

inductive RdfPlace (NP EP : Type) where
  | own (x : RdfState NP EP)
  | on (b : Nat)

structure RdfWorld (NP EP : Type) where
  dbs : Nat → RdfState NP EP
  vars : Nat → Option (RdfPlace NP EP)

/-- the outcome of a call when every value can be serialized -/
def RdfOutcome.res : RdfOutcome E → RdfRes E
  | .done => .done
  | .unserializable => .failed
  | .unknown s => .unknown s
  | .source e => .source e

namespace RdfWorld

def start : RdfWorld NP EP := { dbs := fun _ => .empty, vars := fun _ => none }

def setVar (S : RdfWorld NP EP) (v : Nat) (p : Option (RdfPlace NP EP)) : RdfWorld NP EP :=
  { S with vars := Function.update S.vars v p }

/-- what a variable shows -/
def state (S : RdfWorld NP EP) : RdfPlace NP EP → RdfState NP EP
  | .own x => x
  | .on b => S.dbs b

/-- what a variable shows becomes `x` -/
def setState (S : RdfWorld NP EP) (v : Nat) (x : RdfState NP EP) : RdfPlace NP EP → RdfWorld NP EP
  | .own _ => S.setVar v (some (.own x))
  | .on b => { S with dbs := Function.update S.dbs b x }

/-- `w` is consumed, `f` takes its graph into that of `v`, and `v` knows the names in it -/
noncomputable def feed (S : RdfWorld NP EP) (v w : Nat) (f : Graph Entity NP EP → Graph Entity NP EP → Graph Entity NP EP) :
    RdfWorld NP EP × RdfRes E :=
  match S.vars w with
  | none => (S, .noStore)
  | some q =>
    if v = w then (S, .noStore)
    else
      match S.vars v with
      | none => (S.setVar w none, .noStore)
      | some p => ((S.setVar w none).setState v
          { known := RdfState.hear (S.state p).known (S.state q).graph, graph := f (S.state p).graph (S.state q).graph } p, .done)

/-- a query: all its names have to be known, and no name may occur twice in the answer -/
noncomputable def query (S : RdfWorld NP EP) (v : Nat) (q : Query Entity) (r : Nat) : RdfWorld NP EP × RdfRes E :=
  match S.vars v with
  | none => (S, .noStore)
  | some p =>
    match (S.state p).unknown (queryEntities q) with
    | some s => (S, .unknown s)
    | none =>
      open Classical in
      if NamesOnce (select (S.state p).graph q) then
        (S.setVar r (some (.own { known := RdfState.hear (fun _ => false) (select (S.state p).graph q),
                                  graph := select (S.state p).graph q })), .done)
      else (S, .twice)

noncomputable def step (mN : NP → NP → NP) (mE : EP → EP → EP) (S : RdfWorld NP EP) : RdfCmd E NP EP → RdfWorld NP EP × RdfRes E
  | .newMem v _ => (S.setVar v (some (.own .empty)), .done)
  | .openSled v b _ => (S.setVar v (some (.on b)), .done)
  | .drop v => (S.setVar v none, .done)
  | .call v op =>
    match S.vars v with
    | none => (S, .noStore)
    | some p =>
      let y := (S.state p).step (fun _ => true) (fun _ => true) mN mE op
      (S.setState v y.1 p, y.2.res)
  | .extend v w => S.feed v w .overlay
  | .merge v w => S.feed v w (.mergeWith mN mE)
  | .run v q r _ => S.query v q r

noncomputable def exec (mN : NP → NP → NP) (mE : EP → EP → EP) :
    RdfWorld NP EP → List (RdfCmd E NP EP) → RdfWorld NP EP × List (RdfRes E)
  | S, [] => (S, [])
  | S, x :: l =>
    let r := S.step mN mE x
    let r' := exec mN mE r.1 l
    (r'.1, r.2 :: r'.2)

end RdfWorld

/-- The RDF store shows the graph, and knows just these names. -/
def RdfShows {I S IX SX : Type} (ix : BidirIndex I IX String Ulid) (st : StoreImpl S SX Ulid NP EP) (r : Rdf I S)
    (x : RdfState NP EP) : Prop :=
  r.Shows ix st x.graph ∧ ∀ s, (∃ u, r.lookupEntity (SX := SX) ix (.string s) = .ok u) ↔ x.known s = true

/-- The stores of `W` show the graphs of `S`. -/
def RdfAgrees (cl : Codec String) (cr : Codec Ulid) (c : Codecs NP EP) (mN : NP → NP → NP) (mE : EP → EP → EP)
    (W : Verif.RdfWorld NP EP) (S : RdfWorld NP EP) : Prop :=
  (∀ k b, RdfShows (SledIndex.impl cl cr) (SledStore.impl c mN mE) (W.sledStore k b) (S.dbs b)) ∧
  ∀ v, match W.vars v, S.vars v with
    | none, none => True
    | some (.mem k i s), some (.own x) => RdfShows MemIndex.impl (Mem.impl mN mE) (W.memStore k i s) x
    | some (.sled _ b), some (.on b') => b = b'
    | _, _ => False

/-! ## How many ids a program may draw -/

section
variable (cl : Codec String) (cr : Codec Ulid) (c : Codecs NP EP) (mN : NP → NP → NP) (mE : EP → EP → EP)

/-- the generator of a store -/
def genOf : RdfHeld NP EP → Nat
  | .mem k _ _ => k
  | .sled k _ => k

/-- `n` ids of the generator of `v` and `m` ids of names -/
def rdfCosts (W : Verif.RdfWorld NP EP) (v n m : Nat) : Costs :=
  match W.vars v with
  | none => (fun _ => 0, 0)
  | some h => ((costs (genOf h) n).1, m)

/-- the number of nodes and edges `v` shows -/
def sizes (W : Verif.RdfWorld NP EP) (v : Nat) : Nat × Nat :=
  match W.vars v with
  | none => (0, 0)
  | some h => W.withSource cl cr c mN mE (fun src => (src.nodes.length, src.edges.length)) h

/-- what is fed from `w` to `v` -/
def rdfFeedCosts (W : Verif.RdfWorld NP EP) (v w : Nat) : Costs :=
  let n := sizes cl cr c mN mE W w
  rdfCosts W v n.2 (n.1 + 3 * n.2)

def rdfCmdCosts (W : Verif.RdfWorld NP EP) : RdfCmd E NP EP → Costs
  | .newMem _ _ => (fun _ => 0, 0)
  | .openSled _ _ _ => (fun _ => 0, 0)
  | .drop _ => (fun _ => 0, 0)
  | .call v op => rdfCosts W v op.draws op.creations
  | .extend v w => rdfFeedCosts cl cr c mN mE W v w
  | .merge v w => rdfFeedCosts cl cr c mN mE W v w
  | .run v _ _ k => costs k (sizes cl cr c mN mE W v).2

def rdfProgCosts : Verif.RdfWorld NP EP → List (RdfCmd E NP EP) → Costs
  | _, [] => (fun _ => 0, 0)
  | W, x :: l =>
    let r := rdfProgCosts (W.step cl cr c mN mE x).1 l
    (fun k => r.1 k + (rdfCmdCosts cl cr c mN mE W x).1 k, r.2 + (rdfCmdCosts cl cr c mN mE W x).2)

end

/-- the ULIDs which a command gives explicitly -/
def RdfCmd.ulids : RdfCmd E NP EP → List Ulid
  | .call _ op => Spec.ulids op.entities
  | .run _ q _ _ => Spec.ulids (queryEntities q)
  | _ => []

/-- The ids to be drawn are different where they have to be: those of one generator, those of all generators which are used
with one database, those of names; and no name gets one of the ULIDs in `K`. -/
structure RdfApart (uses : Nat → Nat → Prop) (K : List Ulid) (C : Costs) (gens : Nat → Gen Ulid) (names : Gen Ulid) : Prop where
  gen : ∀ k, Fresh (C.1 k) (gens k)
  name : Fresh C.2 names
  cross : ∀ b k k', uses b k → uses b k' → ∀ i < C.1 k, ∀ j < C.1 k', gens k i = gens k' j → k = k'
  explicit : ∀ u ∈ K, ∀ j < C.2, names j ≠ u

/-- the program uses generator `k` with database `b` -/
def RdfUses (l : List (RdfCmd E NP EP)) (b k : Nat) : Prop := ∃ v, .openSled v b k ∈ l

end Verif.Spec
