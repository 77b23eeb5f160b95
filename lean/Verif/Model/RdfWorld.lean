import Verif.Model.World
import Verif.Model.RdfSled
import Verif.Spec.Rdf

/-!
# Programs with many RDF stores

A client holds any number of RDF stores (src/rdf.rs:44-53), in memory (`MemHashIndex`, `MemTripleStore`) and on sled
databases (`SledHashIndex`, `SledTripleStore`), feeds them into one another, queries them and goes on working with the
answers, which are in-memory RDF stores (src/rdf/query.rs:26-75).  Stores on one database share its trees of names and
of triples (src/sled.rs:157-178, 366-374); all stores take the ids of names from `Ulid::new()` (src/rdf.rs:84).

Generators are numbered as in `Model/World.lean`.  The generator of an answer is a clone, of which the command tells the
number; a clone of a `UlidIdGenerator` is a new generator (src/id/ulid.rs:120-122), so that what a query which fails has
drawn from it is gone with it.

`extend` and `merge` of two stores on one database take the contents as they are at the start; that this is what happens
although the loops write to the trees they read from is C83.
-/

namespace Verif

open Spec

/-- The outcome of a command. -/
inductive RdfRes (E : Type) where
  | done
  /-- the error is one of the source -/
  | source (e : E)
  /-- a name is unknown -/
  | unknown (s : String)
  /-- a query found a name twice -/
  | twice
  /-- any other error -/
  | failed
  /-- not a program: there is no such store -/
  | noStore
deriving DecidableEq

namespace RdfRes

def ofCall {IX SX E : Type} : Except (LR (RdfErr IX SX) E) Unit → RdfRes E
  | .ok () => .done
  | .error (.left (.nameNotFound s)) => .unknown s
  | .error (.left _) => .failed
  | .error (.right e) => .source e

/-- if the source is a store, its errors are not told from others -/
def blur {F E : Type} : RdfRes F → RdfRes E
  | .done => .done
  | .noStore => .noStore
  | _ => .failed

def ofRun {IX SX QX E : Type} : Rdf.RunErr IX SX QX → RdfRes E
  | .left (.nameNotFound s) => .unknown s
  | .right (.nameIndex (.duplicateRight _ _ _)) => .twice
  | _ => .failed

end RdfRes

/-- What a variable holds. -/
inductive RdfHeld (NP EP : Type) where
  /-- an RDF store in memory with generator `k`; the stream in `s` itself is ignored -/
  | mem (k : Nat) (i : MemIndex String Ulid) (s : Mem Ulid NP EP)
  /-- an RDF store on database `b` with generator `k` -/
  | sled (k b : Nat)

structure RdfWorld (NP EP : Type) where
  /-- what each generator is going to yield -/
  gens : Nat → Gen Ulid
  /-- what `Ulid::new()` is going to yield -/
  names : Gen Ulid
  /-- the contents of each database -/
  dbs : Nat → RdfDb
  vars : Nat → Option (RdfHeld NP EP)

/-- What a client can do.  `v`, `w`, `r` are variables, `b` is a database, `k` a generator. -/
inductive RdfCmd (E NP EP : Type) where
  /-- `v = RdfTripleStore::new(MemHashIndex::new(), MemTripleStore::new(k))` -/
  | newMem (v k : Nat)
  /-- `v = RdfTripleStore::new(SledHashIndex::new(&b), SledTripleStore::new(&b, k))` -/
  | openSled (v b k : Nat)
  | drop (v : Nat)
  /-- one of the eight mutations, `extend` and `merge` with anything whatever -/
  | call (v : Nat) (op : Op E Entity NP EP)
  /-- `v.extend(w)` -/
  | extend (v w : Nat)
  /-- `v.merge(w)` -/
  | merge (v w : Nat)
  /-- `r = v.run(q)`, the clone of the generator being `k` -/
  | run (v : Nat) (q : Query Entity) (r k : Nat)

namespace RdfWorld

variable {E NP EP : Type}

/-- no stores, empty databases -/
def start (gens : Nat → Gen Ulid) (names : Gen Ulid) : RdfWorld NP EP :=
  { gens := gens, names := names, dbs := fun _ => ⟨.empty, .empty⟩, vars := fun _ => none }

def setVar (W : RdfWorld NP EP) (v : Nat) (h : Option (RdfHeld NP EP)) : RdfWorld NP EP :=
  { W with vars := Function.update W.vars v h }

/-- `v` becomes the in-memory store `r` with generator `k`, which goes on with the stream in `r` -/
def putMem (W : RdfWorld NP EP) (v k : Nat) (r : Rdf (MemIndex String Ulid) (Mem Ulid NP EP)) : RdfWorld NP EP :=
  { W with
    gens := Function.update W.gens k r.graph.gen
    names := r.ulid
    vars := Function.update W.vars v (some (.mem k r.nameIndex r.graph)) }

/-- The store in a variable. -/
def memStore (W : RdfWorld NP EP) (k : Nat) (i : MemIndex String Ulid) (s : Mem Ulid NP EP) :
    Rdf (MemIndex String Ulid) (Mem Ulid NP EP) :=
  { nameIndex := i, graph := { s with gen := W.gens k }, ulid := W.names }

/-- The store on a database.  (The functions of `SledTripleStore` which an RDF store calls do not call `Ulid::new()`, only
its own `extend` does, src/sled/extend.rs; its stream is immaterial.) -/
def sledStore (W : RdfWorld NP EP) (k b : Nat) : Rdf IndexDb (SledStore Ulid) :=
  { nameIndex := (W.dbs b).names, graph := { db := (W.dbs b).data, gen := W.gens k, ulid := W.names }, ulid := W.names }

variable (cl : Codec String) (cr : Codec Ulid) (c : Codecs NP EP) (mN : NP → NP → NP) (mE : EP → EP → EP)

/-- The call named by `op`. -/
def call (W : RdfWorld NP EP) (v : Nat) (op : Op E Entity NP EP) : RdfWorld NP EP × RdfRes E :=
  match W.vars v with
  | none => (W, .noStore)
  | some (.mem k i s) =>
    let r := (W.memStore k i s).call MemIndex.impl (Mem.impl mN mE) op
    (W.putMem v k r.1, .ofCall r.2)
  | some (.sled k b) =>
    let r := (W.sledStore k b).call (SledIndex.impl cl cr) (SledStore.impl c mN mE) op
    ({ W with
        gens := Function.update W.gens k r.1.graph.gen
        names := r.1.ulid
        dbs := Function.update W.dbs b ⟨r.1.nameIndex, r.1.graph.db⟩ }, .ofCall r.2)

/-- Call `f` with what `h.into_iter_nodes(SPO)` yields (src/rdf/extend.rs:20, src/rdf/merge.rs:20). -/
def withSource {α : Type} (W : RdfWorld NP EP) (f : {F : Type} → Source F Entity NP EP → α) : RdfHeld NP EP → α
  | .mem k i s => f ((W.memStore k i s).intoIterNodes MemIndex.impl (Mem.impl mN mE) .SPO)
  | .sled k b => f ((W.sledStore k b).intoIterNodes (SledIndex.impl cl cr) (SledStore.impl c mN mE) .SPO)

/-- `extend` or `merge`, consuming `w`. -/
def feed (W : RdfWorld NP EP) (v w : Nat) (op : {F : Type} → Source F Entity NP EP → Op F Entity NP EP) :
    RdfWorld NP EP × RdfRes E :=
  match W.vars w with
  | none => (W, .noStore)
  | some h =>
    if v = w then (W, .noStore)
    else W.withSource cl cr c mN mE
      (fun src => let r := (W.setVar w none).call cl cr c mN mE v (op src); (r.1, r.2.blur)) h

/-- `run` -/
def query (W : RdfWorld NP EP) (v : Nat) (q : Query Entity) (r k : Nat) : RdfWorld NP EP × RdfRes E :=
  match W.vars v with
  | none => (W, .noStore)
  | some (.mem k' i s) =>
    match (W.memStore k' i s).run MemIndex.impl Mem.runImpl (Mem.impl mN mE) (W.gens k) W.names q with
    | .ok res => (W.putMem r k res, .done)
    | .error e => (W, .ofRun e)
  | some (.sled k' b) =>
    match (W.sledStore k' b).run (SledIndex.impl cl cr) (SledStore.runImpl c) (Mem.impl mN mE) (W.gens k) W.names q with
    | .ok res => (W.putMem r k res, .done)
    | .error e => (W, .ofRun e)

/-- One command. -/
def step (W : RdfWorld NP EP) : RdfCmd E NP EP → RdfWorld NP EP × RdfRes E
  | .newMem v k => (W.putMem v k (.new .new (.new (W.gens k)) W.names), .done)
  | .openSled v b k => (W.setVar v (some (.sled k b)), .done)
  | .drop v => (W.setVar v none, .done)
  | .call v op => W.call cl cr c mN mE v op
  | .extend v w => W.feed cl cr c mN mE v w .extend
  | .merge v w => W.feed cl cr c mN mE v w .merge
  | .run v q r k => W.query cl cr c mN mE v q r k

/-- A program. -/
def exec : RdfWorld NP EP → List (RdfCmd E NP EP) → RdfWorld NP EP × List (RdfRes E)
  | W, [] => (W, [])
  | W, x :: l =>
    let r := W.step cl cr c mN mE x
    let r' := exec r.1 l
    (r'.1, r.2 :: r'.2)

end RdfWorld

end Verif
