import Mathlib.Logic.Function.Basic
import Verif.Spec.SledApi

/-!
# Programs with many stores

A client holds any number of in-memory stores and stores on any number of sled databases, feeds them into one another,
queries them and goes on working with the answers.  What the stores have in common is shared: two stores on one
database share its trees (src/sled.rs:157-178), and a store made with a clone of another store's generator
(src/mem/query.rs:27, 34, 47, …, src/mem/set.rs:21, 59, 120, src/sled/query.rs:28, 54, …) shares its counter if it is a
`U64IdGenerator` (src/id/u64.rs:130-134).

Generators are numbered; a number stands for the source of the ids, here for one `Arc<AtomicU64>` or one
`ulid::Generator`.  A command that clones a generator says which number the clone has: the number of the store's own
generator if it is a counter, an unused number if it is a `UlidIdGenerator`, whose clones are new generators
(src/id/ulid.rs:120-122).  The theorems allow any number.

`extend` and `merge` of two stores on one database take the contents as they are at the start; that this is what happens
although the loops write to the trees they read from is `C66_extend`, `C66_merge`.

If a set operation or a query fails, its generator remains where it was.  That is a simplification: the clone of a
counter would have advanced it.  It makes no difference, the operations that fail are those on damaged databases only.
-/

namespace Verif

open Spec

/-- The outcome of a command. -/
inductive Res (E : Type) where
  | done
  /-- the error is one of the source -/
  | source (e : E)
  /-- any other error -/
  | failed
  /-- not a program: there is no such store, or it has no such function -/
  | noStore
deriving DecidableEq

def Res.ofLR {L E : Type} : Except (LR L E) Unit → Res E
  | .ok () => .done
  | .error (.left _) => .failed
  | .error (.right e) => .source e

/-- if the source is a store, its errors are not told from others -/
def Res.blur {F E : Type} : Res F → Res E
  | .done => .done
  | .noStore => .noStore
  | _ => .failed

/-- The call named by `op`, with its result. -/
def Mem.call {E Id NP EP : Type} [LinearOrder Id] [ConcreteId Id] (mN : NP → NP → NP) (mE : EP → EP → EP) (s : Mem Id NP EP)
    (op : Op E Id NP EP) : Mem Id NP EP × Except (LR Unit E) Unit :=
  match op with
  | .extend src => s.extend src
  | .merge src => s.merge mN mE src
  | op => (s.apply mN mE op, .ok ())

/-- What a variable holds. -/
inductive Held (Id NP EP : Type) [LinearOrder Id] [ConcreteId Id] where
  /-- a `MemTripleStore` with generator `k`; the stream in `s` itself is ignored -/
  | mem (k : Nat) (s : Mem Id NP EP)
  /-- a `SledTripleStore` on database `b` with generator `k` -/
  | sled (k b : Nat)

structure World (Id NP EP : Type) [LinearOrder Id] [ConcreteId Id] where
  /-- what each generator is going to yield -/
  gens : Nat → Gen Id
  /-- what `Ulid::new()` is going to yield -/
  ulids : Gen Ulid
  /-- the contents of each database -/
  dbs : Nat → Db
  vars : Nat → Option (Held Id NP EP)

/-- What a client can do.  `v`, `w`, `r` are variables, `b` is a database, `k` a generator. -/
inductive Cmd (E Id NP EP : Type) where
  /-- `v = MemTripleStore::new(k)` -/
  | newMem (v k : Nat)
  /-- `v = SledTripleStore::new(&b, k)` -/
  | openSled (v b k : Nat)
  | drop (v : Nat)
  /-- one of the eight mutations, `extend` and `merge` with anything whatever -/
  | call (v : Nat) (op : Op E Id NP EP)
  /-- `v.extend(w)` -/
  | extend (v w : Nat)
  /-- `v.merge(w)` -/
  | merge (v w : Nat)
  /-- `r = v.run(q)`, the clone of the generator being `k` -/
  | run (v : Nat) (q : Query Id) (r k : Nat)
  /-- `r = v.union(w)` -/
  | union (v w r k : Nat)
  /-- `r = v.intersection(w)` -/
  | intersection (v w r k : Nat)
  /-- `r = v.difference(w)` -/
  | difference (v w r k : Nat)

namespace World

variable {E Id NP EP : Type} [LinearOrder Id] [ConcreteId Id]

/-- no stores, empty databases -/
def start (gens : Nat → Gen Id) (ulids : Gen Ulid) : World Id NP EP :=
  { gens := gens, ulids := ulids, dbs := fun _ => .empty, vars := fun _ => none }

def setVar (W : World Id NP EP) (v : Nat) (h : Option (Held Id NP EP)) : World Id NP EP :=
  { W with vars := Function.update W.vars v h }

/-- `v` becomes an in-memory store with generator `k`, which goes on with the stream in `s` -/
def putMem (W : World Id NP EP) (v k : Nat) (s : Mem Id NP EP) : World Id NP EP :=
  { W with gens := Function.update W.gens k s.gen, vars := Function.update W.vars v (some (.mem k s)) }

/-- The call named by `op`. -/
def call (c : Codecs NP EP) (mN : NP → NP → NP) (mE : EP → EP → EP) (W : World Id NP EP) (v : Nat) (op : Op E Id NP EP) :
    World Id NP EP × Res E :=
  match W.vars v with
  | none => (W, .noStore)
  | some (.mem k s) =>
    let r := Mem.call mN mE { s with gen := W.gens k } op
    (W.putMem v k r.1, .ofLR r.2)
  | some (.sled k b) =>
    let r := SledStore.call c mN mE { db := W.dbs b, gen := W.gens k, ulid := W.ulids } op
    ({ W with
        gens := Function.update W.gens k r.1.gen
        ulids := r.1.ulid
        dbs := Function.update W.dbs b r.1.db }, .ofLR r.2)

/-- Call `f` with what `h.into_iter_nodes(SPO)` yields. -/
def withSource {α : Type} (c : Codecs NP EP) (W : World Id NP EP) (f : {F : Type} → Source F Id NP EP → α) : Held Id NP EP → α
  | .mem _ s => f (s.intoIterNodes .SPO)
  | .sled _ b => f (Sled.intoIterNodes c (W.dbs b) .SPO)

/-- `extend` or `merge`, consuming `w`. -/
def feed (c : Codecs NP EP) (mN : NP → NP → NP) (mE : EP → EP → EP) (W : World Id NP EP) (v w : Nat)
    (op : {F : Type} → Source F Id NP EP → Op F Id NP EP) : World Id NP EP × Res E :=
  match W.vars w with
  | none => (W, .noStore)
  | some h =>
    if v = w then (W, .noStore)
    else W.withSource c (fun src => let r := (W.setVar w none).call c mN mE v (op src); (r.1, r.2.blur)) h

/-- `run` -/
def query (c : Codecs NP EP) (W : World Id NP EP) (v : Nat) (q : Query Id) (r k : Nat) : World Id NP EP × Res E :=
  match W.vars v with
  | none => (W, .noStore)
  | some (.mem _ s) => (W.putMem r k (s.run (W.gens k) q), .done)
  | some (.sled _ b) =>
    match Sled.runQuery c (W.dbs b) (W.gens k) q with
    | .ok s => (W.putMem r k s, .done)
    | .error _ => (W, .failed)

/-- A set operation, consuming `v` and `w`.  Only in-memory stores have them (src/mem/set.rs:11-12). -/
def combine (c : Codecs NP EP) (W : World Id NP EP) (v w r k : Nat)
    (f : {F : Type} → Mem Id NP EP → Gen Id → Source F Id NP EP → Except (SetErr Unit F Unit) (Mem Id NP EP)) :
    World Id NP EP × Res E :=
  match W.vars v, W.vars w with
  | some (.mem _ s), some h =>
    if v = w then (W, .noStore)
    else W.withSource c (fun src =>
      match f s (W.gens k) src with
      | .ok s' => (((W.setVar v none).setVar w none).putMem r k s', .done)
      | .error _ => ((W.setVar v none).setVar w none, .failed)) h
  | _, _ => (W, .noStore)

/-- One command. -/
def step (c : Codecs NP EP) (mN : NP → NP → NP) (mE : EP → EP → EP) (W : World Id NP EP) : Cmd E Id NP EP → World Id NP EP × Res E
  | .newMem v k => (W.putMem v k (Mem.new (W.gens k)), .done)
  | .openSled v b k => (W.setVar v (some (.sled k b)), .done)
  | .drop v => (W.setVar v none, .done)
  | .call v op => W.call c mN mE v op
  | .extend v w => W.feed c mN mE v w .extend
  | .merge v w => W.feed c mN mE v w .merge
  | .run v q r k => W.query c v q r k
  | .union v w r k => W.combine c v w r k Mem.union
  | .intersection v w r k => W.combine c v w r k Mem.intersection
  | .difference v w r k => W.combine c v w r k Mem.difference

/-- A program. -/
def exec (c : Codecs NP EP) (mN : NP → NP → NP) (mE : EP → EP → EP) : World Id NP EP → List (Cmd E Id NP EP) → World Id NP EP × List (Res E)
  | W, [] => (W, [])
  | W, x :: l =>
    let r := W.step c mN mE x
    let r' := exec c mN mE r.1 l
    (r'.1, r.2 :: r'.2)

end World

end Verif
