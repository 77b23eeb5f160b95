/-!
# Programs over a shared database

A function of the sled back-end is a sequence of sled calls (`Tree::insert`, `Tree::remove`, a transaction, …), each of
which sled performs atomically, with computation in between.  `Prog S α` is such a function: `S` is the database,
`α` what the function returns.

Crashes and storage errors: a crash may happen between any two calls, and any call may return a
`sled::Error`, which every function of the back-end propagates at once (`?`).  In both cases the database is left in the
state before the call, so the states after a crash or a storage error are the states in `Prog.states`.
-/

namespace Verif

/-- `call f k`: perform the atomic call which replaces the database `s` by `f s` and returns (some function of) `s`, and
continue with `k s`. -/
inductive Prog (S α : Type) where
  | ret (a : α)
  | call (f : S → S) (k : S → Prog S α)

namespace Prog

variable {S α β : Type}

def bind : Prog S α → (α → Prog S β) → Prog S β
  | ret a, g => g a
  | call f k, g => call f (fun s => (k s).bind g)

/-- Run the function while nobody else uses the database. -/
def run : Prog S α → S → S × α
  | ret a, s => (s, a)
  | call f k, s => (k s).run (f s)

/-- The states the database goes through, from the initial to the final one: where it can be left by a crash or a
storage error. -/
def states : Prog S α → S → List S
  | ret _, s => [s]
  | call f k, s => s :: (k s).states (f s)

end Prog

/-! ## Concurrency

A process runs any number of threads, each executing a queue of functions one after the other on the shared
database. -/

/-- One step of the process: some thread performs the next call of the function it is executing, or leaves the function
and goes on to the next one.  A thread leaves a function when it has returned, or when a call failed with a storage
error. -/
inductive Step {S α : Type} : S × List (List (Prog S α)) → S × List (List (Prog S α)) → Prop
  | call (s : S) (pre post : List (List (Prog S α))) (f : S → S) (k : S → Prog S α)
      (q : List (Prog S α)) :
      Step (s, pre ++ (.call f k :: q) :: post) (f s, pre ++ (k s :: q) :: post)
  | ret (s : S) (pre post : List (List (Prog S α))) (a : α) (q : List (Prog S α)) :
      Step (s, pre ++ (.ret a :: q) :: post) (s, pre ++ q :: post)
  | fail (s : S) (pre post : List (List (Prog S α))) (p : Prog S α) (q : List (Prog S α)) :
      Step (s, pre ++ (p :: q) :: post) (s, pre ++ q :: post)

/-- One step in which no call fails with a storage error. -/
inductive CalmStep {S α : Type} : S × List (List (Prog S α)) → S × List (List (Prog S α)) → Prop
  | call (s : S) (pre post : List (List (Prog S α))) (f : S → S) (k : S → Prog S α)
      (q : List (Prog S α)) :
      CalmStep (s, pre ++ (.call f k :: q) :: post) (f s, pre ++ (k s :: q) :: post)
  | ret (s : S) (pre post : List (List (Prog S α))) (a : α) (q : List (Prog S α)) :
      CalmStep (s, pre ++ (.ret a :: q) :: post) (s, pre ++ q :: post)

/-- `Steps`: any finite number of steps, in any interleaving. -/
inductive Steps {S α : Type} : S × List (List (Prog S α)) → S × List (List (Prog S α)) → Prop
  | refl (x : S × List (List (Prog S α))) : Steps x x
  | tail {x y z : S × List (List (Prog S α))} : Steps x y → Step y z → Steps x z

/-- Any finite number of steps without storage errors. -/
inductive CalmSteps {S α : Type} : S × List (List (Prog S α)) → S × List (List (Prog S α)) → Prop
  | refl (x : S × List (List (Prog S α))) : CalmSteps x x
  | tail {x y z : S × List (List (Prog S α))} : CalmSteps x y → CalmStep y z → CalmSteps x z

end Verif
