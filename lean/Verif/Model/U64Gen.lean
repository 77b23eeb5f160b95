import Verif.Model.Id

/-!
# The counter id generator  (src/id/u64.rs:117-140)

`U64IdGenerator` holds an `Arc<AtomicU64>`.  The model is the machine of all live generators of a process:
a heap of counters, and handles pointing into it.  An action is one atomic step of some caller; a schedule is
any list of actions.
-/

namespace Verif.U64Gen

/-- `heap`: the `AtomicU64`s allocated so far.  `handles`: the `U64IdGenerator` values created so far, each an
`Arc` pointer into the heap. -/
structure World where
  heap : List U64
  handles : List Nat

/-- What a caller can do: create a generator, clone the generator `h`, or draw an id from it. -/
inductive Act where
  | new (v : U64)
  | clone (h : Nat)
  | fresh (h : Nat)

/-- `U64IdGenerator::new` (src/id/u64.rs:122-126), `clone` (130-134) and `fresh` (136-138, `fetch_add(1)`, which
wraps around).  Returns the drawn id with the handle it was drawn from.  Actions on handles that do not exist do
nothing. -/
def step (w : World) : Act → World × Option (Nat × U64)
  | .new v => ({ heap := w.heap ++ [v], handles := w.handles ++ [w.heap.length] }, none)
  | .clone h =>
    match w.handles[h]? with
    | some c => ({ w with handles := w.handles ++ [c] }, none)
    | none => (w, none)
  | .fresh h =>
    match w.handles[h]? with
    | some c =>
      match w.heap[c]? with
      | some x => ({ w with heap := w.heap.set c (x + 1) }, some (h, x))
      | none => (w, none)
    | none => (w, none)

/-- Run a schedule; returns the ids drawn, in order. -/
def run (w : World) : List Act → World × List (Nat × U64)
  | [] => (w, [])
  | a :: as =>
    let r := step w a
    let rs := run r.1 as
    (rs.1, r.2.toList ++ rs.2)

/-- A process that has just created one generator: handle 0. -/
def init (v : U64) : World := { heap := [v], handles := [0] }

end Verif.U64Gen
