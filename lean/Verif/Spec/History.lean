import Verif.Spec.SledRemove
import Verif.Spec.RdfSledConc

/-!
# One history for all moments

What it means that overlapping calls take effect one by one, each between the moments when it begins and when it returns.
-/

namespace Verif

namespace Spec

/-- what call number `j` of thread number `i` has done -/
def doneBy {O : Type} (i j : Nat) (h : List (Nat × Nat × O)) : List O := (h.filter (fun e => e.1 == i && e.2.1 == j)).map (fun e => e.2.2)

/-- A process goes through the states `x 0`, …, `x N`, one step at a time; `part`: calls may fail with storage errors. -/
def Course {S α : Type} (part : Bool) (x : Nat → S × List (List (Prog S α))) (N : Nat) : Prop :=
  ∀ k < N, if part then Step (x k) (x (k + 1)) else CalmStep (x k) (x (k + 1))

/-- A history `h` is a list of operations, each with the numbers of the thread and the call that did it; at the moment `k` the first
`cut k` of them have been done.  Each call does its operations between the moments when it begins and when it returns. -/
structure Timed {S O C : Type} (part : Bool) (prog : C → Prog S Unit) (ops : C → List O) (threads : List (List C))
    (x : Nat → S × List (List (Prog S Unit))) (N : Nat) (h : List (Nat × Nat × O)) (cut : Nat → Nat) : Prop where
  start : cut 0 = 0
  mono : ∀ k < N, cut k ≤ cut (k + 1)
  stop : cut N = h.length
  mine : ∀ e ∈ h, ∃ th y, threads[e.1]? = some th ∧ th[e.2.1]? = some y
  order : h.Pairwise (fun e e' => e.1 = e'.1 → e.2.1 ≤ e'.2.1)
  /-- a call does its operations in order; or only the first ones, if it does not finish, or fails -/
  parts : ∀ (i : Nat) (th : List C) (j : Nat) (y : C), threads[i]? = some th → th[j]? = some y → doneBy i j h <+: ops y
  there : ∀ k ≤ N, ∀ (i : Nat) (th : List C), threads[i]? = some th → ∃ l, (x k).2[i]? = some l ∧ l.length ≤ th.length
  /-- a call that has returned at some moment has done by then all that it ever does -/
  past : ∀ k ≤ N, ∀ (i : Nat) (th : List C) l (j : Nat) (y : C), threads[i]? = some th → (x k).2[i]? = some l → th[j]? = some y →
    j + l.length < th.length → doneBy i j (h.take (cut k)) = doneBy i j h ∧ (part = false → doneBy i j h = ops y)
  /-- a call that has not begun has done nothing -/
  future : ∀ k ≤ N, ∀ (i : Nat) (th : List C) l (j : Nat) (y : C), threads[i]? = some th → (x k).2[i]? = some l → th[j]? = some y →
    (th.drop j).map prog <:+ l → doneBy i j (h.take (cut k)) = []

/-- The history explains the course of a process: the database shows at each moment what the operations done so far make of what there
was at the start. -/
structure Explains {S T O C : Type} (part : Bool) (prog : C → Prog S Unit) (ops : C → List O) (st : T → O → T) (shows : S → T → Prop)
    (t0 : T) (threads : List (List C)) (x : Nat → S × List (List (Prog S Unit))) (N : Nat) (h : List (Nat × Nat × O)) (cut : Nat → Nat) :
    Prop extends Timed part prog ops threads x N h cut where
  shows : ∀ k ≤ N, shows (x k).1 (((h.take (cut k)).map (fun e => e.2.2)).foldl st t0)

/-- The same, if operations may have several outcomes: `t n` is what `n` operations have led to. -/
structure Tells {S T O C : Type} (part : Bool) (prog : C → Prog S Unit) (ops : C → List O) (st : T → O → T → Prop)
    (shows : S → T → Prop) (t0 : T) (threads : List (List C)) (x : Nat → S × List (List (Prog S Unit))) (N : Nat)
    (h : List (Nat × Nat × O)) (cut : Nat → Nat) (t : Nat → T) : Prop extends Timed part prog ops threads x N h cut where
  first : t 0 = t0
  next : ∀ n e, h[n]? = some e → st (t n) e.2.2 (t (n + 1))
  shows : ∀ k ≤ N, shows (x k).1 (t (cut k))

end Spec

end Verif
