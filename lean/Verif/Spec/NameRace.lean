import Verif.Spec.RdfSledConc

/-! # One call in the midst of another -/

namespace Verif.Prog

variable {S α β : Type}

/-- The database, and what is left to do, after `k` calls of the function (or all, if there are no more), nobody else using the
database. -/
def pause : Nat → Prog S α → S → S × Prog S α
  | 0, p, s => (s, p)
  | _ + 1, .ret a, s => (s, .ret a)
  | k + 1, .call f q, s => pause k (q s) (f s)

/-- What is left, and what `p` returns, if after `k` calls of `p` another thread runs the whole of `q`. -/
def around (k : Nat) (p : Prog S α) (q : Prog S β) (s : S) : S × α :=
  (p.pause k s).2.run (q.run (p.pause k s).1).1

end Verif.Prog
