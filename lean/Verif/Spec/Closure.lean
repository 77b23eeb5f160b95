import Verif.Spec.QuerySet

/-! # Calling a closure on one id after another -/

namespace Verif.Spec

/-- Call `f` on each element of the list in turn, until it fails. -/
def calls {σ α β ε : Type} (f : σ → α → σ × Except ε β) : σ → List α → σ × Except ε (List β)
  | s, [] => (s, .ok [])
  | s, a :: l =>
    match f s a with
    | (s, .error e) => (s, .error e)
    | (s, .ok b) =>
      match calls f s l with
      | (s, .error e) => (s, .error e)
      | (s, .ok bs) => (s, .ok (b :: bs))

/-- The answers grouped as the questions were. -/
def regroup {α β : Type} : List (List α) → List β → List (List β)
  | [], _ => []
  | x :: l, bs => bs.take x.length :: regroup l (bs.drop x.length)

/-- the questions put to `f` until it failed -/
def asked {σ α β ε : Type} (f : σ → α → σ × Except ε β) : σ → List α → List α
  | _, [] => []
  | s, a :: l =>
    match f s a with
    | (_, .error _) => [a]
    | (s, .ok _) => a :: asked f s l

end Verif.Spec
