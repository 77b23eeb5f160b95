import Verif.Model.Rdf

/-!
# Mapping with closures that keep state

`Triple::map`, `Triple::try_map` (src/triple.rs:14-31) and `Query::try_map` (src/lib.rs:116-152) take `FnMut` closures.  Here a
closure is a function of the state it has captured, which returns the new state beside its result.
-/

namespace Verif

namespace Triple

variable {σ α β ε : Type}

/-- `Triple::map` (src/triple.rs:14-20) -/
def mapMut (t : Triple α) (f : σ → α → σ × β) (s : σ) : σ × Triple β :=
  let (s, sub) := f s t.sub
  let (s, pred) := f s t.pred
  let (s, obj) := f s t.obj
  (s, { sub := sub, pred := pred, obj := obj })

/-- `Triple::try_map` (src/triple.rs:22-31) -/
def tryMapMut (t : Triple α) (f : σ → α → σ × Except ε β) (s : σ) : σ × Except ε (Triple β) :=
  match f s t.sub with
  | (s, .error e) => (s, .error e)
  | (s, .ok sub) =>
    match f s t.pred with
    | (s, .error e) => (s, .error e)
    | (s, .ok pred) =>
      match f s t.obj with
      | (s, .error e) => (s, .error e)
      | (s, .ok obj) => (s, .ok { sub := sub, pred := pred, obj := obj })

end Triple

/-- `.map(f).collect::<Result<HashSet<_>, _>>()` -/
def collectMut {σ α ε β : Type} [DecidableEq β] (f : σ → α → σ × Except ε β) :
    σ → List α → HSet β → σ × Except ε (HSet β)
  | s, [], acc => (s, .ok acc)
  | s, a :: l, acc =>
    match f s a with
    | (s, .error e) => (s, .error e)
    | (s, .ok b) => collectMut f s l (HSet.insert acc b)

namespace Query

variable {σ α β ε : Type}

/-- The closure `|(a, b)| Ok((f(a)?, f(b)?))` (src/lib.rs:138, 143, 148). -/
def pairMut (f : σ → α → σ × Except ε β) (s : σ) (x : α × α) : σ × Except ε (β × β) :=
  match f s x.1 with
  | (s, .error e) => (s, .error e)
  | (s, .ok a) =>
    match f s x.2 with
    | (s, .error e) => (s, .error e)
    | (s, .ok b) => (s, .ok (a, b))

/-- The closure `|(sub, pred, obj)| Ok((f(sub)?, f(pred)?, f(obj)?))` (src/lib.rs:130). -/
def tripleMut (f : σ → α → σ × Except ε β) (s : σ) (x : α × α × α) : σ × Except ε (β × β × β) :=
  match f s x.1 with
  | (s, .error e) => (s, .error e)
  | (s, .ok a) =>
    match f s x.2.1 with
    | (s, .error e) => (s, .error e)
    | (s, .ok b) =>
      match f s x.2.2 with
      | (s, .error e) => (s, .error e)
      | (s, .ok c) => (s, .ok (a, b, c))

/-- `Query::try_map` (src/lib.rs:116-152) -/
def tryMapMut [DecidableEq β] (f : σ → α → σ × Except ε β) (s : σ) : Query α → σ × Except ε (Query β)
  | .NodeProps l => (collectMut f s l []).map id (·.map .NodeProps)
  | .SPO l => (collectMut (tripleMut f) s l []).map id (·.map .SPO)
  | .O l => (collectMut f s l []).map id (·.map .O)
  | .S l => (collectMut f s l []).map id (·.map .S)
  | .P l => (collectMut f s l []).map id (·.map .P)
  | .PO l => (collectMut (pairMut f) s l []).map id (·.map .PO)
  | .SO l => (collectMut (pairMut f) s l []).map id (·.map .SO)
  | .SP l => (collectMut (pairMut f) s l []).map id (·.map .SP)

end Query

end Verif
