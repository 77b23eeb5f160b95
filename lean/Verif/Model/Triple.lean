import Mathlib.Order.Defs.LinearOrder

/-!
# Triples   (src/triple.rs, src/lib.rs EdgeOrder)
-/

namespace Verif

/-- `struct Triple<Id>` (src/triple.rs:7-11). -/
structure Triple (Id : Type) where
  sub : Id
  pred : Id
  obj : Id
deriving DecidableEq, Repr

namespace Triple

/-- `Triple::map` (src/triple.rs:14-20).  `f` is `FnMut` in Rust; a pure function here. -/
def map {α β : Type} (t : Triple α) (f : α → β) : Triple β :=
  { sub := f t.sub, pred := f t.pred, obj := f t.obj }

/-- `Triple::try_map` (src/triple.rs:22-31): evaluated in the order sub, pred, obj; the first error
is returned. -/
def tryMap {α β ε : Type} (t : Triple α) (f : α → Except ε β) : Except ε (Triple β) :=
  match f t.sub with
  | .error e => .error e
  | .ok s =>
    match f t.pred with
    | .error e => .error e
    | .ok p =>
      match f t.obj with
      | .error e => .error e
      | .ok o => .ok { sub := s, pred := p, obj := o }

/-- `impl PartialOrd for Triple` (src/triple.rs:34-53).  `Id: ConcreteIdType` is `Ord`, so
`partial_cmp` on ids is `Some(cmp)`; the `None` arms are kept for the shape of the code. -/
def partialCmp {Id : Type} [LinearOrder Id] (a b : Triple Id) : Option Ordering :=
  match (some (cmp a.sub b.sub) : Option Ordering) with
  | none => none
  | some .lt => some .lt
  | some .gt => some .gt
  | some .eq =>
    match (some (cmp a.pred b.pred) : Option Ordering) with
    | none => none
    | some .lt => some .lt
    | some .gt => some .gt
    | some .eq =>
      match (some (cmp a.obj b.obj) : Option Ordering) with
      | none => none
      | some .lt => some .lt
      | some .gt => some .gt
      | some .eq => some .eq

/-- The Rust operator `a < b` on triples: `partial_cmp(a, b) == Some(Less)` (std `PartialOrd::lt`),
used by src/mem/set.rs:99,101,170,179. -/
def ltOp {Id : Type} [LinearOrder Id] (a b : Triple Id) : Bool :=
  partialCmp a b == some .lt

end Triple

/-- `struct PropsTriple` (src/triple.rs:57-61). -/
structure PropsTriple (Id NP EP : Type) where
  sub : Id × NP
  pred : Id × EP
  obj : Id × NP
deriving DecidableEq, Repr

namespace PropsTriple

/-- `impl From<PropsTriple> for Triple` (src/triple.rs:63-75). -/
def toTriple {Id NP EP : Type} (t : PropsTriple Id NP EP) : Triple Id :=
  { sub := t.sub.1, pred := t.pred.1, obj := t.obj.1 }

/-- `PropsTriple::map` (src/triple.rs:78-88). -/
def map {Id NP EP Id' NP' EP' : Type} (t : PropsTriple Id NP EP)
    (f : Id × NP → Id' × NP') (g : Id × EP → Id' × EP') : PropsTriple Id' NP' EP' :=
  { sub := f t.sub, pred := g t.pred, obj := f t.obj }

/-- `PropsTriple::try_map` (src/triple.rs:90-100). -/
def tryMap {Id NP EP Id' NP' EP' ε : Type} (t : PropsTriple Id NP EP)
    (f : Id × NP → Except ε (Id' × NP')) (g : Id × EP → Except ε (Id' × EP')) :
    Except ε (PropsTriple Id' NP' EP') :=
  match f t.sub with
  | .error e => .error e
  | .ok s =>
    match g t.pred with
    | .error e => .error e
    | .ok p =>
      match f t.obj with
      | .error e => .error e
      | .ok o => .ok { sub := s, pred := p, obj := o }

end PropsTriple

/-- `enum EdgeOrder` (src/lib.rs:50-59). -/
inductive EdgeOrder where
  | SPO | POS | OSP
deriving DecidableEq, Repr

/-- `impl Default for EdgeOrder` (src/lib.rs:61-65). -/
instance : Inhabited EdgeOrder := ⟨.SPO⟩

end Verif
