import Mathlib.Data.List.Basic
import Verif.Model.Triple

/-!
# Queries  (src/lib.rs)

A `HashSet<T>` is a list; its order is the (arbitrary) iteration order of the hash set, and every theorem
about code that iterates one quantifies over the list.  Sets built by the code itself go through
`HSet.insert` / `HSet.collect`, which never produce duplicates.
-/

namespace Verif

/-- `std::collections::HashSet`. -/
abbrev HSet (α : Type) := List α

namespace HSet
variable {α : Type} [DecidableEq α]

/-- `HashSet::insert`. -/
def insert (s : HSet α) (a : α) : HSet α := if a ∈ s then s else s ++ [a]

/-- `Iterator::collect::<HashSet<_>>()`. -/
def collect (l : List α) : HSet α := l.foldl HSet.insert []

end HSet

/-- `enum Query<Id>` (src/lib.rs:71-95). -/
inductive Query (Id : Type) where
  | NodeProps (ids : HSet Id)
  | SPO (items : HSet (Id × Id × Id))
  | O (ids : HSet Id)
  | S (ids : HSet Id)
  | P (ids : HSet Id)
  | PO (items : HSet (Id × Id))
  | SO (items : HSet (Id × Id))
  | SP (items : HSet (Id × Id))
deriving Repr

/-- `.map(f).collect::<Result<HashSet<_>, _>>()`: elements in iteration order, stopping at the first
error. -/
def collectResult {α ε β : Type} [DecidableEq β] (f : α → Except ε β) :
    List α → HSet β → Except ε (HSet β)
  | [], acc => .ok acc
  | a :: l, acc =>
    match f a with
    | .error e => .error e
    | .ok b => collectResult f l (HSet.insert acc b)

namespace Query

variable {α β ε : Type} [DecidableEq β]

/-- The closure `|(a, b)| Ok((f(a)?, f(b)?))` (src/lib.rs:138,143,148). -/
def tryPair (f : α → Except ε β) (x : α × α) : Except ε (β × β) :=
  match f x.1 with
  | .error e => .error e
  | .ok a =>
    match f x.2 with
    | .error e => .error e
    | .ok b => .ok (a, b)

/-- The closure `|(sub, pred, obj)| Ok((f(sub)?, f(pred)?, f(obj)?))` (src/lib.rs:130). -/
def tryTriple (f : α → Except ε β) (x : α × α × α) : Except ε (β × β × β) :=
  match f x.1 with
  | .error e => .error e
  | .ok a =>
    match f x.2.1 with
    | .error e => .error e
    | .ok b =>
      match f x.2.2 with
      | .error e => .error e
      | .ok c => .ok (a, b, c)

/-- `Query::map` (src/lib.rs:98-114). -/
def map (f : α → β) : Query α → Query β
  | .NodeProps s => .NodeProps (HSet.collect (s.map f))
  | .SPO s => .SPO (HSet.collect (s.map fun (a, b, c) => (f a, f b, f c)))
  | .O s => .O (HSet.collect (s.map f))
  | .S s => .S (HSet.collect (s.map f))
  | .P s => .P (HSet.collect (s.map f))
  | .PO s => .PO (HSet.collect (s.map fun (a, b) => (f a, f b)))
  | .SO s => .SO (HSet.collect (s.map fun (a, b) => (f a, f b)))
  | .SP s => .SP (HSet.collect (s.map fun (a, b) => (f a, f b)))

/-- `Query::try_map` (src/lib.rs:116-152).  `f` is `FnMut` in Rust; pure here. -/
def tryMap (f : α → Except ε β) : Query α → Except ε (Query β)
  | .NodeProps s => (collectResult f s []).map .NodeProps
  | .SPO s => (collectResult (tryTriple f) s []).map .SPO
  | .O s => (collectResult f s []).map .O
  | .S s => (collectResult f s []).map .S
  | .P s => (collectResult f s []).map .P
  | .PO s => (collectResult (tryPair f) s []).map .PO
  | .SO s => (collectResult (tryPair f) s []).map .SO
  | .SP s => (collectResult (tryPair f) s []).map .SP

/-- `impl From<IntoIterator<Item = Triple<Id>>> for Query<Id>` (src/lib.rs:155-159). -/
def ofTriples (l : List (Triple β)) : Query β :=
  .SPO (HSet.collect (l.map fun t => (t.sub, t.pred, t.obj)))

end Query

/-! ## The `query!` macro (src/lib.rs:311-374) -/

/-- One token tree in a `query!` pattern: the literal `?`, or an expression denoting a list of ids. -/
inductive Slot (Id : Type) where
  | any
  | ids (l : List Id)

/-- Input of the macro. -/
inductive QueryPat (Id : Type) where
  /-- `node props for $nodes` -/
  | nodeProps (nodes : Slot Id)
  /-- `$s -$p-> $o` -/
  | edge (s p o : Slot Id)

namespace QueryPat

variable {Id : Type} [DecidableEq Id]

/-- The nested loops of src/lib.rs:328-332 (also 343-347 and 354-358). -/
def pairs (as bs : List Id) : HSet (Id × Id) :=
  as.foldl (fun acc a => bs.foldl (fun acc b => HSet.insert acc (a, b)) acc) []

/-- The nested loops of src/lib.rs:365-371. -/
def triples (as bs cs : List Id) : HSet (Id × Id × Id) :=
  as.foldl (fun acc a =>
    bs.foldl (fun acc b => cs.foldl (fun acc c => HSet.insert acc (a, b, c)) acc) acc) []

/-- Macro expansion: the rules are tried in order; a metavariable `$x:tt` also accepts the token `?`, and
then the expansion (`?.into_iter()` or `for sub in ?`) does not compile: `none`. -/
def expand : QueryPat Id → Option (Query Id)
  -- (node props for $nodes:tt)   src/lib.rs:313-315
  | .nodeProps (.ids l) => some (.NodeProps (HSet.collect l))
  | .nodeProps .any => none
  -- ($subs:tt -?-> ?)            src/lib.rs:317-319
  | .edge subs .any .any =>
    match subs with
    | .ids l => some (.S (HSet.collect l))
    | .any => none
  -- (? -$preds:tt-> ?)           src/lib.rs:321-323
  | .edge .any preds .any =>
    match preds with
    | .ids l => some (.P (HSet.collect l))
    | .any => none
  -- ($subs:tt -$preds:tt-> ?)    src/lib.rs:325-334
  | .edge subs preds .any =>
    match subs, preds with
    | .ids ls, .ids lp => some (.SP (pairs ls lp))
    | _, _ => none
  -- (? -?-> $objs:tt)            src/lib.rs:336-338
  | .edge .any .any objs =>
    match objs with
    | .ids l => some (.O (HSet.collect l))
    | .any => none
  -- ($subs:tt -?-> $objs:tt)     src/lib.rs:340-349
  | .edge subs .any objs =>
    match subs, objs with
    | .ids ls, .ids lo => some (.SO (pairs ls lo))
    | _, _ => none
  -- (? -$preds:tt-> $objs:tt)    src/lib.rs:351-360
  | .edge .any preds objs =>
    match preds, objs with
    | .ids lp, .ids lo => some (.PO (pairs lp lo))
    | _, _ => none
  -- ($subs:tt -$preds:tt-> $objs:tt)   src/lib.rs:362-373
  | .edge subs preds objs =>
    match subs, preds, objs with
    | .ids ls, .ids lp, .ids lo => some (.SPO (triples ls lp lo))
    | _, _, _ => none

end QueryPat

end Verif
