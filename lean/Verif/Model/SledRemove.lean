import Verif.Model.Sled

/-!
# `remove_node` of the sled back-end, scanning piece by piece

`Sled.removeNode` makes each of its two range scans in one step.  sled's iterators are lazy: they hold the entries of one leaf of
the tree, and get the next leaf when those are used up (sled 0.34).  Between two leaves other threads can write.  Here a scan
reads as many entries at a time as a list of numbers says; when the list is used up it reads the rest in one step.  As nothing
is said about the numbers, every finite scan of sled is among these.
-/

namespace Verif

open ConcreteId

namespace Sled

variable {Id : Type} [LinearOrder Id] [ConcreteId Id] {α : Type}

/-- the entries after a key -/
def rest (cur : Option Bytes) (l : List (Bytes × Bytes)) : List (Bytes × Bytes) :=
  match cur with
  | none => l
  | some k => l.filter (fun e => k < e.1)

/-- the last key read -/
def cursor (cur : Option Bytes) (l : List (Bytes × Bytes)) : Option Bytes :=
  match l.getLast? with
  | none => cur
  | some e => some e.1

/-- `range(..)` on the tree, piece by piece; `acc` are the entries read so far. -/
def scanPieces (tree : Db → Tree) {n : Nat} (b : Bound (ByteArr n) × Bound (ByteArr n)) (k : List (Bytes × Bytes) → Prog Db α) :
    List Nat → Option Bytes → List (Bytes × Bytes) → Prog Db α
  | [], cur, acc => .call id (fun d => k (acc ++ rest cur ((tree d).rangeArr b)))
  | s :: ss, cur, acc => .call id (fun d =>
      let l := (rest cur ((tree d).rangeArr b)).take s
      scanPieces tree b k ss (cursor cur l) (acc ++ l))

/-- `remove_node` (src/sled/remove.rs:18-122).  (When a key cannot be decoded, the code returns the error at once; here it is
returned after the scans.) -/
def removeNodePieces (fs bs : List Nat) (n : Id) : Prog Db (Except SErr Unit) :=
  scanPieces (fun d => d.spo) (keyBounds1 n) (fun fwd =>
    scanPieces (fun d => d.osp) (keyBounds1 n) (fun bwd => removeNodeScanned n fwd bwd) bs none []) fs none []

end Sled

end Verif
