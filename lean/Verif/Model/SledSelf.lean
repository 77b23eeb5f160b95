import Verif.Model.SledScan

/-!
# `extend` and `merge` with another store on the same database

`a.extend(b)` and `a.merge(b)` read `b` lazily while they write to `a` (src/sled/extend.rs:23-33, src/sled/merge.rs:22-33).  When both
are handles on one `sled::Db`, the loops write to the trees they are traversing.
-/

namespace Verif

open ConcreteId

namespace Sled

/-- A sled iterator under way: the entries read from the tree but not yet handed out, and the last key read. -/
structure Cursor where
  ahead : List (Bytes × Bytes)
  last : Option Bytes

/-- The key is still to come. -/
def Cursor.Before (last : Option Bytes) (k : Bytes) : Prop :=
  match last with
  | none => True
  | some k0 => k0 < k

/-- `for r in tree.iter() { body(r)?; }`, the body changing the state `S` in which the tree is: the ways it can go on from the state
`s`.  The iterator may read entries ahead, each from the tree as it is then. -/
inductive Loop {S X : Type} (tree : S → Tree) (body : S → Bytes × Bytes → S × Except X Unit) :
    S → Cursor → S × Except X Unit → Prop
  | read {s : S} {ahead : List (Bytes × Bytes)} {last : Option Bytes} {k v : Bytes} {out : S × Except X Unit}
      (hk : Cursor.Before last k) (hv : (tree s).get k = some v)
      (first : ∀ k' v', Cursor.Before last k' → (tree s).get k' = some v' → k ≤ k')
      (rest : Loop tree body s ⟨ahead ++ [(k, v)], some k⟩ out) : Loop tree body s ⟨ahead, last⟩ out
  | step {s s' : S} {e : Bytes × Bytes} {ahead : List (Bytes × Bytes)} {last : Option Bytes} {out : S × Except X Unit}
      (h : body s e = (s', .ok ())) (rest : Loop tree body s' ⟨ahead, last⟩ out) : Loop tree body s ⟨e :: ahead, last⟩ out
  | fail {s s' : S} {e : Bytes × Bytes} {ahead : List (Bytes × Bytes)} {last : Option Bytes} {x : X}
      (h : body s e = (s', .error x)) : Loop tree body s ⟨e :: ahead, last⟩ (s', .error x)
  | done {s : S} {last : Option Bytes} (h : ∀ k, Cursor.Before last k → (tree s).get k = none) :
      Loop tree body s ⟨[], last⟩ (s, .ok ())

variable {Id NP EP : Type} [LinearOrder Id] [ConcreteId Id]

/-- What the edge iterator of `into_iter_nodes` makes of an entry (src/sled/iter.rs:245-253, 285-303), `d` being the database at the
look-up of the record. -/
def intoEdgeItem (Id : Type) [LinearOrder Id] [ConcreteId Id] (c : Codecs NP EP) (d : Db) (e : Bytes × Bytes) :
    Except SErr (Triple Id × EP) :=
  match decodeEntry decodeSpo e with
  | .error e => .error e
  | .ok (t, v) =>
    match d.edgeProps.get v with
    | none => .error .missing
    | some b =>
      match deser c.e b with
      | .error e => .error e
      | .ok p => .ok (t, p)

/-- one turn of the node loop of `extend` (src/sled/extend.rs:25-31): the loop for this one entry -/
def extendTurnN (c : Codecs NP EP) (s : SledStore Id) (e : Bytes × Bytes) : SledStore Id × Except (LR SErr SErr) Unit :=
  s.extend c { nodes := [vertexItem Id c e], edges := [] }

/-- one turn of the edge loop of `extend` (src/sled/extend.rs:33-61) -/
def extendTurnE (c : Codecs NP EP) (s : SledStore Id) (e : Bytes × Bytes) : SledStore Id × Except (LR SErr SErr) Unit :=
  s.extend c { nodes := [], edges := [intoEdgeItem Id c s.db e] }

/-- one turn of the node loop of `merge` (src/sled/merge.rs:24-27) -/
def mergeTurnN (c : Codecs NP EP) (mN : NP → NP → NP) (mE : EP → EP → EP) (s : SledStore Id) (e : Bytes × Bytes) :
    SledStore Id × Except (LR SErr SErr) Unit :=
  s.merge c mN mE { nodes := [vertexItem Id c e], edges := [] }

/-- one turn of the edge loop of `merge` (src/sled/merge.rs:29-33) -/
def mergeTurnE (c : Codecs NP EP) (mN : NP → NP → NP) (mE : EP → EP → EP) (s : SledStore Id) (e : Bytes × Bytes) :
    SledStore Id × Except (LR SErr SErr) Unit :=
  s.merge c mN mE { nodes := [], edges := [intoEdgeItem Id c s.db e] }

/-- the node loop, and then the edge loop unless it failed -/
def Both {S X : Type} (first second : S → S × Except X Unit → Prop) (s : S) (out : S × Except X Unit) : Prop :=
  (∃ s', first s (s', .ok ()) ∧ second s' out) ∨ ∃ s' e, first s (s', .error e) ∧ out = (s', .error e)

/-- `s.extend(other)`, `other` being another store on the same database: what it can lead to. -/
def ExtendSelf (c : Codecs NP EP) (s : SledStore Id) (out : SledStore Id × Except (LR SErr SErr) Unit) : Prop :=
  Both (fun s => Loop (fun s => s.db.nodeProps) (extendTurnN c) s ⟨[], none⟩)
    (fun s => Loop (fun s => s.db.spo) (extendTurnE c) s ⟨[], none⟩) s out

/-- `s.merge(other)`, `other` being another store on the same database: what it can lead to. -/
def MergeSelf (c : Codecs NP EP) (mN : NP → NP → NP) (mE : EP → EP → EP) (s : SledStore Id)
    (out : SledStore Id × Except (LR SErr SErr) Unit) : Prop :=
  Both (fun s => Loop (fun s => s.db.nodeProps) (mergeTurnN c mN mE) s ⟨[], none⟩)
    (fun s => Loop (fun s => s.db.spo) (mergeTurnE c mN mE) s ⟨[], none⟩) s out

end Sled

end Verif
