import Verif.Model.Sled

/-!
# Bidirectional indices  (src/traits/bidir_index.rs, src/mem.rs:319-394, src/sled.rs:338-480)

Only compiled with the feature `rdf`.
-/

namespace Verif

/-- `trait BidirIndex` (src/traits/bidir_index.rs:4-14), as the record of its methods: `I` is the implementing type, `X` its
`Error`.  A method that takes `&mut self` returns the new value as well, also when it fails. -/
structure BidirIndex (I X L R : Type) where
  set : I → L → R → I × Except X Unit
  leftToRight : I → L → Except X (Option R)
  rightToLeft : I → R → Except X (Option L)

/-! ## MemHashIndex -/

/-- `std::collections::HashMap`; the index only looks up and inserts, and never iterates it. -/
abbrev HMap (K V : Type) := K → Option V

def HMap.insert {K V : Type} [DecidableEq K] (m : HMap K V) (k : K) (v : V) : HMap K V :=
  fun k' => if k' = k then some v else m k'

/-- `enum MemHashIndexError` (src/mem.rs:327-330). -/
inductive MemIndexErr (L R : Type) where
  | duplicateRight (l : L) (a b : R)
  | duplicateLeft (r : R) (a b : L)
deriving DecidableEq, Repr

/-- `struct MemHashIndex` (src/mem.rs:332-335). -/
structure MemIndex (L R : Type) where
  leftToRight : HMap L R
  rightToLeft : HMap R L

namespace MemIndex

variable {L R : Type} [DecidableEq L] [DecidableEq R]

/-- `MemHashIndex::new` (src/mem.rs:338-343). -/
def new : MemIndex L R := { leftToRight := fun _ => none, rightToLeft := fun _ => none }

/-- `set` (src/mem.rs:351-381).  The first map has been changed when the second check fails. -/
def set (s : MemIndex L R) (l : L) (r : R) : MemIndex L R × Except (MemIndexErr L R) Unit :=
  match s.leftToRight l with
  | some r' => (s, .error (.duplicateRight l r r'))
  | none =>
    let s := { s with leftToRight := s.leftToRight.insert l r }
    match s.rightToLeft r with
    | some l' => (s, .error (.duplicateLeft r l l'))
    | none => ({ s with rightToLeft := s.rightToLeft.insert r l }, .ok ())

/-- `impl BidirIndex for MemHashIndex` (src/mem.rs:346-390). -/
def impl : BidirIndex (MemIndex L R) (MemIndexErr L R) L R where
  set := set
  leftToRight s l := .ok (s.leftToRight l)
  rightToLeft s r := .ok (s.rightToLeft r)

end MemIndex

/-! ## SledHashIndex -/

/-- `enum SledHashIndexError` (src/sled.rs:346-351). -/
inductive SledIndexErr (L R : Type) where
  | duplicateRight (l : L) (a b : R)
  | duplicateLeft (r : R) (a b : L)
  | sled
  | serialization
deriving DecidableEq, Repr

/-- The two trees of `struct SledHashIndex` (src/sled.rs:353-360), opened in `new` (src/sled.rs:367-373). -/
structure IndexDb where
  leftToRight : Tree
  rightToLeft : Tree

namespace IndexDb

/-- the trees have not been written yet -/
def empty : IndexDb := { leftToRight := .empty, rightToLeft := .empty }

end IndexDb

namespace SledIndex

variable {L R : Type}

/-- The transaction of `set` (src/sled.rs:391-440). -/
def setTx (cl : Codec L) (cr : Codec R) (l : L) (r : R) (lb rb : Bytes) (d : IndexDb) :
    Except (SledIndexErr L R) IndexDb :=
  match d.leftToRight.get lb with
  | some b =>
    match cr.de b with
    | none => .error .serialization
    | some r' => .error (.duplicateRight l r' r)
  | none =>
    let d := { d with leftToRight := d.leftToRight.insert lb rb }
    match d.rightToLeft.get rb with
    | some b =>
      match cl.de b with
      | none => .error .serialization
      | some l' => .error (.duplicateLeft r l' l)
    | none => .ok { d with rightToLeft := d.rightToLeft.insert rb lb }

/-- `set` (src/sled.rs:385-447) as a program over the trees. -/
def setProg (cl : Codec L) (cr : Codec R) (l : L) (r : R) : Prog IndexDb (Except (SledIndexErr L R) Unit) :=
  match cl.ser l with
  | none => .ret (.error .serialization)
  | some lb =>
    match cr.ser r with
    | none => .ret (.error .serialization)
    | some rb =>
      .call
        (fun d => match setTx cl cr l r lb rb d with | .ok d' => d' | .error _ => d)
        (fun d => .ret (match setTx cl cr l r lb rb d with | .ok _ => .ok () | .error e => .error e))

/-- `left_to_right` (src/sled.rs:449-461) and `right_to_left` (463-475): one look-up. -/
def lookup {A B X : Type} (ca : Codec A) (cb : Codec B) (bad : X) (t : Tree) (a : A) : Except X (Option B) :=
  match ca.ser a with
  | none => .error bad
  | some ab =>
    match t.get ab with
    | none => .ok none
    | some b =>
      match cb.de b with
      | none => .error bad
      | some r => .ok (some r)

/-- `impl BidirIndex for SledHashIndex` (src/sled.rs:376-476), while nobody else uses the trees. -/
def impl (cl : Codec L) (cr : Codec R) : BidirIndex IndexDb (SledIndexErr L R) L R where
  set d l r := (setProg cl cr l r).run d
  leftToRight d l := lookup cl cr .serialization d.leftToRight l
  rightToLeft d r := lookup cr cl .serialization d.rightToLeft r

end SledIndex

end Verif
