import Verif.Model.ByteArr
import Verif.Model.Triple

/-!
# The `ConcreteIdType` trait and its two implementations
(src/traits/id_type.rs, src/id/u64.rs, src/id/ulid.rs)
-/

namespace Verif

/-- `std::ops::Bound`. -/
inductive Bound (K : Type) where
  | included (k : K)
  | excluded (k : K)
  | unbounded
deriving DecidableEq

namespace Bound
variable {K : Type} [LinearOrder K]

/-- Is `k` above the lower bound?  (std `RangeBounds`) -/
def lowerOk : Bound K → K → Bool
  | .included b, k => decide (b ≤ k)
  | .excluded b, k => decide (b < k)
  | .unbounded, _ => true

/-- Is `k` below the upper bound? -/
def upperOk : Bound K → K → Bool
  | .included b, k => decide (k ≤ b)
  | .excluded b, k => decide (k < b)
  | .unbounded, _ => true

/-- Does the pair of bounds, as passed to `BTreeMap::range` / `sled::Tree::range`, contain `k`? -/
def contains (r : Bound K × Bound K) (k : K) : Bool := r.1.lowerOk k && r.2.upperOk k

/-- The documented panic condition of `BTreeMap::range`: start > end, or start == end with both
bounds excluded. -/
def rangePanics : Bound K × Bound K → Bool
  | (.included a, .included b) => decide (b < a)
  | (.included a, .excluded b) => decide (b < a)
  | (.excluded a, .included b) => decide (b < a)
  | (.excluded a, .excluded b) => decide (b ≤ a)
  | _ => false

end Bound

/-- `trait ConcreteIdType` (src/traits/id_type.rs:6-52).  The associated types `ByteArrayType` and
`TripleByteArrayType` are taken to be fixed-size byte arrays with lexicographic order, as in both
implementations of the crate ([u8; 8]/[u8; 24] and [u8; 16]/[u8; 48]).  The methods carry no laws here:
see `LawfulId` in Verif/Proof/Id.lean, proved for both implementations. -/
class ConcreteId (Id : Type) [LinearOrder Id] where
  /-- length of `ByteArrayType` -/
  idLen : Nat
  /-- length of `TripleByteArrayType` -/
  tripleLen : Nat
  toBeBytes : Id → ByteArr idLen
  fromBeBytes : ByteArr idLen → Id
  tryFromBeBytes : Bytes → Option Id
  encodeSpo : Triple Id → ByteArr tripleLen
  encodePos : Triple Id → ByteArr tripleLen
  encodeOsp : Triple Id → ByteArr tripleLen
  decodeSpo : ByteArr tripleLen → Triple Id
  decodePos : ByteArr tripleLen → Triple Id
  decodeOsp : ByteArr tripleLen → Triple Id
  keyBounds1 : Id → Bound (ByteArr tripleLen) × Bound (ByteArr tripleLen)
  keyBounds2 : Id → Id → Bound (ByteArr tripleLen) × Bound (ByteArr tripleLen)

/-- `Id::TripleByteArrayType`. -/
abbrev TKey (Id : Type) [LinearOrder Id] [ConcreteId Id] :=
  ByteArr (ConcreteId.tripleLen (Id := Id))

/-! ## u64 (src/id/u64.rs) -/

/-- Rust `u64` (arithmetic on `Fin (2^64)` wraps, as `fetch_add` does). -/
abbrev U64 := Fin (2 ^ 64)

namespace U64
/-- `u64::MIN`. -/
def MIN : U64 := ⟨0, by decide⟩
/-- `u64::MAX`. -/
def MAX : U64 := ⟨2 ^ 64 - 1, by decide⟩

/-- `to_be_bytes` (src/id/u64.rs:15-17). -/
def toBeBytes (x : U64) : ByteArr 8 := toBe 8 x.val

/-- `from_be_bytes` (src/id/u64.rs:19-21).  The modulus is the width of the machine integer; it is
the identity on 8 bytes (`ofBe_toBe`, `toBe_ofBe` in Verif/Proof/Bytes.lean). -/
def fromBeBytes (b : ByteArr 8) : U64 := ⟨ofBe b % 2 ^ 64, Nat.mod_lt _ (by decide)⟩

/-- `try_from_be_bytes` (src/id/u64.rs:23-28). -/
def tryFromBeBytes (b : Bytes) : Option U64 := (ByteArr.tryFrom 8 b).map fromBeBytes

/-- `encode_spo_triple` (src/id/u64.rs:30-36). -/
def encodeSpo (t : Triple U64) : ByteArr 24 :=
  let data := ByteArr.zero 24
  let data := data.copyFromSlice 0 (toBeBytes t.sub)
  let data := data.copyFromSlice 8 (toBeBytes t.pred)
  data.copyFromSlice 16 (toBeBytes t.obj)

/-- `encode_pos_triple` (src/id/u64.rs:38-44). -/
def encodePos (t : Triple U64) : ByteArr 24 :=
  let data := ByteArr.zero 24
  let data := data.copyFromSlice 0 (toBeBytes t.pred)
  let data := data.copyFromSlice 8 (toBeBytes t.obj)
  data.copyFromSlice 16 (toBeBytes t.sub)

/-- `encode_osp_triple` (src/id/u64.rs:46-52). -/
def encodeOsp (t : Triple U64) : ByteArr 24 :=
  let data := ByteArr.zero 24
  let data := data.copyFromSlice 0 (toBeBytes t.obj)
  let data := data.copyFromSlice 8 (toBeBytes t.sub)
  data.copyFromSlice 16 (toBeBytes t.pred)

/-- `decode_spo_triple` (src/id/u64.rs:54-59). -/
def decodeSpo (d : ByteArr 24) : Triple U64 :=
  { sub := fromBeBytes (d.slice 0 8), pred := fromBeBytes (d.slice 8 8),
    obj := fromBeBytes (d.slice 16 8) }

/-- `decode_pos_triple` (src/id/u64.rs:61-66). -/
def decodePos (d : ByteArr 24) : Triple U64 :=
  { pred := fromBeBytes (d.slice 0 8), obj := fromBeBytes (d.slice 8 8),
    sub := fromBeBytes (d.slice 16 8) }

/-- `decode_osp_triple` (src/id/u64.rs:68-73). -/
def decodeOsp (d : ByteArr 24) : Triple U64 :=
  { obj := fromBeBytes (d.slice 0 8), sub := fromBeBytes (d.slice 8 8),
    pred := fromBeBytes (d.slice 16 8) }

/-- `key_bounds_1` (src/id/u64.rs:75-93). -/
def keyBounds1 (a : U64) : Bound (ByteArr 24) × Bound (ByteArr 24) :=
  (.included (encodeSpo { sub := a, pred := MIN, obj := MIN }),
   .included (encodeSpo { sub := a, pred := MAX, obj := MAX }))

/-- `key_bounds_2` (src/id/u64.rs:95-114). -/
def keyBounds2 (a b : U64) : Bound (ByteArr 24) × Bound (ByteArr 24) :=
  (.included (encodeSpo { sub := a, pred := b, obj := MIN }),
   .included (encodeSpo { sub := a, pred := b, obj := MAX }))

end U64

/-- `impl ConcreteIdType for u64` (src/id/u64.rs:11-115). -/
instance : ConcreteId U64 where
  idLen := 8
  tripleLen := 24
  toBeBytes := U64.toBeBytes
  fromBeBytes := U64.fromBeBytes
  tryFromBeBytes := U64.tryFromBeBytes
  encodeSpo := U64.encodeSpo
  encodePos := U64.encodePos
  encodeOsp := U64.encodeOsp
  decodeSpo := U64.decodeSpo
  decodePos := U64.decodePos
  decodeOsp := U64.decodeOsp
  keyBounds1 := U64.keyBounds1
  keyBounds2 := U64.keyBounds2

/-! ## Ulid (src/id/ulid.rs) -/

/-- `ulid::Ulid(pub u128)`; its derived `Ord` is that of the `u128`. -/
abbrev Ulid := Fin (2 ^ 128)

namespace Ulid
/-- `Ulid(u128::MIN)`. -/
def MIN : Ulid := ⟨0, by decide⟩
/-- `Ulid(u128::MAX)`. -/
def MAX : Ulid := ⟨2 ^ 128 - 1, by decide⟩

/-- `to_be_bytes` (src/id/ulid.rs:12-14). -/
def toBeBytes (x : Ulid) : ByteArr 16 := toBe 16 x.val

/-- `from_be_bytes` (src/id/ulid.rs:16-18); see `U64.fromBeBytes` for the modulus. -/
def fromBeBytes (b : ByteArr 16) : Ulid := ⟨ofBe b % 2 ^ 128, Nat.mod_lt _ (by decide)⟩

/-- `try_from_be_bytes` (src/id/ulid.rs:20-25). -/
def tryFromBeBytes (b : Bytes) : Option Ulid := (ByteArr.tryFrom 16 b).map fromBeBytes

/-- `encode_spo_triple` (src/id/ulid.rs:27-33). -/
def encodeSpo (t : Triple Ulid) : ByteArr 48 :=
  let data := ByteArr.zero 48
  let data := data.copyFromSlice 0 (toBeBytes t.sub)
  let data := data.copyFromSlice 16 (toBeBytes t.pred)
  data.copyFromSlice 32 (toBeBytes t.obj)

/-- `encode_pos_triple` (src/id/ulid.rs:35-41). -/
def encodePos (t : Triple Ulid) : ByteArr 48 :=
  let data := ByteArr.zero 48
  let data := data.copyFromSlice 0 (toBeBytes t.pred)
  let data := data.copyFromSlice 16 (toBeBytes t.obj)
  data.copyFromSlice 32 (toBeBytes t.sub)

/-- `encode_osp_triple` (src/id/ulid.rs:43-49). -/
def encodeOsp (t : Triple Ulid) : ByteArr 48 :=
  let data := ByteArr.zero 48
  let data := data.copyFromSlice 0 (toBeBytes t.obj)
  let data := data.copyFromSlice 16 (toBeBytes t.sub)
  data.copyFromSlice 32 (toBeBytes t.pred)

/-- `decode_spo_triple` (src/id/ulid.rs:51-56). -/
def decodeSpo (d : ByteArr 48) : Triple Ulid :=
  { sub := fromBeBytes (d.slice 0 16), pred := fromBeBytes (d.slice 16 16),
    obj := fromBeBytes (d.slice 32 16) }

/-- `decode_pos_triple` (src/id/ulid.rs:58-63). -/
def decodePos (d : ByteArr 48) : Triple Ulid :=
  { pred := fromBeBytes (d.slice 0 16), obj := fromBeBytes (d.slice 16 16),
    sub := fromBeBytes (d.slice 32 16) }

/-- `decode_osp_triple` (src/id/ulid.rs:65-70). -/
def decodeOsp (d : ByteArr 48) : Triple Ulid :=
  { obj := fromBeBytes (d.slice 0 16), sub := fromBeBytes (d.slice 16 16),
    pred := fromBeBytes (d.slice 32 16) }

/-- `key_bounds_1` (src/id/ulid.rs:72-85). -/
def keyBounds1 (a : Ulid) : Bound (ByteArr 48) × Bound (ByteArr 48) :=
  (.included (encodeSpo { sub := a, pred := MIN, obj := MIN }),
   .included (encodeSpo { sub := a, pred := MAX, obj := MAX }))

/-- `key_bounds_2` (src/id/ulid.rs:87-106). -/
def keyBounds2 (a b : Ulid) : Bound (ByteArr 48) × Bound (ByteArr 48) :=
  (.included (encodeSpo { sub := a, pred := b, obj := MIN }),
   .included (encodeSpo { sub := a, pred := b, obj := MAX }))

end Ulid

/-- `impl ConcreteIdType for Ulid` (src/id/ulid.rs:8-107). -/
instance : ConcreteId Ulid where
  idLen := 16
  tripleLen := 48
  toBeBytes := Ulid.toBeBytes
  fromBeBytes := Ulid.fromBeBytes
  tryFromBeBytes := Ulid.tryFromBeBytes
  encodeSpo := Ulid.encodeSpo
  encodePos := Ulid.encodePos
  encodeOsp := Ulid.encodeOsp
  decodeSpo := Ulid.decodeSpo
  decodePos := Ulid.decodePos
  decodeOsp := Ulid.decodeOsp
  keyBounds1 := Ulid.keyBounds1
  keyBounds2 := Ulid.keyBounds2

end Verif
