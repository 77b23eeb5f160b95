import Verif.Model.Sled

/-!
# bincode

The serialization format of the sled store and of the sled name index: `bincode::serialize`, `bincode::deserialize` of bincode 1.3.3
(src/sled/insert.rs:20, 33, src/sled/extend.rs:27, 39, src/sled/merge.rs:47-139, src/sled/iter.rs:28-311,
src/sled/query.rs:36-238, src/sled.rs:212, 387-471).  Written after the documentation of the format:
integers have a fixed width and are little-endian, strings and sequences are preceded by their length as a `u64`, options by a byte
0 or 1, the fields of structs and tuples follow one another; `deserialize` ignores what follows the value.  A `Ulid` is serialized
as its text of 26 characters (crate ulid 1.1.3, feature serde: Cargo.toml:26).

Elsewhere the format is an arbitrary `Codec`; this file gives the one used.
-/

namespace Verif.Bincode

/-- A format: how a value is written, and how one is read off the front of some bytes. -/
structure Format (A : Type) where
  put : A → Option Bytes
  get : Bytes → Option (A × Bytes)

/-- `bincode::serialize`, `bincode::deserialize` -/
def Format.codec {A : Type} (f : Format A) : Codec A where
  ser := f.put
  de b := (f.get b).map Prod.fst

/-- `read_exact` of `n` bytes -/
def readN (n : Nat) (b : Bytes) : Option (Bytes × Bytes) := if n ≤ b.length then some (b.take n, b.drop n) else none

/-- little-endian digits -/
def leList : Nat → Nat → Bytes
  | 0, _ => []
  | n + 1, x => ⟨x % 256, Nat.mod_lt _ (by decide)⟩ :: leList n (x / 256)

def ofLeList : Bytes → Nat
  | [] => 0
  | d :: l => d.val + 256 * ofLeList l

/-- `()` -/
def unit : Format Unit where
  put _ := some []
  get b := some ((), b)

/-- unsigned integers below `N`, in `k` bytes -/
def uint (k N : Nat) : Format (Fin N) where
  put x := some (leList k x.val)
  get b := (readN k b).bind fun x => if h : ofLeList x.1 < N then some (⟨ofLeList x.1, h⟩, x.2) else none

/-- `bool` -/
def bool : Format Bool where
  put x := some [if x then 1 else 0]
  get
    | [] => none
    | d :: b => if d = 0 then some (false, b) else if d = 1 then some (true, b) else none

/-- a length -/
def len : Format (Fin (2 ^ 64)) := uint 8 (2 ^ 64)

/-- the bytes of a string -/
def utf8 (s : String) : Bytes := s.toByteArray.data.toList.map UInt8.toFin

/-- `String::from_utf8` -/
def fromUtf8 (b : Bytes) : Option String := String.fromUTF8? ⟨(b.map UInt8.ofFin).toArray⟩

/-- bytes preceded by their number -/
def blob : Format Bytes where
  put b := if h : b.length < 2 ^ 64 then (len.put ⟨b.length, h⟩).map (· ++ b) else none
  get b := (len.get b).bind fun x => readN x.1.val x.2

/-- `String` -/
def string : Format String where
  put s := blob.put (utf8 s)
  get b := (blob.get b).bind fun x => (fromUtf8 x.1).map fun s => (s, x.2)

/-- `Option<A>` -/
def option {A : Type} (f : Format A) : Format (Option A) where
  put
    | none => some [0]
    | some a => (f.put a).map (1 :: ·)
  get
    | [] => none
    | d :: b => if d = 0 then some (none, b) else if d = 1 then (f.get b).map fun x => (some x.1, x.2) else none

/-- a pair, or a struct of two fields -/
def pair {A B : Type} (f : Format A) (g : Format B) : Format (A × B) where
  put x := (f.put x.1).bind fun b => (g.put x.2).map (b ++ ·)
  get b := (f.get b).bind fun x => (g.get x.2).map fun y => ((x.1, y.1), y.2)

/-- one value after another -/
def putAll {A : Type} (f : Format A) : List A → Option Bytes
  | [] => some []
  | a :: l => (f.put a).bind fun b => (putAll f l).map (b ++ ·)

def getAll {A : Type} (f : Format A) : Nat → Bytes → Option (List A × Bytes)
  | 0, b => some ([], b)
  | n + 1, b => (f.get b).bind fun x => (getAll f n x.2).map fun y => (x.1 :: y.1, y.2)

/-- `Vec<A>` and other sequences -/
def seq {A : Type} (f : Format A) : Format (List A) where
  put l := if h : l.length < 2 ^ 64 then (len.put ⟨l.length, h⟩).bind fun b => (putAll f l).map (b ++ ·) else none
  get b := (len.get b).bind fun x => getAll f x.1.val x.2

/-- `[A; n]`: serialized as a tuple, hence without its length -/
def array {A : Type} (n : Nat) (f : Format A) : Format {l : List A // l.length = n} where
  put l := putAll f l.val
  get b := (getAll f n b).bind fun x => if h : x.1.length = n then some (⟨x.1, h⟩, x.2) else none

/-! ## The text of a ULID -/

/-- `ALPHABET`: `0123456789ABCDEFGHJKMNPQRSTVWXYZ` -/
def letter (d : Fin 32) : Byte :=
  match d.val with
  | 18 => 74 | 19 => 75  -- J K
  | 20 => 77 | 21 => 78  -- M N
  | n =>
    if n < 10 then Fin.ofNat 256 (48 + n)        -- 0-9
    else if n < 18 then Fin.ofNat 256 (65 + (n - 10))  -- A-H
    else if n < 27 then Fin.ofNat 256 (80 + (n - 22))  -- P-T
    else Fin.ofNat 256 (86 + (n - 27))            -- V-Z

/-- the lower case of a letter -/
def lower (c : Byte) : Byte := if 65 ≤ c.val ∧ c.val ≤ 90 then Fin.ofNat 256 (c.val + 32) else c

/-- `LOOKUP` -/
def digit (c : Byte) : Option (Fin 32) := (List.finRange 32).find? fun d => decide (letter d = c ∨ lower (letter d) = c)

/-- the `n` low digits, most significant first -/
def text : Nat → Nat → Bytes
  | 0, _ => []
  | n + 1, x => letter (Fin.ofNat 32 (x / 32 ^ n)) :: text n x

/-- the loop of `decode`: the value is a `u128`, bits shifted out are lost -/
def value : Nat → Bytes → Option Nat
  | acc, [] => some acc
  | acc, c :: l => (digit c).bind fun d => value ((acc * 32 + d.val) % 2 ^ 128) l

/-- `Ulid::from_string` -/
def fromText (b : Bytes) : Option Ulid :=
  if b.length = 26 then (value 0 b).map (Fin.ofNat (2 ^ 128)) else none

/-- `Ulid` -/
def ulid : Format Ulid where
  put u := blob.put (text 26 u.val)
  get b := (blob.get b).bind fun x => (fromText x.1).map fun u => (u, x.2)

/-! ## Types -/

/-- The types built from these. -/
inductive Shape where
  | unit
  | bool
  /-- `k` bytes -/
  | uint (k : Nat)
  | string
  | ulid
  | option (s : Shape)
  | pair (s t : Shape)
  | seq (s : Shape)
  /-- of length `n` -/
  | array (n : Nat) (s : Shape)

namespace Shape

def Val : Shape → Type
  | .unit => Unit
  | .bool => Bool
  | .uint k => Fin (256 ^ k)
  | .string => String
  | .ulid => Ulid
  | .option s => Option s.Val
  | .pair s t => s.Val × t.Val
  | .seq s => List s.Val
  | .array n s => {l : List s.Val // l.length = n}

def format : (s : Shape) → Format s.Val
  | .unit => Bincode.unit
  | .bool => Bincode.bool
  | .uint k => Bincode.uint k (256 ^ k)
  | .string => Bincode.string
  | .ulid => Bincode.ulid
  | .option s => Bincode.option s.format
  | .pair s t => Bincode.pair s.format t.format
  | .seq s => Bincode.seq s.format
  | .array n s => Bincode.array n s.format

end Shape

end Verif.Bincode
