import Mathlib.Order.Defs.LinearOrder
import Mathlib.Data.List.Lex
import Mathlib.Order.Fin.Basic
import Mathlib.Order.Basic

/-!
# Bytes, byte strings and fixed-size byte arrays

Models the Rust primitive types the code manipulates: `u8`, `&[u8]` / `sled::IVec`, `[u8; N]`,
and `u64::to_be_bytes` / `u128::to_be_bytes` / `from_be_bytes` (std).  These are library
primitives; they are written out in full here so that nothing about them is assumed.
-/

namespace Verif

/-- Rust `u8`. -/
abbrev Byte := Fin 256

/-- A byte string: Rust `&[u8]`, `Vec<u8>`, `sled::IVec`.  `<` is the lexicographic order, which is
the `Ord` of Rust slices and the key order of a sled tree. -/
abbrev Bytes := List Byte

/-- Rust `[u8; n]`; `Ord` of arrays is lexicographic, as for slices. -/
abbrev ByteArr (n : Nat) := { l : Bytes // l.length = n }

namespace ByteArr

/-- `[0u8; n]`. -/
def zero (n : Nat) : ByteArr n := ⟨List.replicate n 0, by simp⟩

/-- `data[lo..lo+m].copy_from_slice(&src)` (as used in src/id/u64.rs:32-34, src/id/ulid.rs:29-31).
The side condition `lo + m ≤ n` is what Rust checks at run time (slice index panic); the lengths of
the two slices agree by construction. -/
def copyFromSlice {n m : Nat} (data : ByteArr n) (lo : Nat) (src : ByteArr m)
    (h : lo + m ≤ n := by decide) : ByteArr n :=
  ⟨data.1.take lo ++ src.1 ++ data.1.drop (lo + m), by
    have := data.2; have := src.2; simp; omega⟩

/-- `data[lo..lo+m].try_into().unwrap()` (as used in src/id/u64.rs:55-57, src/id/ulid.rs:52-54).
The side condition is the slice bound check; the `unwrap` cannot fail as the slice has length `m`. -/
def slice {n : Nat} (data : ByteArr n) (lo m : Nat) (h : lo + m ≤ n := by decide) : ByteArr m :=
  ⟨(data.1.drop lo).take m, by have := data.2; simp; omega⟩

/-- `<&[u8; n]>::try_from(bytes)` / `<[u8; n]>::try_from(bytes)`: succeeds iff the length is `n`. -/
def tryFrom (n : Nat) (b : Bytes) : Option (ByteArr n) :=
  if h : b.length = n then some ⟨b, h⟩ else none

end ByteArr

/-- Big-endian digits: the list of the `n` low bytes of `x`, most significant first. -/
def beList : Nat → Nat → Bytes
  | 0, _ => []
  | n + 1, x => ⟨x / 256 ^ n % 256, Nat.mod_lt _ (by decide)⟩ :: beList n x

theorem beList_length (n x : Nat) : (beList n x).length = n := by
  induction n with
  | zero => rfl
  | succ n ih => simp [beList, ih]

/-- `uN::to_be_bytes` for an `8 * n`-bit unsigned integer. -/
def toBe (n : Nat) (x : Nat) : ByteArr n := ⟨beList n x, beList_length n x⟩

/-- Value of a big-endian byte string. -/
def ofBeList (b : Bytes) : Nat := b.foldl (fun acc d => acc * 256 + d.val) 0

/-- `uN::from_be_bytes`. -/
def ofBe {n : Nat} (b : ByteArr n) : Nat := ofBeList b.1

end Verif
