import Verif.Model.Bincode

/-! # What a format should do, and which values can be written -/

namespace Verif.Bincode

/-- What was written is read back, whatever follows it; and what follows a value has no influence on what is read. -/
structure Format.Lawful {A : Type} (f : Format A) : Prop where
  get_put : ∀ a b, f.put a = some b → ∀ r, f.get (b ++ r) = some (a, r)
  get_append : ∀ b a r, f.get b = some (a, r) → ∀ t, f.get (b ++ t) = some (a, r ++ t)

namespace Shape

/-- Every string and every sequence in the value has a length below 2^64. -/
def Fits : (s : Shape) → s.Val → Prop
  | .unit, _ => True
  | .bool, _ => True
  | .uint _, _ => True
  | .string, x => String.utf8ByteSize x < 2 ^ 64
  | .ulid, _ => True
  | .option s, x => ∀ y, x = some y → s.Fits y
  | .pair s t, x => s.Fits x.1 ∧ t.Fits x.2
  | .seq s, l => List.length l < 2 ^ 64 ∧ ∀ x, List.Mem x l → s.Fits x
  | .array _ s, l => ∀ x ∈ l.val, s.Fits x

/-- a type without strings and sequences -/
def Flat : Shape → Prop
  | .string => False
  | .seq _ => False
  | .option s => s.Flat
  | .pair s t => s.Flat ∧ t.Flat
  | .array _ s => s.Flat
  | _ => True

/-- The values a Rust program can have are among these: no string or sequence has 2^63 bytes or elements. -/
def Rust (s : Shape) : Type := {v : s.Val // s.Fits v}

open Classical in
/-- the format, of those -/
noncomputable def rust (s : Shape) : Codec s.Rust where
  ser v := s.format.put v.val
  de b := (s.format.codec.de b).bind fun v => if h : s.Fits v then some ⟨v, h⟩ else none

end Shape

end Verif.Bincode
