import Verif.Model.Mem

/-!
# The ULID generator  (src/id/ulid.rs:109-129)

`UlidIdGenerator` wraps `ulid::Generator`, which is modelled by its documentation (crate ulid): a ULID is a 48-bit time in
milliseconds followed by 80 random bits; `generate` reads the clock, and if it has not advanced beyond the time of the previous
ULID increments that one, failing if its random bits are all ones.  The clock and the random bits are arbitrary inputs: the
clock may stand still or go back.
-/

namespace Verif.UlidGen

/-- What is read when a ULID is made: the clock in milliseconds since 1970, and random bits. -/
structure Reading where
  ms : Fin (2 ^ 48)
  random : Fin (2 ^ 80)
deriving DecidableEq

/-- `Ulid::new()`, or `Ulid::from_parts`. -/
def Reading.ulid (r : Reading) : Ulid := ⟨r.ms.val * 2 ^ 80 + r.random.val, by have := r.ms.isLt; have := r.random.isLt; omega⟩

/-- `Ulid::timestamp_ms` -/
def timestamp (u : Ulid) : Nat := u.val / 2 ^ 80

/-- `Ulid::random` -/
def randomBits (u : Ulid) : Nat := u.val % 2 ^ 80

/-- `Ulid::increment` -/
def increment (u : Ulid) : Option Ulid :=
  if h : randomBits u = 2 ^ 80 - 1 then none
  else some ⟨u.val + 1, by have := u.isLt; unfold randomBits at h; omega⟩

/-- `ulid::Generator::generate`: the state is the previous ULID. -/
def generate (previous : Ulid) (r : Reading) : Ulid × Option Ulid :=
  if r.ms.val ≤ timestamp previous then
    match increment previous with
    | some u => (u, some u)
    | none => (previous, none)
  else (r.ulid, some r.ulid)

/-- `fresh` (src/id/ulid.rs:126-128).  The second reading is that of `Ulid::new()`. -/
def fresh (previous : Ulid) (r : Reading × Reading) : Ulid × Ulid :=
  match generate previous r.1 with
  | (s, some u) => (s, u)
  | (s, none) => (s, r.2.ulid)

/-- The state after `k` calls, starting with `UlidIdGenerator::new()` (src/id/ulid.rs:113-119): the nil ULID. -/
def state (env : Nat → Reading × Reading) : Nat → Ulid
  | 0 => 0
  | k + 1 => (fresh (state env k) (env k)).1

/-- The ids a `UlidIdGenerator` returns.  Its `clone` (src/id/ulid.rs:122-124) is a new one. -/
def ids (env : Nat → Reading × Reading) : Gen Ulid := fun k => (fresh (state env k) (env k)).2

end Verif.UlidGen
