import Verif.Proof.U64Gen

/-! # C24: the counter id generator -/

namespace Verif.Props

open U64Gen

/-- **C24.**  Whatever the initial value and however the callers are interleaved (including callers that create or
use other generators), the `k`-th id drawn from a `U64IdGenerator` or any of its clones is the initial value plus
`k`, wrapping at `2^64`. -/
theorem C24_kth (v : U64) (acts : List Act) (k : Nat) (hk : k < (familyDraws v acts).length) :
    ((familyDraws v acts)[k]).val = (v.val + k) % 2 ^ 64 := by
  obtain ⟨n, hn⟩ := draws_eq (track_init v) acts
  have e : familyDraws v acts = (List.range n).map (fun k => v + Fin.ofNat (2 ^ 64) k) := hn
  simp only [e, List.getElem_map, List.getElem_range, Fin.val_add, Fin.ofNat]
  omega

/-- **C24.**  The first `2^64` ids drawn are pairwise distinct. -/
theorem C24_distinct (v : U64) (acts : List Act) : ((familyDraws v acts).take (2 ^ 64)).Nodup := by
  rw [List.nodup_iff_injective_getElem]
  intro ⟨i, hi⟩ ⟨j, hj⟩ h
  rw [List.length_take] at hi hj
  simp only [List.getElem_take] at h
  have hi' := C24_kth v acts i (lt_of_lt_of_le hi (min_le_right _ _))
  have hj' := C24_kth v acts j (lt_of_lt_of_le hj (min_le_right _ _))
  have h' := congrArg Fin.val h
  rw [hi', hj'] at h'
  have := v.isLt
  apply Fin.ext
  show i = j
  have hi2 : i < 2 ^ 64 := lt_of_lt_of_le hi (min_le_left _ _)
  have hj2 : j < 2 ^ 64 := lt_of_lt_of_le hj (min_le_left _ _)
  omega

/-- **C24.**  After `2^64` draws the ids repeat: the next draw yields the first id again, and so on. -/
theorem C24_repeats (v : U64) (acts : List Act) (k : Nat)
    (hk : k + 2 ^ 64 < (familyDraws v acts).length) :
    (familyDraws v acts)[k + 2 ^ 64] = (familyDraws v acts)[k]'(by omega) := by
  apply Fin.ext
  rw [C24_kth v acts _ hk, C24_kth v acts k (by omega)]
  omega

/-- The hypothesis of `C24_repeats` can be met: `n` draws from the generator itself are `n` ids. -/
theorem draws_replicate (v : U64) (n : Nat) :
    (familyDraws v (List.replicate n (.fresh 0))).length = n := by
  have hf : ∀ n, family [true] (List.replicate n (.fresh 0)) = [true] := by
    intro n
    induction n with
    | zero => rfl
    | succ n ih => exact ih
  have hr : ∀ (n : Nat) (v : U64),
      ((run (init v) (List.replicate n (.fresh 0))).2.filter (fun d => [true][d.1]? == some true)).length = n := by
    intro n
    induction n with
    | zero => intro v; rfl
    | succ n ih => intro v; exact congrArg (· + 1) (ih (v + 1))
  unfold familyDraws
  rw [List.length_map, hf]
  exact hr n v

-- A clone of a clone, another generator starting at the same value, and wrapping around `u64::MAX`.
example : familyDraws U64.MAX [.fresh 0, .clone 0, .new U64.MAX, .fresh 1, .fresh 2, .clone 1, .fresh 3, .fresh 0]
    = [U64.MAX, 0, 1, 2] := by decide
-- Two draws from one handle interleaved with two from its clone.
example : familyDraws 7 [.clone 0, .fresh 1, .fresh 0, .fresh 0, .fresh 1] = [7, 8, 9, 10] := by decide
-- The premise of `C24_repeats`.
example : 0 + 2 ^ 64 < (familyDraws 5 (List.replicate (2 ^ 64 + 1) (.fresh 0))).length := by
  rw [draws_replicate]; decide

end Verif.Props
