import Verif.Spec.UlidGen
import Verif.Spec.MemApi

/-! # The ids of a ULID generator increase -/

namespace Verif.UlidGen

open Spec

variable {env : Nat → Reading × Reading}

theorem timestamp_ulid (r : Reading) : timestamp r.ulid = r.ms.val := by
  have := r.random.isLt
  simp only [timestamp, Reading.ulid]
  omega

theorem random_ulid (r : Reading) : randomBits r.ulid = r.random.val := by
  have := r.random.isLt
  simp only [randomBits, Reading.ulid]
  omega

theorem ulid_inj {r r' : Reading} : r.ulid = r'.ulid ↔ r = r' := by
  constructor
  · intro h
    have h1 := congrArg timestamp h
    have h2 := congrArg randomBits h
    rw [timestamp_ulid, timestamp_ulid] at h1
    rw [random_ulid, random_ulid] at h2
    cases r; cases r'
    simp only [Reading.mk.injEq]
    exact ⟨Fin.ext h1, Fin.ext h2⟩
  · rintro rfl; rfl

theorem increment_some {u v : Ulid} (h : increment u = some v) :
    v.val = u.val + 1 ∧ timestamp v = timestamp u ∧ randomBits v = randomBits u + 1 := by
  unfold increment at h
  split at h
  · cases h
  · next h' =>
    cases h
    simp only [timestamp, randomBits] at h' ⊢
    refine ⟨trivial, ?_, ?_⟩ <;> omega

/-- a call that does not overflow -/
theorem fresh_ok {k : Nat} (h : ¬ Overflows env k) :
    state env (k + 1) = ids env k ∧ (state env k).val < (ids env k).val ∧
      timestamp (ids env k) = max (timestamp (state env k)) (env k).1.ms.val ∧
      (randomBits (ids env k) = randomBits (state env k) + 1 ∨ randomBits (ids env k) = (env k).1.random.val) := by
  have hs : state env (k + 1) = (fresh (state env k) (env k)).1 := rfl
  rw [hs]
  unfold Overflows at h
  unfold ids fresh
  unfold generate at h ⊢
  split at h
  · next hle =>
    rw [if_pos hle]
    cases e : increment (state env k) with
    | none => rw [e] at h; exact absurd rfl h
    | some v =>
      obtain ⟨h1, h2, h3⟩ := increment_some e
      exact ⟨rfl, by show _ < v.val; omega, by show timestamp v = _; rw [h2]; exact (max_eq_left hle).symm, .inl h3⟩
  · next hle =>
    rw [if_neg hle]
    have h1 := timestamp_ulid (env k).1
    refine ⟨rfl, ?_, ?_, .inr (random_ulid _)⟩
    · show (state env k).val < (env k).1.ulid.val
      simp only [timestamp, Reading.ulid] at hle ⊢
      omega
    · show timestamp (env k).1.ulid = _
      rw [h1]
      exact (max_eq_right (by omega)).symm

/-- a call that overflows -/
theorem fresh_overflow {k : Nat} (h : Overflows env k) :
    state env (k + 1) = state env k ∧ ids env k = (env k).2.ulid := by
  have hs : state env (k + 1) = (fresh (state env k) (env k)).1 := rfl
  rw [hs]
  unfold Overflows at h
  unfold ids fresh
  unfold generate at h ⊢
  split at h
  · next hle =>
    rw [if_pos hle]
    cases e : increment (state env k) with
    | none => exact ⟨rfl, rfl⟩
    | some v => rw [e] at h; cases h
  · cases h

theorem state_mono {i j : Nat} (hij : i ≤ j) : (state env i).val ≤ (state env j).val := by
  induction j with
  | zero => obtain rfl : i = 0 := by omega
            exact le_rfl
  | succ j ih =>
    rcases Nat.lt_or_ge j i with hlt | hge
    · obtain rfl : i = j + 1 := by omega
      exact le_rfl
    · refine le_trans (ih hge) ?_
      by_cases h : Overflows env j
      · rw [(fresh_overflow h).1]
      · obtain ⟨e, h2, -⟩ := fresh_ok h
        rw [e]; exact h2.le

theorem increasing {i j : Nat} (hi : ¬ Overflows env i) (hj : ¬ Overflows env j) (hij : i < j) :
    (ids env i).val < (ids env j).val := by
  rw [← (fresh_ok hi).1]
  exact lt_of_le_of_lt (state_mono hij) (fresh_ok hj).2.1

theorem fresh_iff {n : Nat} :
    Fresh n (ids env) ↔ ∀ k < n, Overflows env k → ∀ j < n, j ≠ k → ids env j ≠ (env k).2.ulid := by
  constructor
  · intro h k hk ho j hj hjk e
    rw [← (fresh_overflow ho).2] at e
    exact hjk (h j hj k hk e)
  · intro h i hi j hj e
    by_contra hne
    by_cases ho : Overflows env i
    · rw [(fresh_overflow ho).2] at e
      exact h i hi ho j hj (Ne.symm hne) e.symm
    by_cases ho' : Overflows env j
    · rw [(fresh_overflow ho').2] at e
      exact h j hj ho' i hi hne e
    rcases Nat.lt_or_gt_of_ne hne with hlt | hlt
    · have := increasing ho ho' hlt; rw [e] at this; omega
    · have := increasing ho' ho hlt; rw [e] at this; omega

theorem fresh_ids {n : Nat} (h : ∀ k < n, ¬ Overflows env k) : Fresh n (ids env) :=
  fresh_iff.2 fun k hk ho => absurd ho (h k hk)

/-- the random bits of the state -/
theorem random_le {n : Nat} (m : Nat) (hm : ∀ k < n, (env k).1.random.val ≤ m) (h : ∀ k < n, ¬ Overflows env k) :
    ∀ k ≤ n, randomBits (state env k) ≤ m + k := by
  intro k
  induction k with
  | zero => intro _; exact Nat.zero_le _
  | succ k ih =>
    intro hk
    obtain ⟨e, -, -, h3⟩ := fresh_ok (h k hk)
    rw [e]
    rcases h3 with h3 | h3 <;> rw [h3]
    · have := ih (by omega); omega
    · have := hm k hk; omega

theorem not_overflows {n : Nat} (hm : ∀ k < n, (env k).1.random.val + n < 2 ^ 80) : ∀ k < n, ¬ Overflows env k := by
  intro k
  induction k using Nat.strong_induction_on with
  | _ k ih =>
    intro hk ho
    have h0 := hm k hk
    have := random_le (n := k) (2 ^ 80 - n - 1) (fun j hj => by have := hm j (by omega); omega)
      (fun j hj => ih j hj (by omega)) k le_rfl
    unfold Overflows generate at ho
    split at ho
    · cases e : increment (state env k) with
      | none =>
        unfold increment at e
        split at e
        · omega
        · cases e
      | some v => rw [e] at ho; cases ho
    · cases ho

/-- the times of the ids are those shown by the clock -/
theorem timestamp_ids {n : Nat} (h : ∀ k < n, ¬ Overflows env k) :
    ∀ k < n, (env k).1.ms.val ≤ timestamp (ids env k) ∧
      (timestamp (ids env k) = 0 ∨ ∃ i ≤ k, timestamp (ids env k) = (env i).1.ms.val) := by
  intro k
  induction k with
  | zero =>
    intro hk
    obtain ⟨-, -, h3, -⟩ := fresh_ok (h 0 hk)
    rw [h3]
    exact ⟨le_max_right _ _, .inr ⟨0, le_rfl, max_eq_right (show (0 : Ulid).val / 2 ^ 80 ≤ _ by simp)⟩⟩
  | succ k ih =>
    intro hk
    obtain ⟨-, -, h3, -⟩ := fresh_ok (h (k + 1) hk)
    obtain ⟨e, -⟩ := fresh_ok (h k (by omega))
    rw [e] at h3
    rw [h3]
    refine ⟨le_max_right _ _, ?_⟩
    have hmax : max (timestamp (ids env k)) (env (k + 1)).1.ms.val = timestamp (ids env k) ∨
        max (timestamp (ids env k)) (env (k + 1)).1.ms.val = (env (k + 1)).1.ms.val := by omega
    rcases hmax with hc | hc
    · rw [hc]
      rcases (ih (by omega)).2 with h0 | ⟨i, hi, hi'⟩
      · exact .inl h0
      · exact .inr ⟨i, by omega, hi'⟩
    · exact .inr ⟨k + 1, le_rfl, hc⟩

theorem later_ids {env' : Nat → Reading × Reading} {n n' : Nat} (h : ∀ k < n, ¬ Overflows env k)
    (h' : ∀ k < n', ¬ Overflows env' k) (hl : Later env n env' n') {i j : Nat} (hi : i < n) (hj : j < n') :
    (ids env i).val < (ids env' j).val := by
  have h1 := (timestamp_ids h i hi).2
  have h2 := (timestamp_ids h' j hj).1
  have h3 : timestamp (ids env i) < timestamp (ids env' j) := by
    rcases h1 with h1 | ⟨k, hk, hk'⟩
    · have : (env i).1.ms.val < (env' j).1.ms.val := hl i hi j hj
      omega
    · have : (env k).1.ms.val < (env' j).1.ms.val := hl k (by omega) j hj
      omega
  simp only [timestamp] at h3
  omega

end Verif.UlidGen
