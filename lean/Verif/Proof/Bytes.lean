import Verif.Model.Id
import Verif.Spec.Order

/-! # Helper lemmas on byte strings -/

namespace Verif

theorem ofBeList_cons (d : Byte) (b : Bytes) :
    ofBeList (d :: b) = d.val * 256 ^ b.length + ofBeList b := by
  have key : ∀ (b : Bytes) (acc : Nat),
      b.foldl (fun acc d => acc * 256 + d.val) acc = acc * 256 ^ b.length + ofBeList b := by
    intro b
    induction b with
    | nil => intro acc; simp [ofBeList]
    | cons e b ih =>
      intro acc
      simp only [List.foldl_cons, List.length_cons, ofBeList]
      rw [ih, ih]
      simp only [Nat.zero_mul, Nat.zero_add, Nat.pow_succ, Nat.add_mul]
      rw [Nat.mul_assoc, Nat.mul_comm 256, Nat.add_assoc]
  simp only [ofBeList, List.foldl_cons]
  rw [key]; simp [ofBeList]

theorem ofBeList_lt (b : Bytes) : ofBeList b < 256 ^ b.length := by
  induction b with
  | nil => simp [ofBeList]
  | cons d b ih =>
    rw [ofBeList_cons, List.length_cons, Nat.pow_succ]
    have := d.isLt
    calc d.val * 256 ^ b.length + ofBeList b
        < d.val * 256 ^ b.length + 256 ^ b.length := by omega
      _ = (d.val + 1) * 256 ^ b.length := by rw [Nat.add_mul, Nat.one_mul]
      _ ≤ 256 * 256 ^ b.length := Nat.mul_le_mul_right _ (by omega)
      _ = 256 ^ b.length * 256 := Nat.mul_comm _ _

theorem ofBeList_beList (n x : Nat) : ofBeList (beList n x) = x % 256 ^ n := by
  induction n with
  | zero => simp [beList, ofBeList, Nat.mod_one]
  | succ n ih =>
    rw [beList, ofBeList_cons, ih, beList_length, Nat.pow_succ, Nat.mod_mul]
    simp only []
    rw [Nat.mul_comm, Nat.add_comm]

theorem beList_congr (n x y : Nat) (h : x % 256 ^ n = y % 256 ^ n) : beList n x = beList n y := by
  induction n with
  | zero => rfl
  | succ n ih =>
    rw [Nat.pow_succ] at h
    have h1 : x % 256 ^ n = y % 256 ^ n := by
      have := congrArg (· % 256 ^ n) h
      simpa [Nat.mod_mul_right_mod] using this
    have h2 : x / 256 ^ n % 256 = y / 256 ^ n % 256 := by
      have := congrArg (· / 256 ^ n) h
      simpa [Nat.mod_mul_right_div_self] using this
    simp only [beList]
    rw [ih h1]
    congr 1
    exact Fin.ext h2

theorem beList_ofBeList (b : Bytes) : beList b.length (ofBeList b) = b := by
  induction b with
  | nil => rfl
  | cons d b ih =>
    have hlt := ofBeList_lt b
    rw [List.length_cons, beList]
    congr 1
    · apply Fin.ext
      simp only [ofBeList_cons]
      rw [Nat.mul_comm, Nat.mul_add_div (Nat.pow_pos (by decide)), Nat.div_eq_of_lt hlt]
      have := d.isLt
      omega
    · conv_rhs => rw [← ih]
      apply beList_congr
      rw [ofBeList_cons, Nat.mul_comm, Nat.mul_add_mod]

theorem toBe_ofBe {n : Nat} (b : ByteArr n) : toBe n (ofBe b) = b := by
  obtain ⟨b, rfl⟩ := b
  exact Subtype.ext (beList_ofBeList b)

theorem ofBe_toBe (n x : Nat) : ofBe (toBe n x) = x % 256 ^ n := ofBeList_beList n x

theorem ofBe_lt {n : Nat} (b : ByteArr n) : ofBe b < 256 ^ n := by
  obtain ⟨b, rfl⟩ := b; exact ofBeList_lt b

theorem lt_iff_append {a a' b b' : Bytes} (h : a.length = a'.length) :
    a ++ b < a' ++ b' ↔ a < a' ∨ (a = a' ∧ b < b') := by
  induction a generalizing a' with
  | nil =>
    cases a' with
    | nil => simp
    | cons _ _ => simp at h
  | cons x a ih =>
    cases a' with
    | nil => simp at h
    | cons y a' =>
      simp only [List.length_cons, Nat.add_right_cancel_iff] at h
      simp only [List.cons_append, List.cons_lt_cons_iff, ih h, List.cons.injEq]
      tauto

theorem beList_lt (n x y : Nat) : beList n x < beList n y ↔ x % 256 ^ n < y % 256 ^ n := by
  induction n with
  | zero => simp [beList, Nat.mod_one]
  | succ n ih =>
    rw [beList, beList, List.cons_lt_cons_iff, ih, Nat.pow_succ, Nat.mod_mul, Nat.mod_mul]
    have hx := Nat.mod_lt x (Nat.pow_pos (n := n) (show 0 < 256 by decide))
    have hy := Nat.mod_lt y (Nat.pow_pos (n := n) (show 0 < 256 by decide))
    simp only [Fin.mk.injEq, Fin.mk_lt_mk]
    generalize x % 256 ^ n = a at *
    generalize y % 256 ^ n = b at *
    generalize x / 256 ^ n % 256 = c at *
    generalize y / 256 ^ n % 256 = d at *
    generalize 256 ^ n = N at *
    rcases Nat.lt_trichotomy c d with h | h | h
    · have : N * c + N ≤ N * d := by
        calc N * c + N = N * (c + 1) := by rw [Nat.mul_add, Nat.mul_one]
          _ ≤ N * d := Nat.mul_le_mul_left _ h
      constructor
      · intro _; omega
      · intro _; exact Or.inl h
    · subst h
      constructor
      · rintro (h | ⟨_, h⟩) <;> omega
      · intro h; right; exact ⟨rfl, by omega⟩
    · have : N * d + N ≤ N * c := by
        calc N * d + N = N * (d + 1) := by rw [Nat.mul_add, Nat.mul_one]
          _ ≤ N * c := Nat.mul_le_mul_left _ h
      constructor
      · rintro (h' | ⟨h', _⟩) <;> omega
      · intro _; omega

/-- Concatenation of three big-endian numbers: the common shape of every encoded key. -/
def enc3 (w a b c : Nat) : Bytes := beList w a ++ (beList w b ++ beList w c)

theorem enc3_lt {w a b c a' b' c' : Nat} (ha : a < 256 ^ w) (hb : b < 256 ^ w) (hc : c < 256 ^ w)
    (ha' : a' < 256 ^ w) (hb' : b' < 256 ^ w) (hc' : c' < 256 ^ w) :
    enc3 w a b c < enc3 w a' b' c' ↔ a < a' ∨ (a = a' ∧ (b < b' ∨ (b = b' ∧ c < c'))) := by
  have inj : ∀ {x y : Nat}, x < 256 ^ w → y < 256 ^ w → (beList w x = beList w y ↔ x = y) := by
    intro x y hx hy
    constructor
    · intro h
      have := congrArg ofBeList h
      rwa [ofBeList_beList, ofBeList_beList, Nat.mod_eq_of_lt hx, Nat.mod_eq_of_lt hy] at this
    · rintro rfl; rfl
  unfold enc3
  rw [lt_iff_append (by simp [beList_length]), lt_iff_append (by simp [beList_length]),
    beList_lt, beList_lt, beList_lt, inj ha ha', inj hb hb',
    Nat.mod_eq_of_lt ha, Nat.mod_eq_of_lt hb, Nat.mod_eq_of_lt hc,
    Nat.mod_eq_of_lt ha', Nat.mod_eq_of_lt hb', Nat.mod_eq_of_lt hc']

end Verif
