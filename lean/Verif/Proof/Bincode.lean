import Verif.Spec.Bincode
import Verif.Spec.SledApi

/-! # Helper lemmas on bincode -/

namespace Verif.Bincode

theorem readN_append {n : Nat} {x : Bytes} (h : x.length = n) (r : Bytes) : readN n (x ++ r) = some (x, r) := by
  subst h; simp [readN]

theorem readN_more {n : Nat} {b x r : Bytes} (h : readN n b = some (x, r)) (t : Bytes) :
    readN n (b ++ t) = some (x, r ++ t) := by
  unfold readN at h ⊢
  split at h
  · next hn =>
    simp only [Option.some.injEq, Prod.mk.injEq] at h
    obtain ⟨rfl, rfl⟩ := h
    rw [if_pos (by rw [List.length_append]; omega)]
    rw [List.take_append_of_le_length hn, List.drop_append_of_le_length hn]
  · exact absurd h (by simp)

@[simp] theorem leList_length (n x : Nat) : (leList n x).length = n := by
  induction n generalizing x with
  | zero => rfl
  | succ n ih => simp [leList, ih]

theorem ofLeList_leList (n x : Nat) (h : x < 256 ^ n) : ofLeList (leList n x) = x := by
  induction n generalizing x with
  | zero => simp at h; simp [leList, ofLeList, h]
  | succ n ih =>
    rw [leList, ofLeList, ih _ (by rw [Nat.pow_succ] at h; exact Nat.div_lt_of_lt_mul (by omega))]
    exact Nat.mod_add_div _ _

theorem unit_lawful : unit.Lawful where
  get_put := by
    rintro _ b h r
    simp only [unit, Option.some.injEq] at h
    subst h; rfl
  get_append := by
    intro b a r h t
    simp only [unit, Option.some.injEq, Prod.mk.injEq] at h ⊢
    exact ⟨trivial, by rw [h.2]⟩

theorem uint_lawful (k N : Nat) (hN : N ≤ 256 ^ k) : (uint k N).Lawful where
  get_put := by
    intro a b h r
    simp only [uint, Option.some.injEq] at h
    subst h
    have e : ofLeList (leList k a.val) = a.val := ofLeList_leList _ _ (Nat.lt_of_lt_of_le a.isLt hN)
    simp only [uint, readN_append (leList_length k a.val) r, Option.bind_some, e, a.isLt, dif_pos, Fin.eta]
  get_append := by
    intro b a r h t
    simp only [uint, Option.bind_eq_some_iff] at h ⊢
    obtain ⟨⟨x, y⟩, h1, h2⟩ := h
    refine ⟨(x, y ++ t), readN_more h1 t, ?_⟩
    simp only at h2 ⊢
    split at h2
    · next hl =>
      simp only [Option.some.injEq, Prod.mk.injEq] at h2 ⊢
      rw [dif_pos hl]
      simp [h2.1, h2.2]
    · exact absurd h2 (by simp)

theorem bool_lawful : bool.Lawful where
  get_put := by
    intro a b h r
    simp only [bool, Option.some.injEq] at h
    subst h
    cases a <;> rfl
  get_append := by
    intro b a r h t
    cases b with
    | nil => exact absurd h (by simp [bool])
    | cons d b =>
      simp only [bool, List.cons_append] at h ⊢
      split at h
      · simp only [Option.some.injEq, Prod.mk.injEq] at h
        rw [if_pos (by assumption), h.1, h.2]
      · split at h
        · simp only [Option.some.injEq, Prod.mk.injEq] at h
          rw [if_neg (by assumption), if_pos (by assumption), h.1, h.2]
        · exact absurd h (by simp)

theorem len_lawful : len.Lawful := uint_lawful 8 _ (by decide)

theorem blob_lawful : blob.Lawful where
  get_put := by
    intro a b h r
    simp only [blob] at h
    split at h
    · next hl =>
      rw [Option.map_eq_some_iff] at h
      obtain ⟨c, h1, rfl⟩ := h
      simp only [blob, List.append_assoc, len_lawful.get_put _ _ h1, Option.bind_some]
      exact readN_append rfl r
    · exact absurd h (by simp)
  get_append := by
    intro b a r h t
    simp only [blob, Option.bind_eq_some_iff] at h ⊢
    obtain ⟨⟨n, y⟩, h1, h2⟩ := h
    exact ⟨(n, y ++ t), len_lawful.get_append _ _ _ h1 t, readN_more h2 t⟩

/-- A format after a partial decoding of what is read. -/
theorem Format.Lawful.through {A B : Type} {f : Format A} (hf : f.Lawful) (enc : B → A) (dec : A → Option B)
    (h : ∀ b, dec (enc b) = some b) :
    (Format.mk (fun b => f.put (enc b)) fun b => (f.get b).bind fun x => (dec x.1).map fun s => (s, x.2)).Lawful where
  get_put := by
    intro a b hp r
    simp only [hf.get_put _ _ hp r, Option.bind_some, h, Option.map_some]
  get_append := by
    intro b a r hg t
    simp only [Option.bind_eq_some_iff, Option.map_eq_some_iff] at hg ⊢
    obtain ⟨⟨x, y⟩, h1, s, h2, h3⟩ := hg
    simp only [Prod.mk.injEq] at h3
    exact ⟨(x, y ++ t), hf.get_append _ _ _ h1 t, s, h2, by simp [h3.1, h3.2]⟩

theorem fromUtf8_utf8 (s : String) : fromUtf8 (utf8 s) = some s := by
  have e : (⟨((utf8 s).map UInt8.ofFin).toArray⟩ : ByteArray) = s.toByteArray := by
    simp only [utf8, List.map_map]
    have : (UInt8.ofFin ∘ UInt8.toFin) = id := by funext x; simp
    rw [this, List.map_id]
  rw [fromUtf8, e]
  simp [String.fromUTF8?, s.isValidUTF8, String.fromUTF8]

theorem string_lawful : string.Lawful := blob_lawful.through utf8 fromUtf8 fromUtf8_utf8

theorem digit_letter : ∀ d : Fin 32, digit (letter d) = some d := by decide +kernel

@[simp] theorem text_length (n x : Nat) : (text n x).length = n := by
  induction n with
  | zero => rfl
  | succ n ih => simp [text, ih]

theorem value_text (n x acc : Nat) (hx : acc * 32 ^ n + x % 32 ^ n < 2 ^ 128) :
    value acc (text n x) = some (acc * 32 ^ n + x % 32 ^ n) := by
  induction n generalizing acc with
  | zero => simp [text, value, Nat.mod_one]
  | succ n ih =>
    rw [text, value, digit_letter, Option.bind_some]
    have e : (acc * 32 + (Fin.ofNat 32 (x / 32 ^ n)).val) * 32 ^ n + x % 32 ^ n = acc * 32 ^ (n + 1) + x % 32 ^ (n + 1) := by
      rw [Fin.val_ofNat, Nat.pow_succ, Nat.mod_mul, Nat.add_mul]
      rw [Nat.mul_comm (32 ^ n) 32, ← Nat.mul_assoc, Nat.mul_comm (x / 32 ^ n % 32)]
      omega
    have l : acc * 32 + (Fin.ofNat 32 (x / 32 ^ n)).val < 2 ^ 128 := by
      have hp : 1 ≤ 32 ^ n := Nat.one_le_pow _ _ (by decide)
      have := Nat.le_mul_of_pos_right (acc * 32 + (Fin.ofNat 32 (x / 32 ^ n)).val) hp
      omega
    rw [Nat.mod_eq_of_lt l, ih _ (by rw [e]; exact hx), e]

theorem fromText_text (u : Ulid) : fromText (text 26 u.val) = some u := by
  have hu : u.val < 32 ^ 26 := Nat.lt_of_lt_of_le u.isLt (by decide)
  rw [fromText, if_pos (text_length 26 u.val), value_text _ _ _ (by rw [Nat.zero_mul, Nat.zero_add, Nat.mod_eq_of_lt hu]; exact u.isLt)]
  rw [Nat.zero_mul, Nat.zero_add, Nat.mod_eq_of_lt hu, Option.map_some]
  congr 1
  exact Fin.ext (by rw [Fin.val_ofNat]; exact Nat.mod_eq_of_lt u.isLt)

theorem ulid_lawful : ulid.Lawful := blob_lawful.through (fun u : Ulid => text 26 u.val) fromText fromText_text

theorem option_lawful {A : Type} {f : Format A} (hf : f.Lawful) : (option f).Lawful where
  get_put := by
    intro a b h r
    cases a with
    | none =>
      simp only [option, Option.some.injEq] at h
      subst h; rfl
    | some a =>
      simp only [option, Option.map_eq_some_iff] at h
      obtain ⟨c, h1, rfl⟩ := h
      simp only [option, List.cons_append]
      rw [if_neg (by decide), if_pos trivial, hf.get_put _ _ h1 r, Option.map_some]
  get_append := by
    intro b a r h t
    cases b with
    | nil => exact absurd h (by simp [option])
    | cons d b =>
      simp only [option, List.cons_append] at h ⊢
      split at h
      · simp only [Option.some.injEq, Prod.mk.injEq] at h
        rw [if_pos (by assumption), h.1, h.2]
      · split at h
        · rw [if_neg (by assumption), if_pos (by assumption)]
          rw [Option.map_eq_some_iff] at h ⊢
          obtain ⟨⟨x, y⟩, h1, h2⟩ := h
          simp only [Prod.mk.injEq] at h2
          exact ⟨(x, y ++ t), hf.get_append _ _ _ h1 t, by simp [h2.1, h2.2]⟩
        · exact absurd h (by simp)

theorem pair_lawful {A B : Type} {f : Format A} {g : Format B} (hf : f.Lawful) (hg : g.Lawful) : (pair f g).Lawful where
  get_put := by
    intro a b h r
    simp only [pair, Option.bind_eq_some_iff, Option.map_eq_some_iff] at h
    obtain ⟨c, h1, d, h2, rfl⟩ := h
    simp only [pair, List.append_assoc, hf.get_put _ _ h1, Option.bind_some, hg.get_put _ _ h2, Option.map_some]
  get_append := by
    intro b a r h t
    simp only [pair, Option.bind_eq_some_iff, Option.map_eq_some_iff] at h ⊢
    obtain ⟨⟨x, y⟩, h1, ⟨z, w⟩, h2, h3⟩ := h
    simp only [Prod.mk.injEq] at h3
    exact ⟨(x, y ++ t), hf.get_append _ _ _ h1 t, (z, w ++ t), hg.get_append _ _ _ h2 t, by simp [h3.1, h3.2]⟩

theorem getAll_putAll {A : Type} {f : Format A} (hf : f.Lawful) (l : List A) {b : Bytes} (h : putAll f l = some b) (r : Bytes) :
    getAll f l.length (b ++ r) = some (l, r) := by
  induction l generalizing b with
  | nil =>
    simp only [putAll, Option.some.injEq] at h
    subst h; rfl
  | cons a l ih =>
    simp only [putAll, Option.bind_eq_some_iff, Option.map_eq_some_iff] at h
    obtain ⟨c, h1, d, h2, rfl⟩ := h
    simp only [List.length_cons, getAll, List.append_assoc, hf.get_put _ _ h1, Option.bind_some, ih h2, Option.map_some]

theorem getAll_append {A : Type} {f : Format A} (hf : f.Lawful) (n : Nat) {b r : Bytes} {l : List A} (h : getAll f n b = some (l, r))
    (t : Bytes) : getAll f n (b ++ t) = some (l, r ++ t) := by
  induction n generalizing b l with
  | zero =>
    simp only [getAll, Option.some.injEq, Prod.mk.injEq] at h ⊢
    exact ⟨h.1, by rw [h.2]⟩
  | succ n ih =>
    simp only [getAll, Option.bind_eq_some_iff, Option.map_eq_some_iff] at h ⊢
    obtain ⟨⟨x, y⟩, h1, ⟨z, w⟩, h2, h3⟩ := h
    simp only [Prod.mk.injEq] at h3
    obtain ⟨rfl, rfl⟩ := h3
    exact ⟨(x, y ++ t), hf.get_append _ _ _ h1 t, (z, w ++ t), ih h2, rfl⟩

theorem seq_lawful {A : Type} {f : Format A} (hf : f.Lawful) : (seq f).Lawful where
  get_put := by
    intro a b h r
    simp only [seq] at h
    split at h
    · simp only [Option.bind_eq_some_iff, Option.map_eq_some_iff] at h
      obtain ⟨c, h1, d, h2, rfl⟩ := h
      simp only [seq, List.append_assoc, len_lawful.get_put _ _ h1, Option.bind_some]
      exact getAll_putAll hf a h2 r
    · exact absurd h (by simp)
  get_append := by
    intro b a r h t
    simp only [seq, Option.bind_eq_some_iff] at h ⊢
    obtain ⟨⟨n, y⟩, h1, h2⟩ := h
    exact ⟨(n, y ++ t), len_lawful.get_append _ _ _ h1 t, getAll_append hf _ h2 t⟩

theorem getAll_length {A : Type} {f : Format A} {n : Nat} {b r : Bytes} {l : List A} (h : getAll f n b = some (l, r)) : l.length = n := by
  induction n generalizing b l with
  | zero =>
    simp only [getAll, Option.some.injEq, Prod.mk.injEq] at h
    rw [← h.1]; rfl
  | succ n ih =>
    simp only [getAll, Option.bind_eq_some_iff, Option.map_eq_some_iff] at h
    obtain ⟨x, -, ⟨z, w⟩, h2, h3⟩ := h
    simp only [Prod.mk.injEq] at h3
    obtain ⟨rfl, rfl⟩ := h3
    rw [List.length_cons, ih h2]

theorem array_lawful {A : Type} {f : Format A} (hf : f.Lawful) (n : Nat) : (array n f).Lawful where
  get_put := by
    rintro ⟨l, rfl⟩ b h r
    simp only [array] at h
    simp only [array, getAll_putAll hf l h r, Option.bind_some, dif_pos]
  get_append := by
    intro b a r h t
    simp only [array, Option.bind_eq_some_iff] at h ⊢
    obtain ⟨⟨l, y⟩, h1, h2⟩ := h
    refine ⟨(l, y ++ t), getAll_append hf _ h1 t, ?_⟩
    simp only [getAll_length h1, dif_pos, Option.some.injEq, Prod.mk.injEq] at h2 ⊢
    exact ⟨h2.1, by rw [h2.2]⟩

theorem Shape.lawful : (s : Shape) → s.format.Lawful
  | .unit => unit_lawful
  | .bool => bool_lawful
  | .uint k => uint_lawful k _ (Nat.le_refl _)
  | .string => string_lawful
  | .ulid => ulid_lawful
  | .option s => option_lawful s.lawful
  | .pair s t => pair_lawful s.lawful t.lawful
  | .seq s => seq_lawful s.lawful
  | .array n s => array_lawful s.lawful n

/-! ## Which values can be written -/

theorem blob_isSome (b : Bytes) : (blob.put b).isSome ↔ b.length < 2 ^ 64 := by
  simp only [blob]
  split
  · next h => simp [len, uint, h]
  · next h => simp [h]

theorem utf8_length (s : String) : (utf8 s).length = s.utf8ByteSize := by
  rw [utf8, List.length_map, Array.length_toList]; rfl

theorem ulid_isSome (u : Ulid) : (ulid.put u).isSome := by
  show (blob.put (text 26 u.val)).isSome
  rw [blob_isSome, text_length]; decide

theorem putAll_isSome {A : Type} (f : Format A) (l : List A) : (putAll f l).isSome ↔ ∀ a ∈ l, (f.put a).isSome := by
  induction l with
  | nil => simp [putAll]
  | cons a l ih =>
    rw [List.forall_mem_cons, ← ih, putAll]
    cases f.put a <;> simp

theorem string_isSome (v : String) : (string.put v).isSome ↔ v.utf8ByteSize < 2 ^ 64 := by
  show (blob.put (utf8 v)).isSome ↔ _
  rw [blob_isSome, utf8_length]

theorem option_isSome {A : Type} (f : Format A) (v : Option A) :
    ((option f).put v).isSome ↔ ∀ y, v = some y → (f.put y).isSome := by
  cases v <;> simp [option]

theorem pair_isSome {A B : Type} (f : Format A) (g : Format B) (v : A × B) :
    ((pair f g).put v).isSome ↔ (f.put v.1).isSome ∧ (g.put v.2).isSome := by
  simp only [pair]
  cases f.put v.1 <;> simp

theorem seq_isSome {A : Type} (f : Format A) (v : List A) :
    ((seq f).put v).isSome ↔ v.length < 2 ^ 64 ∧ ∀ a ∈ v, (f.put a).isSome := by
  rw [← putAll_isSome]
  simp only [seq]
  split
  · next h =>
    rw [and_iff_right h]
    simp [len, uint]
  · next h => exact ⟨fun h' => absurd h' (by simp), fun h' => absurd h'.1 h⟩

theorem Shape.put_isSome : (s : Shape) → (v : s.Val) → ((s.format.put v).isSome ↔ s.Fits v)
  | .unit, _ => ⟨fun _ => trivial, fun _ => rfl⟩
  | .bool, _ => ⟨fun _ => trivial, fun _ => rfl⟩
  | .uint _, _ => ⟨fun _ => trivial, fun _ => rfl⟩
  | .string, v => string_isSome v
  | .ulid, v => ⟨fun _ => trivial, fun _ => ulid_isSome v⟩
  | .option s, v => (option_isSome s.format v).trans
    ⟨fun h y e => (s.put_isSome y).1 (h y e), fun h y e => (s.put_isSome y).2 (h y e)⟩
  | .pair s t, v => (pair_isSome s.format t.format v).trans (and_congr (s.put_isSome v.1) (t.put_isSome v.2))
  | .seq s, v => (seq_isSome s.format v).trans (and_congr Iff.rfl
    ⟨fun h x e => (s.put_isSome x).1 (h x e), fun h x e => (s.put_isSome x).2 (h x e)⟩)
  | .array _ s, v => (putAll_isSome s.format v.val).trans
    ⟨fun h x e => (s.put_isSome x).1 (h x e), fun h x e => (s.put_isSome x).2 (h x e)⟩

theorem Shape.fits_of_flat : (s : Shape) → s.Flat → (v : s.Val) → s.Fits v
  | .unit, _, _ => trivial
  | .bool, _, _ => trivial
  | .uint _, _, _ => trivial
  | .string, h, _ => h.elim
  | .ulid, _, _ => trivial
  | .option s, h, _ => fun y _ => Shape.fits_of_flat s h y
  | .pair s t, h, v => ⟨Shape.fits_of_flat s h.1 v.1, Shape.fits_of_flat t h.2 v.2⟩
  | .seq _, h, _ => h.elim
  | .array _ s, h, _ => fun x _ => Shape.fits_of_flat s h x

end Verif.Bincode
