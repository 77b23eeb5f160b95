import Verif.Proof.Bytes

/-! # The laws of `ConcreteIdType`, proved for `u64` and `Ulid` -/

namespace Verif

open Spec

/-- What the stores need from an id type.  Proved below for both implementations in the crate. -/
class LawfulId (Id : Type) [LinearOrder Id] [ConcreteId Id] : Prop where
  try_toBe : ∀ x : Id, ConcreteId.tryFromBeBytes (ConcreteId.toBeBytes x).1 = some x
  toBe_try : ∀ (b : Bytes) (x : Id), ConcreteId.tryFromBeBytes b = some x →
    b = (ConcreteId.toBeBytes x).1
  try_none : ∀ b : Bytes, (ConcreteId.tryFromBeBytes (Id := Id) b) = none → b.length ≠ ConcreteId.idLen (Id := Id)
  toBe_lt : ∀ x y : Id, ConcreteId.toBeBytes x < ConcreteId.toBeBytes y ↔ x < y
  decSpo_enc : ∀ t : Triple Id, ConcreteId.decodeSpo (ConcreteId.encodeSpo t) = t
  decPos_enc : ∀ t : Triple Id, ConcreteId.decodePos (ConcreteId.encodePos t) = t
  decOsp_enc : ∀ t : Triple Id, ConcreteId.decodeOsp (ConcreteId.encodeOsp t) = t
  encSpo_dec : ∀ k : TKey Id, ConcreteId.encodeSpo (ConcreteId.decodeSpo k) = k
  encPos_dec : ∀ k : TKey Id, ConcreteId.encodePos (ConcreteId.decodePos k) = k
  encOsp_dec : ∀ k : TKey Id, ConcreteId.encodeOsp (ConcreteId.decodeOsp k) = k
  encSpo_lt : ∀ t u : Triple Id,
    ConcreteId.encodeSpo t < ConcreteId.encodeSpo u ↔ edgeLT .SPO t u
  encPos_lt : ∀ t u : Triple Id,
    ConcreteId.encodePos t < ConcreteId.encodePos u ↔ edgeLT .POS t u
  encOsp_lt : ∀ t u : Triple Id,
    ConcreteId.encodeOsp t < ConcreteId.encodeOsp u ↔ edgeLT .OSP t u
  kb1_spo : ∀ (a : Id) (t : Triple Id),
    Bound.contains (ConcreteId.keyBounds1 a) (ConcreteId.encodeSpo t) = true ↔ t.sub = a
  kb1_pos : ∀ (a : Id) (t : Triple Id),
    Bound.contains (ConcreteId.keyBounds1 a) (ConcreteId.encodePos t) = true ↔ t.pred = a
  kb1_osp : ∀ (a : Id) (t : Triple Id),
    Bound.contains (ConcreteId.keyBounds1 a) (ConcreteId.encodeOsp t) = true ↔ t.obj = a
  kb2_spo : ∀ (a b : Id) (t : Triple Id),
    Bound.contains (ConcreteId.keyBounds2 a b) (ConcreteId.encodeSpo t) = true ↔
      t.sub = a ∧ t.pred = b
  kb2_pos : ∀ (a b : Id) (t : Triple Id),
    Bound.contains (ConcreteId.keyBounds2 a b) (ConcreteId.encodePos t) = true ↔
      t.pred = a ∧ t.obj = b
  kb2_osp : ∀ (a b : Id) (t : Triple Id),
    Bound.contains (ConcreteId.keyBounds2 a b) (ConcreteId.encodeOsp t) = true ↔
      t.obj = a ∧ t.sub = b
  kb1_noPanic : ∀ a : Id, Bound.rangePanics (ConcreteId.keyBounds1 a) = false
  kb2_noPanic : ∀ a b : Id, Bound.rangePanics (ConcreteId.keyBounds2 a b) = false

/-! ## Slices -/

theorem copy3 {w n : Nat} (z : ByteArr n) (a b c : ByteArr w) (hn : n = 3 * w)
    (h0 : 0 + w ≤ n) (h1 : w + w ≤ n) (h2 : 2 * w + w ≤ n) :
    (((z.copyFromSlice 0 a h0).copyFromSlice w b h1).copyFromSlice (2 * w) c h2).1
      = a.1 ++ (b.1 ++ c.1) := by
  obtain ⟨z, hz⟩ := z; obtain ⟨a, ha⟩ := a; obtain ⟨b, hb⟩ := b; obtain ⟨c, hc⟩ := c
  subst hn
  simp only [ByteArr.copyFromSlice, List.take_zero, List.nil_append, Nat.zero_add]
  rw [show List.take w (a ++ List.drop w z) = a from by
    rw [List.take_append_of_le_length (le_of_eq ha.symm), List.take_of_length_le (le_of_eq ha)]]
  have hab : (a ++ b).length = 2 * w := by rw [List.length_append]; omega
  have h1 : (a ++ b ++ List.drop (w + w) (a ++ List.drop w z)).take (2 * w) = a ++ b := by
    rw [List.take_append_of_le_length (le_of_eq hab.symm), List.take_of_length_le (le_of_eq hab)]
  rw [h1]
  have h2 : (a ++ b ++ List.drop (w + w) (a ++ List.drop w z)).drop (2 * w + w) = [] := by
    apply List.drop_eq_nil_of_le
    rw [List.length_append, hab, List.length_drop, List.length_append, List.length_drop, ha, hz]
    omega
  rw [h2, List.append_nil, List.append_assoc]

theorem slice_append3 {w n : Nat} (d : ByteArr n) (a b c : Bytes) (hd : d.1 = a ++ (b ++ c))
    (ha : a.length = w) (hb : b.length = w) (hc : c.length = w)
    (h0 : 0 + w ≤ n) (h1 : w + w ≤ n) (h2 : 2 * w + w ≤ n) :
    (d.slice 0 w h0).1 = a ∧ (d.slice w w h1).1 = b ∧ (d.slice (2 * w) w h2).1 = c := by
  obtain ⟨d, hl⟩ := d
  simp only at hd
  subst hd
  refine ⟨?_, ?_, ?_⟩
  · simp only [ByteArr.slice, List.drop_zero]
    rw [List.take_append_of_le_length (by omega), List.take_of_length_le (by omega)]
  · simp only [ByteArr.slice]
    rw [List.drop_append_of_le_length (by omega), List.drop_of_length_le (by omega)]
    rw [List.nil_append, List.take_append_of_le_length (by omega),
      List.take_of_length_le (by omega)]
  · simp only [ByteArr.slice]
    rw [← List.append_assoc, List.drop_append_of_le_length (by simp; omega),
      List.drop_of_length_le (by simp; omega)]
    rw [List.nil_append, List.take_of_length_le (by omega)]

theorem eq_slices {w n : Nat} (d : ByteArr n) (hn : n = 3 * w)
    (h0 : 0 + w ≤ n) (h1 : w + w ≤ n) (h2 : 2 * w + w ≤ n) :
    d.1 = (d.slice 0 w h0).1 ++ ((d.slice w w h1).1 ++ (d.slice (2 * w) w h2).1) := by
  obtain ⟨d, hl⟩ := d
  subst hn
  simp only [ByteArr.slice, List.drop_zero]
  conv_lhs => rw [← List.take_append_drop w d]
  congr 1
  conv_lhs => rw [← List.take_append_drop w (d.drop w)]
  congr 1
  rw [List.drop_drop, show w + w = 2 * w by omega, List.take_of_length_le]
  simp; omega

theorem tryFrom_self {n : Nat} (b : ByteArr n) : ByteArr.tryFrom n b.1 = some b := by
  simp [ByteArr.tryFrom, b.2]

theorem tryFrom_eq_some {n : Nat} {b : Bytes} {k : ByteArr n} :
    ByteArr.tryFrom n b = some k ↔ b = k.1 := by
  constructor
  · intro h
    unfold ByteArr.tryFrom at h
    split at h
    · cases h; rfl
    · cases h
  · rintro rfl; exact tryFrom_self k

/-! ## u64 -/

namespace U64

theorem from_to (x : U64) : fromBeBytes (toBeBytes x) = x := by
  apply Fin.ext
  show ofBe (toBe 8 x.val) % 2 ^ 64 = x.val
  rw [ofBe_toBe]
  have := x.isLt
  have h : x.val < 256 ^ 8 := lt_of_lt_of_eq this (by decide)
  rw [Nat.mod_eq_of_lt h, Nat.mod_eq_of_lt this]

theorem to_from (b : ByteArr 8) : toBeBytes (fromBeBytes b) = b := by
  show toBe 8 (ofBe b % 2 ^ 64) = b
  have := ofBe_lt b
  rw [show (256 : Nat) ^ 8 = 2 ^ 64 by decide] at this
  rw [Nat.mod_eq_of_lt this, toBe_ofBe]

theorem lt256 (x : U64) : x.val < 256 ^ 8 := by
  exact lt_of_lt_of_eq x.isLt (by decide)

theorem encSpo_val (t : Triple U64) :
    (encodeSpo t).1 = enc3 8 t.sub.val t.pred.val t.obj.val :=
  copy3 (w := 8) _ _ _ _ rfl (by decide) (by decide) (by decide)

theorem encPos_val (t : Triple U64) :
    (encodePos t).1 = enc3 8 t.pred.val t.obj.val t.sub.val :=
  copy3 (w := 8) _ _ _ _ rfl (by decide) (by decide) (by decide)

theorem encOsp_val (t : Triple U64) :
    (encodeOsp t).1 = enc3 8 t.obj.val t.sub.val t.pred.val :=
  copy3 (w := 8) _ _ _ _ rfl (by decide) (by decide) (by decide)

theorem slices (d : ByteArr 24) (a b c : U64) (h : d.1 = enc3 8 a.val b.val c.val) :
    fromBeBytes (d.slice 0 8) = a ∧ fromBeBytes (d.slice 8 8) = b ∧
      fromBeBytes (d.slice 16 8) = c := by
  obtain ⟨h1, h2, h3⟩ := slice_append3 (w := 8) d _ _ _ h (beList_length _ _) (beList_length _ _)
    (beList_length _ _) (by decide) (by decide) (by decide)
  have e : ∀ (x : U64) (s : ByteArr 8), s.1 = beList 8 x.val → fromBeBytes s = x := by
    intro x s hs
    have : s = toBeBytes x := Subtype.ext hs
    rw [this, from_to]
  exact ⟨e _ _ h1, e _ _ h2, e _ _ h3⟩

theorem unslices (d : ByteArr 24) :
    d.1 = enc3 8 (fromBeBytes (d.slice 0 8)).val (fromBeBytes (d.slice 8 8)).val
      (fromBeBytes (d.slice 16 8)).val := by
  have h := eq_slices (w := 8) d rfl (by decide) (by decide) (by decide)
  have e : ∀ (s : ByteArr 8), beList 8 (fromBeBytes s).val = s.1 :=
    fun s => congrArg Subtype.val (to_from s)
  rw [enc3, e, e, e]; exact h

theorem arr_lt_iff {n : Nat} (a b : ByteArr n) : a < b ↔ a.1 < b.1 := Iff.rfl
theorem arr_le_iff {n : Nat} (a b : ByteArr n) : a ≤ b ↔ a.1 ≤ b.1 := Iff.rfl

theorem enc_lt (a b c a' b' c' : U64) :
    enc3 8 a.val b.val c.val < enc3 8 a'.val b'.val c'.val ↔ lex3 a b c a' b' c' := by
  rw [enc3_lt (lt256 _) (lt256 _) (lt256 _) (lt256 _) (lt256 _) (lt256 _)]
  simp only [lex3, Fin.lt_def, Fin.ext_iff]

theorem kb1_gen (a x y z : U64) (k : ByteArr 24) (hk : k.1 = enc3 8 x.val y.val z.val) :
    Bound.contains (keyBounds1 a) k = true ↔ x = a := by
  simp only [Bound.contains, keyBounds1, Bound.lowerOk, Bound.upperOk, Bool.and_eq_true,
    decide_eq_true_eq, arr_le_iff, encSpo_val, hk]
  rw [← not_lt, ← not_lt, enc_lt, enc_lt]
  simp only [lex3, MIN, MAX, Fin.lt_def, Fin.ext_iff]
  have := y.isLt; have := z.isLt; have := x.isLt; have := a.isLt
  omega

theorem kb2_gen (a b x y z : U64) (k : ByteArr 24) (hk : k.1 = enc3 8 x.val y.val z.val) :
    Bound.contains (keyBounds2 a b) k = true ↔ x = a ∧ y = b := by
  simp only [Bound.contains, keyBounds2, Bound.lowerOk, Bound.upperOk, Bool.and_eq_true,
    decide_eq_true_eq, arr_le_iff, encSpo_val, hk]
  rw [← not_lt, ← not_lt, enc_lt, enc_lt]
  simp only [lex3, MIN, MAX, Fin.lt_def, Fin.ext_iff]
  have := y.isLt; have := z.isLt; have := x.isLt; have := a.isLt; have := b.isLt
  omega

end U64

instance : LawfulId U64 where
  try_toBe x := by
    show U64.tryFromBeBytes (U64.toBeBytes x).1 = some x
    simp [U64.tryFromBeBytes, tryFrom_self, U64.from_to]
  toBe_try b x h := by
    replace h : U64.tryFromBeBytes b = some x := h
    show b = (U64.toBeBytes x).1
    simp only [U64.tryFromBeBytes, Option.map_eq_some_iff] at h
    obtain ⟨k, hk, rfl⟩ := h
    rw [tryFrom_eq_some] at hk
    rw [hk, U64.to_from]
  try_none b h hb := by
    replace h : U64.tryFromBeBytes b = none := h
    replace hb : b.length = 8 := hb
    simp [U64.tryFromBeBytes, ByteArr.tryFrom, hb] at h
  toBe_lt x y := by
    show beList 8 x.val < beList 8 y.val ↔ _
    rw [beList_lt, Nat.mod_eq_of_lt (U64.lt256 x), Nat.mod_eq_of_lt (U64.lt256 y)]
    rfl
  decSpo_enc t := by
    obtain ⟨h1, h2, h3⟩ := U64.slices _ _ _ _ (U64.encSpo_val t)
    show U64.decodeSpo (U64.encodeSpo t) = t
    rw [U64.decodeSpo, h1, h2, h3]
  decPos_enc t := by
    obtain ⟨h1, h2, h3⟩ := U64.slices _ _ _ _ (U64.encPos_val t)
    show U64.decodePos (U64.encodePos t) = t
    rw [U64.decodePos, h1, h2, h3]
  decOsp_enc t := by
    obtain ⟨h1, h2, h3⟩ := U64.slices _ _ _ _ (U64.encOsp_val t)
    show U64.decodeOsp (U64.encodeOsp t) = t
    rw [U64.decodeOsp, h1, h2, h3]
  encSpo_dec k := Subtype.ext ((U64.encSpo_val _).trans (U64.unslices k).symm)
  encPos_dec k := Subtype.ext ((U64.encPos_val _).trans (U64.unslices k).symm)
  encOsp_dec k := Subtype.ext ((U64.encOsp_val _).trans (U64.unslices k).symm)
  encSpo_lt t u := by
    show (U64.encodeSpo t).1 < (U64.encodeSpo u).1 ↔ _
    rw [U64.encSpo_val, U64.encSpo_val]; exact U64.enc_lt _ _ _ _ _ _
  encPos_lt t u := by
    show (U64.encodePos t).1 < (U64.encodePos u).1 ↔ _
    rw [U64.encPos_val, U64.encPos_val]; exact U64.enc_lt _ _ _ _ _ _
  encOsp_lt t u := by
    show (U64.encodeOsp t).1 < (U64.encodeOsp u).1 ↔ _
    rw [U64.encOsp_val, U64.encOsp_val]; exact U64.enc_lt _ _ _ _ _ _
  kb1_spo a t := U64.kb1_gen a _ _ _ _ (U64.encSpo_val t)
  kb1_pos a t := U64.kb1_gen a _ _ _ _ (U64.encPos_val t)
  kb1_osp a t := U64.kb1_gen a _ _ _ _ (U64.encOsp_val t)
  kb2_spo a b t := U64.kb2_gen a b _ _ _ _ (U64.encSpo_val t)
  kb2_pos a b t := U64.kb2_gen a b _ _ _ _ (U64.encPos_val t)
  kb2_osp a b t := U64.kb2_gen a b _ _ _ _ (U64.encOsp_val t)
  kb1_noPanic a := by
    show Bound.rangePanics (U64.keyBounds1 a) = false
    simp only [Bound.rangePanics, U64.keyBounds1, decide_eq_false_iff_not, U64.arr_lt_iff]
    rw [U64.encSpo_val, U64.encSpo_val, U64.enc_lt]
    simp only [lex3, U64.MIN, U64.MAX, Fin.lt_def, Fin.ext_iff]; omega
  kb2_noPanic a b := by
    show Bound.rangePanics (U64.keyBounds2 a b) = false
    simp only [Bound.rangePanics, U64.keyBounds2, decide_eq_false_iff_not, U64.arr_lt_iff]
    rw [U64.encSpo_val, U64.encSpo_val, U64.enc_lt]
    simp only [lex3, U64.MIN, U64.MAX, Fin.lt_def, Fin.ext_iff]; omega

/-! ## Ulid -/

namespace Ulid

theorem from_to (x : Ulid) : fromBeBytes (toBeBytes x) = x := by
  apply Fin.ext
  show ofBe (toBe 16 x.val) % 2 ^ 128 = x.val
  rw [ofBe_toBe]
  have := x.isLt
  have h : x.val < 256 ^ 16 := lt_of_lt_of_eq this (by decide)
  rw [Nat.mod_eq_of_lt h, Nat.mod_eq_of_lt this]

theorem to_from (b : ByteArr 16) : toBeBytes (fromBeBytes b) = b := by
  show toBe 16 (ofBe b % 2 ^ 128) = b
  have := ofBe_lt b
  rw [show (256 : Nat) ^ 16 = 2 ^ 128 by decide] at this
  rw [Nat.mod_eq_of_lt this, toBe_ofBe]

theorem lt256 (x : Ulid) : x.val < 256 ^ 16 := by
  exact lt_of_lt_of_eq x.isLt (by decide)

theorem encSpo_val (t : Triple Ulid) :
    (encodeSpo t).1 = enc3 16 t.sub.val t.pred.val t.obj.val :=
  copy3 (w := 16) _ _ _ _ rfl (by decide) (by decide) (by decide)

theorem encPos_val (t : Triple Ulid) :
    (encodePos t).1 = enc3 16 t.pred.val t.obj.val t.sub.val :=
  copy3 (w := 16) _ _ _ _ rfl (by decide) (by decide) (by decide)

theorem encOsp_val (t : Triple Ulid) :
    (encodeOsp t).1 = enc3 16 t.obj.val t.sub.val t.pred.val :=
  copy3 (w := 16) _ _ _ _ rfl (by decide) (by decide) (by decide)

theorem slices (d : ByteArr 48) (a b c : Ulid) (h : d.1 = enc3 16 a.val b.val c.val) :
    fromBeBytes (d.slice 0 16) = a ∧ fromBeBytes (d.slice 16 16) = b ∧
      fromBeBytes (d.slice 32 16) = c := by
  obtain ⟨h1, h2, h3⟩ := slice_append3 (w := 16) d _ _ _ h (beList_length _ _) (beList_length _ _)
    (beList_length _ _) (by decide) (by decide) (by decide)
  have e : ∀ (x : Ulid) (s : ByteArr 16), s.1 = beList 16 x.val → fromBeBytes s = x := by
    intro x s hs
    have : s = toBeBytes x := Subtype.ext hs
    rw [this, from_to]
  exact ⟨e _ _ h1, e _ _ h2, e _ _ h3⟩

theorem unslices (d : ByteArr 48) :
    d.1 = enc3 16 (fromBeBytes (d.slice 0 16)).val (fromBeBytes (d.slice 16 16)).val
      (fromBeBytes (d.slice 32 16)).val := by
  have h := eq_slices (w := 16) d rfl (by decide) (by decide) (by decide)
  have e : ∀ (s : ByteArr 16), beList 16 (fromBeBytes s).val = s.1 :=
    fun s => congrArg Subtype.val (to_from s)
  rw [enc3, e, e, e]; exact h

theorem arr_lt_iff {n : Nat} (a b : ByteArr n) : a < b ↔ a.1 < b.1 := Iff.rfl
theorem arr_le_iff {n : Nat} (a b : ByteArr n) : a ≤ b ↔ a.1 ≤ b.1 := Iff.rfl

theorem enc_lt (a b c a' b' c' : Ulid) :
    enc3 16 a.val b.val c.val < enc3 16 a'.val b'.val c'.val ↔ lex3 a b c a' b' c' := by
  rw [enc3_lt (lt256 _) (lt256 _) (lt256 _) (lt256 _) (lt256 _) (lt256 _)]
  simp only [lex3, Fin.lt_def, Fin.ext_iff]

theorem kb1_gen (a x y z : Ulid) (k : ByteArr 48) (hk : k.1 = enc3 16 x.val y.val z.val) :
    Bound.contains (keyBounds1 a) k = true ↔ x = a := by
  simp only [Bound.contains, keyBounds1, Bound.lowerOk, Bound.upperOk, Bool.and_eq_true,
    decide_eq_true_eq, arr_le_iff, encSpo_val, hk]
  rw [← not_lt, ← not_lt, enc_lt, enc_lt]
  simp only [lex3, MIN, MAX, Fin.lt_def, Fin.ext_iff]
  have := y.isLt; have := z.isLt; have := x.isLt; have := a.isLt
  omega

theorem kb2_gen (a b x y z : Ulid) (k : ByteArr 48) (hk : k.1 = enc3 16 x.val y.val z.val) :
    Bound.contains (keyBounds2 a b) k = true ↔ x = a ∧ y = b := by
  simp only [Bound.contains, keyBounds2, Bound.lowerOk, Bound.upperOk, Bool.and_eq_true,
    decide_eq_true_eq, arr_le_iff, encSpo_val, hk]
  rw [← not_lt, ← not_lt, enc_lt, enc_lt]
  simp only [lex3, MIN, MAX, Fin.lt_def, Fin.ext_iff]
  have := y.isLt; have := z.isLt; have := x.isLt; have := a.isLt; have := b.isLt
  omega

end Ulid

instance : LawfulId Ulid where
  try_toBe x := by
    show Ulid.tryFromBeBytes (Ulid.toBeBytes x).1 = some x
    simp [Ulid.tryFromBeBytes, tryFrom_self, Ulid.from_to]
  toBe_try b x h := by
    replace h : Ulid.tryFromBeBytes b = some x := h
    show b = (Ulid.toBeBytes x).1
    simp only [Ulid.tryFromBeBytes, Option.map_eq_some_iff] at h
    obtain ⟨k, hk, rfl⟩ := h
    rw [tryFrom_eq_some] at hk
    rw [hk, Ulid.to_from]
  try_none b h hb := by
    replace h : Ulid.tryFromBeBytes b = none := h
    replace hb : b.length = 16 := hb
    simp [Ulid.tryFromBeBytes, ByteArr.tryFrom, hb] at h
  toBe_lt x y := by
    show beList 16 x.val < beList 16 y.val ↔ _
    rw [beList_lt, Nat.mod_eq_of_lt (Ulid.lt256 x), Nat.mod_eq_of_lt (Ulid.lt256 y)]
    rfl
  decSpo_enc t := by
    obtain ⟨h1, h2, h3⟩ := Ulid.slices _ _ _ _ (Ulid.encSpo_val t)
    show Ulid.decodeSpo (Ulid.encodeSpo t) = t
    rw [Ulid.decodeSpo, h1, h2, h3]
  decPos_enc t := by
    obtain ⟨h1, h2, h3⟩ := Ulid.slices _ _ _ _ (Ulid.encPos_val t)
    show Ulid.decodePos (Ulid.encodePos t) = t
    rw [Ulid.decodePos, h1, h2, h3]
  decOsp_enc t := by
    obtain ⟨h1, h2, h3⟩ := Ulid.slices _ _ _ _ (Ulid.encOsp_val t)
    show Ulid.decodeOsp (Ulid.encodeOsp t) = t
    rw [Ulid.decodeOsp, h1, h2, h3]
  encSpo_dec k := Subtype.ext ((Ulid.encSpo_val _).trans (Ulid.unslices k).symm)
  encPos_dec k := Subtype.ext ((Ulid.encPos_val _).trans (Ulid.unslices k).symm)
  encOsp_dec k := Subtype.ext ((Ulid.encOsp_val _).trans (Ulid.unslices k).symm)
  encSpo_lt t u := by
    show (Ulid.encodeSpo t).1 < (Ulid.encodeSpo u).1 ↔ _
    rw [Ulid.encSpo_val, Ulid.encSpo_val]; exact Ulid.enc_lt _ _ _ _ _ _
  encPos_lt t u := by
    show (Ulid.encodePos t).1 < (Ulid.encodePos u).1 ↔ _
    rw [Ulid.encPos_val, Ulid.encPos_val]; exact Ulid.enc_lt _ _ _ _ _ _
  encOsp_lt t u := by
    show (Ulid.encodeOsp t).1 < (Ulid.encodeOsp u).1 ↔ _
    rw [Ulid.encOsp_val, Ulid.encOsp_val]; exact Ulid.enc_lt _ _ _ _ _ _
  kb1_spo a t := Ulid.kb1_gen a _ _ _ _ (Ulid.encSpo_val t)
  kb1_pos a t := Ulid.kb1_gen a _ _ _ _ (Ulid.encPos_val t)
  kb1_osp a t := Ulid.kb1_gen a _ _ _ _ (Ulid.encOsp_val t)
  kb2_spo a b t := Ulid.kb2_gen a b _ _ _ _ (Ulid.encSpo_val t)
  kb2_pos a b t := Ulid.kb2_gen a b _ _ _ _ (Ulid.encPos_val t)
  kb2_osp a b t := Ulid.kb2_gen a b _ _ _ _ (Ulid.encOsp_val t)
  kb1_noPanic a := by
    show Bound.rangePanics (Ulid.keyBounds1 a) = false
    simp only [Bound.rangePanics, Ulid.keyBounds1, decide_eq_false_iff_not, Ulid.arr_lt_iff]
    rw [Ulid.encSpo_val, Ulid.encSpo_val, Ulid.enc_lt]
    simp only [lex3, Ulid.MIN, Ulid.MAX, Fin.lt_def, Fin.ext_iff]; omega
  kb2_noPanic a b := by
    show Bound.rangePanics (Ulid.keyBounds2 a b) = false
    simp only [Bound.rangePanics, Ulid.keyBounds2, decide_eq_false_iff_not, Ulid.arr_lt_iff]
    rw [Ulid.encSpo_val, Ulid.encSpo_val, Ulid.enc_lt]
    simp only [lex3, Ulid.MIN, Ulid.MAX, Fin.lt_def, Fin.ext_iff]; omega

end Verif
