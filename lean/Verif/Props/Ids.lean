import Verif.Proof.Id
import Verif.Proof.Triple

/-!
# C01–C05: ids, keys, ranges and the order of triples

Stated separately for the two id types of the crate, `u64` and `Ulid`.
-/

namespace Verif.Props

open Verif Spec

/-! ## C01 Id bytes round-trip -/

theorem C01_u64_roundtrip (x : U64) :
    U64.fromBeBytes (U64.toBeBytes x) = x ∧ U64.tryFromBeBytes (U64.toBeBytes x).1 = some x :=
  ⟨U64.from_to x, LawfulId.try_toBe x⟩

theorem C01_ulid_roundtrip (x : Ulid) :
    Ulid.fromBeBytes (Ulid.toBeBytes x) = x ∧ Ulid.tryFromBeBytes (Ulid.toBeBytes x).1 = some x :=
  ⟨Ulid.from_to x, LawfulId.try_toBe x⟩

/-- `try_from_be_bytes` accepts exactly the slices of the right length, and a slice it accepts is the encoding
of what it returns. -/
theorem C01_u64_tryFrom (b : Bytes) :
    ((U64.tryFromBeBytes b).isSome ↔ b.length = 8) ∧
    ∀ x, U64.tryFromBeBytes b = some x → b = (U64.toBeBytes x).1 := by
  refine ⟨?_, fun x h => LawfulId.toBe_try (Id := U64) b x h⟩
  unfold U64.tryFromBeBytes ByteArr.tryFrom
  split <;> simp_all

theorem C01_ulid_tryFrom (b : Bytes) :
    ((Ulid.tryFromBeBytes b).isSome ↔ b.length = 16) ∧
    ∀ x, Ulid.tryFromBeBytes b = some x → b = (Ulid.toBeBytes x).1 := by
  refine ⟨?_, fun x h => LawfulId.toBe_try (Id := Ulid) b x h⟩
  unfold Ulid.tryFromBeBytes ByteArr.tryFrom
  split <;> simp_all

example : (U64.toBeBytes 258).1 = [0, 0, 0, 0, 0, 0, 1, 2] := by decide
example : U64.tryFromBeBytes [0, 0, 0, 0, 0, 0, 1, 2] = some 258 := by decide
example : U64.tryFromBeBytes [0, 0, 0, 1, 2] = none := by decide
example : (Ulid.toBeBytes 65537).1 = [0, 0, 0, 0, 0, 0, 0, 0, 0, 0, 0, 0, 0, 1, 0, 1] := by decide

/-! ## C02 Triple keys round-trip in all three layouts -/

theorem C02_u64_decode_encode (t : Triple U64) :
    U64.decodeSpo (U64.encodeSpo t) = t ∧ U64.decodePos (U64.encodePos t) = t ∧
      U64.decodeOsp (U64.encodeOsp t) = t :=
  ⟨LawfulId.decSpo_enc t, LawfulId.decPos_enc t, LawfulId.decOsp_enc t⟩

theorem C02_u64_encode_decode (k : ByteArr 24) :
    U64.encodeSpo (U64.decodeSpo k) = k ∧ U64.encodePos (U64.decodePos k) = k ∧
      U64.encodeOsp (U64.decodeOsp k) = k :=
  ⟨LawfulId.encSpo_dec (Id := U64) k, LawfulId.encPos_dec (Id := U64) k,
    LawfulId.encOsp_dec (Id := U64) k⟩

theorem C02_ulid_decode_encode (t : Triple Ulid) :
    Ulid.decodeSpo (Ulid.encodeSpo t) = t ∧ Ulid.decodePos (Ulid.encodePos t) = t ∧
      Ulid.decodeOsp (Ulid.encodeOsp t) = t :=
  ⟨LawfulId.decSpo_enc t, LawfulId.decPos_enc t, LawfulId.decOsp_enc t⟩

theorem C02_ulid_encode_decode (k : ByteArr 48) :
    Ulid.encodeSpo (Ulid.decodeSpo k) = k ∧ Ulid.encodePos (Ulid.decodePos k) = k ∧
      Ulid.encodeOsp (Ulid.decodeOsp k) = k :=
  ⟨LawfulId.encSpo_dec (Id := Ulid) k, LawfulId.encPos_dec (Id := Ulid) k,
    LawfulId.encOsp_dec (Id := Ulid) k⟩

/-- The layout itself: which component comes first, second, third in the key. -/
theorem C02_u64_layout (t : Triple U64) :
    (U64.encodeSpo t).1 = (U64.toBeBytes t.sub).1 ++ (U64.toBeBytes t.pred).1 ++ (U64.toBeBytes t.obj).1 ∧
    (U64.encodePos t).1 = (U64.toBeBytes t.pred).1 ++ (U64.toBeBytes t.obj).1 ++ (U64.toBeBytes t.sub).1 ∧
    (U64.encodeOsp t).1 = (U64.toBeBytes t.obj).1 ++ (U64.toBeBytes t.sub).1 ++ (U64.toBeBytes t.pred).1 := by
  rw [U64.encSpo_val, U64.encPos_val, U64.encOsp_val]
  simp [enc3, U64.toBeBytes, toBe]

theorem C02_ulid_layout (t : Triple Ulid) :
    (Ulid.encodeSpo t).1 =
      (Ulid.toBeBytes t.sub).1 ++ (Ulid.toBeBytes t.pred).1 ++ (Ulid.toBeBytes t.obj).1 ∧
    (Ulid.encodePos t).1 =
      (Ulid.toBeBytes t.pred).1 ++ (Ulid.toBeBytes t.obj).1 ++ (Ulid.toBeBytes t.sub).1 ∧
    (Ulid.encodeOsp t).1 =
      (Ulid.toBeBytes t.obj).1 ++ (Ulid.toBeBytes t.sub).1 ++ (Ulid.toBeBytes t.pred).1 := by
  rw [Ulid.encSpo_val, Ulid.encPos_val, Ulid.encOsp_val]
  simp [enc3, Ulid.toBeBytes, toBe]

example : (U64.encodePos ⟨1, 2, 3⟩).1 =
    [0, 0, 0, 0, 0, 0, 0, 2, 0, 0, 0, 0, 0, 0, 0, 3, 0, 0, 0, 0, 0, 0, 0, 1] := by decide
example : U64.decodeOsp (U64.encodeOsp ⟨1, 2, 3⟩) = ⟨1, 2, 3⟩ := by decide

/-! ## C03 Byte order of keys is numeric order of ids -/

theorem C03_u64_id_order (x y : U64) : U64.toBeBytes x < U64.toBeBytes y ↔ x < y :=
  LawfulId.toBe_lt x y

theorem C03_ulid_id_order (x y : Ulid) : Ulid.toBeBytes x < Ulid.toBeBytes y ↔ x < y :=
  LawfulId.toBe_lt x y

theorem C03_u64_key_order (t u : Triple U64) :
    (U64.encodeSpo t < U64.encodeSpo u ↔ edgeLT .SPO t u) ∧
    (U64.encodePos t < U64.encodePos u ↔ edgeLT .POS t u) ∧
    (U64.encodeOsp t < U64.encodeOsp u ↔ edgeLT .OSP t u) :=
  ⟨LawfulId.encSpo_lt t u, LawfulId.encPos_lt t u, LawfulId.encOsp_lt t u⟩

theorem C03_ulid_key_order (t u : Triple Ulid) :
    (Ulid.encodeSpo t < Ulid.encodeSpo u ↔ edgeLT .SPO t u) ∧
    (Ulid.encodePos t < Ulid.encodePos u ↔ edgeLT .POS t u) ∧
    (Ulid.encodeOsp t < Ulid.encodeOsp u ↔ edgeLT .OSP t u) :=
  ⟨LawfulId.encSpo_lt t u, LawfulId.encPos_lt t u, LawfulId.encOsp_lt t u⟩

-- 255 < 256 although the last byte of 255 is larger
example : U64.toBeBytes 255 < U64.toBeBytes 256 := (C03_u64_id_order _ _).2 (by decide)
example : edgeLT .POS (⟨9, 1, 255⟩ : Triple U64) ⟨0, 1, 256⟩ := by
  unfold edgeLT lex3; decide

/-! ## C04 Prefix ranges are exact -/

theorem C04_u64_bounds1 (a : U64) (t : Triple U64) :
    (Bound.contains (U64.keyBounds1 a) (U64.encodeSpo t) = true ↔ t.sub = a) ∧
    (Bound.contains (U64.keyBounds1 a) (U64.encodePos t) = true ↔ t.pred = a) ∧
    (Bound.contains (U64.keyBounds1 a) (U64.encodeOsp t) = true ↔ t.obj = a) :=
  ⟨LawfulId.kb1_spo a t, LawfulId.kb1_pos a t, LawfulId.kb1_osp a t⟩

theorem C04_u64_bounds2 (a b : U64) (t : Triple U64) :
    (Bound.contains (U64.keyBounds2 a b) (U64.encodeSpo t) = true ↔ t.sub = a ∧ t.pred = b) ∧
    (Bound.contains (U64.keyBounds2 a b) (U64.encodePos t) = true ↔ t.pred = a ∧ t.obj = b) ∧
    (Bound.contains (U64.keyBounds2 a b) (U64.encodeOsp t) = true ↔ t.obj = a ∧ t.sub = b) :=
  ⟨LawfulId.kb2_spo a b t, LawfulId.kb2_pos a b t, LawfulId.kb2_osp a b t⟩

theorem C04_ulid_bounds1 (a : Ulid) (t : Triple Ulid) :
    (Bound.contains (Ulid.keyBounds1 a) (Ulid.encodeSpo t) = true ↔ t.sub = a) ∧
    (Bound.contains (Ulid.keyBounds1 a) (Ulid.encodePos t) = true ↔ t.pred = a) ∧
    (Bound.contains (Ulid.keyBounds1 a) (Ulid.encodeOsp t) = true ↔ t.obj = a) :=
  ⟨LawfulId.kb1_spo a t, LawfulId.kb1_pos a t, LawfulId.kb1_osp a t⟩

theorem C04_ulid_bounds2 (a b : Ulid) (t : Triple Ulid) :
    (Bound.contains (Ulid.keyBounds2 a b) (Ulid.encodeSpo t) = true ↔ t.sub = a ∧ t.pred = b) ∧
    (Bound.contains (Ulid.keyBounds2 a b) (Ulid.encodePos t) = true ↔ t.pred = a ∧ t.obj = b) ∧
    (Bound.contains (Ulid.keyBounds2 a b) (Ulid.encodeOsp t) = true ↔ t.obj = a ∧ t.sub = b) :=
  ⟨LawfulId.kb2_spo a b t, LawfulId.kb2_pos a b t, LawfulId.kb2_osp a b t⟩

/-- `BTreeMap::range` never panics on these bounds. -/
theorem C04_no_panic :
    (∀ a : U64, Bound.rangePanics (U64.keyBounds1 a) = false) ∧
    (∀ a b : U64, Bound.rangePanics (U64.keyBounds2 a b) = false) ∧
    (∀ a : Ulid, Bound.rangePanics (Ulid.keyBounds1 a) = false) ∧
    (∀ a b : Ulid, Bound.rangePanics (Ulid.keyBounds2 a b) = false) :=
  ⟨LawfulId.kb1_noPanic (Id := U64), LawfulId.kb2_noPanic (Id := U64),
    LawfulId.kb1_noPanic (Id := Ulid), LawfulId.kb2_noPanic (Id := Ulid)⟩

-- the extreme ids
example : Bound.contains (U64.keyBounds1 U64.MAX) (U64.encodeSpo ⟨U64.MAX, U64.MAX, U64.MAX⟩) = true :=
  (C04_u64_bounds1 _ _).1.2 rfl
example : Bound.contains (U64.keyBounds1 0) (U64.encodeSpo ⟨1, 0, 0⟩) = false := by
  rw [← Bool.not_eq_true, (C04_u64_bounds1 _ _).1]; decide

/-! ## C05 Triple comparison is a total order agreeing with equality and with SPO key order -/

section
variable {Id : Type} [LinearOrder Id]

/-- `partial_cmp` decides the numeric lexicographic order (subject, predicate, object). -/
theorem C05_partialCmp (t u : Triple Id) :
    (Triple.partialCmp t u = some .lt ↔ edgeLT .SPO t u) ∧
    (Triple.partialCmp t u = some .eq ↔ t = u) ∧
    (Triple.partialCmp t u = some .gt ↔ edgeLT .SPO u t) :=
  ⟨partialCmp_lt t u, partialCmp_eq t u, partialCmp_gt t u⟩

theorem C05_total (t u : Triple Id) : Triple.partialCmp t u ≠ none := by
  unfold Triple.partialCmp
  rcases cmp t.sub u.sub with _ | _ | _ <;> rcases cmp t.pred u.pred with _ | _ | _ <;>
    rcases cmp t.obj u.obj with _ | _ | _ <;> simp

/-- antisymmetry: exchanging the arguments reverses the answer -/
theorem C05_swap (t u : Triple Id) :
    Triple.partialCmp u t = (Triple.partialCmp t u).map Ordering.swap := by
  cases h : Triple.partialCmp t u with
  | none => exact absurd h (C05_total t u)
  | some r =>
    cases r with
    | lt => exact (partialCmp_gt u t).2 ((partialCmp_lt t u).1 h)
    | eq => exact (partialCmp_eq u t).2 ((partialCmp_eq t u).1 h).symm
    | gt => exact (partialCmp_lt u t).2 ((partialCmp_gt t u).1 h)

theorem C05_trans (t u v : Triple Id) (h : Triple.ltOp t u = true) (h' : Triple.ltOp u v = true) :
    Triple.ltOp t v = true := by
  unfold Triple.ltOp at *
  rw [beq_iff_eq, partialCmp_lt] at *
  unfold edgeLT lex3 at *
  rcases h with h | ⟨e, h⟩
  · rcases h' with h' | ⟨e', h'⟩
    · exact .inl (lt_trans h h')
    · exact .inl (e' ▸ h)
  · rcases h' with h' | ⟨e', h'⟩
    · exact .inl (e ▸ h')
    · refine .inr ⟨e.trans e', ?_⟩
      rcases h with h | ⟨e, h⟩
      · rcases h' with h' | ⟨e', h'⟩
        · exact .inl (lt_trans h h')
        · exact .inl (e' ▸ h)
      · rcases h' with h' | ⟨e', h'⟩
        · exact .inl (e ▸ h')
        · exact .inr ⟨e.trans e', lt_trans h h'⟩

end

/-- `<` on triples agrees with the byte order of SPO keys. -/
theorem C05_u64_key_order (t u : Triple U64) :
    Triple.ltOp t u = true ↔ U64.encodeSpo t < U64.encodeSpo u := by
  rw [Triple.ltOp, beq_iff_eq, partialCmp_lt]; exact (C03_u64_key_order t u).1.symm

theorem C05_ulid_key_order (t u : Triple Ulid) :
    Triple.ltOp t u = true ↔ Ulid.encodeSpo t < Ulid.encodeSpo u := by
  rw [Triple.ltOp, beq_iff_eq, partialCmp_lt]; exact (C03_ulid_key_order t u).1.symm

example : Triple.ltOp (⟨1, 2, 3⟩ : Triple U64) ⟨1, 3, 0⟩ = true := by decide
example : Triple.partialCmp (⟨1, 2, 3⟩ : Triple U64) ⟨1, 2, 3⟩ = some .eq := by decide

end Verif.Props
