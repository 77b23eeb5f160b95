import Verif.Spec.Reads
import Verif.Proof.SledReading
import Verif.Proof.Local

/-! # What queries and calls have to do with -/

namespace Verif

open Spec ConcreteId
open Sled (boundBytes rangeArr_eq)

/-! ## Keys beginning with given bytes -/

theorem prefix_of_between : ∀ (p : Bytes) {x y k : Bytes}, p ++ x ≤ k → k ≤ p ++ y → p <+: k
  | [], _, _, _, _, _ => List.nil_prefix
  | a :: p, x, y, [], h, _ => absurd h (not_le_of_gt (by simp [List.nil_lt_cons]))
  | a :: p, x, y, b :: k, h1, h2 => by
    have h1' : ¬ (b < a ∨ b = a ∧ k < p ++ x) := fun h => not_lt.2 h1 (List.cons_lt_cons_iff.2 h)
    have h2' : ¬ (a < b ∨ a = b ∧ p ++ y < k) := fun h => not_lt.2 h2 (List.cons_lt_cons_iff.2 h)
    have hab : a = b := le_antisymm (not_lt.1 fun h => h1' (.inl h)) (not_lt.1 fun h => h2' (.inl h))
    subst hab
    have i1 : p ++ x ≤ k := not_lt.1 fun h => h1' (.inr ⟨rfl, h⟩)
    have i2 : k ≤ p ++ y := not_lt.1 fun h => h2' (.inr ⟨rfl, h⟩)
    exact List.cons_prefix_cons.2 ⟨rfl, prefix_of_between p i1 i2⟩

/-- The keys of edges are made of the bytes of their ids; the keys in a range begin with the bytes of the ids it is for. -/
class LaidOutId (Id : Type) [LinearOrder Id] [ConcreteId Id] : Prop extends LawfulId Id where
  spo : ∀ t : Triple Id, (encodeSpo t).1 = be t.sub ++ be t.pred ++ be t.obj
  pos : ∀ t : Triple Id, (encodePos t).1 = be t.pred ++ be t.obj ++ be t.sub
  osp : ∀ t : Triple Id, (encodeOsp t).1 = be t.obj ++ be t.sub ++ be t.pred
  range1 : ∀ (a : Id) (k : Bytes), Bound.contains (boundBytes (keyBounds1 a)) k = true → be a <+: k
  range2 : ∀ (a b : Id) (k : Bytes), Bound.contains (boundBytes (keyBounds2 a b)) k = true → be a ++ be b <+: k

theorem contains_bytes {n : Nat} {a b : ByteArr n} {k : Bytes}
    (h : Bound.contains (boundBytes (.included a, .included b)) k = true) : a.1 ≤ k ∧ k ≤ b.1 := by
  simpa [Bound.contains, Bound.lowerOk, Bound.upperOk, boundBytes] using h

theorem U64.spo_be (t : Triple U64) : (U64.encodeSpo t).1 = be t.sub ++ be t.pred ++ be t.obj :=
  (U64.encSpo_val t).trans (List.append_assoc ..).symm

theorem Ulid.spo_be (t : Triple Ulid) : (Ulid.encodeSpo t).1 = be t.sub ++ be t.pred ++ be t.obj :=
  (Ulid.encSpo_val t).trans (List.append_assoc ..).symm

instance : LaidOutId U64 where
  spo := U64.spo_be
  pos t := (U64.encPos_val t).trans (List.append_assoc ..).symm
  osp t := (U64.encOsp_val t).trans (List.append_assoc ..).symm
  range1 a k h := by
    obtain ⟨h1, h2⟩ := contains_bytes (a := U64.encodeSpo ⟨a, U64.MIN, U64.MIN⟩) (b := U64.encodeSpo ⟨a, U64.MAX, U64.MAX⟩) h
    rw [U64.spo_be, List.append_assoc] at h1 h2
    exact prefix_of_between _ h1 h2
  range2 a b k h := by
    obtain ⟨h1, h2⟩ := contains_bytes (a := U64.encodeSpo ⟨a, b, U64.MIN⟩) (b := U64.encodeSpo ⟨a, b, U64.MAX⟩) h
    rw [U64.spo_be] at h1 h2
    exact prefix_of_between _ h1 h2

instance : LaidOutId Ulid where
  spo := Ulid.spo_be
  pos t := (Ulid.encPos_val t).trans (List.append_assoc ..).symm
  osp t := (Ulid.encOsp_val t).trans (List.append_assoc ..).symm
  range1 a k h := by
    obtain ⟨h1, h2⟩ := contains_bytes (a := Ulid.encodeSpo ⟨a, Ulid.MIN, Ulid.MIN⟩) (b := Ulid.encodeSpo ⟨a, Ulid.MAX, Ulid.MAX⟩) h
    rw [Ulid.spo_be, List.append_assoc] at h1 h2
    exact prefix_of_between _ h1 h2
  range2 a b k h := by
    obtain ⟨h1, h2⟩ := contains_bytes (a := Ulid.encodeSpo ⟨a, b, Ulid.MIN⟩) (b := Ulid.encodeSpo ⟨a, b, Ulid.MAX⟩) h
    rw [Ulid.spo_be] at h1 h2
    exact prefix_of_between _ h1 h2

variable {Id NP EP E : Type} [LinearOrder Id] [ConcreteId Id]

/-- A range has the same entries in trees that agree on its keys. -/
theorem rangeArr_congr {n : Nat} {t t' : Tree} {b : Bound (ByteArr n) × Bound (ByteArr n)}
    (h : ∀ k, Bound.contains (boundBytes b) k = true → t.get k = t'.get k) : t.rangeArr b = t'.rangeArr b := by
  rw [rangeArr_eq, rangeArr_eq]
  refine sorted_ext (BMap.range_sorted _ _) (BMap.range_sorted _ _) (fun ⟨k, v⟩ => ?_)
  rw [BMap.mem_range, BMap.mem_range]
  exact ⟨fun ⟨h1, h2⟩ => ⟨(h k h2).symm.trans h1, h2⟩, fun ⟨h1, h2⟩ => ⟨(h k h2).trans h1, h2⟩⟩

theorem mem_rangeArr_bytes {n : Nat} {t : Tree} {b : Bound (ByteArr n) × Bound (ByteArr n)} {e : Bytes × Bytes}
    (h : e ∈ t.rangeArr b) : t.get e.1 = some e.2 ∧ Bound.contains (boundBytes b) e.1 = true := by
  rw [rangeArr_eq] at h
  exact BMap.mem_range.1 h

/-! ## Queries -/

namespace Sled

theorem tryFold_congr {X σ α : Type} {f f' : σ → α → Except X σ} {l : List α} (h : ∀ s, ∀ a ∈ l, f s a = f' s a) (s : σ) :
    tryFold f s l = tryFold f' s l := by
  induction l generalizing s with
  | nil => rfl
  | cons a l ih =>
    unfold tryFold
    rw [h s a List.mem_cons_self]
    cases f' s a with
    | error e => rfl
    | ok s => exact ih (fun s b hb => h s b (List.mem_cons_of_mem _ hb)) s

theorem addRange_congr (c : Codecs NP EP) {d d' : Db} {dec : TKey Id → Triple Id} {r : Mem Id NP EP} {t t' : Tree}
    {n : Nat} {b : Bound (ByteArr n) × Bound (ByteArr n)}
    (h1 : ∀ k, Bound.contains (boundBytes b) k = true → t.get k = t'.get k)
    (h2 : ∀ k v, Bound.contains (boundBytes b) k = true → t.get k = some v → d.edgeProps.get v = d'.edgeProps.get v) :
    addRange c d dec r (t.rangeArr b) = addRange c d' dec r (t'.rangeArr b) := by
  rw [← rangeArr_congr h1]
  refine tryFold_congr (fun r e he => ?_) r
  obtain ⟨i1, i2⟩ := mem_rangeArr_bytes he
  rw [h2 e.1 e.2 i2 i1]

variable [LaidOutId Id]

theorem runQ_congr (c : Codecs NP EP) {d d' : Db} (g : Gen Id) {q : Query Id} (h : Query.Alike q d d') :
    runQ c d g q = runQ c d' g q := by
  obtain ⟨h1, h2⟩ := h
  cases q with
  | NodeProps l =>
    refine tryFold_congr (fun r n hn => ?_) _
    have := h1 .nodes (be n) ⟨n, hn, rfl⟩
    show (match d.at .nodes (be n) with | none => _ | some b => _) = _
    rw [this]; rfl
  | SPO l =>
    refine tryFold_congr (fun r x hx => ?_) _
    have hk : Query.Covers (.SPO l) .spo (encodeSpo (⟨x.1, x.2.1, x.2.2⟩ : Triple Id)).1 := ⟨x, hx, LaidOutId.spo _⟩
    have i1 : d.spo.get _ = d'.spo.get _ := h1 .spo _ hk
    have i2 := fun v => h2 .spo _ v (by simp) hk
    simp only [Db.at] at i2
    simp only [← i1]
    cases hg : d.spo.get (encodeSpo (⟨x.1, x.2.1, x.2.2⟩ : Triple Id)).1 with
    | none => rfl
    | some v => simp only [i2 v hg]
  | S l =>
    exact tryFold_congr (fun r x hx => addRange_congr c (fun k hk => h1 .spo k ⟨x, hx, LaidOutId.range1 x k hk⟩)
      (fun k v hk hv => h2 .spo k v (by simp) ⟨x, hx, LaidOutId.range1 x k hk⟩ hv)) _
  | SP l =>
    exact tryFold_congr (fun r x hx => addRange_congr c (fun k hk => h1 .spo k ⟨x, hx, LaidOutId.range2 _ _ k hk⟩)
      (fun k v hk hv => h2 .spo k v (by simp) ⟨x, hx, LaidOutId.range2 _ _ k hk⟩ hv)) _
  | SO l =>
    exact tryFold_congr (fun r x hx => addRange_congr c (fun k hk => h1 .osp k ⟨x, hx, LaidOutId.range2 _ _ k hk⟩)
      (fun k v hk hv => h2 .osp k v (by simp) ⟨x, hx, LaidOutId.range2 _ _ k hk⟩ hv)) _
  | P l =>
    exact tryFold_congr (fun r x hx => addRange_congr c (fun k hk => h1 .pos k ⟨x, hx, LaidOutId.range1 x k hk⟩)
      (fun k v hk hv => h2 .pos k v (by simp) ⟨x, hx, LaidOutId.range1 x k hk⟩ hv)) _
  | PO l =>
    exact tryFold_congr (fun r x hx => addRange_congr c (fun k hk => h1 .pos k ⟨x, hx, LaidOutId.range2 _ _ k hk⟩)
      (fun k v hk hv => h2 .pos k v (by simp) ⟨x, hx, LaidOutId.range2 _ _ k hk⟩ hv)) _
  | O l =>
    exact tryFold_congr (fun r x hx => addRange_congr c (fun k hk => h1 .osp k ⟨x, hx, LaidOutId.range1 x k hk⟩)
      (fun k v hk hv => h2 .osp k v (by simp) ⟨x, hx, LaidOutId.range1 x k hk⟩ hv)) _

end Sled

namespace Mem

theorem foldl_congr' {σ α : Type} {f f' : σ → α → σ} {l : List α} (h : ∀ s, ∀ a ∈ l, f s a = f' s a) (s : σ) :
    l.foldl f s = l.foldl f' s := by
  induction l generalizing s with
  | nil => rfl
  | cons a l ih =>
    rw [List.foldl_cons, List.foldl_cons, h s a List.mem_cons_self]
    exact ih (fun s b hb => h s b (List.mem_cons_of_mem _ hb)) _

theorem addRange_congr {s s' : Mem Id NP EP} {dec : TKey Id → Triple Id} {r : Mem Id NP EP} {t t' : BMap (TKey Id) Id}
    {b : Bound (TKey Id) × Bound (TKey Id)}
    (h1 : ∀ k, Bound.contains b k = true → t.get k = t'.get k)
    (h2 : ∀ k v, Bound.contains b k = true → t.get k = some v → s.edgeProps.get v = s'.edgeProps.get v) :
    s.addRange dec r (t.range b) = s'.addRange dec r (t'.range b) := by
  have : t.range b = t'.range b := by
    refine sorted_ext (BMap.range_sorted _ _) (BMap.range_sorted _ _) (fun ⟨k, v⟩ => ?_)
    rw [BMap.mem_range, BMap.mem_range]
    exact ⟨fun ⟨h, h'⟩ => ⟨(h1 k h').symm.trans h, h'⟩, fun ⟨h, h'⟩ => ⟨(h1 k h').trans h, h'⟩⟩
  rw [← this]
  refine foldl_congr' (fun r e he => ?_) r
  obtain ⟨i1, i2⟩ := BMap.mem_range.1 he
  rw [h2 e.1 e.2 i2 i1]

variable [LawfulId Id]

theorem run_congr {s s' : Mem Id NP EP} (g : Gen Id) {q : Query Id} (h : Query.MemAlike q s s') : s.run g q = s'.run g q := by
  obtain ⟨h0, h1, h2⟩ := h
  have range : ∀ {κ : Type} (o : EdgeOrder) (enc : Triple Id → TKey Id) (dec : TKey Id → Triple Id) (t t' : BMap (TKey Id) Id)
      (b : κ → Bound (TKey Id) × Bound (TKey Id)) (l : List κ), (∀ k, enc (dec k) = k) →
      (∀ u, memId s o u = t.get (enc u)) → (∀ u, memId s' o u = t'.get (enc u)) →
      (∀ x ∈ l, ∀ u, Bound.contains (b x) (enc u) = true → memId s o u = memId s' o u) →
      (∀ x ∈ l, ∀ u i, Bound.contains (b x) (enc u) = true → memId s o u = some i → s.edgeProps.get i = s'.edgeProps.get i) →
      l.foldl (fun r x => s.addRange dec r (t.range (b x))) (new g) = l.foldl (fun r x => s'.addRange dec r (t'.range (b x))) (new g) := by
    intro κ o enc dec t t' b l henc ht ht' i1 i2
    refine foldl_congr' (fun r x hx => addRange_congr (fun k hk => ?_) (fun k v hk hv => ?_)) _
    · have := i1 x hx (dec k) (by rw [henc]; exact hk)
      rwa [ht, ht', henc] at this
    · exact i2 x hx (dec k) v (by rw [henc]; exact hk) (by rw [ht, henc]; exact hv)
  cases q with
  | NodeProps l => exact foldl_congr' (fun r n hn => by rw [h0 n hn]) _
  | SPO l =>
    refine foldl_congr' (fun r x hx => ?_) _
    have i1 : s.spo.get (encodeSpo ⟨x.1, x.2.1, x.2.2⟩) = s'.spo.get (encodeSpo ⟨x.1, x.2.1, x.2.2⟩) := h1 ⟨x.1, x.2.1, x.2.2⟩ hx
    have i2 := fun i => h2 ⟨x.1, x.2.1, x.2.2⟩ i hx
    simp only [memId, Query.order] at i2
    simp only [← i1]
    cases hg : s.spo.get (encodeSpo ⟨x.1, x.2.1, x.2.2⟩) with
    | none => rfl
    | some v => simp only [i2 v hg]
  | S l =>
    exact range .SPO encodeSpo decodeSpo s.spo s'.spo keyBounds1 l LawfulId.encSpo_dec (fun _ => rfl) (fun _ => rfl)
      (fun x hx u hu => h1 u (by rw [← (LawfulId.kb1_spo x u).1 hu] at hx; exact hx))
      (fun x hx u i hu => h2 u i (by rw [← (LawfulId.kb1_spo x u).1 hu] at hx; exact hx))
  | P l =>
    exact range .POS encodePos decodePos s.pos s'.pos keyBounds1 l LawfulId.encPos_dec (fun _ => rfl) (fun _ => rfl)
      (fun x hx u hu => h1 u (by rw [← (LawfulId.kb1_pos x u).1 hu] at hx; exact hx))
      (fun x hx u i hu => h2 u i (by rw [← (LawfulId.kb1_pos x u).1 hu] at hx; exact hx))
  | O l =>
    exact range .OSP encodeOsp decodeOsp s.osp s'.osp keyBounds1 l LawfulId.encOsp_dec (fun _ => rfl) (fun _ => rfl)
      (fun x hx u hu => h1 u (by rw [← (LawfulId.kb1_osp x u).1 hu] at hx; exact hx))
      (fun x hx u i hu => h2 u i (by rw [← (LawfulId.kb1_osp x u).1 hu] at hx; exact hx))
  | SP l =>
    have hit : ∀ x ∈ l, ∀ u : Triple Id, Bound.contains (keyBounds2 x.1 x.2) (encodeSpo u) = true → Query.Hits u (.SP l) := by
      intro x hx u hu
      obtain ⟨e1, e2⟩ := (LawfulId.kb2_spo _ _ u).1 hu
      show (u.sub, u.pred) ∈ l
      rw [e1, e2]; exact hx
    exact range .SPO encodeSpo decodeSpo s.spo s'.spo (fun x => keyBounds2 x.1 x.2) l LawfulId.encSpo_dec (fun _ => rfl) (fun _ => rfl)
      (fun x hx u hu => h1 u (hit x hx u hu)) (fun x hx u i hu => h2 u i (hit x hx u hu))
  | PO l =>
    have hit : ∀ x ∈ l, ∀ u : Triple Id, Bound.contains (keyBounds2 x.1 x.2) (encodePos u) = true → Query.Hits u (.PO l) := by
      intro x hx u hu
      obtain ⟨e1, e2⟩ := (LawfulId.kb2_pos _ _ u).1 hu
      show (u.pred, u.obj) ∈ l
      rw [e1, e2]; exact hx
    exact range .POS encodePos decodePos s.pos s'.pos (fun x => keyBounds2 x.1 x.2) l LawfulId.encPos_dec (fun _ => rfl) (fun _ => rfl)
      (fun x hx u hu => h1 u (hit x hx u hu)) (fun x hx u i hu => h2 u i (hit x hx u hu))
  | SO l =>
    have hit : ∀ x ∈ l, ∀ u : Triple Id, Bound.contains (keyBounds2 x.2 x.1) (encodeOsp u) = true → Query.Hits u (.SO l) := by
      intro x hx u hu
      obtain ⟨e1, e2⟩ := (LawfulId.kb2_osp _ _ u).1 hu
      show (u.sub, u.obj) ∈ l
      rw [e1, e2]; exact hx
    exact range .OSP encodeOsp decodeOsp s.osp s'.osp (fun x => keyBounds2 x.2 x.1) l LawfulId.encOsp_dec (fun _ => rfl) (fun _ => rfl)
      (fun x hx u hu => h1 u (hit x hx u hu)) (fun x hx u i hu => h2 u i (hit x hx u hu))

end Mem

/-! ## Calls -/

namespace Spec.Zone

variable {P : Zone Id}

theorem Same.refl (d : Db) : P.Same d d := fun _ _ _ => rfl

theorem Closed.same {d d' : Db} (h : P.Closed d) (hs : P.Same d d') : P.Closed d' := by
  rintro k v (⟨h1, h2⟩ | ⟨h1, h2⟩)
  · exact h k v (.inl ⟨h1, (hs .spo k h1).trans h2⟩)
  · exact h k v (.inr ⟨h1, (hs .osp k h1).trans h2⟩)

end Spec.Zone

/-- write or remove an entry of a tree -/
def Tree.put (t : Tree) (k : Bytes) : Option Bytes → Tree
  | some v => t.insert k v
  | none => t.erase k

def Db.put (d : Db) : Table → Bytes → Option Bytes → Db
  | .nodes, k, o => { d with nodeProps := d.nodeProps.put k o }
  | .edges, k, o => { d with edgeProps := d.edgeProps.put k o }
  | .spo, k, o => { d with spo := d.spo.put k o }
  | .pos, k, o => { d with pos := d.pos.put k o }
  | .osp, k, o => { d with osp := d.osp.put k o }

theorem Tree.get_put (t : Tree) (k k' : Bytes) (o : Option Bytes) : (t.put k o).get k' = if k' = k then o else t.get k' := by
  cases o with
  | none => exact (BMap.get_erase t k k').trans (by congr)
  | some v => exact (BMap.get_insert t k k' v).trans (by congr)

theorem Db.at_put_self (d : Db) (T : Table) (k : Bytes) (o : Option Bytes) : (d.put T k o).at T k = o := by
  cases T <;> simp [Db.put, Db.at, Tree.get_put]

theorem Db.at_put_of (d : Db) (T T' : Table) (k k' : Bytes) (o : Option Bytes) (h : ¬ (T' = T ∧ k' = k)) :
    (d.put T k o).at T' k' = d.at T' k' := by
  cases T <;> cases T' <;> simp_all [Db.put, Db.at, Tree.get_put]

/-- Two databases that came from `d0` and `d0'` by writing in the part, and are alike there. -/
structure Twin (P : Zone Id) (d0 d0' d d' : Db) : Prop where
  same : P.Same d d'
  closed : P.Closed d
  rest : P.Rest d0 d
  rest' : P.Rest d0' d'

namespace Twin

variable {P : Zone Id} {d0 d0' d d' : Db}

theorem start (h : P.Same d d') (hc : P.Closed d) : Twin P d d' d d' := ⟨h, hc, fun _ _ _ => rfl, fun _ _ _ => rfl⟩

theorem put (h : Twin P d0 d0' d d') {T : Table} {k : Bytes} {o : Option Bytes} (hT : P.Cell T k)
    (ho : ∀ v, T = .spo ∨ T = .osp → o = some v → P.recs v) : Twin P d0 d0' (d.put T k o) (d'.put T k o) := by
  classical
  refine ⟨fun T' k' h' => ?_, ?_, fun T' k' h' => ?_, fun T' k' h' => ?_⟩
  · by_cases he : T' = T ∧ k' = k
    · rw [he.1, he.2, Db.at_put_self, Db.at_put_self]
    · rw [Db.at_put_of _ _ _ _ _ _ he, Db.at_put_of _ _ _ _ _ _ he]; exact h.same T' k' h'
  · rintro k' v (⟨h1, h2⟩ | ⟨h1, h2⟩)
    · by_cases he : .spo = T ∧ k' = k
      · have : (d.put T k o).at .spo k' = o := by rw [he.1, he.2, Db.at_put_self]
        exact ho v (.inl he.1.symm) (this.symm.trans h2)
      · exact h.closed k' v (.inl ⟨h1, (Db.at_put_of _ _ .spo _ _ _ he).symm.trans h2⟩)
    · by_cases he : .osp = T ∧ k' = k
      · have : (d.put T k o).at .osp k' = o := by rw [he.1, he.2, Db.at_put_self]
        exact ho v (.inr he.1.symm) (this.symm.trans h2)
      · exact h.closed k' v (.inr ⟨h1, (Db.at_put_of _ _ .osp _ _ _ he).symm.trans h2⟩)
  · rw [Db.at_put_of _ _ _ _ _ _ (by rintro ⟨rfl, rfl⟩; exact h' hT)]; exact h.rest T' k' h'
  · rw [Db.at_put_of _ _ _ _ _ _ (by rintro ⟨rfl, rfl⟩; exact h' hT)]; exact h.rest' T' k' h'

/-- many removals -/
theorem drops (h : Twin P d0 d0' d d') (T : Table) {ks : List Bytes} (hk : ∀ k ∈ ks, P.Cell T k) :
    Twin P d0 d0' (ks.foldl (fun d k => d.put T k none) d) (ks.foldl (fun d k => d.put T k none) d') := by
  induction ks generalizing d d' with
  | nil => exact h
  | cons k ks ih =>
    exact ih (h.put (hk k List.mem_cons_self) (fun _ _ e => nomatch e)) (fun k' h' => hk k' (List.mem_cons_of_mem _ h'))

end Twin

/-- The two programs do the same in the part, and nothing elsewhere. -/
def Twins (P : Zone Id) {α : Type} : Prog Db α → Prog Db α → Prop
  | .ret a, .ret a' => a = a'
  | .call f k, .call f' k' => ∀ d d', P.Same d d' → P.Closed d → Twin P d d' (f d) (f' d') ∧ Twins P (k d) (k' d')
  | _, _ => False

namespace Twins

variable {P : Zone Id} {α β : Type}

theorem bind {p p' : Prog Db α} {k k' : α → Prog Db β} (h : Twins P p p') (hk : ∀ a, Twins P (k a) (k' a)) :
    Twins P (p.bind k) (p'.bind k') := by
  induction p generalizing p' with
  | ret a =>
    cases p' with
    | ret a' => cases h; exact hk a
    | call f' j' => exact h.elim
  | call f j ih =>
    cases p' with
    | ret a' => exact h.elim
    | call f' j' => exact fun d d' h1 h2 => ⟨(h d d' h1 h2).1, ih d (h d d' h1 h2).2⟩

theorem step {f f' : Db → Db} {k k' : Db → Prog Db α}
    (h : ∀ d d', P.Same d d' → P.Closed d → Twin P d d' (f d) (f' d') ∧ Twins P (k d) (k' d')) :
    Twins P (.call f k) (.call f' k') := h

end Twins

section
variable {P : Zone Id} [LaidOutId Id]

omit [LaidOutId Id] in
theorem be_length (x : Id) : (be x).length = ConcreteId.idLen (Id := Id) := (toBeBytes x).2

theorem be_inj {x y : Id} (h : be x = be y) : x = y := by
  have h1 := LawfulId.try_toBe x
  have h2 := LawfulId.try_toBe y
  unfold be at h
  rw [h, h2] at h1
  exact (Option.some.inj h1).symm

theorem be_prefix {x y : Id} {l : Bytes} (h : be x <+: be y ++ l) : x = y := by
  obtain ⟨m, hm⟩ := h
  exact be_inj (List.append_inj hm ((be_length x).trans (be_length y).symm)).1

namespace Spec.Zone

theorem cell_spo {t : Triple Id} (h : P.edges t) : P.Cell .spo (encodeSpo t).1 := .inl ⟨t, h, LaidOutId.spo t⟩
theorem cell_pos {t : Triple Id} (h : P.edges t) : P.Cell .pos (encodePos t).1 := ⟨t, h, LaidOutId.pos t⟩
theorem cell_osp {t : Triple Id} (h : P.edges t) : P.Cell .osp (encodeOsp t).1 := .inl ⟨t, h, LaidOutId.osp t⟩

end Spec.Zone

omit [LaidOutId Id] in
theorem Twins.refl_ret {α : Type} (a : α) : Twins P (.ret a : Prog Db α) (.ret a) := rfl

namespace Sled

/-- `transaction` -/
theorem twins_tx {f : Db → Except SErr Db}
    (h : ∀ d d', P.Same d d' → P.Closed d →
      (∃ e, f d = .error e ∧ f d' = .error e) ∨ ∃ e e', f d = .ok e ∧ f d' = .ok e' ∧ Twin P d d' e e') :
    Twins P (transaction f) (transaction f) := by
  intro d d' h1 h2
  rcases h d d' h1 h2 with ⟨e, i1, i2⟩ | ⟨e, e', i1, i2, i3⟩
  · simp only [i1, i2]
    exact ⟨.start h1 h2, rfl⟩
  · simp only [i1, i2]
    exact ⟨i3, rfl⟩

theorem twins_insertNode (c : Codecs NP EP) {n : Id} (hn : P.nodes n) (p : NP) :
    Twins P (insertNode c n p) (insertNode c n p) := by
  unfold insertNode
  cases c.n.ser p with
  | none => exact rfl
  | some b =>
    intro d d' h1 h2
    exact ⟨(Twin.start h1 h2).put (T := .nodes) (k := (toBeBytes n).1) (o := some b) ⟨n, hn, rfl⟩ (by simp), rfl⟩

/-- the three keys of an edge, written in one step -/
theorem twin_edge {d0 d0' d d' : Db} (h : Twin P d0 d0' d d') {t : Triple Id} (ht : P.edges t) {v : Bytes} (hv : P.recs v) :
    Twin P d0 d0' (((d.put .spo (encodeSpo t).1 (some v)).put .pos (encodePos t).1 (some v)).put .osp (encodeOsp t).1 (some v))
      (((d'.put .spo (encodeSpo t).1 (some v)).put .pos (encodePos t).1 (some v)).put .osp (encodeOsp t).1 (some v)) :=
  ((h.put (Zone.cell_spo ht) (by simpa using hv)).put (Zone.cell_pos ht) (by simp)).put (Zone.cell_osp ht) (by simpa using hv)

theorem twins_insertEdge (c : Codecs NP EP) {i : Id} {t : Triple Id} (ht : P.edges t) (hi : P.recs (be i)) (p : EP) :
    Twins P (insertEdge c i t p) (insertEdge c i t p) := by
  unfold insertEdge
  cases c.e.ser p with
  | none => exact rfl
  | some b =>
    refine twins_tx (fun d d' h1 h2 => .inr ⟨_, _, rfl, rfl, ?_⟩)
    exact twin_edge ((Twin.start h1 h2).put (T := .edges) (k := (toBeBytes i).1) (o := some b) hi (by simp)) ht hi

theorem twins_mergeNode (c : Codecs NP EP) (mN : NP → NP → NP) {n : Id} (hn : P.nodes n) (p : NP) :
    Twins P (mergeNode c mN n p) (mergeNode c mN n p) := by
  refine twins_tx (fun d d' h1 h2 => ?_)
  have put := fun b => (Twin.start h1 h2).put (T := .nodes) (k := (toBeBytes n).1) (o := some b) ⟨n, hn, rfl⟩ (by simp)
  have he : d.nodeProps.get (toBeBytes n).1 = d'.nodeProps.get (toBeBytes n).1 := h1 .nodes _ ⟨n, hn, rfl⟩
  rw [he]
  cases d'.nodeProps.get (toBeBytes n).1 with
  | none =>
    dsimp only
    cases c.n.ser p with
    | none => exact .inl ⟨_, rfl, rfl⟩
    | some b => exact .inr ⟨_, _, rfl, rfl, put b⟩
  | some v =>
    dsimp only
    cases c.n.de v with
    | none => exact .inl ⟨_, rfl, rfl⟩
    | some old =>
      dsimp only
      cases c.n.ser (mN old p) with
      | none => exact .inl ⟨_, rfl, rfl⟩
      | some b => exact .inr ⟨_, _, rfl, rfl, put b⟩

theorem twins_mergeEdge (c : Codecs NP EP) (mE : EP → EP → EP) {i : Id} {t : Triple Id} (ht : P.edges t) (hi : P.recs (be i)) (p : EP) :
    Twins P (mergeEdge c mE i t p) (mergeEdge c mE i t p) := by
  refine twins_tx (fun d d' h1 h2 => ?_)
  have he : d.spo.get (encodeSpo t).1 = d'.spo.get (encodeSpo t).1 := h1 .spo _ (Zone.cell_spo ht)
  have base := twin_edge (Twin.start h1 h2) ht hi
  have put := fun b => base.put (T := .edges) (k := (toBeBytes i).1) (o := some b) hi (by simp)
  cases hg : d'.spo.get (encodeSpo t).1 with
  | none =>
    simp only [he, hg]
    cases c.e.ser p with
    | none => exact .inl ⟨_, rfl, rfl⟩
    | some b => exact .inr ⟨_, _, rfl, rfl, put b⟩
  | some o =>
    have ho : P.recs o := h2 _ o (.inl ⟨Zone.cell_spo ht, he.trans hg⟩)
    have hr : d.edgeProps.get o = d'.edgeProps.get o := h1 .edges o ho
    have put' := fun b => (base.put (T := .edges) (k := o) (o := none) ho (by simp)).put
      (T := .edges) (k := (toBeBytes i).1) (o := some b) hi (by simp)
    simp only [he, hg, hr]
    cases d'.edgeProps.get o with
    | none =>
      dsimp only
      cases c.e.ser p with
      | none => exact .inl ⟨_, rfl, rfl⟩
      | some b => exact .inr ⟨_, _, rfl, rfl, put' b⟩
    | some v =>
      dsimp only
      cases c.e.de v with
      | none => exact .inl ⟨_, rfl, rfl⟩
      | some old =>
        dsimp only
        cases c.e.ser (mE old p) with
        | none => exact .inl ⟨_, rfl, rfl⟩
        | some b => exact .inr ⟨_, _, rfl, rfl, put' b⟩

theorem twins_removeEdge {t : Triple Id} (ht : P.edges t) : Twins P (removeEdge t) (removeEdge t) := by
  have erase3 : ∀ {d0 d0' d d' : Db}, Twin P d0 d0' d d' →
      Twin P d0 d0' (((d.put .spo (encodeSpo t).1 none).put .pos (encodePos t).1 none).put .osp (encodeOsp t).1 none)
        (((d'.put .spo (encodeSpo t).1 none).put .pos (encodePos t).1 none).put .osp (encodeOsp t).1 none) :=
    fun h => ((h.put (Zone.cell_spo ht) (by simp)).put (Zone.cell_pos ht) (by simp)).put (Zone.cell_osp ht) (by simp)
  refine Twins.step (fun d d' h1 h2 => ⟨?_, ?_⟩)
  · have he : d.spo.get (encodeSpo t).1 = d'.spo.get (encodeSpo t).1 := h1 .spo _ (Zone.cell_spo ht)
    rw [he]
    cases hg : d'.spo.get (encodeSpo t).1 with
    | none => exact erase3 (Twin.start h1 h2)
    | some o =>
      exact erase3 ((Twin.start h1 h2).put (T := .edges) (k := o) (o := none) (h2 _ o (.inl ⟨Zone.cell_spo ht, he.trans hg⟩)) (by simp))
  refine Twins.step (fun d d' h1 h2 => ⟨(Twin.start h1 h2).put (T := .spo) (o := none) (Zone.cell_spo ht) (by simp), ?_⟩)
  have he : d.spo.get (encodeSpo t).1 = d'.spo.get (encodeSpo t).1 := h1 .spo _ (Zone.cell_spo ht)
  have ho := fun o => fun h => h2 _ o (.inl ⟨Zone.cell_spo ht, h⟩)
  refine Twins.step (fun e e' h1 h2 => ⟨(Twin.start h1 h2).put (T := .pos) (o := none) (Zone.cell_pos ht) (by simp), ?_⟩)
  refine Twins.step (fun e e' h1 h2 => ⟨(Twin.start h1 h2).put (T := .osp) (o := none) (Zone.cell_osp ht) (by simp), ?_⟩)
  cases hg : d.spo.get (encodeSpo t).1 with
  | none => rw [← he, hg]; exact rfl
  | some o =>
    rw [← he, hg]
    exact Twins.step (fun e e' h1 h2 => ⟨(Twin.start h1 h2).put (T := .edges) (k := o) (o := none) (ho o hg) (by simp), rfl⟩)

/-! ### remove_node -/

/-- the batch removes only from the part -/
structure Batch.In (P : Zone Id) (b : Batch) : Prop where
  spo : ∀ k ∈ b.spo, P.Cell .spo k
  pos : ∀ k ∈ b.pos, P.Cell .pos k
  osp : ∀ k ∈ b.osp, P.Cell .osp k
  edge : ∀ k ∈ b.edge, P.recs k

theorem Batch.In.nil : Batch.In P ⟨[], [], [], []⟩ := by constructor <;> simp

theorem forwardBatch_in (hP : P.Whole) {n : Id} (hn : P.gone n) {l : List (Bytes × Bytes)} {b fb : Batch} (hb : b.In P)
    (hl : ∀ e ∈ l, be n <+: e.1 ∧ P.recs e.2) (h : forwardBatch Id b l = .ok fb) : fb.In P := by
  induction l generalizing b with
  | nil => cases h; exact hb
  | cons e l ih =>
    obtain ⟨k, v⟩ := e
    unfold forwardBatch at h
    cases hk : ByteArr.tryFrom (tripleLen (Id := Id)) k with
    | none => rw [hk] at h; cases h
    | some key =>
      rw [hk] at h
      have hkk : k = key.1 := tryFrom_eq_some.1 hk
      obtain ⟨h1, h2⟩ := hl (k, v) List.mem_cons_self
      have hs : (decodeSpo key : Triple Id).sub = n := by
        have hc := LaidOutId.spo (decodeSpo key : Triple Id)
        rw [LawfulId.encSpo_dec, ← hkk, List.append_assoc] at hc
        rw [hc] at h1
        exact (be_prefix h1).symm
      have he : P.edges (decodeSpo key : Triple Id) := (hP n hn).2 _ (.inl hs)
      refine ih ⟨?_, ?_, ?_, ?_⟩ (fun e he => hl e (List.mem_cons_of_mem _ he)) h
      · intro k' hk'
        rcases List.mem_append.1 hk' with hk' | hk'
        · exact hb.spo k' hk'
        · cases List.mem_singleton.1 hk'; exact .inr ⟨n, hn, h1⟩
      · intro k' hk'
        rcases List.mem_append.1 hk' with hk' | hk'
        · exact hb.pos k' hk'
        · cases List.mem_singleton.1 hk'; exact Zone.cell_pos he
      · intro k' hk'
        rcases List.mem_append.1 hk' with hk' | hk'
        · exact hb.osp k' hk'
        · cases List.mem_singleton.1 hk'; exact Zone.cell_osp he
      · intro k' hk'
        rcases List.mem_append.1 hk' with hk' | hk'
        · exact hb.edge k' hk'
        · cases List.mem_singleton.1 hk'; exact h2

theorem backwardBatch_in (hP : P.Whole) {n : Id} (hn : P.gone n) {l : List (Bytes × Bytes)} {b fb : Batch} (hb : b.In P)
    (hl : ∀ e ∈ l, be n <+: e.1 ∧ P.recs e.2) (h : backwardBatch Id b l = .ok fb) : fb.In P := by
  induction l generalizing b with
  | nil => cases h; exact hb
  | cons e l ih =>
    obtain ⟨k, v⟩ := e
    unfold backwardBatch at h
    cases hk : ByteArr.tryFrom (tripleLen (Id := Id)) k with
    | none => rw [hk] at h; cases h
    | some key =>
      rw [hk] at h
      have hkk : k = key.1 := tryFrom_eq_some.1 hk
      obtain ⟨h1, h2⟩ := hl (k, v) List.mem_cons_self
      have hs : (decodeOsp key : Triple Id).obj = n := by
        have hc := LaidOutId.osp (decodeOsp key : Triple Id)
        rw [LawfulId.encOsp_dec, ← hkk, List.append_assoc] at hc
        rw [hc] at h1
        exact (be_prefix h1).symm
      have he : P.edges (decodeOsp key : Triple Id) := (hP n hn).2 _ (.inr hs)
      refine ih ⟨?_, ?_, ?_, ?_⟩ (fun e he => hl e (List.mem_cons_of_mem _ he)) h
      · intro k' hk'
        rcases List.mem_append.1 hk' with hk' | hk'
        · exact hb.spo k' hk'
        · cases List.mem_singleton.1 hk'; exact Zone.cell_spo he
      · intro k' hk'
        rcases List.mem_append.1 hk' with hk' | hk'
        · exact hb.pos k' hk'
        · cases List.mem_singleton.1 hk'; exact Zone.cell_pos he
      · intro k' hk'
        rcases List.mem_append.1 hk' with hk' | hk'
        · exact hb.osp k' hk'
        · cases List.mem_singleton.1 hk'; exact .inr ⟨n, hn, h1⟩
      · intro k' hk'
        rcases List.mem_append.1 hk' with hk' | hk'
        · exact hb.edge k' hk'
        · cases List.mem_singleton.1 hk'; exact h2

theorem foldl_spo (ks : List Bytes) (d : Db) : ks.foldl (fun d k => d.put .spo k none) d = { d with spo := applyBatch d.spo ks } := by
  induction ks generalizing d with
  | nil => rfl
  | cons k ks ih => exact ih _

theorem foldl_pos (ks : List Bytes) (d : Db) : ks.foldl (fun d k => d.put .pos k none) d = { d with pos := applyBatch d.pos ks } := by
  induction ks generalizing d with
  | nil => rfl
  | cons k ks ih => exact ih _

theorem foldl_osp (ks : List Bytes) (d : Db) : ks.foldl (fun d k => d.put .osp k none) d = { d with osp := applyBatch d.osp ks } := by
  induction ks generalizing d with
  | nil => rfl
  | cons k ks ih => exact ih _

theorem foldl_edges (ks : List Bytes) (d : Db) :
    ks.foldl (fun d k => d.put .edges k none) d = { d with edgeProps := applyBatch d.edgeProps ks } := by
  induction ks generalizing d with
  | nil => rfl
  | cons k ks ih => exact ih _

theorem twins_removeNodeTx (hP : P.Whole) {n : Id} (hn : P.gone n) {fb bb : Batch} (hf : fb.In P) (hb : bb.In P) :
    Twins P (removeNodeTx n fb bb) (removeNodeTx n fb bb) := by
  refine twins_tx (fun d d' h1 h2 => .inr ⟨_, _, rfl, rfl, ?_⟩)
  have h := ((((((((Twin.start h1 h2).put (T := .nodes) (k := (toBeBytes n).1) (o := none) ⟨n, (hP n hn).1, rfl⟩ (by simp)).drops
    .edges hf.edge).drops .edges hb.edge).drops .spo hf.spo).drops .spo hb.spo).drops .pos hf.pos).drops .pos hb.pos).drops
    .osp hf.osp |>.drops .osp hb.osp
  simp only [foldl_spo, foldl_pos, foldl_osp, foldl_edges] at h
  exact h

theorem twins_removeNode (hP : P.Whole) {n : Id} (hn : P.gone n) :
    Twins P (removeNode n) (removeNode n) := by
  refine Twins.step (fun d d' h1 h2 => ⟨Twin.start h1 h2, ?_⟩)
  have hr : d.spo.rangeArr (keyBounds1 n) = d'.spo.rangeArr (keyBounds1 n) :=
    rangeArr_congr (fun k hk => h1 .spo k (.inr ⟨n, hn, LaidOutId.range1 n k hk⟩))
  rw [← hr]
  have hf := fun fb => forwardBatch_in (fb := fb) hP hn .nil (l := d.spo.rangeArr (keyBounds1 n)) (fun e he => by
    obtain ⟨i1, i2⟩ := mem_rangeArr_bytes he
    have i3 := LaidOutId.range1 n e.1 i2
    exact ⟨i3, h2 e.1 e.2 (.inl ⟨.inr ⟨n, hn, i3⟩, i1⟩)⟩)
  cases hfb : forwardBatch Id ⟨[], [], [], []⟩ (d.spo.rangeArr (keyBounds1 n)) with
  | error e => exact rfl
  | ok fb =>
    refine Twins.step (fun e e' h1 h2 => ⟨Twin.start h1 h2, ?_⟩)
    have hr : e.osp.rangeArr (keyBounds1 n) = e'.osp.rangeArr (keyBounds1 n) :=
      rangeArr_congr (fun k hk => h1 .osp k (.inr ⟨n, hn, LaidOutId.range1 n k hk⟩))
    rw [← hr]
    have hb := fun bb => backwardBatch_in (fb := bb) hP hn .nil (l := e.osp.rangeArr (keyBounds1 n)) (fun x he => by
      obtain ⟨i1, i2⟩ := mem_rangeArr_bytes he
      have i3 := LaidOutId.range1 n x.1 i2
      exact ⟨i3, h2 x.1 x.2 (.inr ⟨.inr ⟨n, hn, i3⟩, i1⟩)⟩)
    cases hbb : backwardBatch Id ⟨[], [], [], []⟩ (e.osp.rangeArr (keyBounds1 n)) with
    | error e => exact rfl
    | ok bb => exact twins_removeNodeTx hP hn (hf fb hfb) (hb bb hbb)

theorem twins_removeNodeScanned (hP : P.Whole) {n : Id} (hn : P.gone n) {fwd bwd : List (Bytes × Bytes)}
    (h : ∀ e, e ∈ fwd ∨ e ∈ bwd → be n <+: e.1 ∧ P.recs e.2) :
    Twins P (removeNodeScanned n fwd bwd) (removeNodeScanned n fwd bwd) := by
  unfold removeNodeScanned
  cases hf : forwardBatch Id ⟨[], [], [], []⟩ fwd with
  | error e => exact rfl
  | ok fb =>
    cases hb : backwardBatch Id ⟨[], [], [], []⟩ bwd with
    | error e => exact rfl
    | ok bb =>
      exact twins_removeNodeTx hP hn (forwardBatch_in hP hn .nil (fun e he => h e (.inl he)) hf)
        (backwardBatch_in hP hn .nil (fun e he => h e (.inr he)) hb)

/-! ### bulk operations -/

theorem twins_mergeNodes (c : Codecs NP EP) (mN : NP → NP → NP) {α : Type} {k : Except (LR SErr E) Unit → Prog Db α}
    (hk : ∀ r, Twins P (k r) (k r)) {l : List (Except E (Id × NP))} (hl : ∀ n p, .ok (n, p) ∈ l → P.nodes n) :
    Twins P (mergeNodes c mN k l) (mergeNodes c mN k l) := by
  induction l with
  | nil => exact hk _
  | cons x l ih =>
    cases x with
    | error e => exact hk _
    | ok x =>
      refine Twins.bind (twins_mergeNode c mN (hl x.1 x.2 List.mem_cons_self) x.2) (fun r => ?_)
      cases r with
      | error e => exact hk _
      | ok _ => exact ih (fun n p h => hl n p (List.mem_cons_of_mem _ h))

theorem twins_mergeEdges (c : Codecs NP EP) (mE : EP → EP → EP) {g : Gen Id} {l : List (Except E (Triple Id × EP))}
    (hl : ∀ x ∈ Call.drawnFor g l, P.edges x.2 ∧ P.recs x.1) :
    Twins P (mergeEdges c mE g l) (mergeEdges c mE g l) := by
  induction l generalizing g with
  | nil => exact rfl
  | cons x l ih =>
    cases x with
    | error e => exact rfl
    | ok x =>
      obtain ⟨h1, h2⟩ := hl _ List.mem_cons_self
      refine Twins.bind (twins_mergeEdge c mE h1 h2 x.2) (fun r => ?_)
      cases r with
      | error e => exact rfl
      | ok _ => exact ih (fun y h => hl y (List.mem_cons_of_mem _ h))

omit [LaidOutId Id] in
theorem twins_extendNodes (c : Codecs NP EP) {α : Type} {k : Except (LR SErr E) Unit → Prog Db α}
    (hk : ∀ r, Twins P (k r) (k r)) {l : List (Except E (Id × NP))} (hl : ∀ n p, .ok (n, p) ∈ l → P.nodes n) :
    Twins P (extendNodes c k l) (extendNodes c k l) := by
  induction l with
  | nil => exact hk _
  | cons x l ih =>
    cases x with
    | error e => exact hk _
    | ok x =>
      unfold extendNodes
      cases c.n.ser x.2 with
      | none => exact hk _
      | some b =>
        refine Twins.step (fun d d' h1 h2 => ⟨?_, ih (fun n p h => hl n p (List.mem_cons_of_mem _ h))⟩)
        exact (Twin.start h1 h2).put (T := .nodes) (k := (toBeBytes x.1).1) (o := some b)
          ⟨x.1, hl x.1 x.2 List.mem_cons_self, rfl⟩ (by simp)

theorem twins_extendEdges (c : Codecs NP EP) {u : Gen Ulid} {l : List (Except E (Triple Id × EP))}
    (hl : ∀ x ∈ Call.drawnFor u l, P.edges x.2 ∧ P.recs x.1) :
    Twins P (extendEdges c u l) (extendEdges c u l) := by
  induction l generalizing u with
  | nil => exact rfl
  | cons x l ih =>
    cases x with
    | error e => exact rfl
    | ok x =>
      obtain ⟨ht, hv⟩ := hl _ List.mem_cons_self
      have ih := ih (fun y h => hl y (List.mem_cons_of_mem _ h))
      unfold extendEdges
      cases c.e.ser x.2 with
      | none => exact rfl
      | some b =>
        refine Twins.step (fun d d' h1 h2 => ⟨(Twin.start h1 h2).put (T := .edges) (o := some b) hv (by simp), ?_⟩)
        refine Twins.step (fun d d' h1 h2 => ⟨(Twin.start h1 h2).put (T := .spo) (o := some _) (Zone.cell_spo ht)
          (by simpa using hv), ?_⟩)
        have he : d.spo.get (encodeSpo x.1).1 = d'.spo.get (encodeSpo x.1).1 := h1 .spo _ (Zone.cell_spo ht)
        have ho := fun o => fun h => h2 _ o (.inl ⟨Zone.cell_spo ht, h⟩)
        refine Twins.step (fun e e' h1 h2 => ⟨(Twin.start h1 h2).put (T := .pos) (o := some _) (Zone.cell_pos ht) (by simp), ?_⟩)
        refine Twins.step (fun e e' h1 h2 => ⟨(Twin.start h1 h2).put (T := .osp) (o := some _) (Zone.cell_osp ht)
          (by simpa using hv), ?_⟩)
        cases hg : d.spo.get (encodeSpo x.1).1 with
        | none => rw [← he, hg]; exact ih
        | some o =>
          rw [← he, hg]
          exact Twins.step (fun e e' h1 h2 => ⟨(Twin.start h1 h2).put (T := .edges) (k := o) (o := none) (ho o hg) (by simp), ih⟩)

theorem twins_full (c : Codecs NP EP) (mN : NP → NP → NP) (mE : EP → EP → EP) (hP : P.Whole) {x : Call E Id NP EP} (hx : P.Has x) :
    Twins P (x.full c mN mE) (x.full c mN mE) := by
  cases x with
  | insertNode n p => exact (twins_insertNode c hx p).bind (fun _ => rfl)
  | insertEdge i t p => exact (twins_insertEdge c hx.1 hx.2 p).bind (fun _ => rfl)
  | removeNode n => exact (twins_removeNode hP hx).bind (fun _ => rfl)
  | removeNodeScan n fwd bwd => exact (twins_removeNodeScanned hP hx.1 hx.2).bind (fun _ => rfl)
  | removeEdge t => exact (twins_removeEdge hx).bind (fun _ => rfl)
  | mergeNode n p => exact (twins_mergeNode c mN hx p).bind (fun _ => rfl)
  | mergeEdge i t p => exact (twins_mergeEdge c mE hx.1 hx.2 p).bind (fun _ => rfl)
  | extend u src =>
    refine (twins_extendNodes c (fun r => ?_) hx.1).bind (fun _ => rfl)
    cases r with
    | error e => exact rfl
    | ok _ => exact twins_extendEdges c hx.2
  | merge g src =>
    refine (twins_mergeNodes c mN (fun r => ?_) hx.1).bind (fun _ => rfl)
    cases r with
    | error e => exact rfl
    | ok _ => exact twins_mergeEdges c mE hx.2

omit [LaidOutId Id] in
theorem prog_eq_full (c : Codecs NP EP) (mN : NP → NP → NP) (mE : EP → EP → EP) (x : Call E Id NP EP) :
    x.prog c mN mE = (x.full c mN mE).bind (fun _ => .ret ()) := by
  have assoc : ∀ {α β γ : Type} (p : Prog Db α) (f : α → Prog Db β) (g : β → Prog Db γ),
      (p.bind f).bind g = p.bind (fun a => (f a).bind g) := by
    intro α β γ p f g
    induction p with
    | ret a => rfl
    | call h k ih => simp only [Prog.bind, ih]
  cases x <;> simp only [Call.prog, Call.full, assoc] <;> rfl

end Sled

/-! ## Zones given by different nodes and edges -/

namespace Spec.Zone

theorem spo_inj {t u : Triple Id} (h : be t.sub ++ be t.pred ++ be t.obj = be u.sub ++ be u.pred ++ be u.obj) : t = u := by
  rw [← LaidOutId.spo, ← LaidOutId.spo] at h
  rw [← LawfulId.decSpo_enc t, Subtype.ext h, LawfulId.decSpo_enc]

theorem pos_inj {t u : Triple Id} (h : be t.pred ++ be t.obj ++ be t.sub = be u.pred ++ be u.obj ++ be u.sub) : t = u := by
  rw [← LaidOutId.pos, ← LaidOutId.pos] at h
  rw [← LawfulId.decPos_enc t, Subtype.ext h, LawfulId.decPos_enc]

theorem osp_inj {t u : Triple Id} (h : be t.obj ++ be t.sub ++ be t.pred = be u.obj ++ be u.sub ++ be u.pred) : t = u := by
  rw [← LaidOutId.osp, ← LaidOutId.osp] at h
  rw [← LawfulId.decOsp_enc t, Subtype.ext h, LawfulId.decOsp_enc]

theorem apart_of {P Q : Zone Id} (hP : P.Whole) (hQ : Q.Whole) (hn : ∀ n, P.nodes n → ¬ Q.nodes n) (he : ∀ t, P.edges t → ¬ Q.edges t)
    (hr : ∀ v, P.recs v → ¬ Q.recs v) : P.Apart Q := by
  have gone2 : ∀ {n m : Id} {k : Bytes}, P.gone n → Q.gone m → be n <+: k → be m <+: k → False := by
    intro n m k h1 h2 h3 h4
    obtain ⟨l, rfl⟩ := h4
    have := be_prefix h3
    subst this
    exact hn n (hP n h1).1 (hQ n h2).1
  intro T k
  cases T with
  | nodes =>
    rintro ⟨n, h1, rfl⟩ ⟨m, h2, h3⟩
    exact hn n h1 (by rw [be_inj h3]; exact h2)
  | edges => exact hr k
  | spo =>
    rintro (⟨t, h1, rfl⟩ | ⟨n, h1, h2⟩) (⟨u, h3, h4⟩ | ⟨m, h3, h4⟩)
    · exact he t h1 (by rw [spo_inj h4]; exact h3)
    · rw [List.append_assoc] at h4
      exact he t h1 ((hQ m h3).2 t (.inl (be_prefix h4).symm))
    · rw [h4, List.append_assoc] at h2
      exact he u ((hP n h1).2 u (.inl (be_prefix h2).symm)) h3
    · exact gone2 h1 h3 h2 h4
  | pos =>
    rintro ⟨t, h1, rfl⟩ ⟨u, h3, h4⟩
    exact he t h1 (by rw [pos_inj h4]; exact h3)
  | osp =>
    rintro (⟨t, h1, rfl⟩ | ⟨n, h1, h2⟩) (⟨u, h3, h4⟩ | ⟨m, h3, h4⟩)
    · exact he t h1 (by rw [osp_inj h4]; exact h3)
    · rw [List.append_assoc] at h4
      exact he t h1 ((hQ m h3).2 t (.inr (be_prefix h4).symm))
    · rw [h4, List.append_assoc] at h2
      exact he u ((hP n h1).2 u (.inr (be_prefix h2).symm)) h3
    · exact gone2 h1 h3 h2 h4

omit [LaidOutId Id] in
theorem ofNode_whole (d : Db) (n : Id) : (ofNode d n).Whole := by
  rintro m rfl
  exact ⟨rfl, fun _ h => h⟩

omit [LaidOutId Id] in
theorem ofNode_closed (d : Db) (n : Id) : (ofNode d n).Closed d := fun k _ h => ⟨k, h⟩

end Spec.Zone

/-! ## Consequences -/

namespace Twins

variable {α : Type}

omit [LaidOutId Id] in
theorem run {p p' : Prog Db α} (h : Twins P p p') {d d' : Db} (h1 : P.Same d d') (h2 : P.Closed d) :
    (p.run d).2 = (p'.run d').2 ∧ Twin P d d' (p.run d).1 (p'.run d').1 ∧
      List.Forall₂ (Twin P d d') (p.states d) (p'.states d') := by
  induction p generalizing p' d d' with
  | ret a =>
    cases p' with
    | ret a' => cases h; exact ⟨rfl, .start h1 h2, .cons (.start h1 h2) .nil⟩
    | call f' j' => exact h.elim
  | call f j ih =>
    cases p' with
    | ret a' => exact h.elim
    | call f' j' =>
      obtain ⟨i1, i2⟩ := h d d' h1 h2
      obtain ⟨j1, j2, j3⟩ := ih d i2 i1.same i1.closed
      have trans : ∀ {e e'}, Twin P (f d) (f' d') e e' → Twin P d d' e e' := fun h =>
        ⟨h.same, h.closed, fun T k hk => (i1.rest T k hk).trans (h.rest T k hk), fun T k hk => (i1.rest' T k hk).trans (h.rest' T k hk)⟩
      exact ⟨j1, trans j2, .cons (.start h1 h2) (j3.imp (fun _ _ h => trans h))⟩

end Twins

/-! ## Threads -/

section
variable {Z : Nat → Zone Id} {i : Nat}

/-- While thread `i` of the process is at `q`, alone it would be at `q'`. -/
structure Abreast (Z : Nat → Zone Id) (i : Nat) (x : Db × List (List (Prog Db Unit))) (y : Db × List (Prog Db Unit)) : Prop where
  closed : ∀ j, (Z j).Closed x.1
  twins : ∀ j q, x.2[j]? = some q → ∀ p ∈ q, Twins (Z j) p p
  same : (Z i).Same x.1 y.1
  mine : ∀ q, x.2[i]? = some q → List.Forall₂ (Twins (Z i)) q y.2

omit [LaidOutId Id] in
theorem Zone.Closed.rest {P Q : Zone Id} (hPQ : P.Apart Q) {d d' : Db} (h : P.Closed d) (hr : Q.Rest d d') : P.Closed d' :=
  h.same (fun T k hk => hr T k (hPQ T k hk))

omit [LaidOutId Id] in
theorem Abreast.step (hZ : ∀ i j, i ≠ j → (Z i).Apart (Z j)) {x x' : Db × List (List (Prog Db Unit))} {y : Db × List (Prog Db Unit)}
    (h : Abreast Z i x y) (hs : CalmStep x x') :
    ∃ y', Abreast Z i x' y' ∧ (y' = y ∨ CalmStep (y.1, [y.2]) (y'.1, [y'.2])) := by
  obtain ⟨e, q'⟩ := y
  obtain ⟨h1, h2, h3, h4⟩ := h
  cases hs with
  | call s pre post f k q =>
    have hat : (pre ++ (.call f k :: q) :: post)[pre.length]? = some (.call f k :: q) := by simp
    have hme := h2 pre.length _ hat _ List.mem_cons_self
    have hself := hme s s (Zone.Same.refl s) (h1 _)
    have closed' : ∀ j, (Z j).Closed (f s) := fun j => by
      by_cases hj : j = pre.length
      · rw [hj]; exact hself.1.closed
      · exact Zone.Closed.rest (hZ j _ hj) (h1 j) hself.1.rest
    have twins' : ∀ j r, (pre ++ (k s :: q) :: post)[j]? = some r → ∀ p ∈ r, Twins (Z j) p p := fun j r hr => by
      rw [getElem?_mid pre post (k s :: q) (.call f k :: q) j] at hr
      split at hr
      · next hj =>
        cases hr
        intro p hp
        rcases List.mem_cons.1 hp with rfl | hp
        · rw [hj]; exact hself.2
        · rw [hj]; exact h2 _ _ hat p (List.mem_cons_of_mem _ hp)
      · exact h2 j r hr
    by_cases hi : i = pre.length
    · subst hi
      have hm := h4 _ hat
      cases q' with
      | nil => cases hm
      | cons p' q' =>
        cases hm with
        | cons hp hq =>
          cases p' with
          | ret a => exact hp.elim
          | call f' k' =>
            have := hp s e h3 (h1 _)
            refine ⟨(f' e, k' e :: q'), ⟨closed', twins', this.1.same, fun r hr => ?_⟩, .inr (.call e [] [] f' k' q')⟩
            have : (pre ++ (k s :: q) :: post)[pre.length]? = some (k s :: q) := by simp
            rw [this] at hr
            cases hr
            exact .cons (hp s e h3 (h1 _)).2 hq
    · refine ⟨(e, q'), ⟨closed', twins', fun T k' hk => ?_, fun r hr => ?_⟩, .inl rfl⟩
      · exact (hself.1.rest T k' (hZ i _ hi T k' hk)).symm.trans (h3 T k' hk)
      · rw [getElem?_mid pre post (k s :: q) (.call f k :: q) i, if_neg hi] at hr
        exact h4 r hr
  | ret s pre post a q =>
    have hat : (pre ++ (.ret a :: q) :: post)[pre.length]? = some (.ret a :: q) := by simp
    have twins' : ∀ j r, (pre ++ q :: post)[j]? = some r → ∀ p ∈ r, Twins (Z j) p p := fun j r hr => by
      rw [getElem?_mid pre post q (.ret a :: q) j] at hr
      split at hr
      · next hj =>
        cases hr
        intro p hp
        rw [hj]; exact h2 _ _ hat p (List.mem_cons_of_mem _ hp)
      · exact h2 j r hr
    by_cases hi : i = pre.length
    · subst hi
      have hm := h4 _ hat
      cases q' with
      | nil => cases hm
      | cons p' q' =>
        cases hm with
        | cons hp hq =>
          cases p' with
          | call f' k' => exact hp.elim
          | ret a' =>
            refine ⟨(e, q'), ⟨h1, twins', h3, fun r hr => ?_⟩, .inr (.ret e [] [] a' q')⟩
            have : (pre ++ q :: post)[pre.length]? = some q := by simp
            rw [this] at hr
            cases hr
            exact hq
    · refine ⟨(e, q'), ⟨h1, twins', h3, fun r hr => ?_⟩, .inl rfl⟩
      rw [getElem?_mid pre post q (.ret a :: q) i, if_neg hi] at hr
      exact h4 r hr

omit [LaidOutId Id] in
theorem Abreast.fail {s : Db} {pre post : List (List (Prog Db Unit))} {p : Prog Db Unit} {q : List (Prog Db Unit)}
    {y : Db × List (Prog Db Unit)} (h : Abreast Z i (s, pre ++ (p :: q) :: post) y) :
    ∃ y', Abreast Z i (s, pre ++ q :: post) y' ∧ (y' = y ∨ Step (y.1, [y.2]) (y'.1, [y'.2])) := by
  obtain ⟨e, q'⟩ := y
  obtain ⟨h1, h2, h3, h4⟩ := h
  have hat : (pre ++ (p :: q) :: post)[pre.length]? = some (p :: q) := by simp
  have twins' : ∀ j r, (pre ++ q :: post)[j]? = some r → ∀ p ∈ r, Twins (Z j) p p := fun j r hr => by
    rw [getElem?_mid pre post q (p :: q) j] at hr
    split at hr
    · next hj =>
      cases hr
      intro p hp
      rw [hj]; exact h2 _ _ hat p (List.mem_cons_of_mem _ hp)
    · exact h2 j r hr
  by_cases hi : i = pre.length
  · subst hi
    have hm := h4 _ hat
    cases q' with
    | nil => cases hm
    | cons p' q' =>
      cases hm with
      | cons hp hq =>
        refine ⟨(e, q'), ⟨h1, twins', h3, fun r hr => ?_⟩, .inr (.fail e [] [] p' q')⟩
        have : (pre ++ q :: post)[pre.length]? = some q := by simp
        rw [this] at hr
        cases hr
        exact hq
  · refine ⟨(e, q'), ⟨h1, twins', h3, fun r hr => ?_⟩, .inl rfl⟩
    rw [getElem?_mid pre post q (p :: q) i, if_neg hi] at hr
    exact h4 r hr

omit [LaidOutId Id] in
theorem Abreast.steps (hZ : ∀ i j, i ≠ j → (Z i).Apart (Z j)) {x x' : Db × List (List (Prog Db Unit))} {y : Db × List (Prog Db Unit)}
    (h : Abreast Z i x y) (hs : Steps x x') :
    ∃ y', Abreast Z i x' y' ∧ Steps (y.1, [y.2]) (y'.1, [y'.2]) := by
  induction hs with
  | refl => exact ⟨y, h, .refl _⟩
  | tail _ h2 ih =>
    obtain ⟨y', i1, i2⟩ := ih
    have calm : ∀ {x'}, CalmStep _ x' → ∃ y'', Abreast Z i x' y'' ∧ Steps (y.1, [y.2]) (y''.1, [y''.2]) := fun hc => by
      obtain ⟨y'', j1, j2⟩ := i1.step hZ hc
      refine ⟨y'', j1, ?_⟩
      rcases j2 with rfl | j2
      · exact i2
      · refine .tail i2 ?_
        generalize (y'.1, [y'.2]) = a at j2
        generalize (y''.1, [y''.2]) = b at j2
        cases j2 with
        | call s pre post f k q => exact .call s pre post f k q
        | ret s pre post a q => exact .ret s pre post a q
    cases h2 with
    | call s pre post f k q => exact calm (.call s pre post f k q)
    | ret s pre post a q => exact calm (.ret s pre post a q)
    | fail s pre post p q =>
      obtain ⟨y'', j1, j2⟩ := i1.fail
      refine ⟨y'', j1, ?_⟩
      rcases j2 with rfl | j2
      · exact i2
      · exact .tail i2 j2

omit [LaidOutId Id] in
theorem Abreast.calm (hZ : ∀ i j, i ≠ j → (Z i).Apart (Z j)) {x x' : Db × List (List (Prog Db Unit))} {y : Db × List (Prog Db Unit)}
    (h : Abreast Z i x y) (hs : CalmSteps x x') :
    ∃ y', Abreast Z i x' y' ∧ CalmSteps (y.1, [y.2]) (y'.1, [y'.2]) := by
  induction hs with
  | refl => exact ⟨y, h, .refl _⟩
  | tail _ h2 ih =>
    obtain ⟨y', i1, i2⟩ := ih
    obtain ⟨y'', j1, j2⟩ := i1.step hZ h2
    refine ⟨y'', j1, ?_⟩
    rcases j2 with rfl | j2
    · exact i2
    · exact .tail i2 j2

/-- the queue, alone -/
def runAll : List (Prog Db Unit) → Db → Db
  | [], d => d
  | p :: q, d => runAll q (p.run d).1

theorem runAll_calm {x y : Db × List (List (Prog Db Unit))} (hs : CalmSteps x y) {q : List (Prog Db Unit)} (hq : x.2 = [q]) :
    ∃ q', y.2 = [q'] ∧ runAll q' y.1 = runAll q x.1 := by
  induction hs with
  | refl => exact ⟨q, hq, rfl⟩
  | tail _ h2 ih =>
    obtain ⟨q', i1, i2⟩ := ih
    cases h2 with
    | call s pre post f k r =>
      have : pre = [] ∧ post = [] ∧ q' = .call f k :: r := by
        cases pre with
        | nil => simp_all
        | cons a pre => cases pre <;> simp at i1
      obtain ⟨rfl, rfl, rfl⟩ := this
      exact ⟨_, rfl, i2⟩
    | ret s pre post a r =>
      have : pre = [] ∧ post = [] ∧ q' = .ret a :: r := by
        cases pre with
        | nil => simp_all
        | cons a pre => cases pre <;> simp at i1
      obtain ⟨rfl, rfl, rfl⟩ := this
      exact ⟨_, rfl, i2⟩

omit [LaidOutId Id] in
theorem Sled.runAll_eq (c : Codecs NP EP) (mN : NP → NP → NP) (mE : EP → EP → EP) (l : List (Sled.Call E Id NP EP)) (d : Db) :
    runAll (l.map (Sled.Call.prog c mN mE)) d = (Sled.runCalls c mN mE d l).2 := by
  have hr : ∀ {α : Type} (p : Prog Db α) (d : Db), ((p.bind (fun _ => .ret ())).run d).1 = (p.run d).1 := by
    intro α p
    induction p with
    | ret a => exact fun _ => rfl
    | call f k ih => exact fun d => ih d (f d)
  induction l generalizing d with
  | nil => rfl
  | cons x l ih =>
    show runAll (l.map _) ((x.prog c mN mE).run d).1 = _
    rw [ih, Sled.prog_eq_full, hr]
    rfl

theorem Sled.abreast (c : Codecs NP EP) (mN : NP → NP → NP) (mE : EP → EP → EP) {d0 : Db}
    {threads : List (List (Sled.Call E Id NP EP))} (hP : ∀ j, (Z j).Whole) (hc : ∀ j, (Z j).Closed d0)
    (hz : ∀ j th, threads[j]? = some th → ∀ x ∈ th, (Z j).Has x) {th : List (Sled.Call E Id NP EP)} (hi : threads[i]? = some th) :
    Abreast Z i (Sled.start c mN mE d0 threads) (d0, th.map (Sled.Call.prog c mN mE)) := by
  have tw : ∀ j x, (Z j).Has x → Twins (Z j) (x.prog c mN mE) (x.prog c mN mE) := fun j x (hx : (Z j).Has (E := E) x) => by
    rw [Sled.prog_eq_full]
    exact (Sled.twins_full c mN mE (hP j) hx).bind (fun _ => rfl)
  refine ⟨hc, fun j q hq p hp => ?_, Zone.Same.refl _, fun q hq => ?_⟩
  · simp only [Sled.start, List.getElem?_map, Option.map_eq_some_iff] at hq
    obtain ⟨th', h1, rfl⟩ := hq
    obtain ⟨x, hx, rfl⟩ := List.mem_map.1 hp
    exact tw j x (hz j th' h1 x hx)
  · simp only [Sled.start, List.getElem?_map, hi, Option.map_some, Option.some.injEq] at hq
    subst hq
    have h := hz i th hi
    clear hi
    induction th with
    | nil => exact .nil
    | cons x th ih =>
      exact .cons (tw i x (h x List.mem_cons_self)) (ih (fun y hy => h y (List.mem_cons_of_mem _ hy)))

/-- Nothing changes outside of all zones. -/
theorem Sled.rest_steps (c : Codecs NP EP) (mN : NP → NP → NP) (mE : EP → EP → EP) {d0 : Db}
    {threads : List (List (Sled.Call E Id NP EP))} (hP : ∀ j, (Z j).Whole) (hc : ∀ j, (Z j).Closed d0)
    (hZ : ∀ i j, i ≠ j → (Z i).Apart (Z j))
    (hz : ∀ j th, threads[j]? = some th → ∀ x ∈ th, (Z j).Has x) {T : Table} {k : Bytes} (hk : ∀ j, ¬ (Z j).Cell T k)
    {y : Db × List (List (Prog Db Unit))} (hs : Steps (Sled.start c mN mE d0 threads) y) : y.1.at T k = d0.at T k := by
  have framed : ∀ j (p p' : Prog Db Unit), Twins (Z j) p p' → Framed (fun d => ∀ j, (Z j).Closed d) (fun d => d.at T k) p (fun _ => True) := by
    intro j p
    induction p with
    | ret a => exact fun _ _ => trivial
    | call f g ih =>
      intro p' h d hd
      cases p' with
      | ret a => exact h.elim
      | call f' g' =>
        obtain ⟨h1, h2⟩ := h d d (Zone.Same.refl d) (hd j)
        refine ⟨fun i => ?_, (h1.rest T k (hk j)).symm, ih d _ h2⟩
        by_cases hij : i = j
        · rw [hij]; exact h1.closed
        · exact Zone.Closed.rest (hZ i j hij) (hd i) h1.rest
  refine (framed_steps (J := fun d => ∀ j, (Z j).Closed d) (loc := fun d => d.at T k) hs hc (fun q hq p hp => ?_)).2.1
  simp only [Sled.start, List.mem_map] at hq
  obtain ⟨th, hth, rfl⟩ := hq
  obtain ⟨x, hx, rfl⟩ := List.mem_map.1 hp
  obtain ⟨j, hj⟩ := List.mem_iff_getElem?.1 hth
  refine framed j _ (x.prog c mN mE) ?_
  rw [Sled.prog_eq_full]
  exact (Sled.twins_full c mN mE (hP j) (hz j th hj x hx)).bind (fun _ => rfl)

end

end

end Verif
