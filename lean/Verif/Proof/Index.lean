import Verif.Spec.Index
import Verif.Proof.BMap

/-! # The two indices -/

namespace Verif

open Spec

variable {L R : Type}

theorem Codec.ser_inj {P : Type} {c : Codec P} (hc : c.RoundTrips) {p q : P} {b : Bytes} (h1 : c.ser p = some b)
    (h2 : c.ser q = some b) : p = q := by
  have e1 := hc p b h1
  have e2 := hc q b h2
  rw [e1] at e2
  exact Option.some.inj e2

namespace MemIndex

set_option linter.unusedSectionVars false

variable [DecidableEq L] [DecidableEq R]

theorem set_eq (s : MemIndex L R) (l : L) (r : R) : s.set l r =
    match s.leftToRight l, s.rightToLeft r with
    | some r', _ => (s, .error (.duplicateRight l r r'))
    | none, some l' => ({ s with leftToRight := s.leftToRight.insert l r }, .error (.duplicateLeft r l l'))
    | none, none => (⟨s.leftToRight.insert l r, s.rightToLeft.insert r l⟩, .ok ()) := by
  unfold set
  cases h1 : s.leftToRight l with
  | some r' => rfl
  | none =>
    dsimp only
    cases h2 : s.rightToLeft r with
    | some l' => rfl
    | none => rfl

theorem set_ok_iff (s : MemIndex L R) (l : L) (r : R) :
    (s.set l r).2 = .ok () ↔ s.leftToRight l = none ∧ s.rightToLeft r = none := by
  rw [set_eq]
  cases s.leftToRight l <;> cases s.rightToLeft r <;> simp

/-- `s` consists of the pairs in `l` -/
structure Is (s : MemIndex L R) (l : List (L × R)) : Prop where
  left : ∀ a b, s.leftToRight a = some b ↔ (a, b) ∈ l
  right : ∀ a b, s.rightToLeft b = some a ↔ (a, b) ∈ l

theorem is_new : (new : MemIndex L R).Is [] := ⟨by simp [new], by simp [new]⟩

theorem Is.set {s : MemIndex L R} {l : List (L × R)} (h : s.Is l) {a : L} {b : R} (hs : (s.set a b).2 = .ok ()) :
    (s.set a b).1.Is ((a, b) :: l) := by
  obtain ⟨h1, h2⟩ := (set_ok_iff s a b).1 hs
  rw [set_eq, h1, h2]
  constructor
  · intro x y
    simp only [HMap.insert, List.mem_cons, Prod.mk.injEq]
    by_cases hx : x = a
    · subst hx
      have : (x, y) ∉ l := fun hm => by rw [← h.left, h1] at hm; cases hm
      simp only [if_true, Option.some.injEq, true_and, this, or_false]
      exact eq_comm
    · simp [hx, h.left]
  · intro x y
    simp only [HMap.insert, List.mem_cons, Prod.mk.injEq]
    by_cases hy : y = b
    · subst hy
      have : (x, y) ∉ l := fun hm => by rw [← h.right, h2] at hm; cases hm
      simp only [if_true, Option.some.injEq, and_true, this, or_false]
      exact eq_comm
    · simp [hy, h.right]

theorem Is.congr {s : MemIndex L R} {l l' : List (L × R)} (h : s.Is l) (hl : ∀ x, x ∈ l ↔ x ∈ l') : s.Is l' :=
  ⟨fun a b => (h.left a b).trans (hl _), fun a b => (h.right a b).trans (hl _)⟩

theorem is_sets {s : MemIndex L R} {l0 : List (L × R)} (h : s.Is l0) (l : List (L × R)) (hok : impl.AllOk s l) :
    (impl.sets s l).Is (l0 ++ l) := by
  induction l generalizing s l0 with
  | nil => rw [List.append_nil]; exact h
  | cons x l ih =>
    have := ih (h.set hok.1) hok.2
    refine this.congr (fun y => ?_)
    simp only [List.cons_append, List.mem_cons, List.mem_append]
    tauto

theorem Is.lists {s : MemIndex L R} {l : List (L × R)} (h : s.Is l) :
    (impl (L := L) (R := R)).Lists (fun _ => True) (fun _ => True) s l where
  left a b := by simp only [impl, Except.ok.injEq]; exact h.left a b
  right a b := by simp only [impl, Except.ok.injEq]; exact h.right a b
  leftTotal a _ := ⟨_, rfl⟩
  rightTotal b _ := ⟨_, rfl⟩

theorem Is.none_left {s : MemIndex L R} {l : List (L × R)} (h : s.Is l) (a : L) :
    s.leftToRight a = none ↔ a ∉ l.map Prod.fst := by
  cases hc : s.leftToRight a with
  | none =>
    simp only [true_iff, List.mem_map, not_exists, not_and]
    rintro ⟨x, y⟩ hx rfl
    rw [← h.left, hc] at hx; cases hx
  | some b =>
    simp only [reduceCtorEq, false_iff, not_not]
    exact List.mem_map.2 ⟨_, (h.left a b).1 hc, rfl⟩

theorem Is.none_right {s : MemIndex L R} {l : List (L × R)} (h : s.Is l) (b : R) :
    s.rightToLeft b = none ↔ b ∉ l.map Prod.snd := by
  cases hc : s.rightToLeft b with
  | none =>
    simp only [true_iff, List.mem_map, not_exists, not_and]
    rintro ⟨x, y⟩ hx rfl
    rw [← h.right, hc] at hx; cases hx
  | some a =>
    simp only [reduceCtorEq, false_iff, not_not]
    exact List.mem_map.2 ⟨_, (h.right a b).1 hc, rfl⟩

theorem Is.oneToOne {s : MemIndex L R} {l : List (L × R)} (h : s.Is l) : OneToOne l := by
  rintro ⟨a, b⟩ hx ⟨a', b'⟩ hy
  have h1 := (h.left a b).2 hx
  have h2 := (h.right a b).2 hx
  have h3 := (h.left a' b').2 hy
  have h4 := (h.right a' b').2 hy
  constructor
  · rintro rfl; rw [h1] at h3; exact Option.some.inj h3
  · rintro rfl; rw [h2] at h4; exact Option.some.inj h4

theorem lawful : (impl (L := L) (R := R)).Lawful := by
  intro i f a b hs ha hb
  have h1 : ∀ x, i.leftToRight x = f x := fun x => by have := hs.1 x; simpa [impl] using this
  have h2 : ∀ x y, i.rightToLeft y = some x ↔ f x = some y := fun x y => by
    obtain ⟨o, ho, hx⟩ := hs.2 y
    simp only [impl, Except.ok.injEq] at ho
    rw [ho]; exact hx x
  have hb' : i.rightToLeft b = none := by
    cases hc : i.rightToLeft b with
    | none => rfl
    | some x => exact absurd ((h2 _ _).1 hc) (hb x)
  have e : i.set a b = (⟨i.leftToRight.insert a b, i.rightToLeft.insert b a⟩, .ok ()) := by
    rw [set_eq, h1, ha, hb']
  refine ⟨_, e, fun x => ?_, fun y => ⟨_, rfl, fun x => ?_⟩⟩
  · simp only [impl, HMap.insert, h1]
  · simp only [HMap.insert]
    by_cases hy : y = b
    · subst hy
      by_cases hx : x = a
      · simp [hx]
      · simp only [if_true, Option.some.injEq, hx, if_false, hb x, iff_false]
        exact fun h => hx h.symm
    · by_cases hx : x = a
      · subst hx
        simp only [hy, if_false, if_true, Option.some.injEq, h2, ha, reduceCtorEq, false_iff]
        exact fun h => hy h.symm
      · simp [hx, hy, h2]

theorem shows_new : (impl (L := L) (R := R)).Shows new (fun _ => none) :=
  ⟨fun _ => rfl, fun _ => ⟨none, rfl, by simp⟩⟩

end MemIndex

namespace SledIndex

variable {cl : Codec L} {cr : Codec R}

theorem set_run (d : IndexDb) {l : L} {r : R} {lb rb : Bytes} (h1 : cl.ser l = some lb) (h2 : cr.ser r = some rb) :
    (setProg cl cr l r).run d =
      (match setTx cl cr l r lb rb d with | .ok d' => d' | .error _ => d,
       match setTx cl cr l r lb rb d with | .ok _ => .ok () | .error e => .error e) := by
  unfold setProg
  simp only [h1, h2]
  rfl

theorem set_bad (d : IndexDb) {l : L} {r : R} (h : cl.ser l = none ∨ cr.ser r = none) :
    (setProg cl cr l r).run d = (d, .error .serialization) := by
  unfold setProg
  rcases h with h | h
  · simp only [h, Prog.run]
  · cases cl.ser l <;> simp only [h, Prog.run]

theorem setTx_ok (d : IndexDb) (l : L) (r : R) {lb rb : Bytes} (h1 : d.leftToRight.get lb = none)
    (h2 : d.rightToLeft.get rb = none) :
    setTx cl cr l r lb rb d = .ok ⟨d.leftToRight.insert lb rb, d.rightToLeft.insert rb lb⟩ := by
  unfold setTx
  simp only [h1, h2]

theorem setTx_left (d : IndexDb) (l : L) (r : R) {lb rb b : Bytes} (h1 : d.leftToRight.get lb = some b) :
    setTx cl cr l r lb rb d = .error (match cr.de b with | none => .serialization | some r' => .duplicateRight l r' r) := by
  unfold setTx
  simp only [h1]
  cases cr.de b <;> rfl

theorem setTx_right (d : IndexDb) (l : L) (r : R) {lb rb b : Bytes} (h1 : d.leftToRight.get lb = none)
    (h2 : d.rightToLeft.get rb = some b) :
    setTx cl cr l r lb rb d = .error (match cl.de b with | none => .serialization | some l' => .duplicateLeft r l' l) := by
  unfold setTx
  simp only [h1, h2]
  cases cl.de b <;> rfl

theorem set_ok_iff (d : IndexDb) (l : L) (r : R) : ((setProg cl cr l r).run d).2 = .ok () ↔
    ∃ lb rb, cl.ser l = some lb ∧ cr.ser r = some rb ∧ d.leftToRight.get lb = none ∧ d.rightToLeft.get rb = none := by
  cases h1 : cl.ser l with
  | none => rw [set_bad d (.inl h1)]; simp
  | some lb =>
    cases h2 : cr.ser r with
    | none => rw [set_bad d (.inr h2)]; simp
    | some rb =>
      rw [set_run d h1 h2]
      simp only [Option.some.injEq, exists_and_left, exists_eq_left']
      cases h3 : d.leftToRight.get lb with
      | some b => rw [setTx_left d l r h3]; simp
      | none =>
        cases h4 : d.rightToLeft.get rb with
        | some b => rw [setTx_right d l r h3 h4]; simp
        | none => rw [setTx_ok d l r h3 h4]; simp

/-- the trees consist of the pairs in `l`, serialized -/
structure Is (cl : Codec L) (cr : Codec R) (d : IndexDb) (l : List (L × R)) : Prop where
  left : ∀ k v, d.leftToRight.get k = some v ↔ ∃ x ∈ l, cl.ser x.1 = some k ∧ cr.ser x.2 = some v
  right : ∀ k v, d.rightToLeft.get k = some v ↔ ∃ x ∈ l, cr.ser x.2 = some k ∧ cl.ser x.1 = some v
  can : ∀ x ∈ l, cl.Can x.1 ∧ cr.Can x.2

theorem is_empty : Is cl cr IndexDb.empty [] :=
  ⟨by simp [IndexDb.empty, BMap.get_empty], by simp [IndexDb.empty, BMap.get_empty], by simp⟩

theorem Is.congr {d : IndexDb} {l l' : List (L × R)} (h : Is cl cr d l) (hl : ∀ x, x ∈ l ↔ x ∈ l') : Is cl cr d l' :=
  ⟨fun k v => by simp only [h.left, hl], fun k v => by simp only [h.right, hl], fun x hx => h.can x ((hl x).2 hx)⟩

theorem Is.set {d : IndexDb} {l : List (L × R)} (h : Is cl cr d l) {a : L} {b : R}
    (hs : ((setProg cl cr a b).run d).2 = .ok ()) : Is cl cr ((setProg cl cr a b).run d).1 ((a, b) :: l) := by
  obtain ⟨ab, bb, h1, h2, h3, h4⟩ := (set_ok_iff d a b).1 hs
  rw [set_run d h1 h2, setTx_ok d a b h3 h4]
  refine ⟨fun k v => ?_, fun k v => ?_, fun x hx => ?_⟩
  · simp only [BMap.get_insert, List.mem_cons, exists_eq_or_imp, h1, h2, Option.some.injEq]
    by_cases hk : k = ab
    · subst hk
      have hno : ¬ ∃ x ∈ l, cl.ser x.1 = some k ∧ cr.ser x.2 = some v := by
        intro hx; rw [← h.left, h3] at hx; cases hx
      simp only [if_true, Option.some.injEq, true_and, hno, or_false]
    · have : ¬ ab = k := fun e => hk e.symm
      simp only [hk, if_false, this, false_and, false_or, h.left]
  · simp only [BMap.get_insert, List.mem_cons, exists_eq_or_imp, h1, h2, Option.some.injEq]
    by_cases hk : k = bb
    · subst hk
      have hno : ¬ ∃ x ∈ l, cr.ser x.2 = some k ∧ cl.ser x.1 = some v := by
        intro hx; rw [← h.right, h4] at hx; cases hx
      simp only [if_true, Option.some.injEq, true_and, hno, or_false]
    · have : ¬ bb = k := fun e => hk e.symm
      simp only [hk, if_false, this, false_and, false_or, h.right]
  · rcases List.mem_cons.1 hx with rfl | hx
    · exact ⟨by simp [Codec.Can, h1], by simp [Codec.Can, h2]⟩
    · exact h.can x hx

theorem is_sets {d : IndexDb} {l0 : List (L × R)} (h : Is cl cr d l0) (l : List (L × R))
    (hok : (impl cl cr).AllOk d l) : Is cl cr ((impl cl cr).sets d l) (l0 ++ l) := by
  induction l generalizing d l0 with
  | nil => rw [List.append_nil]; exact h
  | cons x l ih =>
    have := ih (h.set hok.1) hok.2
    refine this.congr (fun y => ?_)
    simp only [List.cons_append, List.mem_cons, List.mem_append]
    tauto

theorem Is.get_left (hl : cl.RoundTrips) {d : IndexDb} {l : List (L × R)} (h : Is cl cr d l) {a : L} {k v : Bytes}
    (hk : cl.ser a = some k) : d.leftToRight.get k = some v ↔ ∃ b, (a, b) ∈ l ∧ cr.ser b = some v := by
  rw [h.left]
  constructor
  · rintro ⟨⟨x, y⟩, hx, h1, h2⟩
    cases Codec.ser_inj hl h1 hk
    exact ⟨y, hx, h2⟩
  · rintro ⟨b, hb, h2⟩
    exact ⟨_, hb, hk, h2⟩

theorem Is.get_right (hr : cr.RoundTrips) {d : IndexDb} {l : List (L × R)} (h : Is cl cr d l) {b : R} {k v : Bytes}
    (hk : cr.ser b = some k) : d.rightToLeft.get k = some v ↔ ∃ a, (a, b) ∈ l ∧ cl.ser a = some v := by
  rw [h.right]
  constructor
  · rintro ⟨⟨x, y⟩, hx, h1, h2⟩
    cases Codec.ser_inj hr h1 hk
    exact ⟨x, hx, h2⟩
  · rintro ⟨b, hb, h2⟩
    exact ⟨_, hb, hk, h2⟩

theorem Is.lists (hl : cl.RoundTrips) (hr : cr.RoundTrips) {d : IndexDb} {l : List (L × R)} (h : Is cl cr d l) :
    (impl cl cr).Lists cl.Can cr.Can d l where
  left a b := by
    simp only [impl, lookup]
    cases hk : cl.ser a with
    | none =>
      simp only [reduceCtorEq, false_iff]
      intro hm
      have := (h.can _ hm).1
      simp [Codec.Can, hk] at this
    | some k =>
      cases hv : d.leftToRight.get k with
      | none =>
        simp only [hv, Except.ok.injEq, reduceCtorEq, false_iff]
        intro hm
        obtain ⟨v, hv'⟩ := Option.isSome_iff_exists.1 (h.can _ hm).2
        rw [(h.get_left hl hk).2 ⟨b, hm, hv'⟩] at hv; cases hv
      | some v =>
        obtain ⟨b', hb, hs⟩ := (h.get_left hl hk).1 hv
        simp only [hv, hr b' v hs, Except.ok.injEq, Option.some.injEq]
        constructor
        · rintro rfl; exact hb
        · intro hm
          obtain ⟨v', hv'⟩ := Option.isSome_iff_exists.1 (h.can _ hm).2
          have := (h.get_left hl hk).2 ⟨b, hm, hv'⟩
          rw [hv] at this
          cases this
          exact Codec.ser_inj hr hs hv'
  right a b := by
    simp only [impl, lookup]
    cases hk : cr.ser b with
    | none =>
      simp only [reduceCtorEq, false_iff]
      intro hm
      have := (h.can _ hm).2
      simp [Codec.Can, hk] at this
    | some k =>
      cases hv : d.rightToLeft.get k with
      | none =>
        simp only [hv, Except.ok.injEq, reduceCtorEq, false_iff]
        intro hm
        obtain ⟨v, hv'⟩ := Option.isSome_iff_exists.1 (h.can _ hm).1
        rw [(h.get_right hr hk).2 ⟨a, hm, hv'⟩] at hv; cases hv
      | some v =>
        obtain ⟨a', ha, hs⟩ := (h.get_right hr hk).1 hv
        simp only [hv, hl a' v hs, Except.ok.injEq, Option.some.injEq]
        constructor
        · rintro rfl; exact ha
        · intro hm
          obtain ⟨v', hv'⟩ := Option.isSome_iff_exists.1 (h.can _ hm).1
          have := (h.get_right hr hk).2 ⟨a, hm, hv'⟩
          rw [hv] at this
          cases this
          exact Codec.ser_inj hl hs hv'
  leftTotal a ha := by
    obtain ⟨k, hk⟩ := Option.isSome_iff_exists.1 ha
    simp only [impl, lookup, hk]
    cases hv : d.leftToRight.get k with
    | none => simp only [hv]; exact ⟨_, rfl⟩
    | some v =>
      obtain ⟨b', hb, hs⟩ := (h.get_left hl hk).1 hv
      simp only [hv, hr b' v hs]; exact ⟨_, rfl⟩
  rightTotal b hb := by
    obtain ⟨k, hk⟩ := Option.isSome_iff_exists.1 hb
    simp only [impl, lookup, hk]
    cases hv : d.rightToLeft.get k with
    | none => simp only [hv]; exact ⟨_, rfl⟩
    | some v =>
      obtain ⟨a', ha, hs⟩ := (h.get_right hr hk).1 hv
      simp only [hv, hl a' v hs]; exact ⟨_, rfl⟩

theorem Is.none_left (hl : cl.RoundTrips) {d : IndexDb} {l : List (L × R)} (h : Is cl cr d l) {a : L} {k : Bytes}
    (hk : cl.ser a = some k) : d.leftToRight.get k = none ↔ a ∉ l.map Prod.fst := by
  rw [← not_iff_not, not_not, ← ne_eq, Option.ne_none_iff_exists']
  constructor
  · rintro ⟨v, hv⟩
    obtain ⟨b, hb, -⟩ := (h.get_left hl hk).1 hv
    exact List.mem_map.2 ⟨_, hb, rfl⟩
  · rintro hm
    obtain ⟨⟨x, b⟩, hx, rfl⟩ := List.mem_map.1 hm
    obtain ⟨v, hv⟩ := Option.isSome_iff_exists.1 (h.can _ hx).2
    exact ⟨v, (h.get_left hl hk).2 ⟨b, hx, hv⟩⟩

theorem Is.none_right (hr : cr.RoundTrips) {d : IndexDb} {l : List (L × R)} (h : Is cl cr d l) {b : R} {k : Bytes}
    (hk : cr.ser b = some k) : d.rightToLeft.get k = none ↔ b ∉ l.map Prod.snd := by
  rw [← not_iff_not, not_not, ← ne_eq, Option.ne_none_iff_exists']
  constructor
  · rintro ⟨v, hv⟩
    obtain ⟨a, ha, -⟩ := (h.get_right hr hk).1 hv
    exact List.mem_map.2 ⟨_, ha, rfl⟩
  · rintro hm
    obtain ⟨⟨a, x⟩, hx, rfl⟩ := List.mem_map.1 hm
    obtain ⟨v, hv⟩ := Option.isSome_iff_exists.1 (h.can _ hx).1
    exact ⟨v, (h.get_right hr hk).2 ⟨a, hx, hv⟩⟩

theorem Is.oneToOne (hl : cl.RoundTrips) (hr : cr.RoundTrips) {d : IndexDb} {l : List (L × R)} (h : Is cl cr d l) :
    OneToOne l := by
  have hL := h.lists hl hr
  rintro ⟨a, b⟩ hx ⟨a', b'⟩ hy
  have h1 := (hL.left a b).2 hx
  have h2 := (hL.right a b).2 hx
  have h3 := (hL.left a' b').2 hy
  have h4 := (hL.right a' b').2 hy
  constructor
  · rintro rfl; rw [h1] at h3; exact Option.some.inj (Except.ok.inj h3)
  · rintro rfl; rw [h2] at h4; exact Option.some.inj (Except.ok.inj h4)

theorem lookup_none {A B X : Type} {ca : Codec A} {cb : Codec B} {bad : X} {t : Tree} {a : A} {k : Bytes}
    (hk : ca.ser a = some k) : lookup ca cb bad t a = .ok none ↔ t.get k = none := by
  unfold lookup
  simp only [hk]
  cases t.get k with
  | none => simp
  | some v => cases h : cb.de v <;> simp [h]

theorem lookup_insert {A B X : Type} {ca : Codec A} {cb : Codec B} {bad : X} (ha : ca.RoundTrips) (hb : cb.RoundTrips)
    (hta : ca.Total) [DecidableEq A] {t : Tree} {a x : A} {b : B} {ka kb : Bytes} (h1 : ca.ser a = some ka)
    (h2 : cb.ser b = some kb) :
    lookup ca cb bad (t.insert ka kb) x = if x = a then .ok (some b) else lookup ca cb bad t x := by
  obtain ⟨kx, hx⟩ := Option.isSome_iff_exists.1 (hta x)
  unfold lookup
  simp only [hx, BMap.get_insert]
  by_cases e : x = a
  · subst e
    rw [h1] at hx
    cases hx
    simp only [if_true, hb b kb h2]
  · have : kx ≠ ka := fun e' => e (Codec.ser_inj ha hx (e' ▸ h1))
    simp only [this, if_false, e]

theorem lawful [DecidableEq L] (hl : cl.RoundTrips) (hr : cr.RoundTrips) (tl : cl.Total) (tr : cr.Total) :
    (impl cl cr).Lawful := by
  classical
  intro d f a b hs ha hb
  obtain ⟨ka, hka⟩ := Option.isSome_iff_exists.1 (tl a)
  obtain ⟨kb, hkb⟩ := Option.isSome_iff_exists.1 (tr b)
  have h1 : d.leftToRight.get ka = none := by
    have := hs.1 a
    rw [ha] at this
    exact (lookup_none hka).1 this
  have h2 : d.rightToLeft.get kb = none := by
    obtain ⟨o, ho, hx⟩ := hs.2 b
    cases o with
    | none => exact (lookup_none hkb).1 ho
    | some x => exact absurd ((hx x).1 rfl) (hb x)
  have e : (impl cl cr).set d a b = (⟨d.leftToRight.insert ka kb, d.rightToLeft.insert kb ka⟩, .ok ()) := by
    show (setProg cl cr a b).run d = _
    rw [set_run d hka hkb, setTx_ok d a b h1 h2]
  refine ⟨_, e, fun x => ?_, fun y => ?_⟩
  · show lookup cl cr _ (d.leftToRight.insert ka kb) x = _
    rw [lookup_insert hl hr tl hka hkb]
    by_cases hx : x = a
    · simp [hx]
    · simp only [hx, if_false]; exact hs.1 x
  · show ∃ o, lookup cr cl _ (d.rightToLeft.insert kb ka) y = .ok o ∧ _
    rw [lookup_insert hr hl tr hkb hka]
    by_cases hy : y = b
    · subst hy
      refine ⟨some a, by simp, fun x => ?_⟩
      by_cases hx : x = a
      · simp [hx]
      · simp only [Option.some.injEq, hx, if_false, hb x, iff_false]
        exact fun h => hx h.symm
    · obtain ⟨o, ho, hx⟩ := hs.2 y
      refine ⟨o, by simp only [hy, if_false]; exact ho, fun x => ?_⟩
      by_cases e : x = a
      · subst e
        simp only [if_true, Option.some.injEq]
        constructor
        · intro e; have := (hx x).1 e; rw [ha] at this; cases this
        · intro e; exact absurd e.symm hy
      · simp only [e, if_false]; exact hx x

theorem shows_empty (tl : cl.Total) (tr : cr.Total) : (impl cl cr).Shows IndexDb.empty (fun _ => none) := by
  refine ⟨fun a => ?_, fun b => ⟨none, ?_, by simp⟩⟩
  · obtain ⟨k, hk⟩ := Option.isSome_iff_exists.1 (tl a)
    exact (lookup_none (t := BMap.empty) (cb := cr) hk).2 (BMap.get_empty _)
  · obtain ⟨k, hk⟩ := Option.isSome_iff_exists.1 (tr b)
    exact (lookup_none (t := BMap.empty) (cb := cl) hk).2 (BMap.get_empty _)

end SledIndex

end Verif
