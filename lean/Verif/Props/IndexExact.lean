import Verif.Props.Index

/-!
# C52 once more: where exactly the two indices differ

`set` of a name whose id is taken leaves the name in a MemHashIndex.  The indices go on agreeing until this name is given to
`set` again, and then they do differ.
-/

namespace Verif.Props

open Verif Spec

variable {L R : Type} [DecidableEq L] [DecidableEq R]

/-- `set(x)` succeeds on both indices, or fails on both for the same reason. -/
def SameOutcome (cl : Codec L) (cr : Codec R) (s : MemIndex L R) (d : IndexDb) (x : L × R) : Prop :=
  (MemIndex.impl.set s x.1 x.2).2 = .ok () ∧ ((SledIndex.impl cl cr).set d x.1 x.2).2 = .ok () ∨
  ∃ e e', (MemIndex.impl.set s x.1 x.2).2 = .error e ∧ ((SledIndex.impl cl cr).set d x.1 x.2).2 = .error e' ∧
    e'.conflict = some e.conflict

/-- `set(x)` finds that the id has another name. -/
def Taken (s : MemIndex L R) (x : L × R) : Prop := ∃ a b c, (MemIndex.impl.set s x.1 x.2).2 = .error (.duplicateLeft a b c)

namespace IndexExact

variable {cl : Codec L} {cr : Codec R}

/-- the pairs `P` are in both indices, the names in `B` in the first one only -/
structure J (cl : Codec L) (cr : Codec R) (s : MemIndex L R) (d : IndexDb) (P B : List (L × R)) : Prop where
  left : ∀ a b, s.leftToRight a = some b ↔ (a, b) ∈ P ∨ (a, b) ∈ B
  right : ∀ a b, s.rightToLeft b = some a ↔ (a, b) ∈ P
  sled : SledIndex.Is cl cr d P
  apart : ∀ z ∈ B, z.1 ∉ P.map Prod.fst

theorem j_start : J cl cr (.new : MemIndex L R) .empty [] [] :=
  ⟨by simp [MemIndex.new], by simp [MemIndex.new], SledIndex.is_empty, by simp⟩

theorem mem_left {s : MemIndex L R} {d : IndexDb} {P B : List (L × R)} (h : J cl cr s d P B) (a : L) :
    s.leftToRight a = none ↔ a ∉ P.map Prod.fst ∧ a ∉ B.map Prod.fst := by
  cases hs : s.leftToRight a with
  | none =>
    simp only [List.mem_map, not_exists, not_and, true_iff]
    refine ⟨?_, ?_⟩
    · rintro ⟨x, y⟩ hx rfl
      have := (h.left x y).2 (.inl hx)
      rw [hs] at this; cases this
    · rintro ⟨x, y⟩ hx rfl
      have := (h.left x y).2 (.inr hx)
      rw [hs] at this; cases this
  | some b =>
    simp only [reduceCtorEq, false_iff, not_and_or, not_not]
    rcases (h.left a b).1 hs with h | h
    · exact .inl (List.mem_map.2 ⟨_, h, rfl⟩)
    · exact .inr (List.mem_map.2 ⟨_, h, rfl⟩)

theorem mem_right {s : MemIndex L R} {d : IndexDb} {P B : List (L × R)} (h : J cl cr s d P B) (b : R) :
    s.rightToLeft b = none ↔ b ∉ P.map Prod.snd := by
  cases hs : s.rightToLeft b with
  | none =>
    simp only [List.mem_map, not_exists, not_and, true_iff]
    rintro ⟨x, y⟩ hx rfl
    have := (h.right x y).2 hx
    rw [hs] at this; cases this
  | some a =>
    simp only [reduceCtorEq, false_iff, not_not]
    exact List.mem_map.2 ⟨_, (h.right a b).1 hs, rfl⟩

variable (hl : cl.RoundTrips) (hr : cr.RoundTrips) (tl : cl.Total) (tr : cr.Total)
include hl hr tl tr

/-- a name that only the first index has -/
theorem differ {s : MemIndex L R} {d : IndexDb} {P B : List (L × R)} (h : J cl cr s d P B) {x : L × R} (hx : x.1 ∈ B.map Prod.fst) :
    ¬ SameOutcome cl cr s d x := by
  obtain ⟨a, b⟩ := x
  obtain ⟨⟨a', b'⟩, hz, rfl⟩ := List.mem_map.1 hx
  obtain ⟨ab, h1⟩ := Option.isSome_iff_exists.1 (tl a')
  obtain ⟨bb, h2⟩ := Option.isSome_iff_exists.1 (tr b)
  have hm : MemIndex.impl.set s a' b = (s, .error (.duplicateRight a' b b')) := by
    show s.set a' b = _
    rw [MemIndex.set_eq, (h.left a' b').2 (.inr hz)]
  have hg : d.leftToRight.get ab = none := (h.sled.none_left hl h1).2 (h.apart _ hz)
  unfold SameOutcome
  rw [hm, show (SledIndex.impl cl cr).set d a' b = _ from SledIndex.set_run d h1 h2]
  rintro (⟨h, -⟩ | ⟨e, e', he, he', hc⟩)
  · cases h
  · cases he
    cases hb : d.rightToLeft.get bb with
    | none => rw [SledIndex.setTx_ok d a' b hg hb] at he'; cases he'
    | some k =>
      rw [SledIndex.setTx_right d a' b hg hb] at he'
      cases hk : cl.de k with
      | none => rw [hk] at he'; cases he'; cases hc
      | some l' => rw [hk] at he'; cases he'; cases hc

/-- any other name: the outcome is the same, and a taken id leaves the name in the first index only -/
theorem step {s : MemIndex L R} {d : IndexDb} {P B : List (L × R)} (h : J cl cr s d P B) {x : L × R} (hx : x.1 ∉ B.map Prod.fst) :
    SameOutcome cl cr s d x ∧
      ((Taken s x ∧ J cl cr (MemIndex.impl.set s x.1 x.2).1 ((SledIndex.impl cl cr).set d x.1 x.2).1 P (x :: B)) ∨
       (¬ Taken s x ∧ ∃ P', J cl cr (MemIndex.impl.set s x.1 x.2).1 ((SledIndex.impl cl cr).set d x.1 x.2).1 P' B)) := by
  obtain ⟨a, b⟩ := x
  obtain ⟨ab, h1⟩ := Option.isSome_iff_exists.1 (tl a)
  obtain ⟨bb, h2⟩ := Option.isSome_iff_exists.1 (tr b)
  have hS : (SledIndex.impl cl cr).set d a b = _ := SledIndex.set_run d h1 h2
  have hM : MemIndex.impl.set s a b = _ := MemIndex.set_eq s a b
  unfold SameOutcome Taken
  dsimp only
  cases hsa : s.leftToRight a with
  | some b' =>
    have hP : (a, b') ∈ P := ((h.left a b').1 hsa).resolve_right (fun hB => hx (List.mem_map.2 ⟨_, hB, rfl⟩))
    obtain ⟨bb', hb'⟩ := Option.isSome_iff_exists.1 (tr b')
    rw [SledIndex.setTx_left d a b ((h.sled.get_left hl h1).2 ⟨b', hP, hb'⟩), hr _ _ hb'] at hS
    rw [hsa] at hM
    dsimp only at hS hM
    rw [hS, hM]
    exact ⟨.inr ⟨_, _, rfl, rfl, rfl⟩, .inr ⟨(by rintro ⟨_, _, _, h⟩; cases h), P, h⟩⟩
  | none =>
    obtain ⟨hnP, -⟩ := (mem_left h a).1 hsa
    have hga := (h.sled.none_left hl h1).2 hnP
    cases hsb : s.rightToLeft b with
    | some a' =>
      obtain ⟨ab', ha'⟩ := Option.isSome_iff_exists.1 (tl a')
      rw [SledIndex.setTx_right d a b hga ((h.sled.get_right hr h2).2 ⟨a', (h.right a' b).1 hsb, ha'⟩), hl _ _ ha'] at hS
      rw [hsa, hsb] at hM
      dsimp only at hS hM
      rw [hS, hM]
      refine ⟨.inr ⟨_, _, rfl, rfl, rfl⟩, .inl ⟨⟨_, _, _, rfl⟩, ?_, h.right, h.sled, ?_⟩⟩
      · intro x y
        simp only [HMap.insert, List.mem_cons, Prod.mk.injEq]
        by_cases e : x = a
        · subst e
          rw [if_pos rfl, Option.some.injEq]
          constructor
          · rintro rfl; exact .inr (.inl ⟨rfl, rfl⟩)
          · rintro (hp | ⟨-, rfl⟩ | hp)
            · exact absurd (List.mem_map.2 ⟨_, hp, rfl⟩) hnP
            · rfl
            · exact absurd (List.mem_map.2 ⟨_, hp, rfl⟩) hx
        · rw [if_neg e, h.left]; simp [e]
      · rintro z hz
        rcases List.mem_cons.1 hz with rfl | hz
        · exact hnP
        · exact h.apart z hz
    | none =>
      have hgb := (h.sled.none_right hr h2).2 ((mem_right h b).1 hsb)
      have hok : ((SledIndex.setProg cl cr a b).run d).2 = .ok () := by
        rw [SledIndex.set_run d h1 h2, SledIndex.setTx_ok d a b hga hgb]
      have hI := h.sled.set hok
      rw [hsa, hsb] at hM
      dsimp only at hM
      rw [hM]
      refine ⟨.inl ⟨rfl, hok⟩, .inr ⟨(by rintro ⟨_, _, _, h⟩; cases h), (a, b) :: P, ?_, ?_, hI, ?_⟩⟩
      · intro x y
        simp only [HMap.insert, List.mem_cons, Prod.mk.injEq]
        by_cases e : x = a
        · subst e
          rw [if_pos rfl, Option.some.injEq]
          constructor
          · rintro rfl; exact .inl (.inl ⟨rfl, rfl⟩)
          · rintro ((⟨-, rfl⟩ | hp) | hp)
            · rfl
            · exact absurd (List.mem_map.2 ⟨_, hp, rfl⟩) hnP
            · exact absurd (List.mem_map.2 ⟨_, hp, rfl⟩) hx
        · rw [if_neg e, h.left]; simp [e]
      · intro x y
        simp only [HMap.insert, List.mem_cons, Prod.mk.injEq]
        by_cases e : y = b
        · subst e
          rw [if_pos rfl, Option.some.injEq]
          constructor
          · rintro rfl; exact .inl ⟨rfl, rfl⟩
          · rintro (⟨rfl, -⟩ | hp)
            · rfl
            · exact absurd (List.mem_map.2 ⟨_, hp, rfl⟩) ((mem_right h y).1 hsb)
        · rw [if_neg e, h.right]; simp [e]
      · intro z hz hm
        rcases List.mem_cons.1 hm with e | hm
        · exact hx (List.mem_map.2 ⟨z, hz, e⟩)
        · exact h.apart z hz hm

omit [DecidableEq L] [DecidableEq R] hl hr tl tr in
theorem splits {σ : Type} (f : σ → L × R → σ) (Q : σ → L × R → List (L × R) → Prop) (s : σ) (a : L × R) (l : List (L × R)) :
    (∀ l₁ x l₂, a :: l = l₁ ++ x :: l₂ → Q (l₁.foldl f s) x l₂) ↔
      Q s a l ∧ ∀ l₁ x l₂, l = l₁ ++ x :: l₂ → Q (l₁.foldl f (f s a)) x l₂ := by
  constructor
  · intro h
    exact ⟨h [] a l rfl, fun l₁ x l₂ e => h (a :: l₁) x l₂ (by rw [e]; rfl)⟩
  · rintro ⟨h1, h2⟩ l₁ x l₂ e
    cases l₁ with
    | nil => cases e; exact h1
    | cons y l₁ => cases e; exact h2 l₁ x l₂ rfl

/-- both indices after some calls -/
def both (cl : Codec L) (cr : Codec R) (σ : MemIndex L R × IndexDb) (x : L × R) : MemIndex L R × IndexDb :=
  ((MemIndex.impl.set σ.1 x.1 x.2).1, ((SledIndex.impl cl cr).set σ.2 x.1 x.2).1)

omit hl hr tl tr in
theorem both_eq (l : List (L × R)) (s : MemIndex L R) (d : IndexDb) :
    l.foldl (both cl cr) (s, d) = (MemIndex.impl.sets s l, (SledIndex.impl cl cr).sets d l) := by
  induction l generalizing s d with
  | nil => rfl
  | cons x l ih => exact ih _ _

theorem exact_iff (l : List (L × R)) {s : MemIndex L R} {d : IndexDb} {P B : List (L × R)} (h : J cl cr s d P B) :
    (∀ l₁ x l₂, l = l₁ ++ x :: l₂ → SameOutcome cl cr (l₁.foldl (both cl cr) (s, d)).1 (l₁.foldl (both cl cr) (s, d)).2 x) ↔
      (∀ y ∈ l, y.1 ∉ B.map Prod.fst) ∧
      ∀ l₁ x l₂, l = l₁ ++ x :: l₂ → Taken (l₁.foldl (both cl cr) (s, d)).1 x → ∀ y ∈ l₂, y.1 ≠ x.1 := by
  induction l generalizing s d P B with
  | nil => simp
  | cons x l ih =>
    rw [splits (both cl cr) (fun σ x _ => SameOutcome cl cr σ.1 σ.2 x) (s, d) x l,
      splits (both cl cr) (fun σ x l₂ => Taken σ.1 x → ∀ y ∈ l₂, y.1 ≠ x.1) (s, d) x l]
    by_cases hx : x.1 ∈ B.map Prod.fst
    · exact ⟨fun hh => absurd hh.1 (differ hl hr tl tr h hx), fun hh => absurd hx (hh.1 x (by simp))⟩
    · obtain ⟨hs, ⟨ht, hj⟩ | ⟨ht, P', hj⟩⟩ := step hl hr tl tr h hx
      · have := ih hj
        constructor
        · intro ⟨_, h2⟩
          obtain ⟨h3, h4⟩ := this.1 h2
          refine ⟨fun y hy => ?_, fun _ y hy e => (h3 y hy) (by rw [e]; simp), h4⟩
          rcases List.mem_cons.1 hy with rfl | hy
          · exact hx
          · exact fun hm => h3 y hy (List.mem_cons_of_mem _ hm)
        · rintro ⟨h1, h2, h3⟩
          refine ⟨hs, this.2 ⟨fun y hy => ?_, h3⟩⟩
          rw [List.map_cons, List.mem_cons, not_or]
          exact ⟨h2 ht y hy, h1 y (List.mem_cons_of_mem _ hy)⟩
      · have := ih hj
        constructor
        · intro ⟨_, h2⟩
          obtain ⟨h3, h4⟩ := this.1 h2
          refine ⟨fun y hy => ?_, fun h => absurd h ht, h4⟩
          rcases List.mem_cons.1 hy with rfl | hy
          · exact hx
          · exact h3 y hy
        · rintro ⟨h1, h2, h3⟩
          exact ⟨hs, this.2 ⟨fun y hy => h1 y (List.mem_cons_of_mem _ hy), h3⟩⟩

/-- what is there at the end -/
theorem end_is (l : List (L × R)) {s : MemIndex L R} {d : IndexDb} {P B : List (L × R)} (h : J cl cr s d P B)
    (hB : ∀ y ∈ l, y.1 ∉ B.map Prod.fst)
    (hT : ∀ l₁ x l₂, l = l₁ ++ x :: l₂ → Taken (l₁.foldl (both cl cr) (s, d)).1 x → ∀ y ∈ l₂, y.1 ≠ x.1) :
    ∃ P' B', J cl cr (l.foldl (both cl cr) (s, d)).1 (l.foldl (both cl cr) (s, d)).2 P' B' ∧
      ∀ z, z ∈ B' ↔ z ∈ B ∨ ∃ l₁ l₂, l = l₁ ++ z :: l₂ ∧ Taken (l₁.foldl (both cl cr) (s, d)).1 z := by
  induction l generalizing s d P B with
  | nil => exact ⟨P, B, h, fun z => by simp⟩
  | cons x l ih =>
    rw [splits (both cl cr) (fun σ x l₂ => Taken σ.1 x → ∀ y ∈ l₂, y.1 ≠ x.1) (s, d) x l] at hT
    obtain ⟨hT1, hT2⟩ := hT
    have hex : ∀ z, (∃ l₁ l₂, x :: l = l₁ ++ z :: l₂ ∧ Taken (l₁.foldl (both cl cr) (s, d)).1 z) ↔
        (z = x ∧ Taken s x) ∨ ∃ l₁ l₂, l = l₁ ++ z :: l₂ ∧ Taken (l₁.foldl (both cl cr) (both cl cr (s, d) x)).1 z := by
      intro z
      constructor
      · rintro ⟨l₁, l₂, e, ht⟩
        cases l₁ with
        | nil => cases e; exact .inl ⟨rfl, ht⟩
        | cons y l₁ => cases e; exact .inr ⟨l₁, l₂, rfl, ht⟩
      · rintro (⟨rfl, ht⟩ | ⟨l₁, l₂, e, ht⟩)
        · exact ⟨[], l, rfl, ht⟩
        · exact ⟨x :: l₁, l₂, by rw [e]; rfl, ht⟩
    obtain ⟨-, ⟨ht, hj⟩ | ⟨ht, P', hj⟩⟩ := step hl hr tl tr h (hB x (by simp))
    · obtain ⟨P', B', h1, h2⟩ := ih hj (fun y hy => by
        rw [List.map_cons, List.mem_cons, not_or]
        exact ⟨hT1 ht y hy, hB y (List.mem_cons_of_mem _ hy)⟩) hT2
      refine ⟨P', B', h1, fun z => ?_⟩
      rw [h2 z, hex z, List.mem_cons]
      constructor
      · rintro ((rfl | h) | h)
        · exact .inr (.inl ⟨rfl, ht⟩)
        · exact .inl h
        · exact .inr (.inr h)
      · rintro (h | ⟨rfl, -⟩ | h)
        · exact .inl (.inr h)
        · exact .inl (.inl rfl)
        · exact .inr h
    · obtain ⟨P'', B', h1, h2⟩ := ih hj (fun y hy => hB y (List.mem_cons_of_mem _ hy)) hT2
      refine ⟨P'', B', h1, fun z => ?_⟩
      rw [h2 z, hex z]
      constructor
      · rintro (h | h)
        · exact .inl h
        · exact .inr (.inr h)
      · rintro (h | ⟨rfl, h⟩ | h)
        · exact .inl h
        · exact absurd h ht
        · exact .inr h

end IndexExact

open IndexExact

/-- Whatever is given to `set`, failures included: all calls have the same outcome on both indices (apart from the order of the
values in the errors) if and only if no name is tried again after its `set` failed because the id was taken. -/
theorem C52_exact {cl : Codec L} {cr : Codec R} (hl : cl.RoundTrips) (hr : cr.RoundTrips) (tl : cl.Total) (tr : cr.Total)
    (l : List (L × R)) :
    (∀ l₁ x l₂, l = l₁ ++ x :: l₂ → SameOutcome cl cr (MemIndex.impl.sets .new l₁) ((SledIndex.impl cl cr).sets .empty l₁) x) ↔
      ∀ l₁ x l₂, l = l₁ ++ x :: l₂ → Taken (MemIndex.impl.sets .new l₁) x → ∀ y ∈ l₂, y.1 ≠ x.1 := by
  have := exact_iff hl hr tl tr l (j_start (cl := cl) (cr := cr))
  simp only [both_eq, List.map_nil, List.not_mem_nil, not_false_eq_true, implies_true, true_and] at this
  exact this

/-- Then all look-ups have the same answer on both, except for those names: a MemHashIndex returns the id that was refused. -/
theorem C52_lookups {cl : Codec L} {cr : Codec R} (hl : cl.RoundTrips) (hr : cr.RoundTrips) (tl : cl.Total) (tr : cr.Total)
    (l : List (L × R)) (hT : ∀ l₁ x l₂, l = l₁ ++ x :: l₂ → Taken (MemIndex.impl.sets .new l₁) x → ∀ y ∈ l₂, y.1 ≠ x.1) :
    (∀ b, ∃ o, MemIndex.impl.rightToLeft (MemIndex.impl.sets .new l) b = .ok o ∧
      (SledIndex.impl cl cr).rightToLeft ((SledIndex.impl cl cr).sets .empty l) b = .ok o) ∧
    (∀ a, (∀ l₁ x l₂, l = l₁ ++ x :: l₂ → Taken (MemIndex.impl.sets .new l₁) x → x.1 ≠ a) →
      ∃ o, MemIndex.impl.leftToRight (MemIndex.impl.sets .new l) a = .ok o ∧
        (SledIndex.impl cl cr).leftToRight ((SledIndex.impl cl cr).sets .empty l) a = .ok o) ∧
    ∀ l₁ x l₂, l = l₁ ++ x :: l₂ → Taken (MemIndex.impl.sets .new l₁) x →
      MemIndex.impl.leftToRight (MemIndex.impl.sets .new l) x.1 = .ok (some x.2) ∧
        (SledIndex.impl cl cr).leftToRight ((SledIndex.impl cl cr).sets .empty l) x.1 = .ok none := by
  obtain ⟨P, B, h, hB⟩ := end_is hl hr tl tr l (j_start (cl := cl) (cr := cr)) (by simp) (by simpa only [both_eq] using hT)
  simp only [both_eq, List.not_mem_nil, false_or] at h hB
  have hs := h.sled.lists hl hr
  refine ⟨fun b => ?_, fun a ha => ?_, fun l₁ x l₂ e ht => ?_⟩
  · obtain ⟨o, ho⟩ := hs.rightTotal b (tr b)
    refine ⟨o, ?_, ho⟩
    refine congrArg Except.ok (Option.ext fun x => ?_)
    have e2 := hs.right x b
    rw [ho, Except.ok.injEq] at e2
    exact (h.right x b).trans e2.symm
  · obtain ⟨o, ho⟩ := hs.leftTotal a (tl a)
    refine ⟨o, ?_, ho⟩
    refine congrArg Except.ok (Option.ext fun x => ?_)
    have e2 := hs.left a x
    rw [ho, Except.ok.injEq] at e2
    refine (h.left a x).trans (Iff.trans ⟨fun hh => hh.resolve_right fun hb => ?_, .inl⟩ e2.symm)
    obtain ⟨l₁, l₂, e, ht⟩ := (hB _).1 hb
    exact ha l₁ _ l₂ e ht rfl
  · have hb : x ∈ B := (hB x).2 ⟨l₁, l₂, e, ht⟩
    refine ⟨congrArg Except.ok ((h.left x.1 x.2).2 (.inr hb)), ?_⟩
    obtain ⟨o, ho⟩ := hs.leftTotal x.1 (tl x.1)
    rw [ho]
    cases o with
    | none => rfl
    | some y => exact absurd (List.mem_map.2 ⟨_, (hs.left x.1 y).1 ho, rfl⟩) (h.apart x hb)

-- both sides of `C52_exact` occur: name 2 is refused id 10; it is not tried again …
example : Taken (MemIndex.impl.sets .new [((1 : Nat), (10 : Nat))]) (2, 10) := ⟨10, 2, 1, rfl⟩
example : ∀ l₁ x l₂, [((1 : Nat), (10 : Nat)), (2, 10), (3, 30), (1, 11)] = l₁ ++ x :: l₂ →
    Taken (MemIndex.impl.sets .new l₁) x → ∀ y ∈ l₂, y.1 ≠ x.1 := by
  intro l₁ x l₂ e
  match l₁, e with
  | [], e => cases e; rintro ⟨_, _, _, h⟩; cases h
  | [_], e => cases e; intro _ y hy; revert y; decide
  | [_, _], e => cases e; rintro ⟨_, _, _, h⟩; cases h
  | [_, _, _], e => cases e; rintro ⟨_, _, _, h⟩; cases h
  | _ :: _ :: _ :: _ :: l, e => cases l <;> cases e
-- … or it is
example : ¬ ∀ l₁ x l₂, [((1 : Nat), (10 : Nat)), (2, 10), (2, 11)] = l₁ ++ x :: l₂ →
    Taken (MemIndex.impl.sets .new l₁) x → ∀ y ∈ l₂, y.1 ≠ x.1 :=
  fun h => h [(1, 10)] (2, 10) [(2, 11)] rfl ⟨10, 2, 1, rfl⟩ (2, 11) (by simp) rfl

end Verif.Props
