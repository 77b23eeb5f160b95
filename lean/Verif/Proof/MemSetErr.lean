import Verif.Proof.MemReach

/-! # Where the errors of the set operations come from -/

set_option linter.unusedSectionVars false

namespace Verif

open Spec ConcreteId

theorem nextItem_err {E α : Type} {l : List (Except E α)} {e : E} (h : nextItem l = .error e) :
    .error e ∈ l := by
  cases l with
  | nil => cases h
  | cons a l => cases a <;> cases h; simp

theorem nextItem_sub {E α : Type} {l r : List (Except E α)} {o : Option α} (h : nextItem l = .ok (o, r)) :
    r ⊆ l := by
  cases l with
  | nil => cases h; simp
  | cons a l => cases a <;> cases h; simp

theorem walk_err {σ A B E : Type} {ltAB : A → B → Bool} {ltBA : B → A → Bool}
    {onL : σ → A → σ} {onR : σ → B → σ} {onB : σ → A → B → σ} {st : σ} {cur : Option A}
    {it : List (Except E A)} {ocur : Option B} {oit : List (Except E B)} {e : E}
    (h : walk ltAB ltBA onL onR onB st cur it ocur oit = .error e) : .error e ∈ it ∨ .error e ∈ oit := by
  fun_induction walk ltAB ltBA onL onR onB st cur it ocur oit with
  | case1 _ _ _ _ _ _ _ hn => cases h; exact .inl (nextItem_err hn)
  | case2 st it oit l r hlt cur' it' hn ih =>
    rcases ih h with h | h
    · exact .inl (nextItem_sub hn h)
    · exact .inr h
  | case3 _ _ _ _ _ _ _ _ hn => cases h; exact .inr (nextItem_err hn)
  | case4 st it oit l r hlt hgt cur' it' hn ih =>
    rcases ih h with h | h
    · exact .inl h
    · exact .inr (nextItem_sub hn h)
  | case5 _ _ _ _ _ _ _ _ hn => cases h; exact .inl (nextItem_err hn)
  | case6 _ _ _ _ _ _ _ _ _ _ _ hn => cases h; exact .inr (nextItem_err hn)
  | case7 st it oit l r hlt hgt cur' it' hn ocur' oit' hn' ih =>
    rcases ih h with h | h
    · exact .inl (nextItem_sub hn h)
    · exact .inr (nextItem_sub hn' h)
  | case8 => cases h

theorem walk_rest_sub {σ A B E : Type} {ltAB : A → B → Bool} {ltBA : B → A → Bool}
    {onL : σ → A → σ} {onR : σ → B → σ} {onB : σ → A → B → σ} {st : σ} {cur : Option A}
    {it : List (Except E A)} {ocur : Option B} {oit : List (Except E B)} {w : WalkEnd σ A E}
    (h : walk ltAB ltBA onL onR onB st cur it ocur oit = .ok w) : w.rest ⊆ it := by
  fun_induction walk ltAB ltBA onL onR onB st cur it ocur oit with
  | case1 => cases h
  | case2 st it oit l r hlt cur' it' hn ih => exact List.Subset.trans (ih h) (nextItem_sub hn)
  | case3 => cases h
  | case4 st it oit l r hlt hgt cur' it' hn ih => exact ih h
  | case5 => cases h
  | case6 => cases h
  | case7 st it oit l r hlt hgt cur' it' hn ocur' oit' hn' ih =>
    exact List.Subset.trans (ih h) (nextItem_sub hn)
  | case8 => cases h; simp

theorem drain_err {σ A E : Type} {onL : σ → A → σ} {st : σ} {cur : Option A} {it : List (Except E A)} {e : E}
    (h : drain onL st cur it = .error e) : .error e ∈ it := by
  induction it generalizing st cur with
  | nil => cases cur <;> cases h
  | cons a it ih =>
    cases cur with
    | none => cases h
    | some l =>
      cases a with
      | error e' => cases h; simp
      | ok a => exact List.mem_cons_of_mem _ (ih h)

namespace Mem

variable {Id NP EP E : Type} [LinearOrder Id] [ConcreteId Id] [LawfulId Id]

theorem mem_errRight {α : Type} {l : List (Except E α)} {x : SetErr Unit E Unit} (h : .error x ∈ errRight l) :
    ∃ e, x = .right e ∧ .error e ∈ l := by
  simp only [errRight, List.mem_map] at h
  obtain ⟨a, ha, h⟩ := h
  cases a with
  | error e => cases h; exact ⟨e, rfl, ha⟩
  | ok a => cases h

theorem not_mem_errLeft {α : Type} {l : List α} {x : SetErr Unit E Unit} :
    .error x ∉ errLeft (E := E) (l.map .ok) := by
  simp [errLeft]

theorem union_err {s : Mem Id NP EP} {g : Gen Id} {other : Source E Id NP EP} {x : SetErr Unit E Unit}
    (h : s.union g other = .error x) : ∃ e, x = .right e ∧ (.error e ∈ other.nodes ∨ .error e ∈ other.edges) := by
  have key : ∀ {α : Type} (l : List (Except E α)) (e : E), Spec.firstErr l = some e → .error e ∈ l := by
    intro α l e
    induction l with
    | nil => intro h; cases h
    | cons a l ih =>
      cases a with
      | error e' => intro h; cases h; simp
      | ok a => intro h; exact List.mem_cons_of_mem _ (ih h)
  rw [union_eq] at h
  split at h
  · rename_i e he
    cases h
    refine ⟨e, rfl, ?_⟩
    unfold Source.firstErr at he
    cases hn : Spec.firstErr other.nodes with
    | some e' => rw [hn] at he; cases he; exact .inl (key _ _ hn)
    | none => rw [hn] at he; exact .inr (key _ _ he)
  · cases h

theorem intersection_err {s : Mem Id NP EP} {g : Gen Id} {other : Source E Id NP EP} {x : SetErr Unit E Unit}
    (h : s.intersection g other = .error x) :
    ∃ e, x = .right e ∧ (.error e ∈ other.nodes ∨ .error e ∈ other.edges) := by
  have fin : ∀ {y}, (.error y ∈ errRight other.nodes ∨ .error y ∈ errRight other.edges) →
      ∃ e, y = .right e ∧ (.error e ∈ other.nodes ∨ .error e ∈ other.edges) := by
    rintro y (h | h)
    · obtain ⟨e, h1, h2⟩ := mem_errRight h; exact ⟨e, h1, .inl h2⟩
    · obtain ⟨e, h1, h2⟩ := mem_errRight h; exact ⟨e, h1, .inr h2⟩
  unfold intersection at h
  rw [into_eq] at h
  simp only at h
  split at h
  · rename_i hn; exact absurd (nextItem_err hn) not_mem_errLeft
  rename_i hn1
  split at h
  · rename_i hn; cases h; exact fin (.inl (nextItem_err hn))
  rename_i hn2
  split at h
  · rename_i hw; cases h
    rcases walk_err hw with h | h
    · exact absurd (nextItem_sub hn1 h) not_mem_errLeft
    · exact fin (.inl (nextItem_sub hn2 h))
  split at h
  · rename_i hn; exact absurd (nextItem_err hn) not_mem_errLeft
  rename_i hn3
  split at h
  · rename_i hn; cases h; exact fin (.inr (nextItem_err hn))
  rename_i hn4
  split at h
  · rename_i hw; cases h
    rcases walk_err hw with h | h
    · exact absurd (nextItem_sub hn3 h) not_mem_errLeft
    · exact fin (.inr (nextItem_sub hn4 h))
  · cases h

theorem difference_err {s : Mem Id NP EP} {g : Gen Id} {other : Source E Id NP EP} {x : SetErr Unit E Unit}
    (h : s.difference g other = .error x) :
    ∃ e, x = .right e ∧ (.error e ∈ other.nodes ∨ .error e ∈ other.edges) := by
  have fin : ∀ {y}, (.error y ∈ errRight other.nodes ∨ .error y ∈ errRight other.edges) →
      ∃ e, y = .right e ∧ (.error e ∈ other.nodes ∨ .error e ∈ other.edges) := by
    rintro y (h | h)
    · obtain ⟨e, h1, h2⟩ := mem_errRight h; exact ⟨e, h1, .inl h2⟩
    · obtain ⟨e, h1, h2⟩ := mem_errRight h; exact ⟨e, h1, .inr h2⟩
  unfold difference at h
  rw [into_eq] at h
  simp only at h
  split at h
  · rename_i hn; exact absurd (nextItem_err hn) not_mem_errLeft
  rename_i hn1
  split at h
  · rename_i hn; cases h; exact fin (.inl (nextItem_err hn))
  rename_i hn2
  split at h
  · rename_i hw; cases h
    rcases walk_err hw with h | h
    · exact absurd (nextItem_sub hn1 h) not_mem_errLeft
    · exact fin (.inl (nextItem_sub hn2 h))
  rename_i hw
  split at h
  · rename_i hd
    exact absurd (nextItem_sub hn1 (walk_rest_sub hw (drain_err hd))) not_mem_errLeft
  split at h
  · rename_i hn; exact absurd (nextItem_err hn) not_mem_errLeft
  rename_i hn3
  split at h
  · rename_i hn; cases h; exact fin (.inr (nextItem_err hn))
  rename_i hn4
  split at h
  · rename_i hw; cases h
    rcases walk_err hw with h | h
    · exact absurd (nextItem_sub hn3 h) not_mem_errLeft
    · exact fin (.inr (nextItem_sub hn4 h))
  · rename_i hw'
    exact absurd (nextItem_sub hn3 (walk_rest_sub hw' (drain_err h))) not_mem_errLeft

end Mem

end Verif

namespace Verif

open Spec

theorem firstErr_some_iff {E α : Type} (l : List (Except E α)) (e : E) :
    Spec.firstErr l = some e ↔ ∃ c : List α, (c.map .ok ++ [.error e]) <+: l := by
  induction l with
  | nil => simp [Spec.firstErr]
  | cons a l ih =>
    cases a with
    | error x =>
      simp only [Spec.firstErr, Option.some.injEq]
      constructor
      · rintro rfl; exact ⟨[], by simp⟩
      · rintro ⟨c, hc⟩
        cases c with
        | nil => simpa [eq_comm] using hc
        | cons b c => simp at hc
    | ok a =>
      simp only [Spec.firstErr, ih]
      constructor
      · rintro ⟨c, hc⟩; exact ⟨a :: c, by simpa using hc⟩
      · rintro ⟨c, hc⟩
        cases c with
        | nil => simp at hc
        | cons b c => simp at hc; exact ⟨c, hc.2⟩

theorem firstErr_none_iff {E α : Type} (l : List (Except E α)) :
    Spec.firstErr l = none ↔ ∃ c : List α, l = c.map .ok := by
  induction l with
  | nil => simp [Spec.firstErr]
  | cons a l ih =>
    cases a with
    | error x =>
      simp only [Spec.firstErr, reduceCtorEq, false_iff]
      rintro ⟨c, hc⟩
      cases c <;> simp at hc
    | ok a =>
      simp only [Spec.firstErr, ih]
      constructor
      · rintro ⟨c, rfl⟩; exact ⟨a :: c, rfl⟩
      · rintro ⟨c, hc⟩
        cases c with
        | nil => simp at hc
        | cons b c => simp at hc; exact ⟨c, hc.2⟩

end Verif
