import Verif.Model.Prog

/-! # Interleaved programs that touch different parts of the database -/

namespace Verif

variable {S Λ α β : Type} (J : S → Prop) (loc : S → Λ)

/-- Every call of the program keeps the invariant `J` and leaves the part `loc` alone; its result satisfies `R`. -/
def Framed : Prog S α → (α → Prop) → Prop
  | .ret a, R => R a
  | .call f k, R => ∀ s, J s → J (f s) ∧ loc (f s) = loc s ∧ Framed (k s) R

/-- While nobody else touches the part `loc`, the program takes it from `l` to a value allowed by `Q`. -/
def Local : Prog S α → Λ → (α → Λ → Prop) → Prop
  | .ret a, l, Q => Q a l
  | .call f k, l, Q => ∀ s, J s → loc s = l → J (f s) ∧ Local (k s) (loc (f s)) Q

/-- the same for the queue of a thread -/
def LocalAll : List (Prog S α) → Λ → (Λ → Prop) → Prop
  | [], l, Q => Q l
  | p :: q, l, Q => Local J loc p l (fun _ l' => LocalAll q l' Q)

variable {J loc}

theorem Framed.mono {p : Prog S α} {R R' : α → Prop} (h : Framed J loc p R) (hR : ∀ a, R a → R' a) : Framed J loc p R' := by
  induction p with
  | ret a => exact hR a h
  | call f k ih => exact fun s hs => ⟨(h s hs).1, (h s hs).2.1, ih s (h s hs).2.2⟩

theorem Framed.bind {p : Prog S α} {k : α → Prog S β} {R : α → Prop} {R' : β → Prop} (h : Framed J loc p R)
    (hk : ∀ a, R a → Framed J loc (k a) R') : Framed J loc (p.bind k) R' := by
  induction p with
  | ret a => exact hk a h
  | call f j ih => exact fun s hs => ⟨(h s hs).1, (h s hs).2.1, ih s (h s hs).2.2⟩

theorem Framed.loc_bind {p : Prog S α} {k : α → Prog S β} {R : α → Prop} {l : Λ} {Q : β → Λ → Prop} (h : Framed J loc p R)
    (hk : ∀ a, R a → Local J loc (k a) l Q) : Local J loc (p.bind k) l Q := by
  induction p with
  | ret a => exact hk a h
  | call f j ih =>
    rintro s hs rfl
    obtain ⟨h1, h2, h3⟩ := h s hs
    exact ⟨h1, by rw [h2]; exact ih s h3⟩

theorem Framed.toLocal {p : Prog S α} {R : α → Prop} {l : Λ} {Q : α → Λ → Prop} (h : Framed J loc p R)
    (hk : ∀ a, R a → Q a l) : Local J loc p l Q := by
  induction p with
  | ret a => exact hk a h
  | call f j ih =>
    rintro s hs rfl
    obtain ⟨h1, h2, h3⟩ := h s hs
    exact ⟨h1, by rw [h2]; exact ih s h3⟩

theorem Local.bind {p : Prog S α} {k : α → Prog S β} {l : Λ} {Q : α → Λ → Prop} {Q' : β → Λ → Prop}
    (h : Local J loc p l Q) (hk : ∀ a l', Q a l' → Local J loc (k a) l' Q') : Local J loc (p.bind k) l Q' := by
  induction p generalizing l with
  | ret a => exact hk a l h
  | call f j ih => exact fun s hs hl => ⟨(h s hs hl).1, ih s (h s hs hl).2⟩

theorem Local.mono {p : Prog S α} {l : Λ} {Q Q' : α → Λ → Prop}
    (h : Local J loc p l Q) (hk : ∀ a l', Q a l' → Q' a l') : Local J loc p l Q' := by
  induction p generalizing l with
  | ret a => exact hk a l h
  | call f j ih => exact fun s hs hl => ⟨(h s hs hl).1, ih s (h s hs hl).2⟩

/-- Nobody touches the part. -/
theorem framed_steps {x y : S × List (List (Prog S α))} (hs : Steps x y) (hJ : J x.1)
    (hf : ∀ q ∈ x.2, ∀ p ∈ q, Framed J loc p (fun _ => True)) :
    J y.1 ∧ loc y.1 = loc x.1 ∧ ∀ q ∈ y.2, ∀ p ∈ q, Framed J loc p (fun _ => True) := by
  induction hs with
  | refl => exact ⟨hJ, rfl, hf⟩
  | tail _ h2 ih =>
    obtain ⟨i1, i2, i3⟩ := ih
    have pop : ∀ {s : S} {pre post : List (List (Prog S α))} {p : Prog S α} {q : List (Prog S α)},
        (∀ r ∈ pre ++ (p :: q) :: post, ∀ p ∈ r, Framed J loc p (fun _ => True)) →
        ∀ r ∈ pre ++ q :: post, ∀ p ∈ r, Framed J loc p (fun _ => True) := by
      intro s pre post p q h r hr
      simp only [List.mem_append, List.mem_cons] at hr
      rcases hr with hr | rfl | hr
      · exact h r (by simp [hr])
      · exact fun p' hp => h (p :: r) (by simp) p' (List.mem_cons_of_mem _ hp)
      · exact h r (by simp [hr])
    cases h2 with
    | call s pre post f k q =>
      obtain ⟨h1, h2, h3⟩ := i3 (.call f k :: q) (by simp) _ List.mem_cons_self s i1
      refine ⟨h1, h2.trans i2, fun r hr => ?_⟩
      simp only [List.mem_append, List.mem_cons] at hr
      rcases hr with hr | rfl | hr
      · exact i3 r (by simp [hr])
      · intro p hp
        rcases List.mem_cons.1 hp with rfl | hp
        · exact h3
        · exact i3 (.call f k :: q) (by simp) p (List.mem_cons_of_mem _ hp)
      · exact i3 r (by simp [hr])
    | ret s pre post a q => exact ⟨i1, i2, pop (s := s) i3⟩
    | fail s pre post p q => exact ⟨i1, i2, pop (s := s) i3⟩

theorem getElem?_mid {γ : Type} (pre post : List γ) (a b : γ) (j : Nat) :
    (pre ++ a :: post)[j]? = if j = pre.length then some a else (pre ++ b :: post)[j]? := by
  rcases Nat.lt_trichotomy j pre.length with h | h | h
  · rw [if_neg (by omega), List.getElem?_append_left h, List.getElem?_append_left h]
  · rw [if_pos h, List.getElem?_append_right (by omega)]
    simp [h]
  · rw [if_neg (by omega), List.getElem?_append_right (by omega), List.getElem?_append_right (by omega)]
    obtain ⟨m, hm⟩ : ∃ m, j - pre.length = m + 1 := ⟨j - pre.length - 1, by omega⟩
    rw [hm]; rfl

/-- Only the thread number `i` touches the part. -/
theorem local_steps {i : Nat} {Q : Λ → Prop} {x y : S × List (List (Prog S α))} (hs : CalmSteps x y) (hJ : J x.1)
    (hf : ∀ j q, x.2[j]? = some q → j ≠ i → ∀ p ∈ q, Framed J loc p (fun _ => True))
    (hl : ∀ q, x.2[i]? = some q → LocalAll J loc q (loc x.1) Q) :
    J y.1 ∧ (∀ j q, y.2[j]? = some q → j ≠ i → ∀ p ∈ q, Framed J loc p (fun _ => True)) ∧
      ∀ q, y.2[i]? = some q → LocalAll J loc q (loc y.1) Q := by
  induction hs with
  | refl => exact ⟨hJ, hf, hl⟩
  | tail _ h2 ih =>
    obtain ⟨i1, i2, i3⟩ := ih
    cases h2 with
    | call s pre post f k q =>
      have mid := getElem?_mid pre post (k s :: q) (.call f k :: q)
      have here : (pre ++ (.call f k :: q) :: post)[pre.length]? = some (.call f k :: q) := by
        rw [getElem?_mid pre post _ (k s :: q), if_pos rfl]
      by_cases hi : pre.length = i
      · subst hi
        obtain ⟨h1, h3⟩ := i3 _ here s i1 rfl
        refine ⟨h1, fun j r hr hj => ?_, fun r hr => ?_⟩
        · dsimp only at hr
          rw [mid, if_neg hj] at hr
          exact i2 j r hr hj
        · dsimp only at hr
          rw [mid, if_pos rfl] at hr
          cases hr
          exact h3
      · obtain ⟨h1, h2, h3⟩ := i2 _ _ here hi (.call f k) List.mem_cons_self s i1
        refine ⟨h1, fun j r hr hj => ?_, fun r hr => ?_⟩
        · dsimp only at hr
          rw [mid] at hr
          split at hr
          · cases hr
            intro p hp
            rcases List.mem_cons.1 hp with rfl | hp
            · exact h3
            · exact i2 _ _ here hi p (List.mem_cons_of_mem _ hp)
          · exact i2 j r hr hj
        · dsimp only at hr ⊢
          rw [mid, if_neg (fun e => hi e.symm)] at hr
          rw [h2]
          exact i3 r hr
    | ret s pre post a q =>
      have mid := getElem?_mid pre post q (.ret a :: q)
      have here : (pre ++ (.ret a :: q) :: post)[pre.length]? = some (.ret a :: q) := by
        rw [getElem?_mid pre post _ q, if_pos rfl]
      refine ⟨i1, fun j r hr hj => ?_, fun r hr => ?_⟩
      · dsimp only at hr
        rw [mid] at hr
        split at hr
        · rename_i e
          cases hr
          subst e
          exact fun p hp => i2 _ _ here hj p (List.mem_cons_of_mem _ hp)
        · exact i2 j r hr hj
      · dsimp only at hr
        rw [mid] at hr
        split at hr
        · rename_i e
          cases hr
          subst e
          exact i3 (.ret a :: q) here
        · exact i3 r hr

end Verif
