import Verif.Model.Prog
import Mathlib.Logic.Relation

/-! # Interleaved programs to which calls are added later -/

namespace Verif

variable {S α : Type}

/-- one step; calls fail only if `b` -/
inductive StepB (b : Bool) : S × List (List (Prog S α)) → S × List (List (Prog S α)) → Prop
  | call (s : S) (pre post : List (List (Prog S α))) (f : S → S) (k : S → Prog S α) (q : List (Prog S α)) :
      StepB b (s, pre ++ (.call f k :: q) :: post) (f s, pre ++ (k s :: q) :: post)
  | ret (s : S) (pre post : List (List (Prog S α))) (a : α) (q : List (Prog S α)) :
      StepB b (s, pre ++ (.ret a :: q) :: post) (s, pre ++ q :: post)
  | fail (hb : b = true) (s : S) (pre post : List (List (Prog S α))) (p : Prog S α) (q : List (Prog S α)) :
      StepB b (s, pre ++ (p :: q) :: post) (s, pre ++ q :: post)

abbrev StepsB (b : Bool) : S × List (List (Prog S α)) → S × List (List (Prog S α)) → Prop := Relation.ReflTransGen (StepB b)

theorem stepsB_of_steps {x y : S × List (List (Prog S α))} (h : Steps x y) : StepsB true x y := by
  induction h with
  | refl => exact .refl
  | tail _ h ih =>
    refine ih.tail ?_
    cases h with
    | call => exact .call ..
    | ret => exact .ret ..
    | fail => exact .fail rfl ..

theorem stepsB_of_calm {x y : S × List (List (Prog S α))} (h : CalmSteps x y) : StepsB false x y := by
  induction h with
  | refl => exact .refl
  | tail _ h ih =>
    refine ih.tail ?_
    cases h with
    | call => exact .call ..
    | ret => exact .ret ..

theorem steps_of_stepsB {x y : S × List (List (Prog S α))} (h : StepsB true x y) : Steps x y := by
  induction h with
  | refl => exact .refl _
  | tail _ h ih =>
    refine ih.tail ?_
    cases h with
    | call => exact .call ..
    | ret => exact .ret ..
    | fail => exact .fail ..

theorem calm_of_stepsB {x y : S × List (List (Prog S α))} (h : StepsB false x y) : CalmSteps x y := by
  induction h with
  | refl => exact .refl _
  | tail _ h ih =>
    refine ih.tail ?_
    cases h with
    | call => exact .call ..
    | ret => exact .ret ..
    | fail hb => cases hb

theorem split_of_append {pre post e : List (List (Prog S α))} {q : List (Prog S α)} (h : e.length = (pre ++ q :: post).length) :
    ∃ e1 x e2, e = e1 ++ x :: e2 ∧ pre.length = e1.length := by
  have h1 : pre.length < e.length := by rw [h]; simp
  refine ⟨e.take pre.length, e[pre.length], e.drop (pre.length + 1), ?_, by simp; omega⟩
  rw [List.getElem_cons_drop, List.take_append_drop]

/-- calls to be made afterwards -/
theorem StepB.later {b : Bool} {x y : S × List (List (Prog S α))} (h : StepB b x y) (e : List (List (Prog S α)))
    (he : e.length = x.2.length) : StepB b (x.1, List.zipWith (· ++ ·) x.2 e) (y.1, List.zipWith (· ++ ·) y.2 e) := by
  cases h with
  | call s pre post f k q =>
    obtain ⟨e1, v, e2, rfl, h1⟩ := split_of_append he
    rw [List.zipWith_append h1, List.zipWith_append h1]
    exact .call ..
  | ret s pre post a q =>
    obtain ⟨e1, v, e2, rfl, h1⟩ := split_of_append he
    rw [List.zipWith_append h1, List.zipWith_append h1]
    exact .ret ..
  | fail hb s pre post p q =>
    obtain ⟨e1, v, e2, rfl, h1⟩ := split_of_append he
    rw [List.zipWith_append h1, List.zipWith_append h1]
    exact .fail hb ..

theorem StepB.length {b : Bool} {x y : S × List (List (Prog S α))} (h : StepB b x y) : y.2.length = x.2.length := by
  cases h <;> simp

theorem StepsB.length {b : Bool} {x y : S × List (List (Prog S α))} (h : StepsB b x y) : y.2.length = x.2.length := by
  induction h with
  | refl => rfl
  | tail _ h ih => rw [h.length, ih]

theorem StepsB.later {b : Bool} {x y : S × List (List (Prog S α))} (h : StepsB b x y) (e : List (List (Prog S α)))
    (he : e.length = x.2.length) : StepsB b (x.1, List.zipWith (· ++ ·) x.2 e) (y.1, List.zipWith (· ++ ·) y.2 e) := by
  induction h with
  | refl => exact .refl
  | tail h1 h2 ih => exact ih.tail (h2.later e (he.trans (StepsB.length h1).symm))

theorem zipWith_nils (l : List (List (Prog S α))) : List.zipWith (· ++ ·) l (l.map (fun _ => ([] : List (Prog S α)))) = l := by
  induction l with
  | nil => rfl
  | cons a l ih => simpa using ih

/-- a call to be made afterwards by one thread -/
theorem StepsB.after {b : Bool} {s s' : S} {pre post pre' post' : List (List (Prog S α))} {q q' : List (Prog S α)}
    (h : StepsB b (s, pre ++ q :: post) (s', pre' ++ q' :: post')) (hl : pre.length = pre'.length) (e : List (Prog S α)) :
    StepsB b (s, pre ++ (q ++ e) :: post) (s', pre' ++ (q' ++ e) :: post') := by
  have h2 := StepsB.length h
  have h3 : post.length = post'.length := by
    simp only [List.length_append, List.length_cons] at h2; omega
  have h1 := StepsB.later h (pre.map (fun _ => []) ++ e :: post.map (fun _ => [])) (by simp)
  dsimp only at h1
  have aux : ∀ l l' : List (List (Prog S α)), l.length = l'.length →
      l.map (fun _ => ([] : List (Prog S α))) = l'.map (fun _ => []) := by
    intro l l' h
    rw [List.map_const', List.map_const', h]
  rw [List.zipWith_append (by simp), List.zipWith_append (by simp [hl]), List.zipWith_cons_cons, List.zipWith_cons_cons,
    zipWith_nils, zipWith_nils, aux pre pre' hl, aux post post' h3, zipWith_nils, zipWith_nils] at h1
  exact h1

/-! ## programs of one thread -/

/-- programs which are over, and the others -/
def Pops (A A' : List (Prog S Unit)) : Prop := ∃ B, A = B ++ A' ∧ ∀ p ∈ B, p = .ret ()

theorem Pops.refl (A : List (Prog S Unit)) : Pops A A := ⟨[], rfl, by simp⟩

theorem Pops.cons {A A' : List (Prog S Unit)} (h : Pops A A') : Pops (.ret () :: A) A' := by
  obtain ⟨B, rfl, h⟩ := h
  exact ⟨.ret () :: B, rfl, by simpa using h⟩

theorem Pops.append {A A' : List (Prog S Unit)} (h : Pops A A') (T : List (Prog S Unit)) : Pops (A ++ T) (A' ++ T) := by
  obtain ⟨B, rfl, h⟩ := h
  exact ⟨B, by simp, h⟩

/-- The programs of a thread come from `A` to `A'` performing at most one call. -/
inductive Solo : S → List (Prog S Unit) → S → List (Prog S Unit) → Prop
  | idle {s : S} {A A' : List (Prog S Unit)} (h : Pops A A') : Solo s A s A'
  | act {s : S} {A A1 A' : List (Prog S Unit)} {f : S → S} {k : S → Prog S Unit} (h : Pops A (.call f k :: A1))
      (h' : Pops (k s :: A1) A') : Solo s A (f s) A'

theorem Pops.steps {A A' : List (Prog S Unit)} (h : Pops A A') (b : Bool) (s : S) (pre post : List (List (Prog S Unit))) :
    StepsB b (s, pre ++ A :: post) (s, pre ++ A' :: post) := by
  obtain ⟨B, rfl, h⟩ := h
  induction B with
  | nil => exact .refl
  | cons p B ih =>
    rw [h p (by simp)]
    exact .head (.ret ..) (ih (fun q hq => h q (by simp [hq])))

theorem Solo.steps {s s' : S} {A A' : List (Prog S Unit)} (h : Solo s A s' A') (b : Bool) (pre post : List (List (Prog S Unit))) :
    StepsB b (s, pre ++ A :: post) (s', pre ++ A' :: post) := by
  cases h with
  | idle h => exact h.steps b s pre post
  | act h h' => exact ((h.steps b s pre post).tail (.call ..)).trans (h'.steps b _ pre post)

theorem drops_steps (A : List (Prog S Unit)) (s : S) (T : List (Prog S Unit)) (pre post : List (List (Prog S Unit))) :
    StepsB true (s, pre ++ (A ++ T) :: post) (s, pre ++ T :: post) := by
  induction A with
  | nil => exact .refl
  | cons p A ih => exact .head (.fail rfl ..) ih

/-! ## what is left of a program -/

/-- what is left of a program after some calls, at least one -/
def Below (q : Prog S α) : Prog S α → Prop
  | .ret _ => False
  | .call _ k => ∃ s, q = k s ∨ Below q (k s)

theorem below_one (f : S → S) (k : S → Prog S α) (s : S) : Below (k s) (.call f k) := ⟨s, .inl rfl⟩

theorem Below.trans {p q r : Prog S α} (h : Below p q) (h' : Below q r) : Below p r := by
  induction r with
  | ret a => exact h'.elim
  | call f k ih =>
    obtain ⟨s, rfl | h'⟩ := h'
    · exact ⟨s, .inr h⟩
    · exact ⟨s, .inr (ih s h')⟩

theorem below_irrefl (p : Prog S α) : ¬ Below p p := by
  induction p with
  | ret a => exact id
  | call f k ih =>
    rintro ⟨s, h | h⟩
    · exact ih s ((congrArg (Below (k s)) h).mp (below_one f k s))
    · exact ih s ((below_one f k s).trans h)

end Verif
