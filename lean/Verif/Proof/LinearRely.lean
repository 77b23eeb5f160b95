import Verif.Proof.Linear

/-! # Interleaved calls as one sequence of operations, when calls may rely on what others do not do -/

set_option linter.unusedSectionVars false

namespace Verif

open Spec ConcreteId

section

variable {S α O T A : Type}

variable (inv : S → Prop) (abs : S → T) (st : T → O → T) (b : Bool) (rely : A → S → S → Prop) (par : A → A → Prop)

/-- While the invariant holds, and others change the state only as the label allows, the program does the operations `l` one
after the other, each in one of its calls; and it changes the state only as the labels of others allow. -/
def EmitsR (a : A) : Prog S α → S → List O → Prop
  | .ret _, _, l => b = true ∨ l = []
  | .call f k, x, l => ∀ s, rely a x s → inv s → inv (f s) → (∀ a', par a a' → rely a' s (f s)) ∧
    ∃ e l', l = e ++ l' ∧ abs (f s) = e.foldl st (abs s) ∧ EmitsR a (k s) (f s) l'

/-- a call, its label, and its operations -/
abbrev Labelled (S A α O : Type) := Prog S α × A × List O

/-- what a thread is doing, and what it will do then -/
def ThreadR (x : S) : List (Labelled S A α O) → Prop
  | [] => True
  | e :: q => EmitsR inv abs st b rely par e.2.1 e.1 x e.2.2 ∧ ∀ e ∈ q, ∀ y, EmitsR inv abs st b rely par e.2.1 e.1 y e.2.2

def ApartR (q q' : List (Labelled S A α O)) : Prop := ∀ e ∈ q, ∀ e' ∈ q', par e.2.1 e'.2.1 ∧ par e'.2.1 e.2.1

/-- The process has done the operations `h`. -/
def LinR (t0 : T) (ls : List (List O)) (x : S × List (List (Prog S α))) : Prop :=
  ∃ (h : List O) (ats : List (List (Labelled S A α O))), x.2 = ats.map (List.map Prod.fst) ∧
    (∀ q ∈ ats, ThreadR inv abs st b rely par x.1 q) ∧ ats.Pairwise (ApartR par) ∧
    Partly b ls h (ats.map (List.flatMap (fun e => e.2.2))) ∧ abs x.1 = h.foldl st t0

variable {inv abs st b rely par} {t0 : T} {ls : List (List O)}

theorem EmitsR.stable (tr : ∀ a x y z, rely a x y → rely a y z → rely a x z) {a : A} {p : Prog S α} {x y : S} {l : List O}
    (h : EmitsR inv abs st b rely par a p x l) (hxy : rely a x y) : EmitsR inv abs st b rely par a p y l := by
  cases p with
  | ret => exact h
  | call f k => exact fun s hs => h s (tr _ _ _ _ hxy hs)

theorem ThreadR.pop {x : S} {e : Labelled S A α O} {q : List (Labelled S A α O)}
    (h : ThreadR inv abs st b rely par x (e :: q)) : ThreadR inv abs st b rely par x q := by
  cases q with
  | nil => trivial
  | cons e' q => exact ⟨h.2 e' List.mem_cons_self x, fun e he => h.2 e (List.mem_cons_of_mem _ he)⟩

theorem ThreadR.other (tr : ∀ a x y z, rely a x y → rely a y z → rely a x z) {x y : S} {q : List (Labelled S A α O)}
    (h : ThreadR inv abs st b rely par x q) (hy : ∀ e ∈ q, rely e.2.1 x y) : ThreadR inv abs st b rely par y q := by
  cases q with
  | nil => trivial
  | cons e q => exact ⟨h.1.stable tr (hy e List.mem_cons_self), h.2⟩

theorem linR_pop {s : S} {pre post : List (List (Prog S α))} {p : Prog S α} {q : List (Prog S α)}
    (h : LinR inv abs st b rely par t0 ls (s, pre ++ (p :: q) :: post)) (hb : b = true ∨ ∃ a, p = .ret a) :
    LinR inv abs st b rely par t0 ls (s, pre ++ q :: post) := by
  obtain ⟨h, ats, h1, h2, h3, h4, h5⟩ := h
  obtain ⟨l1, y, l2, rfl, rfl, hy, rfl⟩ := RG.map_split h1
  obtain ⟨⟨p', a, l⟩, q', rfl, he, rfl⟩ := List.map_eq_cons_iff.1 hy.symm
  dsimp only at he
  subst he
  refine ⟨h, l1 ++ q' :: l2, by simp, fun x hx => ?_, ?_, ?_, h5⟩
  · simp only [List.mem_append, List.mem_cons] at hx
    rcases hx with hx | rfl | hx
    · exact h2 x (by simp [hx])
    · exact (h2 ((p', a, l) :: x) (by simp)).pop
    · exact h2 x (by simp [hx])
  · rw [List.pairwise_append, List.pairwise_cons] at h3 ⊢
    obtain ⟨a1, ⟨a2, a3⟩, a4⟩ := h3
    refine ⟨a1, ⟨fun y hy => fun x hx z hz => a2 y hy x (List.mem_cons_of_mem _ hx) z hz, a3⟩, fun x hx y hy => ?_⟩
    rcases List.mem_cons.1 hy with rfl | hy
    · exact fun z hz w hw => a4 x hx ((p', a, l) :: y) (by simp) z hz w (List.mem_cons_of_mem _ hw)
    · exact a4 x hx y (List.mem_cons_of_mem _ hy)
  · simp only [List.map_append, List.map_cons, List.flatMap_cons] at h4 ⊢
    have hl : b = true ∨ l = [] := by
      rcases hb with hb | ⟨r, rfl⟩
      · exact .inl hb
      · exact (h2 ((.ret r, a, l) :: q') (by simp)).1
    rcases hl with rfl | rfl
    · exact h4.drops
    · exact h4

theorem linR_call (tr : ∀ a x y z, rely a x y → rely a y z → rely a x z) (rf : ∀ a x, rely a x x)
    {s : S} {pre post : List (List (Prog S α))} {f : S → S} {k : S → Prog S α} {q : List (Prog S α)}
    (h : LinR inv abs st b rely par t0 ls (s, pre ++ (.call f k :: q) :: post)) (hs : inv s) (hs' : inv (f s)) :
    LinR inv abs st b rely par t0 ls (f s, pre ++ (k s :: q) :: post) := by
  obtain ⟨h, ats, h1, h2, h3, h4, h5⟩ := h
  obtain ⟨l1, y, l2, rfl, rfl, hy, rfl⟩ := RG.map_split h1
  obtain ⟨⟨p', a, l⟩, q', rfl, he, rfl⟩ := List.map_eq_cons_iff.1 hy.symm
  dsimp only at he
  subst he
  obtain ⟨i1, i2⟩ := h2 ((.call f k, a, l) :: q') (by simp)
  obtain ⟨g, e, l', rfl, h6, h7⟩ := i1 s (rf _ _) hs hs'
  rw [List.pairwise_append, List.pairwise_cons] at h3
  obtain ⟨a1, ⟨a2, a3⟩, a4⟩ := h3
  refine ⟨h ++ e, l1 ++ ((k s, a, l') :: q') :: l2, by simp, fun x hx => ?_, ?_, ?_, ?_⟩
  · simp only [List.mem_append, List.mem_cons] at hx
    rcases hx with hx | rfl | hx
    · exact (h2 x (by simp [hx])).other tr (fun z hz => g _ (a4 x hx _ List.mem_cons_self z hz _ List.mem_cons_self).2)
    · exact ⟨h7, i2⟩
    · exact (h2 x (by simp [hx])).other tr (fun z hz => g _ (a2 x hx _ List.mem_cons_self z hz).1)
  · rw [List.pairwise_append, List.pairwise_cons]
    have key : ∀ z ∈ (k s, a, l') :: q', ∃ w ∈ (Prog.call f k, a, e ++ l') :: q', w.2.1 = z.2.1 := by
      intro z hz
      rcases List.mem_cons.1 hz with rfl | hz
      · exact ⟨_, List.mem_cons_self, rfl⟩
      · exact ⟨z, List.mem_cons_of_mem _ hz, rfl⟩
    refine ⟨a1, ⟨fun y hy z hz w hw => ?_, a3⟩, fun x hx y hy => ?_⟩
    · obtain ⟨z', hz', e1⟩ := key z hz
      rw [← e1]
      exact a2 y hy z' hz' w hw
    · rcases List.mem_cons.1 hy with rfl | hy
      · intro z hz w hw
        obtain ⟨w', hw', e1⟩ := key w hw
        rw [← e1]
        exact a4 x hx _ List.mem_cons_self z hz w' hw'
      · exact a4 x hx y (List.mem_cons_of_mem _ hy)
  · simp only [List.map_append, List.map_cons, List.flatMap_cons, List.append_assoc] at h4 ⊢
    exact h4.takes
  · rw [h6, List.foldl_append]
    exact congrArg (fun t => e.foldl st t) h5

theorem linR_calm (tr : ∀ a x y z, rely a x y → rely a y z → rely a x z) (rf : ∀ a x, rely a x x)
    {x y : S × List (List (Prog S α))} (hi : ∀ y, Steps x y → inv y.1)
    (h : LinR inv abs st b rely par t0 ls x) (hs : CalmSteps x y) : LinR inv abs st b rely par t0 ls y := by
  induction hs with
  | refl => exact h
  | tail h1 h2 ih =>
    cases h2 with
    | call s pre post f k q => exact linR_call tr rf ih (hi _ h1.steps) (hi _ (h1.steps.tail (.call s pre post f k q)))
    | ret s pre post a q => exact linR_pop ih (.inr ⟨a, rfl⟩)

theorem linR_steps (tr : ∀ a x y z, rely a x y → rely a y z → rely a x z) (rf : ∀ a x, rely a x x)
    {x y : S × List (List (Prog S α))} (hi : ∀ y, Steps x y → inv y.1)
    (h : LinR inv abs st true rely par t0 ls x) (hs : Steps x y) : LinR inv abs st true rely par t0 ls y := by
  induction hs with
  | refl => exact h
  | tail h1 h2 ih =>
    cases h2 with
    | call s pre post f k q => exact linR_call tr rf ih (hi _ h1) (hi _ (h1.tail (.call s pre post f k q)))
    | ret s pre post a q => exact linR_pop ih (.inr ⟨a, rfl⟩)
    | fail s pre post p q => exact linR_pop ih (.inl rfl)

theorem LinR.part {x : S × List (List (Prog S α))} (h : LinR inv abs st true rely par t0 ls x) :
    ∃ l, Shuffle true ls l ∧ abs x.1 = l.foldl st t0 := by
  obtain ⟨l, ats, -, -, -, h3, h4⟩ := h
  exact ⟨l, by simpa using h3.shuffle (shuffle_none _), h4⟩

theorem LinR.full {x : S × List (List (Prog S α))} (h : LinR inv abs st b rely par t0 ls x) (he : ∀ q ∈ x.2, q = []) :
    ∃ l, Shuffle b ls l ∧ abs x.1 = l.foldl st t0 := by
  obtain ⟨l, ats, h1, -, -, h3, h4⟩ := h
  refine ⟨l, ?_, h4⟩
  have := h3.shuffle (h' := []) (.nil _ ?_)
  · simpa using this
  · intro r hr
    obtain ⟨q, hq, rfl⟩ := List.mem_map.1 hr
    have := he (q.map Prod.fst) (by rw [h1]; exact List.mem_map_of_mem hq)
    rw [List.map_eq_nil_iff.1 this]
    rfl

end

end Verif
