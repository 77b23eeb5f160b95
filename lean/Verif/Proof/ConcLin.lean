import Verif.Proof.Conc
import Verif.Proof.Linear

/-! # Rely-guarantee reasoning about what interleaved programs do

As `Proof/Conc.lean`, for programs that moreover do certain operations, one after the other, on what the ghost state says. -/

namespace Verif

open Spec

namespace RG

variable {S G A α O T : Type} (R : RG S G A) (abs : G → T) (st : T → O → T) (b : Bool)

/-- The program makes only calls it may make, whatever others do in the meantime, and so does the operations `l`, each in one
of its calls; if `b`, it may leave some out. -/
def Does : Prog S α → A → S × G → List O → Prop
  | .ret _, _, _, l => b = true ∨ l = []
  | .call f k, a, x, l => ∀ s g, R.rely a x (s, g) → R.inv s g → R.ok a g →
    ∃ a' g' e l', R.Allowed a s g (f s) a' g' ∧ l = e ++ l' ∧ abs g' = e.foldl st (abs g) ∧ Does (k s) a' (f s, g') l'

variable {abs st b}

theorem Does.stable {p : Prog S α} {a : A} {x y : S × G} {l : List O} (h : R.Does abs st b p a x l) (hxy : R.rely a x y) :
    R.Does abs st b p a y l := by
  cases p with
  | ret => exact h
  | call f k => exact fun s g h' => h s g (R.rely_trans _ _ _ _ hxy h')

variable (abs st b)

/-- a call, its label, and its operations -/
abbrev Job (S A α O : Type) := Prog S α × A × List O

/-- A thread: what it is doing, and what it will do then. -/
def ThreadDoes (x : S × G) : List (Job S A α O) → Prop
  | [] => True
  | e :: q => R.Does abs st b e.1 e.2.1 x e.2.2 ∧ (∀ e ∈ q, ∀ y, R.Does abs st b e.1 e.2.1 y e.2.2) ∧
    (e :: q).Pairwise (fun e e' => R.seq e.2.1 e'.2.1) ∧ ∀ e' ∈ e :: q, R.ok e'.2.1 x.2

def JobsApart (q q' : List (Job S A α O)) : Prop := ∀ e ∈ q, ∀ e' ∈ q', R.par e.2.1 e'.2.1 ∧ R.par e'.2.1 e.2.1

/-- A process that has done the operations `h`. -/
def Runs (t0 : T) (ls : List (List O)) (x : S × List (List (Prog S α))) : Prop :=
  ∃ (g : G) (h : List O) (ats : List (List (Job S A α O))), x.2 = ats.map (List.map Prod.fst) ∧ R.inv x.1 g ∧
    (∀ q ∈ ats, R.ThreadDoes abs st b (x.1, g) q) ∧ ats.Pairwise R.JobsApart ∧
    Partly b ls h (ats.map (List.flatMap (fun e => e.2.2))) ∧ abs g = h.foldl st t0

variable {abs st b} {t0 : T} {ls : List (List O)}

theorem ThreadDoes.pop {x : S × G} {e : Job S A α O} {q : List (Job S A α O)} (h : R.ThreadDoes abs st b x (e :: q)) :
    R.ThreadDoes abs st b x q := by
  cases q with
  | nil => trivial
  | cons e' q =>
    obtain ⟨-, h2, h3, h4⟩ := h
    exact ⟨h2 e' (by simp) x, fun e he => h2 e (by simp [he]), (List.pairwise_cons.1 h3).2,
      fun e he => h4 e (List.mem_cons_of_mem _ he)⟩

theorem ThreadDoes.other {s s' : S} {g g' : G} {a a' : A} {q : List (Job S A α O)} (h : R.ThreadDoes abs st b (s, g) q)
    (ha : R.Allowed a s g s' a' g') (hp : ∀ e ∈ q, R.par a e.2.1) : R.ThreadDoes abs st b (s', g') q := by
  cases q with
  | nil => trivial
  | cons e q =>
    obtain ⟨h1, h2, h3, h4⟩ := h
    obtain ⟨-, -, -, h5, -⟩ := ha
    exact ⟨h1.stable R (h5 _ (hp e (by simp)) (h4 e (by simp))).1, h2, h3, fun e he => (h5 _ (hp e he) (h4 e he)).2⟩

theorem ThreadDoes.self {s : S} {g : G} {f : S → S} {k : S → Prog S α} {a : A} {l : List O} {q : List (Job S A α O)}
    (hi : R.inv s g) (h : R.ThreadDoes abs st b (s, g) ((.call f k, a, l) :: q)) :
    ∃ a' g' e l', R.Allowed a s g (f s) a' g' ∧ l = e ++ l' ∧ abs g' = e.foldl st (abs g) ∧
      R.ThreadDoes abs st b (f s, g') ((k s, a', l') :: q) := by
  obtain ⟨h1, h2, h3, h4⟩ := h
  obtain ⟨a', g', e, l', ha, hl, he, hs⟩ := h1 s g (R.rely_refl _ _) hi (h4 (_, a, l) List.mem_cons_self)
  refine ⟨a', g', e, l', ha, hl, he, hs, h2, ?_, ?_⟩
  · rw [List.pairwise_cons] at h3 ⊢
    exact ⟨fun e he => R.seq_le _ _ _ ha.1 (h3.1 e he), h3.2⟩
  · intro e he
    rcases List.mem_cons.1 he with rfl | he
    · exact ha.2.2.1
    · exact ha.2.2.2.2 _ ((List.pairwise_cons.1 h3).1 e he) (h4 e (List.mem_cons_of_mem _ he))

theorem runs_pop {s : S} {pre post : List (List (Prog S α))} {p : Prog S α} {q : List (Prog S α)}
    (h : R.Runs abs st b t0 ls (s, pre ++ (p :: q) :: post)) (hb : b = true ∨ ∃ a, p = .ret a) :
    R.Runs abs st b t0 ls (s, pre ++ q :: post) := by
  obtain ⟨g, h, ats, h1, h2, h3, h4, h5, h6⟩ := h
  obtain ⟨l1, y, l2, rfl, rfl, hy, rfl⟩ := RG.map_split h1
  obtain ⟨⟨p', a, l⟩, q', rfl, he, rfl⟩ := List.map_eq_cons_iff.1 hy.symm
  dsimp only at he
  subst he
  refine ⟨g, h, l1 ++ q' :: l2, by simp, h2, fun x hx => ?_, ?_, ?_, h6⟩
  · simp only [List.mem_append, List.mem_cons] at hx
    rcases hx with hx | rfl | hx
    · exact h3 x (by simp [hx])
    · exact (h3 ((p', a, l) :: x) (by simp)).pop
    · exact h3 x (by simp [hx])
  · rw [List.pairwise_append, List.pairwise_cons] at h4 ⊢
    obtain ⟨a1, ⟨a2, a3⟩, a4⟩ := h4
    refine ⟨a1, ⟨fun y hy => fun x hx z hz => a2 y hy x (List.mem_cons_of_mem _ hx) z hz, a3⟩, fun x hx y hy => ?_⟩
    rcases List.mem_cons.1 hy with rfl | hy
    · exact fun z hz w hw => a4 x hx ((p', a, l) :: y) (by simp) z hz w (List.mem_cons_of_mem _ hw)
    · exact a4 x hx y (List.mem_cons_of_mem _ hy)
  · simp only [List.map_append, List.map_cons, List.flatMap_cons] at h5 ⊢
    have hl : b = true ∨ l = [] := by
      rcases hb with hb | ⟨r, rfl⟩
      · exact .inl hb
      · exact (h3 ((.ret r, a, l) :: q') (by simp)).1
    rcases hl with rfl | rfl
    · exact h5.drops
    · exact h5

theorem runs_call {s : S} {pre post : List (List (Prog S α))} {f : S → S} {k : S → Prog S α} {q : List (Prog S α)}
    (h : R.Runs abs st b t0 ls (s, pre ++ (.call f k :: q) :: post)) :
    R.Runs abs st b t0 ls (f s, pre ++ (k s :: q) :: post) := by
  obtain ⟨g, h, ats, h1, h2, h3, h4, h5, h6⟩ := h
  obtain ⟨l1, y, l2, rfl, rfl, hy, rfl⟩ := RG.map_split h1
  obtain ⟨⟨p', a, l⟩, q', rfl, he, rfl⟩ := List.map_eq_cons_iff.1 hy.symm
  dsimp only at he h2 h3
  subst he
  obtain ⟨a', g', e, l', ha, rfl, hab, ht⟩ := (h3 _ (List.mem_append_right _ List.mem_cons_self)).self R h2
  rw [List.pairwise_append, List.pairwise_cons] at h4
  obtain ⟨a1, ⟨a2, a3⟩, a4⟩ := h4
  refine ⟨g', h ++ e, l1 ++ ((k s, a', l') :: q') :: l2, by simp, ha.2.1, fun x hx => ?_, ?_, ?_, ?_⟩
  · simp only [List.mem_append, List.mem_cons] at hx
    rcases hx with hx | rfl | hx
    · exact (h3 x (by simp [hx])).other R ha
        (fun e he => (a4 x hx _ List.mem_cons_self e he (Prog.call f k, a, _) List.mem_cons_self).2)
    · exact ht
    · exact (h3 x (by simp [hx])).other R ha (fun e he => (a2 x hx (Prog.call f k, a, _) List.mem_cons_self e he).1)
  · have key : ∀ x : List (Job S A α O),
        (∀ e1 ∈ x, ∀ e' ∈ (Prog.call f k, a, e ++ l') :: q', R.par e1.2.1 e'.2.1 ∧ R.par e'.2.1 e1.2.1) →
        ∀ e1 ∈ x, ∀ e' ∈ (k s, a', l') :: q', R.par e1.2.1 e'.2.1 ∧ R.par e'.2.1 e1.2.1 := by
      intro x hx e1 he e' he'
      rcases List.mem_cons.1 he' with rfl | he'
      · obtain ⟨p1, p2⟩ := hx e1 he (Prog.call f k, a, _) List.mem_cons_self
        exact ⟨(R.par_le _ _ _ ha.1).2 p1, (R.par_le _ _ _ ha.1).1 p2⟩
      · exact hx e1 he e' (List.mem_cons_of_mem _ he')
    rw [List.pairwise_append, List.pairwise_cons]
    refine ⟨a1, ⟨fun y hy => ?_, a3⟩, fun x hx y hy => ?_⟩
    · intro e he e' he'
      exact (key y (fun e he e' he' => (a2 y hy e' he' e he).symm) e' he' e he).symm
    · rcases List.mem_cons.1 hy with rfl | hy
      · exact key x (fun e he e' he' => a4 x hx _ List.mem_cons_self e he e' he')
      · exact a4 x hx y (List.mem_cons_of_mem _ hy)
  · simp only [List.map_append, List.map_cons, List.flatMap_cons, List.append_assoc] at h5 ⊢
    exact h5.takes
  · rw [hab, List.foldl_append, h6]

theorem runs_calm {x y : S × List (List (Prog S α))} (h : R.Runs abs st b t0 ls x) (hs : CalmSteps x y) :
    R.Runs abs st b t0 ls y := by
  induction hs with
  | refl => exact h
  | tail _ h2 ih =>
    cases h2 with
    | call s pre post f k q => exact R.runs_call ih
    | ret s pre post a q => exact R.runs_pop ih (.inr ⟨a, rfl⟩)

theorem runs_steps {x y : S × List (List (Prog S α))} (h : R.Runs abs st true t0 ls x) (hs : Steps x y) :
    R.Runs abs st true t0 ls y := by
  induction hs with
  | refl => exact h
  | tail _ h2 ih =>
    cases h2 with
    | call s pre post f k q => exact R.runs_call ih
    | ret s pre post a q => exact R.runs_pop ih (.inl rfl)
    | fail s pre post p q => exact R.runs_pop ih (.inl rfl)

theorem Runs.part {x : S × List (List (Prog S α))} (h : R.Runs abs st true t0 ls x) :
    ∃ g l, R.inv x.1 g ∧ Shuffle true ls l ∧ abs g = l.foldl st t0 := by
  obtain ⟨g, l, ats, -, h2, -, -, h3, h4⟩ := h
  exact ⟨g, l, h2, by simpa using h3.shuffle (shuffle_none _), h4⟩

theorem Runs.full {x : S × List (List (Prog S α))} (h : R.Runs abs st b t0 ls x) (he : ∀ q ∈ x.2, q = []) :
    ∃ g l, R.inv x.1 g ∧ Shuffle b ls l ∧ abs g = l.foldl st t0 := by
  obtain ⟨g, l, ats, h1, h2, -, -, h3, h4⟩ := h
  refine ⟨g, l, h2, ?_, h4⟩
  have := h3.shuffle (h' := []) (.nil _ ?_)
  · simpa using this
  · intro r hr
    obtain ⟨q, hq, rfl⟩ := List.mem_map.1 hr
    have := he (q.map Prod.fst) (by rw [h1]; exact List.mem_map_of_mem hq)
    rw [List.map_eq_nil_iff.1 this]
    rfl

end RG

end Verif
