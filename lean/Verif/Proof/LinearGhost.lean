import Verif.Spec.SledLoose
import Verif.Proof.LinearRely

/-! # Interleaved calls as one sequence of operations, with a ghost state, and operations with several outcomes -/

set_option linter.unusedSectionVars false

namespace Verif

open Spec ConcreteId

theorem runs_append {T O : Type} {st : T → O → T → Prop} {t t' t'' : T} {h e : List O} (h1 : Runs st t h t')
    (h2 : Runs st t' e t'') : Runs st t (h ++ e) t'' := by
  induction h generalizing t with
  | nil => cases h1; exact h2
  | cons o h ih =>
    obtain ⟨u, h3, h4⟩ := h1
    exact ⟨u, h3, ih h4⟩

theorem runs_one {T O : Type} {st : T → O → T → Prop} {t t' : T} {o : O} (h : st t o t') : Runs st t [o] t' := ⟨t', h, rfl⟩

namespace RG

variable {S G A α O T : Type} (R : RG S G A) (abs : S → T) (st : T → O → T → Prop) (J : S → Prop) (b : Bool)

/-- While `J` holds the program makes only calls it may make, and does the operations `l` one after the other, each in one of its
calls. -/
def SafeE : Prog S α → A → S × G → List O → Prop
  | .ret _, _, _, l => b = true ∨ l = []
  | .call f k, a, x, l => ∀ s g, R.rely a x (s, g) → R.inv s g → R.ok a g → J s →
    ∃ a' g', R.Allowed a s g (f s) a' g' ∧
      ∃ e l', l = e ++ l' ∧ Runs st (abs s) e (abs (f s)) ∧ SafeE (k s) a' (f s, g') l'

def ThreadE (x : S × G) : List (Labelled S A α O) → Prop
  | [] => True
  | e :: q => R.SafeE abs st J b e.1 e.2.1 x e.2.2 ∧ (∀ e ∈ q, ∀ y, R.SafeE abs st J b e.1 e.2.1 y e.2.2) ∧
    (e :: q).Pairwise (fun e e' => R.seq e.2.1 e'.2.1) ∧ ∀ e' ∈ e :: q, R.ok e'.2.1 x.2

/-- The process has done the operations `h`. -/
def LinE (t0 : T) (ls : List (List O)) (x : S × List (List (Prog S α))) : Prop :=
  ∃ (h : List O) (g : G) (ats : List (List (Labelled S A α O))), x.2 = ats.map (List.map Prod.fst) ∧ R.inv x.1 g ∧
    (∀ q ∈ ats, R.ThreadE abs st J b (x.1, g) q) ∧ ats.Pairwise (ApartR R.par) ∧
    Partly b ls h (ats.map (List.flatMap (fun e => e.2.2))) ∧ Runs st t0 h (abs x.1)

variable {R abs st J b} {t0 : T} {ls : List (List O)}

theorem SafeE.stable {p : Prog S α} {a : A} {x y : S × G} {l : List O} (h : R.SafeE abs st J b p a x l) (hxy : R.rely a x y) :
    R.SafeE abs st J b p a y l := by
  cases p with
  | ret => exact h
  | call f k => exact fun s g h' => h s g (R.rely_trans _ _ _ _ hxy h')

theorem ThreadE.pop {x : S × G} {e : Labelled S A α O} {q : List (Labelled S A α O)} (h : R.ThreadE abs st J b x (e :: q)) :
    R.ThreadE abs st J b x q := by
  cases q with
  | nil => trivial
  | cons e' q =>
    obtain ⟨-, h2, h3, h4⟩ := h
    exact ⟨h2 e' (by simp) x, fun e he => h2 e (by simp [he]), (List.pairwise_cons.1 h3).2,
      fun e he => h4 e (List.mem_cons_of_mem _ he)⟩

theorem ThreadE.other {s s' : S} {g g' : G} {a a' : A} {q : List (Labelled S A α O)} (h : R.ThreadE abs st J b (s, g) q)
    (ha : R.Allowed a s g s' a' g') (hp : ∀ e ∈ q, R.par a e.2.1) : R.ThreadE abs st J b (s', g') q := by
  cases q with
  | nil => trivial
  | cons e q =>
    obtain ⟨h1, h2, h3, h4⟩ := h
    obtain ⟨-, -, -, h5, -⟩ := ha
    exact ⟨h1.stable (h5 _ (hp e (by simp)) (h4 e (by simp))).1, h2, h3, fun e he => (h5 _ (hp e he) (h4 e he)).2⟩

theorem linE_pop {s : S} {pre post : List (List (Prog S α))} {p : Prog S α} {q : List (Prog S α)}
    (h : R.LinE abs st J b t0 ls (s, pre ++ (p :: q) :: post)) (hb : b = true ∨ ∃ a, p = .ret a) :
    R.LinE abs st J b t0 ls (s, pre ++ q :: post) := by
  obtain ⟨h, g, ats, h1, hi, h2, h3, h4, h5⟩ := h
  obtain ⟨l1, y, l2, rfl, rfl, hy, rfl⟩ := map_split h1
  obtain ⟨⟨p', a, l⟩, q', rfl, he, rfl⟩ := List.map_eq_cons_iff.1 hy.symm
  dsimp only at he
  subst he
  refine ⟨h, g, l1 ++ q' :: l2, by simp, hi, fun x hx => ?_, ?_, ?_, h5⟩
  · simp only [List.mem_append, List.mem_cons] at hx
    rcases hx with hx | rfl | hx
    · exact h2 x (by simp [hx])
    · exact (h2 ((p', a, l) :: x) (by simp)).pop
    · exact h2 x (by simp [hx])
  · rw [List.pairwise_append, List.pairwise_cons] at h3 ⊢
    obtain ⟨a1, ⟨a2, a3⟩, a4⟩ := h3
    refine ⟨a1, ⟨fun y hy => fun x hx z hz => a2 y hy x (List.mem_cons_of_mem _ hx) z hz, a3⟩, fun x hx y hy => ?_⟩
    rcases List.mem_cons.1 hy with rfl | hy
    · exact fun z hz w hw => a4 x hx ((p', a, l) :: y) (by simp) z hz w (List.mem_cons_of_mem _ hw)
    · exact a4 x hx y (List.mem_cons_of_mem _ hy)
  · simp only [List.map_append, List.map_cons, List.flatMap_cons] at h4 ⊢
    have hl : b = true ∨ l = [] := by
      rcases hb with hb | ⟨r, rfl⟩
      · exact .inl hb
      · exact (h2 ((.ret r, a, l) :: q') (by simp)).1
    rcases hl with rfl | rfl
    · exact h4.drops
    · exact h4

theorem linE_call {s : S} {pre post : List (List (Prog S α))} {f : S → S} {k : S → Prog S α} {q : List (Prog S α)}
    (h : R.LinE abs st J b t0 ls (s, pre ++ (.call f k :: q) :: post)) (hJ : J s) :
    R.LinE abs st J b t0 ls (f s, pre ++ (k s :: q) :: post) := by
  obtain ⟨h, g, ats, h1, hi, h2, h3, h4, h5⟩ := h
  obtain ⟨l1, y, l2, rfl, rfl, hy, rfl⟩ := map_split h1
  obtain ⟨⟨p', a, l⟩, q', rfl, he, rfl⟩ := List.map_eq_cons_iff.1 hy.symm
  dsimp only at he
  subst he
  obtain ⟨i1, i2, i3, i4⟩ := h2 ((.call f k, a, l) :: q') (by simp)
  obtain ⟨a', g', ha, e, l', rfl, h6, h7⟩ := i1 s g (R.rely_refl _ _) hi (i4 _ List.mem_cons_self) hJ
  rw [List.pairwise_append, List.pairwise_cons] at h3
  obtain ⟨a1, ⟨a2, a3⟩, a4⟩ := h3
  refine ⟨h ++ e, g', l1 ++ ((k s, a', l') :: q') :: l2, by simp, ha.2.1, fun x hx => ?_, ?_, ?_, ?_⟩
  · simp only [List.mem_append, List.mem_cons] at hx
    rcases hx with hx | rfl | hx
    · exact (h2 x (by simp [hx])).other ha (fun z hz => (a4 x hx _ List.mem_cons_self z hz _ List.mem_cons_self).2)
    · refine ⟨h7, i2, ?_, fun z hz => ?_⟩
      · rw [List.pairwise_cons] at i3 ⊢
        exact ⟨fun z hz => R.seq_le _ _ _ ha.1 (i3.1 z hz), i3.2⟩
      · rcases List.mem_cons.1 hz with rfl | hz
        · exact ha.2.2.1
        · exact ha.2.2.2.2 _ ((List.pairwise_cons.1 i3).1 z hz) (i4 z (List.mem_cons_of_mem _ hz))
    · exact (h2 x (by simp [hx])).other ha (fun z hz => (a2 x hx _ List.mem_cons_self z hz).1)
  · have key : ∀ x : List (Labelled S A α O),
        (∀ z ∈ x, ∀ z' ∈ (Prog.call f k, a, e ++ l') :: q', R.par z.2.1 z'.2.1 ∧ R.par z'.2.1 z.2.1) →
        ∀ z ∈ x, ∀ z' ∈ (k s, a', l') :: q', R.par z.2.1 z'.2.1 ∧ R.par z'.2.1 z.2.1 := by
      intro x hx z hz z' hz'
      rcases List.mem_cons.1 hz' with rfl | hz'
      · obtain ⟨p1, p2⟩ := hx z hz (Prog.call f k, a, e ++ l') (by simp)
        exact ⟨(R.par_le _ _ _ ha.1).2 p1, (R.par_le _ _ _ ha.1).1 p2⟩
      · exact hx z hz z' (List.mem_cons_of_mem _ hz')
    rw [List.pairwise_append, List.pairwise_cons]
    refine ⟨a1, ⟨fun y hy => ?_, a3⟩, fun x hx y hy => ?_⟩
    · intro z hz z' hz'
      exact (key y (fun e he e' he' => (a2 y hy e' he' e he).symm) z' hz' z hz).symm
    · rcases List.mem_cons.1 hy with rfl | hy
      · exact key x (fun e he e' he' => a4 x hx _ List.mem_cons_self e he e' he')
      · exact a4 x hx y (List.mem_cons_of_mem _ hy)
  · simp only [List.map_append, List.map_cons, List.flatMap_cons, List.append_assoc] at h4 ⊢
    exact h4.takes
  · exact runs_append h5 h6

theorem linE_calm {x y : S × List (List (Prog S α))} (hJ : ∀ y, Steps x y → J y.1)
    (h : R.LinE abs st J b t0 ls x) (hs : CalmSteps x y) :
    R.LinE abs st J b t0 ls y := by
  induction hs with
  | refl => exact h
  | tail h1 h2 ih =>
    cases h2 with
    | call s pre post f k q => exact linE_call ih (hJ _ h1.steps)
    | ret s pre post a q => exact linE_pop ih (.inr ⟨a, rfl⟩)

theorem linE_steps {x y : S × List (List (Prog S α))} (hJ : ∀ y, Steps x y → J y.1)
    (h : R.LinE abs st J true t0 ls x) (hs : Steps x y) :
    R.LinE abs st J true t0 ls y := by
  induction hs with
  | refl => exact h
  | tail h1 h2 ih =>
    cases h2 with
    | call s pre post f k q => exact linE_call ih (hJ _ h1)
    | ret s pre post a q => exact linE_pop ih (.inr ⟨a, rfl⟩)
    | fail s pre post p q => exact linE_pop ih (.inl rfl)

theorem LinE.part {x : S × List (List (Prog S α))} (h : R.LinE abs st J true t0 ls x) :
    (∃ g, R.inv x.1 g) ∧ ∃ l, Shuffle true ls l ∧ Runs st t0 l (abs x.1) := by
  obtain ⟨l, g, ats, -, hi, -, -, h3, h4⟩ := h
  exact ⟨⟨g, hi⟩, l, by simpa using h3.shuffle (shuffle_none _), h4⟩

theorem LinE.full {x : S × List (List (Prog S α))} (h : R.LinE abs st J b t0 ls x) (he : ∀ q ∈ x.2, q = []) :
    (∃ g, R.inv x.1 g) ∧ ∃ l, Shuffle b ls l ∧ Runs st t0 l (abs x.1) := by
  obtain ⟨l, g, ats, h1, hi, -, -, h3, h4⟩ := h
  refine ⟨⟨g, hi⟩, l, ?_, h4⟩
  have := h3.shuffle (h' := []) (.nil _ ?_)
  · simpa using this
  · intro r hr
    obtain ⟨q, hq, rfl⟩ := List.mem_map.1 hr
    have := he (q.map Prod.fst) (by rw [h1]; exact List.mem_map_of_mem hq)
    rw [List.map_eq_nil_iff.1 this]
    rfl

end RG

end Verif
