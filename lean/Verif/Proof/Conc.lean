import Verif.Model.Prog

/-! # Rely-guarantee reasoning about interleaved programs -/

namespace Verif

/-- How threads with labels (`A`) may interfere, given a ghost state (`G`). -/
structure RG (S G A : Type) where
  /-- holds at every moment -/
  inv : S → G → Prop
  /-- what the owner of a label may rely on -/
  rely : A → S × G → S × G → Prop
  /-- the label is not in conflict with the ghost state -/
  ok : A → G → Prop
  /-- the labels may be used in different threads -/
  par : A → A → Prop
  /-- the labels may be used one after the other in a thread -/
  seq : A → A → Prop
  /-- a label may be reduced to a smaller one -/
  le : A → A → Prop
  rely_refl : ∀ a x, rely a x x
  rely_trans : ∀ a x y z, rely a x y → rely a y z → rely a x z
  le_trans : ∀ a b d, le a b → le b d → le a d
  par_le : ∀ a a' b, le a' a → (par a b → par a' b) ∧ (par b a → par b a')
  seq_le : ∀ a a' b, le a' a → (seq a b → seq a' b)

namespace RG

variable {S G A α : Type} (R : RG S G A)

/-- A call may be made: it keeps the invariant, and disturbs nobody. -/
def Allowed (a : A) (s : S) (g : G) (s' : S) (a' : A) (g' : G) : Prop :=
  R.le a' a ∧ R.inv s' g' ∧ R.ok a' g' ∧
    (∀ b, R.par a b → R.ok b g → R.rely b (s, g) (s', g') ∧ R.ok b g') ∧
    ∀ b, R.seq a b → R.ok b g → R.ok b g'

/-- The program makes only calls it may make, whatever others do in the meantime. -/
def Safe : Prog S α → A → S × G → Prop
  | .ret _, _, _ => True
  | .call f k, a, x => ∀ s g, R.rely a x (s, g) → R.inv s g → R.ok a g →
    ∃ a' g', R.Allowed a s g (f s) a' g' ∧ Safe (k s) a' (f s, g')

theorem Safe.stable {p : Prog S α} {a : A} {x y : S × G} (h : R.Safe p a x) (hxy : R.rely a x y) : R.Safe p a y := by
  cases p with
  | ret => trivial
  | call f k => exact fun s g h' => h s g (R.rely_trans _ _ _ _ hxy h')

/-- A thread: what it is doing, and what it will do then. -/
def ThreadOk (x : S × G) : List (Prog S α × A) → Prop
  | [] => True
  | (p, a) :: q => R.Safe p a x ∧ (∀ e ∈ q, ∀ y, R.Safe e.1 e.2 y) ∧
    ((p, a) :: q).Pairwise (fun e e' => R.seq e.2 e'.2) ∧ ∀ e ∈ (p, a) :: q, R.ok e.2 x.2

def Apart (q q' : List (Prog S α × A)) : Prop := ∀ e ∈ q, ∀ e' ∈ q', R.par e.2 e'.2 ∧ R.par e'.2 e.2

/-- A process. -/
def Good (s : S) (ts : List (List (Prog S α))) : Prop :=
  ∃ (g : G) (ats : List (List (Prog S α × A))), ts = ats.map (List.map Prod.fst) ∧ R.inv s g ∧
    (∀ q ∈ ats, R.ThreadOk (s, g) q) ∧ ats.Pairwise R.Apart

theorem ThreadOk.pop {x : S × G} {e : Prog S α × A} {q : List (Prog S α × A)} (h : R.ThreadOk x (e :: q)) :
    R.ThreadOk x q := by
  cases q with
  | nil => trivial
  | cons e' q =>
    obtain ⟨-, h2, h3, h4⟩ := h
    exact ⟨h2 e' (by simp) x, fun e he => h2 e (by simp [he]), (List.pairwise_cons.1 h3).2,
      fun e he => h4 e (List.mem_cons_of_mem _ he)⟩

/-- what another thread sees of a call -/
theorem ThreadOk.other {s s' : S} {g g' : G} {a a' : A} {q : List (Prog S α × A)} (h : R.ThreadOk (s, g) q)
    (ha : R.Allowed a s g s' a' g') (hp : ∀ e ∈ q, R.par a e.2) : R.ThreadOk (s', g') q := by
  cases q with
  | nil => trivial
  | cons e q =>
    obtain ⟨h1, h2, h3, h4⟩ := h
    obtain ⟨-, -, -, h5, -⟩ := ha
    exact ⟨h1.stable R (h5 _ (hp e (by simp)) (h4 e (by simp))).1, h2, h3, fun e he => (h5 _ (hp e he) (h4 e he)).2⟩

theorem ThreadOk.self {s : S} {g : G} {f : S → S} {k : S → Prog S α} {a : A} {q : List (Prog S α × A)}
    (hi : R.inv s g) (h : R.ThreadOk (s, g) ((.call f k, a) :: q)) :
    ∃ a' g', R.Allowed a s g (f s) a' g' ∧ R.ThreadOk (f s, g') ((k s, a') :: q) := by
  obtain ⟨h1, h2, h3, h4⟩ := h
  obtain ⟨a', g', ha, hs⟩ := h1 s g (R.rely_refl _ _) hi (h4 (_, a) List.mem_cons_self)
  refine ⟨a', g', ha, hs, h2, ?_, ?_⟩
  · rw [List.pairwise_cons] at h3 ⊢
    exact ⟨fun e he => R.seq_le _ _ _ ha.1 (h3.1 e he), h3.2⟩
  · intro e he
    rcases List.mem_cons.1 he with rfl | he
    · exact ha.2.2.1
    · exact ha.2.2.2.2 _ ((List.pairwise_cons.1 h3).1 e he) (h4 e (List.mem_cons_of_mem _ he))

theorem map_split {β γ : Type} {f : β → γ} {l : List β} {pre post : List γ} {c : γ} (h : pre ++ c :: post = l.map f) :
    ∃ l1 b l2, l = l1 ++ b :: l2 ∧ pre = l1.map f ∧ c = f b ∧ post = l2.map f := by
  obtain ⟨l1, l2, h1, h2, h3⟩ := List.map_eq_append_iff.1 h.symm
  obtain ⟨b, l2', h4, h5, h6⟩ := List.map_eq_cons_iff.1 h3
  exact ⟨l1, b, l2', by rw [h1, h4], h2.symm, h5.symm, h6.symm⟩

theorem good_pop {s : S} {pre post : List (List (Prog S α))} {p : Prog S α} {q : List (Prog S α)}
    (h : R.Good s (pre ++ (p :: q) :: post)) : R.Good s (pre ++ q :: post) := by
  obtain ⟨g, ats, h1, h2, h3, h4⟩ := h
  obtain ⟨l1, b, l2, rfl, rfl, hb, rfl⟩ := map_split h1
  obtain ⟨e, q', rfl, -, rfl⟩ := List.map_eq_cons_iff.1 hb.symm
  refine ⟨g, l1 ++ q' :: l2, by simp, h2, fun x hx => ?_, ?_⟩
  · simp only [List.mem_append, List.mem_cons] at hx
    rcases hx with hx | rfl | hx
    · exact h3 x (by simp [hx])
    · exact (h3 (e :: x) (by simp)).pop
    · exact h3 x (by simp [hx])
  · rw [List.pairwise_append, List.pairwise_cons] at h4 ⊢
    obtain ⟨a1, ⟨a2, a3⟩, a4⟩ := h4
    refine ⟨a1, ⟨fun y hy => fun x hx z hz => a2 y hy x (List.mem_cons_of_mem _ hx) z hz, a3⟩, fun x hx y hy => ?_⟩
    rcases List.mem_cons.1 hy with rfl | hy
    · exact fun z hz w hw => a4 x hx (e :: y) (by simp) z hz w (List.mem_cons_of_mem _ hw)
    · exact a4 x hx y (List.mem_cons_of_mem _ hy)

theorem good_step {x y : S × List (List (Prog S α))} (h : R.Good x.1 x.2) (hs : Step x y) : R.Good y.1 y.2 := by
  cases hs with
  | ret s pre post a q => exact R.good_pop h
  | fail s pre post p q => exact R.good_pop h
  | call s pre post f k q =>
    obtain ⟨g, ats, h1, h2, h3, h4⟩ := h
    obtain ⟨l1, b, l2, rfl, rfl, hb, rfl⟩ := map_split h1
    obtain ⟨⟨p, a⟩, q', rfl, he, rfl⟩ := List.map_eq_cons_iff.1 hb.symm
    dsimp only at he
    subst he
    obtain ⟨a', g', ha, ht⟩ := (h3 _ (List.mem_append_right _ List.mem_cons_self)).self R h2
    rw [List.pairwise_append, List.pairwise_cons] at h4
    obtain ⟨a1, ⟨a2, a3⟩, a4⟩ := h4
    refine ⟨g', l1 ++ ((k s, a') :: q') :: l2, by simp, ha.2.1, fun x hx => ?_, ?_⟩
    · simp only [List.mem_append, List.mem_cons] at hx
      rcases hx with hx | rfl | hx
      · exact (h3 x (by simp [hx])).other R ha (fun e he => (a4 x hx _ List.mem_cons_self e he (Prog.call f k, a) List.mem_cons_self).2)
      · exact ht
      · exact (h3 x (by simp [hx])).other R ha (fun e he => (a2 x hx (Prog.call f k, a) List.mem_cons_self e he).1)
    · have key : ∀ x : List (Prog S α × A), (∀ e ∈ x, ∀ e' ∈ (Prog.call f k, a) :: q', R.par e.2 e'.2 ∧ R.par e'.2 e.2) →
          ∀ e ∈ x, ∀ e' ∈ (k s, a') :: q', R.par e.2 e'.2 ∧ R.par e'.2 e.2 := by
        intro x hx e he e' he'
        rcases List.mem_cons.1 he' with rfl | he'
        · obtain ⟨p1, p2⟩ := hx e he (Prog.call f k, a) (by simp)
          exact ⟨(R.par_le _ _ _ ha.1).2 p1, (R.par_le _ _ _ ha.1).1 p2⟩
        · exact hx e he e' (List.mem_cons_of_mem _ he')
      rw [List.pairwise_append, List.pairwise_cons]
      refine ⟨a1, ⟨fun y hy => ?_, a3⟩, fun x hx y hy => ?_⟩
      · intro e he e' he'
        exact (key y (fun e he e' he' => (a2 y hy e' he' e he).symm) e' he' e he).symm
      · rcases List.mem_cons.1 hy with rfl | hy
        · exact key x (fun e he e' he' => a4 x hx _ List.mem_cons_self e he e' he')
        · exact a4 x hx y (List.mem_cons_of_mem _ hy)

theorem good_steps {x y : S × List (List (Prog S α))} (h : R.Good x.1 x.2) (hs : Steps x y) : R.Good y.1 y.2 := by
  induction hs with
  | refl => exact h
  | tail _ h2 ih => exact R.good_step ih h2

/-! ## an observer

Someone who makes no calls, with a label of his own, may rely on what the label promises from one moment to a later one. -/

/-- a process and an observer who has been there since `x0` -/
def Watched (b : A) (x0 : S × G) (s : S) (ts : List (List (Prog S α))) : Prop :=
  ∃ (g : G) (ats : List (List (Prog S α × A))), ts = ats.map (List.map Prod.fst) ∧ R.inv s g ∧
    (∀ q ∈ ats, R.ThreadOk (s, g) q) ∧ ats.Pairwise R.Apart ∧ (∀ q ∈ ats, ∀ e ∈ q, R.par e.2 b) ∧ R.ok b g ∧ R.rely b x0 (s, g)

theorem watched_pop {b : A} {x0 : S × G} {s : S} {pre post : List (List (Prog S α))} {p : Prog S α} {q : List (Prog S α)}
    (h : R.Watched b x0 s (pre ++ (p :: q) :: post)) : R.Watched b x0 s (pre ++ q :: post) := by
  obtain ⟨g, ats, h1, h2, h3, h4, h5, h6⟩ := h
  obtain ⟨l1, b, l2, rfl, rfl, hb, rfl⟩ := map_split h1
  obtain ⟨e, q', rfl, -, rfl⟩ := List.map_eq_cons_iff.1 hb.symm
  refine ⟨g, l1 ++ q' :: l2, by simp, h2, fun x hx => ?_, ?_, fun x hx => ?_, h6⟩
  · simp only [List.mem_append, List.mem_cons] at hx
    rcases hx with hx | rfl | hx
    · exact h3 x (by simp [hx])
    · exact (h3 (e :: x) (by simp)).pop
    · exact h3 x (by simp [hx])
  · rw [List.pairwise_append, List.pairwise_cons] at h4 ⊢
    obtain ⟨a1, ⟨a2, a3⟩, a4⟩ := h4
    refine ⟨a1, ⟨fun y hy => fun x hx z hz => a2 y hy x (List.mem_cons_of_mem _ hx) z hz, a3⟩, fun x hx y hy => ?_⟩
    rcases List.mem_cons.1 hy with rfl | hy
    · exact fun z hz w hw => a4 x hx (e :: y) (by simp) z hz w (List.mem_cons_of_mem _ hw)
    · exact a4 x hx y (List.mem_cons_of_mem _ hy)
  · simp only [List.mem_append, List.mem_cons] at hx
    rcases hx with hx | rfl | hx
    · exact h5 x (by simp [hx])
    · exact fun z hz => h5 (e :: x) (by simp) z (List.mem_cons_of_mem _ hz)
    · exact h5 x (by simp [hx])

theorem watched_step {b : A} {x0 : S × G} {x y : S × List (List (Prog S α))} (h : R.Watched b x0 x.1 x.2) (hs : Step x y) :
    R.Watched b x0 y.1 y.2 := by
  cases hs with
  | ret s pre post a q => exact R.watched_pop h
  | fail s pre post p q => exact R.watched_pop h
  | call s pre post f k q =>
    obtain ⟨g, ats, h1, h2, h3, h4, h5, h6, h7⟩ := h
    obtain ⟨l1, b, l2, rfl, rfl, hb, rfl⟩ := map_split h1
    obtain ⟨⟨p, a⟩, q', rfl, he, rfl⟩ := List.map_eq_cons_iff.1 hb.symm
    dsimp only at he
    subst he
    obtain ⟨a', g', ha, ht⟩ := (h3 _ (List.mem_append_right _ List.mem_cons_self)).self R h2
    obtain ⟨hr, hok⟩ := ha.2.2.2.1 _ (h5 _ (List.mem_append_right _ List.mem_cons_self) (Prog.call f k, a) List.mem_cons_self) h6
    rw [List.pairwise_append, List.pairwise_cons] at h4
    obtain ⟨a1, ⟨a2, a3⟩, a4⟩ := h4
    refine ⟨g', l1 ++ ((k s, a') :: q') :: l2, by simp, ha.2.1, fun x hx => ?_, ?_, fun x hx => ?_, hok,
      R.rely_trans _ _ _ _ h7 hr⟩
    · simp only [List.mem_append, List.mem_cons] at hx
      rcases hx with hx | rfl | hx
      · exact (h3 x (by simp [hx])).other R ha (fun e he => (a4 x hx _ List.mem_cons_self e he (Prog.call f k, a) List.mem_cons_self).2)
      · exact ht
      · exact (h3 x (by simp [hx])).other R ha (fun e he => (a2 x hx (Prog.call f k, a) List.mem_cons_self e he).1)
    · have key : ∀ x : List (Prog S α × A), (∀ e ∈ x, ∀ e' ∈ (Prog.call f k, a) :: q', R.par e.2 e'.2 ∧ R.par e'.2 e.2) →
          ∀ e ∈ x, ∀ e' ∈ (k s, a') :: q', R.par e.2 e'.2 ∧ R.par e'.2 e.2 := by
        intro x hx e he e' he'
        rcases List.mem_cons.1 he' with rfl | he'
        · obtain ⟨p1, p2⟩ := hx e he (Prog.call f k, a) (by simp)
          exact ⟨(R.par_le _ _ _ ha.1).2 p1, (R.par_le _ _ _ ha.1).1 p2⟩
        · exact hx e he e' (List.mem_cons_of_mem _ he')
      rw [List.pairwise_append, List.pairwise_cons]
      refine ⟨a1, ⟨fun y hy => ?_, a3⟩, fun x hx y hy => ?_⟩
      · intro e he e' he'
        exact (key y (fun e he e' he' => (a2 y hy e' he' e he).symm) e' he' e he).symm
      · rcases List.mem_cons.1 hy with rfl | hy
        · exact key x (fun e he e' he' => a4 x hx _ List.mem_cons_self e he e' he')
        · exact a4 x hx y (List.mem_cons_of_mem _ hy)
    · simp only [List.mem_append, List.mem_cons] at hx
      rcases hx with hx | rfl | hx
      · exact h5 x (by simp [hx])
      · intro e he
        rcases List.mem_cons.1 he with rfl | he
        · exact (R.par_le _ _ _ ha.1).1 (h5 ((Prog.call f k, a) :: q') (by simp) _ List.mem_cons_self)
        · exact h5 ((Prog.call f k, a) :: q') (by simp) e (List.mem_cons_of_mem _ he)
      · exact h5 x (by simp [hx])

theorem watched_steps {b : A} {x0 : S × G} {x y : S × List (List (Prog S α))} (h : R.Watched b x0 x.1 x.2) (hs : Steps x y) :
    R.Watched b x0 y.1 y.2 := by
  induction hs with
  | refl => exact h
  | tail _ h2 ih => exact R.watched_step ih h2

/-- The observation may begin at any moment. -/
theorem Watched.now {b : A} {x0 : S × G} {s : S} {ts : List (List (Prog S α))} (h : R.Watched b x0 s ts) :
    ∃ g, R.inv s g ∧ R.rely b x0 (s, g) ∧ R.Watched b (s, g) s ts := by
  obtain ⟨g, ats, h1, h2, h3, h4, h5, h6, h7⟩ := h
  exact ⟨g, h2, h7, g, ats, h1, h2, h3, h4, h5, h6, R.rely_refl _ _⟩

end RG

end Verif
