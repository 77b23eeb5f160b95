import Verif.Spec.History
import Verif.Proof.StepsB
import Verif.Proof.ConcLin
import Verif.Proof.LinearRely
import Verif.Proof.LinearGhost

/-! # Building one history for all moments -/

set_option linter.unusedSectionVars false

namespace Verif

open Spec

variable {S α O T : Type}

/-! ## what is done by a call -/

theorem doneBy_append (i j : Nat) (h h' : List (Nat × Nat × O)) : doneBy i j (h ++ h') = doneBy i j h ++ doneBy i j h' := by
  simp [doneBy]

theorem doneBy_tag (i j : Nat) (e : List O) : doneBy i j (e.map (fun o => (i, j, o))) = e := by
  induction e with
  | nil => rfl
  | cons a e ih =>
    simp only [doneBy, List.map_cons, List.filter_cons, beq_self_eq_true, Bool.and_self, if_true] at ih ⊢
    rw [ih]

theorem doneBy_other {i i' j j' : Nat} (h : i ≠ i' ∨ j ≠ j') (e : List O) : doneBy i' j' (e.map (fun o => (i, j, o))) = [] := by
  induction e with
  | nil => rfl
  | cons a e ih =>
    have hb : (i == i' && j == j') = false := by
      rcases h with h | h <;> simp [h]
    simp only [doneBy, List.map_cons, List.filter_cons, hb] at ih ⊢
    exact ih

theorem doneBy_nil {i j : Nat} {h : List (Nat × Nat × O)} (hn : doneBy i j h = []) : ∀ e ∈ h, ¬ (e.1 = i ∧ e.2.1 = j) := by
  rintro e he ⟨rfl, rfl⟩
  have : e.2.2 ∈ doneBy e.1 e.2.1 h := List.mem_map.2 ⟨e, List.mem_filter.2 ⟨he, by simp⟩, rfl⟩
  rw [hn] at this
  cases this

/-! ## the threads, with what they have still to do -/

/-- One step, in which thread number `i` does the operations `e`. -/
inductive Move (b : Bool) : List (List (Prog S α × List O)) → Nat → List O → List (List (Prog S α × List O)) → Prop
  | call (pre post : List (List (Prog S α × List O))) (f : S → S) (k : S → Prog S α) (s : S) (e l : List O)
      (q : List (Prog S α × List O)) :
      Move b (pre ++ ((.call f k, e ++ l) :: q) :: post) pre.length e (pre ++ ((k s, l) :: q) :: post)
  | pop (pre post : List (List (Prog S α × List O))) (p : Prog S α) (l : List O) (q : List (Prog S α × List O)) :
      (b = true ∨ l = []) → Move b (pre ++ ((p, l) :: q) :: post) pre.length [] (pre ++ q :: post)

/-- Where a thread stands: it was to do `J`, is left with `q`, and its calls have done `f 0`, `f 1`, … -/
def Stands (b : Bool) (J q : List (Prog S α × List O)) (f : Nat → List O) : Prop :=
  ∃ m, m ≤ J.length ∧ (∀ j < m, ∀ y, J[j]? = some y → f j <+: y.2 ∧ (b = false → f j = y.2)) ∧ (∀ j, m < j → f j = []) ∧
    ((q = J.drop m ∧ f m = []) ∨
    ∃ y p rest, J[m]? = some y ∧ q = (p, rest) :: J.drop (m + 1) ∧ y.2 = f m ++ rest ∧ Below p y.1)

theorem stands_start (b : Bool) (J : List (Prog S α × List O)) : Stands b J J (fun _ => []) :=
  ⟨0, Nat.zero_le _, fun _ h => absurd h (Nat.not_lt_zero _), fun _ _ => rfl, .inl ⟨rfl, rfl⟩⟩

theorem drop_eq_cons {β : Type} {J q : List β} {y : β} {j : Nat} (h : y :: q = J.drop j) : J[j]? = some y ∧ q = J.drop (j + 1) := by
  have h1 : (J.drop j)[0]? = some y := by rw [← h]; rfl
  rw [List.getElem?_drop] at h1
  refine ⟨h1, ?_⟩
  rw [← List.drop_drop, ← h]
  rfl

/-- the number of the call -/
theorem stands_at {b : Bool} {J q : List (Prog S α × List O)} {f : Nat → List O} (h : Stands b J q f) :
    q.length ≤ J.length ∧ (∀ j < J.length - q.length, ∀ y, J[j]? = some y → f j <+: y.2 ∧ (b = false → f j = y.2)) ∧
      (∀ j, J.length - q.length < j → f j = []) ∧ ((q = J.drop (J.length - q.length) ∧ f (J.length - q.length) = []) ∨
    ∃ y p rest, J[J.length - q.length]? = some y ∧ q = (p, rest) :: J.drop (J.length - q.length + 1) ∧
      y.2 = f (J.length - q.length) ++ rest ∧ Below p y.1) := by
  obtain ⟨m, hm, h1, h2, h3⟩ := h
  have e : q.length ≤ J.length ∧ m = J.length - q.length := by
    rcases h3 with ⟨rfl, -⟩ | ⟨y, p, rest, h4, rfl, -⟩
    · rw [List.length_drop]; omega
    · have := (List.getElem?_eq_some_iff.1 h4).1
      rw [List.length_cons, List.length_drop]; omega
  obtain ⟨e1, rfl⟩ := e
  exact ⟨e1, h1, h2, h3⟩

theorem stands_call {b : Bool} {J q : List (Prog S α × List O)} {g : S → S} {k : S → Prog S α} {e r : List O} {f f' : Nat → List O}
    (h : Stands b J ((.call g k, e ++ r) :: q) f) (s : S) (h1 : f' (J.length - (q.length + 1)) = f (J.length - (q.length + 1)) ++ e)
    (h2 : ∀ j, j ≠ J.length - (q.length + 1) → f' j = f j) : Stands b J ((k s, r) :: q) f' := by
  obtain ⟨h0, h3, h4, h5⟩ := stands_at h
  simp only [List.length_cons] at h0 h3 h4 h5
  refine ⟨J.length - (q.length + 1), Nat.sub_le _ _, fun j hj y hy => ?_, fun j hj => ?_, .inr ?_⟩
  · rw [h2 j (by omega)]; exact h3 j hj y hy
  · rw [h2 j (by omega)]; exact h4 j hj
  · rcases h5 with ⟨h5, h6⟩ | ⟨y, p, rest, h5, h6, h7, h8⟩
    · obtain ⟨h7, h8⟩ := drop_eq_cons h5
      exact ⟨_, k s, r, h7, congrArg _ h8, by rw [h1, h6]; rfl, below_one g k s⟩
    · simp only [List.cons.injEq, Prod.mk.injEq] at h6
      obtain ⟨⟨rfl, rfl⟩, h6⟩ := h6
      exact ⟨y, k s, r, h5, congrArg _ h6, by rw [h7, h1]; simp, (below_one g k s).trans h8⟩

theorem stands_pop {b : Bool} {J q : List (Prog S α × List O)} {p : Prog S α} {r : List O} {f : Nat → List O}
    (h : Stands b J ((p, r) :: q) f) (hb : b = true ∨ r = []) : Stands b J q f := by
  obtain ⟨h0, h3, h4, h5⟩ := stands_at h
  simp only [List.length_cons] at h0 h3 h4 h5
  have key : ∃ y, J[J.length - (q.length + 1)]? = some y ∧ y.2 = f (J.length - (q.length + 1)) ++ r ∧
      q = J.drop (J.length - (q.length + 1) + 1) := by
    rcases h5 with ⟨h5, h6⟩ | ⟨y, p', rest, h5, h6, h7, h8⟩
    · obtain ⟨h7, h8⟩ := drop_eq_cons h5
      exact ⟨_, h7, by rw [h6]; rfl, h8⟩
    · simp only [List.cons.injEq, Prod.mk.injEq] at h6
      obtain ⟨⟨rfl, rfl⟩, h6⟩ := h6
      exact ⟨y, h5, h7, h6⟩
  obtain ⟨y, k1, k2, k3⟩ := key
  refine ⟨J.length - (q.length + 1) + 1, by omega, fun j hj z hz => ?_, fun j hj => h4 j (by omega), .inl ⟨k3, h4 _ (by omega)⟩⟩
  by_cases e : j = J.length - (q.length + 1)
  · subst e
    rw [k1] at hz
    cases hz
    refine ⟨⟨r, k2.symm⟩, fun e => ?_⟩
    rcases hb with hb | rfl
    · rw [e] at hb; cases hb
    · exact (k2.trans (List.append_nil _)).symm
  · exact h3 j (by omega) z hz

/-- where all threads stand -/
def AllStand (b : Bool) (J q : List (List (Prog S α × List O))) (h : List (Nat × Nat × O)) : Prop :=
  q.length = J.length ∧ ∀ i j r, J[i]? = some j → q[i]? = some r → Stands b j r (fun m => doneBy i m h)

theorem allStand_start (b : Bool) (J : List (List (Prog S α × List O))) : AllStand b J J [] :=
  ⟨rfl, fun i j r h1 h2 => by rw [h1] at h2; cases h2; exact stands_start b j⟩

theorem allStand_move {b : Bool} {J q q' : List (List (Prog S α × List O))} {h : List (Nat × Nat × O)} {i : Nat} {e : List O}
    (hs : AllStand b J q h) (hm : Move b q i e q') : ∃ ji qi, J[i]? = some ji ∧ q[i]? = some qi ∧
      (e ≠ [] → qi ≠ []) ∧ AllStand b J q' (h ++ e.map (fun o => (i, ji.length - qi.length, o))) := by
  obtain ⟨h1, h2⟩ := hs
  have key : ∀ (pre post : List (List (Prog S α × List O))) (a a' : List (Prog S α × List O)),
      q = pre ++ a :: post → q' = pre ++ a' :: post → i = pre.length → (e ≠ [] → a ≠ []) →
      (∀ (j : List (Prog S α × List O)) (f f' : Nat → List O), Stands b j a f → f' (j.length - a.length) = f (j.length - a.length) ++ e →
        (∀ m, m ≠ j.length - a.length → f' m = f m) → Stands b j a' f') → ∃ ji qi, J[i]? = some ji ∧ q[i]? = some qi ∧
      (e ≠ [] → qi ≠ []) ∧ AllStand b J q' (h ++ e.map (fun o => (i, ji.length - qi.length, o))) := by
    rintro pre post a a' rfl rfl rfl hne ha
    have hlt : pre.length < J.length := by rw [← h1]; simp
    have ha' : (pre ++ a :: post)[pre.length]? = some a := by rw [List.getElem?_append_right (le_refl _), Nat.sub_self]; rfl
    refine ⟨J[pre.length], a, List.getElem?_eq_getElem hlt, ha', hne, by simpa using h1, fun m j r hj hr => ?_⟩
    by_cases hm : m = pre.length
    · subst hm
      rw [List.getElem?_append_right (le_refl _), Nat.sub_self] at hr
      cases hr
      obtain rfl : J[pre.length] = j := by rw [List.getElem?_eq_getElem hlt] at hj; exact Option.some.inj hj
      refine ha _ _ _ (h2 _ _ a hj ha') ?_ (fun m hm => ?_)
      · beta_reduce; rw [doneBy_append, doneBy_tag]
      · beta_reduce; rw [doneBy_append, doneBy_other (.inr (fun e => hm e.symm)), List.append_nil]
    · have : (fun n => doneBy m n (h ++ e.map (fun o => (pre.length, J[pre.length].length - a.length, o)))) = fun n => doneBy m n h := by
        funext n
        rw [doneBy_append, doneBy_other (.inl (fun e => hm e.symm)), List.append_nil]
      rw [this]
      refine h2 m j r hj ?_
      by_cases hl : m < pre.length
      · rw [List.getElem?_append_left hl] at hr ⊢
        exact hr
      · rw [List.getElem?_append_right (by omega)] at hr ⊢
        obtain ⟨d, hd⟩ : ∃ d, m - pre.length = d + 1 := ⟨m - pre.length - 1, by omega⟩
        rw [hd] at hr ⊢
        exact hr
  cases hm with
  | call pre post f k s e l r =>
    exact key pre post _ _ rfl rfl rfl (fun _ => by simp) (fun _ _ _ h h1 h2 => stands_call h s h1 h2)
  | pop pre post p l r hb =>
    refine key pre post _ _ rfl rfl rfl (fun h => absurd rfl h) (fun j f f' h h1 h2 => ?_)
    have : f' = f := by
      funext m
      by_cases hm : m = j.length - ((p, l) :: r).length
      · rw [hm, h1, List.append_nil]
      · exact h2 m hm
    rw [this]
    exact stands_pop h hb

/-! ## processes -/

theorem course_cases {b : Bool} {x : Nat → S × List (List (Prog S α))} {N : Nat} (hx : Course b x N) {k : Nat} (hk : k < N) :
    (∃ s pre post f g q, x k = (s, pre ++ (.call f g :: q) :: post) ∧ x (k + 1) = (f s, pre ++ (g s :: q) :: post)) ∨
      ∃ s pre post p q, x k = (s, pre ++ (p :: q) :: post) ∧ x (k + 1) = (s, pre ++ q :: post) ∧ (b = true ∨ ∃ a, p = .ret a) := by
  have h := hx k hk
  generalize x k = y at h ⊢
  generalize x (k + 1) = z at h ⊢
  cases b with
  | true =>
    rw [if_pos rfl] at h
    cases h with
    | call s pre post f g q => exact .inl ⟨s, pre, post, f, g, q, rfl, rfl⟩
    | ret s pre post a q => exact .inr ⟨s, pre, post, _, q, rfl, rfl, .inl rfl⟩
    | fail s pre post p q => exact .inr ⟨s, pre, post, _, q, rfl, rfl, .inl rfl⟩
  | false =>
    rw [if_neg (by simp)] at h
    cases h with
    | call s pre post f g q => exact .inl ⟨s, pre, post, f, g, q, rfl, rfl⟩
    | ret s pre post a q => exact .inr ⟨s, pre, post, _, q, rfl, rfl, .inr ⟨a, rfl⟩⟩

theorem course_steps {b : Bool} {x : Nat → S × List (List (Prog S α))} {N : Nat} (hx : Course b x N) : ∀ k ≤ N, Steps (x 0) (x k) := by
  intro k
  induction k with
  | zero => exact fun _ => .refl _
  | succ k ih =>
    intro hk
    have h := hx k (by omega)
    refine .tail (ih (by omega)) ?_
    cases b with
    | true => rw [if_pos rfl] at h; exact h
    | false => rw [if_neg (by simp)] at h; exact h.step

theorem course_len {b : Bool} {x : Nat → S × List (List (Prog S α))} {N : Nat} (hx : Course b x N) {i k : Nat} :
    ∀ k' ≤ N, k ≤ k' → ∀ l', (x k').2[i]? = some l' → ∃ l, (x k).2[i]? = some l ∧ l'.length ≤ l.length := by
  intro k'
  induction k' with
  | zero =>
    intro _ h l' hl
    obtain rfl : k = 0 := by omega
    exact ⟨l', hl, le_refl _⟩
  | succ k' ih =>
    intro hN h l' hl
    by_cases e : k = k' + 1
    · subst e; exact ⟨l', hl, le_refl _⟩
    · have one : ∃ l, (x k').2[i]? = some l ∧ l'.length ≤ l.length := by
        have key : ∀ (pre post : List (List (Prog S α))) (a a' : List (Prog S α)), (x k').2 = pre ++ a :: post →
            (x (k' + 1)).2 = pre ++ a' :: post → a'.length ≤ a.length → ∃ l, (x k').2[i]? = some l ∧ l'.length ≤ l.length := by
          intro pre post a a' e1 e2 hle
          rw [e1]
          rw [e2] at hl
          by_cases hl1 : i < pre.length
          · rw [List.getElem?_append_left hl1] at hl ⊢
            exact ⟨l', hl, le_refl _⟩
          · rw [List.getElem?_append_right (by omega)] at hl ⊢
            by_cases hz : i - pre.length = 0
            · rw [hz] at hl ⊢
              cases hl
              exact ⟨a, rfl, hle⟩
            · obtain ⟨d, hd⟩ : ∃ d, i - pre.length = d + 1 := ⟨i - pre.length - 1, by omega⟩
              rw [hd] at hl ⊢
              exact ⟨l', hl, le_refl _⟩
        rcases course_cases hx (show k' < N by omega) with ⟨s, pre, post, f, g, q, e1, e2⟩ | ⟨s, pre, post, p, q, e1, e2, -⟩
        · exact key pre post _ _ (by rw [e1]) (by rw [e2]) (by simp)
        · exact key pre post _ _ (by rw [e1]) (by rw [e2]) (by simp)
      obtain ⟨l, h1, h2⟩ := one
      obtain ⟨l0, h3, h4⟩ := ih (by omega) (by omega) l h1
      exact ⟨l0, h3, le_trans h2 h4⟩

/-! ## the history -/

/-- the states between the operations -/
theorem runs_states {st : T → O → T → Prop} {t t' : T} {e : List O} (h : Runs st t e t') :
    ∃ g : Nat → T, g 0 = t ∧ (∀ n o, e[n]? = some o → st (g n) o (g (n + 1))) ∧ g e.length = t' := by
  induction e generalizing t with
  | nil => exact ⟨fun _ => t, rfl, by simp, h.symm⟩
  | cons o e ih =>
    obtain ⟨u, h1, h2⟩ := h
    obtain ⟨g, g1, g2, g3⟩ := ih h2
    refine ⟨fun n => match n with | 0 => t | n + 1 => g n, rfl, fun n o' ho => ?_, g3⟩
    cases n with
    | zero =>
      obtain rfl : o = o' := by simpa using ho
      show st t o (g 0)
      rw [g1]; exact h1
    | succ n => exact g2 n o' (by simpa using ho)

theorem runs_fun {st : T → O → T} (t : T) (e : List O) : Runs (fun t o t' => t' = st t o) t e (e.foldl st t) := by
  induction e generalizing t with
  | nil => rfl
  | cons o e ih => exact ⟨_, rfl, ih _⟩

/-- A description of the states of a process, `t` being what the database shows, which each step leads to the next. -/
theorem exists_history {b : Bool} {st : T → O → T → Prop} {Core : Nat → T → List (List (Prog S α × List O)) → Prop}
    {x : Nat → S × List (List (Prog S α))} {N : Nat} (hx : Course b x N)
    (hstep : ∀ k < N, ∀ t q, Core k t q → ∃ i e q' t', Move b q i e q' ∧ Runs st t e t' ∧ Core (k + 1) t' q')
    (hq : ∀ k ≤ N, ∀ t q, Core k t q → (x k).2 = q.map (List.map Prod.fst))
    {t0 : T} {J : List (List (Prog S α × List O))} (h0 : Core 0 t0 J) :
    ∃ (h : List (Nat × Nat × O)) (cut : Nat → Nat) (g : Nat → T), cut 0 = 0 ∧ (∀ k < N, cut k ≤ cut (k + 1)) ∧ cut N = h.length ∧
      (∀ e ∈ h, ∃ th y, J[e.1]? = some th ∧ th[e.2.1]? = some y) ∧
      (∀ k ≤ N, ∃ q, Core k (g (cut k)) q ∧ AllStand b J q (h.take (cut k))) ∧
      h.Pairwise (fun e e' => e.1 = e'.1 → e.2.1 ≤ e'.2.1) ∧
      (∀ k ≤ N, ∀ i th l j, J[i]? = some th → (x k).2[i]? = some l → j + l.length < th.length →
        doneBy i j (h.take (cut k)) = doneBy i j h) ∧
      g 0 = t0 ∧ ∀ n e, h[n]? = some e → st (g n) e.2.2 (g (n + 1)) := by
  induction N with
  | zero =>
    refine ⟨[], fun _ => 0, fun _ => t0, rfl, fun _ h => absurd h (Nat.not_lt_zero _), rfl, by simp, fun k hk => ?_, .nil,
      fun _ _ _ _ _ _ _ _ _ => rfl, rfl, by simp⟩
    obtain rfl : k = 0 := by omega
    exact ⟨J, h0, allStand_start b J⟩
  | succ N ih =>
    obtain ⟨h, cut, g, c1, c2, c3, c4, c5, c6, c7, c8, c9⟩ := ih (fun k hk => hx k (by omega)) (fun k hk => hstep k (by omega))
      (fun k hk => hq k (by omega))
    obtain ⟨q, h1, h2⟩ := c5 N (le_refl _)
    obtain ⟨i, e, q', t', h3, h4', h4⟩ := hstep N (by omega) _ _ h1
    have h1q := hq N (by omega) _ _ h1
    rw [c3, List.take_length] at h2
    rw [c3] at h4'
    obtain ⟨g', w1, w2, w3⟩ := runs_states h4'
    obtain ⟨ji, qi, hji, hqi, hne, h5⟩ := allStand_move h2 h3
    obtain ⟨s1, -, s3, -⟩ := stands_at (h2.2 i ji qi hji hqi)
    have hle : ∀ k ≤ N, cut k ≤ h.length := by
      intro k hk
      have : ∀ d ≤ N, cut (N - d) ≤ h.length := by
        intro d
        induction d with
        | zero => intro _; rw [Nat.sub_zero, c3]
        | succ d ih =>
          intro hd
          have := c2 (N - (d + 1)) (by omega)
          have e : N - (d + 1) + 1 = N - d := by omega
          rw [e] at this
          exact le_trans this (ih (by omega))
      have := this (N - k) (by omega)
      rwa [Nat.sub_sub_self hk] at this
    have eg : ∀ n ≤ h.length, (if n < h.length then g n else g' (n - h.length)) = g n := by
      intro n hn
      by_cases hlt : n < h.length
      · rw [if_pos hlt]
      · obtain rfl : n = h.length := by omega
        rw [if_neg hlt, Nat.sub_self, w1]
    have htag : ∀ y ∈ e.map (fun o => (i, ji.length - qi.length, o)), y.1 = i ∧ y.2.1 = ji.length - qi.length := by
      intro y hy
      obtain ⟨o, -, rfl⟩ := List.mem_map.1 hy
      exact ⟨rfl, rfl⟩
    refine ⟨h ++ e.map (fun o => (i, ji.length - qi.length, o)),
      fun k => if k ≤ N then cut k else (h ++ e.map (fun o => (i, ji.length - qi.length, o))).length,
      fun n => if n < h.length then g n else g' (n - h.length), ?_, ?_, ?_, ?_, ?_, ?_, ?_, ?_, ?_⟩
    · simp [c1]
    · intro k hk
      beta_reduce
      by_cases hk' : k + 1 ≤ N
      · rw [if_pos hk', if_pos (by omega)]
        exact c2 k (by omega)
      · rw [if_neg hk']
        by_cases hk'' : k ≤ N
        · rw [if_pos hk'', List.length_append]
          exact le_trans (hle k hk'') (Nat.le_add_right _ _)
        · rw [if_neg hk'']
    · beta_reduce
      rw [if_neg (by omega)]
    · intro y hy
      rcases List.mem_append.1 hy with hy | hy
      · exact c4 y hy
      · obtain ⟨o, ho, rfl⟩ := List.mem_map.1 hy
        have hqn := hne (List.ne_nil_of_mem ho)
        have hpos := List.length_pos_iff.2 hqn
        exact ⟨ji, _, hji, List.getElem?_eq_getElem (show ji.length - qi.length < ji.length by omega)⟩
    · intro k hk
      beta_reduce
      by_cases hk' : k ≤ N
      · rw [if_pos hk', List.take_append_of_le_length (hle k hk'), eg _ (hle k hk')]
        exact c5 k hk'
      · obtain rfl : k = N + 1 := by omega
        rw [if_neg hk', List.take_length]
        refine ⟨q', ?_, h5⟩
        rw [if_neg (by simp), List.length_append, List.length_map, Nat.add_sub_cancel_left, w3]
        exact h4
    · rw [List.pairwise_append]
      refine ⟨c6, ?_, fun y hy z hz he => ?_⟩
      · rw [List.pairwise_map]
        exact List.pairwise_of_forall (fun _ _ _ => le_refl _)
      · obtain ⟨z1, z2⟩ := htag z hz
        rw [z2]
        by_contra hlt
        exact doneBy_nil (s3 y.2.1 (by omega)) y hy ⟨he.trans z1, rfl⟩
    · intro k hk a th l j ha hl hlt
      beta_reduce
      by_cases hk' : k ≤ N
      · rw [if_pos hk', List.take_append_of_le_length (hle k hk'), c7 k hk' a th l j ha hl hlt, doneBy_append]
        by_cases hai : a = i
        · subst hai
          rw [hji] at ha
          cases ha
          have hxN : (x N).2[a]? = some (qi.map Prod.fst) := by rw [h1q, List.getElem?_map, hqi]; rfl
          obtain ⟨l0, e1, e2⟩ := course_len hx (k := k) N (by omega) hk' _ hxN
          rw [hl] at e1
          cases e1
          rw [List.length_map] at e2
          rw [doneBy_other (.inr (by omega)), List.append_nil]
        · rw [doneBy_other (.inl (fun e => hai e.symm)), List.append_nil]
      · rw [if_neg hk', List.take_length]
    · beta_reduce
      rw [eg 0 (Nat.zero_le _), c8]
    · intro n y hy
      beta_reduce
      by_cases hn : n < h.length
      · rw [eg n (by omega), eg (n + 1) (by omega)]
        rw [List.getElem?_append_left hn] at hy
        exact c9 n y hy
      · rw [if_neg hn, if_neg (by omega)]
        rw [List.getElem?_append_right (by omega), List.getElem?_map] at hy
        obtain ⟨o, ho, rfl⟩ := Option.map_eq_some_iff.1 hy
        rw [show n + 1 - h.length = (n - h.length) + 1 by omega]
        exact w2 _ _ ho

/-- so there is a history that explains the course -/
theorem tells_of {C : Type} {b : Bool} {st : T → O → T → Prop} {shows : S → T → Prop} {prog : C → Prog S Unit} {ops : C → List O}
    {Core : Nat → T → List (List (Prog S Unit × List O)) → Prop}
    {x : Nat → S × List (List (Prog S Unit))} {N : Nat} (hx : Course b x N)
    (hstep : ∀ k < N, ∀ t q, Core k t q → ∃ i e q' t', Move b q i e q' ∧ Runs st t e t' ∧ Core (k + 1) t' q')
    (hq : ∀ k ≤ N, ∀ t q, Core k t q → (x k).2 = q.map (List.map Prod.fst) ∧ shows (x k).1 t)
    {t0 : T} {threads : List (List C)} (h0 : Core 0 t0 (threads.map (List.map (fun y => (prog y, ops y))))) :
    ∃ h cut g, Tells b prog ops st shows t0 threads x N h cut g ∧
      ∀ k ≤ N, ∃ q, Core k (g (cut k)) q ∧ AllStand b (threads.map (List.map (fun y => (prog y, ops y)))) q (h.take (cut k)) := by
  obtain ⟨h, cut, g, c1, c2, c3, c4, c5, c6, c7, c8, c9⟩ := exists_history hx hstep (fun k hk t q hc => (hq k hk t q hc).1) h0
  have hJ : ∀ {i : Nat} {th : List C}, threads[i]? = some th →
      (threads.map (List.map (fun y => (prog y, ops y))))[i]? = some (th.map (fun y => (prog y, ops y))) := by
    intro i th hi
    rw [List.getElem?_map, hi]; rfl
  have hj : ∀ {j : Nat} {y : C} {th : List C}, th[j]? = some y → (th.map (fun y => (prog y, ops y)))[j]? = some (prog y, ops y) := by
    intro j y th hy
    rw [List.getElem?_map, hy]; rfl
  -- where a thread stands, in terms of its calls
  have key : ∀ k ≤ N, ∀ i th, threads[i]? = some th → ∃ q : List (Prog S Unit × List O), (x k).2[i]? = some (q.map Prod.fst) ∧
      Stands b (th.map (fun y => (prog y, ops y))) q (fun j => doneBy i j (h.take (cut k))) := by
    intro k hk i th hi
    obtain ⟨q, h1, h2, h3⟩ := c5 k hk
    have hlt : i < q.length := by
      rw [h2, List.length_map]
      exact (List.getElem?_eq_some_iff.1 hi).1
    have hqi : q[i]? = some q[i] := List.getElem?_eq_getElem hlt
    refine ⟨q[i], ?_, h3 i _ _ (hJ hi) hqi⟩
    rw [(hq k hk _ _ h1).1, List.getElem?_map, hqi]
    rfl
  have heads : ∀ (th : List C) (j : Nat), ((th.map (fun y => (prog y, ops y))).drop j).map Prod.fst = (th.drop j).map prog := by
    intro th j
    rw [← List.map_drop, List.map_map]; rfl
  refine ⟨h, cut, g, ⟨⟨c1, c2, c3, fun e he => ?_, c6, fun i th j y hi hy => ?_, fun k hk i th hi => ?_,
    fun k hk i th l j y hi hl hy hlt => ?_, fun k hk i th l j y hi hl hy hsuf => ?_⟩, c8, c9, fun k hk => ?_⟩, c5⟩
  · obtain ⟨th, y, h1, h2⟩ := c4 e he
    rw [List.getElem?_map] at h1
    obtain ⟨th, h1', rfl⟩ := Option.map_eq_some_iff.1 h1
    rw [List.getElem?_map] at h2
    obtain ⟨y, h2', rfl⟩ := Option.map_eq_some_iff.1 h2
    exact ⟨th, y, h1', h2'⟩
  · obtain ⟨q, -, h2⟩ := key N (le_refl _) i th hi
    rw [c3, List.take_length] at h2
    obtain ⟨m, hm, h3, h4, h5⟩ := h2
    rcases Nat.lt_trichotomy j m with hlt | rfl | hlt
    · exact (h3 j hlt _ (hj hy)).1
    · rcases h5 with ⟨-, h5⟩ | ⟨z, p, rest, h5, -, h6, -⟩
      · beta_reduce at h5; rw [h5]; exact List.nil_prefix
      · rw [hj hy] at h5
        cases h5
        exact ⟨rest, h6.symm⟩
    · have := h4 j hlt
      beta_reduce at this
      rw [this]; exact List.nil_prefix
  · obtain ⟨q, h1, h2⟩ := key k hk i th hi
    refine ⟨_, h1, ?_⟩
    simpa using (stands_at h2).1
  · obtain ⟨q, h1, h2⟩ := key k hk i th hi
    rw [h1] at hl
    cases hl
    obtain ⟨s1, s2, -⟩ := stands_at h2
    have hc := c7 k hk i _ _ j (hJ hi) h1 (by simpa using hlt)
    rw [List.length_map] at hlt
    rw [List.length_map] at s2
    refine ⟨hc, fun hb => ?_⟩
    rw [← hc]
    exact (s2 j (by omega) _ (hj hy)).2 hb
  · obtain ⟨q, h1, h2⟩ := key k hk i th hi
    rw [h1] at hl
    cases hl
    obtain ⟨s1, s2, s3, s4⟩ := stands_at h2
    have hlt := (List.getElem?_eq_some_iff.1 hy).1
    rw [List.length_map] at s1 s3 s4
    have hle := hsuf.length_le
    rw [List.length_map, List.length_drop, List.length_map] at hle
    by_cases e : j = th.length - q.length
    · subst e
      rcases s4 with ⟨-, h5⟩ | ⟨z, p, rest, h5, h6, h7, h8⟩
      · exact h5
      · rw [hj hy] at h5
        cases h5
        have he := hsuf.eq_of_length (by rw [List.length_map, List.length_drop, List.length_map]; omega)
        obtain ⟨_, hy'⟩ := List.getElem?_eq_some_iff.1 hy
        rw [List.drop_eq_getElem_cons hlt, List.map_cons, hy', h6, List.map_cons] at he
        have hp : prog y = p := (List.cons.inj he).1
        rw [← hp] at h8
        exact absurd h8 (below_irrefl _)
    · exact s3 j (by omega)
  · obtain ⟨q, h1, -⟩ := c5 k hk
    exact (hq k hk _ _ h1).2

/-- if operations have one outcome -/
theorem Spec.Tells.explains {C : Type} {b : Bool} {st : T → O → T} {shows : S → T → Prop} {prog : C → Prog S Unit} {ops : C → List O}
    {x : Nat → S × List (List (Prog S Unit))} {N : Nat} {t0 : T} {threads : List (List C)} {h : List (Nat × Nat × O)} {cut : Nat → Nat}
    {g : Nat → T} (ht : Tells b prog ops (fun t o t' => t' = st t o) shows t0 threads x N h cut g) :
    Explains b prog ops st shows t0 threads x N h cut := by
  refine { ht.toTimed with shows := fun k hk => ?_ }
  have e : ∀ n ≤ h.length, g n = ((h.take n).map (fun e => e.2.2)).foldl st t0 := by
    intro n
    induction n with
    | zero => intro _; rw [ht.first]; rfl
    | succ n ih =>
      intro hn
      have hlt : n < h.length := by omega
      rw [ht.next n h[n] (List.getElem?_eq_getElem hlt), ih (by omega), List.take_add_one, List.getElem?_eq_getElem hlt,
        Option.toList_some, List.map_append, List.foldl_append]
      rfl
  have hle : cut k ≤ h.length := by
    have : ∀ d ≤ N, cut (N - d) ≤ h.length := by
      intro d
      induction d with
      | zero => intro _; rw [Nat.sub_zero, ht.stop]
      | succ d ih =>
        intro hd
        have := ht.mono (N - (d + 1)) (by omega)
        have e : N - (d + 1) + 1 = N - d := by omega
        rw [e] at this
        exact le_trans this (ih (by omega))
    have := this (N - k) (by omega)
    rwa [Nat.sub_sub_self hk] at this
  rw [← e _ hle]
  exact ht.shows k hk

theorem explains_of {C : Type} {b : Bool} {st : T → O → T} {shows : S → T → Prop} {prog : C → Prog S Unit} {ops : C → List O}
    {Core : S × List (List (Prog S Unit)) → T → List (List (Prog S Unit × List O)) → Prop}
    {x : Nat → S × List (List (Prog S Unit))} {N : Nat} (hx : Course b x N)
    (hstep : ∀ k < N, ∀ t q, Core (x k) t q → ∃ i e q', Move b q i e q' ∧ Core (x (k + 1)) (e.foldl st t) q')
    (hq : ∀ k ≤ N, ∀ t q, Core (x k) t q → (x k).2 = q.map (List.map Prod.fst) ∧ shows (x k).1 t)
    {t0 : T} {threads : List (List C)} (h0 : Core (x 0) t0 (threads.map (List.map (fun y => (prog y, ops y))))) :
    ∃ h cut, Explains b prog ops st shows t0 threads x N h cut := by
  obtain ⟨h, cut, g, ht, -⟩ := tells_of (st := fun t o t' => t' = st t o) (Core := fun k => Core (x k)) hx (fun k hk t q hc => by
    obtain ⟨i, e, q', h1, h2⟩ := hstep k hk t q hc
    exact ⟨i, e, q', _, h1, runs_fun t e, h2⟩) hq h0
  exact ⟨h, cut, ht.explains⟩

/-! ## the two descriptions of processes -/

section

variable {A : Type} {inv : S → Prop} {abs : S → T} {st : T → O → T} {b : Bool} {rely : A → S → S → Prop} {par : A → A → Prop}

variable (inv abs st b rely par)

/-- `LinR` without the history -/
def CoreR (x : S × List (List (Prog S α))) (t : T) (q : List (List (Prog S α × List O))) : Prop :=
  ∃ ats : List (List (Labelled S A α O)), x.2 = ats.map (List.map Prod.fst) ∧ q = ats.map (List.map (fun e => (e.1, e.2.2))) ∧
    (∀ q ∈ ats, ThreadR inv abs st b rely par x.1 q) ∧ ats.Pairwise (ApartR par) ∧ abs x.1 = t

variable {inv abs st b rely par}

theorem coreR_pop {s : S} {pre post : List (List (Prog S α))} {p : Prog S α} {q : List (Prog S α)} {t : T}
    {r : List (List (Prog S α × List O))} (h : CoreR inv abs st b rely par (s, pre ++ (p :: q) :: post) t r)
    (hb : b = true ∨ ∃ a, p = .ret a) :
    ∃ i e r', Move b r i e r' ∧ CoreR inv abs st b rely par (s, pre ++ q :: post) (e.foldl st t) r' := by
  obtain ⟨ats, h1, rfl, h2, h3, h5⟩ := h
  obtain ⟨l1, y, l2, rfl, rfl, hy, rfl⟩ := RG.map_split h1
  obtain ⟨⟨p', a, l⟩, q', rfl, he, rfl⟩ := List.map_eq_cons_iff.1 hy.symm
  dsimp only at he
  subst he
  have hl : b = true ∨ l = [] := by
    rcases hb with hb | ⟨r, rfl⟩
    · exact .inl hb
    · exact (h2 ((.ret r, a, l) :: q') (by simp)).1
  refine ⟨_, [], _, by simpa using Move.pop _ _ p' l _ hl, l1 ++ q' :: l2, by simp, by simp, fun x hx => ?_, ?_, h5⟩
  · simp only [List.mem_append, List.mem_cons] at hx
    rcases hx with hx | rfl | hx
    · exact h2 x (by simp [hx])
    · exact (h2 ((p', a, l) :: x) (by simp)).pop
    · exact h2 x (by simp [hx])
  · rw [List.pairwise_append, List.pairwise_cons] at h3 ⊢
    obtain ⟨a1, ⟨a2, a3⟩, a4⟩ := h3
    refine ⟨a1, ⟨fun y hy => fun x hx z hz => a2 y hy x (List.mem_cons_of_mem _ hx) z hz, a3⟩, fun x hx y hy => ?_⟩
    rcases List.mem_cons.1 hy with rfl | hy
    · exact fun z hz w hw => a4 x hx ((p', a, l) :: y) (by simp) z hz w (List.mem_cons_of_mem _ hw)
    · exact a4 x hx y (List.mem_cons_of_mem _ hy)

theorem coreR_call (tr : ∀ a x y z, rely a x y → rely a y z → rely a x z) (rf : ∀ a x, rely a x x)
    {s : S} {pre post : List (List (Prog S α))} {f : S → S} {k : S → Prog S α} {q : List (Prog S α)} {t : T}
    {r : List (List (Prog S α × List O))} (h : CoreR inv abs st b rely par (s, pre ++ (.call f k :: q) :: post) t r)
    (hs : inv s) (hs' : inv (f s)) :
    ∃ i e r', Move b r i e r' ∧ CoreR inv abs st b rely par (f s, pre ++ (k s :: q) :: post) (e.foldl st t) r' := by
  obtain ⟨ats, h1, rfl, h2, h3, rfl⟩ := h
  obtain ⟨l1, y, l2, rfl, rfl, hy, rfl⟩ := RG.map_split h1
  obtain ⟨⟨p', a, l⟩, q', rfl, he, rfl⟩ := List.map_eq_cons_iff.1 hy.symm
  dsimp only at he
  subst he
  obtain ⟨i1, i2⟩ := h2 ((.call f k, a, l) :: q') (by simp)
  obtain ⟨g, e, l', rfl, h6, h7⟩ := i1 s (rf _ _) hs hs'
  rw [List.pairwise_append, List.pairwise_cons] at h3
  obtain ⟨a1, ⟨a2, a3⟩, a4⟩ := h3
  refine ⟨_, e, _, by simpa using Move.call _ _ f k s e l' _, l1 ++ ((k s, a, l') :: q') :: l2, by simp, by simp, fun x hx => ?_, ?_, h6⟩
  · simp only [List.mem_append, List.mem_cons] at hx
    rcases hx with hx | rfl | hx
    · exact (h2 x (by simp [hx])).other tr (fun z hz => g _ (a4 x hx _ List.mem_cons_self z hz _ List.mem_cons_self).2)
    · exact ⟨h7, i2⟩
    · exact (h2 x (by simp [hx])).other tr (fun z hz => g _ (a2 x hx _ List.mem_cons_self z hz).1)
  · rw [List.pairwise_append, List.pairwise_cons]
    have key : ∀ z ∈ (k s, a, l') :: q', ∃ w ∈ (Prog.call f k, a, e ++ l') :: q', w.2.1 = z.2.1 := by
      intro z hz
      rcases List.mem_cons.1 hz with rfl | hz
      · exact ⟨_, List.mem_cons_self, rfl⟩
      · exact ⟨z, List.mem_cons_of_mem _ hz, rfl⟩
    refine ⟨a1, ⟨fun y hy z hz w hw => ?_, a3⟩, fun x hx y hy => ?_⟩
    · obtain ⟨z', hz', e1⟩ := key z hz
      rw [← e1]
      exact a2 y hy z' hz' w hw
    · rcases List.mem_cons.1 hy with rfl | hy
      · intro z hz w hw
        obtain ⟨w', hw', e1⟩ := key w hw
        rw [← e1]
        exact a4 x hx _ List.mem_cons_self z hz w' hw'
      · exact a4 x hx y (List.mem_cons_of_mem _ hy)

theorem coreR_step (tr : ∀ a x y z, rely a x y → rely a y z → rely a x z) (rf : ∀ a x, rely a x x)
    {x : Nat → S × List (List (Prog S α))} {N : Nat} (hx : Course b x N) (hi : ∀ k ≤ N, inv (x k).1) :
    ∀ k < N, ∀ t q, CoreR inv abs st b rely par (x k) t q →
      ∃ i e q', Move b q i e q' ∧ CoreR inv abs st b rely par (x (k + 1)) (e.foldl st t) q' := by
  intro k hk t q h
  have i1 := hi k (by omega)
  have i2 := hi (k + 1) hk
  rcases course_cases hx hk with ⟨s, pre, post, f, g, r, e1, e2⟩ | ⟨s, pre, post, p, r, e1, e2, hb⟩
  · rw [e1] at h i1
    rw [e2] at i2 ⊢
    exact coreR_call tr rf h i1 i2
  · rw [e1] at h
    rw [e2]
    exact coreR_pop h hb

end

namespace RG

section

variable {G A : Type} (R : RG S G A) (abs : S → T) (st : T → O → T → Prop) (J : S → Prop) (b : Bool)

/-- `LinE` without the history -/
def CoreE (x : S × List (List (Prog S α))) (t : T) (q : List (List (Prog S α × List O))) : Prop :=
  ∃ (g : G) (ats : List (List (Labelled S A α O))), x.2 = ats.map (List.map Prod.fst) ∧ q = ats.map (List.map (fun e => (e.1, e.2.2))) ∧
    R.inv x.1 g ∧ (∀ q ∈ ats, R.ThreadE abs st J b (x.1, g) q) ∧ ats.Pairwise (ApartR R.par) ∧ abs x.1 = t

variable {R abs st J b}

/-- a program is dropped -/
theorem coreE_drop {s : S} {pre post : List (List (Prog S α × List O))} {p : Prog S α} {l : List O} {q : List (Prog S α × List O)} {t : T}
    (h : R.CoreE abs st J b (s, (pre ++ ((p, l) :: q) :: post).map (List.map Prod.fst)) t (pre ++ ((p, l) :: q) :: post)) :
    (∀ a, p = .ret a → b = true ∨ l = []) ∧
      R.CoreE abs st J b (s, (pre ++ q :: post).map (List.map Prod.fst)) t (pre ++ q :: post) := by
  obtain ⟨g, ats, -, h1, hi, h2, h3, h5⟩ := h
  obtain ⟨l1, y, l2, rfl, rfl, hy, rfl⟩ := map_split h1
  obtain ⟨⟨p', a, l⟩, q', rfl, he, rfl⟩ := List.map_eq_cons_iff.1 hy.symm
  cases he
  refine ⟨fun r hr => ?_, g, l1 ++ q' :: l2, by simp [Function.comp_def], by simp, hi, fun x hx => ?_, ?_, h5⟩
  · have := (h2 ((p', a, l) :: q') (by simp)).1
    dsimp only at hr
    subst hr
    exact this
  · simp only [List.mem_append, List.mem_cons] at hx
    rcases hx with hx | rfl | hx
    · exact h2 x (by simp [hx])
    · exact (h2 ((p', a, l) :: x) (by simp)).pop
    · exact h2 x (by simp [hx])
  · rw [List.pairwise_append, List.pairwise_cons] at h3 ⊢
    obtain ⟨a1, ⟨a2, a3⟩, a4⟩ := h3
    refine ⟨a1, ⟨fun y hy => fun x hx z hz => a2 y hy x (List.mem_cons_of_mem _ hx) z hz, a3⟩, fun x hx y hy => ?_⟩
    rcases List.mem_cons.1 hy with rfl | hy
    · exact fun z hz w hw => a4 x hx ((p', a, l) :: y) (by simp) z hz w (List.mem_cons_of_mem _ hw)
    · exact a4 x hx y (List.mem_cons_of_mem _ hy)

/-- a program performs a call -/
theorem coreE_act {s : S} {pre post : List (List (Prog S α × List O))} {f : S → S} {k : S → Prog S α} {l : List O}
    {q : List (Prog S α × List O)} {t : T}
    (h : R.CoreE abs st J b (s, (pre ++ ((.call f k, l) :: q) :: post).map (List.map Prod.fst)) t (pre ++ ((.call f k, l) :: q) :: post))
    (hJ : J s) :
    ∃ e l' t', l = e ++ l' ∧ Spec.Runs st t e t' ∧
      R.CoreE abs st J b (f s, (pre ++ ((k s, l') :: q) :: post).map (List.map Prod.fst)) t' (pre ++ ((k s, l') :: q) :: post) := by
  obtain ⟨g, ats, -, h1, hi, h2, h3, h5⟩ := h
  obtain ⟨l1, y, l2, rfl, rfl, hy, rfl⟩ := map_split h1
  obtain ⟨⟨p', a, l⟩, q', rfl, he, rfl⟩ := List.map_eq_cons_iff.1 hy.symm
  dsimp only at he h5
  cases he
  subst h5
  obtain ⟨i1, i2, i3, i4⟩ := h2 ((.call f k, a, l) :: q') (by simp)
  obtain ⟨a', g', ha, e, l', rfl, h6, h7⟩ := i1 s g (R.rely_refl _ _) hi (i4 _ List.mem_cons_self) hJ
  rw [List.pairwise_append, List.pairwise_cons] at h3
  obtain ⟨a1, ⟨a2, a3⟩, a4⟩ := h3
  refine ⟨e, l', _, rfl, h6, g', l1 ++ ((k s, a', l') :: q') :: l2, by simp [Function.comp_def], by simp, ha.2.1,
    fun x hx => ?_, ?_, rfl⟩
  · simp only [List.mem_append, List.mem_cons] at hx
    rcases hx with hx | rfl | hx
    · exact (h2 x (by simp [hx])).other ha (fun z hz => (a4 x hx _ List.mem_cons_self z hz _ List.mem_cons_self).2)
    · refine ⟨h7, i2, ?_, fun z hz => ?_⟩
      · rw [List.pairwise_cons] at i3 ⊢
        exact ⟨fun z hz => R.seq_le _ _ _ ha.1 (i3.1 z hz), i3.2⟩
      · rcases List.mem_cons.1 hz with rfl | hz
        · exact ha.2.2.1
        · exact ha.2.2.2.2 _ ((List.pairwise_cons.1 i3).1 z hz) (i4 z (List.mem_cons_of_mem _ hz))
    · exact (h2 x (by simp [hx])).other ha (fun z hz => (a2 x hx _ List.mem_cons_self z hz).1)
  · have key : ∀ x : List (Labelled S A α O),
        (∀ z ∈ x, ∀ z' ∈ (Prog.call f k, a, e ++ l') :: q', R.par z.2.1 z'.2.1 ∧ R.par z'.2.1 z.2.1) →
        ∀ z ∈ x, ∀ z' ∈ (k s, a', l') :: q', R.par z.2.1 z'.2.1 ∧ R.par z'.2.1 z.2.1 := by
      intro x hx z hz z' hz'
      rcases List.mem_cons.1 hz' with rfl | hz'
      · obtain ⟨p1, p2⟩ := hx z hz (Prog.call f k, a, e ++ l') (by simp)
        exact ⟨(R.par_le _ _ _ ha.1).2 p1, (R.par_le _ _ _ ha.1).1 p2⟩
      · exact hx z hz z' (List.mem_cons_of_mem _ hz')
    rw [List.pairwise_append, List.pairwise_cons]
    refine ⟨a1, ⟨fun y hy => ?_, a3⟩, fun x hx y hy => ?_⟩
    · intro z hz z' hz'
      exact (key y (fun e he e' he' => (a2 y hy e' he' e he).symm) z' hz' z hz).symm
    · rcases List.mem_cons.1 hy with rfl | hy
      · exact key x (fun e he e' he' => a4 x hx _ List.mem_cons_self e he e' he')
      · exact a4 x hx y (List.mem_cons_of_mem _ hy)

theorem coreE_split {s : S} {pre post : List (List (Prog S α))} {p : Prog S α} {q : List (Prog S α)} {t : T}
    {r : List (List (Prog S α × List O))} (h : R.CoreE abs st J b (s, pre ++ (p :: q) :: post) t r) :
    ∃ pre' l q' post', r = pre' ++ ((p, l) :: q') :: post' ∧ pre'.map (List.map Prod.fst) = pre ∧ q'.map Prod.fst = q ∧
      post'.map (List.map Prod.fst) = post := by
  have e : r.map (List.map Prod.fst) = pre ++ (p :: q) :: post := by
    obtain ⟨g, ats, h1, rfl, -⟩ := h
    dsimp only at h1
    rw [h1]; simp [Function.comp_def]
  obtain ⟨pre', y, post', rfl, rfl, hy, rfl⟩ := map_split e.symm
  obtain ⟨⟨p', l⟩, q', rfl, rfl, rfl⟩ := List.map_eq_cons_iff.1 hy.symm
  exact ⟨pre', l, q', post', rfl, rfl, rfl, rfl⟩

theorem coreE_pop {s : S} {pre post : List (List (Prog S α))} {p : Prog S α} {q : List (Prog S α)} {t : T}
    {r : List (List (Prog S α × List O))} (h : R.CoreE abs st J b (s, pre ++ (p :: q) :: post) t r) (hb : b = true ∨ ∃ a, p = .ret a) :
    ∃ i e r' t', Move b r i e r' ∧ Spec.Runs st t e t' ∧ R.CoreE abs st J b (s, pre ++ q :: post) t' r' := by
  obtain ⟨pre, l, q, post, rfl, rfl, rfl, rfl⟩ := coreE_split h
  obtain ⟨h1, h2⟩ := coreE_drop (by simpa using h)
  exact ⟨_, [], _, t, .pop _ _ p l _ (hb.elim .inl (fun ⟨a, ha⟩ => h1 a ha)), rfl, by simpa using h2⟩

theorem coreE_call {s : S} {pre post : List (List (Prog S α))} {f : S → S} {k : S → Prog S α} {q : List (Prog S α)} {t : T}
    {r : List (List (Prog S α × List O))} (h : R.CoreE abs st J b (s, pre ++ (.call f k :: q) :: post) t r) (hJ : J s) :
    ∃ i e r' t', Move b r i e r' ∧ Spec.Runs st t e t' ∧ R.CoreE abs st J b (f s, pre ++ (k s :: q) :: post) t' r' := by
  obtain ⟨pre, l, q, post, rfl, rfl, rfl, rfl⟩ := coreE_split h
  obtain ⟨e, l', t', rfl, h1, h2⟩ := coreE_act (by simpa using h) hJ
  exact ⟨_, e, _, t', .call _ _ f k s e l' _, h1, by simpa using h2⟩

theorem coreE_step {x : Nat → S × List (List (Prog S α))} {N : Nat} (hx : Course b x N) (hJ : ∀ k ≤ N, J (x k).1) :
    ∀ k < N, ∀ t q, R.CoreE abs st J b (x k) t q →
      ∃ i e q' t', Move b q i e q' ∧ Spec.Runs st t e t' ∧ R.CoreE abs st J b (x (k + 1)) t' q' := by
  intro k hk t q h
  have j1 := hJ k (by omega)
  rcases course_cases hx hk with ⟨s, pre, post, f, g, r, e1, e2⟩ | ⟨s, pre, post, p, r, e1, e2, hb⟩
  · rw [e1] at h j1
    rw [e2]
    exact coreE_call h j1
  · rw [e1] at h
    rw [e2]
    exact coreE_pop h hb

end

variable {G A : Type} (R : RG S G A) (abs : G → T) (st : T → O → T) (b : Bool)

/-- `Runs` without the history -/
def Core (x : S × List (List (Prog S α))) (t : T) (q : List (List (Prog S α × List O))) : Prop :=
  ∃ (g : G) (ats : List (List (Job S A α O))), x.2 = ats.map (List.map Prod.fst) ∧ q = ats.map (List.map (fun e => (e.1, e.2.2))) ∧
    R.inv x.1 g ∧ (∀ q ∈ ats, R.ThreadDoes abs st b (x.1, g) q) ∧ ats.Pairwise R.JobsApart ∧ abs g = t

variable {abs st b}

theorem core_pop {s : S} {pre post : List (List (Prog S α))} {p : Prog S α} {q : List (Prog S α)} {t : T}
    {r : List (List (Prog S α × List O))} (h : R.Core abs st b (s, pre ++ (p :: q) :: post) t r) (hb : b = true ∨ ∃ a, p = .ret a) :
    ∃ i e r', Move b r i e r' ∧ R.Core abs st b (s, pre ++ q :: post) (e.foldl st t) r' := by
  obtain ⟨g, ats, h1, rfl, h2, h3, h4, h6⟩ := h
  obtain ⟨l1, y, l2, rfl, rfl, hy, rfl⟩ := RG.map_split h1
  obtain ⟨⟨p', a, l⟩, q', rfl, he, rfl⟩ := List.map_eq_cons_iff.1 hy.symm
  dsimp only at he
  subst he
  have hl : b = true ∨ l = [] := by
    rcases hb with hb | ⟨r, rfl⟩
    · exact .inl hb
    · exact (h3 ((.ret r, a, l) :: q') (by simp)).1
  refine ⟨_, [], _, by simpa using Move.pop _ _ p' l _ hl, g, l1 ++ q' :: l2, by simp, by simp, h2, fun x hx => ?_, ?_, h6⟩
  · simp only [List.mem_append, List.mem_cons] at hx
    rcases hx with hx | rfl | hx
    · exact h3 x (by simp [hx])
    · exact (h3 ((p', a, l) :: x) (by simp)).pop
    · exact h3 x (by simp [hx])
  · rw [List.pairwise_append, List.pairwise_cons] at h4 ⊢
    obtain ⟨a1, ⟨a2, a3⟩, a4⟩ := h4
    refine ⟨a1, ⟨fun y hy => fun x hx z hz => a2 y hy x (List.mem_cons_of_mem _ hx) z hz, a3⟩, fun x hx y hy => ?_⟩
    rcases List.mem_cons.1 hy with rfl | hy
    · exact fun z hz w hw => a4 x hx ((p', a, l) :: y) (by simp) z hz w (List.mem_cons_of_mem _ hw)
    · exact a4 x hx y (List.mem_cons_of_mem _ hy)

theorem core_call {s : S} {pre post : List (List (Prog S α))} {f : S → S} {k : S → Prog S α} {q : List (Prog S α)} {t : T}
    {r : List (List (Prog S α × List O))} (h : R.Core abs st b (s, pre ++ (.call f k :: q) :: post) t r) :
    ∃ i e r', Move b r i e r' ∧ R.Core abs st b (f s, pre ++ (k s :: q) :: post) (e.foldl st t) r' := by
  obtain ⟨g, ats, h1, rfl, h2, h3, h4, h6⟩ := h
  obtain ⟨l1, y, l2, rfl, rfl, hy, rfl⟩ := RG.map_split h1
  obtain ⟨⟨p', a, l⟩, q', rfl, he, rfl⟩ := List.map_eq_cons_iff.1 hy.symm
  dsimp only at he h2 h3
  subst he
  obtain ⟨a', g', e, l', ha, rfl, hab, ht⟩ := (h3 _ (List.mem_append_right _ List.mem_cons_self)).self R h2
  rw [List.pairwise_append, List.pairwise_cons] at h4
  obtain ⟨a1, ⟨a2, a3⟩, a4⟩ := h4
  refine ⟨_, e, _, by simpa using Move.call _ _ f k s e l' _, g', l1 ++ ((k s, a', l') :: q') :: l2, by simp, by simp, ha.2.1,
    fun x hx => ?_, ?_, by rw [hab, h6]⟩
  · simp only [List.mem_append, List.mem_cons] at hx
    rcases hx with hx | rfl | hx
    · exact (h3 x (by simp [hx])).other R ha
        (fun e he => (a4 x hx _ List.mem_cons_self e he (Prog.call f k, a, _) List.mem_cons_self).2)
    · exact ht
    · exact (h3 x (by simp [hx])).other R ha (fun e he => (a2 x hx (Prog.call f k, a, _) List.mem_cons_self e he).1)
  · have key : ∀ x : List (Job S A α O),
        (∀ e1 ∈ x, ∀ e' ∈ (Prog.call f k, a, e ++ l') :: q', R.par e1.2.1 e'.2.1 ∧ R.par e'.2.1 e1.2.1) →
        ∀ e1 ∈ x, ∀ e' ∈ (k s, a', l') :: q', R.par e1.2.1 e'.2.1 ∧ R.par e'.2.1 e1.2.1 := by
      intro x hx e1 he e' he'
      rcases List.mem_cons.1 he' with rfl | he'
      · obtain ⟨p1, p2⟩ := hx e1 he (Prog.call f k, a, _) List.mem_cons_self
        exact ⟨(R.par_le _ _ _ ha.1).2 p1, (R.par_le _ _ _ ha.1).1 p2⟩
      · exact hx e1 he e' (List.mem_cons_of_mem _ he')
    rw [List.pairwise_append, List.pairwise_cons]
    refine ⟨a1, ⟨fun y hy => ?_, a3⟩, fun x hx y hy => ?_⟩
    · intro e he e' he'
      exact (key y (fun e he e' he' => (a2 y hy e' he' e he).symm) e' he' e he).symm
    · rcases List.mem_cons.1 hy with rfl | hy
      · exact key x (fun e he e' he' => a4 x hx _ List.mem_cons_self e he e' he')
      · exact a4 x hx y (List.mem_cons_of_mem _ hy)

theorem core_step {x : Nat → S × List (List (Prog S α))} {N : Nat} (hx : Course b x N) :
    ∀ k < N, ∀ t q, R.Core abs st b (x k) t q → ∃ i e q', Move b q i e q' ∧ R.Core abs st b (x (k + 1)) (e.foldl st t) q' := by
  intro k hk t q h
  rcases course_cases hx hk with ⟨s, pre, post, f, g, r, e1, e2⟩ | ⟨s, pre, post, p, r, e1, e2, hb⟩
  · rw [e1] at h
    rw [e2]
    exact R.core_call h
  · rw [e1] at h
    rw [e2]
    exact R.core_pop h hb

end RG

end Verif
