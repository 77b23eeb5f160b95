import Verif.Spec.SledFeed
import Mathlib.Data.List.ReduceOption
import Mathlib.Logic.Function.Basic
import Mathlib.Data.Nat.Find

/-!
# Programs that do what others do, and may be known only afterwards
-/

namespace Verif

universe w

variable {S T : Type} {C : Type w}

/-- The configurations `C` stand for programs on `S`; `label` tells which call it is: the number of the thread, and how many calls are left
with it.  At the moment `k`, `A k cf o`: what is left of the execution of `cf` amounts to that of the program `o` on the part `view` of the
state (or to nothing).  Which program it is may depend on what happens later, until the moment `stop`. -/
structure Simulates (prog : C → Prog S Unit) (label : C → Nat × Nat) (stop : Nat × Nat → Nat) (view : S → T) (X : Nat → S)
    (A : Nat → C → Option (Prog T Unit) → Prop) : Prop where
  step : ∀ k cf f κ, k < stop (label cf) → prog cf = .call f κ → ∃ cf', label cf' = label cf ∧ prog cf' = κ (X k) ∧
    ∀ o', A (k + 1) cf' o' → ∃ o, A k cf o ∧ ((o = o' ∧ view (f (X k)) = view (X k)) ∨
      ∃ f' κ', o = some (.call f' κ') ∧ o' = some (κ' (view (X k))) ∧ view (f (X k)) = f' (view (X k)))
  ret : ∀ k cf a, k < stop (label cf) → prog cf = .ret a → A k cf none ∨ A k cf (some (.ret a))
  any : ∀ k cf, k ≤ stop (label cf) → ∃ o, A k cf o
  mono : ∀ k cf o, k < stop (label cf) → A (k + 1) cf o → A k cf o

/-- The calls begin at the moments `start` and are over at the moments `stop`. -/
structure Clock {S : Type} (x : Nat → S × List (List (Prog S Unit))) (N : Nat) (start stop : Nat × Nat → Nat) : Prop where
  first : ∀ i r, Sled.queued x 0 i = some r → start (i, r) = 0
  begins : ∀ k < N, ∀ i r, Sled.queued x k i = some (r + 1) → Sled.queued x (k + 1) i = some r → start (i, r) = k + 1
  runs : ∀ k < N, ∀ i r, Sled.queued x k i = some (r + 1) → k < stop (i, r + 1)
  last : ∀ i r, Sled.queued x N i = some r → N ≤ stop (i, r)
  le : ∀ y, start y ≤ stop y

theorem forall₂_mono {α β : Type*} {R R' : α → β → Prop} {as : List α} {bs : List β} (h : ∀ a b, R a b → R' a b)
    (hl : List.Forall₂ R as bs) : List.Forall₂ R' as bs := by
  induction hl with
  | nil => exact .nil
  | cons h1 _ ih => exact .cons (h _ _ h1) ih

theorem map_eq_append_cons {α β : Type*} {f : α → β} {l : List α} {pre post : List β} {b : β} (h : pre ++ b :: post = l.map f) :
    ∃ pre' a post', l = pre' ++ a :: post' ∧ pre = pre'.map f ∧ b = f a ∧ post = post'.map f := by
  obtain ⟨l1, l2, rfl, h1, h2⟩ := List.map_eq_append_iff.1 h.symm
  obtain ⟨a, l3, rfl, h3, h4⟩ := List.map_eq_cons_iff.1 h2
  exact ⟨l1, a, l3, rfl, h1.symm, h3.symm, h4.symm⟩

theorem forall₂_append_cons {α β : Type*} {R : α → β → Prop} {pre post : List α} {a : α} {bs : List β}
    (h : List.Forall₂ R (pre ++ a :: post) bs) :
    ∃ pre' b post', bs = pre' ++ b :: post' ∧ List.Forall₂ R pre pre' ∧ R a b ∧ List.Forall₂ R post post' := by
  induction pre generalizing bs with
  | nil =>
    cases h with
    | cons h1 h2 => exact ⟨[], _, _, rfl, .nil, h1, h2⟩
  | cons x pre ih =>
    cases h with
    | cons h1 h2 =>
      obtain ⟨p, b, q, rfl, e1, e2, e3⟩ := ih h2
      exact ⟨_ :: p, b, q, rfl, .cons h1 e1, e2, e3⟩

theorem forall₂_append_cons' {α β : Type*} {R : α → β → Prop} {pre post : List α} {a : α} {pre' post' : List β} {b : β}
    (h1 : List.Forall₂ R pre pre') (h2 : R a b) (h3 : List.Forall₂ R post post') :
    List.Forall₂ R (pre ++ a :: post) (pre' ++ b :: post') := by
  induction h1 with
  | nil => exact .cons h2 h3
  | cons h _ ih => exact .cons h ih

variable {prog : C → Prog S Unit} {label : C → Nat × Nat} {start stop : Nat × Nat → Nat} {view : S → T} {X : Nat → S} {N : Nat}
  {A : Nat → C → Option (Prog T Unit) → Prop}

/-- The first configuration is under way; the others are to begin. -/
inductive Underway (label : C → Nat × Nat) (start : Nat × Nat → Nat) (A : Nat → C → Option (Prog T Unit) → Prop) (k : Nat) :
    List C → List (Option (Prog T Unit)) → Prop
  | nil : Underway label start A k [] []
  | cons {cf : C} {o : Option (Prog T Unit)} {cs : List C} {os : List (Option (Prog T Unit))} (h : A k cf o)
      (hs : List.Forall₂ (fun cf o => A (start (label cf)) cf o) cs os) : Underway label start A k (cf :: cs) (o :: os)

/-- The labels are right. -/
def Numbered (label : C → Nat × Nat) (cs : List (List C)) : Prop :=
  ∀ i th j cf, cs[i]? = some th → th[j]? = some cf → label cf = (i, th.length - j)

theorem Numbered.set {pre post : List (List C)} {th th' : List C} (h : Numbered label (pre ++ th :: post))
    (h' : ∀ j cf, th'[j]? = some cf → label cf = (pre.length, th'.length - j)) : Numbered label (pre ++ th' :: post) := by
  intro i t j cf h1 h2
  rcases Nat.lt_trichotomy i pre.length with hi | rfl | hi
  · rw [List.getElem?_append_left hi] at h1
    exact h i t j cf (by rw [List.getElem?_append_left hi]; exact h1) h2
  · rw [List.getElem?_append_right le_rfl, Nat.sub_self, List.getElem?_cons_zero] at h1
    cases h1
    exact h' j cf h2
  · obtain ⟨d, rfl⟩ : ∃ d, i = pre.length + (d + 1) := ⟨i - pre.length - 1, by omega⟩
    have e : ∀ u : List C, (pre ++ u :: post)[pre.length + (d + 1)]? = post[d]? := by
      intro u
      rw [List.getElem?_append_right (Nat.le_add_right _ _), Nat.add_sub_cancel_left, List.getElem?_cons_succ]
    rw [e] at h1
    exact h _ t j cf (by rw [e]; exact h1) h2

theorem queued_of {x : Nat → S × List (List (Prog S Unit))} {k : Nat} {pre post : List (List C)} {th : List C}
    (h : (x k).2 = (pre ++ th :: post).map (List.map prog)) : Sled.queued x k pre.length = some th.length := by
  unfold Sled.queued
  rw [h, List.getElem?_map, List.getElem?_append_right le_rfl, Nat.sub_self, List.getElem?_cons_zero]
  simp

/-- one step -/
theorem Simulates.one (h : Simulates prog label stop view X A) {part : Bool} {x : Nat → S × List (List (Prog S Unit))}
    (clock : Clock x N start stop) {k : Nat} (hk : k < N)
    (hX : X k = (x k).1) (hs : if part then Step (x k) (x (k + 1)) else CalmStep (x k) (x (k + 1))) {cs : List (List C)}
    (hl : Numbered label cs) (hc : (x k).2 = cs.map (List.map prog)) :
    ∃ cs' : List (List C), Numbered label cs' ∧ (x (k + 1)).2 = cs'.map (List.map prog) ∧
      ∀ os', List.Forall₂ (Underway label start A (k + 1)) cs' os' →
      ∃ os, List.Forall₂ (Underway label start A k) cs os ∧
        (((view (x (k + 1)).1, os'.map List.reduceOption) = (view (x k).1, os.map List.reduceOption)) ∨
          if part then Step (view (x k).1, os.map List.reduceOption) (view (x (k + 1)).1, os'.map List.reduceOption)
          else CalmStep (view (x k).1, os.map List.reduceOption) (view (x (k + 1)).1, os'.map List.reduceOption)) := by
  have now : ∀ pre th post, cs = pre ++ th :: post → ∀ cf tl, th = cf :: tl → k < stop (label cf) := by
    rintro pre th post rfl cf tl rfl
    have e1 := hl pre.length (cf :: tl) 0 cf (by rw [List.getElem?_append_right le_rfl, Nat.sub_self]; rfl) rfl
    rw [e1]
    exact clock.runs k hk _ _ (queued_of hc)
  have ups : ∀ l : List (List C), (∀ th ∈ l, th ∈ cs) → ∀ o, List.Forall₂ (Underway label start A (k + 1)) l o →
      List.Forall₂ (Underway label start A k) l o := by
    intro l hm o hl
    induction hl with
    | nil => exact .nil
    | @cons a b l l' h1 _ ih =>
      refine .cons ?_ (ih (fun th hth => hm th (List.mem_cons_of_mem _ hth)))
      cases h1 with
      | nil => exact .nil
      | cons h2 h3 =>
        obtain ⟨pre, post, e⟩ := List.append_of_mem (hm _ List.mem_cons_self)
        exact .cons (h.mono k _ _ (now _ _ _ e _ _ rfl) h2) h3
  have begin : ∀ {pre post : List (List C)} {cf : C} {cq : List C} {o}, cs = pre ++ (cf :: cq) :: post →
      (x (k + 1)).2 = (pre ++ cq :: post).map (List.map prog) → Underway label start A (k + 1) cq o →
      List.Forall₂ (fun cf o => A (start (label cf)) cf o) cq o := by
    rintro pre post cf cq o rfl e hu
    cases hu with
    | nil => exact .nil
    | @cons c2 o2 cq os2 h1 h2 =>
      refine .cons ?_ h2
      have e1 := hl pre.length (cf :: c2 :: cq) 1 c2 (by rw [List.getElem?_append_right le_rfl, Nat.sub_self]; rfl) rfl
      rw [e1]
      have e2 := clock.begins k hk pre.length (c2 :: cq).length (queued_of hc) (queued_of e)
      have e3 : (cf :: c2 :: cq).length - 1 = (c2 :: cq).length := by simp
      rw [e3, e2]
      exact h1
  have popped : ∀ {pre post : List (List C)} {cf : C} {cq : List C}, cs = pre ++ (cf :: cq) :: post →
      Numbered label (pre ++ cq :: post) := by
    rintro pre post cf cq rfl
    refine Numbered.set hl (fun j c2 hj => ?_)
    have := hl pre.length (cf :: cq) (j + 1) c2 (by rw [List.getElem?_append_right le_rfl, Nat.sub_self]; rfl) hj
    rw [this, List.length_cons, Nat.add_sub_add_right]
  rcases hxk : x k with ⟨s, ths⟩
  rcases hxk' : x (k + 1) with ⟨s', ths'⟩
  rw [hxk, hxk'] at hs
  rw [hxk] at hc hX
  rw [hxk'] at begin
  simp only at hc hX begin ⊢
  -- the calls
  have call : ∀ (pre post : List (List (Prog S Unit))) (f : S → S) (κ : S → Prog S Unit) (q : List (Prog S Unit)),
      ths = pre ++ (.call f κ :: q) :: post → s' = f s → ths' = pre ++ (κ s :: q) :: post →
      ∃ cs' : List (List C), Numbered label cs' ∧ ths' = cs'.map (List.map prog) ∧
      ∀ os', List.Forall₂ (Underway label start A (k + 1)) cs' os' →
      ∃ os, List.Forall₂ (Underway label start A k) cs os ∧
        (((view s', os'.map List.reduceOption) = (view s, os.map List.reduceOption)) ∨
          CalmStep (view s, os.map List.reduceOption) (view s', os'.map List.reduceOption)) := by
    rintro pre post f κ q e1 rfl rfl
    rw [e1] at hc
    obtain ⟨cpre, cth, cpost, rfl, rfl, e2, rfl⟩ := map_eq_append_cons hc
    obtain ⟨cf, cq, rfl, e3, rfl⟩ := List.map_eq_cons_iff.1 e2.symm
    obtain ⟨cf', e5, e4, key⟩ := h.step k cf f κ (now _ _ _ rfl _ _ rfl) e3
    refine ⟨cpre ++ (cf' :: cq) :: cpost, ?_, by simp [e4, hX], fun os' hos => ?_⟩
    · refine Numbered.set hl (fun j c2 hj => ?_)
      have hi : (cpre ++ (cf :: cq) :: cpost)[cpre.length]? = some (cf :: cq) := by
        rw [List.getElem?_append_right le_rfl, Nat.sub_self]; rfl
      cases j with
      | zero =>
        cases hj
        rw [e5]
        exact hl _ (cf :: cq) 0 cf hi rfl
      | succ j => exact hl _ (cf :: cq) (j + 1) c2 hi hj
    obtain ⟨opre, oth, opost, rfl, h1, h2, h3⟩ := forall₂_append_cons hos
    have h1 := ups _ (fun th hth => by simp [hth]) _ h1
    have h3 := ups _ (fun th hth => by simp [hth]) _ h3
    cases h2 with
    | cons h2 h4 =>
      obtain ⟨o, ho, hcase⟩ := key _ h2
      refine ⟨_, forall₂_append_cons' h1 (.cons ho h4) h3, ?_⟩
      rw [hX] at hcase
      rcases hcase with ⟨rfl, hv⟩ | ⟨f', κ', rfl, rfl, hv⟩
      · exact .inl (by rw [hv])
      · right
        rw [hv]
        simp only [List.map_append, List.map_cons, List.reduceOption_cons_of_some]
        exact .call _ _ _ _ _ _
  have rets : ∀ (pre post : List (List (Prog S Unit))) (a : Unit) (q : List (Prog S Unit)),
      ths = pre ++ (.ret a :: q) :: post → s' = s → ths' = pre ++ q :: post →
      ∃ cs' : List (List C), Numbered label cs' ∧ ths' = cs'.map (List.map prog) ∧
      ∀ os', List.Forall₂ (Underway label start A (k + 1)) cs' os' →
      ∃ os, List.Forall₂ (Underway label start A k) cs os ∧
        (((view s', os'.map List.reduceOption) = (view s, os.map List.reduceOption)) ∨
          CalmStep (view s, os.map List.reduceOption) (view s', os'.map List.reduceOption)) := by
    rintro pre post a q e1 rfl rfl
    rw [e1] at hc
    obtain ⟨cpre, cth, cpost, rfl, rfl, e2, rfl⟩ := map_eq_append_cons hc
    obtain ⟨cf, cq, rfl, e3, rfl⟩ := List.map_eq_cons_iff.1 e2.symm
    refine ⟨cpre ++ cq :: cpost, popped rfl, by simp, fun os' hos => ?_⟩
    obtain ⟨opre, oth, opost, rfl, h1, h2, h3⟩ := forall₂_append_cons hos
    have h1 := ups _ (fun th hth => by simp [hth]) _ h1
    have h3 := ups _ (fun th hth => by simp [hth]) _ h3
    have h2 := begin rfl (by simp) h2
    rcases h.ret k cf a (now _ _ _ rfl _ _ rfl) e3 with ho | ho
    · refine ⟨_, forall₂_append_cons' h1 (.cons ho h2) h3, .inl ?_⟩
      simp [List.reduceOption_cons_of_none]
    · refine ⟨_, forall₂_append_cons' h1 (.cons ho h2) h3, .inr ?_⟩
      simp only [List.map_append, List.map_cons, List.reduceOption_cons_of_some]
      exact .ret _ _ _ _ _
  cases part with
  | false =>
    simp only [Bool.false_eq_true, if_false] at hs ⊢
    cases hs with
    | call s pre post f κ q => exact call pre post f κ q rfl rfl rfl
    | ret s pre post a q => exact rets pre post a q rfl rfl rfl
  | true =>
    simp only [if_true] at hs ⊢
    have weak : ∀ {z z' : T × List (List (Prog T Unit))}, CalmStep z z' → Step z z' := by
      intro z z' hz
      cases hz with
      | call => exact .call _ _ _ _ _ _
      | ret => exact .ret _ _ _ _ _
    cases hs with
    | call s pre post f κ q =>
      obtain ⟨cs', e0, e, key⟩ := call pre post f κ q rfl rfl rfl
      refine ⟨cs', e0, e, fun os' hos => ?_⟩
      obtain ⟨os, h1, h2⟩ := key os' hos
      exact ⟨os, h1, h2.imp_right weak⟩
    | ret s pre post a q =>
      obtain ⟨cs', e0, e, key⟩ := rets pre post a q rfl rfl rfl
      refine ⟨cs', e0, e, fun os' hos => ?_⟩
      obtain ⟨os, h1, h2⟩ := key os' hos
      exact ⟨os, h1, h2.imp_right weak⟩
    | fail s pre post p q =>
      obtain ⟨cpre, cth, cpost, rfl, rfl, e2, rfl⟩ := map_eq_append_cons hc
      obtain ⟨cf, cq, rfl, e3, rfl⟩ := List.map_eq_cons_iff.1 e2.symm
      refine ⟨cpre ++ cq :: cpost, popped rfl, by simp, fun os' hos => ?_⟩
      obtain ⟨opre, oth, opost, rfl, h1, h2, h3⟩ := forall₂_append_cons hos
      have h1 := ups _ (fun th hth => by simp [hth]) _ h1
      have h3 := ups _ (fun th hth => by simp [hth]) _ h3
      have h2 := begin rfl (by simp) h2
      obtain ⟨o, ho⟩ := h.any k cf (now _ _ _ rfl _ _ rfl).le
      refine ⟨_, forall₂_append_cons' h1 (.cons ho h2) h3, ?_⟩
      cases o with
      | none => exact .inl (by simp [List.reduceOption_cons_of_none])
      | some p' =>
        right
        simp only [List.map_append, List.map_cons, List.reduceOption_cons_of_some]
        exact .fail _ _ _ _ _

/-- from a moment on -/
theorem Simulates.from (h : Simulates prog label stop view X A) {part : Bool} {x : Nat → S × List (List (Prog S Unit))}
    (clock : Clock x N start stop) (hX : ∀ k ≤ N, X k = (x k).1) (hx : Spec.Course part x N) :
    ∀ (n k : Nat), k + n = N → ∀ cs : List (List C), Numbered label cs → (x k).2 = cs.map (List.map prog) →
    ∃ (os : List (List (Option (Prog T Unit)))) (y : Nat → T × List (List (Prog T Unit))),
      List.Forall₂ (Underway label start A k) cs os ∧
      y k = (view (x k).1, os.map List.reduceOption) ∧ (∀ j, k ≤ j → j ≤ N → (y j).1 = view (x j).1) ∧
      (∀ j, k ≤ j → j < N → y (j + 1) = y j ∨ if part then Step (y j) (y (j + 1)) else CalmStep (y j) (y (j + 1))) ∧
      ((∀ th ∈ (x N).2, th = []) → ∀ th ∈ (y N).2, th = []) := by
  intro n
  induction n with
  | zero =>
    intro k hk cs hl hc
    obtain rfl : k = N := hk
    have one : ∀ th : List C, ∃ o, List.Forall₂ (fun cf o => A (start (label cf)) cf o) th o := by
      intro th
      induction th with
      | nil => exact ⟨[], .nil⟩
      | cons cf th ih =>
        obtain ⟨o, ho⟩ := h.any (start (label cf)) cf (clock.le _)
        obtain ⟨os, hos⟩ := ih
        exact ⟨o :: os, .cons ho hos⟩
    have all : ∀ l : List (List C), (∀ th ∈ l, th ∈ cs) → ∃ os, List.Forall₂ (Underway label start A k) l os := by
      intro l
      induction l with
      | nil => exact fun _ => ⟨[], .nil⟩
      | cons th l ih =>
        intro hm
        obtain ⟨os, hos⟩ := ih (fun th hth => hm th (List.mem_cons_of_mem _ hth))
        cases th with
        | nil => exact ⟨_, .cons .nil hos⟩
        | cons cf tl =>
          obtain ⟨pre, post, rfl⟩ := List.append_of_mem (hm _ List.mem_cons_self)
          have e1 := hl pre.length (cf :: tl) 0 cf (by rw [List.getElem?_append_right le_rfl, Nat.sub_self]; rfl) rfl
          obtain ⟨o, ho⟩ := h.any k cf (by rw [e1]; exact clock.last _ _ (queued_of hc))
          obtain ⟨os', hos'⟩ := one tl
          exact ⟨_, .cons (.cons ho hos') hos⟩
    obtain ⟨os, hos⟩ := all cs (fun _ h => h)
    refine ⟨os, fun _ => (view (x k).1, os.map List.reduceOption), hos, rfl, fun j h1 h2 => ?_, fun j h1 h2 => by omega, fun he => ?_⟩
    · rw [le_antisymm h2 h1]
    · rw [hc] at he
      clear hc one all hl
      induction hos with
      | nil => simp
      | @cons a b l l' hab _ ih =>
        intro th hth
        have ha : a = [] := by
          have := he (a.map prog) (by simp)
          simpa using this
        subst ha
        cases hab
        rcases List.mem_cons.1 hth with rfl | hth
        · rfl
        · exact ih (fun t ht => he t (by rw [List.map_cons]; exact List.mem_cons_of_mem _ ht)) th hth
  | succ n ih =>
    intro k hk cs hl hc
    have hkN : k < N := by omega
    obtain ⟨cs', e0, e, key⟩ := h.one clock hkN (hX k hkN.le) (hx k hkN) hl hc
    obtain ⟨os', y, h1, h2, h3, h4, h5⟩ := ih (k + 1) (by omega) cs' e0 e
    obtain ⟨os, g1, g2⟩ := key os' h1
    refine ⟨os, Function.update y k (view (x k).1, os.map List.reduceOption), g1, Function.update_self .., ?_, ?_, ?_⟩
    · intro j hj hj'
      rcases Nat.eq_or_lt_of_le hj with rfl | hj
      · rw [Function.update_self]
      · rw [Function.update_of_ne (by omega)]
        exact h3 j hj hj'
    · intro j hj hj'
      rcases Nat.eq_or_lt_of_le hj with rfl | hj
      · rw [Function.update_self, Function.update_of_ne (by omega), h2]
        exact g2
      · rw [Function.update_of_ne (by omega), Function.update_of_ne (by omega)]
        exact h4 j hj hj'
    · rw [Function.update_of_ne (by omega)]
      exact h5

/-- from the start -/
theorem Simulates.course (h : Simulates prog label stop view X A) {part : Bool} {x : Nat → S × List (List (Prog S Unit))}
    (clock : Clock x N start stop) (hX : ∀ k ≤ N, X k = (x k).1) (hx : Spec.Course part x N) {cs : List (List C)}
    (hl : Numbered label cs) (hc : (x 0).2 = cs.map (List.map prog)) :
    ∃ (os : List (List (Option (Prog T Unit)))) (y : Nat → T × List (List (Prog T Unit))),
      List.Forall₂ (List.Forall₂ (fun cf o => A (start (label cf)) cf o)) cs os ∧
      y 0 = (view (x 0).1, os.map List.reduceOption) ∧ (∀ j ≤ N, (y j).1 = view (x j).1) ∧
      (∀ j < N, y (j + 1) = y j ∨ if part then Step (y j) (y (j + 1)) else CalmStep (y j) (y (j + 1))) ∧
      ((∀ th ∈ (x N).2, th = []) → ∀ th ∈ (y N).2, th = []) := by
  obtain ⟨os, y, h1, h2, h3, h4, h5⟩ := h.from clock hX hx N 0 (Nat.zero_add N) cs hl hc
  refine ⟨os, y, ?_, h2, fun j hj => h3 j (Nat.zero_le j) hj, fun j hj => h4 j (Nat.zero_le j) hj, h5⟩
  have key : ∀ (pre l : List (List C)) os, cs = pre ++ l → List.Forall₂ (Underway label start A 0) l os →
      List.Forall₂ (List.Forall₂ (fun cf o => A (start (label cf)) cf o)) l os := by
    intro pre l os e hf
    induction hf generalizing pre with
    | nil => exact .nil
    | @cons a b l l' hab _ ih =>
      refine .cons ?_ (ih (pre ++ [a]) (by simpa using e))
      cases hab with
      | nil => exact .nil
      | @cons cf o tl os' g1 g2 =>
        refine .cons ?_ g2
        subst e
        have e1 := hl pre.length (cf :: tl) 0 cf (by rw [List.getElem?_append_right le_rfl, Nat.sub_self]; rfl) rfl
        rw [e1, Nat.sub_zero, clock.first _ _ (queued_of hc)]
        exact g1
  exact key [] cs os rfl h1

/-! ## clocks -/

/-- the queues only get shorter, by one call at a time -/
theorem queued_step {part : Bool} {x : Nat → S × List (List (Prog S Unit))} {k : Nat}
    (h : if part then Step (x k) (x (k + 1)) else CalmStep (x k) (x (k + 1))) (i : Nat) :
    Sled.queued x (k + 1) i = Sled.queued x k i ∨ ∃ r, Sled.queued x k i = some (r + 1) ∧ Sled.queued x (k + 1) i = some r := by
  have h : Step (x k) (x (k + 1)) := by
    cases part with
    | true => exact h
    | false =>
      have h : CalmStep (x k) (x (k + 1)) := h
      cases hy : x k; cases hy' : x (k + 1)
      rw [hy, hy'] at h
      cases h with
      | call => exact .call _ _ _ _ _ _
      | ret => exact .ret _ _ _ _ _
  unfold Sled.queued
  cases hy : x k; cases hy' : x (k + 1)
  rw [hy, hy'] at h
  have pop : ∀ (pre post : List (List (Prog S Unit))) (p : Prog S Unit) (q : List (Prog S Unit)),
      (pre ++ q :: post)[i]?.map List.length = (pre ++ (p :: q) :: post)[i]?.map List.length ∨
      ∃ r, (pre ++ (p :: q) :: post)[i]?.map List.length = some (r + 1) ∧ (pre ++ q :: post)[i]?.map List.length = some r := by
    intro pre post p q
    rcases Nat.lt_trichotomy i pre.length with hi | rfl | hi
    · left
      rw [List.getElem?_append_left hi, List.getElem?_append_left hi]
    · right
      refine ⟨q.length, ?_, ?_⟩ <;> rw [List.getElem?_append_right le_rfl, Nat.sub_self] <;> rfl
    · left
      obtain ⟨d, rfl⟩ : ∃ d, i = pre.length + (d + 1) := ⟨i - pre.length - 1, by omega⟩
      rw [List.getElem?_append_right (Nat.le_add_right _ _), List.getElem?_append_right (Nat.le_add_right _ _), Nat.add_sub_cancel_left,
        List.getElem?_cons_succ, List.getElem?_cons_succ]
  cases h with
  | call s pre post f κ q =>
    left
    rcases Nat.lt_trichotomy i pre.length with hi | rfl | hi
    · rw [List.getElem?_append_left hi, List.getElem?_append_left hi]
    · rw [List.getElem?_append_right le_rfl, List.getElem?_append_right le_rfl, Nat.sub_self]
      rfl
    · obtain ⟨d, rfl⟩ : ∃ d, i = pre.length + (d + 1) := ⟨i - pre.length - 1, by omega⟩
      rw [List.getElem?_append_right (Nat.le_add_right _ _), List.getElem?_append_right (Nat.le_add_right _ _), Nat.add_sub_cancel_left,
        List.getElem?_cons_succ, List.getElem?_cons_succ]
  | ret s pre post a q => exact pop pre post _ q
  | fail s pre post p q => exact pop pre post _ q

/-- Each call has a time. -/
theorem clock_of {part : Bool} {x : Nat → S × List (List (Prog S Unit))} (hx : Spec.Course part x N) :
    ∃ start stop, Clock x N start stop ∧ (∀ y, stop y ≤ N) ∧
      ∀ i r k l, k ≤ N → Sled.queued x k i = some l → (r < l → k < start (i, r) ∨ start (i, r) = N) ∧ (l < r → stop (i, r) ≤ k) := by
  classical
  -- the queues get shorter
  have anti : ∀ i n k l, k + n ≤ N → Sled.queued x (k + n) i = some l → ∃ l', Sled.queued x k i = some l' ∧ l ≤ l' := by
    intro i n
    induction n with
    | zero => exact fun k l _ h => ⟨l, h, le_rfl⟩
    | succ n ih =>
      intro k l hk h
      rcases queued_step (hx (k + n) (by omega)) i with e | ⟨r, e1, e2⟩
      · exact ih k l (by omega) (e ▸ h)
      · rw [show k + (n + 1) = k + n + 1 from rfl, e2] at h
        cases h
        obtain ⟨l', h1, h2⟩ := ih k _ (by omega) e1
        exact ⟨l', h1, by omega⟩
  have anti' : ∀ i k k' l l', k ≤ k' → k' ≤ N → Sled.queued x k i = some l → Sled.queued x k' i = some l' → l' ≤ l := by
    intro i k k' l l' h1 h2 h3 h4
    obtain ⟨n, rfl⟩ := Nat.exists_eq_add_of_le h1
    obtain ⟨l2, h5, h6⟩ := anti i n k l' h2 h4
    rw [h3] at h5
    cases h5
    exact h6
  let late (i r k : Nat) : Prop := k = N ∨ ∃ l, Sled.queued x k i = some l ∧ l ≤ r
  have hlate : ∀ i r, ∃ k, late i r k := fun i r => ⟨N, .inl rfl⟩
  let first (i r : Nat) : Nat := Nat.find (hlate i r)
  have first_le : ∀ i r, first i r ≤ N := fun i r => Nat.find_min' (hlate i r) (.inl rfl)
  have first_min : ∀ i r k l, Sled.queued x k i = some l → l ≤ r → first i r ≤ k := fun i r k l h1 h2 => Nat.find_min' (hlate i r) (.inr ⟨l, h1, h2⟩)
  have first_spec : ∀ i r, first i r = N ∨ ∃ l, Sled.queued x (first i r) i = some l ∧ l ≤ r := fun i r => Nat.find_spec (hlate i r)
  have late_lt : ∀ i r k l, k ≤ N → Sled.queued x k i = some l → r < l → k < first i r ∨ first i r = N := by
    intro i r k l hk h1 h2
    rcases first_spec i r with e | ⟨l', e1, e2⟩
    · exact .inr e
    · left
      by_contra hn
      have := anti' i (first i r) k l' l (Nat.le_of_not_lt hn) hk e1 h1
      omega
  -- the call with `r` calls left is over when fewer are left; there is none with `0` left
  let over (y : Nat × Nat) : Nat := match y.2 with | 0 => N | r + 1 => first y.1 r
  refine ⟨fun y => first y.1 y.2, over, ⟨?_, ?_, ?_, ?_, ?_⟩, ?_, ?_⟩
  · intro i r h
    exact Nat.le_zero.1 (first_min i r 0 r h le_rfl)
  · intro k hk i r h1 h2
    refine le_antisymm (first_min i r _ r h2 le_rfl) ?_
    rcases late_lt i r k _ hk.le h1 (Nat.lt_succ_self r) with h | h
    · exact h
    · show k + 1 ≤ first i r
      omega
  · intro k hk i r h1
    rcases late_lt i r k _ hk.le h1 (Nat.lt_succ_self r) with h | h
    · exact h
    · show k < first i r
      omega
  · intro i r h
    cases r with
    | zero => exact le_rfl
    | succ r =>
      rcases late_lt i r N _ le_rfl h (Nat.lt_succ_self r) with h | h
      · exact h.le
      · exact h.ge
  · rintro ⟨i, r⟩
    cases r with
    | zero => exact first_le i 0
    | succ r =>
      show first i (r + 1) ≤ first i r
      rcases first_spec i r with e | ⟨l', e1, e2⟩
      · rw [e]; exact first_le _ _
      · exact first_min i (r + 1) _ l' e1 (by omega)
  · rintro ⟨i, r⟩
    cases r with
    | zero => exact le_rfl
    | succ r => exact first_le i r
  · intro i r k l hk h
    refine ⟨fun hl => late_lt i r k l hk h hl, fun hl => ?_⟩
    cases r with
    | zero => omega
    | succ r => exact first_min i r k l h (by omega)

end Verif
