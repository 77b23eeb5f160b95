import Verif.Spec.Ends
import Verif.Proof.SledTx
import Mathlib.Data.List.Forall2
import Mathlib.Data.Prod.Lex
import Mathlib.Data.Finset.Card

/-! # Calls come to an end: programs in general -/

namespace Verif

open Spec

variable {S α β : Type}

namespace Prog

theorem AtMost.mono {n m : Nat} {p : Prog S α} (h : p.AtMost n) (hn : n ≤ m) : p.AtMost m := by
  induction n generalizing m p with
  | zero =>
    cases p with
    | ret a => cases m <;> trivial
    | call f k => exact h.elim
  | succ n ih =>
    cases p with
    | ret a => cases m <;> trivial
    | call f k =>
      obtain ⟨m, rfl⟩ : ∃ m', m = m' + 1 := ⟨m - 1, by omega⟩
      exact fun s => ih (h s) (by omega)

theorem AtMost.ret {n : Nat} (a : α) : (Prog.ret a : Prog S α).AtMost n := by cases n <;> trivial

theorem AtMost.call {n : Nat} {f : S → S} {k : S → Prog S α} (h : ∀ s, (k s).AtMost n) : (Prog.call f k).AtMost (n + 1) := h

theorem AtMost.bind {n m : Nat} {p : Prog S α} (h : p.AtMost n) {g : α → Prog S β} (hg : ∀ a, (g a).AtMost m) :
    (p.bind g).AtMost (n + m) := by
  induction n generalizing p with
  | zero =>
    cases p with
    | ret a => exact (hg a).mono (by omega)
    | call f k => exact h.elim
  | succ n ih =>
    cases p with
    | ret a => exact (hg a).mono (by omega)
    | call f k =>
      rw [show n + 1 + m = (n + m) + 1 by omega]
      exact fun s => ih (h s)

theorem AtMost.drop {n : Nat} {p : Prog S α} (h : p.AtMost n) {g : α → β} : (p.bind (fun a => .ret (g a))).AtMost n :=
  AtMost.bind (m := 0) h (fun a => AtMost.ret _)

theorem call_ne (f : S → S) (k : S → Prog S α) (s : S) : k s ≠ .call f k := by
  intro h
  have : ∀ p : Prog S α, ∀ f k s, p = .call f k → k s ≠ p := by
    intro p
    induction p with
    | ret a => intro f k s h; cases h
    | call f' k' ih =>
      intro f k s e h
      cases e
      exact ih s _ _ s h rfl
  exact this _ f k s rfl h

end Prog

/-- what is left to do of the functions of a thread -/
def Left (q : List (Prog S α)) (n : Nat) : Prop := ∃ ns, List.Forall₂ (fun p m => Prog.AtMost m p) q ns ∧ n = (ns.map (· + 1)).sum

theorem Left.call {f : S → S} {k : S → Prog S α} {q : List (Prog S α)} {n : Nat} (h : Left (.call f k :: q) n) (s : S) :
    ∃ n' < n, Left (k s :: q) n' := by
  obtain ⟨ns, h, rfl⟩ := h
  cases h with
  | @cons _ m _ ns h1 h2 =>
    cases m with
    | zero => exact h1.elim
    | succ m => exact ⟨((m :: ns).map (· + 1)).sum, by simp, m :: ns, .cons (h1 s) h2, rfl⟩

theorem Left.drop {p : Prog S α} {q : List (Prog S α)} {n : Nat} (h : Left (p :: q) n) : ∃ n' < n, Left q n' := by
  obtain ⟨ns, h, rfl⟩ := h
  cases h with
  | @cons _ m _ ns h1 h2 => exact ⟨(ns.map (· + 1)).sum, by simp only [List.map_cons, List.sum_cons]; omega, ns, h2, rfl⟩

theorem forall₂_break {A B : Type} {R : A → B → Prop} {l l' : List A} {m : List B} (h : List.Forall₂ R (l ++ l') m) :
    ∃ m1 m2, List.Forall₂ R l m1 ∧ List.Forall₂ R l' m2 ∧ m = m1 ++ m2 := by
  induction l generalizing m with
  | nil => exact ⟨[], m, .nil, h, rfl⟩
  | cons a l ih =>
    cases h with
    | cons h1 h2 =>
      obtain ⟨m1, m2, h3, h4, rfl⟩ := ih h2
      exact ⟨_ :: m1, m2, .cons h1 h3, h4, rfl⟩

/-- the same of all threads -/
def AllLeft (qs : List (List (Prog S α))) (n : Nat) : Prop := ∃ ns, List.Forall₂ Left qs ns ∧ n = ns.sum

theorem AllLeft.one {pre post : List (List (Prog S α))} {q q' : List (Prog S α)} {n : Nat} (h : AllLeft (pre ++ q :: post) n)
    (hq : ∀ m, Left q m → ∃ m' < m, Left q' m') : ∃ n' < n, AllLeft (pre ++ q' :: post) n' := by
  obtain ⟨ns, h, rfl⟩ := h
  obtain ⟨ns1, ns2, h1, h2, rfl⟩ := forall₂_break h
  cases h2 with
  | @cons _ m _ ns2 h2 h3 =>
    obtain ⟨m', hlt, hm⟩ := hq m h2
    exact ⟨(ns1 ++ m' :: ns2).sum, by simp; omega, ns1 ++ m' :: ns2, List.rel_append h1 (.cons hm h3), rfl⟩

theorem AllLeft.step {x y : S × List (List (Prog S α))} (h : Step x y) {n : Nat} (hx : AllLeft x.2 n) : ∃ n' < n, AllLeft y.2 n' := by
  cases h with
  | call s pre post f k q => exact hx.one (fun m hm => hm.call s)
  | ret s pre post a q => exact hx.one (fun m hm => hm.drop)
  | fail s pre post p q => exact hx.one (fun m hm => hm.drop)

theorem course_step {part : Bool} {x : Nat → S × List (List (Prog S α))} {N : Nat} (h : Course part x N) {k : Nat} (hk : k < N) :
    Step (x k) (x (k + 1)) := by
  have := h k hk
  cases part with
  | true => exact this
  | false => exact Tx.calmStep_step this

theorem course_ends {part : Bool} {x : Nat → S × List (List (Prog S α))} {N n : Nat} (h : Course part x N) (h0 : AllLeft (x 0).2 n) :
    ∃ m, N + m ≤ n ∧ AllLeft (x N).2 m := by
  induction N with
  | zero => exact ⟨n, by omega, h0⟩
  | succ N ih =>
    obtain ⟨m, hm, hl⟩ := ih (fun k hk => h k (by omega))
    obtain ⟨m', hlt, hl'⟩ := hl.step (course_step h (Nat.lt_succ_self N))
    exact ⟨m', by omega, hl'⟩

theorem step_entry {x y : S × List (List (Prog S α))} (h : Step x y) (i : Nat) {l : List (Prog S α)} (hl : x.2[i]? = some l) :
    ∃ l', y.2[i]? = some l' ∧ (l' = l ∨ ∀ n, Left l n → ∃ n' < n, Left l' n') := by
  have one : ∀ (pre post : List (List (Prog S α))) (q q' : List (Prog S α)), (pre ++ q :: post)[i]? = some l →
      (∀ n, Left q n → ∃ n' < n, Left q' n') →
      ∃ l', (pre ++ q' :: post)[i]? = some l' ∧ (l' = l ∨ ∀ n, Left l n → ∃ n' < n, Left l' n') := by
    intro pre post q q' hl hq
    rcases Nat.lt_trichotomy i pre.length with hi | rfl | hi
    · rw [List.getElem?_append_left hi] at hl ⊢
      exact ⟨l, hl, .inl rfl⟩
    · simp at hl ⊢
      subst hl
      exact .inr hq
    · rw [List.getElem?_append_right (by omega)] at hl ⊢
      obtain ⟨j, hj⟩ : ∃ j, i - pre.length = j + 1 := ⟨i - pre.length - 1, by omega⟩
      rw [hj] at hl ⊢
      exact ⟨l, by simpa using hl, .inl rfl⟩
  cases h with
  | call s pre post f k q => exact one _ _ _ _ hl (fun n hn => hn.call s)
  | ret s pre post a q => exact one _ _ _ _ hl (fun n hn => hn.drop)
  | fail s pre post p q => exact one _ _ _ _ hl (fun n hn => hn.drop)

/-- a thread's own steps -/
theorem course_own {part : Bool} {x : Nat → S × List (List (Prog S α))} {N n : Nat} (h : Course part x N) (i : Nat)
    {l : List (Prog S α)} (h0 : (x 0).2[i]? = some l) (hl : Left l n) (ks : Finset Nat)
    (hk : ∀ k ∈ ks, k < N ∧ (x (k + 1)).2[i]? ≠ (x k).2[i]?) : ∃ m l', ks.card + m ≤ n ∧ (x N).2[i]? = some l' ∧ Left l' m := by
  induction N generalizing ks with
  | zero =>
    have : ks = ∅ := Finset.eq_empty_of_forall_notMem (fun k hk' => by have := (hk k hk').1; omega)
    subst this
    exact ⟨n, l, by simp, h0, hl⟩
  | succ N ih =>
    obtain ⟨m, l', hm, hx, hl'⟩ := ih (fun k hk => h k (by omega)) (ks.erase N) (fun k hk' => by
      obtain ⟨h1, h2⟩ := Finset.mem_erase.1 hk'
      obtain ⟨h3, h4⟩ := hk k h2
      exact ⟨by omega, h4⟩)
    obtain ⟨l2, hx2, he⟩ := step_entry (course_step h (Nat.lt_succ_self N)) i hx
    by_cases hN : N ∈ ks
    · have hc := Finset.card_erase_add_one hN
      rcases he with rfl | he
      · exact absurd (hx2.trans hx.symm) (hk N hN).2
      · obtain ⟨m', hlt, hm'⟩ := he m hl'
        exact ⟨m', l2, by omega, hx2, hm'⟩
    · rw [Finset.erase_eq_of_notMem hN] at hm
      rcases he with rfl | he
      · exact ⟨m, l2, hm, hx2, hl'⟩
      · obtain ⟨m', hlt, hm'⟩ := he m hl'
        exact ⟨m', l2, by omega, hx2, hm'⟩

/-- a step is a step of one thread -/
theorem step_changes {x y : S × List (List (Prog S α))} (h : Step x y) :
    ∃ i, i < x.2.length ∧ y.2.length = x.2.length ∧ y.2[i]? ≠ x.2[i]? ∧ ∀ j, j ≠ i → y.2[j]? = x.2[j]? := by
  have one : ∀ (pre post : List (List (Prog S α))) (q q' : List (Prog S α)), q' ≠ q →
      ∃ i, i < (pre ++ q :: post).length ∧ (pre ++ q' :: post).length = (pre ++ q :: post).length ∧
        (pre ++ q' :: post)[i]? ≠ (pre ++ q :: post)[i]? ∧ ∀ j, j ≠ i → (pre ++ q' :: post)[j]? = (pre ++ q :: post)[j]? := by
    intro pre post q q' hq
    refine ⟨pre.length, by simp, by simp, by simpa using hq, fun j hj => ?_⟩
    rcases Nat.lt_or_ge j pre.length with hlt | hge
    · rw [List.getElem?_append_left hlt, List.getElem?_append_left hlt]
    · rw [List.getElem?_append_right hge, List.getElem?_append_right hge]
      obtain ⟨i, hi⟩ : ∃ i, j - pre.length = i + 1 := ⟨j - pre.length - 1, by omega⟩
      rw [hi]; rfl
  have ne : ∀ (p : Prog S α) (q : List (Prog S α)), q ≠ p :: q := fun p q h => by
    have := congrArg List.length h
    simp at this
  cases h with
  | call s pre post f k q => exact one _ _ _ _ (fun h => Prog.call_ne f k s (List.cons.inj h).1)
  | ret s pre post a q => exact one _ _ _ _ (ne _ _)
  | fail s pre post p q => exact one _ _ _ _ (ne _ _)

theorem goes_on (s : S) (pre post : List (List (Prog S α))) (p : Prog S α) (q : List (Prog S α)) :
    ∃ s' l, CalmStep (s, pre ++ (p :: q) :: post) (s', pre ++ l :: post) := by
  cases p with
  | ret a => exact ⟨_, _, .ret ..⟩
  | call f k => exact ⟨_, _, .call ..⟩

theorem left_of_cost {C : Type} {prog : C → Prog S α} {cost : C → Nat} (h : ∀ y, (prog y).AtMost (cost y)) (th : List C) :
    Left (th.map prog) (th.map (fun y => cost y + 1)).sum := by
  refine ⟨th.map cost, ?_, by simp [Function.comp_def]⟩
  induction th with
  | nil => exact .nil
  | cons y th ih => exact .cons (h y) ih

theorem allLeft_of_cost {C : Type} {prog : C → Prog S α} {cost : C → Nat} (h : ∀ y, (prog y).AtMost (cost y)) (threads : List (List C)) :
    AllLeft (threads.map (List.map prog)) (work cost threads) := by
  refine ⟨threads.map (fun th => (th.map (fun y => cost y + 1)).sum), ?_, rfl⟩
  induction threads with
  | nil => exact .nil
  | cons th threads ih => exact .cons (left_of_cost h th) ih

/-! ## transactions which are run again -/

set_option linter.unusedSectionVars false

namespace Tx

variable {T X : Type} [DecidableEq T] [Trees S T]

open Classical in
/-- whether what a thread has read is not there any more -/
noncomputable def inv (s : S) (th : Thread S T X α) : Nat :=
  match th.1 with
  | none => 0
  | some y => if y.over.Valid s then 0 else 1

/-- whether a thread is in no transaction -/
def non (th : Thread S T X α) : Nat := if th.1.isNone then 1 else 0

/-- how many steps a closure goes on for -/
def len (s : S) : Tx T X → Overlay T → Nat
  | .done, _ => 0
  | .abort _, _ => 0
  | .get t k next, o => len s (next (o.get s t k).1) (o.get s t k).2 + 1
  | .write t k v next, o => len s (next (o.write s t k v).1) (o.write s t k v).2 + 1

def more (s : S) (th : Thread S T X α) : Nat :=
  match th.1 with
  | none => 0
  | some y => len s y.now y.over

noncomputable def invs (x : S × List (Thread S T X α)) : Nat := (x.2.map (inv x.1)).sum
def nons (x : S × List (Thread S T X α)) : Nat := (x.2.map non).sum
def mores (x : S × List (Thread S T X α)) : Nat := (x.2.map (more x.1)).sum

theorem inv_le (s : S) (th : Thread S T X α) : inv s th ≤ 1 := by
  unfold inv
  split
  · omega
  · split <;> omega

theorem invs_le (x : S × List (Thread S T X α)) : invs x ≤ x.2.length := by
  unfold invs
  induction x.2 with
  | nil => simp
  | cons th l ih =>
    have := inv_le x.1 th
    simp only [List.map_cons, List.sum_cons, List.length_cons]
    omega

theorem invs_mk (s : S) (pre post : List (Thread S T X α)) (th : Thread S T X α) :
    invs (s, pre ++ th :: post) = (pre.map (inv s)).sum + (inv s th + (post.map (inv s)).sum) := by simp [invs]
theorem nons_mk (s : S) (pre post : List (Thread S T X α)) (th : Thread S T X α) :
    nons (s, pre ++ th :: post) = (pre.map non).sum + (non th + (post.map non).sum) := by simp [nons]
theorem mores_mk (s : S) (pre post : List (Thread S T X α)) (th : Thread S T X α) :
    mores (s, pre ++ th :: post) = (pre.map (more s)).sum + (more s th + (post.map (more s)).sum) := by simp [mores]

theorem inv_none (s : S) (q : List (Prog S α)) : inv s ((none, q) : Thread S T X α) = 0 := rfl

theorem inv_some (s : S) (q : List (Prog S α)) (y : Busy S T X α) (h : ¬ y.over.Valid s) : inv s (some y, q) = 1 := by
  simp [inv, h]

theorem inv_mono (s : S) (q : List (Prog S α)) (y y' : Busy S T X α) (h : y.over.Valid s → y'.over.Valid s) :
    inv s (some y', q) ≤ inv s (some y, q) := by
  by_cases hv : y.over.Valid s
  · simp [inv, h hv]
  · simp only [inv, hv]
    split <;> simp

/-- a step that ends a transaction is the step for which the transaction stands -/
theorem commit_coarse [LawfulTrees S] {s : S} {pre post : List (Thread S T X α)} {p : Prog S α} {q : List (Prog S α)} {b : Tx T X}
    {back : Except X Unit → Prog S α} {o : Overlay T} (hv : o.Valid s)
    (hx : ∀ th ∈ pre ++ (some ⟨b, back, .done, o⟩, p :: q) :: post, Good th) (n : Nat)
    (h : AllLeft ((pre ++ (some ⟨b, back, .done, o⟩, p :: q) :: post).map Prod.snd) n) :
    ∃ n' < n, AllLeft ((pre ++ ((none, back (.ok ()) :: q) : Thread S T X α) :: post).map Prod.snd) n' := by
  obtain ⟨f, k, q', e, hp, hs⟩ := (good_split hx (good_none [])).1 _ rfl
  obtain ⟨s1, hc1, ea⟩ := hs s hv
  cases e
  have h' := hp s
  rw [ea] at h'
  obtain ⟨h1, h2⟩ := h'
  have h2 : k s = back (.ok ()) := h2
  simp only [List.map_append, List.map_cons] at h ⊢
  rw [← h2]
  exact h.one (fun m hm => hm.call s)

theorem abort_coarse [LawfulTrees S] {s : S} {pre post : List (Thread S T X α)} {p : Prog S α} {q : List (Prog S α)} {b : Tx T X}
    {back : Except X Unit → Prog S α} {e : X} {o : Overlay T} (hv : o.Valid s)
    (hx : ∀ th ∈ pre ++ (some ⟨b, back, .abort e, o⟩, p :: q) :: post, Good th) (n : Nat)
    (h : AllLeft ((pre ++ (some ⟨b, back, .abort e, o⟩, p :: q) :: post).map Prod.snd) n) :
    ∃ n' < n, AllLeft ((pre ++ ((none, back (.error e) :: q) : Thread S T X α) :: post).map Prod.snd) n' := by
  obtain ⟨f, k, q', e', hp, hs⟩ := (good_split hx (good_none [])).1 _ rfl
  obtain ⟨s1, hc1, ea⟩ := hs s hv
  cases e'
  have h' := hp s
  rw [ea] at h'
  obtain ⟨h1, h2⟩ := h'
  have h2 : k s = back (.error e) := h2
  simp only [List.map_append, List.map_cons] at h ⊢
  rw [← h2]
  exact h.one (fun m hm => hm.call s)

/-- A step leaves less to do; or leaves the trees as they are, and is a step on the way of a transaction. -/
theorem fine_less [LawfulTrees S] {closures : Tx T X → Prop} {calm : Bool} {x y : S × List (Thread S T X α)} (h : Fine closures calm x y)
    (hx : ∀ th ∈ x.2, Good th) : (∀ n, AllLeft (x.2.map Prod.snd) n → ∃ n' < n, AllLeft (y.2.map Prod.snd) n') ∨
      (y.1 = x.1 ∧ y.2.map Prod.snd = x.2.map Prod.snd ∧ invs y ≤ invs x ∧
        (Spurious x y ∨ invs y < invs x ∨ (invs y = invs x ∧ nons y < nons x) ∨ (invs y ≤ invs x ∧ nons y = nons x ∧ mores y < mores x))) := by
  cases h with
  | plain s pre post f k q h =>
    refine .inl fun n hn => ?_
    simp only [List.map_append, List.map_cons] at hn ⊢
    exact hn.one (fun m hm => hm.call s)
  | ret s pre post a q =>
    refine .inl fun n hn => ?_
    simp only [List.map_append, List.map_cons] at hn ⊢
    exact hn.one (fun m hm => hm.drop)
  | fail s pre post y p q h =>
    refine .inl fun n hn => ?_
    simp only [List.map_append, List.map_cons] at hn ⊢
    exact hn.one (fun m hm => hm.drop)
  | tx _ _ h =>
    cases h with
    | begin s pre post f k q b back hb h =>
      have e : inv s ((some ⟨b, back, b, .new⟩, .call f k :: q) : Thread S T X α) = 0 := by
        simp [inv, Overlay.new_valid s]
      refine .inr ⟨rfl, by simp, ?_, .inr (.inr (.inl ⟨?_, ?_⟩))⟩
      · rw [invs_mk, invs_mk, e, inv_none]
      · rw [invs_mk, invs_mk, e, inv_none]
      · rw [nons_mk, nons_mk]; simp [non]
    | get s pre post q b back t k next o =>
      have e := inv_mono s q ⟨b, back, .get t k next, o⟩ ⟨b, back, next (o.get s t k).1, (o.get s t k).2⟩
        (fun h => Overlay.get_valid h)
      refine .inr ⟨rfl, by simp, ?_, .inr (.inr (.inr ⟨?_, ?_, ?_⟩))⟩
      · rw [invs_mk, invs_mk]; omega
      · rw [invs_mk, invs_mk]; omega
      · rw [nons_mk, nons_mk]; simp [non]
      · rw [mores_mk, mores_mk]; simp [more, len]
    | write s pre post q b back t k v next o =>
      have e := inv_mono s q ⟨b, back, .write t k v next, o⟩ ⟨b, back, next (o.write s t k v).1, (o.write s t k v).2⟩
        (fun h => Overlay.get_valid (t := t) (k := k) h)
      refine .inr ⟨rfl, by simp, ?_, .inr (.inr (.inr ⟨?_, ?_, ?_⟩))⟩
      · rw [invs_mk, invs_mk]; omega
      · rw [invs_mk, invs_mk]; omega
      · rw [nons_mk, nons_mk]; simp [non]
      · rw [mores_mk, mores_mk]; simp [more, len]
    | again s pre post q y =>
      refine .inr ⟨rfl, by simp, ?_, ?_⟩
      · rw [invs_mk, invs_mk, inv_none]; omega
      · by_cases hv : y.over.Valid s
        · exact .inl ⟨y.over, ⟨s, pre, post, q, y, rfl, rfl, rfl⟩, hv⟩
        · refine .inr (.inl ?_)
          rw [invs_mk, invs_mk, inv_none, inv_some s q y hv]; omega
    | commit s s' pre post p q b back o hv hc => exact .inl (commit_coarse hv hx)
    | abort s pre post p q b back e o hv => exact .inl (abort_coarse hv hx)

theorem fine_length {closures : Tx T X → Prop} {calm : Bool} {x y : S × List (Thread S T X α)} (h : Fine closures calm x y) :
    y.2.length = x.2.length := by
  cases h with
  | plain | ret | fail => simp
  | tx _ _ h => cases h <;> simp

/-- how often closures are run again because of what others have written -/
theorem reruns [LawfulTrees S] {closures : Tx T X → Prop} {part : Bool} {y : Nat → S × List (Thread S T X α)} {N n : Nat}
    (h : Course closures part y N) (hg : ∀ th ∈ (y 0).2, Good th) (hi : invs (y 0) = 0) (h0 : AllLeft ((y 0).2.map Prod.snd) n)
    (ks : Finset Nat) (hk : ∀ k ∈ ks, k < N ∧ Conflict (y k) (y (k + 1))) :
    ∃ m, m ≤ n ∧ AllLeft ((y N).2.map Prod.snd) m ∧ ks.card + invs (y N) + (y 0).2.length * m ≤ (y 0).2.length * n ∧
      (y N).2.length = (y 0).2.length ∧ ∀ th ∈ (y N).2, Good th := by
  induction N generalizing ks with
  | zero =>
    have : ks = ∅ := Finset.eq_empty_of_forall_notMem (fun k hk' => by have := (hk k hk').1; omega)
    subst this
    exact ⟨n, Nat.le_refl _, h0, by simp [hi], rfl, hg⟩
  | succ N ih =>
    obtain ⟨m, hmn, hm, hc, hlen, hG⟩ := ih (fun k hk => h k (by omega)) (ks.erase N) (fun k hk' => by
      obtain ⟨h1, h2⟩ := Finset.mem_erase.1 hk'
      obtain ⟨h3, h4⟩ := hk k h2
      exact ⟨by omega, h4⟩)
    have hs := h N (Nat.lt_succ_self N)
    have hG' := (fine_step hs hG).1
    have hlen' := (fine_length hs).trans hlen
    by_cases hN : N ∈ ks
    · have hcard := Finset.card_erase_add_one hN
      obtain ⟨o, ⟨s, pre, post, q, z, e1, e2, rfl⟩, hv⟩ := (hk N hN).2
      rw [e1] at hm hc hv
      rw [e2] at hlen' hG' ⊢
      have hv : ¬ z.over.Valid s := hv
      refine ⟨m, hmn, by simpa using hm, ?_, hlen', hG'⟩
      rw [invs_mk, inv_some s q z hv] at hc
      rw [invs_mk, inv_none]
      omega
    · rw [Finset.erase_eq_of_notMem hN] at hc
      rcases fine_less hs hG with hl | ⟨_, e, hi', _⟩
      · obtain ⟨m', hlt, hm'⟩ := hl m hm
        refine ⟨m', by omega, hm', ?_, hlen', hG'⟩
        have := invs_le (y (N + 1))
        rw [hlen'] at this
        have h2 : (y 0).2.length * (m' + 1) ≤ (y 0).2.length * m := Nat.mul_le_mul_left _ hlt
        rw [Nat.mul_add, Nat.mul_one] at h2
        omega
      · exact ⟨m, hmn, e ▸ hm, by omega, hlen', hG'⟩

/-- there is no way to go on for ever -/
theorem no_livelock [LawfulTrees S] {closures : Tx T X → Prop} {calm : Bool} (n : Nat) (y : Nat → S × List (Thread S T X α))
    (hg : ∀ th ∈ (y 0).2, Good th) (h0 : AllLeft ((y 0).2.map Prod.snd) n)
    (h : ∀ k, Fine closures calm (y k) (y (k + 1)) ∧ ¬ Spurious (y k) (y (k + 1))) : False := by
  induction n using Nat.strong_induction_on generalizing y with
  | _ n ih =>
    have hG : ∀ k, ∀ th ∈ (y k).2, Good th := by
      intro k
      induction k with
      | zero => exact hg
      | succ k ih => exact (fine_step (h k).1 ih).1
    by_cases hex : ∃ k m, m < n ∧ AllLeft ((y k).2.map Prod.snd) m
    · obtain ⟨k, m, hlt, hm⟩ := hex
      refine ih m hlt (fun j => y (k + j)) ?_ hm (fun j => h (k + j))
      exact hG k
    · have hall : ∀ k, AllLeft ((y k).2.map Prod.snd) n ∧ (invs (y (k + 1)) < invs (y k) ∨
          (invs (y (k + 1)) ≤ invs (y k) ∧ nons (y (k + 1)) < nons (y k)) ∨
          (invs (y (k + 1)) ≤ invs (y k) ∧ nons (y (k + 1)) = nons (y k) ∧ mores (y (k + 1)) < mores (y k))) := by
        have key : ∀ k, AllLeft ((y k).2.map Prod.snd) n → (y (k + 1)).2.map Prod.snd = (y k).2.map Prod.snd ∧
            (invs (y (k + 1)) < invs (y k) ∨
              (invs (y (k + 1)) ≤ invs (y k) ∧ nons (y (k + 1)) < nons (y k)) ∨
              (invs (y (k + 1)) ≤ invs (y k) ∧ nons (y (k + 1)) = nons (y k) ∧ mores (y (k + 1)) < mores (y k))) := by
          intro k hk
          rcases fine_less (h k).1 (hG k) with hl | ⟨_, e, _, hd⟩
          · obtain ⟨m', hlt, hm'⟩ := hl n hk
            exact absurd ⟨k + 1, m', hlt, hm'⟩ hex
          · refine ⟨e, ?_⟩
            rcases hd with hd | hd | ⟨h1, h2⟩ | hd
            · exact absurd hd (h k).2
            · exact .inl hd
            · exact .inr (.inl ⟨by omega, h2⟩)
            · exact .inr (.inr hd)
        intro k
        have hk : AllLeft ((y k).2.map Prod.snd) n := by
          induction k with
          | zero => exact h0
          | succ k ih => rw [(key k ih).1]; exact ih
        exact ⟨hk, (key k hk).2⟩
      have wf : WellFounded (Prod.Lex (· < ·) (Prod.Lex (· < ·) (· < ·)) : ℕ × ℕ × ℕ → ℕ × ℕ × ℕ → Prop) :=
        WellFounded.prod_lex Nat.lt_wfRel.wf (WellFounded.prod_lex Nat.lt_wfRel.wf Nat.lt_wfRel.wf)
      have : ∀ (t : ℕ × ℕ × ℕ) k, t = (invs (y k), nons (y k), mores (y k)) → False := by
        intro t
        induction t using wf.induction with
        | _ t ih =>
          rintro k rfl
          refine ih _ ?_ (k + 1) rfl
          rcases (hall k).2 with hd | ⟨h1, h2⟩ | ⟨h1, h2, h3⟩
          · exact .left _ _ hd
          · rcases Nat.lt_or_eq_of_le h1 with h1 | h1
            · exact .left _ _ h1
            · rw [h1]; exact .right _ (.left _ _ h2)
          · rcases Nat.lt_or_eq_of_le h1 with h1 | h1
            · exact .left _ _ h1
            · rw [h1, h2]; exact .right _ (.right _ h3)
      exact this _ 0 rfl

theorem fine_madeOf [LawfulTrees S] {closures : Tx T X → Prop} {calm : Bool} {x y : S × List (Thread S T X α)}
    (h : Fine closures calm x y) (hg : ∀ th ∈ x.2, Good th) (hx : ∀ th ∈ x.2, ∀ p ∈ th.2, p.MadeOf closures) :
    ∀ th ∈ y.2, ∀ p ∈ th.2, p.MadeOf closures := by
  have h1 : ∀ th ∈ (coarse x).2, ∀ p ∈ th, p.MadeOf closures := by
    intro th hth
    obtain ⟨z, hz, rfl⟩ := List.mem_map.1 hth
    exact hx z hz
  have h2 : ∀ th ∈ (coarse y).2, ∀ p ∈ th, p.MadeOf closures := by
    rcases (fine_step h hg).2 with e | e | ⟨_, e⟩
    · rw [e]; exact h1
    · exact (coarse_fine_step (calm := false) (.inl e) h1).1
    · exact (coarse_fine_step (calm := false) (.inr ⟨rfl, e⟩) h1).1
  exact fun th hth => h2 _ (List.mem_map.2 ⟨th, hth, rfl⟩)

/-- a thread that has something to do can go on, and needs not give up a transaction for no reason -/
theorem fine_goes_on [LawfulTrees S] {closures : Tx T X → Prop} {calm : Bool} (s : S) (pre post : List (Thread S T X α))
    (th : Thread S T X α) (hg : Good th) (hm : ∀ p ∈ th.2, p.MadeOf closures) (hne : th ≠ idle []) :
    ∃ s' th', Fine closures calm (s, pre ++ th :: post) (s', pre ++ th' :: post) ∧
      (∀ z, th.1 = some z → z.over.Valid s → th'.2 = th.2 → th'.1 ≠ none) := by
  obtain ⟨o, q⟩ := th
  cases o with
  | none =>
    cases q with
    | nil => exact absurd rfl hne
    | cons p q =>
      cases p with
      | ret a => exact ⟨_, _, .ret .., (fun z hz => nomatch hz)⟩
      | call f k =>
        obtain ⟨h1, _⟩ := hm (.call f k) (by simp)
        rcases h1 with h1 | ⟨b, back, hb, h1⟩
        · exact ⟨_, _, .plain _ _ _ _ _ _ h1, (fun z hz => nomatch hz)⟩
        · exact ⟨_, _, .tx _ _ (.begin _ _ _ _ _ _ _ _ hb h1), (fun z hz => nomatch hz)⟩
  | some y =>
    obtain ⟨f, k, q', e, hp, hs⟩ := hg y rfl
    have e : q = .call f k :: q' := e
    subst e
    by_cases hv : y.over.Valid s
    · obtain ⟨s1, hc, ea⟩ := hs s hv
      obtain ⟨b, back, now, o⟩ := y
      cases now with
      | done =>
        refine ⟨_, _, .tx _ _ (.commit s s1 pre post (.call f k) q' b back o hv hc), fun z hz _ e => ?_⟩
        have h' := hp s
        rw [ea] at h'
        have h2 : k s = back (.ok ()) := h'.2
        have e : back (.ok ()) :: q' = .call f k :: q' := e
        rw [← h2] at e
        exact absurd (List.cons.inj e).1 (Prog.call_ne f k s)
      | abort er =>
        refine ⟨_, _, .tx _ _ (.abort s pre post (.call f k) q' b back er o hv), fun z hz _ e' => ?_⟩
        have h' := hp s
        rw [ea] at h'
        have h2 : k s = back (.error er) := h'.2
        have e' : back (.error er) :: q' = .call f k :: q' := e'
        rw [← h2] at e'
        exact absurd (List.cons.inj e').1 (Prog.call_ne f k s)
      | get t key next => exact ⟨_, _, .tx _ _ (.get ..), (fun z hz _ _ h => nomatch h)⟩
      | write t key v next => exact ⟨_, _, .tx _ _ (.write ..), (fun z hz _ _ h => nomatch h)⟩
    · exact ⟨_, _, .tx _ _ (.again ..), (fun z hz hv' => by cases hz; exact absurd hv' hv)⟩

/-- a step of one thread which does not give up a transaction for no reason -/
theorem not_spurious {s s' : S} {pre post : List (Thread S T X α)} {th th' : Thread S T X α}
    (h : ∀ z, th.1 = some z → z.over.Valid s → th'.2 = th.2 → th'.1 ≠ none) :
    ¬ Spurious (s, pre ++ th :: post) (s', pre ++ th' :: post) := by
  rintro ⟨o, ⟨s1, pre1, post1, q, z, e1, e2, rfl⟩, hv⟩
  obtain ⟨h1, f1⟩ := Prod.mk.inj e1
  obtain ⟨h2, f2⟩ := Prod.mk.inj e2
  clear e1 e2
  have hv : z.over.Valid s := hv
  have hp : pre1.length = pre.length := by
    by_contra hne
    have h1 := congrArg (fun l => l[pre1.length]?) f1
    have h2 := congrArg (fun l => l[pre1.length]?) f2
    simp only [List.getElem?_append_right (Nat.le_refl _), Nat.sub_self, List.getElem?_cons_zero] at h1 h2
    have e : (pre ++ th :: post)[pre1.length]? = (pre ++ th' :: post)[pre1.length]? := by
      rcases Nat.lt_or_ge pre1.length pre.length with hlt | hge
      · rw [List.getElem?_append_left hlt, List.getElem?_append_left hlt]
      · rw [List.getElem?_append_right hge, List.getElem?_append_right hge]
        obtain ⟨i, hi⟩ : ∃ i, pre1.length - pre.length = i + 1 := ⟨pre1.length - pre.length - 1, by omega⟩
        rw [hi]; rfl
    rw [h1, h2] at e
    cases e
  obtain ⟨_, g1⟩ := List.append_inj f1 hp.symm
  obtain ⟨_, g2⟩ := List.append_inj f2 hp.symm
  obtain ⟨rfl, _⟩ := List.cons.inj g1
  obtain ⟨rfl, _⟩ := List.cons.inj g2
  exact h z rfl hv rfl rfl

theorem invs_idle (s : S) (progs : List (List (Prog S α))) : invs (T := T) (X := X) (s, progs.map idle) = 0 := by
  unfold invs
  induction progs with
  | nil => rfl
  | cons q l ih => simpa [inv, idle] using ih

theorem map_idle (progs : List (List (Prog S α))) : (progs.map (idle (T := T) (X := X))).map Prod.snd = progs := by
  simp [idle, Function.comp_def]

theorem reruns_idle [LawfulTrees S] {closures : Tx T X → Prop} {part : Bool} {s : S} {progs : List (List (Prog S α))}
    {y : Nat → S × List (Thread S T X α)} {N n : Nat} (h : Course closures part y N) (h0 : y 0 = (s, progs.map idle))
    (hl : AllLeft progs n) (ks : Finset Nat) (hk : ∀ k ∈ ks, k < N ∧ Conflict (y k) (y (k + 1))) : ks.card ≤ progs.length * n := by
  obtain ⟨m, _, _, hc, _⟩ := reruns h (by rw [h0]; exact good_idle progs) (by rw [h0]; exact invs_idle s progs)
    (by rw [h0]; show AllLeft ((progs.map idle).map Prod.snd) n; rw [map_idle]; exact hl) ks hk
  rw [h0] at hc
  simp only [List.length_map] at hc
  omega

theorem no_livelock_idle [LawfulTrees S] {closures : Tx T X → Prop} {calm : Bool} {s : S} {progs : List (List (Prog S α))} {n : Nat}
    (y : Nat → S × List (Thread S T X α)) (h0 : y 0 = (s, progs.map idle)) (hl : AllLeft progs n) :
    ∃ k, Fine closures calm (y k) (y (k + 1)) → Spurious (y k) (y (k + 1)) := by
  by_contra hne
  have hne : ∀ k, Fine closures calm (y k) (y (k + 1)) ∧ ¬ Spurious (y k) (y (k + 1)) := by
    intro k
    by_contra hk
    exact hne ⟨k, fun h => by_contra fun h' => hk ⟨h, h'⟩⟩
  exact no_livelock n y (by rw [h0]; exact good_idle progs)
    (by rw [h0]; show AllLeft ((progs.map idle).map Prod.snd) n; rw [map_idle]; exact hl) hne

theorem goes_on_idle [LawfulTrees S] {closures : Tx T X → Prop} {part : Bool} {s : S} {progs : List (List (Prog S α))}
    (hm : ∀ q ∈ progs, ∀ p ∈ q, p.MadeOf closures) {y : Nat → S × List (Thread S T X α)} {N : Nat} (h : Course closures part y N)
    (h0 : y 0 = (s, progs.map idle)) {s1 : S} {pre post : List (Thread S T X α)} {th : Thread S T X α}
    (e : y N = (s1, pre ++ th :: post)) (hne : th ≠ idle []) :
    ∃ s' th', Fine closures true (y N) (s', pre ++ th' :: post) ∧ ¬ Spurious (y N) (s', pre ++ th' :: post) := by
  have hG : (∀ th ∈ (y N).2, Good th) ∧ ∀ th ∈ (y N).2, ∀ p ∈ th.2, p.MadeOf closures := by
    clear e
    induction N with
    | zero =>
      rw [h0]
      refine ⟨good_idle progs, fun th hth => ?_⟩
      obtain ⟨q, hq, rfl⟩ := List.mem_map.1 hth
      exact hm q hq
    | succ N ih =>
      obtain ⟨h1, h2⟩ := ih (fun k hk => h k (by omega))
      have hs := h N (Nat.lt_succ_self N)
      exact ⟨(fine_step hs h1).1, fine_madeOf hs h1 h2⟩
  rw [e] at hG ⊢
  obtain ⟨s', th', hf, hn⟩ := fine_goes_on (closures := closures) (calm := true) s1 pre post th (hG.1 th (by simp)) (hG.2 th (by simp)) hne
  exact ⟨s', th', hf, not_spurious hn⟩

end Tx

/-- when no step is possible any more, all is done -/
theorem all_done {x : S × List (List (Prog S α))} (h : ∀ z, ¬ CalmStep x z) : ∀ th ∈ x.2, th = [] := by
  intro th hth
  cases th with
  | nil => rfl
  | cons p q =>
    obtain ⟨pre, post, e⟩ := List.append_of_mem hth
    obtain ⟨s, l⟩ := x
    have e : l = pre ++ (p :: q) :: post := e
    subst e
    obtain ⟨s', l', h'⟩ := goes_on s pre post p q
    exact absurd h' (h _)

end Verif
