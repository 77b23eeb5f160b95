import Verif.Proof.SledLoose

/-! # Threads that race, as read from the first ordering -/

set_option linter.unusedSectionVars false

namespace Verif

open Spec ConcreteId

/-! ## counting `remove_edge` once -/

section

variable {Id NP EP E : Type} [LinearOrder Id]

/-- the same operations, but for some edges removed twice in a row -/
inductive Dbl : List (Op E Id NP EP) → List (Op E Id NP EP) → Prop
  | nil : Dbl [] []
  | cons (op : Op E Id NP EP) {r r' : List (Op E Id NP EP)} : Dbl r r' → Dbl (op :: r) (op :: r')
  | dup (t : Triple Id) {r r' : List (Op E Id NP EP)} : Dbl r r' → Dbl (.removeEdge t :: .removeEdge t :: r) (.removeEdge t :: r')

theorem Dbl.refl (l : List (Op E Id NP EP)) : Dbl l l := by
  induction l with
  | nil => exact .nil
  | cons o l ih => exact .cons o ih

theorem Dbl.append {r r' q q' : List (Op E Id NP EP)} (h : Dbl r r') (h' : Dbl q q') : Dbl (r ++ q) (r' ++ q') := by
  induction h with
  | nil => exact h'
  | cons o _ ih => exact .cons o ih
  | dup t _ ih => exact .dup t ih

theorem shuffle_head {α : Type} {b : Bool} {ls pre post : List (List α)} {r h : List α} {a : α} (hs : Shuffle b ls h)
    (e : ls = pre ++ (a :: r) :: post) : a ∈ h ∨ (b = true ∧ Shuffle b (pre ++ r :: post) h) := by
  induction hs generalizing pre post r with
  | nil ls hl => subst e; exact absurd (hl (a :: r) (by simp)) (by simp)
  | take p q a' l h hs ih =>
    rcases List.append_eq_append_iff.1 e with ⟨m, h1, h2⟩ | ⟨m, h1, h2⟩
    · cases m with
      | nil =>
        simp only [List.nil_append, List.cons.injEq] at h2
        obtain ⟨⟨rfl, rfl⟩, rfl⟩ := h2
        exact .inl List.mem_cons_self
      | cons y m =>
        simp only [List.cons_append, List.cons.injEq] at h2
        obtain ⟨rfl, rfl⟩ := h2
        subst h1
        rcases ih (pre := p ++ l :: m) (post := post) (r := r) (by simp) with h | ⟨h, h'⟩
        · exact .inl (List.mem_cons_of_mem _ h)
        · refine .inr ⟨h, ?_⟩
          have := Shuffle.take (part := b) p (m ++ r :: post) a' l _ (by simpa using h')
          simpa using this
    · cases m with
      | nil =>
        simp only [List.nil_append, List.cons.injEq] at h2
        obtain ⟨⟨rfl, rfl⟩, rfl⟩ := h2
        exact .inl List.mem_cons_self
      | cons y m =>
        simp only [List.cons_append, List.cons.injEq] at h2
        obtain ⟨rfl, rfl⟩ := h2
        subst h1
        rcases ih (pre := pre) (post := m ++ l :: q) (r := r) (by simp) with h | ⟨h, h'⟩
        · exact .inl (List.mem_cons_of_mem _ h)
        · refine .inr ⟨h, ?_⟩
          have := Shuffle.take (part := b) (pre ++ r :: m) q a' l _ (by simpa using h')
          simpa using this
  | drop p q a' l h hb hs ih =>
    rcases List.append_eq_append_iff.1 e with ⟨m, h1, h2⟩ | ⟨m, h1, h2⟩
    · cases m with
      | nil =>
        simp only [List.nil_append, List.cons.injEq] at h2
        obtain ⟨⟨rfl, rfl⟩, rfl⟩ := h2
        rw [List.append_nil] at h1
        subst h1
        exact .inr ⟨hb, hs⟩
      | cons y m =>
        simp only [List.cons_append, List.cons.injEq] at h2
        obtain ⟨rfl, rfl⟩ := h2
        subst h1
        rcases ih (pre := p ++ l :: m) (post := post) (r := r) (by simp) with h | ⟨h, h'⟩
        · exact .inl h
        · refine .inr ⟨h, ?_⟩
          have := Shuffle.drop (part := b) p (m ++ r :: post) a' l _ hb (by simpa using h')
          simpa using this
    · cases m with
      | nil =>
        simp only [List.nil_append, List.cons.injEq] at h2
        obtain ⟨⟨rfl, rfl⟩, rfl⟩ := h2
        rw [List.append_nil] at h1
        subst h1
        exact .inr ⟨hb, hs⟩
      | cons y m =>
        simp only [List.cons_append, List.cons.injEq] at h2
        obtain ⟨rfl, rfl⟩ := h2
        subst h1
        rcases ih (pre := pre) (post := m ++ l :: q) (r := r) (by simp) with h | ⟨h, h'⟩
        · exact .inl h
        · refine .inr ⟨h, ?_⟩
          have := Shuffle.drop (part := b) (pre ++ r :: m) q a' l _ hb (by simpa using h')
          simpa using this

theorem forall₂_split {α β : Type} {R : α → β → Prop} {pre post : List α} {a : α} {ls : List β}
    (h : List.Forall₂ R (pre ++ a :: post) ls) :
    ∃ pre' a' post', ls = pre' ++ a' :: post' ∧ List.Forall₂ R pre pre' ∧ R a a' ∧ List.Forall₂ R post post' := by
  induction pre generalizing ls with
  | nil =>
    cases h with
    | cons h1 h2 => exact ⟨[], _, _, rfl, .nil, h1, h2⟩
  | cons x pre ih =>
    cases h with
    | cons h1 h2 =>
      obtain ⟨pre', a', post', rfl, i1, i2, i3⟩ := ih h2
      exact ⟨_ :: pre', a', post', rfl, .cons h1 i1, i2, i3⟩

theorem forall₂_join {α β : Type} {R : α → β → Prop} {pre post : List α} {a : α} {pre' post' : List β} {a' : β}
    (h1 : List.Forall₂ R pre pre') (h2 : R a a') (h3 : List.Forall₂ R post post') :
    List.Forall₂ R (pre ++ a :: post) (pre' ++ a' :: post') := by
  induction h1 with
  | nil => exact .cons h2 h3
  | cons h _ ih => exact .cons h ih

variable {okN : NP → Bool} {okE : EP → Bool} {mN : NP → NP → NP} {mE : EP → EP → EP} {WS WO : Triple Id → Prop} {b : Bool}

open Classical in
/-- what happens to other edges does not depend on some edges -/
theorem loose_congr {S : Triple Id → Prop} {op : Op E Id NP EP} (h : Single op) {G1 G2 G1' : Graph Id NP EP}
    (hn : ∀ n, G1.nodes n = G2.nodes n) (he : ∀ t, ¬ S t → G1.edges t = G2.edges t)
    (hl : LooseStep okN okE mN mE WS WO G1 op G1') :
    ∃ G2', LooseStep okN okE mN mE WS WO G2 op G2' ∧ (∀ n, G1'.nodes n = G2'.nodes n) ∧ ∀ t, ¬ S t → G1'.edges t = G2'.edges t := by
  have single : G1' = (op.step okN okE mN mE G1).1 → (∀ G2', G2' = (op.step okN okE mN mE G2).1 → LooseStep okN okE mN mE WS WO G2 op G2') →
      ∃ G2', LooseStep okN okE mN mE WS WO G2 op G2' ∧ (∀ n, G1'.nodes n = G2'.nodes n) ∧ ∀ t, ¬ S t → G1'.edges t = G2'.edges t := by
    rintro rfl h'
    exact ⟨_, h' _ rfl, step_congr h hn he⟩
  cases op with
  | removeNode n =>
    obtain ⟨h1, h2, h3, h4⟩ := hl
    refine ⟨⟨G1'.nodes, fun t => if S t then (if t.sub = n ∨ t.obj = n then none else G2.edges t) else G1'.edges t⟩,
      ⟨fun m => by rw [← hn]; exact h1 m, fun t => ?_, fun t ht hW => ?_, fun t ht hW => ?_⟩, fun _ => rfl, fun t ht => (if_neg ht).symm⟩
    · dsimp only
      by_cases hS : S t
      · rw [if_pos hS]
        by_cases hs : t.sub = n ∨ t.obj = n
        · rw [if_pos hs]; exact .inr ⟨hs, rfl⟩
        · rw [if_neg hs]; exact .inl rfl
      · rw [if_neg hS, ← he t hS]
        exact h2 t
    · dsimp only
      rw [if_pos (Or.inl ht : t.sub = n ∨ t.obj = n), h3 t ht hW, ite_self]
    · dsimp only
      rw [if_pos (Or.inr ht : t.sub = n ∨ t.obj = n), h4 t ht hW, ite_self]
  | extend src => exact h.elim
  | merge src => exact h.elim
  | insertNode n p => exact single hl (fun _ => id)
  | insertEdge t p => exact single hl (fun _ => id)
  | removeEdge t => exact single hl (fun _ => id)
  | mergeNode n p => exact single hl (fun _ => id)
  | mergeEdge t p => exact single hl (fun _ => id)

theorem collapse (N : Nat) : ∀ (ls ls' : List (List (Op E Id NP EP))) (h : List (Op E Id NP EP)) (S : Triple Id → Prop)
    (G1 G2 G' : Graph Id NP EP), (ls.map List.length).sum ≤ N → List.Forall₂ Dbl ls ls' → (∀ l ∈ ls, ∀ op ∈ l, Single op) →
    Shuffle b ls h → (∀ n, G1.nodes n = G2.nodes n) → (∀ t, ¬ S t → G1.edges t = G2.edges t) → (∀ t, S t → .removeEdge t ∈ h) →
    Runs (LooseStep okN okE mN mE WS WO) G1 h G' → ∃ h', Shuffle b ls' h' ∧ Runs (LooseStep okN okE mN mE WS WO) G2 h' G' := by
  have less : ∀ {p q : List (List (Op E Id NP EP))} {a : Op E Id NP EP} {l : List (Op E Id NP EP)},
      ((p ++ (a :: l) :: q).map List.length).sum = ((p ++ l :: q).map List.length).sum + 1 := by
    intro p q a l; simp; omega
  -- an operation which is done in both
  have both : ∀ {op : Op E Id NP EP} {h : List (Op E Id NP EP)} {S : Triple Id → Prop} {G1 G2 G' : Graph Id NP EP}, Single op →
      (∀ n, G1.nodes n = G2.nodes n) → (∀ t, ¬ S t → G1.edges t = G2.edges t) → (∀ t, S t → .removeEdge t ∈ op :: h) →
      Runs (LooseStep okN okE mN mE WS WO) G1 (op :: h) G' →
      ∃ (S' : Triple Id → Prop) (G1' G2' : Graph Id NP EP), LooseStep okN okE mN mE WS WO G2 op G2' ∧ (∀ n, G1'.nodes n = G2'.nodes n) ∧
        (∀ t, ¬ S' t → G1'.edges t = G2'.edges t) ∧ (∀ t, S' t → .removeEdge t ∈ h) ∧ Runs (LooseStep okN okE mN mE WS WO) G1' h G' := by
    rintro op h S G1 G2 G' hop hn he hS ⟨G1', h1, h2⟩
    by_cases hrm : ∃ t, op = .removeEdge t
    · obtain ⟨t, rfl⟩ := hrm
      have h1 : G1' = ((Op.removeEdge t : Op E Id NP EP).step okN okE mN mE G1).1 := h1
      subst h1
      refine ⟨fun u => S u ∧ u ≠ t, ((Op.removeEdge t : Op E Id NP EP).step okN okE mN mE G1).1, _, rfl, hn, fun u hu => ?_, fun u hu => ?_, h2⟩
      · show (if u = t then none else G1.edges u) = if u = t then none else G2.edges u
        split
        · rfl
        · rename_i hne; exact he u (fun hs => hu ⟨hs, hne⟩)
      · rcases List.mem_cons.1 (hS u hu.1) with h | h
        · cases h; exact absurd rfl hu.2
        · exact h
    · obtain ⟨G2', h3, h4, h5⟩ := loose_congr hop hn he h1
      refine ⟨S, G1', G2', h3, h4, h5, fun t ht => ?_, h2⟩
      rcases List.mem_cons.1 (hS t ht) with h | h
      · exact absurd ⟨t, h.symm⟩ hrm
      · exact h
  induction N with
  | zero =>
    intro ls ls' h S G1 G2 G' hN hd hsg hs hn he hS hr
    cases hs with
    | nil _ hl =>
      obtain rfl : G' = G1 := hr
      refine ⟨[], .nil _ (fun l hl' => ?_), Graph.ext' hn (fun t => he t (fun h => by cases hS t h))⟩
      have : ∀ {ls ls' : List (List (Op E Id NP EP))}, List.Forall₂ Dbl ls ls' → (∀ l ∈ ls, l = []) → ∀ l ∈ ls', l = [] := by
        intro ls ls' h
        induction h with
        | nil => simp
        | cons h _ ih =>
          intro h' l hl
          rcases List.mem_cons.1 hl with rfl | hl
          · have := h' _ List.mem_cons_self
            subst this
            cases h; rfl
          · exact ih (fun l hl => h' l (List.mem_cons_of_mem _ hl)) l hl
      exact this hd hl l hl'
    | take p q a l h hs => rw [less] at hN; omega
    | drop p q a l h hb hs => rw [less] at hN; omega
  | succ N ih =>
    intro ls ls' h S G1 G2 G' hN hd hsg hs hn he hS hr
    cases hs with
    | nil _ hl =>
      exact ih ls ls' [] S G1 G2 G' (by
        have : ∀ ls : List (List (Op E Id NP EP)), (∀ l ∈ ls, l = []) → (ls.map List.length).sum = 0 := by
          intro ls h
          induction ls with
          | nil => rfl
          | cons l ls ih => simp [h l (by simp), ih (fun l hl => h l (by simp [hl]))]
        rw [this ls hl]
        omega) hd hsg (.nil _ hl) hn he hS hr
    | take p q a l h hs =>
      rw [less] at hN
      have hsg' : ∀ k ∈ p ++ l :: q, ∀ op ∈ k, Single op := by
        intro k hk op hop
        simp only [List.mem_append, List.mem_cons] at hk
        rcases hk with hk | rfl | hk
        · exact hsg k (by simp [hk]) op hop
        · exact hsg (a :: k) (by simp) op (List.mem_cons_of_mem _ hop)
        · exact hsg k (by simp [hk]) op hop
      have hop : Single a := hsg (a :: l) (by simp) a List.mem_cons_self
      obtain ⟨p', k, q', rfl, d1, d2, d3⟩ := forall₂_split hd
      cases d2 with
      | cons _ d2 =>
        obtain ⟨S', H1, H2, j1, j2, j3, j4, j5⟩ := both hop hn he hS hr
        obtain ⟨h', k1, k2⟩ := ih _ _ h S' H1 H2 G' (by omega) (forall₂_join d1 d2 d3) hsg' hs j2 j3 j4 j5
        exact ⟨a :: h', .take _ _ _ _ _ k1, H2, j1, k2⟩
      | @dup t r r' d2 =>
        rcases shuffle_head hs rfl with hm | ⟨hb, hs'⟩
        · -- the second one counts
          obtain ⟨H1, j1, j2⟩ := hr
          have j1 : H1 = ((Op.removeEdge t : Op E Id NP EP).step okN okE mN mE G1).1 := j1
          subst j1
          exact ih _ _ h (fun u => S u ∨ u = t) ((Op.removeEdge t : Op E Id NP EP).step okN okE mN mE G1).1 G2 G' (by omega) (forall₂_join d1 (.cons _ d2) d3) hsg' hs hn (fun u hu => by
            show (if u = t then none else G1.edges u) = _
            rw [if_neg (fun e => hu (.inr e)), he u (fun e => hu (.inl e))]) (fun u hu => by
            rcases hu with hu | rfl
            · rcases List.mem_cons.1 (hS u hu) with h | h
              · cases h; exact hm
              · exact h
            · exact hm) j2
        · -- the second one is never done
          obtain ⟨S', H1, H2, j1, j2, j3, j4, j5⟩ := both hop hn he hS hr
          rw [less] at hN
          obtain ⟨h', k1, k2⟩ := ih _ _ h S' H1 H2 G' (by omega) (forall₂_join d1 d2 d3) (fun k hk op hop => by
            simp only [List.mem_append, List.mem_cons] at hk
            rcases hk with hk | rfl | hk
            · exact hsg' k (by simp [hk]) op hop
            · exact hsg' (.removeEdge t :: k) (by simp) op (List.mem_cons_of_mem _ hop)
            · exact hsg' k (by simp [hk]) op hop) hs' j2 j3 j4 j5
          exact ⟨.removeEdge t :: h', .take _ _ _ _ _ k1, H2, j1, k2⟩
    | drop p q a l h hb hs =>
      rw [less] at hN
      have hsg' : ∀ k ∈ p ++ l :: q, ∀ op ∈ k, Single op := by
        intro k hk op hop
        simp only [List.mem_append, List.mem_cons] at hk
        rcases hk with hk | rfl | hk
        · exact hsg k (by simp [hk]) op hop
        · exact hsg (a :: k) (by simp) op (List.mem_cons_of_mem _ hop)
        · exact hsg k (by simp [hk]) op hop
      obtain ⟨p', k, q', rfl, d1, d2, d3⟩ := forall₂_split hd
      cases d2 with
      | cons _ d2 =>
        obtain ⟨h', k1, k2⟩ := ih _ _ h S G1 G2 G' (by omega) (forall₂_join d1 d2 d3) hsg' hs hn he hS hr
        exact ⟨h', .drop _ _ _ _ _ hb k1, k2⟩
      | dup t d2 =>
        exact ih _ _ h S G1 G2 G' (by omega) (forall₂_join d1 (.cons _ d2) d3) hsg' hs hn he hS hr

end

/-! ## the threads -/

variable {Id NP EP E : Type} [LinearOrder Id] [ConcreteId Id] [LawfulId Id]

namespace Sled

open Db

variable {c : Codecs NP EP} {mN : NP → NP → NP} {mE : EP → EP → EP} {b : Bool} {d0 : Db}
  {ths : Programs E Id NP EP}

theorem acts_dbl (x : Call E Id NP EP) : Dbl x.acts x.items := by
  cases x with
  | removeEdge t => exact .dup t .nil
  | _ => exact Dbl.refl _

theorem acts_single (x : Call E Id NP EP) (op : Op E Id NP EP) (h : op ∈ x.acts) : Single op := by
  have key : ∀ y : Call E Id NP EP, op ∈ y.items → Single op := fun y hy => items_single y op hy
  cases x with
  | removeEdge t =>
    simp only [Call.acts, List.mem_cons, List.not_mem_nil, or_false, or_self] at h
    rw [h]; trivial
  | insertNode n p => exact key (.insertNode n p) h
  | insertEdge i t p => exact key (.insertEdge i t p) h
  | removeNode n => exact key (.removeNode n) h
  | removeNodeScan n f b => exact key (.removeNodeScan n f b) h
  | mergeNode n p => exact key (.mergeNode n p) h
  | mergeEdge i t p => exact key (.mergeEdge i t p) h
  | extend u src => exact key (.extend u src) h
  | merge g src => exact key (.merge g src) h

/-- Doing the operations by turns, `remove_edge` once. -/
theorem acts_collapse {WS WO : Triple Id → Prop} {cs : List (List (Call E Id NP EP))} {h : List (Op E Id NP EP)} {G G' : Graph Id NP EP}
    (hs : Shuffle b (cs.map (List.flatMap Call.acts)) h) (hr : Runs (LooseStep c.okN c.okE mN mE WS WO) G h G') :
    ∃ h', Shuffle b (cs.map (List.flatMap Call.items)) h' ∧ Runs (LooseStep c.okN c.okE mN mE WS WO) G h' G' := by
  refine collapse _ _ _ h (fun _ => False) G G G' le_rfl ?_ ?_ hs (fun _ => rfl) (fun _ _ => rfl) (fun _ h => h.elim) hr
  · rw [List.forall₂_map_left_iff, List.forall₂_map_right_iff, List.forall₂_same]
    intro th hth
    clear hth
    induction th with
    | nil => exact .nil
    | cons x th ih => exact (acts_dbl x).append ih
  · intro l hl op hop
    obtain ⟨th, -, rfl⟩ := List.mem_map.1 hl
    obtain ⟨x, -, hx⟩ := List.mem_flatMap.1 hop
    exact acts_single x op hx

/-- what is to be shown of the program of a call -/
def FineS (c : Codecs NP EP) (mN : NP → NP → NP) (mE : EP → EP → EP) (b : Bool) (Own : Bytes → Triple Id → Prop) (WS WO : Triple Id → Prop)
    (e : Prog Db Unit × Call E Id NP EP) : Prop :=
  (e.2.writes.map Prod.fst).Nodup → ∀ y, DoesS E c mN mE b Own WS WO (e.2.plan WS WO) e.1 y e.2.acts

/-- what holds of a database before threads are started which write the edges in `W` -/
structure Ready (c : Codecs NP EP) (Own : Bytes → Triple Id → Prop) (d : Db) (W : List (Bytes × Triple Id)) : Prop where
  own : ∀ v t u, Own v t → Own v u → t = u
  neat : Neat c Own d
  recs : ∀ (t : Triple Id) (v : Bytes), d.idIn .SPO t = some v → ∃ b, d.edgeProps.get v = some b
  nodup : (W.map Prod.fst).Nodup
  owned : ∀ y ∈ W, Own y.1 y.2
  unused : ∀ y ∈ W, ∀ (o : EdgeOrder) (t : Triple Id), d.idIn o t ≠ some y.1

theorem ready_start (h0 : d0.Inv Id c) {W : List (Bytes × Triple Id)} {cs : List (List (Call E Id NP EP))} (hd : DistinctIds d0 cs)
    (hW : allWrites cs = W) : Ready c (owner d0 W) d0 W := by
  subst hW
  refine ⟨owner_fun h0 hd.1 hd.2, neat_start h0 hd, fun t v hv => ?_, hd.1, fun y hy => .inl hy, fun y hy o t hv => ?_⟩
  · obtain ⟨b, p, h1, -⟩ := h0.recs _ _ hv
    exact ⟨b, h1⟩
  · rw [h0.same] at hv
    obtain ⟨b, p, hb, -⟩ := h0.recs _ _ hv
    rw [hd.2 y hy] at hb
    cases hb

theorem loose_start {Own : Bytes → Triple Id → Prop} {WS WO : Triple Id → Prop} (h0 : Ready c Own d0 (allWrites ths.calls))
    (hS : ∀ t, ¬ WS t → ¬ Raced ths.calls t.sub t) (hO : ∀ t, ¬ WO t → ¬ Raced ths.calls t.obj t)
    (hf : ∀ th ∈ ths, ∀ e ∈ th, FineS c mN mE b Own WS WO e) :
    (spoRG c Own).inv d0 (fun v => ∃ (o : EdgeOrder) (t : Triple Id), d0.idIn o t = some v) ∧
      (∀ q ∈ ths.map (List.map (fun e => (e.1, e.2.plan WS WO, e.2.acts))),
        (spoRG c Own).ThreadE (fun d => d.graph c) (LooseStep c.okN c.okE mN mE WS WO) (Agreed WO) b
          (d0, fun v => ∃ (o : EdgeOrder) (t : Triple Id), d0.idIn o t = some v) q) ∧
      (ths.map (List.map (fun e => (e.1, e.2.plan WS WO, e.2.acts)))).Pairwise (ApartR (spoRG c Own).par) := by
  refine ⟨⟨h0.neat, fun o t v hv => ⟨o, t, hv⟩, h0.recs⟩, ?_, ?_⟩
  · have nd : ∀ th ∈ ths, th.Pairwise (fun x y => ∀ v ∈ x.2.writes.map Prod.fst, v ∉ y.2.writes.map Prod.fst) ∧
        ∀ x ∈ th, (x.2.writes.map Prod.fst).Nodup := by
      intro th hth
      have h1 := h0.nodup
      unfold allWrites at h1
      rw [List.map_flatMap, List.nodup_flatMap] at h1
      have hth' : th.map Prod.snd ∈ ths.calls := List.mem_map_of_mem hth
      refine ⟨?_, fun x hx => h1.1 x.2 (List.mem_flatten.2 ⟨_, hth', List.mem_map_of_mem hx⟩)⟩
      have h2 := (List.pairwise_flatten.1 h1.2).1 _ hth'
      rw [List.pairwise_map] at h2
      exact h2.imp (fun {a b} hab => fun v hv hv' => hab hv hv')
    intro q hq
    obtain ⟨th, hth, rfl⟩ := List.mem_map.1 hq
    have safe : ∀ x ∈ th, ∀ y, _ := fun x hx y => (hf th hth x hx) ((nd th hth).2 x hx) y
    have unused : ∀ x ∈ th, ∀ v ∈ x.2.writes.map Prod.fst, ¬ ∃ (o : EdgeOrder) (t : Triple Id), d0.idIn o t = some v := by
      rintro x hx v hv ⟨o, t, ht⟩
      obtain ⟨y, hy, rfl⟩ := List.mem_map.1 hv
      exact h0.unused y (List.mem_flatMap.2 ⟨x.2, List.mem_flatten.2 ⟨_, List.mem_map_of_mem hth, List.mem_map_of_mem hx⟩, hy⟩) o t ht
    have np := (nd th hth).1
    clear hq hth
    cases th with
    | nil => trivial
    | cons x th =>
      refine ⟨safe x (by simp) _, ?_, ?_, ?_⟩
      · intro e he y
        obtain ⟨z, hz, rfl⟩ := List.mem_map.1 he
        exact safe z (List.mem_cons_of_mem _ hz) y
      · rw [← List.map_cons (f := fun x : Prog Db Unit × Call E Id NP EP => (x.1, x.2.plan WS WO, x.2.acts)), List.pairwise_map]
        exact np
      · intro e he
        rw [← List.map_cons (f := fun x : Prog Db Unit × Call E Id NP EP => (x.1, x.2.plan WS WO, x.2.acts))] at he
        obtain ⟨z, hz, rfl⟩ := List.mem_map.1 he
        exact unused z hz
  · rw [List.pairwise_map]
    have h1 := h0.nodup
    unfold allWrites at h1
    rw [List.map_flatMap, List.nodup_flatMap] at h1
    have h2 := (List.pairwise_flatten.1 h1.2).2
    have ha : ths.calls.Pairwise (fun th th' => ∀ n t, ¬ Raced ths.calls n t → ∀ x ∈ th, ∀ y ∈ th',
        (x = .removeNode n → ∀ v, (v, t) ∉ y.writes) ∧ (y = .removeNode n → ∀ v, (v, t) ∉ x.writes)) := by
      rw [List.pairwise_iff_getElem]
      intro i j hi hj hij n t ht
      exact List.pairwise_iff_getElem.1 (not_not.1 ht) i j hi hj hij
    have own : ∀ th ∈ ths, ∀ x ∈ th, ∀ v ∈ x.2.writes.map Prod.fst, ∀ t, Own v t → (v, t) ∈ x.2.writes := by
      intro th hth x hx v hv t ht
      obtain ⟨y, hy, rfl⟩ := List.mem_map.1 hv
      have h3 := h0.owned y (List.mem_flatMap.2 ⟨x.2, List.mem_flatten.2 ⟨_, List.mem_map_of_mem hth, List.mem_map_of_mem hx⟩, hy⟩)
      rw [h0.own _ _ _ ht h3]
      exact hy
    have hm : ths.Pairwise (fun th th' => th ∈ ths ∧ th' ∈ ths) := by
      rw [List.pairwise_iff_getElem]
      intro i j hi hj _
      exact ⟨List.getElem_mem _, List.getElem_mem _⟩
    unfold Programs.calls at h2 ha
    rw [List.pairwise_map] at h2 ha
    refine ((h2.and ha).and hm).imp (fun {th th'} h => ?_)
    intro e he e' he'
    obtain ⟨x, hx, rfl⟩ := List.mem_map.1 he
    obtain ⟨x', hx', rfl⟩ := List.mem_map.1 he'
    obtain ⟨⟨h, hal⟩, m1, m2⟩ := h
    have h := h x.2 (List.mem_map_of_mem hx) x'.2 (List.mem_map_of_mem hx')
    refine ⟨⟨fun v hv hv' => h hv hv', fun v hv t ht hx'' => ?_⟩, ⟨fun v hv hv' => h hv' hv, fun v hv t ht hx'' => ?_⟩⟩
    · have key : ∀ n, x'.2 = .removeNode n → ¬ Raced ths.calls n t → False := fun n hn hr =>
        (hal n t hr x.2 (List.mem_map_of_mem hx) x'.2 (List.mem_map_of_mem hx')).2 hn v (own th m1 x hx v hv t ht)
      rcases hx'' with ⟨h1, h2⟩ | ⟨h1, h2⟩
      · exact key _ h1 (hS _ h2)
      · exact key _ h1 (hO _ h2)
    · have key : ∀ n, x.2 = .removeNode n → ¬ Raced ths.calls n t → False := fun n hn hr =>
        (hal n t hr x.2 (List.mem_map_of_mem hx) x'.2 (List.mem_map_of_mem hx')).1 hn v (own th' m2 x' hx' v hv t ht)
      rcases hx'' with ⟨h1, h2⟩ | ⟨h1, h2⟩
      · exact key _ h1 (hS _ h2)
      · exact key _ h1 (hO _ h2)

theorem loose_programs {Own : Bytes → Triple Id → Prop} {WS WO : Triple Id → Prop} (h0 : Ready c Own d0 (allWrites ths.calls))
    (hS : ∀ t, ¬ WS t → ¬ Raced ths.calls t.sub t) (hO : ∀ t, ¬ WO t → ¬ Raced ths.calls t.obj t)
    (hf : ∀ th ∈ ths, ∀ e ∈ th, FineS c mN mE b Own WS WO e) :
    (spoRG c Own).LinE (fun d => d.graph c) (LooseStep c.okN c.okE mN mE WS WO)
      (Agreed WO) b
      (d0.graph c) (ths.calls.map (List.flatMap Call.acts)) (d0, ths.start) := by
  obtain ⟨h1, h2, h3⟩ := loose_start h0 hS hO hf
  refine ⟨[], _, _, by simp [Programs.start, Function.comp_def], h1, h2, h3, ?_, rfl⟩
  have : (ths.map (List.map (fun e => (e.1, e.2.plan WS WO, e.2.acts)))).map (List.flatMap (fun e => e.2.2)) =
      ths.calls.map (List.flatMap Call.acts) := by
    simp [Programs.calls, List.flatMap_map, Function.comp_def]
  rw [this]
  exact .refl

theorem spoOk_shows {Own : Bytes → Triple Id → Prop} {X : Bytes → Prop} {d : Db} (h : SpoOk c Own d X) : SpoShows c d (d.graph (Id := Id) c) := by
  refine ⟨iterVertices_lists h.neat.nodes, iterEdges_lists (h.neat.keys .SPO) (fun k v hv => ?_), fun o e he => ?_, fun q g hq hg => ?_⟩
  · obtain ⟨t, rfl⟩ := h.neat.keys .SPO k v hv
    obtain ⟨b, hb⟩ := h.recs t v hv
    obtain ⟨p, hp⟩ := h.neat.recs v t b (h.neat.refs _ _ _ hv) hb
    exact ⟨b, p, hb, hp⟩
  · unfold iterEdges at he
    rw [orderedEdges_eq, List.map_map, List.mem_map] at he
    obtain ⟨⟨k, v⟩, he, h'⟩ := he
    rw [BMap.mem_entries] at he
    obtain ⟨u, rfl⟩ := h.neat.keys o k v he
    simp only [Function.comp, decodeEntry_enc, getData] at h'
    cases hb : d.edgeProps.get v with
    | none => simp only [hb] at h'; cases h'; rfl
    | some b =>
      obtain ⟨p, hp⟩ := h.neat.recs v u b (h.neat.refs o _ _ he) hb
      simp only [hb, hp] at h'; cases h'
  · have hg := hg (Spec.Query.order q)
    unfold iterEdges at hg
    rw [orderedEdges_eq, List.map_map, List.length_map] at hg
    rcases run_any (c := c) d 0 q (by rw [Nat.zero_add]; exact hg) hq with ⟨e, h1, h2⟩ | ⟨r, h1, h2, h3⟩
    · exfalso
      cases e with
      | sled => exact h2
      | missing => exact h2
      | keySize =>
        obtain ⟨e, he, hl⟩ := h2
        obtain ⟨t, ht⟩ := h.neat.keys _ e.1 e.2 (BMap.mem_entries.1 he)
        exact hl (by rw [ht]; exact (encOf _ t).2)
      | serialization =>
        rcases h2 with ⟨t, v, -, hv, b, hb, hb'⟩ | ⟨n, -, b, hb, hb'⟩
        · obtain ⟨p, hp⟩ := h.neat.recs v t b (h.neat.refs _ _ _ hv) hb
          rw [hp] at hb'; cases hb'
        · obtain ⟨-, p, hp⟩ := h.neat.nodes _ _ hb
          rw [hp] at hb'; cases hb'
    · refine ⟨r, h1, fun hb => ?_⟩
      have : Spec.Query.order q = .SPO := by
        cases q <;> first | rfl | exact hb.elim
      rw [this] at h2
      exact h2.shows

theorem agreed_programs {Own : Bytes → Triple Id → Prop} {WO : Triple Id → Prop} (h0 : Agreed WO d0)
    (hX : ∀ t, ¬ WO t → ¬ Extended ths.calls t ∧ ¬ EdgeRaced ths.calls t)
    (hf : ∀ th ∈ ths, ∀ e ∈ th, FineX c mN mE b Own (Extended ths.calls) e) (y : Db × List (List (Prog Db Unit)))
    (hs : Steps (d0, ths.start) y) : Agreed WO y.1 := by
  intro t ht
  exact agreeAt_edge (hX t ht).1 (fun o => h0 t ht o) hf (not_not.1 (hX t ht).2) hs

/-- at any moment, whatever the database contains at the start -/
theorem loose_part {cs : List (List (Call E Id NP EP))} (e : ths.calls = cs) {Own : Bytes → Triple Id → Prop} {WS WO : Triple Id → Prop}
    (h0 : Ready c Own d0 (allWrites cs)) (hA : Agreed WO d0)
    (hS : ∀ t, ¬ WS t → ¬ Raced cs t.sub t) (hO : ∀ t, ¬ WO t → ¬ Raced cs t.obj t)
    (hX : ∀ t, ¬ WO t → ¬ Extended cs t ∧ ¬ EdgeRaced cs t)
    (hf : ∀ th ∈ ths, ∀ e ∈ th, FineS c mN mE true Own WS WO e) (hx : ∀ th ∈ ths, ∀ e ∈ th, FineX c mN mE true Own (Extended cs) e)
    {d : Db} {r : List (List (Prog Db Unit))} (hs : Steps (d0, ths.start) (d, r)) :
    ∃ l, Shuffle true (cs.map (List.flatMap Call.items)) l ∧
      Runs (LooseStep c.okN c.okE mN mE WS WO) (d0.graph c) l (d.graph c) ∧ ∃ X, SpoOk c Own d X := by
  subst e
  obtain ⟨⟨X, h1⟩, l, h2, h3⟩ := (RG.linE_steps (agreed_programs hA hX hx) (loose_programs h0 hS hO hf) hs).part
  obtain ⟨l', h4, h5⟩ := acts_collapse h2 h3
  exact ⟨l', h4, h5, X, h1⟩

/-- in the end -/
theorem loose_full {cs : List (List (Call E Id NP EP))} (e : ths.calls = cs) {Own : Bytes → Triple Id → Prop} {WS WO : Triple Id → Prop}
    (h0 : Ready c Own d0 (allWrites cs)) (hA : Agreed WO d0)
    (hS : ∀ t, ¬ WS t → ¬ Raced cs t.sub t) (hO : ∀ t, ¬ WO t → ¬ Raced cs t.obj t)
    (hX : ∀ t, ¬ WO t → ¬ Extended cs t ∧ ¬ EdgeRaced cs t)
    (hf : ∀ th ∈ ths, ∀ e ∈ th, FineS c mN mE b Own WS WO e) (hx : ∀ th ∈ ths, ∀ e ∈ th, FineX c mN mE b Own (Extended cs) e)
    {d : Db} {r : List (List (Prog Db Unit))} (hs : CalmSteps (d0, ths.start) (d, r)) (he : ∀ th ∈ r, th = []) :
    ∃ l, Shuffle b (cs.map (List.flatMap Call.items)) l ∧
      Runs (LooseStep c.okN c.okE mN mE WS WO) (d0.graph c) l (d.graph c) ∧ ∃ X, SpoOk c Own d X := by
  subst e
  obtain ⟨⟨X, h1⟩, l, h2, h3⟩ := (RG.linE_calm (agreed_programs hA hX hx) (loose_programs h0 hS hO hf) hs).full he
  obtain ⟨l', h4, h5⟩ := acts_collapse h2 h3
  exact ⟨l', h4, h5, X, h1⟩

theorem loose_moment {cs : List (List (Call E Id NP EP))} (e : ths.calls = cs) (h0 : d0.Inv Id c) (hd : DistinctIds d0 cs)
    (hf : ∀ th ∈ ths, ∀ e ∈ th, FineS c mN mE true (owner d0 (allWrites cs)) (FromRaced cs) (ToRaced cs) e)
    (hx : ∀ th ∈ ths, ∀ e ∈ th, FineX c mN mE true (owner d0 (allWrites cs)) (Extended cs) e)
    {d : Db} {r : List (List (Prog Db Unit))} (hs : Steps (d0, ths.start) (d, r)) :
    ∃ l G', Shuffle true (cs.map (List.flatMap Call.items)) l ∧
      Runs (LooseStep c.okN c.okE mN mE (FromRaced cs) (ToRaced cs)) (d0.graph c) l G' ∧ SpoShows c d G' := by
  obtain ⟨l, h1, h2, X, h3⟩ := loose_part e (ready_start h0 hd rfl) (fun t _ o => h0.same o t) (fun _ h => h) (fun _ h h' => h (.inl h'))
    (fun _ h => ⟨fun h' => h (.inr (.inl h')), fun h' => h (.inr (.inr h'))⟩) hf hx hs
  exact ⟨l, _, h1, h2, spoOk_shows h3⟩

theorem loose_final {cs : List (List (Call E Id NP EP))} (e : ths.calls = cs) (h0 : d0.Inv Id c) (hd : DistinctIds d0 cs)
    (hf : ∀ th ∈ ths, ∀ e ∈ th, FineS c mN mE b (owner d0 (allWrites cs)) (FromRaced cs) (ToRaced cs) e)
    (hx : ∀ th ∈ ths, ∀ e ∈ th, FineX c mN mE b (owner d0 (allWrites cs)) (Extended cs) e)
    {d : Db} {r : List (List (Prog Db Unit))} (hs : CalmSteps (d0, ths.start) (d, r)) (he : ∀ th ∈ r, th = []) :
    ∃ l G', Shuffle b (cs.map (List.flatMap Call.items)) l ∧
      Runs (LooseStep c.okN c.okE mN mE (FromRaced cs) (ToRaced cs)) (d0.graph c) l G' ∧ SpoShows c d G' := by
  obtain ⟨l, h1, h2, X, h3⟩ := loose_full e (ready_start h0 hd rfl) (fun t _ o => h0.same o t) (fun _ h => h) (fun _ h h' => h (.inl h'))
    (fun _ h => ⟨fun h' => h (.inr (.inl h')), fun h' => h (.inr (.inr h'))⟩) hf hx hs he
  exact ⟨l, _, h1, h2, spoOk_shows h3⟩

theorem fineS_pieces (hc : c.RoundTrip) (hb : b = true ∨ c.Total) {threads : List (List (PieceCall E Id NP EP))} (h0 : d0.Inv Id c)
    (hd : DistinctIds d0 (calls threads)) (hx : ∀ th ∈ threads, ∀ x ∈ th, ¬ x.1.IsScan) :
    ∀ th ∈ threads.map (List.map (fun x => (x.prog c mN mE, x.1))), ∀ e ∈ th,
      FineS c mN mE b (owner d0 (allWrites (calls threads))) (FromRaced (calls threads)) (ToRaced (calls threads)) e := by
  intro th hth e he
  obtain ⟨th, hth', rfl⟩ := List.mem_map.1 hth
  obtain ⟨x, hx', rfl⟩ := List.mem_map.1 he
  have hm : th.map Prod.fst ∈ calls threads := List.mem_map_of_mem hth'
  have hm' : x.1 ∈ th.map Prod.fst := List.mem_map_of_mem hx'
  exact fun hn y => doesS_piece hc hb (owner_fun h0 hd.1 hd.2) x (hx th hth' x hx') hn (writes_owned _ hm _ hm') y

theorem fineS_calls (hc : c.RoundTrip) (hb : b = true ∨ c.Total) {threads : List (List (Call E Id NP EP))} (h0 : d0.Inv Id c)
    (hd : DistinctIds d0 threads) (hx : ∀ th ∈ threads, ∀ x ∈ th, ¬ x.IsScan) :
    ∀ th ∈ threads.map (List.map (fun x => (x.prog c mN mE, x))), ∀ e ∈ th,
      FineS c mN mE b (owner d0 (allWrites threads)) (FromRaced threads) (ToRaced threads) e := by
  intro th hth e he
  obtain ⟨th, hm, rfl⟩ := List.mem_map.1 hth
  obtain ⟨x, hm', rfl⟩ := List.mem_map.1 he
  exact fun hn y => doesS_prog hc hb (owner_fun h0 hd.1 hd.2) x (hx th hm x hm') hn (writes_owned _ hm _ hm') y

end Sled

end Verif
