import Mathlib.Data.List.Pairwise
import Verif.Model.MemSet

/-! # The two-iterator loop of the set operations, on error-free iterators -/

namespace Verif

variable {σ τ A B E K : Type}

/-- the loop as structural recursion on two lists: final state and what is left of the first list -/
def mergeWalk (ltAB : A → B → Bool) (ltBA : B → A → Bool) (onL : σ → A → σ) (onR : σ → B → σ)
    (onB : σ → A → B → σ) : σ → List A → List B → σ × List A
  | st, [], _ => (st, [])
  | st, l :: L, [] => (st, l :: L)
  | st, l :: L, r :: R =>
    if ltAB l r then mergeWalk ltAB ltBA onL onR onB (onL st l) L (r :: R)
    else if ltBA r l then mergeWalk ltAB ltBA onL onR onB (onR st r) (l :: L) R
    else mergeWalk ltAB ltBA onL onR onB (onB st l r) L R
termination_by _ L R => L.length + R.length

theorem nextItem_map_ok (L : List A) :
    nextItem (E := E) (L.map .ok) = .ok (L.head?, L.tail.map .ok) := by
  cases L <;> rfl

theorem walk_eq (ltAB : A → B → Bool) (ltBA : B → A → Bool) (onL : σ → A → σ) (onR : σ → B → σ)
    (onB : σ → A → B → σ) (st : σ) (L : List A) (R : List B) :
    walk (E := E) ltAB ltBA onL onR onB st L.head? (L.tail.map .ok) R.head? (R.tail.map .ok) =
      .ok { st := (mergeWalk ltAB ltBA onL onR onB st L R).1
            cur := (mergeWalk ltAB ltBA onL onR onB st L R).2.head?
            rest := (mergeWalk ltAB ltBA onL onR onB st L R).2.tail.map .ok } := by
  fun_induction mergeWalk ltAB ltBA onL onR onB st L R with
  | case1 st R => simp [walk]
  | case2 st l L => simp [walk]
  | case3 st l L r R h ih =>
    rw [← ih]
    simp only [List.head?_cons, List.tail_cons]
    rw [walk]
    simp only [h, if_true]
    split
    · rename_i e he; rw [nextItem_map_ok] at he; cases he
    · rename_i c i he; rw [nextItem_map_ok] at he; cases he; rfl
  | case4 st l L r R h h' ih =>
    rw [← ih]
    simp only [List.head?_cons, List.tail_cons]
    rw [walk]
    simp only [h, h', if_true, if_false, Bool.false_eq_true]
    split
    · rename_i e he; rw [nextItem_map_ok] at he; cases he
    · rename_i c i he; rw [nextItem_map_ok] at he; cases he; rfl
  | case5 st l L r R h h' ih =>
    rw [← ih]
    simp only [List.head?_cons, List.tail_cons]
    rw [walk]
    simp only [h, h', if_false, Bool.false_eq_true]
    split
    · rename_i e he; rw [nextItem_map_ok] at he; cases he
    · rename_i c i he; rw [nextItem_map_ok] at he; cases he
      split
      · rename_i e he; rw [nextItem_map_ok] at he; cases he
      · rename_i c i he; rw [nextItem_map_ok] at he; cases he; rfl

theorem drain_eq (f : σ → A → σ) (st : σ) (L : List A) :
    drain (E := E) f st L.head? (L.tail.map .ok) = .ok (L.foldl f st) := by
  cases L with
  | nil => rfl
  | cons a L =>
    simp only [List.head?_cons, List.tail_cons, List.foldl_cons]
    induction L generalizing st a with
    | nil => rfl
    | cons b L ih => simp only [List.map_cons, drain]; exact ih _ b

/-- a component of the state evolves on its own -/
theorem mergeWalk_proj (π : σ → τ) (ltAB : A → B → Bool) (ltBA : B → A → Bool)
    {onL : σ → A → σ} {onR : σ → B → σ} {onB : σ → A → B → σ}
    {onL' : τ → A → τ} {onR' : τ → B → τ} {onB' : τ → A → B → τ}
    (hL : ∀ s a, π (onL s a) = onL' (π s) a) (hR : ∀ s b, π (onR s b) = onR' (π s) b)
    (hB : ∀ s a b, π (onB s a b) = onB' (π s) a b) (st : σ) (L : List A) (R : List B) :
    π (mergeWalk ltAB ltBA onL onR onB st L R).1 = (mergeWalk ltAB ltBA onL' onR' onB' (π st) L R).1 ∧
    (mergeWalk ltAB ltBA onL onR onB st L R).2 = (mergeWalk ltAB ltBA onL' onR' onB' (π st) L R).2 := by
  fun_induction mergeWalk ltAB ltBA onL onR onB st L R with
  | case1 st R => simp [mergeWalk]
  | case2 st l L => simp [mergeWalk]
  | case3 st l L r R h ih => rw [mergeWalk]; simp only [h, if_true]; rw [← hL]; exact ih
  | case4 st l L r R h h' ih =>
    rw [mergeWalk]; simp only [h, h', if_true, if_false, Bool.false_eq_true]; rw [← hR]; exact ih
  | case5 st l L r R h h' ih =>
    rw [mergeWalk]; simp only [h, h', if_false, Bool.false_eq_true]; rw [← hB]; exact ih

section sorted
open Classical

variable {lt : K → K → Prop} (hirr : ∀ a, ¬ lt a a) (htr : ∀ a b c, lt a b → lt b c → lt a c)
  (htot : ∀ a b, lt a b ∨ a = b ∨ lt b a) (kA : A → K) (kB : B → K)
  {ltAB : A → B → Bool} {ltBA : B → A → Bool}
  (hAB : ∀ a b, ltAB a b = true ↔ lt (kA a) (kB b)) (hBA : ∀ b a, ltBA b a = true ↔ lt (kB b) (kA a))

include hirr htr htot hAB hBA

/-- the part of the first list left over: what lies above everything in the second -/
theorem mergeWalk_rest (onL : σ → A → σ) (onR : σ → B → σ) (onB : σ → A → B → σ) (st : σ) {L : List A}
    {R : List B} (hL : L.Pairwise (fun a b => lt (kA a) (kA b)))
    (hR : R.Pairwise (fun a b => lt (kB a) (kB b))) :
    (mergeWalk ltAB ltBA onL onR onB st L R).2 = L.filter (fun l => ∀ r ∈ R, lt (kB r) (kA l)) := by
  fun_induction mergeWalk ltAB ltBA onL onR onB st L R with
  | case1 st R => rfl
  | case2 st l L => symm; simp
  | case3 st l L r R h ih =>
    rw [ih (List.pairwise_cons.1 hL).2 hR, List.filter_cons_of_neg]
    simp only [decide_eq_true_eq, not_forall]
    exact ⟨r, by simp, fun h' => hirr _ (htr _ _ _ h' ((hAB _ _).1 h))⟩
  | case4 st l L r R h h' ih =>
    rw [ih hL (List.pairwise_cons.1 hR).2]
    refine List.filter_congr (fun x hx => ?_)
    have hrx : lt (kB r) (kA x) := by
      rcases List.mem_cons.1 hx with rfl | hx
      · exact (hBA _ _).1 h'
      · exact htr _ _ _ ((hBA _ _).1 h') ((List.pairwise_cons.1 hL).1 x hx)
    simp [hrx]
  | case5 st l L r R h h' ih =>
    have e : kA l = kB r := by
      rcases htot (kA l) (kB r) with h1 | h1 | h1
      · exact absurd ((hAB _ _).2 h1) h
      · exact h1
      · exact absurd ((hBA _ _).2 h1) h'
    rw [ih (List.pairwise_cons.1 hL).2 (List.pairwise_cons.1 hR).2, List.filter_cons_of_neg]
    · refine List.filter_congr (fun x hx => ?_)
      have hrx : lt (kB r) (kA x) := e ▸ (List.pairwise_cons.1 hL).1 x hx
      simp [hrx]
    · simp only [decide_eq_true_eq, not_forall]
      exact ⟨r, by simp, fun h' => hirr _ (e ▸ h')⟩

/-- elements handled by the "equal" branch: the common keys -/
theorem mergeWalk_both (f : σ → A → σ) (st : σ) {L : List A}
    {R : List B} (hL : L.Pairwise (fun a b => lt (kA a) (kA b)))
    (hR : R.Pairwise (fun a b => lt (kB a) (kB b))) :
    (mergeWalk ltAB ltBA (fun s _ => s) (fun s _ => s) (fun s a _ => f s a) st L R).1 =
      (L.filter (fun l => ∃ r ∈ R, kB r = kA l)).foldl f st := by
  fun_induction mergeWalk ltAB ltBA (fun s (_ : A) => s) (fun s (_ : B) => s) (fun s a (_ : B) => f s a) st L R with
  | case1 st R => rfl
  | case2 st l L => simp
  | case3 st l L r R h ih =>
    rw [ih (List.pairwise_cons.1 hL).2 hR, List.filter_cons_of_neg]
    simp only [decide_eq_true_eq, not_exists, not_and]
    intro x hx e
    have hlr := (hAB _ _).1 h
    rcases List.mem_cons.1 hx with rfl | hx
    · rw [e] at hlr; exact hirr _ hlr
    · have := (List.pairwise_cons.1 hR).1 x hx
      rw [e] at this; exact hirr _ (htr _ _ _ hlr this)
  | case4 st l L r R h h' ih =>
    rw [ih hL (List.pairwise_cons.1 hR).2]
    congr 1
    refine List.filter_congr (fun x hx => ?_)
    have hrx : lt (kB r) (kA x) := by
      rcases List.mem_cons.1 hx with rfl | hx
      · exact (hBA _ _).1 h'
      · exact htr _ _ _ ((hBA _ _).1 h') ((List.pairwise_cons.1 hL).1 x hx)
    have : kB r ≠ kA x := fun e => hirr _ (e ▸ hrx)
    simp [this]
  | case5 st l L r R h h' ih =>
    have e : kA l = kB r := by
      rcases htot (kA l) (kB r) with h1 | h1 | h1
      · exact absurd ((hAB _ _).2 h1) h
      · exact h1
      · exact absurd ((hBA _ _).2 h1) h'
    rw [ih (List.pairwise_cons.1 hL).2 (List.pairwise_cons.1 hR).2, List.filter_cons_of_pos]
    · rw [List.foldl_cons]
      congr 1
      refine List.filter_congr (fun x hx => ?_)
      have hrx : lt (kB r) (kA x) := e ▸ (List.pairwise_cons.1 hL).1 x hx
      have : kB r ≠ kA x := fun e => hirr _ (e ▸ hrx)
      simp [this]
    · simp [e]

/-- elements handled by the "left smaller" branch -/
theorem mergeWalk_left (f : σ → A → σ) (st : σ) {L : List A}
    {R : List B} (hL : L.Pairwise (fun a b => lt (kA a) (kA b)))
    (hR : R.Pairwise (fun a b => lt (kB a) (kB b))) :
    (mergeWalk ltAB ltBA f (fun s _ => s) (fun s _ _ => s) st L R).1 =
      (L.filter (fun l => (∃ r ∈ R, lt (kA l) (kB r)) ∧ ∀ r ∈ R, kB r ≠ kA l)).foldl f st := by
  fun_induction mergeWalk ltAB ltBA f (fun s (_ : B) => s) (fun s (_ : A) (_ : B) => s) st L R with
  | case1 st R => rfl
  | case2 st l L => simp
  | case3 st l L r R h ih =>
    rw [ih (List.pairwise_cons.1 hL).2 hR, List.filter_cons_of_pos, List.foldl_cons]
    simp only [decide_eq_true_eq]
    have hlr := (hAB _ _).1 h
    refine ⟨⟨r, by simp, hlr⟩, ?_⟩
    intro x hx e
    rcases List.mem_cons.1 hx with rfl | hx
    · rw [e] at hlr; exact hirr _ hlr
    · have := (List.pairwise_cons.1 hR).1 x hx
      rw [e] at this; exact hirr _ (htr _ _ _ hlr this)
  | case4 st l L r R h h' ih =>
    rw [ih hL (List.pairwise_cons.1 hR).2]
    congr 1
    refine List.filter_congr (fun x hx => ?_)
    have hrx : lt (kB r) (kA x) := by
      rcases List.mem_cons.1 hx with rfl | hx
      · exact (hBA _ _).1 h'
      · exact htr _ _ _ ((hBA _ _).1 h') ((List.pairwise_cons.1 hL).1 x hx)
    have h1 : kB r ≠ kA x := fun e => hirr _ (e ▸ hrx)
    have h2 : ¬ lt (kA x) (kB r) := fun e => hirr _ (htr _ _ _ e hrx)
    simp [h1, h2]
  | case5 st l L r R h h' ih =>
    have e : kA l = kB r := by
      rcases htot (kA l) (kB r) with h1 | h1 | h1
      · exact absurd ((hAB _ _).2 h1) h
      · exact h1
      · exact absurd ((hBA _ _).2 h1) h'
    rw [ih (List.pairwise_cons.1 hL).2 (List.pairwise_cons.1 hR).2, List.filter_cons_of_neg]
    · congr 1
      refine List.filter_congr (fun x hx => ?_)
      have hrx : lt (kB r) (kA x) := e ▸ (List.pairwise_cons.1 hL).1 x hx
      have h1 : kB r ≠ kA x := fun e => hirr _ (e ▸ hrx)
      have h2 : ¬ lt (kA x) (kB r) := fun e => hirr _ (htr _ _ _ e hrx)
      simp [h1, h2]
    · simp [e]

/-- elements of the second list consumed: those not above the whole first list -/
theorem mergeWalk_right (f : σ → B → σ) (st : σ) {L : List A}
    {R : List B} (hL : L.Pairwise (fun a b => lt (kA a) (kA b)))
    (hR : R.Pairwise (fun a b => lt (kB a) (kB b))) :
    (mergeWalk ltAB ltBA (fun s _ => s) f (fun s _ b => f s b) st L R).1 =
      (R.filter (fun r => ∃ l ∈ L, ¬ lt (kA l) (kB r))).foldl f st := by
  fun_induction mergeWalk ltAB ltBA (fun s (_ : A) => s) f (fun s (_ : A) b => f s b) st L R with
  | case1 st R => simp
  | case2 st l L => rfl
  | case3 st l L r R h ih =>
    rw [ih (List.pairwise_cons.1 hL).2 hR]
    congr 1
    refine List.filter_congr (fun x hx => ?_)
    have hlx : lt (kA l) (kB x) := by
      rcases List.mem_cons.1 hx with rfl | hx
      · exact (hAB _ _).1 h
      · exact htr _ _ _ ((hAB _ _).1 h) ((List.pairwise_cons.1 hR).1 x hx)
    simp [hlx]
  | case4 st l L r R h h' ih =>
    rw [ih hL (List.pairwise_cons.1 hR).2, List.filter_cons_of_pos, List.foldl_cons]
    simp only [decide_eq_true_eq]
    exact ⟨l, by simp, fun e => h ((hAB _ _).2 e)⟩
  | case5 st l L r R h h' ih =>
    have e : kA l = kB r := by
      rcases htot (kA l) (kB r) with h1 | h1 | h1
      · exact absurd ((hAB _ _).2 h1) h
      · exact h1
      · exact absurd ((hBA _ _).2 h1) h'
    rw [ih (List.pairwise_cons.1 hL).2 (List.pairwise_cons.1 hR).2, List.filter_cons_of_pos,
      List.foldl_cons]
    · congr 1
      refine List.filter_congr (fun x hx => ?_)
      have hlx : lt (kA l) (kB x) := by rw [e]; exact (List.pairwise_cons.1 hR).1 x hx
      simp [hlx]
    · simp only [decide_eq_true_eq]
      exact ⟨l, by simp, fun h1 => h ((hAB _ _).2 h1)⟩

theorem mergeWalk_rest' (onL : σ → A → σ) (onR : σ → B → σ) (onB : σ → A → B → σ) (st : σ) {L : List A}
    {R : List B} (hL : L.Pairwise (fun a b => lt (kA a) (kA b)))
    (hR : R.Pairwise (fun a b => lt (kB a) (kB b))) (p : A → Bool)
    (hp : ∀ l ∈ L, p l = true ↔ ∀ r ∈ R, lt (kB r) (kA l)) :
    (mergeWalk ltAB ltBA onL onR onB st L R).2 = L.filter p := by
  rw [mergeWalk_rest hirr htr htot kA kB hAB hBA onL onR onB st hL hR]
  exact List.filter_congr (fun x hx => by rw [Bool.eq_iff_iff, decide_eq_true_eq, hp x hx])

theorem mergeWalk_both' (f : σ → A → σ) (st : σ) {L : List A}
    {R : List B} (hL : L.Pairwise (fun a b => lt (kA a) (kA b)))
    (hR : R.Pairwise (fun a b => lt (kB a) (kB b))) (p : A → Bool)
    (hp : ∀ l ∈ L, p l = true ↔ ∃ r ∈ R, kB r = kA l) :
    (mergeWalk ltAB ltBA (fun s _ => s) (fun s _ => s) (fun s a _ => f s a) st L R).1 =
      (L.filter p).foldl f st := by
  rw [mergeWalk_both hirr htr htot kA kB hAB hBA f st hL hR]
  congr 1
  exact List.filter_congr (fun x hx => by rw [Bool.eq_iff_iff, decide_eq_true_eq, hp x hx])

theorem mergeWalk_left' (f : σ → A → σ) (st : σ) {L : List A}
    {R : List B} (hL : L.Pairwise (fun a b => lt (kA a) (kA b)))
    (hR : R.Pairwise (fun a b => lt (kB a) (kB b))) (p : A → Bool)
    (hp : ∀ l ∈ L, p l = true ↔ (∃ r ∈ R, lt (kA l) (kB r)) ∧ ∀ r ∈ R, kB r ≠ kA l) :
    (mergeWalk ltAB ltBA f (fun s _ => s) (fun s _ _ => s) st L R).1 = (L.filter p).foldl f st := by
  rw [mergeWalk_left hirr htr htot kA kB hAB hBA f st hL hR]
  congr 1
  exact List.filter_congr (fun x hx => by rw [Bool.eq_iff_iff, decide_eq_true_eq, hp x hx])

theorem mergeWalk_right' (f : σ → B → σ) (st : σ) {L : List A}
    {R : List B} (hL : L.Pairwise (fun a b => lt (kA a) (kA b)))
    (hR : R.Pairwise (fun a b => lt (kB a) (kB b))) (p : B → Bool)
    (hp : ∀ r ∈ R, p r = true ↔ ∃ l ∈ L, ¬ lt (kA l) (kB r)) :
    (mergeWalk ltAB ltBA (fun s _ => s) f (fun s _ b => f s b) st L R).1 = (R.filter p).foldl f st := by
  rw [mergeWalk_right hirr htr htot kA kB hAB hBA f st hL hR]
  congr 1
  exact List.filter_congr (fun x hx => by rw [Bool.eq_iff_iff, decide_eq_true_eq, hp x hx])

end sorted

end Verif
