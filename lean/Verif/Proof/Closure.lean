import Verif.Model.Closure
import Verif.Spec.Closure
import Verif.Proof.Query
import Mathlib.Data.List.Nodup

/-! # Closures that keep state -/

namespace Verif

open Spec

variable {σ α β ε : Type} {f : σ → α → σ × Except ε β}

theorem calls_append (s : σ) (l l' : List α) :
    calls f s (l ++ l') =
      match calls f s l with
      | (s, .error e) => (s, .error e)
      | (s, .ok bs) =>
        match calls f s l' with
        | (s, .error e) => (s, .error e)
        | (s, .ok bs') => (s, .ok (bs ++ bs')) := by
  induction l generalizing s with
  | nil =>
    simp only [List.nil_append, calls]
    rcases calls f s l' with ⟨s', e | bs⟩ <;> rfl
  | cons a l ih =>
    simp only [List.cons_append, calls]
    rcases f s a with ⟨s1, e | b⟩
    · rfl
    · simp only [ih]
      rcases calls f s1 l with ⟨s2, e | bs⟩
      · rfl
      · simp only
        rcases calls f s2 l' with ⟨s3, e | bs'⟩ <;> rfl

theorem calls_length {s s' : σ} {l : List α} {bs : List β} (h : calls f s l = (s', .ok bs)) : bs.length = l.length := by
  induction l generalizing s bs with
  | nil => cases h; rfl
  | cons a l ih =>
    simp only [calls] at h
    rcases hf : f s a with ⟨s1, e | b⟩ <;> rw [hf] at h
    · cases h
    · simp only at h
      rcases hl : calls f s1 l with ⟨s2, e | bs'⟩ <;> rw [hl] at h
      · cases h
      · cases h; simp [ih hl]

/-- `F` calls `f` on each element of a row in turn. -/
def Rows {γ δ : Type} (f : σ → α → σ × Except ε β) (F : σ → γ → σ × Except ε δ) (row : γ → List α) (row' : δ → List β) : Prop :=
  ∀ s x, match calls f s (row x) with
    | (s', .error e) => F s x = (s', .error e)
    | (s', .ok bs) => ∃ y, F s x = (s', .ok y) ∧ row' y = bs

theorem collectMut_eq {γ δ : Type} [DecidableEq δ] {F : σ → γ → σ × Except ε δ} {row : γ → List α} {row' : δ → List β}
    (hF : Rows f F row row') (s : σ) (l : List γ) (acc : HSet δ) :
    match calls f s (l.map row).flatten with
    | (s', .error e) => collectMut F s l acc = (s', .error e)
    | (s', .ok bs) => ∃ ys : List δ, collectMut F s l acc = (s', .ok (ys.foldl HSet.insert acc)) ∧ ys.map row' = regroup (l.map row) bs := by
  induction l generalizing s acc with
  | nil => exact ⟨[], rfl, rfl⟩
  | cons x l ih =>
    have hx := hF s x
    simp only [List.map_cons, List.flatten_cons, calls_append, collectMut]
    rcases hc : calls f s (row x) with ⟨s1, e | bs⟩ <;> rw [hc] at hx
    · simp only at hx ⊢; rw [hx]
    · obtain ⟨y, hy, hr⟩ := hx
      simp only [hy]
      have hi := ih s1 (HSet.insert acc y)
      rcases hl : calls f s1 (l.map row).flatten with ⟨s2, e | bs'⟩ <;> rw [hl] at hi
      · exact hi
      · obtain ⟨ys, h1, h2⟩ := hi
        refine ⟨y :: ys, h1, ?_⟩
        have hlen := calls_length hc
        simp only [regroup, List.map_cons, h2, hr, ← hlen, List.take_left', List.drop_left']

theorem rows_one : Rows f f (fun a => [a]) (fun b => [b]) := by
  intro s x
  simp only [calls]
  rcases f s x with ⟨s1, e | b⟩
  · rfl
  · exact ⟨b, rfl, rfl⟩

theorem rows_pair : Rows f (Query.pairMut f) (fun x => [x.1, x.2]) (fun x => [x.1, x.2]) := by
  intro s x
  simp only [calls, Query.pairMut]
  rcases f s x.1 with ⟨s1, e | b⟩
  · rfl
  · simp only
    rcases f s1 x.2 with ⟨s2, e | b2⟩
    · rfl
    · exact ⟨(b, b2), rfl, rfl⟩

theorem rows_triple : Rows f (Query.tripleMut f) (fun x => [x.1, x.2.1, x.2.2]) (fun x => [x.1, x.2.1, x.2.2]) := by
  intro s x
  simp only [calls, Query.tripleMut]
  rcases f s x.1 with ⟨s1, e | b⟩
  · rfl
  · simp only
    rcases f s1 x.2.1 with ⟨s2, e | b2⟩
    · rfl
    · simp only
      rcases f s2 x.2.2 with ⟨s3, e | b3⟩
      · rfl
      · exact ⟨(b, b2, b3), rfl, rfl⟩

theorem collectMut_set {γ δ : Type} [DecidableEq δ] {F : σ → γ → σ × Except ε δ} {row : γ → List α} {row' : δ → List β}
    (hF : Rows f F row row') (hi : Function.Injective row') (s : σ) (l : List γ) :
    match calls f s (l.map row).flatten with
    | (s', .error e) => collectMut F s l [] = (s', .error e)
    | (s', .ok bs) => ∃ zs : HSet δ, collectMut F s l [] = (s', .ok zs) ∧ (zs.map row').Nodup ∧
        ∀ x, x ∈ zs.map row' ↔ x ∈ regroup (l.map row) bs := by
  have h := collectMut_eq hF s l []
  rcases hl : calls f s (l.map row).flatten with ⟨s2, e | bs⟩ <;> rw [hl] at h
  · exact h
  · obtain ⟨ys, h1, h2⟩ := h
    refine ⟨_, h1, List.Nodup.map hi (HSet.nodup_foldl_insert ys List.nodup_nil), fun x => ?_⟩
    rw [← h2]
    simp only [List.mem_map, HSet.mem_foldl_insert, List.not_mem_nil, false_or]

end Verif
