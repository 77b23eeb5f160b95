import Verif.Spec.U64Gen
import Mathlib.Data.List.Nodup
import Mathlib.Data.Fin.Basic
import Mathlib.Algebra.Order.Group.Nat

/-! # The counter id generator -/

namespace Verif.U64Gen

theorem family_get {f : List Bool} {acts : List Act} {h : Nat} {b : Bool} (hb : f[h]? = some b) :
    (family f acts)[h]? = some b := by
  induction acts generalizing f with
  | nil => exact hb
  | cons a as ih =>
    have happ : ∀ c, (f ++ [c])[h]? = some b := by
      intro c
      rw [List.getElem?_append_left (List.getElem?_eq_some_iff.1 hb).1]; exact hb
    cases a with
    | new v => exact ih (happ _)
    | clone k =>
      simp only [family]
      split
      · exact ih (happ _)
      · exact ih hb
    | fresh k => exact ih hb

/-- the handles of the family, and only they, point to counter 0 -/
structure Track (w : World) (f : List Bool) (x : U64) : Prop where
  len : f.length = w.handles.length
  val : w.heap[0]? = some x
  fam : ∀ (h c : Nat), w.handles[h]? = some c → (f[h]? = some true ↔ c = 0)
  lt : ∀ (h c : Nat), w.handles[h]? = some c → c < w.heap.length

theorem track_append {w : World} {f : List Bool} {x : U64} (ht : Track w f x) {c : Nat} {b : Bool}
    {hp : List U64} (hc : c < w.heap.length + hp.length) (hb : b = true ↔ c = 0) :
    Track { heap := w.heap ++ hp, handles := w.handles ++ [c] } (f ++ [b]) x := by
  have h0 : 0 < w.heap.length := (List.getElem?_eq_some_iff.1 ht.val).1
  refine ⟨by simp [ht.len], ?_, ?_, ?_⟩
  · show (w.heap ++ hp)[0]? = some x
    rw [List.getElem?_append_left h0]; exact ht.val
  · intro h d hd
    simp only [List.getElem?_append, ht.len] at hd ⊢
    split at hd
    · rename_i hlt; rw [if_pos hlt]; exact ht.fam h d hd
    · rename_i hlt
      rw [if_neg hlt]
      obtain ⟨h1, h2⟩ := List.getElem?_eq_some_iff.1 hd
      have h3 : h - w.handles.length = 0 := by simpa using h1
      simp only [h3, List.getElem_singleton] at h2
      subst h2
      simp [h3, hb]
  · intro h d hd
    simp only [List.getElem?_append] at hd
    simp only [List.length_append]
    split at hd
    · exact lt_of_lt_of_le (ht.lt h d hd) (Nat.le_add_right _ _)
    · obtain ⟨h1, h2⟩ := List.getElem?_eq_some_iff.1 hd
      have h3 : h - w.handles.length = 0 := by simpa using h1
      simp only [h3, List.getElem_singleton] at h2
      omega

theorem draws_eq {w : World} {f : List Bool} {x : U64} (ht : Track w f x) (acts : List Act) :
    ∃ n : Nat, ((run w acts).2.filter (fun d => (family f acts)[d.1]? == some true)).map Prod.snd
      = (List.range n).map (fun k => x + Fin.ofNat (2 ^ 64) k) := by
  induction acts generalizing w f x with
  | nil => exact ⟨0, rfl⟩
  | cons a as ih =>
    cases a with
    | new v =>
      refine ih (track_append ht (hp := [v]) (by simp) ?_)
      have h0 : 0 < w.heap.length := (List.getElem?_eq_some_iff.1 ht.val).1
      constructor
      · intro h; cases h
      · intro h; omega
    | clone h =>
      simp only [run, step, family]
      cases hh : w.handles[h]? with
      | none =>
        have : f[h]? = none := by
          rw [List.getElem?_eq_none_iff] at hh ⊢; rw [ht.len]; exact hh
        simp only [this]
        exact ih ht
      | some c =>
        have hlt : h < f.length := by rw [ht.len]; exact (List.getElem?_eq_some_iff.1 hh).1
        have hf : f[h]? = some f[h] := List.getElem?_eq_getElem hlt
        simp only [hf]
        have := track_append ht (c := c) (b := f[h]) (hp := []) (by simpa using ht.lt h c hh)
          (by have := ht.fam h c hh; rw [hf] at this; simpa using this)
        rw [List.append_nil] at this
        exact ih this
    | fresh h =>
      simp only [run, step, family]
      cases hh : w.handles[h]? with
      | none => exact ih ht
      | some c =>
        have hc := ht.lt h c hh
        simp only [List.getElem?_eq_getElem hc]
        simp only [Option.toList, List.cons_append, List.nil_append]
        have hlt : h < f.length := by rw [ht.len]; exact (List.getElem?_eq_some_iff.1 hh).1
        have hf : f[h]? = some f[h] := List.getElem?_eq_getElem hlt
        rw [List.filter_cons, family_get hf]
        by_cases hb : f[h] = true
        · have c0 : c = 0 := (ht.fam h c hh).1 (by rw [hf, hb])
          subst c0
          have hx : w.heap[0] = x := by
            have := ht.val; rw [List.getElem?_eq_getElem hc] at this; exact Option.some.inj this
          have ht' : Track { w with heap := w.heap.set 0 (w.heap[0] + 1) } f (x + 1) := by
            refine ⟨ht.len, ?_, ht.fam, ?_⟩
            · simp [hx, hc]
            · intro h' c' hh'; simpa using ht.lt h' c' hh'
          obtain ⟨n, hn⟩ := ih ht'
          refine ⟨n + 1, ?_⟩
          simp only [hb, beq_self_eq_true, if_true, List.map_cons]
          rw [hn, List.range_succ_eq_map, List.map_cons, List.map_map, hx]
          congr 1
          · show x = x + Fin.ofNat (2 ^ 64) 0
            apply Fin.ext
            have := x.isLt
            simp only [Fin.val_add, Fin.ofNat]
            omega
          · apply List.map_congr_left
            intro k _
            show x + 1 + Fin.ofNat (2 ^ 64) k = x + Fin.ofNat (2 ^ 64) (k + 1)
            apply Fin.ext
            simp only [Fin.val_add, Fin.ofNat, Fin.val_one]
            omega
        · have c0 : c ≠ 0 := fun e => hb (by
            have := (ht.fam h c hh).2 e; rw [hf] at this; exact Option.some.inj this)
          have ht' : Track { w with heap := w.heap.set c (w.heap[c] + 1) } f x := by
            refine ⟨ht.len, ?_, ht.fam, ?_⟩
            · show (w.heap.set c _)[0]? = some x
              rw [List.getElem?_set_ne c0]; exact ht.val
            · intro h' c' hh'; simpa using ht.lt h' c' hh'
          have hb' : f[h] = false := by simpa using hb
          simp only [hb']
          exact ih ht'

theorem track_init (v : U64) : Track (init v) [true] v := by
  refine ⟨rfl, rfl, ?_, ?_⟩
  · intro h c hc
    match h with
    | 0 => cases hc; simp
    | h + 1 => simp [init] at hc
  · intro h c hc
    match h with
    | 0 => cases hc; simp [init]
    | h + 1 => simp [init] at hc

end Verif.U64Gen
