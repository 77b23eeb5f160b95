import Mathlib.Order.Compare
import Verif.Spec.Order

/-! # Comparison of triples -/

namespace Verif

open Spec

variable {Id : Type} [LinearOrder Id]

theorem partialCmp_lt (t u : Triple Id) : Triple.partialCmp t u = some .lt ↔ edgeLT .SPO t u := by
  unfold Triple.partialCmp edgeLT lex3
  rcases lt_trichotomy t.sub u.sub with h | h | h
  · simp [cmp, cmpUsing, h]
  · rcases lt_trichotomy t.pred u.pred with h' | h' | h'
    · simp [cmp, cmpUsing, h, h']
    · rcases lt_trichotomy t.obj u.obj with h'' | h'' | h''
      · simp [cmp, cmpUsing, h, h', h'']
      · simp [cmp, cmpUsing, h, h', h'']
      · simp [cmp, cmpUsing, h, h', h'', not_lt_of_gt h'']
    · simp [cmp, cmpUsing, h, h', not_lt_of_gt h', ne_of_gt h']
  · simp [cmp, cmpUsing, h, not_lt_of_gt h, ne_of_gt h]

theorem partialCmp_gt (t u : Triple Id) : Triple.partialCmp t u = some .gt ↔ edgeLT .SPO u t := by
  unfold Triple.partialCmp edgeLT lex3
  rcases lt_trichotomy t.sub u.sub with h | h | h
  · simp [cmp, cmpUsing, h, not_lt_of_gt h, ne_of_gt h]
  · rcases lt_trichotomy t.pred u.pred with h' | h' | h'
    · simp [cmp, cmpUsing, h, h', not_lt_of_gt h', ne_of_gt h']
    · rcases lt_trichotomy t.obj u.obj with h'' | h'' | h''
      · simp [cmp, cmpUsing, h, h', h'', not_lt_of_gt h'']
      · simp [cmp, cmpUsing, h, h', h'']
      · simp [cmp, cmpUsing, h, h', h'', not_lt_of_gt h'']
    · simp [cmp, cmpUsing, h, h', not_lt_of_gt h']
  · simp [cmp, cmpUsing, h, not_lt_of_gt h]

theorem partialCmp_eq (t u : Triple Id) : Triple.partialCmp t u = some .eq ↔ t = u := by
  obtain ⟨a, b, c⟩ := t
  obtain ⟨a', b', c'⟩ := u
  unfold Triple.partialCmp
  rcases lt_trichotomy a a' with h | h | h
  · simp [cmp, cmpUsing, h, ne_of_lt h]
  · rcases lt_trichotomy b b' with h' | h' | h'
    · simp [cmp, cmpUsing, h, h', ne_of_lt h']
    · rcases lt_trichotomy c c' with h'' | h'' | h''
      · simp [cmp, cmpUsing, h, h', h'', ne_of_lt h'']
      · simp [cmp, cmpUsing, h, h', h'']
      · simp [cmp, cmpUsing, h, h', h'', not_lt_of_gt h'', ne_of_gt h'']
    · simp [cmp, cmpUsing, h, h', not_lt_of_gt h', ne_of_gt h']
  · simp [cmp, cmpUsing, h, not_lt_of_gt h, ne_of_gt h]

theorem ltOp_iff (t u : Triple Id) : Triple.ltOp t u = true ↔ edgeLT .SPO t u := by
  rw [Triple.ltOp, beq_iff_eq, partialCmp_lt]

end Verif
