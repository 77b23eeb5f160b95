import Mathlib.Order.Defs.LinearOrder
import Verif.Model.Triple

/-! # Specification vocabulary: orders on triples -/

namespace Verif.Spec

/-- Lexicographic "less than" on three components. -/
def lex3 {α : Type} [LinearOrder α] (a b c a' b' c' : α) : Prop :=
  a < a' ∨ (a = a' ∧ (b < b' ∨ (b = b' ∧ c < c')))

/-- The numeric order that an `EdgeOrder` asks for: subject-predicate-object,
predicate-object-subject or object-subject-predicate, compared lexicographically. -/
def edgeLT {Id : Type} [LinearOrder Id] : EdgeOrder → Triple Id → Triple Id → Prop
  | .SPO, t, u => lex3 t.sub t.pred t.obj u.sub u.pred u.obj
  | .POS, t, u => lex3 t.pred t.obj t.sub u.pred u.obj u.sub
  | .OSP, t, u => lex3 t.obj t.sub t.pred u.obj u.sub u.pred

end Verif.Spec
