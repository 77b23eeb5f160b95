import Verif.Model.Query

/-! # Specification vocabulary for queries: which kind of question, about which tuples of ids -/

namespace Verif.Spec

inductive QKind where
  | nodeProps | spo | s | p | o | sp | po | so
deriving DecidableEq, Repr

namespace Query

def kind {Id : Type} : Query Id → QKind
  | .NodeProps _ => .nodeProps
  | .SPO _ => .spo
  | .S _ => .s
  | .P _ => .p
  | .O _ => .o
  | .SP _ => .sp
  | .PO _ => .po
  | .SO _ => .so

/-- the tuples asked about, each as the list of its ids -/
def items {Id : Type} : Query Id → List (List Id)
  | .NodeProps l => l.map (fun a => [a])
  | .SPO l => l.map (fun x => [x.1, x.2.1, x.2.2])
  | .S l => l.map (fun a => [a])
  | .P l => l.map (fun a => [a])
  | .O l => l.map (fun a => [a])
  | .SP l => l.map (fun x => [x.1, x.2])
  | .PO l => l.map (fun x => [x.1, x.2])
  | .SO l => l.map (fun x => [x.1, x.2])

/-- The items of the query are a set (`HashSet`): none is listed twice. -/
def Nodup {Id : Type} (q : Query Id) : Prop := (items q).Nodup

/-- Two queries are equal as sets: same kind and same tuples, in whatever iteration order. -/
def Same {Id : Type} (q q' : Query Id) : Prop := kind q = kind q' ∧ ∀ x, x ∈ items q ↔ x ∈ items q'

end Query

end Verif.Spec
