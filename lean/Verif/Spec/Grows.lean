import Verif.Spec.Ends
import Verif.Spec.SledSessions

/-!
# How much the trees can grow
-/

namespace Verif

open Spec ConcreteId

/-- Whatever the calls of sled find, the function adds at most `n` keys to the tree, one by one. -/
def Prog.Adds {S α : Type} (tree : S → Tree) : Prog S α → Nat → Prop
  | .ret _, _ => True
  | .call f k, n => ∀ s, ((∀ a, (tree (f s)).get a ≠ none → (tree s).get a ≠ none) ∧ (k s).Adds tree n) ∨
      ∃ m b, n = m + 1 ∧ (∀ a, (tree (f s)).get a ≠ none → (tree s).get a ≠ none ∨ a = b) ∧ (k s).Adds tree m

/-- the tree -/
def DbTree.tree : DbTree → Db → Tree
  | .nodeProps, d => d.nodeProps
  | .edgeProps, d => d.edgeProps
  | .spo, d => d.spo
  | .pos, d => d.pos
  | .osp, d => d.osp

/-- the tree -/
def IndexTree.tree : IndexTree → IndexDb → Tree
  | .leftToRight, d => d.leftToRight
  | .rightToLeft, d => d.rightToLeft

namespace Sled

variable {Id NP EP E : Type}

/-- How many entries an API call adds to a tree at most. -/
def PieceCall.adds (t : DbTree) (x : PieceCall E Id NP EP) : Nat :=
  match x.1 with
  | .insertNode _ _ | .mergeNode _ _ => if t = .nodeProps then 1 else 0
  | .insertEdge _ _ _ | .mergeEdge _ _ _ => if t = .nodeProps then 0 else 1
  | .extend _ src | .merge _ src =>
    if t = .nodeProps then (oks src.nodes).length else if fails src.nodes then 0 else (oks src.edges).length
  | _ => 0

end Sled

namespace RdfSled

variable {NP EP E : Type}

/-- the tree -/
def tree : IndexTree ⊕ DbTree → RdfDb → Tree
  | .inl t, d => t.tree d.names
  | .inr t, d => t.tree d.data

/-- How many entries an API call adds to a tree at most: to those of the name index, as many as there are names among its arguments, if
it creates them. -/
def PieceCall.adds (t : IndexTree ⊕ DbTree) (x : PieceCall E NP EP) : Nat :=
  match t with
  | .inl _ =>
    match x.1.op with
    | .insertNode e _ | .mergeNode e _ => namesIn [e]
    | .insertEdge y _ | .mergeEdge y _ => namesIn (RdfState.parts y)
    | .extend src | .merge src => ((oks src.nodes).map (fun y => namesIn [y.1])).sum +
        if fails src.nodes then 0 else ((oks src.edges).map (fun y => namesIn (RdfState.parts y.1))).sum
    | _ => 0
  | .inr t =>
    match x.1.op with
    | .insertNode _ _ | .mergeNode _ _ => if t = .nodeProps then 1 else 0
    | .insertEdge _ _ | .mergeEdge _ _ => if t = .nodeProps then 0 else 1
    | .extend src | .merge src =>
      if t = .nodeProps then (oks src.nodes).length else if fails src.nodes then 0 else (oks src.edges).length
    | _ => 0

end RdfSled

/-- what threads of calls may add -/
def Spec.total {C : Type} (adds : C → Nat) (threads : List (List C)) : Nat := (threads.map (fun th => (th.map adds).sum)).sum

end Verif
