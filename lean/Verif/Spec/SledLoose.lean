import Verif.Spec.SledBulk

/-!
# Threads that race

What is left of the meaning of the calls when nothing is known about who else is at work, as read from the first ordering:
everything, but for the edges `remove_node` finds in another ordering, and the edges another thread keeps adding to the node.
-/

namespace Verif

open ConcreteId

namespace Spec

/-- Doing one thing after the other, when each may have several outcomes. -/
def Runs {T O : Type} (st : T → O → T → Prop) : T → List O → T → Prop
  | t, [], t' => t' = t
  | t, o :: h, t'' => ∃ t', st t o t' ∧ Runs st t' h t''

variable {Id NP EP E : Type} [LinearOrder Id]

/-- What an operation may do to a graph. `remove_node n` removes the node, and edges from and to it: all the edges from it which
are not in `WS`, all the edges to it which are not in `WO`. Everything else does what it should. -/
def LooseStep (okN : NP → Bool) (okE : EP → Bool) (mN : NP → NP → NP) (mE : EP → EP → EP) (WS WO : Triple Id → Prop)
    (G : Graph Id NP EP) (op : Op E Id NP EP) (G' : Graph Id NP EP) : Prop :=
  match op with
  | .removeNode n =>
    (∀ m, G'.nodes m = if m = n then none else G.nodes m) ∧
      (∀ t, G'.edges t = G.edges t ∨ ((t.sub = n ∨ t.obj = n) ∧ G'.edges t = none)) ∧
      (∀ t, t.sub = n → ¬ WS t → G'.edges t = none) ∧ ∀ t, t.obj = n → ¬ WO t → G'.edges t = none
  | op => G' = (op.step okN okE mN mE G).1

/-- the queries which are answered from the nodes and the first ordering -/
def Query.BySubject : Query Id → Prop
  | .NodeProps _ | .SPO _ | .S _ | .SP _ => True
  | _ => False

end Spec

open Spec

variable {Id NP EP E : Type} [LinearOrder Id] [ConcreteId Id]

namespace Sled

/-- The operations of a call, as seen in the first ordering: `remove_edge` erases the edge there before its transaction, and in it. -/
def Call.acts : Call E Id NP EP → List (Op E Id NP EP)
  | .removeEdge t => [.removeEdge t, .removeEdge t]
  | x => x.items

/-- A thread calls `remove_node n` while another may write the edge. -/
def Raced (threads : List (List (Call E Id NP EP))) (n : Id) (t : Triple Id) : Prop :=
  ¬ threads.Pairwise (fun th th' => ∀ x ∈ th, ∀ y ∈ th',
    (x = .removeNode n → ∀ v, (v, t) ∉ y.writes) ∧ (y = .removeNode n → ∀ v, (v, t) ∉ x.writes))

/-- A thread calls `remove_edge t` while another may write the edge. -/
def EdgeRaced (threads : List (List (Call E Id NP EP))) (t : Triple Id) : Prop :=
  ¬ threads.Pairwise (fun th th' => ∀ x ∈ th, ∀ y ∈ th',
    (x.Removes t → ∀ v, (v, t) ∉ y.writes) ∧ (y.Removes t → ∀ v, (v, t) ∉ x.writes))

/-- the edges which the removal of their subject may leave in the first ordering -/
def FromRaced (threads : List (List (Call E Id NP EP))) (t : Triple Id) : Prop := Raced threads t.sub t

/-- the edges which the removal of their object may leave in the first ordering -/
def ToRaced (threads : List (List (Call E Id NP EP))) (t : Triple Id) : Prop :=
  Raced threads t.obj t ∨ Extended threads t ∨ EdgeRaced threads t

/-- What can be read of a graph when only the first ordering is right: iteration in its order, and the answers to queries by
subject; also, other queries do not fail, and iterating over other orderings fails only where a record is missing. -/
structure SpoShows (c : Codecs NP EP) (d : Db) (G : Graph Id NP EP) : Prop where
  nodes : ∃ l, iterVertices Id c d = l.map .ok ∧ Lists (· < ·) G.nodes l
  edges : ∃ l, iterEdges Id c d .SPO = l.map .ok ∧ Lists (edgeLT .SPO) G.edges l
  others : ∀ o e, .error e ∈ iterEdges Id c d o → e = .missing
  queries : ∀ (q : Query Id) (g : Gen Id), Spec.Query.Nodup q → (∀ o, Fresh (iterEdges Id c d o).length g) →
    ∃ r, runQuery c d g q = .ok r ∧ (Query.BySubject q → Shows r.obs (select G q))

/-- The same, and edges outside of `W` are in all orderings, with the same properties. -/
def ShowsBut (c : Codecs NP EP) (W : Triple Id → Prop) (d : Db) (G : Graph Id NP EP) : Prop :=
  SpoShows c d G ∧ ∀ t, ¬ W t → ∀ o p, .ok (t, p) ∈ iterEdges Id c d o ↔ G.edges t = some p

end Sled

end Verif
