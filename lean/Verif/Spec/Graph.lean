import Verif.Model.Mem
import Verif.Spec.Order

/-!
# Specification: the abstract graph

A triple store is meant to be a pair of finite maps: node id ↦ node properties and
triple ↦ edge properties.  Everything the API does is described on this pair, with no reference to keys, byte
encodings, orderings or internal property ids.
-/

namespace Verif.Spec

structure Graph (Id NP EP : Type) where
  nodes : Id → Option NP
  edges : Triple Id → Option EP

namespace Graph

variable {Id NP EP : Type} [DecidableEq Id]

theorem ext' {G H : Graph Id NP EP} (hn : ∀ n, G.nodes n = H.nodes n)
    (he : ∀ t, G.edges t = H.edges t) : G = H := by
  cases G; cases H; congr
  · exact funext hn
  · exact funext he

def empty : Graph Id NP EP := { nodes := fun _ => none, edges := fun _ => none }

/-- set (or overwrite) a node -/
def insertNode (G : Graph Id NP EP) (n : Id) (p : NP) : Graph Id NP EP :=
  { G with nodes := fun m => if m = n then some p else G.nodes m }

/-- set (or overwrite) an edge -/
def insertEdge (G : Graph Id NP EP) (t : Triple Id) (p : EP) : Graph Id NP EP :=
  { G with edges := fun u => if u = t then some p else G.edges u }

/-- delete a node and every edge having it as subject or object -/
def removeNode (G : Graph Id NP EP) (n : Id) : Graph Id NP EP :=
  { nodes := fun m => if m = n then none else G.nodes m
    edges := fun u => if u.sub = n ∨ u.obj = n then none else G.edges u }

/-- delete an edge -/
def removeEdge (G : Graph Id NP EP) (t : Triple Id) : Graph Id NP EP :=
  { G with edges := fun u => if u = t then none else G.edges u }

/-- combine with what is there -/
def mergeNode (mergeN : NP → NP → NP) (G : Graph Id NP EP) (n : Id) (p : NP) : Graph Id NP EP :=
  { G with nodes := fun m =>
      if m = n then some (match G.nodes n with | some q => mergeN q p | none => p) else G.nodes m }

def mergeEdge (mergeE : EP → EP → EP) (G : Graph Id NP EP) (t : Triple Id) (p : EP) :
    Graph Id NP EP :=
  { G with edges := fun u =>
      if u = t then some (match G.edges t with | some q => mergeE q p | none => p) else G.edges u }

/-- `H` on top of `G`: everything of `H`, plus what only `G` has. -/
def overlay (G H : Graph Id NP EP) : Graph Id NP EP :=
  { nodes := fun n => (H.nodes n).or (G.nodes n)
    edges := fun t => (H.edges t).or (G.edges t) }

/-- combine two optional values: merge if both are present -/
def mergeOpt {α : Type} (f : α → α → α) : Option α → Option α → Option α
  | some a, some b => some (f a b)
  | some a, none => some a
  | none, b => b

/-- pointwise merge -/
def mergeWith (mergeN : NP → NP → NP) (mergeE : EP → EP → EP) (G H : Graph Id NP EP) :
    Graph Id NP EP :=
  { nodes := fun n => mergeOpt mergeN (G.nodes n) (H.nodes n)
    edges := fun t => mergeOpt mergeE (G.edges t) (H.edges t) }

/-- common nodes and edges (by key), with the properties of the left graph -/
def inter (G H : Graph Id NP EP) : Graph Id NP EP :=
  { nodes := fun n => if (H.nodes n).isSome then G.nodes n else none
    edges := fun t => if (H.edges t).isSome then G.edges t else none }

/-- what `difference` is meant to compute: the nodes of `G` that are not in `H`, and the edges of `G` that are not in `H`
and none of whose endpoints was removed (a node of `G` is removed if it is also in `H`) -/
def diff (G H : Graph Id NP EP) : Graph Id NP EP :=
  { nodes := fun n => if (H.nodes n).isSome then none else G.nodes n
    edges := fun t =>
      if (H.edges t).isSome ∨ ((G.nodes t.sub).isSome ∧ (H.nodes t.sub).isSome) ∨
          ((G.nodes t.obj).isSome ∧ (H.nodes t.obj).isSome) then none
      else G.edges t }

end Graph

/-- `l` enumerates the finite map `f` in strictly increasing key order. -/
def Lists {κ ν : Type} (lt : κ → κ → Prop) (f : κ → Option ν) (l : List (κ × ν)) : Prop :=
  l.Pairwise (fun a b => lt a.1 b.1) ∧ ∀ k v, (k, v) ∈ l ↔ f k = some v

/-- What iterating a store shows. -/
structure Obs (E Id NP EP : Type) where
  vertices : List (Except E (Id × NP))
  edges : EdgeOrder → List (Except E (Triple Id × EP))

/-- The store shows exactly the graph `G`: iterating it yields no error, every node and every edge of `G`
exactly once and nothing else, in increasing order, for each of the three orders. -/
def Shows {E Id NP EP : Type} [LinearOrder Id] (o : Obs E Id NP EP) (G : Graph Id NP EP) : Prop :=
  (∃ l, o.vertices = l.map .ok ∧ Lists (· < ·) G.nodes l) ∧
  ∀ ord, ∃ l, o.edges ord = l.map .ok ∧ Lists (edgeLT ord) G.edges l

/-- The items an iterator yields before its first error. -/
def okPrefix {E α : Type} : List (Except E α) → List α
  | [] => []
  | .error _ :: _ => []
  | .ok a :: l => a :: okPrefix l

/-- The first error an iterator yields. -/
def firstErr {E α : Type} : List (Except E α) → Option E
  | [] => none
  | .error e :: _ => some e
  | .ok _ :: l => firstErr l

/-- The first error of a source: nodes are read before edges. -/
def Source.firstErr {E Id NP EP : Type} (src : Source E Id NP EP) : Option E :=
  (Spec.firstErr src.nodes).or (Spec.firstErr src.edges)

/-- The nodes read from a source. -/
def Source.nodePrefix {E Id NP EP : Type} (src : Source E Id NP EP) : List (Id × NP) :=
  okPrefix src.nodes

/-- The edges read from a source: none if the nodes already failed. -/
def Source.edgePrefix {E Id NP EP : Type} (src : Source E Id NP EP) : List (Triple Id × EP) :=
  match Spec.firstErr src.nodes with
  | some _ => []
  | none => okPrefix src.edges

/-- The source is an error-free enumeration of the graph `H`, as produced by any store showing `H`. -/
def Represents {E Id NP EP : Type} (src : Source E Id NP EP) (H : Graph Id NP EP) : Prop :=
  (∃ l : List (Id × NP), src.nodes = l.map .ok ∧ (l.map Prod.fst).Nodup ∧
      ∀ n p, (n, p) ∈ l ↔ H.nodes n = some p) ∧
  (∃ l : List (Triple Id × EP), src.edges = l.map .ok ∧ (l.map Prod.fst).Nodup ∧
      ∀ t p, (t, p) ∈ l ↔ H.edges t = some p)

/-- The source is an error-free enumeration of `H` in SPO order: what `into_iter_nodes(SPO)` of a store showing
`H` yields. -/
def RepresentsSorted {E Id NP EP : Type} [LinearOrder Id] (src : Source E Id NP EP)
    (H : Graph Id NP EP) : Prop :=
  (∃ l : List (Id × NP), src.nodes = l.map .ok ∧ Lists (· < ·) H.nodes l) ∧
  (∃ l : List (Triple Id × EP), src.edges = l.map .ok ∧ Lists (edgeLT .SPO) H.edges l)

/-- The mutating operations of the API. -/
inductive Op (E Id NP EP : Type) where
  | insertNode (n : Id) (p : NP)
  | insertEdge (t : Triple Id) (p : EP)
  | removeNode (n : Id)
  | removeEdge (t : Triple Id)
  | mergeNode (n : Id) (p : NP)
  | mergeEdge (t : Triple Id) (p : EP)
  | extend (src : Source E Id NP EP)
  | merge (src : Source E Id NP EP)

/-- How many internal ids an operation may draw. -/
def Op.draws {E Id NP EP : Type} : Op E Id NP EP → Nat
  | .insertEdge _ _ => 1
  | .mergeEdge _ _ => 1
  | .extend src => src.edges.length
  | .merge src => src.edges.length
  | _ => 0

def draws {E Id NP EP : Type} (h : List (Op E Id NP EP)) : Nat := (h.map Op.draws).sum

/-- The meaning of an operation on the abstract graph.  `extend`/`merge` absorb what the source yields
before its first error. -/
def Op.apply {E Id NP EP : Type} [DecidableEq Id] (mN : NP → NP → NP) (mE : EP → EP → EP)
    (G : Graph Id NP EP) : Op E Id NP EP → Graph Id NP EP
  | .insertNode n p => G.insertNode n p
  | .insertEdge t p => G.insertEdge t p
  | .removeNode n => G.removeNode n
  | .removeEdge t => G.removeEdge t
  | .mergeNode n p => G.mergeNode mN n p
  | .mergeEdge t p => G.mergeEdge mE t p
  | .extend src =>
    (Source.edgePrefix src).foldl (fun G x => G.insertEdge x.1 x.2)
      ((Source.nodePrefix src).foldl (fun G x => G.insertNode x.1 x.2) G)
  | .merge src =>
    (Source.edgePrefix src).foldl (fun G x => G.mergeEdge mE x.1 x.2)
      ((Source.nodePrefix src).foldl (fun G x => G.mergeNode mN x.1 x.2) G)

/-- A history of operations on the abstract graph. -/
def applyAll {E Id NP EP : Type} [DecidableEq Id] (mN : NP → NP → NP) (mE : EP → EP → EP)
    (G : Graph Id NP EP) (h : List (Op E Id NP EP)) : Graph Id NP EP :=
  h.foldl (Op.apply mN mE) G

/-- The first `n` ids drawn from the generator are pairwise distinct. -/
def Fresh {Id : Type} (n : Nat) (g : Gen Id) : Prop := ∀ i < n, ∀ j < n, g i = g j → i = j

/-- The part of the graph a query asks for. -/
def select {Id NP EP : Type} [DecidableEq Id] (G : Graph Id NP EP) : Query Id → Graph Id NP EP
  | .NodeProps ids => { nodes := fun n => if n ∈ ids then G.nodes n else none, edges := fun _ => none }
  | .SPO xs => { nodes := fun _ => none
                 edges := fun t => if (t.sub, t.pred, t.obj) ∈ xs then G.edges t else none }
  | .S xs => { nodes := fun _ => none, edges := fun t => if t.sub ∈ xs then G.edges t else none }
  | .P xs => { nodes := fun _ => none, edges := fun t => if t.pred ∈ xs then G.edges t else none }
  | .O xs => { nodes := fun _ => none, edges := fun t => if t.obj ∈ xs then G.edges t else none }
  | .SP xs => { nodes := fun _ => none
                edges := fun t => if (t.sub, t.pred) ∈ xs then G.edges t else none }
  | .PO xs => { nodes := fun _ => none
                edges := fun t => if (t.pred, t.obj) ∈ xs then G.edges t else none }
  | .SO xs => { nodes := fun _ => none
                edges := fun t => if (t.sub, t.obj) ∈ xs then G.edges t else none }

end Verif.Spec
