import Verif.Model.Rdf
import Verif.Spec.Index

/-!
# Specification of the RDF layer

An RDF store is meant to be a graph whose ids are entities: names and ULIDs.
-/

namespace Verif

open Spec

variable {I S Q IX SX QX X NP EP E : Type}

/-! ## What the RDF layer may expect of the store it uses -/

namespace Spec

/-- A call on a store holding `G`: either it did the change, or the change cannot be stored and it failed with `bad`. -/
def Did (Ok : S → Graph Ulid NP EP → Prop) (bad : X) (G : Graph Ulid NP EP) (change : Option (Graph Ulid NP EP))
    (r : S × Except X Unit) : Prop :=
  match change with
  | some G' => r.2 = .ok () ∧ Ok r.1 G'
  | none => r.2 = .error bad ∧ Ok r.1 G

/-- The list holds each edge of `G` both of whose endpoints are nodes, once, with their properties; and errors only if there
are other edges. -/
structure ShowsProps {Id : Type} (l : List (Except X (PropsTriple Id NP EP))) (G : Graph Id NP EP) : Prop where
  once : l.Pairwise (fun a b => ∀ x y, a = .ok x → b = .ok y → x.toTriple ≠ y.toTriple)
  mem : ∀ x, .ok x ∈ l ↔
    G.nodes x.sub.1 = some x.sub.2 ∧ G.edges x.toTriple = some x.pred.2 ∧ G.nodes x.obj.1 = some x.obj.2
  noError : (∀ t p, G.edges t = some p → (G.nodes t.sub).isSome ∧ (G.nodes t.obj).isSome) → ∀ e, .error e ∉ l

/-- `st` is a triple store: `Ok n s G` means that `s` holds `G` and can take `n` more edges. -/
structure StoreLaw (st : StoreImpl S X Ulid NP EP) (okN : NP → Bool) (okE : EP → Bool) (bad : X)
    (mN : NP → NP → NP) (mE : EP → EP → EP) (Ok : Nat → S → Graph Ulid NP EP → Prop) : Prop where
  insertNode : ∀ {n s G}, Ok n s G → ∀ x p, Did (Ok n) bad G (storeNode okN G x p) (st.insertNode s x p)
  insertEdge : ∀ {n s G}, Ok (n + 1) s G → ∀ t p, Did (Ok n) bad G (storeEdge okE G t p) (st.insertEdge s t p)
  removeNode : ∀ {n s G}, Ok n s G → ∀ x, Did (Ok n) bad G (some (G.removeNode x)) (st.removeNode s x)
  removeEdge : ∀ {n s G}, Ok n s G → ∀ t, Did (Ok n) bad G (some (G.removeEdge t)) (st.removeEdge s t)
  mergeNode : ∀ {n s G}, Ok n s G → ∀ x p, Did (Ok n) bad G (storeMergedNode okN mN G x p) (st.mergeNode s x p)
  mergeEdge : ∀ {n s G}, Ok (n + 1) s G → ∀ t p, Did (Ok n) bad G (storeMergedEdge okE mE G t p) (st.mergeEdge s t p)
  fewer : ∀ {n s G}, Ok (n + 1) s G → Ok n s G
  shows : ∀ {n s G}, Ok n s G → Shows { vertices := st.iterVertices s, edges := st.iterEdges s } G
  vertices : ∀ {n s G}, Ok n s G → ∃ l, st.vertices s = .ok l ∧ (st.iterVertices s).map (Except.map Prod.fst) = l.map .ok
  iterNodes : ∀ {n s G}, Ok n s G → ∀ o, st.iterNodes s o = { nodes := st.iterVertices s, edges := st.iterEdges s o }
  intoIterNodes : ∀ {n s G}, Ok n s G → ∀ o,
    st.intoIterNodes s o = { nodes := st.iterVertices s, edges := st.iterEdges s o }
  intoIterVertices : ∀ {n s G}, Ok n s G → st.intoIterVertices s = st.iterVertices s
  intoIterEdges : ∀ {n s G}, Ok n s G → ∀ o, st.intoIterEdges s o = st.iterEdges s o
  props : ∀ {n s G}, Ok n s G → ∀ o, ShowsProps (st.iterEdgesWithProps s o) G
  propsSorted : ∀ {n s G}, Ok n s G → ∀ o, (st.iterEdgesWithProps s o).Pairwise
    (fun a b => ∀ x y, a = .ok x → b = .ok y → edgeLT o x.toTriple y.toTriple)
  intoProps : ∀ {n s G}, Ok n s G → ∀ o, st.intoIterEdgesWithProps s o = st.iterEdgesWithProps s o

/-- Queries on the store return a store with the part of the graph asked for. -/
def RunLaw (st : StoreImpl S X Ulid NP EP) (runS : RunImpl S X Q QX Ulid) (Ok : Nat → S → Graph Ulid NP EP → Prop)
    (QOk : Nat → Q → Graph Ulid NP EP → Prop) : Prop :=
  ∀ n m s G g q, Ok n s G → Query.Nodup q → Fresh (m + (st.iterEdges s .SPO).length) g →
    ∃ res, runS s g q = .ok res ∧ QOk m res (select G q)

/-! ## The graph over entities -/

/-- The abstract state: the names in use and the graph. -/
structure RdfState (NP EP : Type) where
  known : String → Bool
  graph : Graph Entity NP EP

namespace RdfState

def empty : RdfState NP EP := { known := fun _ => false, graph := Graph.empty }

/-- make the names in `es` known -/
def learn (x : RdfState NP EP) (es : List Entity) : RdfState NP EP :=
  { x with known := fun s => x.known s || decide (Entity.string s ∈ es) }

/-- the first unknown name in a list -/
def unknown (x : RdfState NP EP) : List Entity → Option String
  | [] => none
  | .string s :: l => if x.known s then unknown x l else some s
  | .ulid _ :: l => unknown x l

end RdfState

/-- how an operation ends -/
inductive RdfOutcome (E : Type) where
  | done
  | unserializable
  | unknown (s : String)
  | source (e : E)
deriving DecidableEq

/-- what the caller sees of it -/
def RdfOutcome.result (bad : SX) : RdfOutcome E → Except (LR (RdfErr IX SX) E) Unit
  | .done => .ok ()
  | .unserializable => .error (.left (.graph bad))
  | .unknown s => .error (.left (.nameNotFound s))
  | .source e => .error (.right e)

namespace RdfState

/-- a change that mentions `es`: the names are known from now on, even if the change cannot be stored -/
def change (x : RdfState NP EP) (es : List Entity) : Option (Graph Entity NP EP) → RdfState NP EP × RdfOutcome E
  | some H => ({ (x.learn es) with graph := H }, .done)
  | none => (x.learn es, .unserializable)

/-- a removal of `es`: nothing happens if a name is unknown -/
def remove (x : RdfState NP EP) (es : List Entity) (H : Graph Entity NP EP) : RdfState NP EP × RdfOutcome E :=
  match x.unknown es with
  | some s => (x, .unknown s)
  | none => ({ x with graph := H }, .done)

/-- take in the items of an iterator up to the first error or failure -/
def takeIn {α : Type} (f : RdfState NP EP → α → RdfState NP EP × RdfOutcome E) :
    RdfState NP EP → List (Except E α) → RdfState NP EP × RdfOutcome E
  | x, [] => (x, .done)
  | x, .error e :: _ => (x, .source e)
  | x, .ok a :: l =>
    match f x a with
    | (x', .done) => takeIn f x' l
    | r => r

/-- nodes first, then edges unless the nodes failed -/
def both (x : RdfState NP EP) (fN : RdfState NP EP → Entity × NP → RdfState NP EP × RdfOutcome E)
    (fE : RdfState NP EP → Triple Entity × EP → RdfState NP EP × RdfOutcome E) (src : Source E Entity NP EP) :
    RdfState NP EP × RdfOutcome E :=
  match takeIn fN x src.nodes with
  | (x', .done) => takeIn fE x' src.edges
  | r => r

def parts (t : Triple Entity) : List Entity := [t.sub, t.pred, t.obj]

/-- An operation on the graph over entities. -/
def step (okN : NP → Bool) (okE : EP → Bool) (mN : NP → NP → NP) (mE : EP → EP → EP) (x : RdfState NP EP) :
    Op E Entity NP EP → RdfState NP EP × RdfOutcome E
  | .insertNode e p => x.change [e] (storeNode okN x.graph e p)
  | .insertEdge t p => x.change (parts t) (storeEdge okE x.graph t p)
  | .removeNode e => x.remove [e] (x.graph.removeNode e)
  | .removeEdge t => x.remove (parts t) (x.graph.removeEdge t)
  | .mergeNode e p => x.change [e] (storeMergedNode okN mN x.graph e p)
  | .mergeEdge t p => x.change (parts t) (storeMergedEdge okE mE x.graph t p)
  | .extend src =>
    x.both (fun x i => x.change [i.1] (storeNode okN x.graph i.1 i.2))
      (fun x i => x.change (parts i.1) (storeEdge okE x.graph i.1 i.2)) src
  | .merge src =>
    x.both (fun x i => x.change [i.1] (storeMergedNode okN mN x.graph i.1 i.2))
      (fun x i => x.change (parts i.1) (storeMergedEdge okE mE x.graph i.1 i.2)) src

/-- A history of operations. -/
def stepAll (okN : NP → Bool) (okE : EP → Bool) (mN : NP → NP → NP) (mE : EP → EP → EP) :
    RdfState NP EP → List (Op E Entity NP EP) → RdfState NP EP × List (RdfOutcome E)
  | x, [] => (x, [])
  | x, op :: h =>
    ((stepAll okN okE mN mE (x.step okN okE mN mE op).1 h).1,
      (x.step okN okE mN mE op).2 :: (stepAll okN okE mN mE (x.step okN okE mN mE op).1 h).2)

end RdfState

/-! ## Names and ids -/

/-- how many entities an operation may have to create an id for -/
def Op.creations : Op E Entity NP EP → Nat
  | .insertNode _ _ => 1
  | .insertEdge _ _ => 3
  | .mergeNode _ _ => 1
  | .mergeEdge _ _ => 3
  | .extend src => src.nodes.length + 3 * src.edges.length
  | .merge src => src.nodes.length + 3 * src.edges.length
  | _ => 0

def creations (h : List (Op E Entity NP EP)) : Nat := (h.map Op.creations).sum

/-- the ULIDs given explicitly -/
def ulids : List Entity → List Ulid
  | [] => []
  | .string _ :: l => ulids l
  | .ulid u :: l => u :: ulids l

/-- the entities mentioned in a list of items -/
def itemEntities {α : Type} (f : α → List Entity) (l : List (Except E α)) : List Entity :=
  l.flatMap (fun r => match r with | .ok a => f a | .error _ => [])

/-- the entities mentioned by an operation -/
def Op.entities : Op E Entity NP EP → List Entity
  | .insertNode e _ => [e]
  | .insertEdge t _ => RdfState.parts t
  | .removeNode e => [e]
  | .removeEdge t => RdfState.parts t
  | .mergeNode e _ => [e]
  | .mergeEdge t _ => RdfState.parts t
  | .extend src => itemEntities (fun x => [x.1]) src.nodes ++ itemEntities (fun x => RdfState.parts x.1) src.edges
  | .merge src => itemEntities (fun x => [x.1]) src.nodes ++ itemEntities (fun x => RdfState.parts x.1) src.edges

/-- the ULIDs given explicitly in a history -/
def explicitUlids (h : List (Op E Entity NP EP)) : List Ulid := ulids (h.flatMap Op.entities)

/-- `Ref f e u`: under the naming `f`, `e` is how the id `u` is read back. -/
inductive Ref (f : String → Option Ulid) : Entity → Ulid → Prop
  | name {s u} (h : f s = some u) : Ref f (.string s) u
  | id {u} (h : ∀ s, f s ≠ some u) : Ref f (.ulid u) u

/-- The graph `G` over ids is the graph of `x`, each entity being represented by its id. -/
structure Agree (f : String → Option Ulid) (G : Graph Ulid NP EP) (x : RdfState NP EP) : Prop where
  known : ∀ s, x.known s = (f s).isSome
  nodes : ∀ e u, Ref f e u → x.graph.nodes e = G.nodes u
  edges : ∀ te tu, Ref f te.sub tu.sub → Ref f te.pred tu.pred → Ref f te.obj tu.obj → x.graph.edges te = G.edges tu
  noNode : ∀ e p, x.graph.nodes e = some p → ∃ u, Ref f e u
  noEdge : ∀ t p, x.graph.edges t = some p →
    (∃ u, Ref f t.sub u) ∧ (∃ u, Ref f t.pred u) ∧ ∃ u, Ref f t.obj u

/-- The next `k` ids `Ulid::new()` returns are distinct, name nothing and do not occur in the graph. -/
structure Spare (k : Nat) (u : Gen Ulid) (f : String → Option Ulid) (G : Graph Ulid NP EP) : Prop where
  fresh : Fresh k u
  names : ∀ j < k, ∀ s, f s ≠ some (u j)
  nodes : ∀ j < k, G.nodes (u j) = none
  edges : ∀ j < k, ∀ t, (t.sub = u j ∨ t.pred = u j ∨ t.obj = u j) → G.edges t = none

/-- The explicitly given ULIDs are no ids of names, and will not be: `Ulid::new()` never returns them. -/
def Clean (k : Nat) (u : Gen Ulid) (f : String → Option Ulid) (l : List Ulid) : Prop :=
  ∀ v ∈ l, (∀ s, f s ≠ some v) ∧ ∀ j < k, u j ≠ v

/-- the names asked about in a query -/
def queryEntities (q : Query Entity) : List Entity := (Query.items q).flatten

/-- No name occurs twice among the edges. -/
structure NamesOnce (H : Graph Entity NP EP) : Prop where
  within : ∀ t p, H.edges t = some p → (RdfState.parts t).Pairwise (fun a b => a = b → ∀ s, a ≠ .string s)
  between : ∀ t t' p p', H.edges t = some p → H.edges t' = some p' → t ≠ t' →
    ∀ s, .string s ∈ RdfState.parts t → .string s ∉ RdfState.parts t'

end Spec

/-! ## What a client of RdfTripleStore can do and see -/

namespace Rdf

variable (ix : BidirIndex I IX String Ulid) (st : StoreImpl S SX Ulid NP EP)

/-- the result of a function that works on one item -/
def tag : Except X Unit → Except (LR X E) Unit
  | .ok () => .ok ()
  | .error e => .error (.left e)

/-- Call the API function named by `op`. -/
def call (r : Rdf I S) : Op E Entity NP EP → Rdf I S × Except (LR (RdfErr IX SX) E) Unit
  | .insertNode e p => ((r.insertNode ix st e p).1, tag (r.insertNode ix st e p).2)
  | .insertEdge t p => ((r.insertEdge ix st t p).1, tag (r.insertEdge ix st t p).2)
  | .removeNode e => ((r.removeNode ix st e).1, tag (r.removeNode ix st e).2)
  | .removeEdge t => ((r.removeEdge ix st t).1, tag (r.removeEdge ix st t).2)
  | .mergeNode e p => ((r.mergeNode ix st e p).1, tag (r.mergeNode ix st e p).2)
  | .mergeEdge t p => ((r.mergeEdge ix st t p).1, tag (r.mergeEdge ix st t p).2)
  | .extend src => r.extend ix st src
  | .merge src => r.merge ix st src

/-- A history of calls, with all their results. -/
def callAll : Rdf I S → List (Op E Entity NP EP) → Rdf I S × List (Except (LR (RdfErr IX SX) E) Unit)
  | r, [] => (r, [])
  | r, op :: h => ((callAll (r.call ix st op).1 h).1, (r.call ix st op).2 :: (callAll (r.call ix st op).1 h).2)

/-- Iterating the store in any way yields no error and every node and every edge of `H` exactly once, and nothing else. -/
structure Shows (r : Rdf I S) (H : Graph Entity NP EP) : Prop where
  iterNodes : ∀ o, Represents (r.iterNodes ix st o) H
  iter : ∀ o, Represents { nodes := r.iterVertices ix st, edges := r.iterEdges ix st o } H
  intoIterNodes : ∀ o, Represents (r.intoIterNodes ix st o) H
  intoIter : ∀ o, Represents { nodes := r.intoIterVertices ix st, edges := r.intoIterEdges ix st o } H
  props : ∀ o, ShowsProps (r.iterEdgesWithProps ix st o) H
  intoProps : ∀ o, ShowsProps (r.intoIterEdgesWithProps ix st o) H
  vertices : ∃ l, r.vertices ix st = .ok l ∧ l.Nodup ∧ ∀ e, e ∈ l ↔ (H.nodes e).isSome

end Rdf

end Verif
