import Verif.Spec.Places
import Verif.Spec.RdfSledQuery

/-!
# What readers of RDF stores get has a place in the history

A reader finds an entry at one moment, its record later, and the names of its ids still later.
-/

namespace Verif

open Spec ConcreteId

namespace RdfSled

variable {NP EP E : Type}

/-- the contents of the database from the moment `a` on; after the moment `N` they stay as they are -/
def since {α : Type} (x : Nat → RdfDb × α) (a N : Nat) (m : Nat) : RdfDb := (x (min (a + m) N)).1

/-- what `iter_edges` returns for a key with a value, or without -/
def itemFor (y : Triple Entity × Option EP) : Except (RdfErr (SledIndexErr String Ulid) SErr) (Triple Entity × EP) :=
  match y.2 with
  | some p => .ok (y.1, p)
  | none => .error (.graph .missing)

/-- Iterations go by the ids of entities: the names have the ids `f`. -/
def EdgeBefore (f : String → Option Ulid) (o : EdgeOrder) (t t' : Triple Entity) : Prop :=
  ∃ u u', tripleIn f t = some u ∧ tripleIn f t' = some u' ∧ edgeLT o u u'

def NodeBefore (f : String → Option Ulid) (e e' : Entity) : Prop :=
  ∃ u u', idIn f e = some u ∧ idIn f e' = some u' ∧ u < u'

/-- some thread removes the edge, with or without one of its ends, or merges into it -/
def Disturbed (f : String → Option Ulid) (threads : List (List (PieceCall E NP EP))) (t : Triple Entity) : Prop :=
  ∃ u, tripleIn f t = some u ∧ ∃ th ∈ threads, ∃ y ∈ th, ¬ y.1.Spares f u

/-- the edge is in the given ordering whenever it is in the first one -/
def Settled (f : String → Option Ulid) (W : Triple Ulid → Prop) (o : EdgeOrder) (t : Triple Entity) : Prop :=
  o = .SPO ∨ ∀ u, tripleIn f t = some u → ¬ W u

/-- What readers get while a database goes through the moments `0`, …, `N`, which are those of the graphs `X 0`, …, `X N`; in the end
names have the ids `f`.  A reader begins at the moment `a`. -/
structure Readers (cl : Codec String) (cr : Codec Ulid) (c : Codecs NP EP) (mN : NP → NP → NP) (mE : EP → EP → EP)
    (threads : List (List (PieceCall E NP EP))) (W : Triple Ulid → Prop) {α : Type} (x : Nat → RdfDb × α) (N : Nat)
    (f : String → Option Ulid) (X : Nat → Graph Entity NP EP) : Prop where
  /-- `iter_edges` -/
  edges : ∀ a ≤ N, ∀ o l, Reading (since x a N) o l → ∃ (r : List (Triple Entity × Option EP)) (place : Triple Entity → Nat),
    l.map (fun e => edgeItem cl cr (since x a N e.sub).names (since x a N e.pred).names (since x a N e.obj).names
      (Sled.edgeItem Ulid c (since x a N e.look).data o (e.key, e.id))) = r.map itemFor ∧
    (∀ t, (t, none) ∈ r → Disturbed f threads t) ∧
    List.Forall₂ (fun e y => place y.1 = min (a + e.scan) N) l r ∧
    Placed (EdgeBefore f o) (fun k => (X k).edges) a N (fun _ => True) (Settled f W o) r place
  /-- `iter_edges_with_props`: the nodes are looked up at the moments `ms` and `mo` -/
  props : ∀ a ≤ N, ∀ o l, Reading (since x a N) o l → ∀ e ∈ l, ∀ ms mo, e.scan ≤ ms → e.scan ≤ mo →
    ∃ t u, tripleIn f t = some u ∧ e.key = (encOf o u).1 ∧
    (propsItem cl cr (since x a N e.sub).names (since x a N e.pred).names (since x a N e.obj).names
        (Sled.propsItem Ulid c (since x a N ms).data (since x a N e.look).data (since x a N mo).data o (e.key, e.id)) =
          .error (.graph .missing) ∧
        (Disturbed f threads t ∨ (X (min (a + ms) N)).nodes t.sub = none ∨ (X (min (a + mo) N)).nodes t.obj = none) ∨
      ∃ sp ep op, propsItem cl cr (since x a N e.sub).names (since x a N e.pred).names (since x a N e.obj).names
          (Sled.propsItem Ulid c (since x a N ms).data (since x a N e.look).data (since x a N mo).data o (e.key, e.id)) =
          .ok { sub := (t.sub, sp), pred := (t.pred, ep), obj := (t.obj, op) } ∧
        (Settled f W o t → (X (min (a + e.scan) N)).edges t = some ep) ∧
        (X (min (a + ms) N)).nodes t.sub = some sp ∧ (X (min (a + mo) N)).nodes t.obj = some op)
  /-- `iter_vertices` -/
  nodes : ∀ a ≤ N, ∀ l, NodeReading (since x a N) l → ∃ (r : List (Entity × NP)) (place : Entity → Nat),
    l.map (fun e => vertexItem cl cr (since x a N e.1).names (Sled.vertexItem Ulid c e.2.2)) = r.map .ok ∧
    List.Forall₂ (fun e y => place y.1 = min (a + e.2.1) N) l r ∧
    Placed (NodeBefore f) (fun k => (X k).nodes) a N (fun _ => True) (fun _ => True) (r.map (fun y => (y.1, some y.2))) place
  /-- `run`: the answer is `y`; a name that occurs twice in it makes it an error -/
  queries : ∀ a ≤ N, ∀ (q : Query Entity) (q' : Query Ulid) (ask tell : Nat → Nat) (b e : Nat) (ρ : Sled.Reads) (g u : Gen Ulid),
    translate cl cr (fun k => (since x a N (ask k)).names) q = .ok q' → Asked (since x a N) ask b e tell q' ρ → Fresh ρ.size g →
    ∃ y : Graph Entity NP EP,
      (∀ t p, y.edges t = some p → ∃ v, tripleIn f t = some v ∧ Spec.Query.Hits v q' ∧
        (Settled f W (Spec.Query.order q') t → ∃ k, min (a + b) N ≤ k ∧ k ≤ min (a + e) N ∧ (X k).edges t = some p)) ∧
      (∀ t v, tripleIn f t = some v → Spec.Query.Hits v q' → ¬ Disturbed f threads t → Settled f W (Spec.Query.order q') t →
        y.edges t = none → ∃ k, min (a + b) N ≤ k ∧ k ≤ min (a + e) N ∧ (X k).edges t = none) ∧
      (∀ n p, y.nodes n = some p → ∃ i, idIn f n = some i ∧ Spec.Query.Asks i q' ∧
        ∃ k, min (a + b) N ≤ k ∧ k ≤ min (a + e) N ∧ (X k).nodes n = some p) ∧
      (∀ n i, idIn f n = some i → Spec.Query.Asks i q' → y.nodes n = none →
        ∃ k, min (a + b) N ≤ k ∧ k ≤ min (a + e) N ∧ (X k).nodes n = none) ∧
      ((NamesOnce y ∧ ∃ res, runLazy cl cr c (fun k => (since x a N (ask k)).names) (fun k => (since x a N (tell k)).names) ρ g u q = .ok res ∧
          res.Shows MemIndex.impl (Mem.impl mN mE) y) ∨
        (¬ NamesOnce y ∧ ∃ s v, f s = some v ∧
          runLazy cl cr c (fun k => (since x a N (ask k)).names) (fun k => (since x a N (tell k)).names) ρ g u q =
            .error (.right (.nameIndex (.duplicateRight s v v)))))

end RdfSled

end Verif
