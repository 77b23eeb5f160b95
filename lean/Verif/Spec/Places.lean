import Verif.Spec.History
import Verif.Spec.SledScan

/-!
# What readers get has a place in the history

A reader that goes through a map while others change it may see each key at another moment.
-/

namespace Verif

namespace Spec

/-- A traversal, begun at the moment `a`, of a map that is `g k` at the moment `k`: each key has a moment (`place`) such that the reader
finds there what the map has for the key at that moment.  `l` has the keys found, in order, each with its value, or without (`none`) if the
reader was too late for the value.  Keys outside of `within` are not looked for.  Only of the `sure` keys something is known. -/
structure Placed {κ ν : Type} (lt : κ → κ → Prop) (g : Nat → κ → Option ν) (a N : Nat) (within sure : κ → Prop) (l : List (κ × Option ν))
    (place : κ → Nat) : Prop where
  /-- the moments are while the traversal goes on -/
  time : ∀ k, a ≤ place k ∧ place k ≤ N
  sorted : l.Pairwise (fun x y => lt x.1 y.1)
  listed : ∀ k r, (k, r) ∈ l → within k ∧ (sure k → ∃ v, g (place k) k = some v ∧ (r = none ∨ r = some v))
  unlisted : ∀ k, within k → sure k → (∀ r, (k, r) ∉ l) → g (place k) k = none
  /-- the keys that are found are met one after another, and what is passed over is passed over in between -/
  order : ∀ k k', within k → within k' → lt k k' → ((∃ r, (k, r) ∈ l) ∨ ∃ r, (k', r) ∈ l) → place k ≤ place k'

end Spec

namespace Sled

open Spec ConcreteId

/-- the contents of the database from the moment `a` on; after the moment `N` they stay as they are -/
def since {α : Type} (x : Nat → Db × α) (a N : Nat) (m : Nat) : Db := (x (min (a + m) N)).1

/-- what `iter_edges` returns for a key with a value, or without -/
def itemFor {Id EP : Type} (y : Triple Id × Option EP) : Except SErr (Triple Id × EP) :=
  match y.2 with
  | some p => .ok (y.1, p)
  | none => .error .missing

variable {Id NP EP E : Type} [LinearOrder Id] [ConcreteId Id]

/-- What readers get while a database goes through the moments `0`, …, `N`, showing the graphs `g 0`, …, `g N` in its first ordering, and
in the others but for some edges (`W`).  A reader begins at the moment `a`. -/
structure Readers (c : Codecs NP EP) (threads : List (List (Call E Id NP EP))) (W : Triple Id → Prop) {α : Type} (x : Nat → Db × α) (N : Nat)
    (g : Nat → Graph Id NP EP) : Prop where
  /-- `iter_edges`, and the ranges of queries -/
  edges : ∀ a ≤ N, ∀ o b l, Reading (since x a N) o b l → ∃ (r : List (Triple Id × Option EP)) (place : Triple Id → Nat),
    l.map (fun e => edgeItem Id c (since x a N e.look) o (e.key, e.id)) = r.map itemFor ∧
    (∀ t, (t, none) ∈ r → ¬ OnlyInserted threads t) ∧
    List.Forall₂ (fun e y => e.key = (encOf o y.1).1 ∧ place y.1 = min (a + e.scan) N) l r ∧
    Spec.Placed (Spec.edgeLT o) (fun k => (g k).edges) a N (fun t => Bound.contains b (encOf o t).1 = true) (fun t => o = .SPO ∨ ¬ W t) r place
  /-- `iter_edges_with_props`: the nodes are looked up at the moments `ms` and `mo` -/
  props : ∀ a ≤ N, ∀ o b l, Reading (since x a N) o b l → ∀ e ∈ l, ∀ ms mo, ∃ t : Triple Id, e.key = (encOf o t).1 ∧
    (propsItem Id c (since x a N ms) (since x a N e.look) (since x a N mo) o (e.key, e.id) = .error .missing ∧
        (¬ OnlyInserted threads t ∨ (g (min (a + ms) N)).nodes t.sub = none ∨ (g (min (a + mo) N)).nodes t.obj = none) ∨
      ∃ sp ep op, propsItem Id c (since x a N ms) (since x a N e.look) (since x a N mo) o (e.key, e.id) =
          .ok { sub := (t.sub, sp), pred := (t.pred, ep), obj := (t.obj, op) } ∧
        (o = .SPO ∨ ¬ W t → (g (min (a + e.scan) N)).edges t = some ep) ∧
        (g (min (a + ms) N)).nodes t.sub = some sp ∧ (g (min (a + mo) N)).nodes t.obj = some op)
  /-- `iter_vertices` -/
  nodes : ∀ a ≤ N, ∀ l, Scan (fun m => (since x a N m).nodeProps) (.unbounded, .unbounded) 0 none l →
    ∃ (r : List (Id × NP)) (place : Id → Nat), l.map (fun e => vertexItem Id c e.2) = r.map .ok ∧
    List.Forall₂ (fun e y => e.2.1 = (toBeBytes y.1).1 ∧ place y.1 = min (a + e.1) N) l r ∧
    Spec.Placed (· < ·) (fun k => (g k).nodes) a N (fun _ => True) (fun _ => True) (r.map (fun y => (y.1, some y.2))) place
  /-- `run` -/
  queries : ∀ a ≤ N, ∀ (q : Query Id) (ρ : Reads) (gen : Gen Id), Spec.Query.Nodup q → Asked (since x a N) q ρ → Fresh ρ.size gen →
    ∃ r R, runLazy c gen ρ q = .ok r ∧ Spec.Shows r.obs R ∧
      (∀ t p, R.edges t = some p → Spec.Query.Hits t q ∧
        (Spec.Query.order q = .SPO ∨ ¬ W t → ∃ k, a ≤ k ∧ k ≤ N ∧ (g k).edges t = some p)) ∧
      (∀ t, Spec.Query.Hits t q → OnlyInserted threads t → Spec.Query.order q = .SPO ∨ ¬ W t → R.edges t = none →
        ∃ k, a ≤ k ∧ k ≤ N ∧ (g k).edges t = none) ∧
      (∀ i p, R.nodes i = some p → Spec.Query.Asks i q ∧ ∃ k, a ≤ k ∧ k ≤ N ∧ (g k).nodes i = some p) ∧
      ∀ i, Spec.Query.Asks i q → R.nodes i = none → ∃ k, a ≤ k ∧ k ≤ N ∧ (g k).nodes i = none

end Sled

end Verif
