import Verif.Model.MemSet
import Verif.Spec.Graph
import Verif.Spec.QuerySet

/-!
# What a client of MemTripleStore can do and see

Only dispatch to the API functions of the model, no logic of its own.
-/

namespace Verif

open Spec

variable {Id NP EP E : Type} [LinearOrder Id] [ConcreteId Id]

namespace Mem

/-- what iterating a MemTripleStore shows -/
def obs (s : Mem Id NP EP) : Obs Unit Id NP EP := { vertices := s.iterVertices, edges := s.iterEdges }

/-- number of edges shown by a store -/
def edgeCount (s : Mem Id NP EP) : Nat := (s.iterEdges .SPO).length

/-- Call the API function named by `op`; the result code of `extend`/`merge` is dropped (the caller carries on
with the store whatever it was). -/
def apply (mN : NP → NP → NP) (mE : EP → EP → EP) (s : Mem Id NP EP) : Op E Id NP EP → Mem Id NP EP
  | .insertNode n p => s.insertNode n p
  | .insertEdge t p => s.insertEdge t p
  | .removeNode n => s.removeNode n
  | .removeEdge t => s.removeEdge t
  | .mergeNode n p => s.mergeNode mN n p
  | .mergeEdge t p => s.mergeEdge mE t p
  | .extend src => (s.extend src).1
  | .merge src => (s.merge mN mE src).1

def applyAll (mN : NP → NP → NP) (mE : EP → EP → EP) (s : Mem Id NP EP) (h : List (Op E Id NP EP)) :
    Mem Id NP EP := h.foldl (apply mN mE) s

/-- `Reach n s`: `s` is a store that some client can hold, having created stores with `new` and combined them
with any API calls: the eight mutations, queries, and set operations with an arbitrary other store (any two
item streams, errors included).  The generators yielded no id twice so far, and the next `n` ids of `s`'s
generator are also different from each other and from those in use. -/
inductive Reach (E : Type) (mN : NP → NP → NP) (mE : EP → EP → EP) : Nat → Mem Id NP EP → Prop
  | new {n : Nat} {g : Gen Id} (hg : Fresh n g) : Reach E mN mE n (Mem.new g)
  | op {n : Nat} {s : Mem Id NP EP} (o : Op E Id NP EP) (h : Reach E mN mE (n + o.draws) s) :
      Reach E mN mE n (s.apply mN mE o)
  | run {n m : Nat} {s : Mem Id NP EP} (h : Reach E mN mE m s) {g : Gen Id} (hg : Fresh (n + s.edgeCount) g)
      {q : Query Id} (hq : Spec.Query.Nodup q) : Reach E mN mE n (s.run g q)
  | union {n m : Nat} {s r : Mem Id NP EP} (h : Reach E mN mE m s) {g : Gen Id} {other : Source E Id NP EP}
      (hg : Fresh (n + s.edgeCount + other.edges.length) g) (hr : s.union g other = .ok r) : Reach E mN mE n r
  | intersection {n m : Nat} {s r : Mem Id NP EP} (h : Reach E mN mE m s) {g : Gen Id}
      {other : Source E Id NP EP} (hg : Fresh (n + s.edgeCount) g) (hr : s.intersection g other = .ok r) :
      Reach E mN mE n r
  | difference {n m : Nat} {s r : Mem Id NP EP} (h : Reach E mN mE m s) {g : Gen Id}
      {other : Source E Id NP EP} (hg : Fresh (n + s.edgeCount) g) (hr : s.difference g other = .ok r) :
      Reach E mN mE n r

/-- `Built s`: as `Reach`, but the generators may repeat ids at will and queries may list an item twice. -/
inductive Built (E : Type) (mN : NP → NP → NP) (mE : EP → EP → EP) : Mem Id NP EP → Prop
  | new (g : Gen Id) : Built E mN mE (Mem.new g)
  | op {s : Mem Id NP EP} (o : Op E Id NP EP) (h : Built E mN mE s) : Built E mN mE (s.apply mN mE o)
  | run {s : Mem Id NP EP} (h : Built E mN mE s) (g : Gen Id) (q : Query Id) : Built E mN mE (s.run g q)
  | union {s r : Mem Id NP EP} (h : Built E mN mE s) {g : Gen Id} {other : Source E Id NP EP}
      (hr : s.union g other = .ok r) : Built E mN mE r
  | intersection {s r : Mem Id NP EP} (h : Built E mN mE s) {g : Gen Id} {other : Source E Id NP EP}
      (hr : s.intersection g other = .ok r) : Built E mN mE r
  | difference {s r : Mem Id NP EP} (h : Built E mN mE s) {g : Gen Id} {other : Source E Id NP EP}
      (hr : s.difference g other = .ok r) : Built E mN mE r

end Mem

end Verif
