import Verif.Spec.SledApi

/-! # Orphaned edges, and counting overwriting insertions -/

namespace Verif

open Spec

variable {Id NP EP E : Type} [LinearOrder Id] [ConcreteId Id]

namespace Spec

/-- 1 if inserting the edge replaces the properties of an edge of `G`, 0 otherwise -/
def overwrites (okE : EP → Bool) (G : Graph Id NP EP) (t : Triple Id) (p : EP) : Nat :=
  if okE p && (G.edges t).isSome then 1 else 0

/-- how many calls of `insert_edge` in a history starting with `G` replace the properties of an edge -/
def overwriting (okN : NP → Bool) (okE : EP → Bool) (mN : NP → NP → NP) (mE : EP → EP → EP) :
    Graph Id NP EP → List (Op E Id NP EP) → Nat
  | _, [] => 0
  | G, .insertEdge t p :: h =>
    overwrites okE G t p + overwriting okN okE mN mE (Op.step okN okE mN mE G (.insertEdge t p : Op E Id NP EP)).1 h
  | G, op :: h => overwriting okN okE mN mE (op.step okN okE mN mE G).1 h

/-- an edge with the properties of its endpoints, or the error for an orphaned edge -/
def propsItem (G : Graph Id NP EP) (x : Triple Id × EP) : Except SErr (PropsTriple Id NP EP) :=
  match G.nodes x.1.sub, G.nodes x.1.obj with
  | some a, some b => .ok { sub := (x.1.sub, a), pred := (x.1.pred, x.2), obj := (x.1.obj, b) }
  | _, _ => .error .missing

end Spec

/-- number of property records of edges in a database -/
def Db.recordCount (d : Db) : Nat := d.edgeProps.entries.length

end Verif
