import Verif.Model.Conformance
import Verif.Spec.Rdf

/-!
# Specification: what the conformance tests rely on

A back-end is expected to obey the law below; the ids of a configuration to be ordered as `Config::default()` makes them.
-/

namespace Verif.Conformance

open Spec

variable {S X Q QX NP EP : Type}

/-- The methods do on the store what the specification says, and none fails.  `Ok n m s G`: `s` holds `G`, the next `n` ids of
its generator and the next `m` ids of `Ulid::new()` are new. -/
structure Law (b : Backend S X Q QX NP EP) (mN : NP → NP → NP) (mE : EP → EP → EP) (bad : X) (qbad : QX)
    (Ok : Nat → Nat → S → Graph Ulid NP EP → Prop) (QOk : Nat → Q → Graph Ulid NP EP → Prop) : Prop where
  store : ∀ m, StoreLaw b.st (fun _ => true) (fun _ => true) bad mN mE (fun n => Ok n m)
  query : StoreLaw b.q (fun _ => true) (fun _ => true) qbad mN mE QOk
  run : ∀ m, RunLaw b.st b.run (fun n => Ok n m) QOk
  extend : ∀ {n m s G H src}, Ok (n + src.edges.length) (m + src.edges.length) s G → Represents src H →
    (b.extend s src).2 = .ok () ∧ Ok n m (b.extend s src).1 (G.overlay H)
  merge : ∀ {n m s G H src}, Ok (n + src.edges.length) m s G → Represents src H →
    (b.merge s src).2 = .ok () ∧ Ok n m (b.merge s src).1 (G.mergeWith mN mE H)

/-- The ids of src/conformance/insert.rs:24-55 and src/conformance/remove.rs:22-49 increase. -/
structure Config.Increasing (c : Config NP EP) : Prop where
  n12 : c.node1 < c.node2
  n23 : c.node2 < c.node3
  n34 : c.node3 < c.node4

/-- The ids of src/conformance/extend.rs:18-43: three different nodes, `node_4` is `node_1`. -/
structure Config.ForExtend (c : Config NP EP) : Prop where
  n12 : c.node1 ≠ c.node2
  n13 : c.node1 ≠ c.node3
  n23 : c.node2 ≠ c.node3
  n41 : c.node4 = c.node1

/-- The order in which src/conformance/iter.rs:23-52 generates the ids. -/
structure Config.ForIter (c : Config NP EP) : Prop where
  n14 : c.node1 < c.node4
  n42 : c.node4 < c.node2
  n23 : c.node2 < c.node3
  e13 : c.edge1 < c.edge3
  e32 : c.edge3 < c.edge2

/-- The ids of src/conformance/query.rs:30-64 are different from each other. -/
structure QConfig.Distinct (c : QConfig NP EP) : Prop where
  nodes : [c.node0, c.node1, c.node2, c.node3, c.node4].Nodup
  edges : c.edge1 ≠ c.edge2

/-- The ids of src/conformance/merge.rs:26-47 are different from each other. -/
structure MConfig.Distinct (c : MConfig NP EP) : Prop where
  nodes : [c.node1, c.node2, c.node3, c.node4].Nodup
  edges : c.edge1 ≠ c.edge2

/-- The ids of src/conformance/set.rs:22-102 increase. -/
structure SConfig.Increasing (c : SConfig NP EP) : Prop where
  l12 : c.l1.1 < c.l2.1
  lm : c.l2.1 < c.m1.1
  m12 : c.m1.1 < c.m2.1
  mr : c.m2.1 < c.r1.1
  r12 : c.r1.1 < c.r2.1
  p78 : c.p7 < c.p8
  p89 : c.p8 < c.p9

/-- The tests of src/conformance/insert.rs, remove.rs, extend.rs, iter.rs and query.rs pass on the stores `db 0`, `db 1`, for all
properties and all ids ordered as theirs.  `g` is the generator of the stores that `run` returns. -/
structure Passed [DecidableEq NP] [DecidableEq EP] (b : Backend S X Q QX NP EP) (db : Nat → S) (g : Gen Ulid) : Prop where
  insertNode : ∀ c : Config NP EP, c.Increasing → testInsertNode b c (db 0) = some ()
  insertEdge : ∀ c : Config NP EP, c.Increasing → testInsertEdge b c (db 0) = some ()
  removeNode : ∀ c : Config NP EP, c.Increasing → testRemoveNode b c (db 0) = some ()
  removeEdge : ∀ c : Config NP EP, c.Increasing → testRemoveEdge b c (db 0) = some ()
  extend : ∀ c : Config NP EP, c.ForExtend → testExtend b c (db 0) (db 1) = some ()
  iter : ∀ c : Config NP EP, c.ForIter → ∀ o, testIter b c o (db 0) = some ()
  iterEdge : ∀ c : Config NP EP, c.ForIter → ∀ o, testIterEdge b c o (db 0) = some ()
  iterNode : ∀ c : Config NP EP, c.ForIter → testIterNode b c (db 0) = some ()
  intoIter : ∀ c : Config NP EP, c.ForIter → ∀ o, testIntoIter b c o (db 0) = some ()
  intoIterEdge : ∀ c : Config NP EP, c.ForIter → ∀ o, testIntoIterEdge b c o (db 0) = some ()
  intoIterNode : ∀ c : Config NP EP, c.ForIter → testIntoIterNode b c (db 0) = some ()
  queryNodeProps : ∀ c : QConfig NP EP, c.Distinct → testQueryNodeProps b c g (db 0) = some ()
  queryEdgeProps : ∀ c : QConfig NP EP, c.Distinct → testQueryEdgeProps b c g (db 0) = some ()
  queryS : ∀ c : QConfig NP EP, c.Distinct → testQueryS b c g (db 0) = some ()
  querySP : ∀ c : QConfig NP EP, c.Distinct → testQuerySP b c g (db 0) = some ()
  queryP : ∀ c : QConfig NP EP, c.Distinct → testQueryP b c g (db 0) = some ()
  queryPO : ∀ c : QConfig NP EP, c.Distinct → testQueryPO b c g (db 0) = some ()
  queryO : ∀ c : QConfig NP EP, c.Distinct → testQueryO b c g (db 0) = some ()
  queryOS : ∀ c : QConfig NP EP, c.Distinct → testQueryOS b c g (db 0) = some ()

/-- Those of src/conformance/merge.rs, which are about properties of the type `TestMergeable`, pass on the stores `db k`. -/
structure PassedMerge (b : Backend S X Q QX TestMergeable TestMergeable) (db : Nat → S) : Prop where
  merge : ∀ c : MConfig TestMergeable TestMergeable, c.Distinct → testMerge b c db = some ()
  mergeNode : ∀ c : MConfig TestMergeable TestMergeable, c.Distinct → c.node1Props.b = none → testMergeNode b c db = some ()
  mergeEdge : ∀ node1 node2 node3 edge, node1 ≠ node2 ∨ node2 ≠ node3 → testMergeEdge b node1 node2 node3 edge db = some ()

/-- Those of src/conformance/set.rs. -/
structure PassedSet [DecidableEq NP] [DecidableEq EP] (b : Backend (Mem Ulid NP EP) Unit (Mem Ulid NP EP) Unit NP EP)
    (left right : Mem Ulid NP EP) (g : Gen Ulid) : Prop where
  union : ∀ c : SConfig NP EP, c.Increasing → testUnion b c g left right = some ()
  intersection : ∀ c : SConfig NP EP, c.Increasing → testIntersection b c g left right = some ()
  difference : ∀ c : SConfig NP EP, c.Increasing → testDifference b c g left right = some ()

end Verif.Conformance
