import Verif.Model.Rdf

/-!
# The conformance tests  (src/conformance.rs, src/conformance/*.rs)

The library's own tests of its two back-ends, as functions of the store and of the ids and properties they use: `some ()` means that the
test passes, `none` that it panics.  The library runs each with one choice of ids and properties (`Config::default()`); here these
are arguments, the order of the ids being a hypothesis of the theorems about the tests.

Simplifications: a `HashSet` of the results is the list of them, compared by membership; the tests on properties that are `String`
are written for any type with decidable equality.
-/

namespace Verif.Conformance

/-- A test, or a part of one: `none` is a panic. -/
abbrev Test (α : Type) := Option α

/-- `.expect(..)` or `.unwrap()` of a result -/
def expect {X α : Type} : Except X α → Test α
  | .ok a => some a
  | .error _ => none

/-- `db.call(..).expect(..)` for a method that takes `&mut self` -/
def expectDb {S X α : Type} (r : S × Except X α) : Test S :=
  match r.2 with
  | .ok _ => some r.1
  | .error _ => none

/-- `.map(|r| r.expect(..)).collect::<Vec<_>>()` -/
def expectAll {X α : Type} (l : List (Except X α)) : Test (List α) := l.mapM expect

/-- `assert!(b)`, `assert_eq!(a, b)` -/
def assert (p : Prop) [Decidable p] : Test Unit := if p then some () else none

/-- `assert_eq!(xs.collect::<HashSet<_>>(), ys.into())` -/
def assertSameSet {α : Type} [DecidableEq α] (xs ys : List α) : Test Unit :=
  assert ((∀ x ∈ xs, x ∈ ys) ∧ ∀ y ∈ ys, y ∈ xs)

/-- The methods of the back-end that the tests call: those of a `TripleStore`, `extend` (src/traits/extend.rs), `merge` (src/traits/merge.rs) and
`run` (src/traits/query.rs).  `extend` and `merge` take what `into_iter_nodes(SPO)` of the other store yields. -/
structure Backend (S X Q QX NP EP : Type) where
  st : StoreImpl S X Ulid NP EP
  extend : S → Source X Ulid NP EP → S × Except (LR X X) Unit
  merge : S → Source X Ulid NP EP → S × Except (LR X X) Unit
  run : RunImpl S X Q QX Ulid
  q : StoreImpl Q QX Ulid NP EP

section
variable {NP EP : Type}

def mem (mN : NP → NP → NP) (mE : EP → EP → EP) : Backend (Mem Ulid NP EP) Unit (Mem Ulid NP EP) Unit NP EP where
  st := Mem.impl mN mE
  extend := Mem.extend
  merge := Mem.merge mN mE
  run := Mem.runImpl
  q := Mem.impl mN mE

def sled (c : Codecs NP EP) (mN : NP → NP → NP) (mE : EP → EP → EP) :
    Backend (SledStore Ulid) SErr (Mem Ulid NP EP) Unit NP EP where
  st := SledStore.impl c mN mE
  extend := SledStore.extend c
  merge := SledStore.merge c mN mE
  run := SledStore.runImpl c
  q := Mem.impl mN mE

end

variable {S X Q QX NP EP : Type}

/-- `for (node, props) in [..] { db.insert_node(node, props).expect(..) }` -/
def insertNodes (b : Backend S X Q QX NP EP) (db : S) (l : List (Ulid × NP)) : Test S :=
  l.foldlM (fun db x => expectDb (b.st.insertNode db x.1 x.2)) db

/-- `for (triple, props) in [..] { db.insert_edge(triple, props).expect(..) }` -/
def insertEdges (b : Backend S X Q QX NP EP) (db : S) (l : List (Triple Ulid × EP)) : Test S :=
  l.foldlM (fun db x => expectDb (b.st.insertEdge db x.1 x.2)) db

/-! ## src/conformance/insert.rs -/

/-- `Config` of src/conformance/insert.rs:5-22, and of src/conformance/remove.rs:5-20, which lacks `node_data_5`, `edge_data_4` -/
structure Config (NP EP : Type) where
  node1 : Ulid
  node2 : Ulid
  node3 : Ulid
  node4 : Ulid
  edge1 : Ulid
  edge2 : Ulid
  edge3 : Ulid
  nodeData1 : NP
  nodeData2 : NP
  nodeData3 : NP
  nodeData4 : NP
  nodeData5 : NP
  edgeData1 : EP
  edgeData2 : EP
  edgeData3 : EP
  edgeData4 : EP

/-- `test_insert_node` (src/conformance/insert.rs:57-99) -/
def testInsertNode [DecidableEq NP] (b : Backend S X Q QX NP EP) (c : Config NP EP) (db : S) : Test Unit := do
  let db ← expectDb (b.st.insertNode db c.node1 c.nodeData1)
  let db ← expectDb (b.st.insertNode db c.node2 c.nodeData2)
  let db ← expectDb (b.st.insertNode db c.node3 c.nodeData3)
  let db ← expectDb (b.st.insertNode db c.node4 c.nodeData4)
  let src := b.st.iterNodes db .SPO
  let nodes ← expectAll src.nodes
  assert (nodes = [(c.node1, c.nodeData1), (c.node2, c.nodeData2), (c.node3, c.nodeData3), (c.node4, c.nodeData4)])
  assert (src.edges.length = 0)
  let db ← expectDb (b.st.insertNode db c.node4 c.nodeData5)
  let src := b.st.iterNodes db .SPO
  let nodes ← expectAll src.nodes
  assert (nodes = [(c.node1, c.nodeData1), (c.node2, c.nodeData2), (c.node3, c.nodeData3), (c.node4, c.nodeData5)])
  assert (src.edges.length = 0)

/-- `test_insert_edge` (src/conformance/insert.rs:101-193) -/
def testInsertEdge [DecidableEq NP] [DecidableEq EP] (b : Backend S X Q QX NP EP) (c : Config NP EP) (db : S) : Test Unit := do
  let db ← insertNodes b db
    [(c.node1, c.nodeData1), (c.node2, c.nodeData2), (c.node3, c.nodeData3), (c.node4, c.nodeData4)]
  let db ← expectDb (b.st.insertEdge db ⟨c.node1, c.edge1, c.node2⟩ c.edgeData1)
  let db ← expectDb (b.st.insertEdge db ⟨c.node2, c.edge2, c.node3⟩ c.edgeData2)
  let db ← expectDb (b.st.insertEdge db ⟨c.node3, c.edge3, c.node4⟩ c.edgeData3)
  let db ← expectDb (b.st.insertEdge db ⟨c.node3, c.edge3, c.node4⟩ c.edgeData4)
  let src := b.st.iterNodes db .SPO
  let nodes ← expectAll src.nodes
  assert (nodes = [(c.node1, c.nodeData1), (c.node2, c.nodeData2), (c.node3, c.nodeData3), (c.node4, c.nodeData4)])
  let edges ← expectAll src.edges
  assert (edges = [(⟨c.node1, c.edge1, c.node2⟩, c.edgeData1), (⟨c.node2, c.edge2, c.node3⟩, c.edgeData2),
    (⟨c.node3, c.edge3, c.node4⟩, c.edgeData4)])

/-! ## src/conformance/remove.rs -/

/-- `populate_graph` (src/conformance/remove.rs:51-90) -/
def populateGraph (b : Backend S X Q QX NP EP) (c : Config NP EP) (db : S) : Test S := do
  let db ← insertNodes b db
    [(c.node1, c.nodeData1), (c.node2, c.nodeData2), (c.node3, c.nodeData3), (c.node4, c.nodeData4)]
  insertEdges b db
    [(⟨c.node1, c.edge1, c.node2⟩, c.edgeData1), (⟨c.node2, c.edge2, c.node3⟩, c.edgeData2),
      (⟨c.node3, c.edge3, c.node4⟩, c.edgeData3)]

/-- `test_remove_node` (src/conformance/remove.rs:92-136) -/
def testRemoveNode [DecidableEq NP] [DecidableEq EP] (b : Backend S X Q QX NP EP) (c : Config NP EP) (db : S) : Test Unit := do
  let db ← populateGraph b c db
  let db ← expectDb (b.st.removeNode db c.node1)
  let db ← expectDb (b.st.removeNode db c.node4)
  let nodes ← expectAll (b.st.iterVertices db)
  assert (nodes = [(c.node2, c.nodeData2), (c.node3, c.nodeData3)])
  let edges ← expectAll (b.st.iterEdges db .SPO)
  assert (edges = [(⟨c.node2, c.edge2, c.node3⟩, c.edgeData2)])
  let full ← expectAll (b.st.iterEdgesWithProps db .SPO)
  assert (full = [⟨(c.node2, c.nodeData2), (c.edge2, c.edgeData2), (c.node3, c.nodeData3)⟩])

/-- `test_remove_edge` (src/conformance/remove.rs:138-195) -/
def testRemoveEdge [DecidableEq NP] [DecidableEq EP] (b : Backend S X Q QX NP EP) (c : Config NP EP) (db : S) : Test Unit := do
  let db ← populateGraph b c db
  let db ← expectDb (b.st.removeEdge db ⟨c.node1, c.edge1, c.node2⟩)
  let db ← expectDb (b.st.removeEdge db ⟨c.node3, c.edge3, c.node4⟩)
  let nodes ← expectAll (b.st.iterVertices db)
  assert (nodes = [(c.node1, c.nodeData1), (c.node2, c.nodeData2), (c.node3, c.nodeData3), (c.node4, c.nodeData4)])
  let edges ← expectAll (b.st.iterEdges db .SPO)
  assert (edges = [(⟨c.node2, c.edge2, c.node3⟩, c.edgeData2)])
  let full ← expectAll (b.st.iterEdgesWithProps db .SPO)
  assert (full = [⟨(c.node2, c.nodeData2), (c.edge2, c.edgeData2), (c.node3, c.nodeData3)⟩])

/-! ## src/conformance/extend.rs -/

/-- `test_extend` (src/conformance/extend.rs:82-121) with `setup_left` (45-60), `setup_right` (62-80).  `node_4` is `node_1`. -/
def testExtend [DecidableEq NP] [DecidableEq EP] (b : Backend S X Q QX NP EP) (c : Config NP EP) (left right : S) : Test Unit := do
  let left ← expectDb (b.st.insertNode left c.node1 c.nodeData1)
  let left ← expectDb (b.st.insertNode left c.node2 c.nodeData2)
  let left ← expectDb (b.st.insertEdge left ⟨c.node1, c.edge1, c.node2⟩ c.edgeData1)
  let right ← expectDb (b.st.insertNode right c.node3 c.nodeData3)
  let right ← expectDb (b.st.insertNode right c.node4 c.nodeData4)
  let right ← expectDb (b.st.insertEdge right ⟨c.node3, c.edge1, c.node4⟩ c.edgeData2)
  let left ← expectDb (b.extend left (b.st.intoIterNodes right .SPO))
  let nodeData ← expectAll (b.st.iterVertices left)
  assert (nodeData.length = 3)
  assert ((c.node1, c.nodeData4) ∈ nodeData)
  assert ((c.node2, c.nodeData2) ∈ nodeData)
  assert ((c.node3, c.nodeData3) ∈ nodeData)
  let edgeData ← expectAll (b.st.iterEdges left .SPO)
  assert (edgeData.length = 2)
  assert ((⟨c.node3, c.edge1, c.node1⟩, c.edgeData2) ∈ edgeData)
  assert ((⟨c.node1, c.edge1, c.node2⟩, c.edgeData1) ∈ edgeData)

/-! ## src/conformance/iter.rs -/

/-- `build_graph` (src/conformance/iter.rs:54-94) -/
def buildIter (b : Backend S X Q QX NP EP) (c : Config NP EP) (db : S) : Test S := do
  let db ← expectDb (b.st.insertNode db c.node1 c.nodeData1)
  let db ← expectDb (b.st.insertNode db c.node2 c.nodeData2)
  let db ← expectDb (b.st.insertNode db c.node3 c.nodeData3)
  let db ← expectDb (b.st.insertNode db c.node4 c.nodeData4)
  let db ← expectDb (b.st.insertEdge db ⟨c.node1, c.edge1, c.node2⟩ c.edgeData1)
  let db ← expectDb (b.st.insertEdge db ⟨c.node2, c.edge2, c.node3⟩ c.edgeData2)
  expectDb (b.st.insertEdge db ⟨c.node3, c.edge3, c.node4⟩ c.edgeData3)

/-- the three edges with their properties, as every test of src/conformance/iter.rs writes them -/
def Config.full1 (c : Config NP EP) : PropsTriple Ulid NP EP := ⟨(c.node1, c.nodeData1), (c.edge1, c.edgeData1), (c.node2, c.nodeData2)⟩
def Config.full2 (c : Config NP EP) : PropsTriple Ulid NP EP := ⟨(c.node2, c.nodeData2), (c.edge2, c.edgeData2), (c.node3, c.nodeData3)⟩
def Config.full3 (c : Config NP EP) : PropsTriple Ulid NP EP := ⟨(c.node3, c.nodeData3), (c.edge3, c.edgeData3), (c.node4, c.nodeData4)⟩

/-- what the tests expect in each order -/
def Config.expectedFull (c : Config NP EP) : EdgeOrder → List (PropsTriple Ulid NP EP)
  | .SPO => [c.full1, c.full2, c.full3]
  | .POS => [c.full1, c.full3, c.full2]
  | .OSP => [c.full3, c.full1, c.full2]

def Config.expectedEdges (c : Config NP EP) : EdgeOrder → List (Triple Ulid × EP)
  | .SPO => [(⟨c.node1, c.edge1, c.node2⟩, c.edgeData1), (⟨c.node2, c.edge2, c.node3⟩, c.edgeData2),
      (⟨c.node3, c.edge3, c.node4⟩, c.edgeData3)]
  | .POS => [(⟨c.node1, c.edge1, c.node2⟩, c.edgeData1), (⟨c.node3, c.edge3, c.node4⟩, c.edgeData3),
      (⟨c.node2, c.edge2, c.node3⟩, c.edgeData2)]
  | .OSP => [(⟨c.node3, c.edge3, c.node4⟩, c.edgeData3), (⟨c.node1, c.edge1, c.node2⟩, c.edgeData1),
      (⟨c.node2, c.edge2, c.node3⟩, c.edgeData2)]

/-- `test_iter_spo`, `test_iter_pos`, `test_iter_osp` (src/conformance/iter.rs:96-181) -/
def testIter [DecidableEq NP] [DecidableEq EP] (b : Backend S X Q QX NP EP) (c : Config NP EP) (o : EdgeOrder) (db : S) :
    Test Unit := do
  let db ← buildIter b c db
  let full ← expectAll (b.st.iterEdgesWithProps db o)
  assert (full = c.expectedFull o)

/-- `test_iter_edge_spo`, `test_iter_edge_pos`, `test_iter_edge_osp` (src/conformance/iter.rs:183-295) -/
def testIterEdge [DecidableEq EP] (b : Backend S X Q QX NP EP) (c : Config NP EP) (o : EdgeOrder) (db : S) : Test Unit := do
  let db ← buildIter b c db
  let edges ← expectAll (b.st.iterEdges db o)
  assert (edges = c.expectedEdges o)

/-- `test_iter_node` (src/conformance/iter.rs:297-311) -/
def testIterNode [DecidableEq NP] (b : Backend S X Q QX NP EP) (c : Config NP EP) (db : S) : Test Unit := do
  let db ← buildIter b c db
  let nodes ← expectAll (b.st.iterVertices db)
  assert (nodes = [(c.node1, c.nodeData1), (c.node4, c.nodeData4), (c.node2, c.nodeData2), (c.node3, c.nodeData3)])

/-- `test_into_iter_spo`, `test_into_iter_pos`, `test_into_iter_osp` (src/conformance/iter.rs:313-398) -/
def testIntoIter [DecidableEq NP] [DecidableEq EP] (b : Backend S X Q QX NP EP) (c : Config NP EP) (o : EdgeOrder) (db : S) :
    Test Unit := do
  let db ← buildIter b c db
  let full ← expectAll (b.st.intoIterEdgesWithProps db o)
  assert (full = c.expectedFull o)

/-- `test_into_iter_edge_spo`, `test_into_iter_edge_pos`, `test_into_iter_edge_osp` (src/conformance/iter.rs:400-512) -/
def testIntoIterEdge [DecidableEq EP] (b : Backend S X Q QX NP EP) (c : Config NP EP) (o : EdgeOrder) (db : S) : Test Unit := do
  let db ← buildIter b c db
  let edges ← expectAll (b.st.intoIterEdges db o)
  assert (edges = c.expectedEdges o)

/-- `test_into_iter_node` (src/conformance/iter.rs:514-530) -/
def testIntoIterNode [DecidableEq NP] (b : Backend S X Q QX NP EP) (c : Config NP EP) (db : S) : Test Unit := do
  let db ← buildIter b c db
  let nodes ← expectAll (b.st.intoIterVertices db)
  assert (nodes = [(c.node1, c.nodeData1), (c.node4, c.nodeData4), (c.node2, c.nodeData2), (c.node3, c.nodeData3)])

/-! ## src/conformance/query.rs -/

/-- `Config` (src/conformance/query.rs:7-28) -/
structure QConfig (NP EP : Type) where
  node0 : Ulid
  node1 : Ulid
  node2 : Ulid
  node3 : Ulid
  node4 : Ulid
  edge1 : Ulid
  edge2 : Ulid
  nodeProps0 : NP
  nodeProps1 : NP
  nodeProps2 : NP
  nodeProps3 : NP
  nodeProps4 : NP
  edge01Props : EP
  edge02Props : EP
  edgeProps1 : EP
  edgeProps2 : EP
  edgeProps3 : EP

/-- `build_graph` (src/conformance/query.rs:66-122) -/
def buildQuery (b : Backend S X Q QX NP EP) (c : QConfig NP EP) (db : S) : Test S := do
  let db ← insertNodes b db
    [(c.node0, c.nodeProps0), (c.node1, c.nodeProps1), (c.node2, c.nodeProps2), (c.node3, c.nodeProps3), (c.node4, c.nodeProps4)]
  insertEdges b db
    [(⟨c.node0, c.edge1, c.node1⟩, c.edge01Props), (⟨c.node0, c.edge2, c.node2⟩, c.edge02Props),
      (⟨c.node1, c.edge1, c.node2⟩, c.edgeProps1), (⟨c.node2, c.edge2, c.node4⟩, c.edgeProps2),
      (⟨c.node3, c.edge2, c.node4⟩, c.edgeProps3)]

/-- `test_query_node_props` (src/conformance/query.rs:124-151).  `g` is the stream of the generator given to the result. -/
def testQueryNodeProps [DecidableEq NP] (b : Backend S X Q QX NP EP) (c : QConfig NP EP) (g : Gen Ulid) (db : S) : Test Unit := do
  let db ← buildQuery b c db
  let query ← expect (b.run db g (.NodeProps [c.node1, c.node2]))
  let nodes ← expectAll (b.q.iterVertices query)
  assertSameSet nodes [(c.node1, c.nodeProps1), (c.node2, c.nodeProps2)]
  assert ((b.q.iterEdges query .SPO).length = 0)

/-- the rest of the tests of src/conformance/query.rs: run `q`, compare the edges in order `o`, and there are no nodes -/
def testQuery [DecidableEq EP] (b : Backend S X Q QX NP EP) (c : QConfig NP EP) (g : Gen Ulid) (db : S) (q : Query Ulid)
    (o : EdgeOrder) (expected : List (Triple Ulid × EP)) : Test Unit := do
  let db ← buildQuery b c db
  let query ← expect (b.run db g q)
  let edges ← expectAll (b.q.iterEdges query o)
  assertSameSet edges expected
  assert ((b.q.iterVertices query).length = 0)

section
variable [DecidableEq EP] (b : Backend S X Q QX NP EP) (c : QConfig NP EP) (g : Gen Ulid) (db : S)

/-- `test_query_edge_props` (src/conformance/query.rs:153-194) -/
def testQueryEdgeProps : Test Unit :=
  testQuery b c g db (.SPO [(c.node1, c.edge1, c.node2), (c.node2, c.edge2, c.node4)]) .SPO
    [(⟨c.node1, c.edge1, c.node2⟩, c.edgeProps1), (⟨c.node2, c.edge2, c.node4⟩, c.edgeProps2)]

/-- `test_query_s` (src/conformance/query.rs:196-232) -/
def testQueryS : Test Unit :=
  testQuery b c g db (.S [c.node1, c.node3]) .SPO
    [(⟨c.node1, c.edge1, c.node2⟩, c.edgeProps1), (⟨c.node3, c.edge2, c.node4⟩, c.edgeProps3)]

/-- `test_query_sp` (src/conformance/query.rs:234-260) -/
def testQuerySP : Test Unit :=
  testQuery b c g db (.SP [(c.node0, c.edge1)]) .SPO [(⟨c.node0, c.edge1, c.node1⟩, c.edge01Props)]

/-- `test_query_p` (src/conformance/query.rs:262-296) -/
def testQueryP : Test Unit :=
  testQuery b c g db (.P [c.edge1]) .POS
    [(⟨c.node0, c.edge1, c.node1⟩, c.edge01Props), (⟨c.node1, c.edge1, c.node2⟩, c.edgeProps1)]

/-- `test_query_po` (src/conformance/query.rs:298-324) -/
def testQueryPO : Test Unit :=
  testQuery b c g db (.PO [(c.edge1, c.node2)]) .POS [(⟨c.node1, c.edge1, c.node2⟩, c.edgeProps1)]

/-- `test_query_o` (src/conformance/query.rs:326-360) -/
def testQueryO : Test Unit :=
  testQuery b c g db (.O [c.node4]) .OSP
    [(⟨c.node2, c.edge2, c.node4⟩, c.edgeProps2), (⟨c.node3, c.edge2, c.node4⟩, c.edgeProps3)]

/-- `test_query_os` (src/conformance/query.rs:362-388) -/
def testQueryOS : Test Unit :=
  testQuery b c g db (.SO [(c.node2, c.node4)]) .OSP [(⟨c.node2, c.edge2, c.node4⟩, c.edgeProps2)]

end

/-! ## src/conformance/merge.rs -/

/-- `TestMergeable` (src/conformance.rs:13-17) -/
structure TestMergeable where
  a : Option String
  b : Option String
deriving DecidableEq

/-- `TestMergeable::default()` (src/conformance.rs:19-23) -/
def TestMergeable.default : TestMergeable := { a := none, b := none }

/-- `merge` (src/conformance.rs:25-34) -/
def TestMergeable.merge (self other : TestMergeable) : TestMergeable :=
  let self := match other.a with
    | some a => { self with a := some a }
    | none => self
  match other.b with
  | some b => { self with b := some b }
  | none => self

/-- `Config` (src/conformance/merge.rs:7-24) -/
structure MConfig (NP EP : Type) where
  node1 : Ulid
  node2 : Ulid
  node3 : Ulid
  node4 : Ulid
  edge1 : Ulid
  edge2 : Ulid
  edge3 : Ulid
  node1Props : NP
  node2Props : NP
  node3Props : NP
  node4Props : NP
  edge1Props : EP
  edge2Props : EP
  edge3Props : EP

/-- `build_graph` (src/conformance/merge.rs:49-94) -/
def buildMerge (b : Backend S X Q QX NP EP) (c : MConfig NP EP) (db : S) : Test S := do
  let db ← expectDb (b.st.insertNode db c.node1 c.node1Props)
  let db ← expectDb (b.st.insertNode db c.node2 c.node2Props)
  let db ← expectDb (b.st.insertNode db c.node3 c.node3Props)
  let db ← expectDb (b.st.insertNode db c.node4 c.node4Props)
  let db ← expectDb (b.st.insertEdge db ⟨c.node1, c.edge1, c.node3⟩ c.edge1Props)
  let db ← expectDb (b.st.insertEdge db ⟨c.node1, c.edge2, c.node3⟩ c.edge2Props)
  expectDb (b.st.insertEdge db ⟨c.node3, c.edge3, c.node4⟩ c.edge3Props)

/-- `assert!(a.try_eq(&b).expect("ok"))` -/
def assertTryEq [DecidableEq NP] [DecidableEq EP] (b : Backend S X Q QX NP EP) (l r : S) : Test Unit := do
  let eq ← expect (tryEq (b.st.iterNodes l .SPO) (b.st.iterNodes r .SPO))
  assert (eq = true)

/-- `test_merge` (src/conformance/merge.rs:96-180).  `makeDb k` is the store the `k`-th call of `make_db` returns. -/
def testMerge (b : Backend S X Q QX TestMergeable TestMergeable) (initial : MConfig TestMergeable TestMergeable) (makeDb : Nat → S) :
    Test Unit := do
  let config1 := { initial with node2Props := ⟨some "bar", some "bar"⟩, edge3Props := ⟨some "bar", some "bar"⟩ }
  let config2 := { initial with node2Props := ⟨some "foo", none⟩, edge3Props := ⟨some "foo", none⟩ }
  let graph1 ← buildMerge b config1 (makeDb 0)
  let graph2 ← buildMerge b config2 (makeDb 1)
  let expected12 ← buildMerge b
    { initial with node2Props := ⟨some "foo", some "bar"⟩, edge3Props := ⟨some "foo", some "bar"⟩ } (makeDb 2)
  let expected21 ← buildMerge b
    { initial with node2Props := ⟨some "bar", some "bar"⟩, edge3Props := ⟨some "bar", some "bar"⟩ } (makeDb 3)
  let other2 ← buildMerge b config2 (makeDb 4)
  let actual12 ← expectDb (b.merge graph1 (b.st.intoIterNodes other2 .SPO))
  let other1 ← buildMerge b config1 (makeDb 5)
  let actual21 ← expectDb (b.merge graph2 (b.st.intoIterNodes other1 .SPO))
  assertTryEq b actual12 expected12
  assertTryEq b actual21 expected21

/-- `test_merge_node` (src/conformance/merge.rs:182-238) -/
def testMergeNode (b : Backend S X Q QX TestMergeable TestMergeable) (initial : MConfig TestMergeable TestMergeable)
    (makeDb : Nat → S) : Test Unit := do
  let graph1 ← buildMerge b { initial with node2Props := ⟨some "bar", some "bar"⟩ } (makeDb 0)
  let graph1 ← expectDb (b.st.mergeNode graph1 initial.node1 ⟨some "baz", none⟩)
  let graph1 ← expectDb (b.st.mergeNode graph1 initial.node2 ⟨some "baz", none⟩)
  let expected ← buildMerge b
    { initial with node1Props := ⟨some "baz", none⟩, node2Props := ⟨some "baz", some "bar"⟩ } (makeDb 1)
  assertTryEq b graph1 expected

/-- `make_graph` of `test_merge_edge` (src/conformance/merge.rs:253-282) -/
def makeGraph (b : Backend S X Q QX TestMergeable TestMergeable) (node1 node2 node3 edge : Ulid) (db : S) : Test S := do
  let db ← expectDb (b.st.insertNode db node1 TestMergeable.default)
  let db ← expectDb (b.st.insertNode db node2 TestMergeable.default)
  let db ← expectDb (b.st.insertNode db node3 TestMergeable.default)
  expectDb (b.st.insertEdge db ⟨node1, edge, node2⟩ ⟨some "foo", none⟩)

/-- `test_merge_edge` (src/conformance/merge.rs:240-340) -/
def testMergeEdge (b : Backend S X Q QX TestMergeable TestMergeable) (node1 node2 node3 edge : Ulid) (makeDb : Nat → S) :
    Test Unit := do
  let graph ← makeGraph b node1 node2 node3 edge (makeDb 0)
  let expected ← makeGraph b node1 node2 node3 edge (makeDb 1)
  let expected ← expectDb (b.st.insertEdge expected ⟨node1, edge, node2⟩ ⟨some "foo", some "bar"⟩)
  let expected ← expectDb (b.st.insertEdge expected ⟨node2, edge, node3⟩ ⟨some "baz", some "baz"⟩)
  let graph ← expectDb (b.st.mergeEdge graph ⟨node1, edge, node2⟩ ⟨none, some "bar"⟩)
  let graph ← expectDb (b.st.mergeEdge graph ⟨node2, edge, node3⟩ ⟨some "baz", some "baz"⟩)
  assertTryEq b graph expected

/-! ## src/conformance/set.rs

Only the in-memory store has set operations. -/

/-- `Config` (src/conformance/set.rs:5-20): the ids of the six nodes and of the three predicates, and the properties. -/
structure SConfig (NP EP : Type) where
  l1 : Ulid × NP
  l2 : Ulid × NP
  m1 : Ulid × NP
  m2 : Ulid × NP
  r1 : Ulid × NP
  r2 : Ulid × NP
  p7 : Ulid
  p8 : Ulid
  p9 : Ulid
  gp : EP
  hp : EP
  ip : EP
  jp : EP
  kp : EP
  lp : EP
  mp : EP

namespace SConfig

variable (c : SConfig NP EP)

def eL1L2 : Triple Ulid × EP := (⟨c.l1.1, c.p7, c.l2.1⟩, c.gp)
def eM1M2 : Triple Ulid × EP := (⟨c.m1.1, c.p7, c.m2.1⟩, c.hp)
def eR1R2 : Triple Ulid × EP := (⟨c.r1.1, c.p7, c.r2.1⟩, c.ip)
def eR2M2 : Triple Ulid × EP := (⟨c.r2.1, c.p8, c.m2.1⟩, c.jp)
def eM2L2 : Triple Ulid × EP := (⟨c.m2.1, c.p8, c.l2.1⟩, c.kp)
def eL1M1 : Triple Ulid × EP := (⟨c.l1.1, c.p9, c.m1.1⟩, c.lp)
def eM1R1 : Triple Ulid × EP := (⟨c.m1.1, c.p9, c.r1.1⟩, c.mp)

end SConfig

/-- `setup_left` (src/conformance/set.rs:104-123) -/
def setupLeft (b : Backend S X Q QX NP EP) (c : SConfig NP EP) (left : S) : Test S := do
  let left ← insertNodes b left [c.l1, c.l2, c.m1, c.m2]
  insertEdges b left [c.eL1L2, c.eL1M1, c.eM1M2, c.eM2L2]

/-- `setup_right` (src/conformance/set.rs:125-144) -/
def setupRight (b : Backend S X Q QX NP EP) (c : SConfig NP EP) (right : S) : Test S := do
  let right ← insertNodes b right [c.r1, c.r2, c.m1, c.m2]
  insertEdges b right [c.eR1R2, c.eM1R1, c.eM1M2, c.eR2M2]

section
variable [DecidableEq NP] [DecidableEq EP] (b : Backend (Mem Ulid NP EP) Unit (Mem Ulid NP EP) Unit NP EP) (c : SConfig NP EP) (g : Gen Ulid)
  (left right : Mem Ulid NP EP)

/-- the common part of the tests of src/conformance/set.rs -/
def testSet (op : Mem Ulid NP EP → Gen Ulid → Source Unit Ulid NP EP → Except (SetErr Unit Unit Unit) (Mem Ulid NP EP))
    (nodes : List (Ulid × NP)) (edges : List (Triple Ulid × EP)) : Test Unit := do
  let left ← setupLeft b c left
  let right ← setupRight b c right
  let result ← expect (op left g (b.st.intoIterNodes right .SPO))
  let src := b.st.intoIterNodes result .SPO
  let resultNodes ← expectAll src.nodes
  assert (resultNodes = nodes)
  let resultEdges ← expectAll src.edges
  assert (resultEdges = edges)

/-- `test_union` (src/conformance/set.rs:146-179) -/
def testUnion : Test Unit :=
  testSet b c g left right Mem.union [c.l1, c.l2, c.m1, c.m2, c.r1, c.r2]
    [c.eL1L2, c.eL1M1, c.eM1M2, c.eM1R1, c.eM2L2, c.eR1R2, c.eR2M2]

/-- `test_intersection` (src/conformance/set.rs:181-205) -/
def testIntersection : Test Unit := testSet b c g left right Mem.intersection [c.m1, c.m2] [c.eM1M2]

/-- `test_difference` (src/conformance/set.rs:207-231) -/
def testDifference : Test Unit := testSet b c g left right Mem.difference [c.l1, c.l2] [c.eL1L2]

end

/-! ## src/rdf.rs, `mod test` -/

/-- `test_new` (src/rdf.rs:158-209): the names, the ULID and the properties are arguments -/
def testNew {I IX SX : Type} [DecidableEq NP] [DecidableEq EP] (ix : BidirIndex I IX String Ulid) (st : StoreImpl S SX Ulid NP EP)
    (foo bar knows : String) (node3 : Ulid) (p1 p2 p3 : NP) (q1 q2 : EP) (graph : Rdf I S) : Test Unit := do
  let graph ← expectDb (graph.insertNode ix st (.string foo) p1)
  let graph ← expectDb (graph.insertNode ix st (.string bar) p2)
  let graph ← expectDb (graph.insertNode ix st (.ulid node3) p3)
  let graph ← expectDb (graph.insertEdge ix st ⟨.string foo, .string knows, .string bar⟩ q1)
  let graph ← expectDb (graph.insertEdge ix st ⟨.string bar, .string knows, .ulid node3⟩ q2)
  let edges ← expectAll (graph.iterEdgesWithProps ix st .SPO)
  assertSameSet edges [⟨(.string foo, p1), (.string knows, q1), (.string bar, p2)⟩,
    ⟨(.string bar, p2), (.string knows, q2), (.ulid node3, p3)⟩]

end Verif.Conformance
