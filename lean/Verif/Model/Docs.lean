import Verif.Model.Conformance

/-!
# The examples of the documentation  (src/lib.rs:161-309, src/mem.rs:19-110, src/sled.rs:39-135, README.md)

The examples on the two stores are the same program; as in `Model/Conformance.lean` the ids and properties are arguments, and `some ()`
means that no assertion of the example fails.

Simplifications: `UlidIdGenerator::new()` is a stream of ids; the `HashSet`s of the examples of `query!` are the lists of their elements.
-/

namespace Verif.Docs

open Conformance

/-- The ids and properties of src/mem.rs:28-40 and src/sled.rs:51-63. -/
structure Values (NP EP : Type) where
  node1 : Ulid
  node2 : Ulid
  node3 : Ulid
  edge : Ulid
  foo : NP
  bar : NP
  baz : NP
  p123 : EP
  p456 : EP

section
variable {S X Q QX NP EP : Type}

/-- src/mem.rs:36-40, again 82-86; src/sled.rs:59-63, again 107-111 -/
def build (b : Backend S X Q QX NP EP) (v : Values NP EP) (db : S) : Test S := do
  let db ← expectDb (b.st.insertNode db v.node1 v.foo)
  let db ← expectDb (b.st.insertNode db v.node2 v.bar)
  let db ← expectDb (b.st.insertNode db v.node3 v.baz)
  let db ← expectDb (b.st.insertEdge db ⟨v.node1, v.edge, v.node2⟩ v.p123)
  expectDb (b.st.insertEdge db ⟨v.node1, v.edge, v.node3⟩ v.p456)

/-- the first example: src/mem.rs:22-69, src/sled.rs:42-92 -/
def exampleIter [DecidableEq NP] [DecidableEq EP] (b : Backend S X Q QX NP EP) (v : Values NP EP) (db : S) : Test Unit := do
  let db ← build b v db
  let vertices ← expectAll (b.st.iterVertices db)
  assert (vertices = [(v.node1, v.foo), (v.node2, v.bar), (v.node3, v.baz)])
  let edges ← expectAll (b.st.iterEdgesWithProps db .SPO)
  assert (edges = [⟨(v.node1, v.foo), (v.edge, v.p123), (v.node2, v.bar)⟩, ⟨(v.node1, v.foo), (v.edge, v.p456), (v.node3, v.baz)⟩])

/-- the second example: src/mem.rs:72-110, src/sled.rs:95-135; also README.md.  `g1`, `g2` are the generators of the results. -/
def exampleQuery [DecidableEq EP] (b : Backend S X Q QX NP EP) (v : Values NP EP) (g1 g2 : Gen Ulid) (db : S) : Test Unit := do
  let db ← build b v db
  let q ← QueryPat.expand (.edge .any .any (.ids [v.node3]))
  let res ← expect (b.run db g1 q)
  let edges ← expectAll (b.q.iterEdges res .SPO)
  assert (edges = [(⟨v.node1, v.edge, v.node3⟩, v.p456)])
  let q ← QueryPat.expand (.edge .any (.ids [v.edge]) .any)
  let res ← expect (b.run db g2 q)
  let edges ← expectAll (b.q.iterEdges res .SPO)
  assert (edges = [(⟨v.node1, v.edge, v.node2⟩, v.p123), (⟨v.node1, v.edge, v.node3⟩, v.p456)])

end

/-- `assert_eq!` of two queries: `#[derive(PartialEq)]` (src/lib.rs:70), that is, the same variant and the same set -/
def sameQuery {Id : Type} [DecidableEq Id] : Query Id → Query Id → Bool
  | .NodeProps a, .NodeProps b => decide (a ⊆ b ∧ b ⊆ a)
  | .SPO a, .SPO b => decide (a ⊆ b ∧ b ⊆ a)
  | .O a, .O b => decide (a ⊆ b ∧ b ⊆ a)
  | .S a, .S b => decide (a ⊆ b ∧ b ⊆ a)
  | .P a, .P b => decide (a ⊆ b ∧ b ⊆ a)
  | .PO a, .PO b => decide (a ⊆ b ∧ b ⊆ a)
  | .SO a, .SO b => decide (a ⊆ b ∧ b ⊆ a)
  | .SP a, .SP b => decide (a ⊆ b ∧ b ⊆ a)
  | _, _ => false

/-- the examples of `query!` (src/lib.rs:163-309): the pattern, and the query written beside it -/
def macroExamples {Id : Type} [DecidableEq Id] (a b c d e f : Id) : List (QueryPat Id × Query Id) :=
  [(.nodeProps (.ids [a, b]), .NodeProps (HSet.collect [a, b])),
    (.edge (.ids [a, b]) .any .any, .S (HSet.collect [a, b])),
    (.edge .any (.ids [b, c]) .any, .P (HSet.collect [b, c])),
    (.edge .any (.ids [a, b]) (.ids [c, d]), .PO (HSet.collect [(a, c), (a, d), (b, c), (b, d)])),
    (.edge (.ids [a, b]) .any (.ids [c, d]), .SO (HSet.collect [(a, c), (a, d), (b, c), (b, d)])),
    (.edge .any .any (.ids [a, b]), .O (HSet.collect [a, b])),
    (.edge (.ids [a, b]) (.ids [c, d]) .any, .SP (HSet.collect [(a, c), (a, d), (b, c), (b, d)])),
    (.edge (.ids [a, b]) (.ids [c, d]) (.ids [e, f]), .SPO (HSet.collect
      [(a, c, e), (a, c, f), (a, d, e), (a, d, f), (b, c, e), (b, c, f), (b, d, e), (b, d, f)]))]

end Verif.Docs
