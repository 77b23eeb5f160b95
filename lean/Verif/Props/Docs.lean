import Verif.Proof.Docs
import Verif.Props.Conformance
import Verif.Props.Bincode

/-! # C70 the examples of the documentation -/

namespace Verif.Props

open Verif Spec Conformance Docs

/-- On any back-end that obeys the law, from an empty store: the examples of src/mem.rs, src/sled.rs and README.md hold, for all
properties and all ids of which the three nodes increase. -/
theorem C70_lawful {S X Q QX NP EP : Type} [DecidableEq NP] [DecidableEq EP] {b : Backend S X Q QX NP EP} {mN : NP → NP → NP}
    {mE : EP → EP → EP} {bad : X} {qbad : QX} {Ok : Nat → Nat → S → Graph Ulid NP EP → Prop} {QOk : Nat → Q → Graph Ulid NP EP → Prop}
    (law : Law b mN mE bad qbad Ok QOk) {v : Values NP EP} (hv : v.Increasing) {n m : Nat} {s : S} (h : Ok (n + 2) m s Graph.empty)
    {g1 g2 : Gen Ulid} (h1 : Fresh 2 g1) (h2 : Fresh 2 g2) :
    exampleIter b v s = some () ∧ exampleQuery b v g1 g2 s = some () :=
  ⟨example_iter law hv h, example_query law hv h h1 h2⟩

section
variable {NP EP : Type} [DecidableEq NP] [DecidableEq EP]

theorem C70_mem (mN : NP → NP → NP) (mE : EP → EP → EP) {v : Values NP EP} (hv : v.Increasing) {g g1 g2 : Gen Ulid}
    (h : Fresh 2 g) (h1 : Fresh 2 g1) (h2 : Fresh 2 g2) :
    exampleIter (mem mN mE) v (Mem.new g) = some () ∧ exampleQuery (mem mN mE) v g1 g2 (Mem.new g) = some () :=
  C70_lawful (mem_law mN mE) hv (n := 0) (m := 0) (Mem.ok_new h) h1 h2

theorem C70_sled (mN : NP → NP → NP) (mE : EP → EP → EP) {c : Codecs NP EP} (hc : c.RoundTrip) (ht : c.Total) {v : Values NP EP}
    (hv : v.Increasing) {g u g1 g2 : Gen Ulid} (h : FreshIds 2 0 g u) (h1 : Fresh 2 g1) (h2 : Fresh 2 g2) :
    exampleIter (sled c mN mE) v (SledStore.new Db.empty g u) = some () ∧
    exampleQuery (sled c mN mE) v g1 g2 (SledStore.new Db.empty g u) = some () :=
  C70_lawful (sled_law mN mE hc ht) hv (n := 0) (m := 0) (SledStore.ok_new c h (fun _ _ h => h) (fun _ _ h => h)) h1 h2

end

open Classical in
/-- In the format that the crate uses, with the types of the example: `String` for nodes and `Vec<i32>` for edges. -/
theorem C70_bincode (mN : Bincode.Shape.string.Rust → _ → _) (mE : (Bincode.Shape.seq (.uint 4)).Rust → _ → _)
    {v : Values Bincode.Shape.string.Rust (Bincode.Shape.seq (.uint 4)).Rust} (hv : v.Increasing) {g u g1 g2 : Gen Ulid}
    (h : FreshIds 2 0 g u) (h1 : Fresh 2 g1) (h2 : Fresh 2 g2) :
    exampleIter (sled ⟨Bincode.Shape.string.rust, (Bincode.Shape.seq (.uint 4)).rust⟩ mN mE) v (SledStore.new Db.empty g u) = some () ∧
    exampleQuery (sled ⟨Bincode.Shape.string.rust, (Bincode.Shape.seq (.uint 4)).rust⟩ mN mE) v g1 g2
      (SledStore.new Db.empty g u) = some () :=
  C70_sled mN mE (C69_codecs _ _).2.1 (C69_codecs _ _).2.2.1 hv h h1 h2

open Classical in
/-- So do the conformance tests whose properties are strings. -/
theorem C70_conformance (mN mE : Bincode.Shape.string.Rust → Bincode.Shape.string.Rust → Bincode.Shape.string.Rust)
    {gens ulids : Nat → Gen Ulid} (hg : ∀ k, FreshIds 5 1 (gens k) (ulids k)) {g : Gen Ulid} (h : Fresh 5 g) :
    Passed (sled ⟨Bincode.Shape.string.rust, Bincode.Shape.string.rust⟩ mN mE)
      (fun k => SledStore.new Db.empty (gens k) (ulids k)) g :=
  C64_sled mN mE (C69_codecs _ _).2.1 (C69_codecs _ _).2.2.1 hg h

/-- The examples of `query!` hold for any six ids, even if some are equal: each compiles, to a query of the kind and with the
elements written beside it. -/
theorem C70_macro {Id : Type} [DecidableEq Id] (a b c d e f : Id) :
    ∀ x ∈ macroExamples a b c d e f, ∃ q, x.1.expand = some q ∧ sameQuery q x.2 = true ∧ SameQuery q x.2 := by
  intro x hx
  simp only [sameQuery_iff, and_self]
  simp only [macroExamples, List.mem_cons, List.not_mem_nil, or_false] at hx
  rcases hx with rfl | rfl | rfl | rfl | rfl | rfl | rfl | rfl <;> refine ⟨_, rfl, ?_⟩ <;> constructor
  · exact fun x => Iff.rfl
  · exact fun x => Iff.rfl
  · exact fun x => Iff.rfl
  · rintro ⟨x, y⟩
    rw [QueryPat.mem_pairs, HSet.mem_collect]
    simp only [List.mem_cons, List.not_mem_nil, or_false, Prod.mk.injEq]
    grind
  · rintro ⟨x, y⟩
    rw [QueryPat.mem_pairs, HSet.mem_collect]
    simp only [List.mem_cons, List.not_mem_nil, or_false, Prod.mk.injEq]
    grind
  · exact fun x => Iff.rfl
  · rintro ⟨x, y⟩
    rw [QueryPat.mem_pairs, HSet.mem_collect]
    simp only [List.mem_cons, List.not_mem_nil, or_false, Prod.mk.injEq]
    grind
  · rintro ⟨x, y, z⟩
    rw [QueryPat.mem_triples, HSet.mem_collect]
    simp only [List.mem_cons, List.not_mem_nil, or_false, Prod.mk.injEq]
    grind

/-! ## examples: the values of the documentation -/

namespace DocsSample

def values : Values String (List Nat) where
  node1 := 123; node2 := 456; node3 := 789; edge := 999; foo := "foo"; bar := "bar"; baz := "baz"; p123 := [1, 2, 3]; p456 := [4, 5, 6]

theorem values_increasing : values.Increasing := ⟨by decide, by decide⟩

open ConformanceSample in
example : exampleIter (mem (fun _ x => x) fun _ x => x) values (Mem.new gen) = some () ∧
    exampleQuery (mem (fun _ x => x) fun _ x => x) values gen gen (Mem.new gen) = some () :=
  C70_mem _ _ values_increasing (gen_fresh _ (by decide)) (gen_fresh _ (by decide)) (gen_fresh _ (by decide))

open ConformanceSample in
/-- the assertions are about something: with the nodes in another order the first fails -/
example : exampleIter (mem (fun _ x => x) fun _ x => x) { values with node1 := 500 } (Mem.new gen) = none ∧
    exampleQuery (mem (fun _ x => x) fun _ x => x) values gen gen (Mem.new fun _ => 5) = none := by
  refine ⟨by decide +kernel, by decide +kernel⟩

/-- `Vec::from([a, b, c])` of `i32` -/
def vec (a b c : Fin (256 ^ 4)) : (Bincode.Shape.seq (.uint 4)).Rust :=
  ⟨([a, b, c] : List (Fin (256 ^ 4))), (by decide : 3 < 2 ^ 64), fun _ _ => trivial⟩

def typed : Values Bincode.Shape.string.Rust (Bincode.Shape.seq (.uint 4)).Rust where
  node1 := 123; node2 := 456; node3 := 789; edge := 999
  foo := ⟨"foo", by show String.utf8ByteSize _ < _; decide +kernel⟩
  bar := ⟨"bar", by show String.utf8ByteSize _ < _; decide +kernel⟩
  baz := ⟨"baz", by show String.utf8ByteSize _ < _; decide +kernel⟩
  p123 := vec 1 2 3
  p456 := vec 4 5 6

open Classical ConformanceSample in
example : exampleQuery (sled ⟨Bincode.Shape.string.rust, (Bincode.Shape.seq (.uint 4)).rust⟩ (fun _ x => x) fun _ x => x) typed
    gen gen (SledStore.new Db.empty gen ulids) = some () :=
  (C70_bincode _ _ ⟨by decide, by decide⟩ (gen_ulids _ _ (by decide) (by decide)) (gen_fresh _ (by decide)) (gen_fresh _ (by decide))).2

/-- with the ids of the documentation, and with equal ones -/
example : (macroExamples 1 2 3 4 5 6).length = 8 ∧ SameQuery (.SP [(1, 3), (2, 3), (1, 4), (2, 4)]) (.SP [(1, 3), (1, 4), (2, 3), (2, 4)]) ∧
    ¬ SameQuery (.S [1, 2]) (.O [1, 2]) ∧
    sameQuery (.PO (QueryPat.pairs [1, 1] [1, 2])) (.PO (HSet.collect [(1, 1), (1, 2), (1, 1), (1, 2)])) = true := by
  refine ⟨rfl, (sameQuery_iff _ _).1 (by decide), (fun h => nomatch h), by decide⟩

end DocsSample

end Verif.Props
