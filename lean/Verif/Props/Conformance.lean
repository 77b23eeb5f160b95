import Verif.Proof.ConformanceLaw
import Verif.Props.UlidGen
import Verif.Props.Rdf
import Verif.Props.Sample
import Mathlib.Logic.Equiv.List

/-!
# C64 The conformance tests of the crate pass

on every back-end that obeys the laws proved of the two there are, whatever the properties are and however the ids are chosen, as
long as they are ordered as in the tests.
-/

namespace Verif.Props

open Verif Spec Conformance

/-- What it means for the steps of a test to pass: `expect` of a call that it returned `Ok`, an assertion that it holds, a comparison of
sets that they have the same elements. -/
theorem C64_meaning {S X α : Type} [DecidableEq α] (r : S × Except X α) (l : List (Except X α)) (xs ys : List α) (p : Prop)
    [Decidable p] :
    (∀ s, expectDb r = some s ↔ (∃ a, r.2 = .ok a) ∧ s = r.1) ∧ (∀ as, expectAll l = some as ↔ l = as.map .ok) ∧
    (Conformance.assert p = some () ↔ p) ∧ (assertSameSet xs ys = some () ↔ ∀ x, x ∈ xs ↔ x ∈ ys) := by
  refine ⟨fun s => ?_, fun as => ?_, ?_, ?_⟩
  · obtain ⟨s', x⟩ := r
    cases x <;> simp [expectDb, eq_comm]
  · unfold expectAll
    induction l generalizing as with
    | nil => cases as <;> simp
    | cons x l ih =>
      cases x with
      | error e => cases as <;> simp [expect]
      | ok a =>
        cases as with
        | nil => simp [expect, Option.bind_eq_some_iff]
        | cons b as =>
          simp only [List.mapM_cons, expect, Option.bind_eq_bind, Option.bind_some, Option.pure_def, Option.bind_eq_some_iff,
            Option.some.injEq, List.cons.injEq, List.map_cons, Except.ok.injEq, ih]
          constructor
          · rintro ⟨c, h, rfl, rfl⟩; exact ⟨rfl, h⟩
          · rintro ⟨rfl, h⟩; exact ⟨as, h, rfl, rfl⟩
  · simp [Conformance.assert]
  · simp only [assertSameSet, Conformance.assert, ite_eq_left_iff, reduceCtorEq, imp_false, not_not]
    exact ⟨fun h x => ⟨h.1 x, h.2 x⟩, fun h => ⟨fun x => (h x).1, fun x => (h x).2⟩⟩

section
variable {S X Q QX NP EP : Type} {mN : NP → NP → NP} {mE : EP → EP → EP} {bad : X} {qbad : QX}

/-- Any back-end obeying the law passes the tests, starting from empty stores. -/
theorem C64_lawful [DecidableEq NP] [DecidableEq EP] {b : Backend S X Q QX NP EP} {Ok : Nat → Nat → S → Graph Ulid NP EP → Prop}
    {QOk : Nat → Q → Graph Ulid NP EP → Prop} (law : Law b mN mE bad qbad Ok QOk) {db : Nat → S}
    (h : ∀ k, Ok 5 1 (db k) Graph.empty) {g : Gen Ulid} (hg : Fresh 5 g) : Passed b db g where
  insertNode _ hc := insert_node law hc (h 0)
  insertEdge _ hc := insert_edge law hc (n := 1) (h 0)
  removeNode _ hc := remove_node law hc (n := 2) (h 0)
  removeEdge _ hc := remove_edge law hc (n := 2) (h 0)
  extend _ hc := Conformance.extend law hc (n := 3) (m := 0) (n' := 4) (h 0) (h 1)
  iter _ hc o := iter_full law hc o (n := 2) (h 0)
  iterEdge _ hc o := iter_edge law hc o (n := 2) (h 0)
  iterNode _ hc := iter_node law hc (n := 2) (h 0)
  intoIter _ hc o := into_iter_full law hc o (n := 2) (h 0)
  intoIterEdge _ hc o := into_iter_edge law hc o (n := 2) (h 0)
  intoIterNode _ hc := into_iter_node law hc (n := 2) (h 0)
  queryNodeProps _ hc := query_node_props law hc hg (n := 0) (h 0)
  queryEdgeProps _ hc := (queries law hc hg (n := 0) (h 0)).1
  queryS _ hc := (queries law hc hg (n := 0) (h 0)).2.1
  querySP _ hc := (queries law hc hg (n := 0) (h 0)).2.2.1
  queryP _ hc := (queries law hc hg (n := 0) (h 0)).2.2.2.1
  queryPO _ hc := (queries law hc hg (n := 0) (h 0)).2.2.2.2.1
  queryO _ hc := (queries law hc hg (n := 0) (h 0)).2.2.2.2.2.1
  queryOS _ hc := (queries law hc hg (n := 0) (h 0)).2.2.2.2.2.2

theorem C64_lawful_merge {b : Backend S X Q QX TestMergeable TestMergeable}
    {Ok : Nat → Nat → S → Graph Ulid TestMergeable TestMergeable → Prop}
    {QOk : Nat → Q → Graph Ulid TestMergeable TestMergeable → Prop}
    (law : Law b TestMergeable.merge TestMergeable.merge bad qbad Ok QOk) {db : Nat → S}
    (h : ∀ k, Ok 6 0 (db k) Graph.empty) : PassedMerge b db where
  merge _ hc := merge_test law hc (n := 0) h
  mergeNode _ hc hp := merge_node_test law hc hp (n := 3) h
  mergeEdge _ _ _ _ hn := merge_edge_test law hn (n := 3) h

end

section
variable {NP EP : Type} [DecidableEq NP] [DecidableEq EP]

/-- The in-memory store passes. -/
theorem C64_mem (mN : NP → NP → NP) (mE : EP → EP → EP) {gens : Nat → Gen Ulid} (hg : ∀ k, Fresh 5 (gens k)) {g : Gen Ulid}
    (h : Fresh 5 g) : Passed (mem mN mE) (fun k => Mem.new (gens k)) g :=
  C64_lawful (mem_law mN mE) (fun k => Mem.ok_new (hg k)) h

/-- The sled store passes, with any serialization that loses nothing and always succeeds. -/
theorem C64_sled (mN : NP → NP → NP) (mE : EP → EP → EP) {c : Codecs NP EP} (hc : c.RoundTrip) (ht : c.Total)
    {gens ulids : Nat → Gen Ulid} (hg : ∀ k, FreshIds 5 1 (gens k) (ulids k)) {g : Gen Ulid} (h : Fresh 5 g) :
    Passed (sled c mN mE) (fun k => SledStore.new Db.empty (gens k) (ulids k)) g :=
  C64_lawful (sled_law mN mE hc ht)
    (fun k => SledStore.ok_new c (hg k) (fun _ _ h => h) (fun _ _ h => h)) h

/-- The set operations, which only the in-memory store has, pass theirs. -/
theorem C64_set (mN : NP → NP → NP) (mE : EP → EP → EP) {gl gr g : Gen Ulid} (hl : Fresh 4 gl) (hr : Fresh 4 gr)
    (hg : Fresh 8 g) : PassedSet (NP := NP) (EP := EP) (mem mN mE) (Mem.new gl) (Mem.new gr) g where
  union _ hc := union_test hc (Mem.ok_new hl) (Mem.ok_new hr) hg
  intersection _ hc := intersection_test hc (Mem.ok_new hl) (Mem.ok_new hr) (fresh_mono hg (by decide))
  difference _ hc := difference_test hc (Mem.ok_new hl) (Mem.ok_new hr) (fresh_mono hg (by decide))

end

theorem C64_mem_merge {gens : Nat → Gen Ulid} (hg : ∀ k, Fresh 6 (gens k)) :
    PassedMerge (mem TestMergeable.merge TestMergeable.merge) (fun k => Mem.new (gens k)) :=
  C64_lawful_merge (mem_law _ _) (fun k => Mem.ok_new (hg k))

theorem C64_sled_merge {c : Codecs TestMergeable TestMergeable} (hc : c.RoundTrip) (ht : c.Total) {gens ulids : Nat → Gen Ulid}
    (hg : ∀ k, FreshIds 6 0 (gens k) (ulids k)) :
    PassedMerge (sled c TestMergeable.merge TestMergeable.merge) (fun k => SledStore.new Db.empty (gens k) (ulids k)) :=
  C64_lawful_merge (sled_law _ _ hc ht) (fun k => SledStore.ok_new c (hg k) (fun _ _ h => h) (fun _ _ h => h))

/-- The test of src/rdf.rs passes on every index and every store that keep their contracts, with any two different names. -/
theorem C64_rdf {I IX S SX NP EP : Type} [DecidableEq NP] [DecidableEq EP] {ix : BidirIndex I IX String Ulid} (hix : ix.Lawful)
    {i0 : I} (h0 : ix.Shows i0 (fun _ => none)) {st : StoreImpl S SX Ulid NP EP} {bad : SX} {mN : NP → NP → NP} {mE : EP → EP → EP}
    {Ok : Nat → S → Graph Ulid NP EP → Prop} (law : StoreLaw st (fun _ => true) (fun _ => true) bad mN mE Ok) {s0 : S}
    (hs : Ok 2 s0 Graph.empty) {foo bar knows : String} (hne : foo ≠ bar) (node3 : Ulid) (p1 p2 p3 : NP) (q1 q2 : EP) {u : Gen Ulid}
    (hu : Fresh 9 u) (h3 : ∀ j < 9, u j ≠ node3) :
    testNew ix st foo bar knows node3 p1 p2 p3 q1 q2 (Rdf.new i0 s0 u) = some () := by
  have key := C39_graph (E := Unit) hix h0 law u [.insertNode (.string foo) p1, .insertNode (.string bar) p2, .insertNode (.ulid node3) p3,
    .insertEdge ⟨.string foo, .string knows, .string bar⟩ q1, .insertEdge ⟨.string bar, .string knows, .ulid node3⟩ q2] hs hu
    (fun v hv => by
      have : v = node3 := by
        simpa [explicitUlids, Op.entities, RdfState.parts, ulids] using hv
      rw [this]; exact h3)
  simp only [Rdf.callAll, Rdf.call, RdfState.stepAll, RdfState.step, RdfState.change, storeNode, storeEdge, if_true, List.map_cons,
    List.map_nil, RdfOutcome.result, List.cons.injEq, and_true] at key
  obtain ⟨⟨e1, e2, e3, e4, e5⟩, hshow, -⟩ := key
  have tag_ok : ∀ {X : Type} {r : Except X Unit}, Rdf.tag (E := Unit) r = .ok () → r = .ok () := by
    intro X r h
    cases r with
    | ok v => rfl
    | error e => cases h
  unfold testNew
  refine Passes.done (P := fun _ => True) ?_
  refine Passes.bind (P := (· = _)) ⟨_, expectDb_ok (tag_ok e1), rfl⟩ fun _ e => ?_
  subst e
  refine Passes.bind (P := (· = _)) ⟨_, expectDb_ok (tag_ok e2), rfl⟩ fun _ e => ?_
  subst e
  refine Passes.bind (P := (· = _)) ⟨_, expectDb_ok (tag_ok e3), rfl⟩ fun _ e => ?_
  subst e
  refine Passes.bind (P := (· = _)) ⟨_, expectDb_ok (tag_ok e4), rfl⟩ fun _ e => ?_
  subst e
  refine Passes.bind (P := (· = _)) ⟨_, expectDb_ok (tag_ok e5), rfl⟩ fun _ e => ?_
  subst e
  have hp := hshow.props .SPO
  simp only [RdfState.learn, RdfState.empty, Graph.insertEdge, Graph.insertNode, Graph.empty] at hp
  have hne' : (Entity.string foo) ≠ .string bar := fun h => hne (Entity.string.inj h)
  have hn1 : (Entity.string foo) ≠ .ulid node3 := fun h => nomatch h
  have hn2 : (Entity.string bar) ≠ .ulid node3 := fun h => nomatch h
  generalize Entity.string foo = a1 at *
  generalize Entity.string bar = a2 at *
  generalize Entity.ulid node3 = a3 at *
  generalize Entity.string knows = k at *
  obtain ⟨l, e⟩ := ok_list (hp.noError (by
    clear hp hshow e1 e2 e3 e4 e5
    rintro ⟨a, b, d⟩ p h
    simp only [Triple.mk.injEq] at h ⊢
    grind))
  refine Passes.bind (P := (· = _)) ⟨l, (congrArg expectAll e).trans (expectAll_map l), rfl⟩ fun _ e' => ?_
  subst e'
  have hm := hp.mem
  rw [e] at hm
  simp only [List.mem_map, Except.ok.injEq, exists_eq_right] at hm
  refine passes_sameSet (fun x hx => ?_) (fun x hx => (hm x).2 ?_)
  · have := (hm x).1 hx
    obtain ⟨⟨a, p⟩, ⟨b, q⟩, ⟨d, r⟩⟩ := x
    simp only [PropsTriple.toTriple, Triple.mk.injEq] at this
    simp only [List.mem_cons, List.not_mem_nil, or_false, PropsTriple.mk.injEq, Prod.mk.injEq]
    clear hx hm hp e hshow e1 e2 e3 e4 e5 tag_ok law hs
    obtain ⟨t1, t2, t3⟩ := this
    split at t2
    · next hh =>
      obtain ⟨rfl, rfl, rfl⟩ := hh
      grind
    · split at t2
      · next hh =>
        obtain ⟨rfl, rfl, rfl⟩ := hh
        grind
      · cases t2
  · simp only [List.mem_cons, List.not_mem_nil, or_false] at hx
    clear hm hp e hshow e1 e2 e3 e4 e5 tag_ok law hs
    rcases hx with rfl | rfl <;> simp only [PropsTriple.toTriple, Triple.mk.injEq] <;> grind

/-! ## the ids of `Config::default()` -/

section
variable {NP EP : Type} {env : Nat → UlidGen.Reading × UlidGen.Reading}

/-- The ids that a ULID generator makes in the order of src/conformance/iter.rs:23-52 are ordered as the tests need, unless its random
bits overflow. -/
theorem C64_iter_ids (h : ∀ k < 7, ¬ UlidGen.Overflows env k) {c : Config NP EP} (h0 : c.node1 = UlidGen.ids env 0)
    (h1 : c.node4 = UlidGen.ids env 1) (h2 : c.node2 = UlidGen.ids env 2) (h3 : c.node3 = UlidGen.ids env 3)
    (h4 : c.edge1 = UlidGen.ids env 4) (h5 : c.edge3 = UlidGen.ids env 5) (h6 : c.edge2 = UlidGen.ids env 6) : c.ForIter where
  n14 := by rw [h0, h1]; exact UlidGen.increasing (h 0 (by decide)) (h 1 (by decide)) (by decide)
  n42 := by rw [h1, h2]; exact UlidGen.increasing (h 1 (by decide)) (h 2 (by decide)) (by decide)
  n23 := by rw [h2, h3]; exact UlidGen.increasing (h 2 (by decide)) (h 3 (by decide)) (by decide)
  e13 := by rw [h4, h5]; exact UlidGen.increasing (h 4 (by decide)) (h 5 (by decide)) (by decide)
  e32 := by rw [h5, h6]; exact UlidGen.increasing (h 5 (by decide)) (h 6 (by decide)) (by decide)

/-- Those of src/conformance/query.rs:30-64 and merge.rs:26-47 are distinct. -/
theorem C64_query_ids (h : ∀ k < 7, ¬ UlidGen.Overflows env k) {c : QConfig NP EP} (h0 : c.node0 = UlidGen.ids env 0)
    (h1 : c.node1 = UlidGen.ids env 1) (h2 : c.node4 = UlidGen.ids env 2) (h3 : c.node2 = UlidGen.ids env 3)
    (h4 : c.node3 = UlidGen.ids env 4) (h5 : c.edge1 = UlidGen.ids env 5) (h6 : c.edge2 = UlidGen.ids env 6) : c.Distinct := by
  have hf : ∀ i < 7, ∀ j < 7, i ≠ j → UlidGen.ids env i ≠ UlidGen.ids env j :=
    fun i hi j hj hne e => hne (UlidGen.fresh_ids h i hi j hj e)
  constructor
  · rw [h0, h1, h2, h3, h4]
    simp only [List.nodup_cons, List.mem_cons, List.not_mem_nil, or_false, not_or, not_false_eq_true, List.nodup_nil, and_true]
    refine ⟨⟨?_, ?_, ?_, ?_⟩, ⟨?_, ?_, ?_⟩, ⟨?_, ?_⟩, ?_⟩ <;> exact hf _ (by decide) _ (by decide) (by decide)
  · rw [h5, h6]; exact hf _ (by decide) _ (by decide) (by decide)

theorem C64_merge_ids (h : ∀ k < 7, ¬ UlidGen.Overflows env k) {c : MConfig NP EP} (h0 : c.node1 = UlidGen.ids env 0)
    (h1 : c.node2 = UlidGen.ids env 1) (h2 : c.node3 = UlidGen.ids env 2) (h3 : c.node4 = UlidGen.ids env 3)
    (h4 : c.edge1 = UlidGen.ids env 4) (h5 : c.edge2 = UlidGen.ids env 5) : c.Distinct := by
  have hf : ∀ i < 7, ∀ j < 7, i ≠ j → UlidGen.ids env i ≠ UlidGen.ids env j :=
    fun i hi j hj hne e => hne (UlidGen.fresh_ids h i hi j hj e)
  constructor
  · rw [h0, h1, h2, h3]
    simp only [List.nodup_cons, List.mem_cons, List.not_mem_nil, or_false, not_or, not_false_eq_true, List.nodup_nil, and_true]
    refine ⟨⟨?_, ?_, ?_⟩, ⟨?_, ?_⟩, ?_⟩ <;> exact hf _ (by decide) _ (by decide) (by decide)
  · rw [h4, h5]; exact hf _ (by decide) _ (by decide) (by decide)

end

/-! ## examples: the tests with the values they have in the crate -/

namespace ConformanceSample

/-- `Config::default()` of src/conformance/insert.rs:24-55; that of src/conformance/remove.rs:22-49 has the same -/
def config : Config String String where
  node1 := 1; node2 := 2; node3 := 3; node4 := 4; edge1 := 10; edge2 := 11; edge3 := 12
  nodeData1 := "foo"; nodeData2 := "bar"; nodeData3 := "baz"; nodeData4 := "quz"; nodeData5 := "quz2"
  edgeData1 := "-1->"; edgeData2 := "-2->"; edgeData3 := "-3->"; edgeData4 := "-4->"

/-- `Config::default()` of src/conformance/set.rs:22-102 -/
def setConfig : SConfig String String where
  l1 := (1, "a"); l2 := (2, "b"); m1 := (3, "c"); m2 := (4, "d"); r1 := (5, "e"); r2 := (6, "f"); p7 := 7; p8 := 8; p9 := 9
  gp := "g"; hp := "h"; ip := "i"; jp := "j"; kp := "k"; lp := "l"; mp := "m"

/-- ids 100, 101, .. -/
def gen : Gen Ulid := fun k => Fin.ofNat _ (100 + k)

theorem gen_fresh (n : Nat) (h : n ≤ 1000) : Fresh n gen := by
  intro i hi j hj e
  have := congrArg Fin.val e
  simp only [gen, Fin.ofNat, Nat.reducePow] at this
  omega

/-- keeping the first -/
def keep (a _ : String) : String := a

theorem config_increasing : config.Increasing := ⟨by decide, by decide, by decide⟩

theorem setConfig_increasing : setConfig.Increasing := by constructor <;> decide

/-- strings and what is made of them can be serialized without loss -/
theorem exists_codec {α : Type} (f : α → List Nat) (hf : Function.Injective f) (d : α) :
    ∃ c : Codec α, (∀ p, (c.ser p).isSome) ∧ ∀ p b, c.ser p = some b → c.de b = some p := by
  classical
  refine ⟨⟨fun p => some (List.replicate (Encodable.encode (f p)) 0),
    fun b => if h : ∃ p, Encodable.encode (f p) = b.length then some h.choose else none⟩, fun _ => rfl, fun p b hb => ?_⟩
  cases hb
  simp only [List.length_replicate]
  have h : ∃ q, Encodable.encode (f q) = Encodable.encode (f p) := ⟨p, rfl⟩
  rw [dif_pos h]
  exact congrArg some (hf (Encodable.encode_injective h.choose_spec))

theorem exists_codecs {α : Type} (f : α → List Nat) (hf : Function.Injective f) (d : α) :
    ∃ c : Codecs α α, c.RoundTrip ∧ c.Total := by
  obtain ⟨c, h1, h2⟩ := exists_codec f hf d
  exact ⟨⟨c, c⟩, ⟨h2, h2⟩, h1, h1⟩

def stringCode (s : String) : List Nat := s.toList.map Char.toNat

theorem stringCode_inj : Function.Injective stringCode := by
  intro a b h
  have h := List.map_injective_iff.2 (fun a b h => Char.toNat_inj.1 h) h
  exact String.toList_inj.1 h

def optionCode : Option String → Nat
  | none => 0
  | some s => Encodable.encode (stringCode s) + 1

theorem optionCode_inj : Function.Injective optionCode := by
  intro a b h
  cases a <;> cases b <;> simp only [optionCode] at h
  · rfl
  · omega
  · omega
  · exact congrArg some (stringCode_inj (Encodable.encode_injective (by omega)))

def mergeableCode (m : TestMergeable) : List Nat := [optionCode m.a, optionCode m.b]

theorem mergeableCode_inj : Function.Injective mergeableCode := by
  rintro ⟨a, b⟩ ⟨a', b'⟩ h
  simp only [mergeableCode, List.cons.injEq, and_true] at h
  rw [optionCode_inj h.1, optionCode_inj h.2]

/-- ids 200, 201, .. -/
def ulids : Gen Ulid := fun k => Fin.ofNat _ (200 + k)

theorem gen_ulids (n m : Nat) (hn : n ≤ 100) (hm : m ≤ 100) : FreshIds n m gen ulids := by
  refine ⟨gen_fresh n (by omega), fun i hi j hj e => ?_, fun i hi j hj e => ?_⟩
  · have := congrArg Fin.val e
    simp only [ulids, Fin.ofNat, Nat.reducePow] at this
    omega
  · have := congrArg Fin.val (toBe_inj.1 e)
    simp only [gen, ulids, Fin.ofNat, Nat.reducePow] at this
    omega

/-- as in `Config::default()` of src/conformance/merge.rs:26-47 -/
def mergeConfig : MConfig TestMergeable TestMergeable where
  node1 := 1; node2 := 2; node3 := 3; node4 := 4; edge1 := 5; edge2 := 6; edge3 := 7
  node1Props := .default; node2Props := .default; node3Props := .default; node4Props := .default
  edge1Props := .default; edge2Props := .default; edge3Props := .default

theorem mergeConfig_distinct : mergeConfig.Distinct := ⟨by decide, by decide⟩

/-- as in `Config::default()` of src/conformance/query.rs:30-64 -/
def queryConfig : QConfig String String where
  node0 := 1; node1 := 2; node4 := 3; node2 := 4; node3 := 5; edge1 := 6; edge2 := 7
  nodeProps0 := "a"; nodeProps1 := "b"; nodeProps2 := "c"; nodeProps3 := "e"; nodeProps4 := "g"
  edge01Props := "e_a_b"; edge02Props := "e_a_c"; edgeProps1 := "e_b_c"; edgeProps2 := "e_c_g"; edgeProps3 := "e_e_g"

theorem queryConfig_distinct : queryConfig.Distinct := ⟨by decide, by decide⟩

end ConformanceSample

open ConformanceSample

example : testInsertEdge (mem keep keep) config (Mem.new gen) = some () :=
  (C64_mem keep keep (fun _ => gen_fresh 5 (by decide)) (gen_fresh 5 (by decide))).insertEdge config config_increasing

example : testDifference (mem keep keep) setConfig gen (Mem.new gen) (Mem.new gen) = some () :=
  (C64_set keep keep (gen_fresh 4 (by decide)) (gen_fresh 4 (by decide)) (gen_fresh 8 (by decide))).difference _ setConfig_increasing

/-- the ids in src/conformance/iter.rs:23-52, by a clock that stands still now and then -/
example : testIntoIter (mem keep keep) { config with
    node1 := UlidGen.ids (someClock 50) 0, node4 := UlidGen.ids (someClock 50) 1, node2 := UlidGen.ids (someClock 50) 2,
    node3 := UlidGen.ids (someClock 50) 3, edge1 := UlidGen.ids (someClock 50) 4, edge3 := UlidGen.ids (someClock 50) 5,
    edge2 := UlidGen.ids (someClock 50) 6 } .POS (Mem.new (UlidGen.ids (someClock 50))) = some () :=
  (C64_mem keep keep (fun _ => C62_distinct_partial (someClock_ok 50 (by decide)))
      (C62_distinct_partial (someClock_ok 50 (n := 5) (by decide)))).intoIter _
    (C64_iter_ids (someClock_ok 50 (by decide)) rfl rfl rfl rfl rfl rfl rfl) _

/-- the tests of the queries and of `extend` on sled stores -/
example : ∃ c : Codecs String String,
    testQueryOS (sled c keep keep) queryConfig gen (SledStore.new Db.empty gen ulids) = some () ∧
    testExtend (sled c keep keep) { config with node4 := 1 } (SledStore.new Db.empty gen ulids) (SledStore.new Db.empty gen ulids) =
      some () := by
  obtain ⟨c, hc, ht⟩ := exists_codecs stringCode stringCode_inj ""
  have := C64_sled keep keep hc ht (fun _ => gen_ulids 5 1 (by decide) (by decide)) (gen_fresh 5 (by decide))
  exact ⟨c, this.queryOS _ queryConfig_distinct, this.extend _ ⟨by decide, by decide, by decide, rfl⟩⟩

example : ∃ c : Codecs TestMergeable TestMergeable, testMerge (sled c TestMergeable.merge TestMergeable.merge) mergeConfig
    (fun _ => SledStore.new Db.empty gen ulids) = some () := by
  obtain ⟨c, hc, ht⟩ := exists_codecs mergeableCode mergeableCode_inj .default
  exact ⟨c, (C64_sled_merge hc ht (fun _ => gen_ulids 6 0 (by decide) (by decide))).merge _ mergeConfig_distinct⟩

/-- the test of src/rdf.rs:158-209, which makes its ids by `Ulid::new()` -/
example : testNew MemIndex.impl (Mem.impl Nat.max Nat.max) "foo" "bar" "knows" 7 1 2 3 123 456
    (Rdf.new MemIndex.new (Mem.new gen) ConformanceSample.ulids) = some () :=
  C64_rdf MemIndex.lawful MemIndex.shows_new (Mem.law _ _) (Mem.ok_new (gen_fresh 2 (by decide))) (by decide) 7 _ _ _ _ _
    (gen_ulids 0 9 (by decide) (by decide)).2.1 (fun j hj e => by
      have := congrArg Fin.val e
      simp only [ConformanceSample.ulids, Fin.ofNat, Nat.reducePow] at this
      omega)

/-- with the two names the same it fails: the second insertion replaces the first -/
example : testNew MemIndex.impl (Mem.impl Nat.max Nat.max) "foo" "foo" "knows" 7 1 2 3 123 456
    (Rdf.new MemIndex.new (Mem.new gen) ConformanceSample.ulids) = none := by decide +kernel

example : testMergeNode (mem TestMergeable.merge TestMergeable.merge) mergeConfig (fun _ => Mem.new gen) = some () :=
  (C64_mem_merge (fun _ => gen_fresh 6 (by decide))).mergeNode _ mergeConfig_distinct rfl

/-- the tests do not pass with other ids: ids ordered differently are iterated over differently -/
example : testInsertNode (mem keep keep) { config with node1 := 2, node2 := 1 } (Mem.new gen) = none := by decide +kernel

/-- nor if the generator repeats an id -/
example : testInsertEdge (mem keep keep) config (Mem.new fun _ => 5) = none := by decide +kernel

/-! the tests of src/id/ulid.rs:131-302 -/

namespace ConformanceSample

/-- `make_triple` (src/id/ulid.rs:137-143) -/
def triple : Triple Ulid :=
  ⟨0x000102030405060708090A0B0C0D0E0F, 0x101112131415161718191A1B1C1D1E1F, 0x202122232425262728292A2B2C2D2E2F⟩

/-- the bytes `x`, `x + 1`, …, `x + 15` -/
def run (x : Nat) : Bytes := (List.range 16).map fun k => Fin.ofNat _ (x + k)

/-- `make_data` (src/id/ulid.rs:145-154) -/
def data : ByteArr 48 := ⟨run 0 ++ run 16 ++ run 32, rfl⟩

end ConformanceSample

example : (Ulid.encodeSpo triple).1 = run 0 ++ run 16 ++ run 32 ∧ (Ulid.encodePos triple).1 = run 16 ++ run 32 ++ run 0 ∧
    (Ulid.encodeOsp triple).1 = run 32 ++ run 0 ++ run 16 := by decide +kernel

example : Ulid.decodeSpo data = triple ∧ Ulid.decodePos data = ⟨triple.obj, triple.sub, triple.pred⟩ ∧
    Ulid.decodeOsp data = ⟨triple.pred, triple.obj, triple.sub⟩ := by decide +kernel

example :
    let beef : Bytes := [0xDE, 0xAD, 0xBE, 0xEF]
    let babe : Bytes := [0xCA, 0xFE, 0xBA, 0xBE]
    let b1 := beef ++ beef ++ beef ++ beef
    let b2 := babe ++ babe ++ babe ++ babe
    Ulid.keyBounds1 0xDEADBEEFDEADBEEFDEADBEEFDEADBEEF =
      (.included ⟨b1 ++ List.replicate 32 0, rfl⟩, .included ⟨b1 ++ List.replicate 32 0xFF, rfl⟩) ∧
    Ulid.keyBounds2 0xDEADBEEFDEADBEEFDEADBEEFDEADBEEF 0xCAFEBABECAFEBABECAFEBABECAFEBABE =
      (.included ⟨b1 ++ b2 ++ List.replicate 16 0, rfl⟩, .included ⟨b1 ++ b2 ++ List.replicate 16 0xFF, rfl⟩) := by
  decide +kernel

end Verif.Props
