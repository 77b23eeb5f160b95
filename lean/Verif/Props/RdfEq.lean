import Verif.Proof.RdfEq
import Verif.Props.Rdf

/-! # C59: `try_eq` of RDF stores -/

set_option maxRecDepth 100000

namespace Verif.Props

open Verif Spec

variable {I I' S S' IX IX' SX SX' NP EP E : Type} [BEq NP] [LawfulBEq NP] [BEq EP] [LawfulBEq EP]

/-- Whatever two stores show, in whatever order, `try_eq` returns a result, and `true` only if they show the same graph. -/
theorem C59_sound {L R Id : Type} [DecidableEq Id] {a : Source L Id NP EP} {b : Source R Id NP EP} {G H : Graph Id NP EP}
    (ha : Represents a G) (hb : Represents b H) : ∃ r, tryEq a b = .ok r ∧ (r = true → G = H) := by
  obtain ⟨⟨an, h1, -, h1'⟩, ⟨ae, h2, -, h2'⟩⟩ := ha
  obtain ⟨⟨bn, h3, -, h3'⟩, ⟨be, h4, -, h4'⟩⟩ := hb
  refine ⟨_, tryEq_lists h1 h2 h3 h4, fun h => ?_⟩
  obtain ⟨h, h'⟩ := Bool.and_eq_true_iff.1 h
  obtain rfl := eq_of_beq h
  obtain rfl := eq_of_beq h'
  cases G
  cases H
  exact congrArg₂ Graph.mk ((Rdf.map_eq_iff h1' h3').2 (fun _ => .rfl)) ((Rdf.map_eq_iff h2' h4').2 (fun _ => .rfl))

/-- After any two histories, of RDF stores of any two kinds: `try_eq` returns `true` exactly if the stores hold the same graph over
entities *and* the ids that the two stores have given to the names put its nodes and edges in the same order. -/
theorem C59_computed {ix : BidirIndex I IX String Ulid} (hix : ix.Lawful) {i0 : I} (h0 : ix.Shows i0 (fun _ => none))
    {st : StoreImpl S SX Ulid NP EP} {okN : NP → Bool} {okE : EP → Bool} {bad : SX} {mN : NP → NP → NP} {mE : EP → EP → EP}
    {Ok : Nat → S → Graph Ulid NP EP → Prop} (law : StoreLaw st okN okE bad mN mE Ok)
    {ix' : BidirIndex I' IX' String Ulid} (hix' : ix'.Lawful) {i0' : I'} (h0' : ix'.Shows i0' (fun _ => none))
    {st' : StoreImpl S' SX' Ulid NP EP} {okN' : NP → Bool} {okE' : EP → Bool} {bad' : SX'} {mN' : NP → NP → NP} {mE' : EP → EP → EP}
    {Ok' : Nat → S' → Graph Ulid NP EP → Prop} (law' : StoreLaw st' okN' okE' bad' mN' mE' Ok') (u u' : Gen Ulid)
    (h h' : List (Op E Entity NP EP)) {s0 : S} {s0' : S'} (hs : Ok (draws h) s0 Graph.empty) (hs' : Ok' (draws h') s0' Graph.empty)
    (hu : Fresh (creations h) u) (hu' : Fresh (creations h') u') (hx : ∀ v ∈ explicitUlids h, ∀ j < creations h, u j ≠ v)
    (hx' : ∀ v ∈ explicitUlids h', ∀ j < creations h', u' j ≠ v) :
    let r := ((Rdf.new i0 s0 u).callAll ix st h).1
    let r' := ((Rdf.new i0' s0' u').callAll ix' st' h').1
    let H := (RdfState.empty.stepAll okN okE mN mE h).1.graph
    let H' := (RdfState.empty.stepAll okN' okE' mN' mE' h').1.graph
    ∃ f f' b, ix.Shows r.nameIndex f ∧ ix'.Shows r'.nameIndex f' ∧
      tryEq (r.iterNodes ix st .SPO) (r'.iterNodes ix' st' .SPO) = .ok b ∧ (b = true ↔ H = H' ∧ SameOrder f f' H) := by
  intro r r' H H'
  obtain ⟨⟨f, G, hi⟩, -⟩ := Rdf.done_callAll (n := 0) (k := 0) hix law h (fun _ h => h)
    (inv_new (n := 0 + draws h) h0 (by rw [Nat.zero_add]; exact hs) (by rw [Nat.zero_add]; exact hu)
      (fun v hv j hj => hx v hv j (by omega)))
  obtain ⟨⟨f', G', hi'⟩, -⟩ := Rdf.done_callAll (n := 0) (k := 0) hix' law' h' (fun _ h => h)
    (inv_new (n := 0 + draws h') h0' (by rw [Nat.zero_add]; exact hs') (by rw [Nat.zero_add]; exact hu')
      (fun v hv j hj => hx' v hv j (by omega)))
  obtain ⟨⟨an, a1, a2, a3⟩, ⟨ae, b1, b2, b3⟩⟩ := Rdf.iterNodes_sorted law hi.names hi.graph hi.agree
  obtain ⟨⟨an', a1', a2', a3'⟩, ⟨ae', b1', b2', b3'⟩⟩ := Rdf.iterNodes_sorted law' hi'.names hi'.graph hi'.agree
  refine ⟨f, f', _, hi.names, hi'.names, tryEq_lists a1 b1 a1' b1', ?_⟩
  rw [Bool.and_eq_true_iff, beq_iff_eq, beq_iff_eq, Rdf.entries_eq_iff Rdf.before_irrefl Rdf.before_trans Rdf.before_irrefl Rdf.before_trans a2 a2' a3 a3',
    Rdf.entries_eq_iff Rdf.beforeT_irrefl Rdf.beforeT_trans Rdf.beforeT_irrefl Rdf.beforeT_trans b2 b2' b3 b3']
  have e : H = H' ↔ H.nodes = H'.nodes ∧ H.edges = H'.edges := by
    constructor
    · intro h; rw [h]; exact ⟨rfl, rfl⟩
    · rintro ⟨k1, k2⟩
      cases hH : H
      cases hH' : H'
      rw [hH, hH'] at k1 k2
      exact congrArg₂ Graph.mk k1 k2
  rw [e]
  unfold SameOrder
  tauto

/-- `try_eq` decides equality of graphs if the ids put them in the same order.  Missing: that condition, which the code does not
establish; `C59_violated` shows that the property is false without it. -/
theorem C59_partial {ix : BidirIndex I IX String Ulid} (hix : ix.Lawful) {i0 : I} (h0 : ix.Shows i0 (fun _ => none))
    {st : StoreImpl S SX Ulid NP EP} {okN : NP → Bool} {okE : EP → Bool} {bad : SX} {mN : NP → NP → NP} {mE : EP → EP → EP}
    {Ok : Nat → S → Graph Ulid NP EP → Prop} (law : StoreLaw st okN okE bad mN mE Ok)
    {ix' : BidirIndex I' IX' String Ulid} (hix' : ix'.Lawful) {i0' : I'} (h0' : ix'.Shows i0' (fun _ => none))
    {st' : StoreImpl S' SX' Ulid NP EP} {okN' : NP → Bool} {okE' : EP → Bool} {bad' : SX'} {mN' : NP → NP → NP} {mE' : EP → EP → EP}
    {Ok' : Nat → S' → Graph Ulid NP EP → Prop} (law' : StoreLaw st' okN' okE' bad' mN' mE' Ok') (u u' : Gen Ulid)
    (h h' : List (Op E Entity NP EP)) {s0 : S} {s0' : S'} (hs : Ok (draws h) s0 Graph.empty) (hs' : Ok' (draws h') s0' Graph.empty)
    (hu : Fresh (creations h) u) (hu' : Fresh (creations h') u') (hx : ∀ v ∈ explicitUlids h, ∀ j < creations h, u j ≠ v)
    (hx' : ∀ v ∈ explicitUlids h', ∀ j < creations h', u' j ≠ v) :
    let r := ((Rdf.new i0 s0 u).callAll ix st h).1
    let r' := ((Rdf.new i0' s0' u').callAll ix' st' h').1
    let H := (RdfState.empty.stepAll okN okE mN mE h).1.graph
    let H' := (RdfState.empty.stepAll okN' okE' mN' mE' h').1.graph
    (∀ f f', ix.Shows r.nameIndex f → ix'.Shows r'.nameIndex f' → SameOrder f f' H) →
      (tryEq (r.iterNodes ix st .SPO) (r'.iterNodes ix' st' .SPO) = .ok true ↔ H = H') := by
  intro r r' H H' ho
  obtain ⟨f, f', b, h1, h2, h3, h4⟩ := C59_computed hix h0 law hix' h0' law' u u' h h' hs hs' hu hu' hx hx'
  rw [h3, Except.ok.injEq, h4, and_iff_left (ho f f' h1 h2)]

/-- no new names in the second history, which takes a detour -/
example :
    let st := Mem.impl Sample.mN Sample.mE
    let a : List (Op String Entity Nat Nat) := [.insertNode (.string "a") 1, .insertNode (.string "b") 2]
    let b : List (Op String Entity Nat Nat) := a ++ [.removeNode (.string "a"), .insertNode (.string "a") 1]
    let r := ((Rdf.new MemIndex.new (Mem.new (Sample.eg 0)) (Sample.ul 0)).callAll MemIndex.impl st a).1
    let r' := ((Rdf.new MemIndex.new (Mem.new (Sample.eg 0)) (Sample.ul 0)).callAll MemIndex.impl st b).1
    (tryEq (r.iterNodes MemIndex.impl st .SPO) (r'.iterNodes MemIndex.impl st .SPO) = .ok true ↔
      (RdfState.empty.stepAll (fun _ => true) (fun _ => true) Sample.mN Sample.mE a).1.graph =
        (RdfState.empty.stepAll (fun _ => true) (fun _ => true) Sample.mN Sample.mE b).1.graph) ∧
    tryEq (r.iterNodes MemIndex.impl st .SPO) (r'.iterNodes MemIndex.impl st .SPO) = .ok true := by
  intro st a b r r'
  refine ⟨C59_partial MemIndex.lawful MemIndex.shows_new (Mem.law _ _) MemIndex.lawful MemIndex.shows_new (Mem.law _ _) _ _ a b
    (Mem.ok_new (Sample.eg_fresh _ _ (by decide))) (Mem.ok_new (Sample.eg_fresh _ _ (by decide)))
    (Sample.ul_fresh _ _ (by decide)) (Sample.ul_fresh _ _ (by decide)) (by simp [a, explicitUlids, Op.entities, ulids])
    (by simp [a, b, explicitUlids, Op.entities, ulids]) (fun f f' hf hf' => ?_), by decide +kernel⟩
  have e : f = f' := by
    funext s
    have h1 := hf.1 s
    have h2 := hf'.1 s
    rw [show r'.nameIndex = r.nameIndex from rfl, h1, Except.ok.injEq] at h2
    exact h2
  subst e
  exact ⟨fun _ _ _ _ => .rfl, fun _ _ _ _ => .rfl⟩

/-- The same two nodes, inserted in different orders: the stores show the same graph, but `try_eq` says they differ. -/
theorem C59_violated :
    let st := Mem.impl Sample.mN Sample.mE
    let a : List (Op String Entity Nat Nat) := [.insertNode (.string "a") 1, .insertNode (.string "b") 2]
    let b : List (Op String Entity Nat Nat) := [.insertNode (.string "b") 2, .insertNode (.string "a") 1]
    let r := ((Rdf.new MemIndex.new (Mem.new (Sample.eg 0)) (Sample.ul 0)).callAll MemIndex.impl st a).1
    let r' := ((Rdf.new MemIndex.new (Mem.new (Sample.eg 0)) (Sample.ul 0)).callAll MemIndex.impl st b).1
    (∃ H, r.Shows MemIndex.impl st H ∧ r'.Shows MemIndex.impl st H) ∧
      tryEq (r.iterNodes MemIndex.impl st .SPO) (r'.iterNodes MemIndex.impl st .SPO) = .ok false := by
  intro st a b r r'
  refine ⟨⟨_, (C39_mem Sample.mN Sample.mE (Sample.eg 0) (Sample.ul 0) a (Sample.eg_fresh _ _ (by decide)) (Sample.ul_fresh _ _ (by decide))
    (by simp [a, explicitUlids, Op.entities, ulids])).2.1, ?_⟩, by decide +kernel⟩
  have := (C39_mem Sample.mN Sample.mE (Sample.eg 0) (Sample.ul 0) b (Sample.eg_fresh _ _ (by decide)) (Sample.ul_fresh _ _ (by decide))
    (by simp [b, explicitUlids, Op.entities, ulids])).2.1
  have e : (RdfState.empty.stepAll (fun _ => true) (fun _ => true) Sample.mN Sample.mE a).1.graph =
      (RdfState.empty.stepAll (fun _ => true) (fun _ => true) Sample.mN Sample.mE b).1.graph := by
    refine congrArg₂ Graph.mk (funext fun e => ?_) rfl
    by_cases h1 : e = .string "a"
    · subst h1; decide +kernel
    · by_cases h2 : e = .string "b"
      · subst h2; decide +kernel
      · simp [RdfState.step, RdfState.change, storeNode, RdfState.learn, Graph.insertNode, h1, h2]
  rw [e]
  exact this

end Verif.Props
