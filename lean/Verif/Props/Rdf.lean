import Verif.Proof.RdfNames
import Verif.Proof.RdfQuery
import Verif.Proof.RdfStore
import Verif.Props.Index
import Verif.Props.RdfSample

/-! # C38, C39, C40, C41: the RDF layer -/

set_option maxRecDepth 100000
set_option linter.unusedSectionVars false

namespace Verif.Props

open Verif Spec

variable {I S Q IX SX QX NP EP E : Type}

/-! ## C38 names resolve stably -/

/-- An RDF store on a new name index that satisfies the contract of the indices, over any store whatever.  A name that denotes
an id after a history `h` denotes the same id after any further history `h'`, and the id is read back as that name; no two
names denote the same id.  (`Ulid::new()` is assumed to return different ids.) -/
theorem C38_stable {ix : BidirIndex I IX String Ulid} (hix : ix.Lawful) {i0 : I} (h0 : ix.Shows i0 (fun _ => none))
    (st : StoreImpl S SX Ulid NP EP) (s0 : S) (u : Gen Ulid) (h h' : List (Op E Entity NP EP))
    (hu : Fresh (creations h + creations h') u) :
    let r := ((Rdf.new i0 s0 u).callAll ix st h).1
    let r' := (r.callAll ix st h').1
    (∀ s v, r.lookupEntity (SX := SX) ix (.string s) = .ok v →
      r'.lookupEntity (SX := SX) ix (.string s) = .ok v ∧ Rdf.lookupId (SX := SX) ix r'.nameIndex v = .ok (.string s)) ∧
    ∀ s s' v, r'.lookupEntity (SX := SX) ix (.string s) = .ok v → r'.lookupEntity (SX := SX) ix (.string s') = .ok v →
      s = s' := by
  intro r r'
  have hg := Rdf.grows_lawful hix
  obtain ⟨f, h1, -⟩ := Rdf.knows_callAll (st := st) (k := creations h') (r := Rdf.new i0 s0 u) hg h
    ⟨h0, by rw [Nat.add_comm]; exact hu, fun _ _ _ e => by cases e⟩
  obtain ⟨f', h2, h3⟩ := Rdf.knows_callAll (st := st) (k := 0) (r := r) hg h' (by rw [Nat.zero_add]; exact h1)
  refine ⟨fun s v hs => ?_, fun s s' v hs hs' => ?_⟩
  · have e := h3 s v (Rdf.lookup_isSome h1.1 hs)
    refine ⟨by rw [Rdf.lookupEntity_eq h2.1]; dsimp only; rw [e], ?_⟩
    obtain ⟨o, ho, hr⟩ := h2.1.2 v
    unfold Rdf.lookupId
    rw [ho, (hr s).2 e]
  · exact h2.1.inj (Rdf.lookup_isSome h2.1 hs) (Rdf.lookup_isSome h2.1 hs')

/-- A name mentioned in a successful call denotes an id from then on. -/
theorem C38_used {ix : BidirIndex I IX String Ulid} (hix : ix.Lawful) {i0 : I} (h0 : ix.Shows i0 (fun _ => none))
    (st : StoreImpl S SX Ulid NP EP) (s0 : S) (u : Gen Ulid) (h : List (Op E Entity NP EP)) (op : Op E Entity NP EP)
    (h' : List (Op E Entity NP EP)) (hu : Fresh (creations h + op.creations + creations h') u) (s : String)
    (hs : .string s ∈ op.entities) (hok : (((Rdf.new i0 s0 u).callAll ix st h).1.call ix st op).2 = .ok ()) :
    ∃ v, ((((Rdf.new i0 s0 u).callAll ix st h).1.call ix st op).1.callAll ix st h').1.lookupEntity (SX := SX) ix
      (.string s) = .ok v := by
  have hg := Rdf.grows_lawful hix
  obtain ⟨f, h1, -⟩ := Rdf.knows_callAll (st := st) (k := creations h' + op.creations) (r := Rdf.new i0 s0 u) hg h
    ⟨h0, by rw [show creations h' + op.creations + creations h = creations h + op.creations + creations h' by omega]
            exact hu, fun _ _ _ e => by cases e⟩
  obtain ⟨f1, h2, -, h3⟩ := Rdf.uses_call (st := st) hg op h1
  obtain ⟨f2, h4, h5⟩ := Rdf.knows_callAll (st := st) (k := 0) hg h' (by rw [Nat.zero_add]; exact h2)
  obtain ⟨v, hv⟩ := Option.isSome_iff_exists.1 (h3 () hok s hs)
  exact ⟨v, by rw [Rdf.lookupEntity_eq h4.1]; dsimp only; rw [h5 s v hv]⟩

/-- A database of names used in several sessions: each opens an RDF store on it, with a store of triples and a supply of ids
of its own, and makes some calls. -/
def sessions (ix : BidirIndex I IX String Ulid) (st : StoreImpl S SX Ulid NP EP) :
    I → List (S × Gen Ulid × List (Op E Entity NP EP)) → I
  | i, [] => i
  | i, (s, u, h) :: l => sessions ix st ((Rdf.new i s u).callAll ix st h).1.nameIndex l

/-- On a SledHashIndex this holds over any number of sessions, even if `Ulid::new()` repeats itself. -/
theorem C38_sled {cl : Codec String} {cr : Codec Ulid} (hl : cl.RoundTrips) (hr : cr.RoundTrips) (tl : cl.Total)
    (tr : cr.Total) (st : StoreImpl S SX Ulid NP EP) (l l' : List (S × Gen Ulid × List (Op E Entity NP EP))) :
    let ix := SledIndex.impl cl cr
    let d := sessions ix st .empty l
    let d' := sessions ix st d l'
    (∀ s v, ix.leftToRight d s = .ok (some v) →
      ix.leftToRight d' s = .ok (some v) ∧ Rdf.lookupId (SX := SX) ix d' v = .ok (.string s)) ∧
    ∀ s s' v, ix.leftToRight d' s = .ok (some v) → ix.leftToRight d' s' = .ok (some v) → s = s' := by
  intro ix d d'
  have hix : ix.Lawful := SledIndex.lawful hl hr tl tr
  have hsafe : ∀ i f a b, ix.Shows i f → (∃ a', f a' = some b) → f a = none →
      (ix.set i a b).1 = i ∧ (ix.set i a b).2 ≠ .ok () := by
    intro i f a b hi ⟨a', ha'⟩ ha
    have hne : (ix.set i a b).2 ≠ .ok () := by
      intro he
      obtain ⟨lb, rb, e1, e2, -, e4⟩ := (SledIndex.set_ok_iff (cl := cl) (cr := cr) i a b).1 he
      obtain ⟨o, ho, hoa⟩ := hi.2 b
      have : ix.rightToLeft i b = .ok none := (SledIndex.lookup_none e2).2 e4
      rw [this] at ho
      cases ho
      cases (hoa a').2 ha'
    refine ⟨?_, hne⟩
    cases hres : (ix.set i a b).2 with
    | ok v => exact absurd hres hne
    | error e => exact C37_sled cl cr i a b e hres
  have hg := Rdf.grows_safe hix hsafe
  have all : ∀ (l : List (S × Gen Ulid × List (Op E Entity NP EP))) (i : IndexDb) (f : String → Option Ulid), ix.Shows i f →
      ∃ f', ix.Shows (sessions ix st i l) f' ∧ ∀ a b, f a = some b → f' a = some b := by
    intro l
    induction l with
    | nil => exact fun i f hi => ⟨f, hi, fun _ _ h => h⟩
    | cons x l ih =>
      obtain ⟨s, u, h⟩ := x
      intro i f hi
      obtain ⟨f1, h1, m1⟩ := Rdf.knows_callAll (st := st) (k := 0) (r := Rdf.new i s u) hg h hi
      obtain ⟨f2, h2, m2⟩ := ih _ f1 h1
      exact ⟨f2, h2, fun a b hab => m2 a b (m1 a b hab)⟩
  obtain ⟨f, h1, -⟩ := all l .empty _ (SledIndex.shows_empty tl tr)
  obtain ⟨f', h2, h3⟩ := all l' d f h1
  have get : ∀ {i : IndexDb} {f : String → Option Ulid}, ix.Shows i f → ∀ {s v}, ix.leftToRight i s = .ok (some v) ↔ f s = some v := by
    intro i f hi s v
    rw [hi.1 s, Except.ok.injEq]
  refine ⟨fun s v hs => ?_, fun s s' v hs hs' => h2.inj ((get h2).1 hs) ((get h2).1 hs')⟩
  have e := h3 s v ((get h1).1 hs)
  refine ⟨(get h2).2 e, ?_⟩
  obtain ⟨o, ho, hr⟩ := h2.2 v
  unfold Rdf.lookupId
  rw [ho, (hr s).2 e]

/-- "bob" denotes the second id created, and "knows" the third -/
example :
    let r := ((Rdf.new MemIndex.new (Mem.new (Sample.eg 0)) (Sample.ul 0)).callAll MemIndex.impl
      (Mem.impl Sample.mN Sample.mE) Sample.rhist).1
    r.lookupEntity (SX := Unit) MemIndex.impl (.string "bob") = .ok (Sample.ul 0 1) ∧
    r.lookupEntity (SX := Unit) MemIndex.impl (.string "knows") = .ok (Sample.ul 0 2) ∧
    r.lookupEntity (SX := Unit) MemIndex.impl (.string "carol") = .error (.nameNotFound "carol") ∧
    Fresh (creations Sample.rhist + creations Sample.rhist) (Sample.ul 0) :=
  ⟨by decide +kernel, by decide +kernel, by decide +kernel, Sample.ul_fresh _ _ (by rw [Sample.rhist_counts.1]; decide)⟩

/-- two sessions on a sled index in which `Ulid::new()` returns the same ids: the second one cannot name "dave" but knows "bob" -/
example :
    let ix := SledIndex.impl Sample.names Sample.ids
    let d := sessions (E := String) ix (Mem.impl Sample.mN Sample.mE) .empty
      [(Mem.new (Sample.eg 0), Sample.ul 0, [.insertNode (.string "bob") 1]),
       (Mem.new (Sample.eg 0), Sample.ul 0, [.insertNode (.string "dave") 1, .insertNode (.string "bob") 2])]
    ix.leftToRight d "bob" = .ok (some (Sample.ul 0 0)) ∧ ix.leftToRight d "dave" = .ok none :=
  ⟨by decide +kernel, by decide +kernel⟩

/-! ## C39 the RDF store is a graph over entities -/

theorem agree_empty : Agree (NP := NP) (EP := EP) (fun _ => none) Graph.empty RdfState.empty where
  known _ := rfl
  nodes _ _ _ := rfl
  edges _ _ _ _ _ := rfl
  noNode e p h := by cases h
  noEdge t p h := by cases h

/-- a new RDF store -/
theorem inv_new {ix : BidirIndex I IX String Ulid} {i0 : I} (h0 : ix.Shows i0 (fun _ => none))
    {Ok : Nat → S → Graph Ulid NP EP → Prop} {n k : Nat} {s0 : S} (hs : Ok n s0 Graph.empty) {u : Gen Ulid}
    (hu : Fresh k u) {C : List Ulid} (hC : ∀ v ∈ C, ∀ j < k, u j ≠ v) :
    ∃ f G, Rdf.Inv ix Ok C n k (Rdf.new i0 s0 u) f G RdfState.empty :=
  ⟨_, _, h0, hs, agree_empty, ⟨hu, fun _ _ _ e => (by cases e), fun _ _ => rfl, fun _ _ _ _ => rfl⟩,
    fun v hv => ⟨fun _ e => (by cases e), hC v hv⟩⟩

/-- Any history of calls on a new RDF store, on any index and any triple store that keep their contracts, with failing calls and
sources included.  Every call returns what it would return on the graph whose ids are the entities themselves, and iterating
the store in any way shows that graph; a name can be looked up iff it has been used.  (`Ulid::new()` is assumed to return
different ids, and none of the ULIDs that the caller gives explicitly.) -/
theorem C39_graph {ix : BidirIndex I IX String Ulid} (hix : ix.Lawful) {i0 : I} (h0 : ix.Shows i0 (fun _ => none))
    {st : StoreImpl S SX Ulid NP EP} {okN : NP → Bool} {okE : EP → Bool} {bad : SX} {mN : NP → NP → NP}
    {mE : EP → EP → EP} {Ok : Nat → S → Graph Ulid NP EP → Prop} (law : StoreLaw st okN okE bad mN mE Ok) (u : Gen Ulid)
    (h : List (Op E Entity NP EP)) {s0 : S} (hs : Ok (draws h) s0 Graph.empty) (hu : Fresh (creations h) u)
    (hx : ∀ v ∈ explicitUlids h, ∀ j < creations h, u j ≠ v) :
    let r := (Rdf.new i0 s0 u).callAll ix st h
    let x := RdfState.empty.stepAll okN okE mN mE h
    r.2 = x.2.map (RdfOutcome.result bad) ∧ r.1.Shows ix st x.1.graph ∧
    ∀ s, (∃ v, r.1.lookupEntity (SX := SX) ix (.string s) = .ok v) ↔ x.1.known s = true := by
  intro r x
  obtain ⟨⟨f, G, hi⟩, h2⟩ := Rdf.done_callAll (n := 0) (k := 0) hix law h (fun _ h => h)
    (inv_new (n := 0 + draws h) h0 (by rw [Nat.zero_add]; exact hs) (by rw [Nat.zero_add]; exact hu)
      (fun v hv j hj => hx v hv j (by omega)))
  refine ⟨h2, Rdf.shows_of law hi.names hi.graph hi.agree, fun s => ?_⟩
  rw [hi.agree.known s, Rdf.lookupEntity_eq hi.names]
  dsimp only
  cases f s <;> simp

/-- … in memory -/
theorem C39_mem (mN : NP → NP → NP) (mE : EP → EP → EP) (g u : Gen Ulid) (h : List (Op E Entity NP EP))
    (hg : Fresh (draws h) g) (hu : Fresh (creations h) u) (hx : ∀ v ∈ explicitUlids h, ∀ j < creations h, u j ≠ v) :
    let r := (Rdf.new MemIndex.new (Mem.new g) u).callAll MemIndex.impl (Mem.impl mN mE) h
    let x := RdfState.empty.stepAll (fun _ => true) (fun _ => true) mN mE h
    r.2 = x.2.map (RdfOutcome.result ()) ∧ r.1.Shows MemIndex.impl (Mem.impl mN mE) x.1.graph ∧
    ∀ s, (∃ v, r.1.lookupEntity (SX := Unit) MemIndex.impl (.string s) = .ok v) ↔ x.1.known s = true :=
  C39_graph MemIndex.lawful MemIndex.shows_new (Mem.law mN mE) u h (Mem.ok_new hg) hu hx

/-- … on sled -/
theorem C39_sled {cl : Codec String} {cr : Codec Ulid} (hl : cl.RoundTrips) (hr : cr.RoundTrips) (tl : cl.Total)
    (tr : cr.Total) {c : Codecs NP EP} (hc : c.RoundTrip) (mN : NP → NP → NP) (mE : EP → EP → EP) (g u u' : Gen Ulid)
    (h : List (Op E Entity NP EP)) (hg : Fresh (draws h) g) (hu : Fresh (creations h) u)
    (hx : ∀ v ∈ explicitUlids h, ∀ j < creations h, u j ≠ v) :
    let ix := SledIndex.impl cl cr
    let st := SledStore.impl c mN mE
    let r := (Rdf.new .empty (SledStore.new .empty g u') u).callAll ix st h
    let x := RdfState.empty.stepAll c.okN c.okE mN mE h
    r.2 = x.2.map (RdfOutcome.result .serialization) ∧ r.1.Shows ix st x.1.graph ∧
    ∀ s, (∃ v, r.1.lookupEntity (SX := SErr) ix (.string s) = .ok v) ↔ x.1.known s = true :=
  C39_graph (SledIndex.lawful hl hr tl tr) (SledIndex.shows_empty tl tr) (SledStore.law (m := 0) hc mN mE) u h
    (SledStore.ok_new c ⟨hg, fun i hi => by omega, fun _ _ _ hj => by omega⟩ (fun _ _ h => h) (fun _ hj => by omega)) hu hx

/-- the hypotheses hold for a history with all kinds of calls … -/
example : Fresh (draws Sample.rhist) (Sample.eg 0) ∧ Fresh (creations Sample.rhist) (Sample.ul 0) ∧
    (∀ v ∈ explicitUlids Sample.rhist, ∀ j < creations Sample.rhist, Sample.ul 0 j ≠ v) ∧
    Sample.names.RoundTrips ∧ Sample.ids.RoundTrips ∧ Sample.names.Total ∧ Sample.ids.Total ∧ Sample.bc.RoundTrip := by
  obtain ⟨h1, h2, h3⟩ := Sample.rhist_counts
  rw [h1, h2, h3]
  exact ⟨Sample.eg_fresh _ _ (by decide), Sample.ul_fresh _ _ (by decide), Sample.ul_clean _ _ (by decide),
    Sample.names_rt, Sample.ids_rt, Sample.names_total, Sample.ids_total, Sample.bc_rt⟩

/-- … and these are its outcomes -/
example :
    let x := RdfState.empty.stepAll (fun _ => true) (fun _ => true) Sample.mN Sample.mE Sample.rhist
    x.2 = [.done, .done, .unknown "carol", .done, .done, .done, .done, .source "disk"] ∧
    x.1.graph.nodes (.string "bob") = some 21 ∧
    x.1.graph.edges ⟨.string "bob", .string "is", .string "bob"⟩ = some 3 ∧
    x.1.graph.edges ⟨.ulid 5, .string "likes", .ulid 6⟩ = some 8 := by decide +kernel

/-- The hypothesis on explicit ULIDs is needed: a node inserted under the ULID of "alice" is read back as "alice". -/
theorem C39_alias :
    let u := Sample.ul 0
    let r := ((Rdf.new MemIndex.new (Mem.new (Sample.eg 0)) u).callAll MemIndex.impl (Mem.impl Sample.mN Sample.mE)
      ([.insertNode (.string "alice") 1, .insertNode (.ulid (u 0)) 2] : List (Op String Entity Nat Nat))).1
    r.iterVertices MemIndex.impl (Mem.impl Sample.mN Sample.mE) = [.ok (.string "alice", 2)] := by decide +kernel

/-! ## C40 unknown names -/

/-- `remove_node` of an unknown name fails and changes nothing, whatever index, store and state. -/
theorem C40_removeNode (ix : BidirIndex I IX String Ulid) (st : StoreImpl S SX Ulid NP EP) (r : Rdf I S) (s : String)
    (h : ix.leftToRight r.nameIndex s = .ok none) :
    r.removeNode ix st (.string s) = (r, .error (.nameNotFound s)) := by
  unfold Rdf.removeNode Rdf.lookupEntity
  dsimp only
  rw [h]

/-- what looking up an entity does when the index does not fail -/
theorem lookup_cases (ix : BidirIndex I IX String Ulid) (r : Rdf I S) (e : Entity)
    (hx : ∀ s, e = .string s → ∃ o, ix.leftToRight r.nameIndex s = .ok o) :
    (∃ v, r.lookupEntity (SX := SX) ix e = .ok v ∧ ∀ s, e = .string s → ix.leftToRight r.nameIndex s = .ok (some v)) ∨
    ∃ s, e = .string s ∧ ix.leftToRight r.nameIndex s = .ok none ∧
      r.lookupEntity (SX := SX) ix e = .error (.nameNotFound s) := by
  cases e with
  | ulid v => exact .inl ⟨v, rfl, fun s h => by cases h⟩
  | string s =>
    obtain ⟨o, ho⟩ := hx s rfl
    unfold Rdf.lookupEntity
    dsimp only
    rw [ho]
    cases o with
    | some v => exact .inl ⟨v, rfl, fun s' h => by cases h; exact ho⟩
    | none => exact .inr ⟨s, rfl, ho, rfl⟩

/-- `remove_edge` of a triple with an unknown name fails, naming the first unknown one, and changes nothing.  (Look-ups in
the index do not fail.) -/
theorem C40_removeEdge (ix : BidirIndex I IX String Ulid) (st : StoreImpl S SX Ulid NP EP) (r : Rdf I S)
    (t : Triple Entity) (hx : ∀ s, .string s ∈ RdfState.parts t → ∃ o, ix.leftToRight r.nameIndex s = .ok o)
    (h : ∃ s, .string s ∈ RdfState.parts t ∧ ix.leftToRight r.nameIndex s = .ok none) :
    ∃ s l l', RdfState.parts t = l ++ .string s :: l' ∧ ix.leftToRight r.nameIndex s = .ok none ∧
      (∀ s', .string s' ∈ l → ∃ v, ix.leftToRight r.nameIndex s' = .ok (some v)) ∧
      r.removeEdge ix st t = (r, .error (.nameNotFound s)) := by
  have lk := fun e he => lookup_cases (SX := SX) ix r e (fun s hs => hx s (by rw [← hs]; exact he))
  have fails : ∀ e, t.tryMap (fun e => r.lookupEntity (SX := SX) ix e) = .error e → r.removeEdge ix st t = (r, .error e) := by
    intro e he
    unfold Rdf.removeEdge
    rw [he]
  obtain ⟨s0, hs0, hn0⟩ := h
  rcases lk t.sub (by simp [RdfState.parts]) with ⟨v1, l1, k1⟩ | ⟨s, e1, n1, l1⟩
  · rcases lk t.pred (by simp [RdfState.parts]) with ⟨v2, l2, k2⟩ | ⟨s, e2, n2, l2⟩
    · rcases lk t.obj (by simp [RdfState.parts]) with ⟨v3, l3, k3⟩ | ⟨s, e3, n3, l3⟩
      · exfalso
        simp only [RdfState.parts, List.mem_cons, List.not_mem_nil, or_false] at hs0
        rcases hs0 with e | e | e
        · rw [k1 s0 e.symm] at hn0; cases hn0
        · rw [k2 s0 e.symm] at hn0; cases hn0
        · rw [k3 s0 e.symm] at hn0; cases hn0
      · refine ⟨s, [t.sub, t.pred], [], by simp [RdfState.parts, e3], n3, fun s' hs' => ?_, fails _ ?_⟩
        · simp only [List.mem_cons, List.not_mem_nil, or_false] at hs'
          rcases hs' with e | e
          · exact ⟨v1, k1 s' e.symm⟩
          · exact ⟨v2, k2 s' e.symm⟩
        · exact (C42_triple_tryMap_error t _ _).2 (.inr ⟨⟨v1, l1⟩, .inr ⟨⟨v2, l2⟩, l3⟩⟩)
    · refine ⟨s, [t.sub], [t.obj], by simp [RdfState.parts, e2], n2, fun s' hs' => ?_, fails _ ?_⟩
      · simp only [List.mem_cons, List.not_mem_nil, or_false] at hs'
        exact ⟨v1, k1 s' hs'.symm⟩
      · exact (C42_triple_tryMap_error t _ _).2 (.inr ⟨⟨v1, l1⟩, .inl l2⟩)
  · refine ⟨s, [], [t.pred, t.obj], by simp [RdfState.parts, e1], n1, fun s' hs' => ?_, fails _ ?_⟩
    · cases hs'
    · exact (C42_triple_tryMap_error t _ _).2 (.inl l1)

/-- `run` of a query with an unknown name fails with `NameNotFound` of an unknown name in the query.  (It takes the store by
reference, and so cannot change it.) -/
theorem C40_run (ix : BidirIndex I IX String Ulid) (runS : RunImpl S SX Q QX Ulid) (qst : StoreImpl Q QX Ulid NP EP)
    (r : Rdf I S) (g u : Gen Ulid) (q : Query Entity)
    (hx : ∀ s, .string s ∈ queryEntities q → ∃ o, ix.leftToRight r.nameIndex s = .ok o)
    (h : ∃ s, .string s ∈ queryEntities q ∧ ix.leftToRight r.nameIndex s = .ok none) :
    ∃ s, .string s ∈ queryEntities q ∧ ix.leftToRight r.nameIndex s = .ok none ∧
      r.run ix runS qst g u q = .error (.left (.nameNotFound s)) := by
  have lk := fun e he => lookup_cases (SX := SX) ix r e (fun s hs => hx s (by rw [← hs]; exact he))
  obtain ⟨s0, hs0, hn0⟩ := h
  cases hm : q.tryMap (fun e => r.lookupEntity (SX := SX) ix e) with
  | ok q' =>
    exfalso
    obtain ⟨y, hy, hy'⟩ := List.mem_flatten.1 hs0
    obtain ⟨v, hv⟩ := (C42_tryMap_iff _ q).1 ⟨q', hm⟩ y hy _ hy'
    rcases lk _ hs0 with ⟨v1, -, k1⟩ | ⟨s, -, -, l1⟩
    · rw [k1 s0 rfl] at hn0; cases hn0
    · rw [l1] at hv; cases hv
  | error e =>
    obtain ⟨y, hy, a, ha, hfa⟩ := C42_tryMap_error _ q e hm
    have hmem : a ∈ queryEntities q := List.mem_flatten.2 ⟨y, hy, ha⟩
    rcases lk a hmem with ⟨v1, l1, -⟩ | ⟨s, e1, n1, l1⟩
    · rw [l1] at hfa; cases hfa
    · rw [l1] at hfa
      cases hfa
      refine ⟨s, by rw [← e1]; exact hmem, n1, ?_⟩
      unfold Rdf.run
      rw [hm]

/-- the second name of the triple is unknown, and so is the third -/
example :
    let r := ((Rdf.new MemIndex.new (Mem.new (Sample.eg 0)) (Sample.ul 0)).callAll MemIndex.impl
      (Mem.impl Sample.mN Sample.mE) Sample.rhist).1
    MemIndex.impl.leftToRight r.nameIndex "carol" = .ok none ∧
    (r.removeEdge MemIndex.impl (Mem.impl Sample.mN Sample.mE) ⟨.string "bob", .string "carol", .string "dave"⟩).2 =
      .error (.nameNotFound "carol") ∧
    (∃ e, r.run MemIndex.impl Mem.runImpl (Mem.impl Sample.mN Sample.mE) (Sample.eg 0) (Sample.ul 0)
      (.S [.string "bob", .string "carol"]) = .error e ∧ e = .left (.nameNotFound "carol")) :=
  ⟨by decide +kernel, by decide +kernel, _, rfl, by decide +kernel⟩

/-! ## C41 queries -/

/-- What `run` does, on any store built by any history, for any query whose names are known: if no name occurs twice among the
edges of the matching part of the graph, it returns a store showing exactly that part, under the same names with the same ids;
otherwise it fails with the error `DuplicateRight` of the index of the result. -/
theorem C41_computed {ix : BidirIndex I IX String Ulid} (hix : ix.Lawful) {i0 : I} (h0 : ix.Shows i0 (fun _ => none))
    {st : StoreImpl S SX Ulid NP EP} {okN : NP → Bool} {okE : EP → Bool} {bad : SX} {mN : NP → NP → NP}
    {mE : EP → EP → EP} {Ok : Nat → S → Graph Ulid NP EP → Prop} (law : StoreLaw st okN okE bad mN mE Ok)
    {runS : RunImpl S SX Q QX Ulid} {qst : StoreImpl Q QX Ulid NP EP} {QOk : Nat → Q → Graph Ulid NP EP → Prop}
    {okN' : NP → Bool} {okE' : EP → Bool} {qbad : QX} {mN' : NP → NP → NP} {mE' : EP → EP → EP}
    (rlaw : RunLaw st runS Ok QOk) (qlaw : StoreLaw qst okN' okE' qbad mN' mE' QOk) (u : Gen Ulid)
    (h : List (Op E Entity NP EP)) {s0 : S} (hs : Ok (draws h) s0 Graph.empty) (hu : Fresh (creations h) u)
    (q : Query Entity) (hx : ∀ v ∈ explicitUlids h ++ ulids (queryEntities q), ∀ j < creations h, u j ≠ v) :
    let r := ((Rdf.new i0 s0 u).callAll ix st h).1
    let H := (RdfState.empty.stepAll okN okE mN mE h).1.graph
    (∀ s, .string s ∈ queryEntities q → ∃ v, r.lookupEntity (SX := SX) ix (.string s) = .ok v) →
    ∀ g' u', Fresh (st.iterEdges r.graph .SPO).length g' →
    (NamesOnce (select H q) ∧ ∃ res, r.run ix runS qst g' u' q = .ok res ∧ res.Shows MemIndex.impl qst (select H q) ∧
      ∀ s v, res.lookupEntity (SX := QX) MemIndex.impl (.string s) = .ok v →
        r.lookupEntity (SX := SX) ix (.string s) = .ok v) ∨
    (¬ NamesOnce (select H q) ∧ ∃ s v, r.lookupEntity (SX := SX) ix (.string s) = .ok v ∧
      r.run ix runS qst g' u' q = .error (.right (.nameIndex (.duplicateRight s v v)))) := by
  intro r H hk g' u' hg'
  obtain ⟨⟨f, G, hi⟩, -⟩ := Rdf.done_callAll (n := 0) (k := 0) (C := explicitUlids h ++ ulids (queryEntities q)) hix law h
    (fun v hv => List.mem_append_left _ hv)
    (inv_new (n := 0 + draws h) h0 (by rw [Nat.zero_add]; exact hs) (by rw [Nat.zero_add]; exact hu)
      (fun v hv j hj => hx v hv j (by omega)))
  have hq : ∀ e ∈ queryEntities q, ∃ u, r.lookupEntity (SX := SX) ix e = .ok u ∧ Ref f e u := by
    intro e he
    cases e with
    | string s =>
      obtain ⟨v, hv⟩ := hk s he
      exact ⟨v, hv, .name (Rdf.lookup_isSome hi.names hv)⟩
    | ulid v =>
      refine ⟨v, rfl, .id (hi.clean v (List.mem_append_right _ ?_)).1⟩
      exact Classical.byContradiction fun hne => by
        have := Rdf.in_of_ulids (C := ulids (queryEntities q)) (fun _ h => h) he v rfl
        exact hne this
  rcases Rdf.run_spec (SX := SX) (QX := QX) rlaw qlaw hi.names hi.graph hi.agree q hq 0 g' u' (by
      rw [Nat.zero_add]; exact hg') with ⟨h1, res, f', R, h2, -, h4, h5, h6, h7, -⟩ | ⟨h1, s, v, h2, h3⟩
  · refine .inl ⟨h1, res, h2, ?_, fun s v hv => ?_⟩
    · exact Rdf.shows_of (x := { known := fun s => (f' s).isSome, graph := select H q }) qlaw h4 h5 h6
    · have := h7 s v (Rdf.lookup_isSome h4 hv)
      rw [Rdf.lookupEntity_eq hi.names]; dsimp only; rw [this]
  · exact .inr ⟨h1, s, v, by rw [Rdf.lookupEntity_eq hi.names]; dsimp only; rw [h2], h3⟩

/-- … in memory -/
theorem C41_computed_mem (mN : NP → NP → NP) (mE : EP → EP → EP) (g u : Gen Ulid) (h : List (Op E Entity NP EP))
    (hg : Fresh (draws h) g) (hu : Fresh (creations h) u) (q : Query Entity)
    (hx : ∀ v ∈ explicitUlids h ++ ulids (queryEntities q), ∀ j < creations h, u j ≠ v) :
    let ix := MemIndex.impl
    let st := Mem.impl mN mE
    let r := ((Rdf.new MemIndex.new (Mem.new g) u).callAll ix st h).1
    let H := (RdfState.empty.stepAll (fun _ => true) (fun _ => true) mN mE h).1.graph
    (∀ s, .string s ∈ queryEntities q → ∃ v, r.lookupEntity (SX := Unit) ix (.string s) = .ok v) →
    ∀ g' u', Fresh (st.iterEdges r.graph .SPO).length g' →
    (NamesOnce (select H q) ∧ ∃ res, r.run ix Mem.runImpl st g' u' q = .ok res ∧ res.Shows MemIndex.impl st (select H q) ∧
      ∀ s v, res.lookupEntity (SX := Unit) MemIndex.impl (.string s) = .ok v →
        r.lookupEntity (SX := Unit) ix (.string s) = .ok v) ∨
    (¬ NamesOnce (select H q) ∧ ∃ s v, r.lookupEntity (SX := Unit) ix (.string s) = .ok v ∧
      r.run ix Mem.runImpl st g' u' q = .error (.right (.nameIndex (.duplicateRight s v v)))) :=
  C41_computed MemIndex.lawful MemIndex.shows_new (Mem.law mN mE) (Mem.runLaw mN mE) (Mem.law mN mE) u h (Mem.ok_new hg)
    hu q hx

/-- … on sled; the result is in memory -/
theorem C41_computed_sled {cl : Codec String} {cr : Codec Ulid} (hl : cl.RoundTrips) (hr : cr.RoundTrips) (tl : cl.Total)
    (tr : cr.Total) {c : Codecs NP EP} (hc : c.RoundTrip) (mN : NP → NP → NP) (mE : EP → EP → EP) (g u u0 : Gen Ulid)
    (h : List (Op E Entity NP EP)) (hg : Fresh (draws h) g) (hu : Fresh (creations h) u) (q : Query Entity)
    (hx : ∀ v ∈ explicitUlids h ++ ulids (queryEntities q), ∀ j < creations h, u j ≠ v) :
    let ix := SledIndex.impl cl cr
    let st := SledStore.impl c mN mE
    let qst := Mem.impl mN mE
    let r := ((Rdf.new .empty (SledStore.new .empty g u0) u).callAll ix st h).1
    let H := (RdfState.empty.stepAll c.okN c.okE mN mE h).1.graph
    (∀ s, .string s ∈ queryEntities q → ∃ v, r.lookupEntity (SX := SErr) ix (.string s) = .ok v) →
    ∀ g' u', Fresh (st.iterEdges r.graph .SPO).length g' →
    (NamesOnce (select H q) ∧ ∃ res, r.run ix (SledStore.runImpl c) qst g' u' q = .ok res ∧
      res.Shows MemIndex.impl qst (select H q) ∧
      ∀ s v, res.lookupEntity (SX := Unit) MemIndex.impl (.string s) = .ok v →
        r.lookupEntity (SX := SErr) ix (.string s) = .ok v) ∨
    (¬ NamesOnce (select H q) ∧ ∃ s v, r.lookupEntity (SX := SErr) ix (.string s) = .ok v ∧
      r.run ix (SledStore.runImpl c) qst g' u' q = .error (.right (.nameIndex (.duplicateRight s v v)))) :=
  C41_computed (SledIndex.lawful hl hr tl tr) (SledIndex.shows_empty tl tr) (SledStore.law (m := 0) hc mN mE)
    (SledStore.runLaw hc mN mE) (Mem.law mN mE) u h
    (SledStore.ok_new c ⟨hg, fun i hi => by omega, fun _ _ _ hj => by omega⟩ (fun _ _ h => h) (fun _ hj => by omega)) hu q hx

/-- C41 for the queries that ask for nodes, and for those whose result uses no name twice.  Missing: all other queries for
edges, which fail. -/
theorem C41_partial {ix : BidirIndex I IX String Ulid} (hix : ix.Lawful) {i0 : I} (h0 : ix.Shows i0 (fun _ => none))
    {st : StoreImpl S SX Ulid NP EP} {okN : NP → Bool} {okE : EP → Bool} {bad : SX} {mN : NP → NP → NP}
    {mE : EP → EP → EP} {Ok : Nat → S → Graph Ulid NP EP → Prop} (law : StoreLaw st okN okE bad mN mE Ok)
    {runS : RunImpl S SX Q QX Ulid} {qst : StoreImpl Q QX Ulid NP EP} {QOk : Nat → Q → Graph Ulid NP EP → Prop}
    {okN' : NP → Bool} {okE' : EP → Bool} {qbad : QX} {mN' : NP → NP → NP} {mE' : EP → EP → EP}
    (rlaw : RunLaw st runS Ok QOk) (qlaw : StoreLaw qst okN' okE' qbad mN' mE' QOk) (u : Gen Ulid)
    (h : List (Op E Entity NP EP)) {s0 : S} (hs : Ok (draws h) s0 Graph.empty) (hu : Fresh (creations h) u)
    (q : Query Entity) (hx : ∀ v ∈ explicitUlids h ++ ulids (queryEntities q), ∀ j < creations h, u j ≠ v) :
    let r := ((Rdf.new i0 s0 u).callAll ix st h).1
    let H := (RdfState.empty.stepAll okN okE mN mE h).1.graph
    ((∃ l, q = .NodeProps l) ∨ NamesOnce (select H q)) →
    (∀ s, .string s ∈ queryEntities q → ∃ v, r.lookupEntity (SX := SX) ix (.string s) = .ok v) →
    ∀ g' u', Fresh (st.iterEdges r.graph .SPO).length g' →
    ∃ res, r.run ix runS qst g' u' q = .ok res ∧ res.Shows MemIndex.impl qst (select H q) := by
  intro r H hq hk g' u' hg'
  have hone : NamesOnce (select H q) := by
    rcases hq with ⟨l, rfl⟩ | hq
    · exact ⟨fun t p h => (by cases h), fun t t' p p' h => (by cases h)⟩
    · exact hq
  rcases C41_computed hix h0 law rlaw qlaw u h hs hu q hx hk g' u' hg' with ⟨-, res, h1, h2, -⟩ | ⟨h1, -⟩
  · exact ⟨res, h1, h2⟩
  · exact absurd hone h1

/-- the result of a query on the sample store -/
example :
    let st := Mem.impl Sample.mN Sample.mE
    let r := ((Rdf.new MemIndex.new (Mem.new (Sample.eg 0)) (Sample.ul 0)).callAll MemIndex.impl st Sample.rhist).1
    (∃ v, r.lookupEntity (SX := Unit) MemIndex.impl (.string "alice") = .ok v) ∧
    Fresh (st.iterEdges r.graph .SPO).length (Sample.eg 50) ∧
    (match r.run MemIndex.impl Mem.runImpl st (Sample.eg 50) (Sample.ul 50) (.S [.string "alice", .ulid 9]) with
      | .ok res => res.iterEdges MemIndex.impl st .SPO
      | .error _ => []) = [.ok (⟨.string "alice", .string "knows", .string "bob"⟩, 7)] :=
  ⟨⟨Sample.ul 0 0, by decide +kernel⟩, Sample.eg_fresh _ _ (by decide +kernel), by decide +kernel⟩

theorem error_of {A X : Type} {x : Except X A} {e : X} (h : (match x with | .error e => some e | .ok _ => none) = some e) :
    x = .error e := by
  cases x with
  | ok a => cases h
  | error e => cases h; rfl

/-- C41 is violated: the query for the edges from "alice", of which there are two, fails; so does the query for the edges from
"bob", of which there is one, from "bob" to "bob". -/
theorem C41_violated :
    let st := Mem.impl Sample.mN Sample.mE
    let r := ((Rdf.new MemIndex.new (Mem.new (Sample.eg 0)) (Sample.ul 0)).callAll MemIndex.impl st
      ([.insertEdge ⟨.string "alice", .string "knows", .string "bob"⟩ 7,
        .insertEdge ⟨.string "alice", .string "likes", .string "carol"⟩ 8,
        .insertEdge ⟨.string "bob", .string "is", .string "bob"⟩ 9] : List (Op String Entity Nat Nat))).1
    let run := fun q => r.run MemIndex.impl Mem.runImpl st (Sample.eg 50) (Sample.ul 50) q
    (∃ v, r.lookupEntity (SX := Unit) MemIndex.impl (.string "alice") = .ok v) ∧
    (∃ v, r.lookupEntity (SX := Unit) MemIndex.impl (.string "bob") = .ok v) ∧
    (∃ v, run (.S [.string "alice"]) = .error (.right (.nameIndex (.duplicateRight "alice" v v)))) ∧
    ∃ v, run (.S [.string "bob"]) = .error (.right (.nameIndex (.duplicateRight "bob" v v))) := by
  refine ⟨⟨Sample.ul 0 0, by decide +kernel⟩, ⟨Sample.ul 0 2, by decide +kernel⟩, ?_, ?_⟩
  · exact ⟨Sample.ul 0 0, error_of (by decide +kernel)⟩
  · exact ⟨Sample.ul 0 2, error_of (by decide +kernel)⟩

end Verif.Props
