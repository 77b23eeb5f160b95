import Verif.Proof.RdfSledValues
import Verif.Props.RdfSledLoose
import Verif.Props.SledLazy
import Verif.Proof.Repair

/-!
# C80: reading an RDF store on sled while others write to it

`Moments … D`: `D 0`, `D 1`, … are the contents of the database at successive moments of an execution of threads with RDF stores.
Somebody else iterates over the edges, or the nodes, in the meantime: an entry is read at one moment, its property record at a
later one, and the names of its ids, one by one, at still later ones.
-/

set_option linter.unusedSectionVars false
set_option maxRecDepth 100000

namespace Verif.Props

open Verif Spec ConcreteId RdfSled

variable {NP EP E : Type} {cl : Codec String} {cr : Codec Ulid} {c : Codecs NP EP} {mN : NP → NP → NP} {mE : EP → EP → EP}
  {C : List Ulid}

/-- the name of an id in a database, or the id itself -/
abbrev nameIn (cl : Codec String) (cr : Codec Ulid) (d : RdfDb) (u : Ulid) : Except (RdfErr (SledIndexErr String Ulid) SErr) Entity :=
  Rdf.lookupId (SledIndex.impl cl cr) d.names u

/-- the names of the ids of a triple -/
abbrev namesIn (cl : Codec String) (cr : Codec Ulid) (d : RdfDb) (t : Triple Ulid) :
    Except (RdfErr (SledIndexErr String Ulid) SErr) (Triple Entity) := t.tryMap (fun u => nameIn cl cr d u)

/-- the item `iter_edges` of the RDF store returns for an entry -/
abbrev rdfItem (cl : Codec String) (cr : Codec Ulid) (c : Codecs NP EP) (D : Nat → RdfDb) (o : EdgeOrder) (x : RdfSled.Seen) :
    Except (RdfErr (SledIndexErr String Ulid) SErr) (Triple Entity × EP) :=
  RdfSled.edgeItem cl cr (D x.sub).names (D x.pred).names (D x.obj).names
    (Sled.edgeItem Ulid c (D x.look).data o (x.key, x.id))

/-- what `iter_edges` would return at one moment -/
abbrev edgesAt (cl : Codec String) (cr : Codec Ulid) (c : Codecs NP EP) (mN : NP → NP → NP) (mE : EP → EP → EP) (d : RdfDb)
    (o : EdgeOrder) : List (Except (RdfErr (SledIndexErr String Ulid) SErr) (Triple Entity × EP)) :=
  (openOn d (fun _ => 0) (fun _ => 0)).iterEdges (SledIndex.impl cl cr) (SledStore.impl c mN mE) o

/-- what `iter_vertices` would return at one moment -/
abbrev nodesAt (cl : Codec String) (cr : Codec Ulid) (c : Codecs NP EP) (mN : NP → NP → NP) (mE : EP → EP → EP) (d : RdfDb) :
    List (Except (RdfErr (SledIndexErr String Ulid) SErr) (Entity × NP)) :=
  (openOn d (fun _ => 0) (fun _ => 0)).iterVertices (SledIndex.impl cl cr) (SledStore.impl c mN mE)

theorem edgeItem_same (i : IndexDb) (x : Except SErr (Triple Ulid × EP)) :
    RdfSled.edgeItem cl cr i i i x = Rdf.edgeItem (SledIndex.impl cl cr) i x := by
  cases x with
  | error e => rfl
  | ok x =>
    simp only [RdfSled.edgeItem, Rdf.edgeItem, Triple.tryMap]
    cases Rdf.lookupId (SX := SErr) (SledIndex.impl cl cr) i x.1.sub with
    | error e => rfl
    | ok s =>
      dsimp only
      cases Rdf.lookupId (SX := SErr) (SledIndex.impl cl cr) i x.1.pred with
      | error e => rfl
      | ok q =>
        dsimp only
        cases Rdf.lookupId (SX := SErr) (SledIndex.impl cl cr) i x.1.obj <;> rfl

/-! ## nobody writes -/

/-- While nobody writes, there is a reading, and each one returns the items of `iterEdges`: whatever the contents. -/
theorem C80_still (d : RdfDb) (o : EdgeOrder) :
    (∃ l, RdfSled.Reading (fun _ => d) o l) ∧
    ∀ l, RdfSled.Reading (fun _ => d) o l → l.map (rdfItem cl cr c (fun _ => d) o) = edgesAt cl cr c mN mE d o := by
  obtain ⟨⟨l0, h0⟩, h⟩ := C55_still (Id := Ulid) (c := c) d.data o
  constructor
  · refine ⟨l0.map (fun x => ⟨x, x.look, x.look, x.look⟩), ?_, ?_⟩
    · have e : (l0.map (fun x => (⟨x, x.look, x.look, x.look⟩ : RdfSled.Seen))).map RdfSled.Seen.toSeen = l0 := by
        rw [List.map_map]
        exact List.map_id _
      rw [e]
      exact h0
    · intro x hx
      obtain ⟨y, -, rfl⟩ := List.mem_map.1 hx
      exact ⟨le_rfl, le_rfl, le_rfl⟩
  · intro l hl
    have e : edgesAt cl cr c mN mE d o = (Sled.iterEdges Ulid c d.data o).map (Rdf.edgeItem (SledIndex.impl cl cr) d.names) := rfl
    rw [e, ← h _ hl.data, List.map_map, List.map_map]
    exact List.map_congr_left (fun x _ => edgeItem_same _ _)

/-! ## names -/

variable {d0 : RdfDb} {threads : List (List (RdfSled.PieceCall E NP EP))} {D : Nat → RdfDb}

/-- Processes have run, one after the other, and crashed or not; the threads of another one are running.  An id that is in use in the
triple store at one moment has the name it has then at every later moment, or has none at both: whatever the threads do.  (The
look-ups do not fail.) -/
theorem C80_names (hl : cl.RoundTrips) (hr : cr.RoundTrips) (tl : cl.Total) (tr : cr.Total) (hc : c.RoundTrip)
    (h : Life cl cr c mN mE E C d0) {ss : List (RdfSled.Session E NP EP)} {d : RdfDb}
    (hd : Runs (fun d s d' => RdfSled.Session.Leads cl cr c mN mE d s d') d0 ss d)
    (hn : FreshNames d0.data (RdfSled.everyCall ss ++ threads.flatten.map Prod.fst))
    (hm : RdfSled.Moments cl cr c mN mE d threads D) {m m' : Nat} (hmm : m ≤ m') {u : Ulid} (hu : Sled.Uses (D m).data u) :
    ∃ e, nameIn cl cr (D m) u = .ok e ∧ nameIn cl cr (D m') u = .ok e := by
  obtain ⟨_, f, hf, inv, _⟩ := h.leaves hl hr tl tr hc
  let B : Ulid → Prop := fun u => Sled.Uses d0.data u ∨ ∃ x ∈ RdfSled.everyCall ss ++ threads.flatten.map Prod.fst, u ∈ ulids x.op.entities
  have hB : ∀ u ∈ (RdfSled.everyCall ss ++ threads.flatten.map Prod.fst).flatMap Call.ulids, ¬ B u := by
    rintro u hu (h | ⟨x, hx, h⟩)
    · exact hn.unused u hu h
    · exact hn.given u hu x hx h
  obtain ⟨f', k1, k2, k3⟩ := sessions_known (B := B) hl hr tl tr hc ss hf (h.well hc) (fun u hu => .inl (.inl hu))
    (fun x hx u hu => .inr ⟨x, List.mem_append_left _ hx, hu⟩) hd
  refine same_names hl hr tl tr hc k1 k2 k3 (fun th hth x hx u hu => .inr ⟨x.1, ?_, hu⟩) (fun u hu => hB u ?_) hm hmm hu
  · exact List.mem_append_right _ (List.mem_map_of_mem (List.mem_flatten.2 ⟨th, hth, hx⟩))
  · rw [mine_eq] at hu
    rw [List.flatMap_append]
    exact List.mem_append_right _ hu

/-! ## edges -/

variable {f : String → Option Ulid} {o : EdgeOrder} {l : List RdfSled.Seen}

/-- the names looked up for an entry are those it had when it was read -/
theorem names_entry (hl : cl.RoundTrips) (hr : cr.RoundTrips) (tl : cl.Total) (tr : cr.Total) (hc : c.RoundTrip)
    (h : Life cl cr c mN mE E C d0) (hn : FreshNames d0.data (threads.flatten.map Prod.fst))
    (hm : RdfSled.Moments cl cr c mN mE d0 threads D) {t : Triple Ulid} {m m1 m2 m3 : Nat} (h1 : m ≤ m1) (h2 : m ≤ m2) (h3 : m ≤ m3)
    (ht : (D m).data.idIn o t ≠ none) :
    ∃ te, namesIn cl cr (D m) t = .ok te ∧ nameIn cl cr (D m1) t.sub = .ok te.sub ∧ nameIn cl cr (D m2) t.pred = .ok te.pred ∧
      nameIn cl cr (D m3) t.obj = .ok te.obj := by
  have key := fun {m' : Nat} (hmm : m ≤ m') {u : Ulid} (hu : Sled.Uses (D m).data u) =>
    C80_names (ss := []) (d := d0) hl hr tl tr hc h rfl (by simpa [RdfSled.everyCall] using hn) hm hmm hu
  obtain ⟨s, a1, b1⟩ := key h1 (u := t.sub) (.inr ⟨o, t, ht, .inl rfl⟩)
  obtain ⟨q, a2, b2⟩ := key h2 (u := t.pred) (.inr ⟨o, t, ht, .inr (.inl rfl)⟩)
  obtain ⟨b, a3, b3⟩ := key h3 (u := t.obj) (.inr ⟨o, t, ht, .inr (.inr rfl)⟩)
  exact ⟨⟨s, q, b⟩, by simp only [namesIn, Triple.tryMap, a1, a2, a3], b1, b2, b3⟩

theorem rdf_item (hl : cl.RoundTrips) (hr : cr.RoundTrips) (tl : cl.Total) (tr : cr.Total) (hc : c.RoundTrip)
    (h : Life cl cr c mN mE E C d0) (hf : (SledIndex.impl cl cr).Shows d0.names f)
    (hi : NewIdsFor f d0.data (threads.flatten.map Prod.fst)) (hn : FreshNames d0.data (threads.flatten.map Prod.fst))
    (hm : RdfSled.Moments cl cr c mN mE d0 threads D) (hl' : RdfSled.Reading D o l) {x : RdfSled.Seen} (hx : x ∈ l) :
    ∃ (t : Triple Ulid) (te : Triple Entity), x.key = (encOf o t).1 ∧ namesIn cl cr (D x.scan) t = .ok te ∧
      (rdfItem cl cr c D o x = .error (.graph .missing) ∧ ¬ (Old d0.data t ∧ ∀ th ∈ threads, ∀ x ∈ th, x.1.Spares f t) ∨
      ∃ p, rdfItem cl cr c D o x = .ok (te, p) ∧ .ok (te, p) ∈ edgesAt cl cr c mN mE (D x.scan) o) := by
  obtain ⟨_, _, _, inv, _⟩ := h.leaves hl hr tl tr hc
  have hx' := List.mem_map_of_mem (f := RdfSled.Seen.toSeen) hx
  have later := hl'.data.later _ hx'
  obtain ⟨n1, n2, n3⟩ := hl'.names x hx
  obtain ⟨Own, K, M, H, H', g1, g2, g3, g4, -⟩ := hist_rdf hl hr tl tr hc hf (h.well hc) inv hi hn hm later
  obtain ⟨t, ht, hid, hh⟩ := g3.entry g1 g2 (hl'.data.mem hx').2
  obtain ⟨te, k0, k1, k2, k3⟩ := names_entry (o := o) hl hr tl tr hc h hn hm (t := t) (m := x.scan) (m1 := x.sub) (m2 := x.pred) (m3 := x.obj)
    (by omega) (by omega) (by omega) (by rw [hid]; simp)
  refine ⟨t, te, ht, k0, ?_⟩
  have e : rdfItem cl cr c D o x = RdfSled.edgeItem cl cr (D x.sub).names (D x.pred).names (D x.obj).names
    (Sled.edgeItem Ulid c (D x.look).data o ((encOf o t).1, x.id)) := by rw [← ht]
  rw [e, Sled.edgeItem_enc]
  rcases hh with ⟨e1, e2⟩ | ⟨b, p, e1, e2, e3⟩
  · exact .inl ⟨by simp [e1, RdfSled.edgeItem], fun ⟨a, b⟩ => e2 (g4 t a b)⟩
  · refine .inr ⟨p, ?_, ?_⟩
    · simp only [e1, e2, RdfSled.edgeItem, k1, k2, k3]
    · exact List.mem_map.2 ⟨.ok (t, p), (Sled.mem_iterEdges (g1.neat.keys o) t p).2 e3, by
        change Rdf.edgeItem (SledIndex.impl cl cr) (D x.scan).names (.ok (t, p)) = _
        simp only [Rdf.edgeItem]
        rw [show t.tryMap (fun u => Rdf.lookupId (SX := SErr) (SledIndex.impl cl cr) (D x.scan).names u) = .ok te from k0]⟩

/-- Different ids have different names, whenever they are looked up. -/
theorem names_differ (hl : cl.RoundTrips) (hr : cr.RoundTrips) (tl : cl.Total) (tr : cr.Total) (hc : c.RoundTrip)
    (h : Life cl cr c mN mE E C d0) (hf : (SledIndex.impl cl cr).Shows d0.names f)
    (hm : RdfSled.Moments cl cr c mN mE d0 threads D) {m m' : Nat} (hmm : m ≤ m') {t t' : Triple Ulid} {te : Triple Entity}
    (h1 : namesIn cl cr (D m) t = .ok te) (h2 : namesIn cl cr (D m') t' = .ok te) : t = t' := by
  obtain ⟨g, g', qs, qs', L, L', i1, i2, k⟩ := two_moments hl hr tl tr hc hf (h.well hc) hm hmm
  have one : ∀ {u u' : Ulid} {e : Entity}, nameIn cl cr (D m) u = .ok e → nameIn cl cr (D m') u' = .ok e → u = u' := by
    intro u u' e a b
    obtain ⟨e1, a1, r1⟩ := i1.shows.lookupId (SX := SErr) u
    obtain ⟨e2, b1, r2⟩ := i2.shows.lookupId (SX := SErr) u'
    obtain rfl := Except.ok.inj (a1.symm.trans a)
    obtain rfl := Except.ok.inj (b1.symm.trans b)
    cases r1 with
    | name h => cases r2 with | name h' => rw [k _ _ h] at h'; exact Option.some.inj h'
    | id h => cases r2 with | id h' => rfl
  have parts : ∀ {d : RdfDb} {v : Triple Ulid}, namesIn cl cr d v = .ok te → nameIn cl cr d v.sub = .ok te.sub ∧
      nameIn cl cr d v.pred = .ok te.pred ∧ nameIn cl cr d v.obj = .ok te.obj := by
    intro d v hv
    simp only [namesIn, Triple.tryMap] at hv
    split at hv
    · cases hv
    · split at hv
      · cases hv
      · split at hv
        · cases hv
        · rename_i e1 _ _ e2 _ _ e3
          cases hv
          exact ⟨e1, e2, e3⟩
  obtain ⟨a1, a2, a3⟩ := parts h1
  obtain ⟨b1, b2, b3⟩ := parts h2
  cases t; cases t'
  rw [Triple.mk.injEq]
  exact ⟨one a1 b1, one a2 b2, one a3 b3⟩

/-- Whatever the threads do, all calls and all races allowed: the items are for different triples of entities, in the order of their
ids.  An item is `MissingPropertyData`, or the triple with the names its ids had and the properties it had when its entry was
read. -/
theorem C80_edges (hl : cl.RoundTrips) (hr : cr.RoundTrips) (tl : cl.Total) (tr : cr.Total) (hc : c.RoundTrip)
    (h : Life cl cr c mN mE E C d0) (hf : (SledIndex.impl cl cr).Shows d0.names f)
    (hi : NewIdsFor f d0.data (threads.flatten.map Prod.fst)) (hn : FreshNames d0.data (threads.flatten.map Prod.fst))
    (hm : RdfSled.Moments cl cr c mN mE d0 threads D) (hl' : RdfSled.Reading D o l) :
    ∃ es : List (Triple Ulid × Triple Entity), es.Pairwise (fun a b => edgeLT o a.1 b.1 ∧ a.2 ≠ b.2) ∧
      List.Forall₂ (fun e x => x.key = (encOf o e.1).1 ∧ namesIn cl cr (D x.scan) e.1 = .ok e.2 ∧
        (rdfItem cl cr c D o x = .error (.graph .missing) ∨
          ∃ p, rdfItem cl cr c D o x = .ok (e.2, p) ∧ .ok (e.2, p) ∈ edgesAt cl cr c mN mE (D x.scan) o)) es l := by
  have key : ∀ x ∈ l, ∃ e : Triple Ulid × Triple Entity, x.key = (encOf o e.1).1 ∧ namesIn cl cr (D x.scan) e.1 = .ok e.2 ∧
      (rdfItem cl cr c D o x = .error (.graph .missing) ∨
        ∃ p, rdfItem cl cr c D o x = .ok (e.2, p) ∧ .ok (e.2, p) ∈ edgesAt cl cr c mN mE (D x.scan) o) := by
    intro x hx
    obtain ⟨t, te, h1, h2, h3⟩ := rdf_item hl hr tl tr hc h hf hi hn hm hl' hx
    exact ⟨(t, te), h1, h2, h3.imp And.left id⟩
  have hsorted : l.Pairwise (fun x y => x.key < y.key ∧ x.scan ≤ y.scan) := by
    have h1 := hl'.data.sorted
    have h2 := hl'.data.scan.times
    rw [List.pairwise_map] at h1 h2
    rw [List.pairwise_map] at h2
    exact List.Pairwise.and h1 h2
  clear hl'
  induction l with
  | nil => exact ⟨[], .nil, .nil⟩
  | cons x l ih =>
    obtain ⟨hlt, hsorted⟩ := List.pairwise_cons.1 hsorted
    obtain ⟨e, he⟩ := key x List.mem_cons_self
    obtain ⟨es, h1, h2⟩ := ih (fun y hy => key y (List.mem_cons_of_mem _ hy)) hsorted
    refine ⟨e :: es, List.pairwise_cons.2 ⟨fun e' he' => ?_, h1⟩, .cons he h2⟩
    obtain ⟨y, hy, k1, k2, -⟩ := forall₂_left h2 he'
    obtain ⟨hk, hs⟩ := hlt y hy
    rw [he.1, k1] at hk
    have hlt' := (encOf_lt o).1 hk
    refine ⟨hlt', fun e1 => ?_⟩
    have := names_differ hl hr tl tr hc h hf hm hs he.2.1 (e1 ▸ k2)
    rw [this] at hk
    exact lt_irrefl _ hk

theorem rdf_start_moments (hm : RdfSled.Moments cl cr c mN mE d0 threads D) :
    ∃ D' : Nat → RdfDb, RdfSled.Moments cl cr c mN mE d0 threads D' ∧ D' 0 = d0 ∧ ∀ m, D' (m + 1) = D m := by
  obtain ⟨X, hX0, hX, hD⟩ := hm
  refine ⟨fun m => match m with | 0 => d0 | m + 1 => D m, ⟨fun m => match m with
    | 0 => (d0, threads.map (List.map (PieceCall.prog cl cr c mN mE)))
    | m + 1 => X m, .refl _, fun m => ?_, fun m => ?_⟩, rfl, fun _ => rfl⟩
  · cases m with
    | zero => exact hX0
    | succ m => exact hX m
  · cases m with
    | zero => rfl
    | succ m => exact hD m

theorem once_key {l : List RdfSled.Seen} (h : l.Pairwise (fun a b => a.key < b.key)) {x y : RdfSled.Seen} (hx : x ∈ l) (hy : y ∈ l)
    (e : x.key = y.key) : x = y := by
  induction l with
  | nil => cases hx
  | cons z l ih =>
    obtain ⟨h1, h2⟩ := List.pairwise_cons.1 h
    rcases List.mem_cons.1 hx with hx | hx <;> rcases List.mem_cons.1 hy with hy | hy
    · rw [hx, hy]
    · exact absurd (h1 y hy) (by rw [← hx, e]; exact lt_irrefl _)
    · exact absurd (h1 x hx) (by rw [← hy, e]; exact lt_irrefl _)
    · exact ih h2 hx hy

/-- an edge of the RDF store is one of the triple store -/
theorem edge_shown {d : RdfDb} {te : Triple Entity} {p : EP} (h : .ok (te, p) ∈ edgesAt cl cr c mN mE d o) :
    ∃ t : Triple Ulid, namesIn cl cr d t = .ok te ∧ .ok (t, p) ∈ Sled.iterEdges Ulid c d.data o := by
  obtain ⟨y, hy, e⟩ := List.mem_map.1 h
  change Rdf.edgeItem (SledIndex.impl cl cr) d.names y = _ at e
  cases y with
  | error y => cases e
  | ok y =>
    obtain ⟨t, q⟩ := y
    simp only [Rdf.edgeItem] at e
    split at e
    · cases e
    · rename_i te' he
      cases e
      exact ⟨t, he, hy⟩

/-- so is a node -/
theorem node_shown {d : RdfDb} {e : Entity} {p : NP} : .ok (e, p) ∈ nodesAt cl cr c mN mE d ↔
    ∃ n : Ulid, nameIn cl cr d n = .ok e ∧ .ok (n, p) ∈ Sled.iterVertices Ulid c d.data := by
  constructor
  · intro h
    obtain ⟨y, hy, e'⟩ := List.mem_map.1 h
    change Rdf.vertexItem (SledIndex.impl cl cr) d.names y = _ at e'
    cases y with
    | error y => cases e'
    | ok y =>
      obtain ⟨n, q⟩ := y
      simp only [Rdf.vertexItem] at e'
      split at e'
      · cases e'
      · rename_i te' he
        cases e'
        exact ⟨n, he, hy⟩
  · rintro ⟨n, h1, h2⟩
    refine List.mem_map.2 ⟨_, h2, ?_⟩
    change Rdf.vertexItem (SledIndex.impl cl cr) d.names (.ok (n, p)) = _
    simp only [Rdf.vertexItem]
    rw [show Rdf.lookupId (SX := SErr) (SledIndex.impl cl cr) d.names n = .ok e from h1]

/-- An edge that was there at the start, and which no call removes, with or without one of its ends, or merges into, is returned,
once, with its name and with properties it had when its entry was read; not as an error.  It may be inserted again, and extended.
The other edges may be subject to any races. -/
theorem C80_kept (hl : cl.RoundTrips) (hr : cr.RoundTrips) (tl : cl.Total) (tr : cr.Total) (hc : c.RoundTrip)
    (h : Life cl cr c mN mE E C d0) (hf : (SledIndex.impl cl cr).Shows d0.names f)
    (hi : NewIdsFor f d0.data (threads.flatten.map Prod.fst)) (hn : FreshNames d0.data (threads.flatten.map Prod.fst))
    (hm : RdfSled.Moments cl cr c mN mE d0 threads D) (hl' : RdfSled.Reading D o l) {te : Triple Entity} {p : EP} {o' : EdgeOrder}
    (hp : .ok (te, p) ∈ edgesAt cl cr c mN mE d0 o')
    (hx : ∀ t, tripleIn f te = some t → ∀ th ∈ threads, ∀ x ∈ th, x.1.Spares f t) :
    ∃ x ∈ l, (∃ p, rdfItem cl cr c D o x = .ok (te, p) ∧ .ok (te, p) ∈ edgesAt cl cr c mN mE (D x.scan) o) ∧
      ∀ y ∈ l, (∃ p, rdfItem cl cr c D o y = .ok (te, p)) → y = x := by
  obtain ⟨_, _, _, inv, _⟩ := h.leaves hl hr tl tr hc
  obtain ⟨t, hte, hp⟩ := edge_shown hp
  obtain ⟨D', hD', hD0, hD⟩ := rdf_start_moments hm
  have hid : ∀ o, (D' 0).data.idIn o t ≠ none := by
    intro o
    obtain ⟨v, b, h1, -⟩ := Sled.mem_iterEdges_any.1 hp
    rw [inv.same] at h1
    rw [hD0, inv.same, h1]
    simp
  have hold : Old d0.data t := by rw [← hD0]; exact old_of_id (hid .SPO)
  have hft : tripleIn f te = some t := by
    obtain ⟨dec, hdec, href⟩ := Rdf.decoder (r := openOn d0 (fun _ => 0) (fun _ => 0)) (SX := SErr) hf
    rw [show namesIn cl cr d0 t = .ok (t.map dec) from Rdf.tryMap_ok hdec t] at hte
    cases hte
    have one : ∀ u, idIn f (dec u) = some u := by
      intro u
      have := href u
      generalize dec u = e at this
      cases this with
      | name h => exact h
      | id h => rfl
    exact tripleIn_some.2 ⟨one _, one _, one _⟩
  have hsp := hx t hft
  have hall : ∀ m, (D m).data.idIn o t ≠ none := by
    intro m
    obtain ⟨Own, K, M, H, H', g1, g2, g3, g4, -⟩ := hist_rdf hl hr tl tr hc hf (h.well hc) inv hi hn hD' (Nat.zero_le (m + 1))
    rw [← hD]
    exact g3.ids t (g4 t hold hsp) o (hid o)
  obtain ⟨x0, hx0, hk⟩ := hl'.data.complete (Sled.contains_all _) hall
  obtain ⟨x, hxl, rfl⟩ := List.mem_map.1 hx0
  have hnames : ∀ m, namesIn cl cr (D m) t = .ok te := by
    intro m
    obtain ⟨te', k0, k1, k2, k3⟩ := names_entry (o := o) hl hr tl tr hc h hn hD' (t := t) (m := 0) (m1 := m + 1) (m2 := m + 1)
      (m3 := m + 1) (by omega) (by omega) (by omega) (hid o)
    rw [hD0] at k0
    obtain rfl := Except.ok.inj (k0.symm.trans hte)
    rw [hD] at k1 k2 k3
    simp only [namesIn, Triple.tryMap, k1, k2, k3]
  refine ⟨x, hxl, ?_, fun y hy hky => ?_⟩
  · obtain ⟨u, te', h1, h2, h3⟩ := rdf_item hl hr tl tr hc h hf hi hn hm hl' hxl
    obtain rfl := (encOf_inj o).1 (hk.symm.trans h1)
    obtain rfl := Except.ok.inj (h2.symm.trans (hnames x.scan))
    rcases h3 with ⟨-, h3⟩ | h3
    · exact absurd ⟨hold, hsp⟩ h3
    · exact h3
  · obtain ⟨u, te', h1, h2, h3⟩ := rdf_item hl hr tl tr hc h hf hi hn hm hl' hy
    obtain ⟨q, hq⟩ := hky
    have e : te' = te := by
      rcases h3 with ⟨h3, -⟩ | ⟨q', h3, -⟩
      · rw [hq] at h3; cases h3
      · rw [hq] at h3; cases h3; rfl
    subst e
    obtain rfl := names_differ hl hr tl tr hc h hf hm le_rfl h2 (hnames y.scan)
    by_contra hne
    have hso := hl'.data.sorted
    rw [List.pairwise_map] at hso
    exact hne (once_key hso hy hxl (h1.trans hk.symm))

/-! ## nodes -/

/-- the item `iter_vertices` of the RDF store returns for an entry -/
abbrev rdfNode (cl : Codec String) (cr : Codec Ulid) (c : Codecs NP EP) (D : Nat → RdfDb) (x : Nat × (Nat × Bytes × Bytes)) :
    Except (RdfErr (SledIndexErr String Ulid) SErr) (Entity × NP) :=
  RdfSled.vertexItem cl cr (D x.1).names (Sled.vertexItem Ulid c x.2.2)

theorem C80_still_nodes (d : RdfDb) {l : List (Nat × (Nat × Bytes × Bytes))} (hl : NodeReading (fun _ => d) l) :
    l.map (rdfNode cl cr c (fun _ => d)) = nodesAt cl cr c mN mE d := by
  have e : nodesAt cl cr c mN mE d = (Sled.iterVertices Ulid c d.data).map (Rdf.vertexItem (SledIndex.impl cl cr) d.names) := rfl
  rw [e, ← (C55_still_nodes (Id := Ulid) (c := c) d.data).2 _ hl.data, List.map_map, List.map_map]
  rfl

/-- `iter_vertices` yields no error, whatever the threads do.  Its items are for different entities, in the order of their ids, with
the name and the properties they had when they were read; those that were there at the start and are not removed are among
them. -/
theorem C80_nodes (hl : cl.RoundTrips) (hr : cr.RoundTrips) (tl : cl.Total) (tr : cr.Total) (hc : c.RoundTrip)
    (h : Life cl cr c mN mE E C d0) (hf : (SledIndex.impl cl cr).Shows d0.names f)
    (hi : NewIdsFor f d0.data (threads.flatten.map Prod.fst)) (hn : FreshNames d0.data (threads.flatten.map Prod.fst))
    (hm : RdfSled.Moments cl cr c mN mE d0 threads D) {l : List (Nat × (Nat × Bytes × Bytes))} (hl' : NodeReading D l) :
    ∃ ns : List (Ulid × (Entity × NP)), l.map (rdfNode cl cr c D) = ns.map (fun x => .ok x.2) ∧
      ns.Pairwise (fun a b => a.1 < b.1 ∧ a.2.1 ≠ b.2.1) ∧
      List.Forall₂ (fun x e => .ok x.2 ∈ nodesAt cl cr c mN mE (D e.2.1)) ns l ∧
      ∀ e n, idIn f e = some n → (∀ th ∈ threads, ∀ x ∈ th, x.1.Leaves f n) → (∃ p, .ok (e, p) ∈ nodesAt cl cr c mN mE d0) →
        ∃ p, (n, (e, p)) ∈ ns := by
  obtain ⟨_, _, _, inv, _⟩ := h.leaves hl hr tl tr hc
  have names := fun {D : Nat → RdfDb} (hm : RdfSled.Moments cl cr c mN mE d0 threads D) {m m' : Nat} (hmm : m ≤ m') {u : Ulid}
      (hu : Sled.Uses (D m).data u) =>
    C80_names (ss := []) (d := d0) hl hr tl tr hc h rfl (by simpa [RdfSled.everyCall] using hn) hm hmm hu
  have key : ∀ e ∈ l, ∃ x : Ulid × (Entity × NP), e.2.2.1 = (toBeBytes x.1).1 ∧ rdfNode cl cr c D e = .ok x.2 ∧
      nameIn cl cr (D e.2.1) x.1 = .ok x.2.1 ∧ .ok x.2 ∈ nodesAt cl cr c mN mE (D e.2.1) := by
    rintro ⟨m', m, k, v⟩ he
    have hle : m ≤ m' := hl'.names _ he
    have hv : (D m).data.nodeProps.get k = some v := (hl'.data.mem _ (List.mem_map_of_mem he)).2.2.2
    obtain ⟨Own, K, M, H, H', g1, -⟩ := hist_rdf hl hr tl tr hc hf (h.well hc) inv hi hn hm (le_refl m)
    obtain ⟨⟨i, rfl⟩, p, hp⟩ := g1.neat.nodes k v hv
    obtain ⟨e, k1, k2⟩ := names hm hle (u := i) (.inl (by rw [hv]; simp))
    have e1 : Sled.vertexItem Ulid c ((toBeBytes i).1, v) = .ok (i, p) := by
      simp [Sled.vertexItem, Sled.decodeId, LawfulId.try_toBe, Sled.deser, hp]
    refine ⟨(i, (e, p)), rfl, ?_, k1, node_shown.2 ⟨i, k1, ?_⟩⟩
    · simp only [rdfNode, RdfSled.vertexItem, e1, Rdf.vertexItem]
      rw [show Rdf.lookupId (SX := SErr) (SledIndex.impl cl cr) (D m').names i = .ok e from k2]
    · rw [Sled.vertexItem_eq]
      exact List.mem_map.2 ⟨_, BMap.mem_entries.2 hv, e1⟩
  have hkept : ∀ e n, idIn f e = some n → (∀ th ∈ threads, ∀ x ∈ th, x.1.Leaves f n) →
      (∃ p, .ok (e, p) ∈ nodesAt cl cr c mN mE d0) → ∃ y ∈ l, y.2.2.1 = (toBeBytes n).1 ∧ nameIn cl cr (D y.2.1) n = .ok e := by
    rintro e n hen hk ⟨p, hp⟩
    obtain ⟨n', hn', hp⟩ := node_shown.1 hp
    have : n' = n := by
      obtain ⟨e', a, r⟩ := hf.lookupId (SX := SErr) n'
      obtain rfl := Except.ok.inj (a.symm.trans hn')
      cases r with
      | name h => rw [show f _ = some n from hen] at h; exact (Option.some.inj h).symm
      | id h => exact Option.some.inj hen
    subst this
    obtain ⟨D', hD', hD0, hD⟩ := rdf_start_moments hm
    have h0 : (D' 0).data.nodeProps.get (toBeBytes n').1 ≠ none := by
      obtain ⟨Own, K, M, H, H', g1, -⟩ := hist_rdf hl hr tl tr hc hf (h.well hc) inv hi hn hD' (le_refl 0)
      rw [← hD0] at hp
      rw [Sled.mem_iterVertices g1.neat.nodes] at hp
      intro e
      simp [Db.graph, e] at hp
    obtain ⟨y, hy, e1⟩ := hl'.data.complete trivial (Sled.contains_all (toBeBytes n').1) (fun m _ => by
      obtain ⟨Own, K, M, H, H', -, -, g3, -, g5⟩ := hist_rdf hl hr tl tr hc hf (h.well hc) inv hi hn hD' (Nat.zero_le (m + 1))
      have := g3.nodes n' (g5 n' (by rw [← hD0]; exact .inl h0) hk) h0
      rw [hD] at this
      exact this)
    obtain ⟨z, hz, rfl⟩ := List.mem_map.1 hy
    obtain ⟨e', k1, k2⟩ := names hD' (Nat.zero_le (z.2.1 + 1)) (u := n') (.inl h0)
    rw [hD0] at k1
    obtain rfl := Except.ok.inj (k1.symm.trans hn')
    exact ⟨z, hz, e1, by rw [← hD]; exact k2⟩
  have hsorted : l.Pairwise (fun x y => x.2.2.1 < y.2.2.1 ∧ x.2.1 ≤ y.2.1) := by
    have h1 := hl'.data.sorted
    have h2 := hl'.data.times
    rw [List.pairwise_map] at h1 h2
    exact List.Pairwise.and h1 h2
  clear hl'
  suffices hh : ∃ ns : List (Ulid × (Entity × NP)), l.map (rdfNode cl cr c D) = ns.map (fun x => .ok x.2) ∧
      ns.Pairwise (fun a b => a.1 < b.1 ∧ a.2.1 ≠ b.2.1) ∧
      List.Forall₂ (fun x e => e.2.2.1 = (toBeBytes x.1).1 ∧ nameIn cl cr (D e.2.1) x.1 = .ok x.2.1 ∧
        .ok x.2 ∈ nodesAt cl cr c mN mE (D e.2.1)) ns l by
    obtain ⟨ns, h1, h2, h3⟩ := hh
    refine ⟨ns, h1, h2, h3.imp (fun _ _ h => h.2.2), fun e n hen hk hp => ?_⟩
    obtain ⟨y, hy, e1, e2⟩ := hkept e n hen hk hp
    obtain ⟨⟨n', e', p⟩, hx, k1, k2, -⟩ := forall₂_left h3.flip hy
    obtain rfl := toBe_inj.1 (e1.symm.trans k1)
    obtain rfl := Except.ok.inj (k2.symm.trans e2)
    exact ⟨p, hx⟩
  clear hkept
  induction l with
  | nil => exact ⟨[], rfl, .nil, .nil⟩
  | cons e l ih =>
    obtain ⟨hlt, hsorted⟩ := List.pairwise_cons.1 hsorted
    obtain ⟨x, hx1, hx2, hx3, hx4⟩ := key e List.mem_cons_self
    obtain ⟨ns, h1, h2, h3⟩ := ih (fun y hy => key y (List.mem_cons_of_mem _ hy)) hsorted
    refine ⟨x :: ns, by rw [List.map_cons, List.map_cons, h1, hx2], List.pairwise_cons.2 ⟨fun y hy => ?_, h2⟩, .cons ⟨hx1, hx3, hx4⟩ h3⟩
    obtain ⟨z, hz, k1, k2, -⟩ := forall₂_left h3 hy
    obtain ⟨hk, hs⟩ := hlt z hz
    rw [hx1, k1] at hk
    have hlt' : x.1 < y.1 := (LawfulId.toBe_lt _ _).1 hk
    refine ⟨hlt', fun e1 => ?_⟩
    have := names_differ hl hr tl tr hc h hf hm hs (t := ⟨x.1, x.1, x.1⟩) (t' := ⟨y.1, y.1, y.1⟩) (te := ⟨x.2.1, x.2.1, x.2.1⟩)
      (by simp only [namesIn, Triple.tryMap, hx3]) (by rw [e1]; simp only [namesIn, Triple.tryMap, k2])
    rw [Triple.mk.injEq] at this
    exact absurd this.1 (ne_of_lt hlt')

/-! ## edges with the properties of their ends -/

/-- `iter_edges_with_props`: after the entry, the subject is looked up at the moment `ms`, the object at the moment `mo`, and then the
names.  An item is `MissingPropertyData`, or the triple with the names its ids had and the properties it had when its entry was read,
and the ends with the properties they had when they were looked up.  It is the latter if no call removes the edge or one of its
ends, or merges into the edge, and all three were there at the start. -/
theorem C80_withProps (hl : cl.RoundTrips) (hr : cr.RoundTrips) (tl : cl.Total) (tr : cr.Total) (hc : c.RoundTrip)
    (h : Life cl cr c mN mE E C d0) (hf : (SledIndex.impl cl cr).Shows d0.names f)
    (hi : NewIdsFor f d0.data (threads.flatten.map Prod.fst)) (hn : FreshNames d0.data (threads.flatten.map Prod.fst))
    (hm : RdfSled.Moments cl cr c mN mE d0 threads D) (hl' : RdfSled.Reading D o l) {x : RdfSled.Seen} (hx : x ∈ l) {ms mo : Nat}
    (hms : x.scan ≤ ms) (hmo : x.scan ≤ mo) :
    ∃ (t : Triple Ulid) (te : Triple Entity), x.key = (encOf o t).1 ∧ namesIn cl cr (D x.scan) t = .ok te ∧
      (RdfSled.propsItem cl cr (D x.sub).names (D x.pred).names (D x.obj).names
          (Sled.propsItem Ulid c (D ms).data (D x.look).data (D mo).data o (x.key, x.id)) = .error (.graph .missing) ∧
        ¬ (Old d0.data t ∧ (∀ th ∈ threads, ∀ x ∈ th, x.1.Spares f t ∧ x.1.Leaves f t.sub ∧ x.1.Leaves f t.obj) ∧
          d0.data.nodeProps.get (toBeBytes t.sub).1 ≠ none ∧ d0.data.nodeProps.get (toBeBytes t.obj).1 ≠ none) ∨
      ∃ sp ep op, RdfSled.propsItem cl cr (D x.sub).names (D x.pred).names (D x.obj).names
          (Sled.propsItem Ulid c (D ms).data (D x.look).data (D mo).data o (x.key, x.id)) =
          .ok { sub := (te.sub, sp), pred := (te.pred, ep), obj := (te.obj, op) } ∧
        .ok (te, ep) ∈ edgesAt cl cr c mN mE (D x.scan) o ∧ .ok (te.sub, sp) ∈ nodesAt cl cr c mN mE (D ms) ∧
        .ok (te.obj, op) ∈ nodesAt cl cr c mN mE (D mo)) := by
  obtain ⟨_, _, _, inv, _⟩ := h.leaves hl hr tl tr hc
  have hx' := List.mem_map_of_mem (f := RdfSled.Seen.toSeen) hx
  have later := hl'.data.later _ hx'
  obtain ⟨n1, n2, n3⟩ := hl'.names x hx
  obtain ⟨Own, K, M, H, H', g1, g2, g3, g4, -⟩ := hist_rdf hl hr tl tr hc hf (h.well hc) inv hi hn hm later
  obtain ⟨t, ht, hid, hh⟩ := g3.entry g1 g2 (hl'.data.mem hx').2
  have hne : (D x.scan).data.idIn o t ≠ none := by rw [hid]; simp
  obtain ⟨te, k0, k1, k2, k3⟩ := names_entry (o := o) hl hr tl tr hc h hn hm (t := t) (m := x.scan) (m1 := x.sub) (m2 := x.pred) (m3 := x.obj)
    (by omega) (by omega) (by omega) hne
  obtain ⟨te', k0', q1, -, q3⟩ := names_entry (o := o) hl hr tl tr hc h hn hm (t := t) (m := x.scan) (m1 := ms) (m2 := ms) (m3 := mo)
    hms hms hmo hne
  obtain rfl := Except.ok.inj (k0'.symm.trans k0)
  have node : ∀ (i : Nat) (k : Ulid) (e : Entity), nameIn cl cr (D i) k = .ok e →
      (Sled.getData c.n (D i).data.nodeProps (toBeBytes k).1 = .ok none ∧
        ¬ ((∀ th ∈ threads, ∀ x ∈ th, x.1.Leaves f k) ∧ d0.data.nodeProps.get (toBeBytes k).1 ≠ none)) ∨
      ∃ p, Sled.getData c.n (D i).data.nodeProps (toBeBytes k).1 = .ok (some p) ∧ .ok (e, p) ∈ nodesAt cl cr c mN mE (D i) := by
    intro i k e he
    obtain ⟨Own, K, M, H, H', j1, -⟩ := hist_rdf hl hr tl tr hc hf (h.well hc) inv hi hn hm (le_refl i)
    cases hv : (D i).data.nodeProps.get (toBeBytes k).1 with
    | none =>
      refine .inl ⟨by simp [Sled.getData, hv], ?_⟩
      rintro ⟨hk, hp⟩
      obtain ⟨D', hD', hD0, hD⟩ := rdf_start_moments hm
      obtain ⟨Own, K, M, H, H', -, -, j3, -, j5⟩ := hist_rdf hl hr tl tr hc hf (h.well hc) inv hi hn hD' (Nat.zero_le (i + 1))
      exact j3.nodes k (j5 k (.inl hp) hk) (by rw [hD0]; exact hp) (by rw [hD]; exact hv)
    | some v =>
      obtain ⟨-, p, hp⟩ := j1.neat.nodes _ v hv
      refine .inr ⟨p, by simp [Sled.getData, hv, hp], node_shown.2 ⟨k, he, ?_⟩⟩
      rw [Sled.mem_iterVertices j1.neat.nodes]
      simp [Db.graph, hv, hp]
  have edge : Sled.getData c.e (D x.look).data.edgeProps x.id = .ok none ∧
        ¬ (Old d0.data t ∧ ∀ th ∈ threads, ∀ x ∈ th, x.1.Spares f t) ∨
      ∃ p, Sled.getData c.e (D x.look).data.edgeProps x.id = .ok (some p) ∧ .ok (te', p) ∈ edgesAt cl cr c mN mE (D x.scan) o := by
    rcases hh with ⟨e1, e2⟩ | ⟨b, p, e1, e2, e3⟩
    · exact .inl ⟨by simp [Sled.getData, e1], fun ⟨a, b⟩ => e2 (g4 t a b)⟩
    · refine .inr ⟨p, by simp [Sled.getData, e1, e2], List.mem_map.2 ⟨.ok (t, p), (Sled.mem_iterEdges (g1.neat.keys o) t p).2 e3, ?_⟩⟩
      change Rdf.edgeItem (SledIndex.impl cl cr) (D x.scan).names (.ok (t, p)) = _
      simp only [Rdf.edgeItem]
      rw [show t.tryMap (fun u => Rdf.lookupId (SX := SErr) (SledIndex.impl cl cr) (D x.scan).names u) = .ok te' from k0]
  refine ⟨t, te', ht, k0, ?_⟩
  have hdec : Sled.decodeEntry (Sled.decoder (Id := Ulid) o) (x.key, x.id) = .ok (t, x.id) := by
    rw [show x.key = _ from ht, Sled.decoder_eq, decodeEntry_enc]
  unfold Sled.propsItem
  rw [hdec]
  dsimp only
  rcases node ms t.sub _ q1 with ⟨e1, m1⟩ | ⟨sp, e1, m1⟩ <;> rcases edge with ⟨e2, m2⟩ | ⟨ep, e2, m2⟩ <;>
    rcases node mo t.obj _ q3 with ⟨e3, m3⟩ | ⟨op, e3, m3⟩ <;> simp only [e1, e2, e3]
  all_goals first
    | exact .inr ⟨sp, ep, op, by simp only [RdfSled.propsItem, k1, k2, k3], m2, m1, m3⟩
    | exact .inl ⟨rfl, fun h => m1 ⟨fun th hth x hx => (h.2.1 th hth x hx).2.1, h.2.2.1⟩⟩
    | exact .inl ⟨rfl, fun h => m2 ⟨h.1, fun th hth x hx => (h.2.1 th hth x hx).1⟩⟩
    | exact .inl ⟨rfl, fun h => m3 ⟨fun th hth x hx => (h.2.1 th hth x hx).2.2, h.2.2.2⟩⟩

/-! ## samples -/

/-- the threads of a process, after some turns -/
def rdfAt (s : RSession) (l : List Nat) : RdfDb := (rdfProc s l rdfDb0).1

theorem rdfAt_moments (s : RSession) (l : List Nat) :
    RdfSled.Moments Sample.names Sample.ids Sample.uc Sample.mN Sample.mE rdfDb0 s.threads (fun m => rdfAt s (l.take m)) := by
  refine ⟨fun m => rdfProc s (l.take m) rdfDb0, .refl _, fun m => ?_, fun _ => rfl⟩
  dsimp only [rdfProc]
  rw [List.take_add_one, List.foldl_append]
  cases l[m]? with
  | none => exact .refl _
  | some i =>
    rcases turn_calm (rdfProc s (l.take m) rdfDb0) i with e | e
    · exact (congrArg (Steps _) e).mpr (.refl _)
    · exact (CalmSteps.tail (.refl _) e).steps

/-- All entries are read at the first moment; the record of the `j`th one is looked up at the moment `look j`, its names at the moment
`look j + 1`, `look j + 2` and `look j + 3`. -/
theorem rdf_reading_first (D : Nat → RdfDb) (o : EdgeOrder) (look : Nat → Nat) :
    RdfSled.Reading D o (((D 0).data.tree o).entries.mapIdx (fun j e =>
      (⟨⟨0, look j, e.1, e.2⟩, look j + 1, look j + 2, look j + 3⟩ : RdfSled.Seen))) := by
  refine ⟨?_, ?_⟩
  · refine cast ?_ (reading_first (fun m => (D m).data) o look)
    congr 1
    refine List.ext_getElem? (fun j => ?_)
    rw [List.getElem?_map, List.getElem?_mapIdx, List.getElem?_mapIdx, Option.map_map]
    rfl
  · intro x hx
    obtain ⟨j, hj, rfl⟩ := List.mem_mapIdx.1 hx
    exact ⟨Nat.le_add_right _ _, by dsimp only; omega, by dsimp only; omega⟩

theorem rdfDb0_nodeKeys : rdfDb0.data.nodeProps.entries.map Prod.fst = [(toBeBytes (Sample.ul 0 0)).1] := by decide +kernel

theorem rdfDb0_edgeKeys : ∀ o, (rdfDb0.data.tree o).entries.map Prod.fst =
    [(encOf o (⟨Sample.ul 50 0, Sample.ul 50 1, 5⟩ : Triple Ulid)).1] := by
  intro o
  cases o <;> decide +kernel

/-- the ids in the database -/
theorem rdfDb0_uses {u : Ulid} (h : Sled.Uses rdfDb0.data u) : u ∈ [Sample.ul 0 0, Sample.ul 50 0, Sample.ul 50 1, 5] := by
  rcases h with h | ⟨o, t, h, ht⟩
  · obtain ⟨v, hv⟩ := Option.ne_none_iff_exists'.1 h
    have hm : (toBeBytes u).1 ∈ rdfDb0.data.nodeProps.entries.map Prod.fst := List.mem_map.2 ⟨_, BMap.mem_entries.2 hv, rfl⟩
    rw [rdfDb0_nodeKeys, List.mem_singleton] at hm
    rw [toBe_inj.1 hm]
    exact List.mem_cons_self
  · obtain ⟨v, hv⟩ := Option.ne_none_iff_exists'.1 h
    have hm : (encOf o t).1 ∈ (rdfDb0.data.tree o).entries.map Prod.fst := List.mem_map.2 ⟨_, BMap.mem_entries.2 hv, rfl⟩
    rw [rdfDb0_edgeKeys, List.mem_singleton] at hm
    obtain rfl := (encOf_inj o).1 hm
    rcases ht with rfl | rfl | rfl <;> simp

theorem rdfDb0_freshNames {ss : List RSession} {C : List Nat}
    (h1 : ∀ n ∈ ((RdfSled.everyCall ss).flatMap Call.ulids).map Fin.val,
      n ∉ [(Sample.ul 0 0).val, (Sample.ul 50 0).val, (Sample.ul 50 1).val, 5])
    (h2 : ∀ x ∈ RdfSled.everyCall ss, ∀ n ∈ (ulids x.op.entities).map Fin.val, n ∈ C)
    (h3 : ∀ n ∈ ((RdfSled.everyCall ss).flatMap Call.ulids).map Fin.val, n ∉ C) :
    FreshNames rdfDb0.data (RdfSled.everyCall ss) where
  unused u hu h := by
    refine h1 _ (List.mem_map_of_mem hu) ?_
    exact List.mem_map_of_mem (f := Fin.val) (rdfDb0_uses h)
  given u hu x hx h := h3 _ (List.mem_map_of_mem hu) (h2 x hx _ (List.mem_map_of_mem h))

/-- one thread inserts the edge of the sample database again, one inserts another one and removes it, one removes a node -/
def rwriters : RSession :=
  { crash := false
    threads := [[calledWith 100 (.insertEdge ⟨.string "knows", .string "of", .ulid 5⟩ 9), calledWith 150 (.mergeNode (.string "dave") 1)],
      [calledWith 200 (.insertEdge ⟨.string "dave", .string "knows", .string "bob"⟩ 4),
        calledWith 250 (.removeEdge ⟨.string "dave", .string "knows", .string "bob"⟩)],
      [calledWith 300 (.removeNode (.string "bob")), calledWith 350 (.mergeNode (.string "alice") 5)]] }

theorem rwriters_new {f : String → Option Ulid} (hf : (SledIndex.impl Sample.names Sample.ids).Shows rdfDb0.names f) :
    NewIdsFor f rdfDb0.data (rwriters.threads.flatten.map Prod.fst) := by
  have h1 : (((RdfSled.everyCall [rwriters]).flatMap Call.ulids).map Fin.val).Nodup := by decide +kernel
  have h2 : (((RdfSled.everyCall [rwriters]).flatMap Call.records).map Fin.val).Nodup := by decide +kernel
  have h3 : ∀ n ∈ ((RdfSled.everyCall [rwriters]).flatMap Call.ulids).map Fin.val,
      n ∉ [(Sample.ul 0 0).val, (Sample.ul 50 0).val, (Sample.ul 50 1).val, 5] := by decide +kernel
  have h4 : ∀ n ∈ ((RdfSled.everyCall [rwriters]).flatMap Call.records).map Fin.val, n ≠ (Sample.eg 50 0).val := by decide +kernel
  have := rdfDb0_newIds hf h1 h2 h3 h4
  simpa [RdfSled.everyCall] using this

theorem rwriters_fresh : FreshNames rdfDb0.data (rwriters.threads.flatten.map Prod.fst) := by
  have h1 : ∀ n ∈ ((RdfSled.everyCall [rwriters]).flatMap Call.ulids).map Fin.val,
      n ∉ [(Sample.ul 0 0).val, (Sample.ul 50 0).val, (Sample.ul 50 1).val, 5] := by decide +kernel
  have h2 : ∀ x ∈ RdfSled.everyCall [rwriters], ∀ n ∈ (ulids x.op.entities).map Fin.val, n ∈ [5] := by decide +kernel
  have h3 : ∀ n ∈ ((RdfSled.everyCall [rwriters]).flatMap Call.ulids).map Fin.val, n ∉ [5] := by decide +kernel
  have := rdfDb0_freshNames h1 h2 h3
  simpa [RdfSled.everyCall] using this

/-- a process after these: threads which remove a node and add an edge to it -/
def rlater : RSession :=
  { crash := false
    threads := [[calledWith 600 (.removeNode (.string "eve"))],
      [calledWith 700 (.insertEdge ⟨.string "eve", .string "of", .string "zoe"⟩ 70), calledWith 750 (.insertNode (.ulid 6) 1)]] }

/-- An id that is in use keeps its name: here, after two processes which race, one of which crashes. -/
example (D : Nat → RdfDb) (hm : RdfSled.Moments Sample.names Sample.ids Sample.uc Sample.mN Sample.mE rdb2 rlater.threads D) (m m' : Nat)
    (hmm : m ≤ m') (u : Ulid) (hu : Sled.Uses (D m).data u) :
    ∃ e, nameIn Sample.names Sample.ids (D m) u = .ok e ∧ nameIn Sample.names Sample.ids (D m') u = .ok e := by
  have h1 : ∀ n ∈ ((RdfSled.everyCall [rproc1, rproc2, rlater]).flatMap Call.ulids).map Fin.val,
      n ∉ [(Sample.ul 0 0).val, (Sample.ul 50 0).val, (Sample.ul 50 1).val, 5] := by decide +kernel
  have h2 : ∀ x ∈ RdfSled.everyCall [rproc1, rproc2, rlater], ∀ n ∈ (ulids x.op.entities).map Fin.val, n ∈ [6] := by decide +kernel
  have h3 : ∀ n ∈ ((RdfSled.everyCall [rproc1, rproc2, rlater]).flatMap Call.ulids).map Fin.val, n ∉ [6] := by decide +kernel
  have hn := rdfDb0_freshNames h1 h2 h3
  have e : RdfSled.everyCall [rproc1, rproc2, rlater] = RdfSled.everyCall [rproc1, rproc2] ++ rlater.threads.flatten.map Prod.fst := by
    simp [RdfSled.everyCall]
  rw [e] at hn
  exact C80_names Sample.names_rt Sample.ids_rt Sample.names_total Sample.ids_total Sample.uc_rt rdfDb0_life rprocs_lead hn hm hmm hu

/-- an id that is given as an argument before it is drawn -/
def rguess : RSession :=
  { crash := false
    threads := [[calledWith 100 (.insertNode (.ulid (Sample.ul 200 0)) 1)], [calledWith 200 (.insertNode (.string "zoe") 2)]] }

/-- The name of an id in use may change if somebody gives an id as an argument which is drawn later. -/
theorem C80_names_witness : ∃ (D : Nat → RdfDb) (u : Ulid),
    RdfSled.Moments Sample.names Sample.ids Sample.uc Sample.mN Sample.mE rdfDb0 rguess.threads D ∧
      nameIn Sample.names Sample.ids (D 1) u = .ok (.ulid u) ∧ Sled.Uses (D 1).data u ∧
      nameIn Sample.names Sample.ids (D 4) u = .ok (.string "zoe") :=
  ⟨_, Sample.ul 200 0, rdfAt_moments rguess [0, 1, 1, 1], by decide +kernel, .inl (by decide +kernel), by decide +kernel⟩

/-- The items are as the theorem says whatever the schedule, and whenever the entries are read. -/
example (f : String → Option Ulid) (hf : (SledIndex.impl Sample.names Sample.ids).Shows rdfDb0.names f) (D : Nat → RdfDb)
    (hm : RdfSled.Moments Sample.names Sample.ids Sample.uc Sample.mN Sample.mE rdfDb0 rwriters.threads D) (l : List RdfSled.Seen)
    (hl : RdfSled.Reading D .POS l) :
    ∃ es : List (Triple Ulid × Triple Entity), es.Pairwise (fun a b => edgeLT .POS a.1 b.1 ∧ a.2 ≠ b.2) ∧
      List.Forall₂ (fun e x => x.key = (encOf .POS e.1).1 ∧ namesIn Sample.names Sample.ids (D x.scan) e.1 = .ok e.2 ∧
        (rdfItem Sample.names Sample.ids Sample.uc D .POS x = .error (.graph .missing) ∨
          ∃ p, rdfItem Sample.names Sample.ids Sample.uc D .POS x = .ok (e.2, p) ∧
            .ok (e.2, p) ∈ edgesAt Sample.names Sample.ids Sample.uc Sample.mN Sample.mE (D x.scan) .POS)) es l :=
  C80_edges Sample.names_rt Sample.ids_rt Sample.names_total Sample.ids_total Sample.uc_rt rdfDb0_life hf (rwriters_new hf) rwriters_fresh
    hm hl

/-- the moments when the first thread has inserted its edge, and the second one is about to remove its own -/
def rwriterTurns : List Nat := [1, 1, 1, 1, 1, 1, 1, 1, 0, 0, 0, 0, 1, 1, 1, 1, 1, 1, 2, 2, 2, 2, 2, 2]

/-- Two entries are read at the eighth moment.  One is removed before its record is read. -/
example :
    let D : Nat → RdfDb := fun m => rdfAt rwriters (rwriterTurns.take (8 + m))
    (((D 0).data.tree .SPO).entries.mapIdx (fun j e => (⟨⟨0, 12 * j, e.1, e.2⟩, 12 * j + 1, 12 * j + 2, 12 * j + 3⟩ : RdfSled.Seen))).map
        (rdfItem Sample.names Sample.ids Sample.uc D .SPO) =
      [.ok (⟨.string "knows", .string "of", .ulid 5⟩, 7), .error (.graph .missing)] ∧
    edgesAt Sample.names Sample.ids Sample.uc Sample.mN Sample.mE (D 0) .SPO =
      [.ok (⟨.string "knows", .string "of", .ulid 5⟩, 7), .ok (⟨.string "dave", .string "knows", .string "bob"⟩, 4)] := by
  decide +kernel

theorem rdfDb0_edgesAt (o : EdgeOrder) : edgesAt Sample.names Sample.ids Sample.uc Sample.mN Sample.mE rdfDb0 o =
    [.ok (⟨.string "knows", .string "of", .ulid 5⟩, 7)] := by
  cases o <;> decide +kernel

theorem rdfDb0_f {f : String → Option Ulid} (hf : (SledIndex.impl Sample.names Sample.ids).Shows rdfDb0.names f) :
    f "alice" = some (Sample.ul 0 0) ∧ f "knows" = some (Sample.ul 50 0) ∧ f "of" = some (Sample.ul 50 1) ∧ f "dave" = none ∧
      f "bob" = none := by
  have h1 : (SledIndex.impl Sample.names Sample.ids).leftToRight rdfDb0.names "alice" = .ok (some (Sample.ul 0 0)) := by decide +kernel
  have h2 : (SledIndex.impl Sample.names Sample.ids).leftToRight rdfDb0.names "knows" = .ok (some (Sample.ul 50 0)) := by decide +kernel
  have h3 : (SledIndex.impl Sample.names Sample.ids).leftToRight rdfDb0.names "of" = .ok (some (Sample.ul 50 1)) := by decide +kernel
  have h4 : (SledIndex.impl Sample.names Sample.ids).leftToRight rdfDb0.names "dave" = .ok none := by decide +kernel
  have h5 : (SledIndex.impl Sample.names Sample.ids).leftToRight rdfDb0.names "bob" = .ok none := by decide +kernel
  exact ⟨Except.ok.inj ((hf.left _).symm.trans h1), Except.ok.inj ((hf.left _).symm.trans h2), Except.ok.inj ((hf.left _).symm.trans h3),
    Except.ok.inj ((hf.left _).symm.trans h4), Except.ok.inj ((hf.left _).symm.trans h5)⟩

/-- The edge which is inserted again is returned, once. -/
example (f : String → Option Ulid) (hf : (SledIndex.impl Sample.names Sample.ids).Shows rdfDb0.names f) (D : Nat → RdfDb)
    (hm : RdfSled.Moments Sample.names Sample.ids Sample.uc Sample.mN Sample.mE rdfDb0 rwriters.threads D) (o : EdgeOrder)
    (l : List RdfSled.Seen) (hl : RdfSled.Reading D o l) :
    ∃ x ∈ l, (∃ p, rdfItem Sample.names Sample.ids Sample.uc D o x = .ok (⟨.string "knows", .string "of", .ulid 5⟩, p) ∧
        .ok (⟨.string "knows", .string "of", .ulid 5⟩, p) ∈ edgesAt Sample.names Sample.ids Sample.uc Sample.mN Sample.mE (D x.scan) o) ∧
      ∀ y ∈ l, (∃ p, rdfItem Sample.names Sample.ids Sample.uc D o y = .ok (⟨.string "knows", .string "of", .ulid 5⟩, p)) → y = x := by
  obtain ⟨f1, f2, f3, f4, f5⟩ := rdfDb0_f hf
  refine C80_kept Sample.names_rt Sample.ids_rt Sample.names_total Sample.ids_total Sample.uc_rt rdfDb0_life hf (rwriters_new hf)
    rwriters_fresh hm hl (o' := .SPO) (p := 7) (by rw [rdfDb0_edgesAt]; exact List.mem_singleton.2 rfl) ?_
  intro t ht
  simp only [rwriters, List.forall_mem_cons]
  simp [calledWith, Call.Spares, idIn, tripleIn, f4, f5]

/-- The nodes are read without errors; "alice", which is merged into, is among them. -/
example (f : String → Option Ulid) (hf : (SledIndex.impl Sample.names Sample.ids).Shows rdfDb0.names f) (D : Nat → RdfDb)
    (hm : RdfSled.Moments Sample.names Sample.ids Sample.uc Sample.mN Sample.mE rdfDb0 rwriters.threads D)
    (l : List (Nat × (Nat × Bytes × Bytes))) (hl : NodeReading D l) :
    ∃ p : Nat, .ok (Entity.string "alice", p) ∈ l.map (rdfNode Sample.names Sample.ids Sample.uc D) := by
  obtain ⟨f1, f2, f3, f4, f5⟩ := rdfDb0_f hf
  obtain ⟨ns, h1, -, -, h2⟩ := C80_nodes Sample.names_rt Sample.ids_rt Sample.names_total Sample.ids_total Sample.uc_rt rdfDb0_life hf
    (rwriters_new hf) rwriters_fresh hm hl
  have hp : .ok (Entity.string "alice", 10) ∈ nodesAt Sample.names Sample.ids Sample.uc Sample.mN Sample.mE rdfDb0 := by decide +kernel
  obtain ⟨p, hp⟩ := h2 (.string "alice") (Sample.ul 0 0) f1 (by
    simp only [rwriters, List.forall_mem_cons]
    simp [calledWith, Call.Leaves, idIn, f5]) ⟨10, hp⟩
  exact ⟨p, by rw [h1]; exact List.mem_map_of_mem (f := fun x : Ulid × (Entity × Nat) => Except.ok x.2) hp⟩

/-- With the properties of the ends: here "knows" is no node, so that there is an error in any case; the names are those of the moment
of the scan. -/
example (f : String → Option Ulid) (hf : (SledIndex.impl Sample.names Sample.ids).Shows rdfDb0.names f) (D : Nat → RdfDb)
    (hm : RdfSled.Moments Sample.names Sample.ids Sample.uc Sample.mN Sample.mE rdfDb0 rwriters.threads D) (o : EdgeOrder)
    (l : List RdfSled.Seen) (hl : RdfSled.Reading D o l) (x : RdfSled.Seen) (hx : x ∈ l) :
    ∃ (t : Triple Ulid) (te : Triple Entity), x.key = (encOf o t).1 ∧ namesIn Sample.names Sample.ids (D x.scan) t = .ok te := by
  obtain ⟨t, te, h1, h2, -⟩ := C80_withProps Sample.names_rt Sample.ids_rt Sample.names_total Sample.ids_total Sample.uc_rt rdfDb0_life hf
    (rwriters_new hf) rwriters_fresh hm hl hx (le_refl _) (le_refl _)
  exact ⟨t, te, h1, h2⟩

/-- another thread merges into the edge of the sample database -/
def rmerge : RSession :=
  { crash := false
    threads := [[calledWith 100 (.mergeEdge ⟨.string "knows", .string "of", .ulid 5⟩ 70)]] }

/-- The code violates the property "an edge which exists all the time is returned by `iter_edges`", if another handle does one
`merge_edge` meanwhile: `MissingPropertyData` is returned for it.  At each moment by itself, the store shows the edge. -/
theorem C80_violated : ∃ (D : Nat → RdfDb) (l : List RdfSled.Seen),
    RdfSled.Moments Sample.names Sample.ids Sample.uc Sample.mN Sample.mE rdfDb0 rmerge.threads D ∧ RdfSled.Reading D .SPO l ∧
      (∀ m, ∃ p, edgesAt Sample.names Sample.ids Sample.uc Sample.mN Sample.mE (D m) .SPO =
        [.ok (⟨.string "knows", .string "of", .ulid 5⟩, p)]) ∧
      l.map (rdfItem Sample.names Sample.ids Sample.uc D .SPO) = [.error (.graph .missing)] := by
  refine ⟨_, _, rdfAt_moments rmerge (List.replicate 8 0), rdf_reading_first _ .SPO (fun _ => 8), fun m => ?_, by decide +kernel⟩
  have key : ∀ m < 9, edgesAt Sample.names Sample.ids Sample.uc Sample.mN Sample.mE (rdfAt rmerge ((List.replicate 8 0).take m)) .SPO =
        [.ok (⟨.string "knows", .string "of", .ulid 5⟩, 7)] ∨
      edgesAt Sample.names Sample.ids Sample.uc Sample.mN Sample.mE (rdfAt rmerge ((List.replicate 8 0).take m)) .SPO =
        [.ok (⟨.string "knows", .string "of", .ulid 5⟩, Sample.mE 7 70)] := by
    intro m hm
    have : m = 0 ∨ m = 1 ∨ m = 2 ∨ m = 3 ∨ m = 4 ∨ m = 5 ∨ m = 6 ∨ m = 7 ∨ m = 8 := by omega
    rcases this with rfl | rfl | rfl | rfl | rfl | rfl | rfl | rfl | rfl <;>
      first | exact .inl (by decide +kernel) | exact .inr (by decide +kernel)
  have key' : ∀ m, ∃ k < 9, (List.replicate 8 0).take m = (List.replicate 8 0).take k := by
    intro m
    rcases Nat.lt_or_ge m 9 with h | h
    · exact ⟨m, h, rfl⟩
    · exact ⟨8, by omega, by rw [List.take_of_length_le (by simp; omega), List.take_of_length_le (by simp)]⟩
  obtain ⟨k, hk, e⟩ := key' m
  rw [e]
  exact (key k hk).elim (fun h => ⟨_, h⟩) (fun h => ⟨_, h⟩)

end Verif.Props
