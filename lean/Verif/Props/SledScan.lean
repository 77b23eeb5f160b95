import Verif.Proof.SledReading
import Verif.Props.SledFrame

/-!
# C55: iterating over a sled store while other handles write to it

`Moments c mN mE d0 threads D`: `D 0`, `D 1`, … are the contents of the database at successive moments of an execution of the
threads.  `Reading D o b l`: somebody else traverses an ordering in the meantime, seeing each entry at one moment and its
property record at another.
-/

set_option linter.unusedSectionVars false
set_option maxRecDepth 100000

namespace Verif.Props

open Verif Spec ConcreteId Sled

variable {Id NP EP E : Type} [LinearOrder Id] [ConcreteId Id] [LawfulId Id]
variable {mN : NP → NP → NP} {mE : EP → EP → EP} {c : Codecs NP EP}

/-- the whole ordering -/
abbrev whole : Bound Bytes × Bound Bytes := (.unbounded, .unbounded)

/-- The item `iter_edges` returns for an entry. -/
abbrev itemOf (Id : Type) [LinearOrder Id] [ConcreteId Id] (c : Codecs NP EP) (D : Nat → Db) (o : EdgeOrder) (x : Seen) :
    Except SErr (Triple Id × EP) := edgeItem Id c (D x.look) o (x.key, x.id)

/-! ## nobody writes -/

/-- While nobody writes, there is one reading, and `iter_edges` returns the items of `iterEdges`: whatever the contents. -/
theorem C55_still (d : Db) (o : EdgeOrder) :
    (∃ l, Reading (fun _ => d) o whole l) ∧
    ∀ l, Reading (fun _ => d) o whole l → l.map (itemOf Id c (fun _ => d) o) = iterEdges Id c d o := by
  refine ⟨⟨(d.tree o).entries.map (fun e => ⟨0, 0, e.1, e.2⟩), ?_, ?_⟩, fun l h => ?_⟩
  · have := scan_at (fun _ => d.tree o) whole 0
    rw [range_all] at this
    rw [List.map_map]
    exact this
  · rintro x hx
    obtain ⟨e, -, rfl⟩ := List.mem_map.1 hx
    exact le_rfl
  · have := Scan.still (t := d.tree o) h.scan rfl
    rw [range_all, List.map_map] at this
    rw [edgeItem_eq, ← this, List.map_map]
    rfl

/-- the same for `iter_vertices` -/
theorem C55_still_nodes (d : Db) :
    (∃ l, Scan (fun _ => d.nodeProps) whole 0 none l) ∧
    ∀ l, Scan (fun _ => d.nodeProps) whole 0 none l → l.map (fun e => vertexItem Id c e.2) = iterVertices Id c d := by
  refine ⟨⟨_, scan_at (fun _ => d.nodeProps) whole 0⟩, fun l h => ?_⟩
  have := Scan.still (t := d.nodeProps) h rfl
  rw [range_all] at this
  rw [vertexItem_eq, ← this, List.map_map]
  rfl

/-! ## edges -/

theorem forall₂_left {α β : Type} {R : α → β → Prop} {as : List α} {bs : List β} (h : List.Forall₂ R as bs) {a : α} (ha : a ∈ as) :
    ∃ b ∈ bs, R a b := by
  induction h with
  | nil => cases ha
  | cons h _ ih =>
    rcases List.mem_cons.1 ha with rfl | ha
    · exact ⟨_, List.mem_cons_self, h⟩
    · obtain ⟨b, hb, h⟩ := ih ha
      exact ⟨b, List.mem_cons_of_mem _ hb, h⟩

variable {n m : Nat} {s : SledStore Id} {G : Graph Id NP EP} {threads : List (List (Call E Id NP EP))} {D : Nat → Db}
  {o : EdgeOrder} {b : Bound Bytes × Bound Bytes} {l : List Seen}

/-- Whatever the threads do, all calls and all races allowed: the items are for different triples, in order; an item is
`MissingPropertyData`, or the triple with the properties it had when the entry was read.  (Not: the properties of a later
moment, of another edge, or an error of another kind.) -/
theorem C55_values (hc : c.RoundTrip) (hs : SledStore.Reach E c mN mE n m s) (hi : DistinctIds s.db threads)
    (hw : ScansOf s.db threads) (hm : Moments c mN mE s.db threads D) (hl : Reading D o b l) :
    ∃ ts : List (Triple Id), ts.Pairwise (edgeLT o) ∧
      List.Forall₂ (fun t x => x.key = (encOf o t).1 ∧ (itemOf Id c D o x = .error .missing ∨
        ∃ p, itemOf Id c D o x = .ok (t, p) ∧ .ok (t, p) ∈ iterEdges Id c (D x.scan) o)) ts l := by
  have h0 := (hs.ok hc).inv
  have key : ∀ x ∈ l, ∃ t : Triple Id, x.key = (encOf o t).1 ∧ (itemOf Id c D o x = .error .missing ∨
      ∃ p, itemOf Id c D o x = .ok (t, p) ∧ .ok (t, p) ∈ iterEdges Id c (D x.scan) o) := by
    intro x hx
    obtain ⟨t, h1, -, h2⟩ := hl.item hc h0 hi hw hm hx
    refine ⟨t, h1, ?_⟩
    rcases h2 with ⟨h2, -⟩ | ⟨p, h2, h3⟩
    · exact .inl h2
    · exact .inr ⟨p, h2, (mem_iterEdges ((keys_moments hc h0 hi hw hm x.scan).keys o) t p).2 h3⟩
  have hsorted := hl.sorted
  clear hl
  induction l with
  | nil => exact ⟨[], .nil, .nil⟩
  | cons x l ih =>
    obtain ⟨hlt, hsorted⟩ := List.pairwise_cons.1 hsorted
    obtain ⟨t, ht⟩ := key x List.mem_cons_self
    obtain ⟨ts, h1, h2⟩ := ih (fun y hy => key y (List.mem_cons_of_mem _ hy)) hsorted
    refine ⟨t :: ts, List.pairwise_cons.2 ⟨fun u hu => ?_, h1⟩, .cons ht h2⟩
    obtain ⟨y, hy, e, -⟩ := forall₂_left h2 hu
    have := hlt y hy
    rw [ht.1, e] at this
    exact (encOf_lt o).1 this

/-- An edge that is in the ordering at every moment yields an item, once, whatever the threads do to it; but it may be
`MissingPropertyData` (see `C55_violated`). -/
theorem C55_listed (hc : c.RoundTrip) (hs : SledStore.Reach E c mN mE n m s) (hi : DistinctIds s.db threads)
    (hw : ScansOf s.db threads) (hm : Moments c mN mE s.db threads D) (hl : Reading D o b l) {t : Triple Id}
    (hb : Bound.contains b (encOf o t).1 = true) (ht : ∀ m, ∃ v, ((D m).tree o).get (encOf o t).1 = some v) :
    ∃ x ∈ l, x.key = (encOf o t).1 ∧ (itemOf Id c D o x = .error .missing ∨
      ∃ p, itemOf Id c D o x = .ok (t, p) ∧ .ok (t, p) ∈ iterEdges Id c (D x.scan) o) ∧
      ∀ y ∈ l, y.key = (encOf o t).1 → y = x := by
  have h0 := (hs.ok hc).inv
  obtain ⟨x, hx, hk⟩ := hl.complete hb (fun m => by obtain ⟨v, hv⟩ := ht m; rw [hv]; simp)
  refine ⟨x, hx, hk, ?_, fun y hy hky => hl.once hy hx (hky.trans hk.symm)⟩
  obtain ⟨u, h1, -, h2⟩ := hl.item hc h0 hi hw hm hx
  obtain rfl := (encOf_inj o).1 (hk.symm.trans h1)
  rcases h2 with ⟨h2, -⟩ | ⟨p, h2, h3⟩
  · exact .inl h2
  · exact .inr ⟨p, h2, (mem_iterEdges ((keys_moments hc h0 hi hw hm x.scan).keys o) t p).2 h3⟩

/-- An edge which the other threads only insert again, and which was there at the start, is returned, once, with properties it
had when its entry was read; not as an error.  The other edges may be subject to any races. -/
theorem C55_kept (hc : c.RoundTrip) (hs : SledStore.Reach E c mN mE n m s) (hG : Shows (s.obs c) G) (hi : DistinctIds s.db threads)
    (hw : ScansOf s.db threads) (hm : Moments c mN mE s.db threads D) (hl : Reading D o b l) {t : Triple Id}
    (hb : Bound.contains b (encOf o t).1 = true) (ht : OnlyInserted threads t) (hp : ∃ p, G.edges t = some p) :
    ∃ x ∈ l, (∃ p, itemOf Id c D o x = .ok (t, p) ∧ .ok (t, p) ∈ iterEdges Id c (D x.scan) o) ∧
      ∀ y ∈ l, y.key = (encOf o t).1 → y = x := by
  have h0 := (hs.ok hc).inv
  obtain ⟨D', hD', hD0, hD⟩ := start_moments hm
  have hid : (D' 0).idIn o t ≠ none := by
    obtain ⟨p, hp⟩ := hp
    rw [← hs.graph_of_shows hc hG] at hp
    rw [hD0, h0.same]
    intro e
    have : s.db.idIn .SPO t = none := e
    simp [Db.graph, Db.view, this] at hp
  obtain ⟨x, hx, hk⟩ := hl.complete hb (fun m => by rw [← hD]; exact kept_moments hc h0 hi hw hD' ht o hid (m + 1))
  refine ⟨x, hx, ?_, fun y hy hky => ?_⟩
  · obtain ⟨u, h1, -, h2⟩ := hl.item hc h0 hi hw hm hx
    obtain rfl := (encOf_inj o).1 (hk.symm.trans h1)
    rcases h2 with ⟨-, h2⟩ | ⟨p, h2, h3⟩
    · exact absurd ht h2
    · exact ⟨p, h2, (mem_iterEdges ((keys_moments hc h0 hi hw hm x.scan).keys o) t p).2 h3⟩
  · exact hl.once hy hx (hky.trans hk.symm)

/-- An edge that the other threads do not touch is returned as it was at the start. -/
theorem C55_untouched (hc : c.RoundTrip) (hs : SledStore.Reach E c mN mE n m s) (hG : Shows (s.obs c) G)
    (hi : DistinctIds s.db threads) (hw : ScansOf s.db threads) (hm : Moments c mN mE s.db threads D) (hl : Reading D o whole l)
    {t : Triple Id} (ht : ∀ th ∈ threads, ∀ x ∈ th, ¬ x.TouchesEdge t) (p : EP) :
    .ok (t, p) ∈ l.map (itemOf Id c D o) ↔ G.edges t = some p := by
  have h0 := (hs.ok hc).inv
  have same : ∀ m q, .ok (t, q) ∈ iterEdges Id c (D m) o ↔ G.edges t = some q := fun m q =>
    C54_edge hc hs hG hi hw (moments_moment hm m) ht o q
  constructor
  · intro h
    obtain ⟨x, hx, e⟩ := List.mem_map.1 h
    have e : edgeItem Id c (D x.look) o (x.key, x.id) = .ok (t, p) := e
    obtain ⟨u, h1, -, h2⟩ := hl.item hc h0 hi hw hm hx
    rcases h2 with ⟨h2, -⟩ | ⟨q, h2, h3⟩
    · rw [e] at h2; cases h2
    · rw [e] at h2
      cases h2
      exact (same _ _).1 ((mem_iterEdges ((keys_moments hc h0 hi hw hm x.scan).keys o) t p).2 h3)
  · intro hp
    obtain ⟨x, hx, ⟨q, h1, h2⟩, -⟩ := C55_kept hc hs hG hi hw hm hl (contains_all _)
      (fun th hth x hx h => absurd h (ht th hth x hx)) ⟨p, hp⟩
    rw [(same _ _).1 h2] at hp
    cases hp
    exact List.mem_map.2 ⟨x, hx, h1⟩

/-- If no thread touches an edge otherwise than by `insert_edge`, iteration yields no error; the triples come in order; all edges
there were at the start are among them.

What is missing: threads which remove, merge or extend edges.  `C55_violated`: then there may be errors. -/
theorem C55_noErrors_partial (hc : c.RoundTrip) (hs : SledStore.Reach E c mN mE n m s) (hG : Shows (s.obs c) G)
    (hi : DistinctIds s.db threads) (hw : ScansOf s.db threads) (hm : Moments c mN mE s.db threads D) (hl : Reading D o whole l)
    (ha : ∀ t, OnlyInserted threads t) :
    ∃ es : List (Triple Id × EP), l.map (itemOf Id c D o) = es.map .ok ∧ es.Pairwise (fun x y => edgeLT o x.1 y.1) ∧
      ∀ t p, G.edges t = some p → ∃ q, (t, q) ∈ es := by
  have h0 := (hs.ok hc).inv
  obtain ⟨ts, hts, hall⟩ := C55_values hc hs hi hw hm hl
  have hkept := fun t hp => C55_kept hc hs hG hi hw hm hl (contains_all _) (ha t) hp
  have hne : ∀ x ∈ l, itemOf Id c D o x ≠ .error .missing := by
    intro x hx
    obtain ⟨t, -, -, h⟩ := hl.item hc h0 hi hw hm hx
    rcases h with ⟨-, h⟩ | ⟨p, h, -⟩
    · exact absurd (ha t) h
    · intro e
      have e : edgeItem Id c (D x.look) o (x.key, x.id) = .error .missing := e
      rw [h] at e
      cases e
  have hsome : ∃ es : List (Triple Id × EP), l.map (itemOf Id c D o) = es.map .ok ∧ es.map Prod.fst = ts := by
    clear hts hkept hl
    induction hall with
    | nil => exact ⟨[], rfl, rfl⟩
    | @cons t x ts l h _ ih =>
      obtain ⟨es, h1, h2⟩ := ih (fun y hy => hne y (List.mem_cons_of_mem _ hy))
      obtain ⟨-, h | ⟨p, h, -⟩⟩ := h
      · exact absurd h (hne x List.mem_cons_self)
      · exact ⟨(t, p) :: es, by rw [List.map_cons, List.map_cons, h1, h], by rw [List.map_cons, h2]⟩
  obtain ⟨es, h1, h2⟩ := hsome
  refine ⟨es, h1, ?_, fun t p hp => ?_⟩
  · rw [← h2, List.pairwise_map] at hts
    exact hts
  · obtain ⟨x, hx, ⟨q, hq, -⟩, -⟩ := hkept t ⟨p, hp⟩
    have : .ok (t, q) ∈ l.map (itemOf Id c D o) := List.mem_map.2 ⟨x, hx, hq⟩
    rw [h1] at this
    obtain ⟨e, he, e'⟩ := List.mem_map.1 this
    cases e'
    exact ⟨q, he⟩

/-! ## nodes -/

/-- `iter_vertices` yields no error, whatever the threads do; the nodes come in order, with properties they had when they were read;
those that were there at the start and are no argument of `remove_node` are among them. -/
theorem C55_nodes (hc : c.RoundTrip) (hs : SledStore.Reach E c mN mE n m s) (hG : Shows (s.obs c) G) (hi : DistinctIds s.db threads)
    (hw : ScansOf s.db threads) (hm : Moments c mN mE s.db threads D) {l : List (Nat × Bytes × Bytes)}
    (hl : Scan (fun m => (D m).nodeProps) whole 0 none l) :
    ∃ ns : List (Id × NP), l.map (fun e => vertexItem Id c e.2) = ns.map .ok ∧ ns.Pairwise (fun x y => x.1 < y.1) ∧
      List.Forall₂ (fun x e => .ok x ∈ iterVertices Id c (D e.1)) ns l ∧
      ∀ k, NodeKept threads k → (∃ p, G.nodes k = some p) → ∃ p, (k, p) ∈ ns := by
  have h0 := (hs.ok hc).inv
  have key : ∀ e ∈ l, ∃ x : Id × NP, e.2.1 = (toBeBytes x.1).1 ∧ vertexItem Id c e.2 = .ok x ∧ .ok x ∈ iterVertices Id c (D e.1) := by
    rintro ⟨m, k, v⟩ he
    have hv : (D m).nodeProps.get k = some v := (hl.mem _ he).2.2.2
    obtain ⟨⟨i, rfl⟩, p, hp⟩ := (keys_moments hc h0 hi hw hm m).nodes k v hv
    have e1 : vertexItem Id c ((toBeBytes i).1, v) = .ok (i, p) := by
      simp [vertexItem, decodeId, LawfulId.try_toBe, deser, hp]
    refine ⟨(i, p), rfl, e1, ?_⟩
    rw [vertexItem_eq]
    exact List.mem_map.2 ⟨_, BMap.mem_entries.2 hv, e1⟩
  have hkept : ∀ k, NodeKept threads k → (∃ p, G.nodes k = some p) → ∃ e ∈ l, e.2.1 = (toBeBytes k).1 := by
    intro k hk hp
    obtain ⟨D', hD', hD0, hD⟩ := start_moments hm
    refine hl.complete trivial (contains_all _) (fun m _ => ?_)
    show (D m).nodeProps.get _ ≠ none
    rw [← hD]
    refine keptNode_moments hc h0 hi hw hD' hk ?_ (m + 1)
    obtain ⟨p, hp⟩ := hp
    rw [← hs.graph_of_shows hc hG] at hp
    rw [hD0]
    intro e
    simp [Db.graph, e] at hp
  have hsorted := hl.sorted
  clear hl
  suffices h : ∃ ns : List (Id × NP), l.map (fun e => vertexItem Id c e.2) = ns.map .ok ∧ ns.Pairwise (fun x y => x.1 < y.1) ∧
      List.Forall₂ (fun x e => .ok x ∈ iterVertices Id c (D e.1)) ns l ∧ ∀ e ∈ l, ∃ x ∈ ns, e.2.1 = (toBeBytes x.1).1 by
    obtain ⟨ns, h1, h2, h3, h4⟩ := h
    refine ⟨ns, h1, h2, h3, fun k hk hp => ?_⟩
    obtain ⟨e, he, e1⟩ := hkept k hk hp
    obtain ⟨⟨k', p⟩, hx, e2⟩ := h4 e he
    obtain rfl := toBe_inj.1 (e1.symm.trans e2)
    exact ⟨p, hx⟩
  clear hkept
  induction l with
  | nil => exact ⟨[], rfl, .nil, .nil, by simp⟩
  | cons e l ih =>
    obtain ⟨hlt, hsorted⟩ := List.pairwise_cons.1 hsorted
    obtain ⟨x, hx1, hx2, hx3⟩ := key e List.mem_cons_self
    obtain ⟨ns, h1, h2, h3, h4⟩ := ih (fun y hy => key y (List.mem_cons_of_mem _ hy)) hsorted
    refine ⟨x :: ns, by rw [List.map_cons, List.map_cons, h1, hx2], List.pairwise_cons.2 ⟨fun y hy => ?_, h2⟩, .cons hx3 h3, ?_⟩
    · have : ∀ (l : List (Nat × Bytes × Bytes)) (ns : List (Id × NP)), l.map (fun e => vertexItem Id c e.2) = ns.map .ok → y ∈ ns →
          (∀ e ∈ l, ∃ x : Id × NP, e.2.1 = (toBeBytes x.1).1 ∧ vertexItem Id c e.2 = .ok x) →
          ∃ e ∈ l, e.2.1 = (toBeBytes y.1).1 := by
        intro l ns h hy hk
        have : Except.ok y ∈ l.map (fun e => vertexItem Id c e.2) := by rw [h]; exact List.mem_map_of_mem hy
        obtain ⟨e, he, e1⟩ := List.mem_map.1 this
        obtain ⟨x, h1, h2⟩ := hk e he
        rw [h2] at e1
        cases e1
        exact ⟨e, he, h1⟩
      obtain ⟨e', he', e1⟩ := this l ns h1 hy (fun e he => by
        obtain ⟨x, h1, h2, -⟩ := key e (List.mem_cons_of_mem _ he)
        exact ⟨x, h1, h2⟩)
      have := hlt e' he'
      rw [hx1, e1] at this
      exact LawfulId.toBe_lt _ _ |>.1 this
    · intro e' he'
      rcases List.mem_cons.1 he' with rfl | he'
      · exact ⟨x, List.mem_cons_self, hx1⟩
      · obtain ⟨y, hy, e1⟩ := h4 e' he'
        exact ⟨y, List.mem_cons_of_mem _ hy, e1⟩

/-! ## the scans of `remove_node` -/

/-- The hypotheses which the theorems about threads with a `removeNodeScan` have about what the scans saw (`ScansOf`) are met by
scans made, entry by entry, while the threads are running. -/
theorem C55_scans (hc : c.RoundTrip) (hs : SledStore.Reach E c mN mE n m s) (hi : DistinctIds s.db threads)
    (hw : ScansOf s.db threads) (hm : Moments c mN mE s.db threads D) (k : Id) {fwd bwd : List (Nat × Bytes × Bytes)}
    (hf : Scan (fun m => (D m).spo) (boundBytes (keyBounds1 k)) 0 none fwd)
    (hb : Scan (fun m => (D m).osp) (boundBytes (keyBounds1 k)) 0 none bwd) :
    (∀ e ∈ fwd.map Prod.snd, ∃ t : Triple Id, t.sub = k ∧ e.1 = (encodeSpo t).1 ∧
      (s.db.spo.get e.1 = some e.2 ∨ (e.2, t) ∈ allWrites threads)) ∧
    ∀ e ∈ bwd.map Prod.snd, ∃ t : Triple Id, t.obj = k ∧ e.1 = (encodeOsp t).1 ∧
      (s.db.osp.get e.1 = some e.2 ∨ (e.2, t) ∈ allWrites threads) := by
  have h0 := (hs.ok hc).inv
  have key : ∀ (o : EdgeOrder) (l : List (Nat × Bytes × Bytes)), Scan (fun m => (D m).tree o) (boundBytes (keyBounds1 k)) 0 none l →
      ∀ e ∈ l.map Prod.snd, ∃ t : Triple Id, Bound.contains (keyBounds1 k) (encOf o t) = true ∧ e.1 = (encOf o t).1 ∧
        ((s.db.tree o).get e.1 = some e.2 ∨ (e.2, t) ∈ allWrites threads) := by
    intro o l hl e he
    obtain ⟨⟨m, k', v⟩, hx, rfl⟩ := List.mem_map.1 he
    obtain ⟨-, -, h1, h2⟩ := hl.mem _ hx
    have hn := keys_moments hc h0 hi hw hm m
    obtain ⟨t, ht⟩ := hn.keys o _ _ h2
    dsimp only at ht h1 h2 ⊢
    subst ht
    refine ⟨t, by rw [← contains_boundBytes]; exact h1, rfl, ?_⟩
    rcases hn.refs o t v h2 with h | h
    · exact .inr h
    · rw [← h0.same o] at h
      exact .inl h
  refine ⟨fun e he => ?_, fun e he => ?_⟩
  · obtain ⟨t, h1, h2, h3⟩ := key .SPO fwd hf e he
    exact ⟨t, (LawfulId.kb1_spo k t).1 h1, h2, h3⟩
  · obtain ⟨t, h1, h2, h3⟩ := key .OSP bwd hb e he
    exact ⟨t, (LawfulId.kb1_osp k t).1 h1, h2, h3⟩

/-! ## samples -/

/-- the moments of a schedule -/
theorem leads_moments (threads : List (List (Call String U64 Nat Nat))) (l : List Nat) :
    Moments Sample.uc Sample.mN Sample.mE db0 threads (fun m => leads threads (l.take m)) := by
  refine ⟨fun m => (l.take m).foldl turn (start Sample.uc Sample.mN Sample.mE db0 threads), .refl _, fun m => ?_, fun _ => rfl⟩
  dsimp only
  rw [List.take_add_one, List.foldl_append]
  cases l[m]? with
  | none => exact .refl _
  | some i =>
    rcases turn_calm ((l.take m).foldl turn (start Sample.uc Sample.mN Sample.mE db0 threads)) i with e | e
    · exact (congrArg (Steps _) e).mpr (.refl _)
    · exact (CalmSteps.tail (.refl _) e).steps

/-- All entries are read at the first moment; the record of the `j`th one is looked up at the moment `look j`. -/
theorem reading_first (D : Nat → Db) (o : EdgeOrder) (look : Nat → Nat) :
    Reading D o whole (((D 0).tree o).entries.mapIdx (fun j e => ⟨0, look j, e.1, e.2⟩)) := by
  refine ⟨?_, ?_⟩
  · have := scan_at (fun m => (D m).tree o) whole 0
    rw [range_all] at this
    refine cast ?_ this
    congr 1
    refine List.ext_getElem? (fun j => ?_)
    rw [List.getElem?_map, List.getElem?_map, List.getElem?_mapIdx, Option.map_map]
    rfl
  · intro x hx
    obtain ⟨j, hj, rfl⟩ := List.mem_mapIdx.1 hx
    exact Nat.zero_le _

/-- another thread merges into an edge of the sample store -/
def oneMerge : List (List (Call String U64 Nat Nat)) := [[.mergeEdge 100 ⟨2, 5, 9⟩ 7]]

/-- The code violates the property "an edge which exists all the time is returned by `iter_edges`", if another handle does one
`merge_edge` meanwhile: `MissingPropertyData` is returned for it.  At each moment by itself, the store is in order. -/
theorem C55_violated : ∃ (D : Nat → Db) (l : List Seen), DistinctIds db0 oneMerge ∧ ScansOf db0 oneMerge ∧
    Moments Sample.uc Sample.mN Sample.mE db0 oneMerge D ∧ Reading D .SPO whole l ∧
    (∀ m, ∃ es : List (Triple U64 × Nat), iterEdges U64 Sample.uc (D m) .SPO = es.map .ok ∧ ∃ p, (⟨2, 5, 9⟩, p) ∈ es) ∧
    l.map (itemOf U64 Sample.uc D .SPO) = [.ok (⟨1, 5, 2⟩, 4), .ok (⟨2, 2, 2⟩, 3), .error .missing] := by
  refine ⟨_, _, ⟨by decide +kernel, by decide +kernel⟩, ?_, leads_moments oneMerge [0], reading_first _ .SPO (fun j => if j = 2 then 1 else 0),
    fun m => ?_, by decide +kernel⟩
  · intro th hth n f b h
    simp [oneMerge] at hth
    subst hth
    simp at h
  · cases m with
    | zero => exact ⟨[(⟨1, 5, 2⟩, 4), (⟨2, 2, 2⟩, 3), (⟨2, 5, 9⟩, 8)], by decide +kernel, 8, by simp⟩
    | succ m =>
      refine ⟨[(⟨1, 5, 2⟩, 4), (⟨2, 2, 2⟩, 3), (⟨2, 5, 9⟩, Sample.mE 8 7)], ?_, Sample.mE 8 7, by simp⟩
      have : ([0] : List Nat).take (m + 1) = [0] := by simp
      simp only [this]
      decide +kernel

/-- the race of `C51_violated`, and a third thread which inserts an edge again and removes a node that has no edges -/
def writers : List (List (Call String U64 Nat Nat)) := extRace ++ [[.insertEdge 100 ⟨2, 5, 9⟩ 7, .removeNode 3]]

theorem writers_ids : DistinctIds db0 writers := ⟨by decide +kernel, by decide +kernel⟩

theorem writers_scans : ScansOf db0 writers := by
  intro th hth n f b h
  simp [writers, extRace] at hth
  rcases hth with rfl | rfl | rfl <;> simp at h

theorem writers_kept : OnlyInserted writers ⟨2, 5, 9⟩ := by
  simp [OnlyInserted, writers, extRace, Call.TouchesEdge, onlyEdge]

/-- The edge that is inserted again is returned with its old or its new properties. -/
example (D : Nat → Db) (o : EdgeOrder) (l : List Seen) (hm : Moments Sample.uc Sample.mN Sample.mE db0 writers D)
    (hl : Reading D o whole l) : ∃ x ∈ l, (∃ p, itemOf U64 Sample.uc D o x = .ok (⟨2, 5, 9⟩, p) ∧
      .ok (⟨2, 5, 9⟩, p) ∈ iterEdges U64 Sample.uc (D x.scan) o) ∧ ∀ y ∈ l, y.key = (encOf o (⟨2, 5, 9⟩ : Triple U64)).1 → y = x :=
  C55_kept (s := Sample.sstore) Sample.uc_rt db0_reach db0_shows writers_ids writers_scans hm hl (contains_all _) writers_kept
    ⟨8, by decide +kernel⟩

/-- The edge which nobody touches is returned as it is, whatever happens to the others. -/
example (D : Nat → Db) (o : EdgeOrder) (l : List Seen) (hm : Moments Sample.uc Sample.mN Sample.mE db0 writers D)
    (hl : Reading D o whole l) : .ok (⟨2, 2, 2⟩, 3) ∈ l.map (itemOf U64 Sample.uc D o) :=
  (C55_untouched (s := Sample.sstore) Sample.uc_rt db0_reach db0_shows writers_ids writers_scans hm hl
    (by simp [writers, extRace, Call.TouchesEdge, onlyEdge]) 3).2 (by decide +kernel)

/-- and there are such moments and readings: here the extended edge is missing, and another one has been inserted in between -/
example : (((leads writers []).tree .POS).entries.mapIdx (fun j e => (⟨0, if j = 0 then 0 else 9, e.1, e.2⟩ : Seen))).map
      (itemOf U64 Sample.uc (fun m => leads writers ([0, 0, 0, 0, 0, 0, 2, 1].take m)) .POS) =
    [.ok (⟨2, 2, 2⟩, 3), .error .missing, .ok (⟨2, 5, 9⟩, 8)] := by decide +kernel

/-- The scans of a `remove_node 2` that runs at the same time; one is an initial one, one more may be new. -/
example (D : Nat → Db) (hm : Moments Sample.uc Sample.mN Sample.mE db0 writers D) (fwd bwd : List (Nat × Bytes × Bytes))
    (hf : Scan (fun m => (D m).spo) (boundBytes (keyBounds1 (2 : U64))) 0 none fwd)
    (hb : Scan (fun m => (D m).osp) (boundBytes (keyBounds1 (2 : U64))) 0 none bwd) :
    ScansOf db0 (writers ++ [[.removeNodeScan 2 (fwd.map Prod.snd) (bwd.map Prod.snd)]]) := by
  have h := C55_scans (s := Sample.sstore) Sample.uc_rt db0_reach writers_ids writers_scans hm 2 hf hb
  have hall : allWrites (writers ++ [[.removeNodeScan 2 (fwd.map Prod.snd) (bwd.map Prod.snd)]]) = allWrites writers := by
    simp [allWrites, Call.writes]
  intro th hth n f b hx
  rw [hall]
  rcases List.mem_append.1 hth with hth | hth
  · exact writers_scans th hth n f b hx
  · simp at hth
    subst hth
    simp at hx
    obtain ⟨rfl, rfl, rfl⟩ := hx
    exact h

/-- two threads insert edges, one of them twice -/
def inserters : List (List (Call String U64 Nat Nat)) :=
  [[.insertEdge 100 ⟨2, 5, 9⟩ 7, .mergeNode 4 4], [.insertEdge 101 ⟨2, 5, 9⟩ 6, .insertEdge 102 ⟨3, 3, 3⟩ 1]]

example (D : Nat → Db) (o : EdgeOrder) (l : List Seen) (hm : Moments Sample.uc Sample.mN Sample.mE db0 inserters D)
    (hl : Reading D o whole l) : ∃ es : List (Triple U64 × Nat), l.map (itemOf U64 Sample.uc D o) = es.map .ok ∧
      es.Pairwise (fun x y => edgeLT o x.1 y.1) ∧ ∀ t p, G0.edges t = some p → ∃ q, (t, q) ∈ es :=
  C55_noErrors_partial (s := Sample.sstore) Sample.uc_rt db0_reach db0_shows ⟨by decide +kernel, by decide +kernel⟩
    (by intro th hth n f b h; simp [inserters] at hth; rcases hth with rfl | rfl <;> simp at h) hm hl
    (by intro t; simp [OnlyInserted, inserters, Call.TouchesEdge]; exact ⟨Eq.symm, Eq.symm⟩)

/-- The nodes are read without errors; node 2, which no call removes, is among them. -/
example (D : Nat → Db) (l : List (Nat × Bytes × Bytes)) (hm : Moments Sample.uc Sample.mN Sample.mE db0 writers D)
    (hl : Scan (fun m => (D m).nodeProps) whole 0 none l) : ∃ p : Nat, .ok ((2 : U64), p) ∈ l.map (fun e => vertexItem U64 Sample.uc e.2) := by
  obtain ⟨ns, h1, -, -, h2⟩ := C55_nodes (s := Sample.sstore) Sample.uc_rt db0_reach db0_shows writers_ids writers_scans hm hl
  obtain ⟨p, hp⟩ := h2 2 (by simp [NodeKept, writers, extRace]) ⟨21, by decide +kernel⟩
  exact ⟨p, by rw [h1]; exact List.mem_map_of_mem hp⟩

end Verif.Props
