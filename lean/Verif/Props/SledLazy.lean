import Verif.Proof.SledLazy
import Verif.Props.SledScan

/-!
# C56: queries on a sled store while other handles write to it

`Asked D q ρ`: `ρ` is what the reads of `run` may see, each at its own moment.  The rest of C55 is here, too:
`iter_edges_with_props`.
-/

set_option linter.unusedSectionVars false
set_option maxRecDepth 100000

namespace Verif.Props

open Verif Spec ConcreteId Sled

variable {Id NP EP E : Type} [LinearOrder Id] [ConcreteId Id] [LawfulId Id]
variable {mN : NP → NP → NP} {mE : EP → EP → EP} {c : Codecs NP EP}

/-! ## `iter_edges_with_props` -/

/-- While nobody writes, the items are those of `iterEdgesWithProps`: whatever the contents. -/
theorem C55_still_props (d : Db) (o : EdgeOrder) {l : List Seen} (h : Reading (fun _ => d) o whole l) :
    l.map (fun x => propsItem Id c d d d o (x.key, x.id)) = iterEdgesWithProps Id c d o := by
  have := Scan.still (t := d.tree o) h.scan rfl
  rw [range_all, List.map_map] at this
  unfold iterEdgesWithProps
  rw [orderedEdges_eq, ← this, List.map_map, List.map_map]
  refine List.map_congr_left (fun x _ => ?_)
  simp only [propsItem, decoder_eq, Function.comp]
  rfl

variable {n m : Nat} {s : SledStore Id} {G : Graph Id NP EP} {threads : List (List (Call E Id NP EP))} {D : Nat → Db}
  {o : EdgeOrder} {b : Bound Bytes × Bound Bytes} {l : List Seen}

/-- `iter_edges_with_props`: the subject is looked up at the moment `ms`, the object at the moment `mo`.  An item is
`MissingPropertyData`, or the edge with the properties it had when its entry was read, and nodes with the properties they had when they
were looked up.  It is the latter if the edge is one that the threads only insert again, the nodes are not removed, and all three
were there at the start. -/
theorem C55_withProps (hc : c.RoundTrip) (hs : SledStore.Reach E c mN mE n m s) (hG : Shows (s.obs c) G) (hi : DistinctIds s.db threads)
    (hw : ScansOf s.db threads) (hm : Moments c mN mE s.db threads D) (hl : Reading D o b l) {x : Seen} (hx : x ∈ l) (ms mo : Nat) :
    ∃ t : Triple Id, x.key = (encOf o t).1 ∧
      (propsItem Id c (D ms) (D x.look) (D mo) o (x.key, x.id) = .error .missing ∧
        ¬ (OnlyInserted threads t ∧ NodeKept threads t.sub ∧ NodeKept threads t.obj ∧
          (∃ p, G.nodes t.sub = some p) ∧ ∃ p, G.nodes t.obj = some p) ∨
      ∃ sp ep op, propsItem Id c (D ms) (D x.look) (D mo) o (x.key, x.id) =
          .ok { sub := (t.sub, sp), pred := (t.pred, ep), obj := (t.obj, op) } ∧
        .ok (t, ep) ∈ iterEdges Id c (D x.scan) o ∧ .ok (t.sub, sp) ∈ iterVertices Id c (D ms) ∧
        .ok (t.obj, op) ∈ iterVertices Id c (D mo)) := by
  have h0 := (hs.ok hc).inv
  obtain ⟨t, ht, hid, h⟩ := entry_item hc h0 hi hw hm (hl.later x hx) (hl.mem hx).2
  have node : ∀ (i : Nat) (k : Id), (getData c.n (D i).nodeProps (toBeBytes k).1 = .ok none ∧
      ¬ (NodeKept threads k ∧ ∃ p, G.nodes k = some p)) ∨
      ∃ p, getData c.n (D i).nodeProps (toBeBytes k).1 = .ok (some p) ∧ .ok (k, p) ∈ iterVertices Id c (D i) := by
    intro i k
    have hneat := keys_moments hc h0 hi hw hm i
    cases hv : (D i).nodeProps.get (toBeBytes k).1 with
    | none =>
      refine .inl ⟨by simp [getData, hv], ?_⟩
      rintro ⟨hk, p, hp⟩
      obtain ⟨D', hD', hD0, hD⟩ := start_moments hm
      refine keptNode_moments hc h0 hi hw hD' hk ?_ (i + 1) (by rw [hD]; exact hv)
      rw [← hs.graph_of_shows hc hG] at hp
      rw [hD0]
      intro e
      simp [Db.graph, e] at hp
    | some v =>
      obtain ⟨-, p, hp⟩ := hneat.nodes _ v hv
      refine .inr ⟨p, by simp [getData, hv, hp], ?_⟩
      rw [mem_iterVertices hneat.nodes]
      simp [Db.graph, hv, hp]
  refine ⟨t, ht, ?_⟩
  have edge : getData c.e (D x.look).edgeProps x.id = .ok none ∧ ¬ OnlyInserted threads t ∨
      ∃ p, getData c.e (D x.look).edgeProps x.id = .ok (some p) ∧ .ok (t, p) ∈ iterEdges Id c (D x.scan) o := by
    rcases h with ⟨h1, h2⟩ | ⟨b, p, h1, h2, h3⟩
    · exact .inl ⟨by simp [getData, h1], h2⟩
    · exact .inr ⟨p, by simp [getData, h1, h2], (mem_iterEdges ((keys_moments hc h0 hi hw hm x.scan).keys o) t p).2 h3⟩
  have hdec : decodeEntry (decoder (Id := Id) o) (x.key, x.id) = .ok (t, x.id) := by rw [ht, decoder_eq, decodeEntry_enc]
  unfold propsItem
  rw [hdec]
  dsimp only
  rcases node ms t.sub with ⟨e1, k1⟩ | ⟨sp, e1, k1⟩ <;> rcases edge with ⟨e2, k2⟩ | ⟨ep, e2, k2⟩ <;>
    rcases node mo t.obj with ⟨e3, k3⟩ | ⟨op, e3, k3⟩ <;> simp only [e1, e2, e3]
  all_goals first
    | exact .inr ⟨sp, ep, op, rfl, k2, k1, k3⟩
    | exact .inl ⟨by first | rfl | trivial, fun h => k1 ⟨h.2.1, h.2.2.2.1⟩⟩
    | exact .inl ⟨by first | rfl | trivial, fun h => k2 h.1⟩
    | exact .inl ⟨by first | rfl | trivial, fun h => k3 ⟨h.2.2.1, h.2.2.2.2⟩⟩

/-! ## queries -/

/-- There is always something that `run` may see: for instance, everything at the first moment. -/
theorem asked_first (D : Nat → Db) (q : Query Id) : ∃ ρ, Asked D q ρ := by
  let rd : EdgeOrder × (Bound Bytes × Bound Bytes) → List Seen := fun b =>
    (((D 0).tree b.1).range b.2).map (fun e => ⟨0, 0, e.1, e.2⟩)
  refine ⟨⟨match q with | .NodeProps ids => List.replicate ids.length (D 0) | _ => [],
    match q with | .SPO ts => List.replicate ts.length (D 0, D 0) | _ => [],
    (ranges q).map (fun b => (rd b).map (fun e => (D e.look, e.key, e.id)))⟩, ?_, ?_, ?_, ?_, ?_⟩
  · intro d hd
    cases q <;> simp at hd
    exact ⟨0, hd.2⟩
  · rintro ids rfl
    simp
  · intro x hx
    cases q <;> simp at hx
    exact ⟨0, 0, le_rfl, hx.2⟩
  · rintro ts rfl
    simp
  · rw [List.forall₂_map_right_iff, List.forall₂_same]
    intro b _
    refine ⟨rd b, ⟨?_, ?_⟩, rfl⟩
    · have := scan_at (fun m => (D m).tree b.1) b.2 0
      rw [List.map_map]
      exact this
    · intro x hx
      obtain ⟨e, -, rfl⟩ := List.mem_map.1 hx
      exact le_rfl

theorem tryFold_zip {X σ α β : Type} (f : σ → α → β → Except X σ) {bs : List β} {b : β} (hb : ∀ x ∈ bs, x = b) (as : List α)
    (hlen : bs.length = as.length) (s : σ) : tryFold (fun s x => f s x.1 x.2) s (as.zip bs) = tryFold (fun s a => f s a b) s as := by
  induction as generalizing bs s with
  | nil => simp [tryFold]
  | cons a as ih =>
    cases bs with
    | nil => simp at hlen
    | cons b' bs =>
      obtain rfl := hb b' List.mem_cons_self
      rw [List.zip_cons_cons, tryFold, tryFold]
      simp only [ih (fun x hx => hb x (List.mem_cons_of_mem _ hx)) (by simpa using hlen)]

theorem addSeen_still (d : Db) (dec : TKey Id → Triple Id) (r : Mem Id NP EP) (l : List (Bytes × Bytes)) :
    addSeen c dec r (l.map (fun e => (d, e))) = addRange c d dec r l := by
  induction l generalizing r with
  | nil => rfl
  | cons e l ih =>
    unfold addSeen addRange at ih ⊢
    rw [List.map_cons, tryFold, tryFold]
    simp only [ih]
    rfl

/-- While nobody writes, `run` returns what `runQ` does: whatever the contents. -/
theorem C56_still (d : Db) (g : Gen Id) (q : Query Id) :
    (∃ ρ, Asked (fun _ => d) q ρ) ∧ ∀ ρ, Asked (fun _ => d) q ρ → runLazy c g ρ q = runQ c d g q := by
  refine ⟨asked_first _ q, fun ρ h => ?_⟩
  have rng : ∀ {κ : Type} (o : EdgeOrder) (dec : TKey Id → Triple Id) (bnd : κ → Bound (TKey Id) × Bound (TKey Id)) (xs : List κ)
      (rs : List (List (Db × Bytes × Bytes))) (r : Mem Id NP EP),
      List.Forall₂ (fun b x => ∃ l, Reading (fun _ => d) b.1 b.2 l ∧ x = l.map (fun e => (d, e.key, e.id)))
        (xs.map (fun x => (o, boundBytes (bnd x)))) rs →
      tryFold (fun r l => addSeen c dec r l) r rs = tryFold (fun r x => addRange c d dec r ((d.tree o).rangeArr (bnd x))) r xs := by
    intro κ o dec bnd xs rs r h
    rw [List.forall₂_map_left_iff] at h
    induction h generalizing r with
    | nil => rfl
    | @cons x l xs rs h _ ih =>
      obtain ⟨l, hl, rfl⟩ := h
      rw [tryFold, tryFold]
      have := Scan.still (t := d.tree o) hl.scan rfl
      rw [List.map_map] at this
      have e : l.map (fun e => (d, e.key, e.id)) = ((d.tree o).rangeArr (bnd x)).map (fun e => (d, e)) := by
        rw [rangeArr_eq, ← this, List.map_map]
        rfl
      rw [e, addSeen_still]
      simp only [ih]
  cases q with
  | NodeProps ids =>
    exact tryFold_zip (b := d) (X := SErr) (fun (r : Mem Id NP EP) (n : Id) (d : Db) =>
      match d.nodeProps.get (toBeBytes n).1 with
      | none => Except.ok r
      | some b =>
        match c.n.de b with
        | none => .error .serialization
        | some p => .ok (r.insertNode n p)) (fun x hx => by obtain ⟨-, e⟩ := h.nodes x hx; exact e) ids (h.nodesLen ids rfl) (Mem.new g)
  | SPO ts =>
    exact tryFold_zip (b := (d, d)) (X := SErr) (fun (r : Mem Id NP EP) (x : Id × Id × Id) (d : Db × Db) =>
      let t : Triple Id := { sub := x.1, pred := x.2.1, obj := x.2.2 }
      match d.1.spo.get (encodeSpo t).1 with
      | none => Except.ok r
      | some i =>
        match d.2.edgeProps.get i with
        | none => .ok r
        | some b =>
          match c.e.de b with
          | none => .error .serialization
          | some p => .ok (r.insertEdge t p)) (fun x hx => by obtain ⟨-, -, -, e⟩ := h.points x hx; exact e) ts (h.pointsLen ts rfl)
      (Mem.new g)
  | S xs => exact rng .SPO _ (fun x => keyBounds1 x) xs _ _ h.ranges
  | P xs => exact rng .POS _ (fun x => keyBounds1 x) xs _ _ h.ranges
  | O xs => exact rng .OSP _ (fun x => keyBounds1 x) xs _ _ h.ranges
  | SP xs => exact rng .SPO _ (fun x : Id × Id => keyBounds2 x.1 x.2) xs _ _ h.ranges
  | PO xs => exact rng .POS _ (fun x : Id × Id => keyBounds2 x.1 x.2) xs _ _ h.ranges
  | SO xs => exact rng .OSP _ (fun x : Id × Id => keyBounds2 x.2 x.1) xs _ _ h.ranges

/-- Whatever the threads do, all calls and all races allowed: a query does not fail, and its result, a store in good order, consists of
edges and nodes which the query asks for, each with properties it had at some moment.  Those that were there at the start are in
the result if the threads only insert the edge again, or do not remove the node. -/
theorem C56_answer (hc : c.RoundTrip) (hs : SledStore.Reach E c mN mE n m s) (hG : Shows (s.obs c) G) (hi : DistinctIds s.db threads)
    (hw : ScansOf s.db threads) (hm : Moments c mN mE s.db threads D) {q : Query Id} {ρ : Reads} (hq : Spec.Query.Nodup q)
    (ha : Asked D q ρ) {k : Nat} {g : Gen Id} (hg : Fresh (k + ρ.size) g) :
    ∃ r H, runLazy c g ρ q = .ok r ∧ Shows r.obs H ∧
      (∀ t p, H.edges t = some p → Query.Hits t q ∧ ∃ m, .ok (t, p) ∈ iterEdges Id c (D m) (Query.order q)) ∧
      (∀ i p, H.nodes i = some p → Query.Asks i q ∧ ∃ m, .ok (i, p) ∈ iterVertices Id c (D m)) ∧
      (∀ t, Query.Hits t q → OnlyInserted threads t → (G.edges t).isSome → (H.edges t).isSome) ∧
      ∀ i, Query.Asks i q → NodeKept threads i → (G.nodes i).isSome → (H.nodes i).isSome := by
  have h0 := (hs.ok hc).inv
  obtain ⟨r, H, h1, h2, h3⟩ := lazy_run hc h0 hi hw hm hq ha hg
  obtain ⟨D', hD', hD0, hD⟩ := start_moments hm
  refine ⟨r, H, h1, h2.shows, fun t p h => ?_, fun i p h => ?_, fun t ht hO hp => ?_, fun i hq hn hp => ?_⟩
  · obtain ⟨i1, m, i2⟩ := h3.edges t p h
    exact ⟨i1, m, (mem_iterEdges ((keys_moments hc h0 hi hw hm m).keys _) t p).2 i2⟩
  · obtain ⟨i1, m, i2⟩ := h3.nodes i p h
    exact ⟨i1, m, (mem_iterVertices (keys_moments hc h0 hi hw hm m).nodes i p).2 i2⟩
  · rw [Option.isSome_iff_ne_none]
    refine h3.kept t ht hO (fun m => ?_)
    rw [← hD]
    refine kept_moments hc h0 hi hw hD' hO _ ?_ (m + 1)
    rw [← hs.graph_of_shows hc hG] at hp
    rw [hD0, h0.same]
    intro e
    have : s.db.idIn .SPO t = none := e
    simp [Db.graph, Db.view, this] at hp
  · rw [Option.isSome_iff_ne_none]
    refine h3.keptNodes i hq (fun m => ?_)
    rw [← hD]
    refine keptNode_moments hc h0 hi hw hD' hn ?_ (m + 1)
    rw [← hs.graph_of_shows hc hG] at hp
    rw [hD0]
    intro e
    simp [Db.graph, e] at hp

/-- What nobody touches is in the result exactly if it was in the store at the start and the query asks for it. -/
theorem C56_untouched (hc : c.RoundTrip) (hs : SledStore.Reach E c mN mE n m s) (hG : Shows (s.obs c) G) (hi : DistinctIds s.db threads)
    (hw : ScansOf s.db threads) (hm : Moments c mN mE s.db threads D) {q : Query Id} {ρ : Reads} (hq : Spec.Query.Nodup q)
    (ha : Asked D q ρ) {k : Nat} {g : Gen Id} (hg : Fresh (k + ρ.size) g) :
    ∃ r H, runLazy c g ρ q = .ok r ∧ Shows r.obs H ∧
      (∀ t p, (∀ th ∈ threads, ∀ x ∈ th, ¬ x.TouchesEdge t) → (H.edges t = some p ↔ Query.Hits t q ∧ G.edges t = some p)) ∧
      ∀ i p, (∀ th ∈ threads, ∀ x ∈ th, ¬ x.TouchesNode i) → (H.nodes i = some p ↔ Query.Asks i q ∧ G.nodes i = some p) := by
  obtain ⟨r, H, h1, h2, h3, h4, h5, h6⟩ := C56_answer hc hs hG hi hw hm hq ha hg
  refine ⟨r, H, h1, h2, fun t p ht => ?_, fun i p hi' => ?_⟩
  · have same : ∀ m q', .ok (t, q') ∈ iterEdges Id c (D m) (Query.order q) ↔ G.edges t = some q' := fun m q' =>
      C54_edge hc hs hG hi hw (moments_moment hm m) ht _ q'
    constructor
    · intro h
      obtain ⟨i1, m, i2⟩ := h3 t p h
      exact ⟨i1, (same m p).1 i2⟩
    · rintro ⟨i1, i2⟩
      obtain ⟨p', hp'⟩ := Option.isSome_iff_exists.1 (h5 t i1 (fun th hth x hx h => absurd h (ht th hth x hx)) (by simp [i2]))
      obtain ⟨-, m, i3⟩ := h3 t p' hp'
      rw [(same m p').1 i3] at i2
      rw [hp', i2]
  · have hk : NodeKept threads i := by
      refine fun th hth x hx => ⟨?_, ?_⟩
      · rintro rfl
        exact hi' th hth _ hx rfl
      · rintro f b rfl
        exact hi' th hth _ hx rfl
    have same : ∀ m q', .ok (i, q') ∈ iterVertices Id c (D m) ↔ G.nodes i = some q' := fun m q' =>
      C54_node hc hs hG hi hw (moments_moment hm m) hi' q'
    constructor
    · intro h
      obtain ⟨i1, m, i2⟩ := h4 i p h
      exact ⟨i1, (same m p).1 i2⟩
    · rintro ⟨i1, i2⟩
      obtain ⟨p', hp'⟩ := Option.isSome_iff_exists.1 (h6 i i1 hk (by simp [i2]))
      obtain ⟨-, m, i3⟩ := h4 i p' hp'
      rw [(same m p').1 i3] at i2
      rw [hp', i2]

/-! ## samples -/

/-- one range, all entries read at the first moment, the `j`th record at the moment `look j` -/
theorem asked_range (D : Nat → Db) {q : Query Id} {o : EdgeOrder} {b : Bound Bytes × Bound Bytes} (hr : ranges q = [(o, b)])
    (hn : ∀ ids, q ≠ .NodeProps ids) (ht : ∀ ts, q ≠ .SPO ts) (look : Nat → Nat) :
    Asked D q ⟨[], [], [(((D 0).tree o).range b).mapIdx (fun j e => (D (look j), e.1, e.2))]⟩ := by
  refine ⟨by simp, fun ids h => absurd h (hn ids), by simp, fun ts h => absurd h (ht ts), ?_⟩
  rw [hr]
  refine .cons ⟨(((D 0).tree o).range b).mapIdx (fun j e => ⟨0, look j, e.1, e.2⟩), ⟨?_, ?_⟩, ?_⟩ .nil
  · have := scan_at (fun m => (D m).tree o) b 0
    refine cast ?_ this
    congr 1
    refine List.ext_getElem? (fun j => ?_)
    rw [List.getElem?_map, List.getElem?_map, List.getElem?_mapIdx, Option.map_map]
    rfl
  · intro x hx
    obtain ⟨j, hj, rfl⟩ := List.mem_mapIdx.1 hx
    exact Nat.zero_le _
  · refine List.ext_getElem? (fun j => ?_)
    rw [List.getElem?_map, List.getElem?_mapIdx, List.getElem?_mapIdx, Option.map_map]
    rfl

theorem ok_of_map {X α β : Type} {x : Except X α} {f : α → β} {v : β} (h : x.toOption.map f = some v) : ∃ r, x = .ok r ∧ f r = v := by
  cases x with
  | error e => cases h
  | ok r => exact ⟨r, rfl, by simpa [Except.toOption] using h⟩

/-- The code violates the property "a query returns the edges it asks for which exist all the time", if another handle does one
`merge_edge` meanwhile: the edge is left out, without an error.  At each moment by itself, a query finds it. -/
theorem C56_violated : ∃ (D : Nat → Db) (ρ : Reads) (r : Mem U64 Nat Nat), DistinctIds db0 oneMerge ∧ ScansOf db0 oneMerge ∧
    Moments Sample.uc Sample.mN Sample.mE db0 oneMerge D ∧ Asked D (.S [(2 : U64)]) ρ ∧
    runLazy Sample.uc (Sample.cg 200) ρ (.S [2]) = .ok r ∧ r.iterEdges .SPO = [.ok (⟨2, 2, 2⟩, 3)] ∧
    ∀ m, ∃ (r : Mem U64 Nat Nat) (p : Nat), runQ Sample.uc (D m) (Sample.cg 200) (.S [2]) = .ok r ∧
      r.iterEdges .SPO = [.ok (⟨2, 2, 2⟩, 3), .ok (⟨2, 5, 9⟩, p)] := by
  obtain ⟨r, h1, h2⟩ := ok_of_map (x := runLazy (NP := Nat) Sample.uc (Sample.cg 200)
    ⟨[], [], [((db0.tree .SPO).range (boundBytes (keyBounds1 (2 : U64)))).mapIdx
      (fun j e => (leads oneMerge (([0] : List Nat).take (if j = 1 then 1 else 0)), e.1, e.2))]⟩ (.S [2]))
    (f := fun r => r.iterEdges .SPO) (v := [.ok (⟨2, 2, 2⟩, 3)]) (by decide +kernel)
  refine ⟨_, _, r, ⟨by decide +kernel, by decide +kernel⟩, ?_, leads_moments oneMerge [0],
    asked_range _ rfl (by simp) (by simp) (fun j => if j = 1 then 1 else 0), h1, h2, fun m => ?_⟩
  · intro th hth n f b h
    simp [oneMerge] at hth
    subst hth
    simp at h
  · cases m with
    | zero =>
      obtain ⟨r, h1, h2⟩ := ok_of_map (x := runQ (NP := Nat) Sample.uc (leads oneMerge []) (Sample.cg 200) (.S [(2 : U64)]))
        (f := fun r => r.iterEdges .SPO) (v := [.ok (⟨2, 2, 2⟩, 3), .ok (⟨2, 5, 9⟩, 8)]) (by decide +kernel)
      exact ⟨r, _, h1, h2⟩
    | succ m =>
      have : ([0] : List Nat).take (m + 1) = [0] := by simp
      simp only [this]
      obtain ⟨r, h1, h2⟩ := ok_of_map (x := runQ (NP := Nat) Sample.uc (leads oneMerge [0]) (Sample.cg 200) (.S [(2 : U64)]))
        (f := fun r => r.iterEdges .SPO) (v := [.ok (⟨2, 2, 2⟩, 3), .ok (⟨2, 5, 9⟩, Sample.mE 8 7)]) (by decide +kernel)
      exact ⟨r, _, h1, h2⟩

/-- The race of `C51_violated`, and one more edge inserted again: that one is in the result, and the untouched one is as it was. -/
example (D : Nat → Db) (ρ : Reads) (hm : Moments Sample.uc Sample.mN Sample.mE db0 writers D) (ha : Asked D (.S [(1 : U64), 2]) ρ)
    (hn : ρ.size ≤ 1000) :
    (∃ (r : Mem U64 Nat Nat) (H : Graph U64 Nat Nat), runLazy Sample.uc (Sample.cg 200) ρ (.S [1, 2]) = .ok r ∧ Shows r.obs H ∧
      (H.edges ⟨2, 5, 9⟩).isSome ∧ ∀ t p, H.edges t = some p → t.sub ∈ ([1, 2] : List U64)) ∧
    ∃ (r : Mem U64 Nat Nat) (H : Graph U64 Nat Nat), runLazy Sample.uc (Sample.cg 200) ρ (.S [1, 2]) = .ok r ∧ Shows r.obs H ∧
      H.edges ⟨2, 2, 2⟩ = some 3 := by
  have hg : Fresh (0 + ρ.size) (Sample.cg 200) := Sample.cg_fresh _ _ (by omega)
  have hq : Spec.Query.Nodup (.S [(1 : U64), 2]) := by simp [Spec.Query.Nodup, Spec.Query.items]
  constructor
  · obtain ⟨r, H, h1, h2, h3, -, h4, -⟩ :=
      C56_answer (s := Sample.sstore) Sample.uc_rt db0_reach db0_shows writers_ids writers_scans hm hq ha hg
    exact ⟨r, H, h1, h2, h4 _ (by simp [Query.Hits]) writers_kept (by decide +kernel), fun t p h => (h3 t p h).1⟩
  · obtain ⟨r, H, h1, h2, h3, -⟩ :=
      C56_untouched (s := Sample.sstore) Sample.uc_rt db0_reach db0_shows writers_ids writers_scans hm hq ha hg
    exact ⟨r, H, h1, h2, (h3 ⟨2, 2, 2⟩ 3 (by simp [writers, extRace, Call.TouchesEdge, onlyEdge])).2
      ⟨by simp [Query.Hits], by decide +kernel⟩⟩

/-- and such reads exist -/
example : ∃ (D : Nat → Db) (ρ : Reads), Moments Sample.uc Sample.mN Sample.mE db0 writers D ∧ Asked D (.PO [((5 : U64), 9)]) ρ ∧
    ρ.size = 1 := by
  refine ⟨_, _, leads_moments writers [0, 0, 2], asked_range _ (o := .POS) rfl (by simp) (by simp) (fun _ => 3), ?_⟩
  decide +kernel

/-- node 1 is looked up when it is gone, node 2 before its merge -/
example : (runLazy (NP := Nat) Sample.uc (Sample.cg 200)
    ⟨[leads [[.mergeNode 2 5, .removeNode 1]] [0, 0, 0, 0, 0, 0, 0, 0], db0], [], []⟩ (.NodeProps [(1 : U64), 2])).toOption.map
      (fun r => r.iterVertices) = some [.ok (2, 21)] := by decide +kernel

/-- an edge with its nodes, read before, between and after other calls -/
example : propsItem U64 Sample.uc db0 db0 (leads [[.mergeNode 2 5]] [0, 0]) .SPO
      ((encOf .SPO (⟨1, 5, 2⟩ : Triple U64)).1, (db0.spo.get (encodeSpo (⟨1, 5, 2⟩ : Triple U64)).1).getD []) =
    .ok { sub := (1, 10), pred := (5, 4), obj := (2, Sample.mN 21 5) } := by decide +kernel

/-- whatever the writers do: the self-loop at the node that is not removed -/
example (D : Nat → Db) (l : List Seen) (x : Seen) (hm : Moments Sample.uc Sample.mN Sample.mE db0 writers D)
    (hl : Reading D .SPO whole l) (hx : x ∈ l) (hk : x.key = (encOf .SPO (⟨2, 2, 2⟩ : Triple U64)).1) (ms mo : Nat) :
    ∃ a, propsItem U64 Sample.uc (D ms) (D x.look) (D mo) .SPO (x.key, x.id) = .ok a := by
  obtain ⟨t, h1, ⟨h2, h3⟩ | ⟨sp, ep, op, h2, -⟩⟩ := C55_withProps (s := Sample.sstore) Sample.uc_rt db0_reach db0_shows writers_ids
    writers_scans hm hl hx ms mo
  · obtain rfl := (encOf_inj .SPO).1 (hk.symm.trans h1)
    have hn : NodeKept writers 2 := by simp [NodeKept, writers, extRace]
    exact absurd ⟨fun th hth y hy h => by
      simp [writers, extRace] at hth
      rcases hth with rfl | rfl | rfl <;> simp at hy <;> rcases hy with rfl | rfl <;>
        simp [Call.TouchesEdge, onlyEdge] at h, hn, hn, ⟨21, by decide +kernel⟩, ⟨21, by decide +kernel⟩⟩ h3
  · exact ⟨_, h2⟩

end Verif.Props
