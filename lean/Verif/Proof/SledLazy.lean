import Verif.Proof.SledReading

/-! # Queries on a database that changes -/

set_option linter.unusedSectionVars false

namespace Verif

open Spec ConcreteId

variable {Id NP EP E : Type} [LinearOrder Id] [ConcreteId Id] [LawfulId Id]

namespace Sled

open Db

variable {c : Codecs NP EP}

theorem addSeen_eq (dec : TKey Id → Triple Id) (r : Mem Id NP EP) (l : List (Db × Bytes × Bytes)) :
    addSeen c dec r l = tryFold (stepItem add (fun x : Db × Bytes × Bytes => rangeItem c x.1 dec x.2)) r l := by
  unfold addSeen
  congr 1
  funext r e
  simp only [stepItem, rangeItem]
  cases h1 : e.1.edgeProps.get e.2.2 with
  | none => rfl
  | some b =>
    cases h2 : ByteArr.tryFrom (tripleLen (Id := Id)) e.2.1 with
    | none => rfl
    | some k => cases h3 : c.e.de b <;> simp [h3, add]

theorem tryFold_flatten {X σ α : Type} (f : σ → α → Except X σ) (s : σ) (xs : List (List α)) :
    tryFold (fun s l => tryFold f s l) s xs = tryFold f s xs.flatten := by
  have := tryFold_flatMap f (fun l : List α => l) s xs
  rw [this, List.flatMap_id']

/-- the result of inserting edges one by one, each only once -/
theorem lazy_edges {α : Type} {o : EdgeOrder} {A : List α} {item : α → Except SErr (Option (Triple Id × EP))} (κ : α → Bytes)
    (hnd : (A.map κ).Nodup)
    (hit : ∀ a ∈ A, ∃ t, κ a = (encOf o t).1 ∧ (item a = .ok none ∨ ∃ p, item a = .ok (some (t, p)))) {n : Nat} {g : Gen Id}
    (hg : Fresh (n + A.length) g) :
    ∃ (r : Mem Id NP EP) (f : Triple Id → Option EP), tryFold (stepItem add item) (Mem.new g) A = .ok r ∧
      Mem.Ok n r { nodes := fun _ => none, edges := f } ∧ ∀ t p, f t = some p ↔ ∃ a ∈ A, item a = .ok (some (t, p)) := by
  rcases tryFold_item add item (Mem.new g : Mem Id NP EP) A with ⟨e, -, a, ha, h⟩ | ⟨h1, -⟩
  · obtain ⟨t, -, h' | ⟨p, h'⟩⟩ := hit a ha <;> rw [h] at h' <;> cases h'
  set L := A.filterMap (fun a => okItem (item a)) with hL
  have ok_iff : ∀ a y, okItem (item a) = some y ↔ item a = .ok (some y) := by
    intro a y
    cases h : item a with
    | error e => simp [okItem]
    | ok z => simp [okItem]
  have memL : ∀ x, x ∈ L ↔ ∃ a ∈ A, item a = .ok (some x) := by
    intro x
    simp only [hL, List.mem_filterMap, ok_iff]
  have ndL : (L.map Prod.fst).Nodup := by
    unfold List.Nodup at hnd ⊢
    rw [List.pairwise_map] at hnd ⊢
    rw [hL, List.pairwise_filterMap]
    refine hnd.imp_of_mem (fun {a a'} ha ha' hne x hx x' hx' e => hne ?_)
    obtain ⟨t, ht, h⟩ := hit a ha
    obtain ⟨t', ht', h'⟩ := hit a' ha'
    rw [ok_iff] at hx hx'
    rw [hx] at h
    rw [hx'] at h'
    rcases h with h | ⟨p, h⟩
    · cases h
    rcases h' with h' | ⟨p', h'⟩
    · cases h'
    cases h
    cases h'
    have e : t = t' := e
    rw [ht, ht', e]
  have inj : ∀ x ∈ L, ∀ y ∈ L, x.1 = y.1 → x = y := fun x hx y hy e => List.inj_on_of_nodup_map ndL hx hy e
  let f : Triple Id → Option EP := fun t => (L.find? (fun x => x.1 = t)).map Prod.snd
  have hf : ∀ t p, f t = some p ↔ (t, p) ∈ L := by
    intro t p
    constructor
    · intro h
      obtain ⟨⟨t', p'⟩, h1, rfl⟩ := Option.map_eq_some_iff.1 h
      have h2 := List.mem_of_find?_eq_some h1
      have h3 := List.find?_some h1
      obtain rfl : t' = t := by simpa using h3
      exact h2
    · intro h
      cases e : L.find? (fun x => x.1 = t) with
      | none =>
        have := List.find?_eq_none.1 e _ h
        simp at this
      | some x =>
        have h3 := List.find?_some e
        have h3 : x.1 = t := by simpa using h3
        have := inj x (List.mem_of_find?_eq_some e) _ h h3
        subst this
        simp [f, e]
  have lenL : L.length ≤ A.length := List.length_filterMap_le _ _
  have hnew : Mem.Ok (n + L.length) (Mem.new g : Mem Id NP EP) Graph.empty := (Mem.ok_new hg).mono (by omega)
  have hr := Mem.fold_cost (fun (r : Mem Id NP EP) (x : Triple Id × EP) => r.insertEdge x.1 x.2)
    (fun G x => G.insertEdge x.1 x.2) (fun n s G a h => Mem.ok_insertEdge n s G a.1 a.2 h) L hnew
  rw [foldl_insertEdge_fun (f := f) (fun x hx => (hf x.1 x.2).2 hx)] at hr
  refine ⟨_, f, h1, hr.congr (Graph.ext' (fun _ => rfl) (fun t => ?_)), fun t p => by rw [hf, memL]⟩
  by_cases ht : t ∈ L.map Prod.fst
  · simp [ht]
  · have : f t = none := by
      cases e : f t with
      | none => rfl
      | some p => exact absurd (List.mem_map.2 ⟨_, (hf t p).1 e, rfl⟩) ht
    simp [ht, this, Graph.empty]

/-- the result of inserting nodes one by one -/
theorem lazy_nodes {n : Nat} {r : Mem Id NP EP} {G : Graph Id NP EP} (hr : Mem.Ok n r G) (L : List (Id × NP)) :
    ∃ f : Id → Option NP, Mem.Ok n (L.foldl (fun r x => r.insertNode x.1 x.2) r) { G with nodes := f } ∧
      (∀ k p, f k = some p → (k, p) ∈ L ∨ G.nodes k = some p) ∧ ∀ k, k ∈ L.map Prod.fst ∨ G.nodes k ≠ none → f k ≠ none := by
  induction L generalizing r G with
  | nil => exact ⟨G.nodes, hr, fun k p h => .inr h, fun k h => by simpa using h⟩
  | cons x L ih =>
    obtain ⟨k0, p0⟩ := x
    obtain ⟨f, h1, h2, h3⟩ := ih (Mem.ok_insertNode n r G k0 p0 hr)
    refine ⟨f, h1, fun k p h => ?_, fun k h => h3 k ?_⟩
    · rcases h2 k p h with h | h
      · exact .inl (List.mem_cons_of_mem _ h)
      · by_cases e : k = k0
        · subst e
          simp [Graph.insertNode] at h
          subst h
          exact .inl List.mem_cons_self
        · simp [Graph.insertNode, e] at h
          exact .inr h
    · by_cases e : k = k0
      · subst e
        exact .inr (by simp [Graph.insertNode])
      · rcases h with h | h
        · simp [e] at h
          exact .inl (by simpa using h)
        · exact .inr (by simpa [Graph.insertNode, e] using h)

variable {D : Nat → Db} {o : EdgeOrder}

/-- the entries of all ranges of a query -/
theorem asked_ranges {κ : Type} (cls : Triple Id → κ) (bnd : κ → Bound (TKey Id) × Bound (TKey Id))
    (hb : ∀ x t, Bound.contains (bnd x) (encOf o t) = true ↔ cls t = x) (hk : ∀ m, (D m).KeysOk Id o) {xs : List κ} (hx : xs.Nodup)
    {rs : List (List (Db × Bytes × Bytes))}
    (h : List.Forall₂ (fun x r => ∃ l, Reading D o (boundBytes (bnd x)) l ∧ r = l.map (fun e => (D e.look, e.key, e.id))) xs rs) :
    (rs.flatten.map (fun e => e.2.1)).Nodup ∧
    (∀ e ∈ rs.flatten, ∃ m m' t, m ≤ m' ∧ e.1 = D m' ∧ e.2.1 = (encOf o t).1 ∧ cls t ∈ xs ∧ ((D m).tree o).get e.2.1 = some e.2.2) ∧
    ∀ t, cls t ∈ xs → (∀ m, (D m).idIn o t ≠ none) → ∃ e ∈ rs.flatten, e.2.1 = (encOf o t).1 := by
  induction h with
  | nil => simp
  | @cons x r xs rs h _ ih =>
    obtain ⟨hx1, hx⟩ := List.nodup_cons.1 hx
    obtain ⟨i1, i2, i3⟩ := ih hx
    obtain ⟨l, hl, rfl⟩ := h
    have hmem : ∀ y ∈ l, ∃ t, y.key = (encOf o t).1 ∧ cls t = x ∧ ((D y.scan).tree o).get y.key = some y.id := by
      intro y hy
      obtain ⟨h1, h2⟩ := hl.mem hy
      obtain ⟨t, ht⟩ := hk _ _ _ h2
      refine ⟨t, ht, (hb x t).1 ?_, h2⟩
      rw [← contains_boundBytes, ← ht]
      exact h1
    refine ⟨?_, fun e he => ?_, fun t ht hT => ?_⟩
    · rw [List.flatten_cons, List.map_append, List.nodup_append]
      refine ⟨?_, i1, ?_⟩
      · rw [List.map_map]
        unfold List.Nodup
        rw [List.pairwise_map]
        exact hl.sorted.imp (fun h => ne_of_lt h)
      · intro k hk1 k' hk2 e
        subst e
        rw [List.map_map] at hk1
        obtain ⟨y, hy, rfl⟩ := List.mem_map.1 hk1
        obtain ⟨e, he, e1⟩ := List.mem_map.1 hk2
        obtain ⟨t, ht, h1, -⟩ := hmem y hy
        obtain ⟨-, -, t', -, -, ht', h1', -⟩ := i2 e he
        have e1 : e.2.1 = y.key := e1
        obtain rfl := (encOf_inj o).1 (ht'.symm.trans (e1.trans ht))
        exact hx1 (h1 ▸ h1')
    · rw [List.flatten_cons] at he
      rcases List.mem_append.1 he with he | he
      · obtain ⟨y, hy, rfl⟩ := List.mem_map.1 he
        obtain ⟨t, ht, h1, h2⟩ := hmem y hy
        exact ⟨y.scan, y.look, t, hl.later y hy, rfl, ht, h1 ▸ List.mem_cons_self, h2⟩
      · obtain ⟨m, m', t, h1, h2, h3, h4, h5⟩ := i2 e he
        exact ⟨m, m', t, h1, h2, h3, List.mem_cons_of_mem _ h4, h5⟩
    · rw [List.flatten_cons]
      rcases List.mem_cons.1 ht with ht | ht
      · obtain ⟨y, hy, e⟩ := hl.complete (k := (encOf o t).1) (by rw [contains_boundBytes]; exact (hb x t).2 ht) hT
        exact ⟨_, List.mem_append_left _ (List.mem_map.2 ⟨y, hy, rfl⟩), e⟩
      · obtain ⟨e, he, h⟩ := i3 t ht hT
        exact ⟨e, List.mem_append_right _ he, h⟩

variable {d0 : Db} {threads : List (List (Call E Id NP EP))} {mN : NP → NP → NP} {mE : EP → EP → EP}

/-- what a query returns -/
structure Answer (c : Codecs NP EP) (D : Nat → Db) (K : Triple Id → Prop) (q : Query Id) (H : Graph Id NP EP) : Prop where
  edges : ∀ t p, H.edges t = some p → Query.Hits t q ∧ ∃ m, (D m).view c (Query.order q) t = some p
  nodes : ∀ k p, H.nodes k = some p → Query.Asks k q ∧ ∃ m, ((D m).graph (Id := Id) c).nodes k = some p
  kept : ∀ t, Query.Hits t q → K t → (∀ m, (D m).idIn (Query.order q) t ≠ none) → H.edges t ≠ none
  keptNodes : ∀ k, Query.Asks k q → (∀ m, (D m).nodeProps.get (toBeBytes k).1 ≠ none) → H.nodes k ≠ none

/-- what is needed of the moments; `K`: the edges which are spared -/
structure MomentsOk (c : Codecs NP EP) (D : Nat → Db) (K : Triple Id → Prop) : Prop where
  keys : ∀ m o, (D m).KeysOk Id o
  nodes : ∀ m, (D m).NodesOk Id c
  entry : ∀ {m m' : Nat}, m ≤ m' → ∀ {o : EdgeOrder} {k v : Bytes}, ((D m).tree o).get k = some v →
    ∃ t : Triple Id, k = (encOf o t).1 ∧ (D m).idIn o t = some v ∧ ((D m').edgeProps.get v = none ∧ ¬ K t ∨
      ∃ b p, (D m').edgeProps.get v = some b ∧ c.e.de b = some p ∧ (D m).view c o t = some p)

theorem lazy_run_of {K : Triple Id → Prop} (hr : MomentsOk c D K) {q : Query Id} {ρ : Reads} (hq : Spec.Query.Nodup q)
    (ha : Asked D q ρ) {n : Nat} {g : Gen Id} (hg : Fresh (n + ρ.size) g) :
    ∃ r H, runLazy c g ρ q = .ok r ∧ Mem.Ok n r H ∧ Answer c D K q H := by
  have conv : ∀ {κ : Type} (o : EdgeOrder) (cls : Triple Id → κ) (xs : List κ) (bnd : κ → Bound (TKey Id) × Bound (TKey Id))
      (_ : ∀ x t, Bound.contains (bnd x) (encOf o t) = true ↔ cls t = x) (_ : xs.Nodup)
      (_ : ranges q = xs.map (fun x => (o, boundBytes (bnd x))))
      (_ : runLazy c g ρ q = tryFold (fun r l => addSeen c (decOf o) r l) (Mem.new g) ρ.ranges)
      (_ : Query.order q = o) (_ : ∀ t, Query.Hits t q ↔ cls t ∈ xs) (_ : ∀ n, ¬ Query.Asks n q),
      ∃ r H, runLazy c g ρ q = .ok r ∧ Mem.Ok n r H ∧ Answer c D K q H := by
    intro κ o cls xs bnd hb hx hrg hrun ho hh hask
    have hrs := ha.ranges
    rw [hrg, List.forall₂_map_left_iff] at hrs
    have hk : ∀ m, (D m).KeysOk Id o := fun m => hr.keys m o
    obtain ⟨h1, h2, h3⟩ := asked_ranges cls bnd hb hk hx hrs
    have hitem : ∀ e ∈ ρ.ranges.flatten, ∃ (m : Nat) (t : Triple Id), e.2.1 = (encOf o t).1 ∧ cls t ∈ xs ∧
        (rangeItem c e.1 (decOf (Id := Id) o) e.2 = .ok none ∧ ¬ K t ∨
        ∃ p, rangeItem c e.1 (decOf (Id := Id) o) e.2 = .ok (some (t, p)) ∧ (D m).view c o t = some p) := by
      rintro ⟨d, k, v⟩ he
      obtain ⟨m, m', t, i1, i2, i3, i4, i5⟩ := h2 _ he
      dsimp only at i2 i3 i4 i5 ⊢
      subst i2
      subst i3
      obtain ⟨t', j1, j2, j3⟩ := hr.entry i1 (o := o) i5
      obtain rfl := (encOf_inj o).1 j1
      refine ⟨m, t, rfl, i4, ?_⟩
      rw [rangeItem_enc]
      rcases j3 with ⟨j3, j4⟩ | ⟨b, p, j3, j4, j5⟩
      · exact .inl ⟨by simp [j3], j4⟩
      · exact .inr ⟨p, by simp [j3, j4], j5⟩
    obtain ⟨r, f, k1, k2, k3⟩ := lazy_edges (o := o) (NP := NP) (A := ρ.ranges.flatten)
      (item := fun x : Db × Bytes × Bytes => rangeItem c x.1 (decOf o) x.2) (fun e => e.2.1) h1 (fun e he => by
        obtain ⟨m, t, i1, -, i2⟩ := hitem e he
        refine ⟨t, i1, ?_⟩
        rcases i2 with ⟨i2, -⟩ | ⟨p, i2, -⟩
        · exact .inl i2
        · exact .inr ⟨p, i2⟩) (n := n) (g := g) (by
          have : n + ρ.ranges.flatten.length ≤ n + ρ.size := by
            rw [Reads.size, List.length_flatten]
            omega
          exact fun i hi j hj e => hg i (by omega) j (by omega) e)
    refine ⟨r, _, ?_, k2, ⟨fun t p h => ?_, fun k p h => ?_, fun t ht hO hT => ?_, fun k h => absurd h (hask k)⟩⟩
    · rw [hrun, ← k1, ← tryFold_flatten]
      congr 1
      funext r l
      exact addSeen_eq _ _ _
    · obtain ⟨e, he, h⟩ := (k3 t p).1 h
      obtain ⟨m, t', i1, i2, ⟨i3, -⟩ | ⟨p', i3, i4⟩⟩ := hitem e he
      · rw [h] at i3; cases i3
      · rw [h] at i3
        cases i3
        exact ⟨(hh t).2 i2, m, by rw [ho]; exact i4⟩
    · cases h
    · rw [ho] at hT
      obtain ⟨e, he, h⟩ := h3 t ((hh t).1 ht) hT
      obtain ⟨m, t', i1, i2, i3⟩ := hitem e he
      obtain rfl := (encOf_inj o).1 (h.symm.trans i1)
      rcases i3 with ⟨-, i3⟩ | ⟨p, i3, -⟩
      · exact absurd hO i3
      · have := (k3 t p).2 ⟨e, he, i3⟩
        show f t ≠ none
        rw [this]
        simp
  cases q with
  | NodeProps ids =>
    have e : runLazy c g ρ (.NodeProps ids) =
        tryFold (stepItem (fun (r : Mem Id NP EP) (x : Id × NP) => r.insertNode x.1 x.2) (fun x : Id × Db => nodeItem c x.2 x.1))
          (Mem.new g) (ids.zip ρ.nodes) := by
      show tryFold _ _ (ids.zip ρ.nodes) = _
      congr 1
      funext r a
      simp only [stepItem, nodeItem]
      cases h1 : a.2.nodeProps.get (toBeBytes a.1).1 with
      | none => rfl
      | some b => cases h2 : c.n.de b <;> simp [h2]
    have hitem : ∀ x ∈ ids.zip ρ.nodes, x.1 ∈ ids ∧ ∃ m, x.2 = D m ∧
        ((D m).nodeProps.get (toBeBytes x.1).1 = none ∧ nodeItem c x.2 x.1 = .ok none ∨
        ∃ p, nodeItem c x.2 x.1 = .ok (some (x.1, p)) ∧ ((D m).graph (Id := Id) c).nodes x.1 = some p) := by
      rintro ⟨k, d⟩ hx
      obtain ⟨h1, h2⟩ := List.of_mem_zip hx
      obtain ⟨m, rfl⟩ := ha.nodes d h2
      refine ⟨h1, m, rfl, ?_⟩
      unfold nodeItem
      dsimp only
      cases hv : (D m).nodeProps.get (toBeBytes k).1 with
      | none => exact .inl ⟨rfl, rfl⟩
      | some v =>
        obtain ⟨-, p, hp⟩ := hr.nodes m _ v hv
        exact .inr ⟨p, by simp [hp], by simp [Db.graph, hv, hp]⟩
    rw [e]
    rcases tryFold_item (fun (r : Mem Id NP EP) (x : Id × NP) => r.insertNode x.1 x.2) (fun x : Id × Db => nodeItem c x.2 x.1)
      (Mem.new g) (ids.zip ρ.nodes) with ⟨e, -, x, hx, h⟩ | ⟨h1, h2⟩
    · obtain ⟨-, m, -, ⟨-, h'⟩ | ⟨p, h', -⟩⟩ := hitem x hx <;> rw [h] at h' <;> cases h'
    obtain ⟨f, k1, k2, k3⟩ := lazy_nodes (((Mem.ok_new hg).mono (by omega) : Mem.Ok n (Mem.new g : Mem Id NP EP) Graph.empty))
      ((ids.zip ρ.nodes).filterMap (fun x => okItem (nodeItem c x.2 x.1)))
    refine ⟨_, _, h1, k1, ⟨fun t p h => ?_, fun k p h => ?_, fun t h => h.elim, fun k hk hT => k3 k (.inl ?_)⟩⟩
    · cases h
    · rcases k2 k p h with h | h
      · obtain ⟨x, hx, h⟩ := List.mem_filterMap.1 h
        obtain ⟨i1, m, -, ⟨-, i2⟩ | ⟨p', i2, i3⟩⟩ := hitem x hx
        · rw [i2] at h; cases h
        · rw [i2] at h
          cases h
          exact ⟨i1, m, i3⟩
      · cases h
    · obtain ⟨i, hi, rfl⟩ := List.mem_iff_getElem.1 hk
      have hlen := ha.nodesLen ids rfl
      have hx : (ids[i], ρ.nodes[i]'(by rw [hlen]; exact hi)) ∈ ids.zip ρ.nodes := by
        rw [List.mem_iff_getElem]
        exact ⟨i, by simp [hlen, hi], by simp⟩
      obtain ⟨i1, m, -, ⟨i2, -⟩ | ⟨p', i2, i3⟩⟩ := hitem _ hx
      · exact absurd i2 (hT m)
      · exact List.mem_map.2 ⟨(ids[i], p'), List.mem_filterMap.2 ⟨_, hx, by rw [i2]; rfl⟩, rfl⟩
  | SPO xs =>
    let tri : Id × Id × Id → Triple Id := fun x => ⟨x.1, x.2.1, x.2.2⟩
    let item : (Id × Id × Id) × (Db × Db) → Except SErr (Option (Triple Id × EP)) := fun x =>
      match x.2.1.spo.get (encodeSpo (tri x.1)).1 with
      | none => .ok none
      | some i => rangeItem c x.2.2 (decOf .SPO) ((encOf .SPO (tri x.1)).1, i)
    have e : runLazy c g ρ (.SPO xs) = tryFold (stepItem add item) (Mem.new g) (xs.zip ρ.points) := by
      show tryFold _ _ (xs.zip ρ.points) = _
      congr 1
      funext r x
      simp only [stepItem, item, rangeItem_enc]
      cases h1 : x.2.1.spo.get (encodeSpo ⟨x.1.1, x.1.2.1, x.1.2.2⟩).1 with
      | none => simp
      | some i =>
        cases h2 : x.2.2.edgeProps.get i with
        | none => simp [h2]
        | some b => cases h3 : c.e.de b <;> simp [tri, h2, h3, add]
    have hitem : ∀ x ∈ xs.zip ρ.points, x.1 ∈ xs ∧ ∃ m,
        ((item x = .ok none ∧ ((D m).idIn .SPO (tri x.1) = none ∨ ¬ K (tri x.1))) ∨
        ∃ p, item x = .ok (some (tri x.1, p)) ∧ (D m).view c .SPO (tri x.1) = some p) := by
      rintro ⟨x, d⟩ hx
      obtain ⟨h1, h2⟩ := List.of_mem_zip hx
      obtain ⟨m, m', hmm, rfl⟩ := ha.points d h2
      refine ⟨h1, m, ?_⟩
      simp only [item]
      cases hv : (D m).spo.get (encodeSpo (tri x)).1 with
      | none => exact .inl ⟨rfl, .inl hv⟩
      | some v =>
        obtain ⟨t', j1, j2, j3⟩ := hr.entry hmm (o := .SPO) hv
        have : tri x = t' := (encOf_inj .SPO).1 j1
        rw [← this] at j3
        simp only [rangeItem_enc]
        rcases j3 with ⟨j3, j4⟩ | ⟨b, p, j3, j4, j5⟩
        · exact .inl ⟨by simp [j3], .inr j4⟩
        · exact .inr ⟨p, by simp [j3, j4], j5⟩
    have hlen := ha.pointsLen xs rfl
    have hnd : ((xs.zip ρ.points).map (fun x => (encOf .SPO (tri x.1)).1)).Nodup := by
      have hxs : xs.Nodup := List.Nodup.of_map _ hq
      have : (xs.zip ρ.points).map (fun x => (encOf .SPO (tri x.1)).1) = xs.map (fun x => (encOf .SPO (tri x)).1) := by
        rw [← List.map_fst_zip (l₁ := xs) (l₂ := ρ.points) (by omega), List.map_map, List.map_fst_zip (by omega)]
        rfl
      rw [this]
      refine hxs.map (fun a b hab => ?_)
      have := (encOf_inj .SPO).1 hab
      simp only [tri, Triple.mk.injEq] at this
      obtain ⟨h1, h2, h3⟩ := this
      exact Prod.ext h1 (Prod.ext h2 h3)
    obtain ⟨r, f, k1, k2, k3⟩ := lazy_edges (o := .SPO) (NP := NP) (A := xs.zip ρ.points) (item := item)
      (fun x => (encOf .SPO (tri x.1)).1) hnd (fun x hx => by
        obtain ⟨-, m, ⟨i2, -⟩ | ⟨p, i2, -⟩⟩ := hitem x hx
        · exact ⟨_, rfl, .inl i2⟩
        · exact ⟨_, rfl, .inr ⟨p, i2⟩⟩) (n := n) (g := g) (by
          have : n + (xs.zip ρ.points).length ≤ n + ρ.size := by
            rw [Reads.size, List.length_zip]
            omega
          exact fun i hi j hj e => hg i (by omega) j (by omega) e)
    rw [e]
    refine ⟨r, _, k1, k2, ⟨fun t p h => ?_, fun k p h => ?_, fun t ht hO hT => ?_, fun k h => h.elim⟩⟩
    · obtain ⟨x, hx, h⟩ := (k3 t p).1 h
      obtain ⟨i1, m, ⟨i2, -⟩ | ⟨p', i2, i3⟩⟩ := hitem x hx
      · rw [h] at i2; cases i2
      · rw [h] at i2
        cases i2
        exact ⟨i1, m, i3⟩
    · cases h
    · obtain ⟨i, hi, hti⟩ := List.mem_iff_getElem.1 (show (t.sub, t.pred, t.obj) ∈ xs from ht)
      have hx : (xs[i], ρ.points[i]'(by rw [hlen]; exact hi)) ∈ xs.zip ρ.points := by
        rw [List.mem_iff_getElem]
        exact ⟨i, by simp [hlen, hi], by simp⟩
      have htt : tri xs[i] = t := by simp [tri, hti]
      obtain ⟨i1, m, ⟨i2, i3⟩ | ⟨p', i2, i3⟩⟩ := hitem _ hx
      · simp only [htt] at i3
        rcases i3 with i3 | i3
        · exact absurd i3 (hT m)
        · exact absurd hO i3
      · simp only [htt] at i2
        have := (k3 t p').2 ⟨_, hx, i2⟩
        show f t ≠ none
        rw [this]
        simp
  | S xs =>
    exact conv .SPO (fun t => t.sub) xs (fun x => keyBounds1 x) (fun x t => LawfulId.kb1_spo x t) (List.Nodup.of_map _ hq) rfl
      rfl rfl (fun _ => Iff.rfl) (fun _ h => h)
  | P xs =>
    exact conv .POS (fun t => t.pred) xs (fun x => keyBounds1 x) (fun x t => LawfulId.kb1_pos x t) (List.Nodup.of_map _ hq) rfl
      rfl rfl (fun _ => Iff.rfl) (fun _ h => h)
  | O xs =>
    exact conv .OSP (fun t => t.obj) xs (fun x => keyBounds1 x) (fun x t => LawfulId.kb1_osp x t) (List.Nodup.of_map _ hq) rfl
      rfl rfl (fun _ => Iff.rfl) (fun _ h => h)
  | SP xs =>
    exact conv .SPO (fun t => (t.sub, t.pred)) xs (fun x => keyBounds2 x.1 x.2)
      (fun x t => by rw [Prod.ext_iff]; exact LawfulId.kb2_spo x.1 x.2 t) (List.Nodup.of_map _ hq) rfl
      rfl rfl (fun _ => Iff.rfl) (fun _ h => h)
  | PO xs =>
    exact conv .POS (fun t => (t.pred, t.obj)) xs (fun x => keyBounds2 x.1 x.2)
      (fun x t => by rw [Prod.ext_iff]; exact LawfulId.kb2_pos x.1 x.2 t) (List.Nodup.of_map _ hq) rfl
      rfl rfl (fun _ => Iff.rfl) (fun _ h => h)
  | SO xs =>
    exact conv .OSP (fun t => (t.sub, t.obj)) xs (fun x => keyBounds2 x.2 x.1)
      (fun x t => by rw [Prod.ext_iff]; exact (LawfulId.kb2_osp x.2 x.1 t).trans and_comm) (List.Nodup.of_map _ hq) rfl
      rfl rfl (fun _ => Iff.rfl) (fun _ h => h)

theorem lazy_run (hc : c.RoundTrip) (h0 : d0.Inv Id c) (hd : DistinctIds d0 threads) (hs : ScansOf d0 threads)
    (hm : Moments c mN mE d0 threads D) {q : Query Id} {ρ : Reads} (hq : Spec.Query.Nodup q) (ha : Asked D q ρ) {n : Nat} {g : Gen Id}
    (hg : Fresh (n + ρ.size) g) :
    ∃ r H, runLazy c g ρ q = .ok r ∧ Mem.Ok n r H ∧ Answer c D (OnlyInserted threads) q H :=
  lazy_run_of ⟨fun m o => (keys_moments hc h0 hd hs hm m).keys o, fun m => (keys_moments hc h0 hd hs hm m).nodes,
    fun hmm _ _ _ hk => entry_item hc h0 hd hs hm hmm hk⟩ hq ha hg

end Sled

end Verif
