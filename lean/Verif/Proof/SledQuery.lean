import Verif.Proof.SledHist

/-! # Queries on the sled back-end -/

set_option linter.unusedSectionVars false

namespace Verif

open Spec ConcreteId

variable {Id NP EP E : Type} [LinearOrder Id] [ConcreteId Id] [LawfulId Id]

namespace Sled

open Db

variable {c : Codecs NP EP}

theorem edgeCount_eq (c : Codecs NP EP) (d : Db) : (iterEdges Id c d .SPO).length = d.spo.entries.length := by
  unfold iterEdges orderedEdges
  rw [List.length_map, List.length_map]

theorem tryFold_ok {X σ α : Type} {f : σ → α → Except X σ} {f' : σ → α → σ} (s : σ) {l : List α}
    (h : ∀ a ∈ l, ∀ s, f s a = .ok (f' s a)) : tryFold f s l = .ok (l.foldl f' s) := by
  induction l generalizing s with
  | nil => rfl
  | cons a l ih =>
    rw [tryFold, h a (by simp) s, List.foldl_cons]
    exact ih _ (fun a ha => h a (List.mem_cons_of_mem _ ha))

/-- the edge with its properties -/
def edgeOf (c : Codecs NP EP) (d : Db) (x : Triple Id × Bytes) : Option (Triple Id × EP) :=
  ((d.edgeProps.get x.2).bind c.e.de).map (fun p => (x.1, p))

def add (r : Mem Id NP EP) (x : Triple Id × EP) : Mem Id NP EP := r.insertEdge x.1 x.2

theorem addRange_ok {d : Db} (o : EdgeOrder) (L : List (Triple Id × Bytes))
    (hL : ∀ x ∈ L, ∃ b p, d.edgeProps.get x.2 = some b ∧ c.e.de b = some p) (r : Mem Id NP EP) :
    addRange c d (decOf o) r (L.map (fun x => ((encOf o x.1).1, x.2))) =
      .ok ((L.filterMap (edgeOf c d)).foldl add r) := by
  unfold addRange
  induction L generalizing r with
  | nil => rfl
  | cons x L ih =>
    obtain ⟨b, p, h1, h2⟩ := hL x (by simp)
    have e : edgeOf c d x = some (x.1, p) := by simp [edgeOf, h1, h2]
    rw [List.map_cons, tryFold]
    simp only [h1, tryFrom_arr, h2, decOf_enc]
    rw [List.filterMap_cons, e]
    exact ih (fun a ha => hL a (List.mem_cons_of_mem _ ha)) _

theorem foldRange_ok {κ : Type} (d : Db) (Lf : κ → List (Triple Id × Bytes))
    {f : Mem Id NP EP → κ → Except SErr (Mem Id NP EP)}
    (hf : ∀ r x, f r x = .ok (((Lf x).filterMap (edgeOf c d)).foldl add r)) (r : Mem Id NP EP) (xs : List κ) :
    tryFold f r xs = .ok (((xs.flatMap Lf).filterMap (edgeOf c d)).foldl add r) := by
  induction xs generalizing r with
  | nil => rfl
  | cons x xs ih =>
    rw [tryFold, hf]
    simp only [ih, List.flatMap_cons, List.filterMap_append, List.foldl_append]

theorem edgeOf_keys (d : Db) (L : List (Triple Id × Bytes)) :
    ((L.filterMap (edgeOf c d)).map Prod.fst).Sublist (L.map Prod.fst) := by
  induction L with
  | nil => exact List.Sublist.refl _
  | cons x L ih =>
    rw [List.filterMap_cons]
    cases hx : edgeOf c d x with
    | none => exact ih.cons _
    | some y =>
      have : y.1 = x.1 := by
        unfold edgeOf at hx
        obtain ⟨p, _, rfl⟩ := Option.map_eq_some_iff.1 hx
        rfl
      simp only [List.map_cons, this]
      exact ih.cons_cons _

theorem keys_le {d : Db} {o : EdgeOrder} {L : List (Triple Id)} (hn : L.Nodup)
    (hL : ∀ t ∈ L, ∃ v, d.idIn o t = some v) : L.length ≤ (d.tree o).entries.length := by
  rw [← List.length_map (f := fun t => (encOf o t).1), ← List.length_map (f := Prod.fst) (as := (d.tree o).entries)]
  refine (List.subperm_of_subset (hn.map (fun a b hab => (encOf_inj o).1 hab)) (fun k hk => ?_)).length_le
  obtain ⟨t, ht, rfl⟩ := List.mem_map.1 hk
  obtain ⟨v, hv⟩ := hL t ht
  exact List.mem_map.2 ⟨((encOf o t).1, v), BMap.mem_entries.2 hv, rfl⟩

theorem fill_core {κ : Type} [DecidableEq κ] {d : Db} {o : EdgeOrder} {N : Nat}
    (hN : ∀ L : List (Triple Id), L.Nodup → (∀ t ∈ L, ∃ v, d.idIn o t = some v) → L.length ≤ N) (cls : Triple Id → κ)
    (Lf : κ → List (Triple Id × Bytes)) (hm : ∀ x t v, (t, v) ∈ Lf x ↔ d.idIn o t = some v ∧ cls t = x)
    (hnd : ∀ x, ((Lf x).map Prod.fst).Nodup) {xs : List κ} (hx : xs.Nodup) (n : Nat) {g : Gen Id}
    (hg : Fresh (n + N) g) :
    Mem.OkFrom g N n (((xs.flatMap Lf).filterMap (edgeOf c d)).foldl add (Mem.new g : Mem Id NP EP))
      { nodes := fun _ => none, edges := fun t => if cls t ∈ xs then d.view c o t else none } := by
  set L := (xs.flatMap Lf).filterMap (edgeOf c d) with hL
  have memL : ∀ t p, (t, p) ∈ L ↔ cls t ∈ xs ∧ d.view c o t = some p := by
    intro t p
    simp only [hL, List.mem_filterMap, List.mem_flatMap, Prod.exists, edgeOf, Option.map_eq_some_iff,
      Prod.mk.injEq, hm, view, Option.bind_eq_some_iff]
    constructor
    · rintro ⟨t', v, ⟨x, hx, hi, rfl⟩, q, ⟨b, hb, hq⟩, rfl, rfl⟩
      exact ⟨hx, v, hi, b, hb, hq⟩
    · rintro ⟨hx, v, hi, b, hb, hq⟩
      exact ⟨t, v, ⟨cls t, hx, hi, rfl⟩, p, ⟨b, hb, hq⟩, rfl, rfl⟩
  have ndL : (L.map Prod.fst).Nodup := by
    refine List.Nodup.sublist (edgeOf_keys d _) ?_
    rw [List.map_flatMap, List.nodup_flatMap]
    refine ⟨fun x _ => hnd x, ?_⟩
    refine (List.nodup_iff_pairwise_ne.1 hx).imp (fun {x y} hxy => ?_)
    intro k hk hk'
    simp only [List.mem_map, Prod.exists, exists_and_right, exists_eq_right] at hk hk'
    obtain ⟨i, hi⟩ := hk
    obtain ⟨j, hj⟩ := hk'
    exact hxy (((hm x k i).1 hi).2.symm.trans ((hm y k j).1 hj).2)
  have lenL : L.length ≤ N := by
    rw [← List.length_map (f := Prod.fst)]
    refine hN _ ndL (fun t ht => ?_)
    obtain ⟨⟨t', p⟩, hm', rfl⟩ := List.mem_map.1 ht
    have := ((memL t' p).1 hm').2
    simp only [view, Option.bind_eq_some_iff] at this
    obtain ⟨v, hv, _⟩ := this
    exact ⟨v, hv⟩
  have hnew : Mem.Ok (n + L.length) (Mem.new g : Mem Id NP EP) Graph.empty := (Mem.ok_new hg).mono (by omega)
  have := Mem.fold_cost (fun (r : Mem Id NP EP) (x : Triple Id × EP) => r.insertEdge x.1 x.2)
    (fun G x => G.insertEdge x.1 x.2) (fun n s G a h => Mem.ok_insertEdge n s G a.1 a.2 h) L hnew
  rw [foldl_insertEdge_fun (f := d.view c o) (fun x hx => ((memL x.1 x.2).1 hx).2)] at this
  refine ⟨this.congr (Graph.ext' (fun _ => rfl) (fun t => ?_)), ?_⟩
  swap
  · exact (Gen.Adv.foldl Mem.gen (add : Mem Id NP EP → Triple Id × EP → Mem Id NP EP)
      (fun r x => Mem.insertEdge_adv r x.1 x.2) L (Mem.new g)).mono (by omega)
  by_cases hc : cls t ∈ xs
  · cases hg : d.view (Id := Id) c o t with
    | none => simp [Graph.empty, hg]
    | some p =>
      have : t ∈ L.map Prod.fst := List.mem_map.2 ⟨(t, p), (memL t p).2 ⟨hc, hg⟩, rfl⟩
      simp [this, hc]
  · have : t ∉ L.map Prod.fst := by
      intro ht
      obtain ⟨⟨t', p⟩, hm', rfl⟩ := List.mem_map.1 ht
      exact hc ((memL t' p).1 hm').1
    simp [this, hc, Graph.empty]

theorem rangeArr_nodup {n : Nat} (t : Tree) (b : Bound (ByteArr n) × Bound (ByteArr n)) :
    ((t.rangeArr b).map Prod.fst).Nodup := by
  unfold Tree.rangeArr
  exact Mem.range_nodup _ _

/-- the range queries -/
theorem range_core {κ : Type} [DecidableEq κ] {d : Db} (h : Inv Id c d) (o : EdgeOrder) (cls : Triple Id → κ)
    (bnd : κ → Bound (TKey Id) × Bound (TKey Id))
    (hb : ∀ x t, Bound.contains (bnd x) (encOf o t) = true ↔ cls t = x) {xs : List κ} (hx : xs.Nodup) (n : Nat)
    {g : Gen Id} (hg : Fresh (n + d.spo.entries.length) g) :
    ∃ r, tryFold (fun r x => addRange c d (decOf o) r ((d.tree o).rangeArr (bnd x))) (Mem.new g) xs = .ok r ∧
      Mem.OkFrom g d.spo.entries.length n r
        { nodes := fun _ => none, edges := fun t => if cls t ∈ xs then (d.graph c).edges t else none } := by
  choose Lf hL hm using fun x => rangeArr_enc (h.keys o) (bnd x)
  refine ⟨_, foldRange_ok d Lf (fun r x => ?_) _ _, (fill_core (c := c) (o := o) (fun L h1 h2 => keys_le (o := .SPO) h1 (fun t ht => by rw [← h.same o]; exact h2 t ht)) cls Lf (fun x t v => ?_) (fun x => ?_) hx n hg).congr
      (Graph.ext' (fun _ => rfl) (fun t => by simp only [h.view_eq]; rfl))⟩
  · rw [hL x]
    refine addRange_ok o _ (fun y hy => ?_) r
    exact h.recsAll o _ _ ((hm x y.1 y.2).1 hy).1
  · rw [hm, hb]
  · have := rangeArr_nodup (d.tree o) (bnd x)
    rw [hL x, List.map_map] at this
    have e2 : (Lf x).map (Prod.fst ∘ fun x => ((encOf o x.1).1, x.2)) = ((Lf x).map Prod.fst).map (fun t => (encOf o t).1) := by
      rw [List.map_map]; rfl
    rw [e2] at this
    exact List.Nodup.of_map _ this

theorem run_nodeProps {d : Db} (h : Inv Id c d) {g : Gen Id} {N n : Nat} {r : Mem Id NP EP} {G : Graph Id NP EP}
    (hr : Mem.OkFrom g N n r G) (ids : List Id) :
    ∃ r', tryFold (fun (r : Mem Id NP EP) (x : Id) =>
      match d.nodeProps.get (toBeBytes x).1 with
      | none => .ok r
      | some b =>
        match c.n.de b with
        | none => .error SErr.serialization
        | some p => .ok (r.insertNode x p)) r ids = .ok r' ∧
      Mem.OkFrom g N n r' { G with nodes := fun m => if m ∈ ids then ((d.graph c).nodes m).or (G.nodes m) else G.nodes m } := by
  induction ids generalizing r G with
  | nil => exact ⟨r, rfl, by simpa using hr⟩
  | cons a l ih =>
    rw [tryFold]
    cases ha : d.nodeProps.get (toBeBytes a).1 with
    | none =>
      obtain ⟨r', h1, h2⟩ := ih hr
      refine ⟨r', h1, h2.congr (Graph.ext' (fun m => ?_) (fun _ => rfl))⟩
      by_cases hm : m = a
      · subst hm; simp [graph, ha]
      · simp [hm]
    | some b =>
      obtain ⟨_, p, hp⟩ := h.nodes _ _ ha
      simp only [hp]
      obtain ⟨r', h1, h2⟩ := ih ⟨Mem.ok_insertNode _ _ _ a p hr.1, by rw [Mem.insertNode_gen]; exact hr.2⟩
      refine ⟨r', h1, h2.congr (Graph.ext' (fun m => ?_) (fun _ => rfl))⟩
      by_cases hm : m = a
      · subst hm; simp [graph, ha, hp, Graph.insertNode]
      · simp [hm, Graph.insertNode]

theorem run_from {d : Db} (h : Inv Id c d) (n : Nat) {g : Gen Id} (hg : Fresh (n + d.spo.entries.length) g)
    (q : Query Id) (hq : Spec.Query.Nodup q) :
    ∃ r, runQuery c d g q = .ok r ∧ Mem.OkFrom g d.spo.entries.length n r (select (d.graph c) q) := by
  suffices hs : ∃ r, runQ c d g q = .ok r ∧ Mem.OkFrom g d.spo.entries.length n r (select (d.graph c) q) by
    obtain ⟨r, h1, h2⟩ := hs
    exact ⟨r, by unfold runQuery; rw [h1], h2⟩
  cases q with
  | NodeProps ids =>
    obtain ⟨r, h1, h2⟩ := run_nodeProps h (g := g) (N := d.spo.entries.length)
      ⟨((Mem.ok_new hg).mono (by omega) : Mem.Ok n (Mem.new g : Mem Id NP EP) _), .refl _ _⟩ ids
    refine ⟨r, h1, h2.congr (Graph.ext' (fun m => ?_) (fun _ => rfl))⟩
    simp [Graph.empty, select]
  | SPO xs =>
    have := fill_core (c := c) (fun L h1 h2 => keys_le (o := .SPO) h1 h2) (fun t => (t.sub, t.pred, t.obj))
      (fun x : Id × Id × Id => (d.spo.get (encodeSpo ⟨x.1, x.2.1, x.2.2⟩)).toList.map
        (fun i => ((⟨x.1, x.2.1, x.2.2⟩ : Triple Id), i)))
      (fun x t v => by
        obtain ⟨a, b, e⟩ := x
        simp only [List.mem_map, Option.mem_toList, Prod.mk.injEq]
        constructor
        · rintro ⟨j, hj, rfl, rfl⟩
          exact ⟨hj, rfl, rfl, rfl⟩
        · rintro ⟨h1, rfl, rfl, rfl⟩
          exact ⟨v, h1, rfl, rfl⟩)
      (fun x => by
        cases d.spo.get (encodeSpo ⟨x.1, x.2.1, x.2.2⟩).1 <;> simp) (List.Nodup.of_map _ hq) n hg
    refine ⟨_, foldRange_ok d _ (fun r x => ?_) _ _, this.congr (Graph.ext' (fun _ => rfl) (fun t => by simp [select, graph]))⟩
    cases hi : d.spo.get (encodeSpo ⟨x.1, x.2.1, x.2.2⟩).1 with
    | none => simp [hi]
    | some v =>
      obtain ⟨b, p, h1, h2⟩ := h.recs _ _ hi
      simp [hi, h1, h2, edgeOf, add]
  | S xs => exact range_core h .SPO (fun t => t.sub) (fun x => keyBounds1 x) (fun x t => LawfulId.kb1_spo x t) (List.Nodup.of_map _ hq) n hg
  | P xs => exact range_core h .POS (fun t => t.pred) (fun x => keyBounds1 x) (fun x t => LawfulId.kb1_pos x t) (List.Nodup.of_map _ hq) n hg
  | O xs => exact range_core h .OSP (fun t => t.obj) (fun x => keyBounds1 x) (fun x t => LawfulId.kb1_osp x t) (List.Nodup.of_map _ hq) n hg
  | SP xs =>
    obtain ⟨r, h1, h2⟩ := range_core h .SPO (fun t => (t.sub, t.pred)) (fun x => keyBounds2 x.1 x.2)
      (fun x t => by rw [Prod.ext_iff]; exact LawfulId.kb2_spo x.1 x.2 t) (List.Nodup.of_map _ hq) n hg
    exact ⟨r, h1, h2.congr (Graph.ext' (fun _ => rfl) (fun t => by simp [select]))⟩
  | PO xs =>
    obtain ⟨r, h1, h2⟩ := range_core h .POS (fun t => (t.pred, t.obj)) (fun x => keyBounds2 x.1 x.2)
      (fun x t => by rw [Prod.ext_iff]; exact LawfulId.kb2_pos x.1 x.2 t) (List.Nodup.of_map _ hq) n hg
    exact ⟨r, h1, h2.congr (Graph.ext' (fun _ => rfl) (fun t => by simp [select]))⟩
  | SO xs =>
    obtain ⟨r, h1, h2⟩ := range_core h .OSP (fun t => (t.sub, t.obj)) (fun x => keyBounds2 x.2 x.1)
      (fun x t => by rw [Prod.ext_iff]; exact (LawfulId.kb2_osp x.2 x.1 t).trans and_comm) (List.Nodup.of_map _ hq) n hg
    exact ⟨r, h1, h2.congr (Graph.ext' (fun _ => rfl) (fun t => by simp [select]))⟩

theorem run_spec {d : Db} (h : Inv Id c d) (n : Nat) {g : Gen Id} (hg : Fresh (n + d.spo.entries.length) g)
    (q : Query Id) (hq : Spec.Query.Nodup q) :
    ∃ r, runQuery c d g q = .ok r ∧ Mem.Ok n r (select (d.graph c) q) := by
  obtain ⟨r, h1, h2⟩ := run_from h n hg q hq
  exact ⟨r, h1, h2.1⟩

end Sled

end Verif
