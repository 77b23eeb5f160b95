import Mathlib.Data.List.Nodup
import Verif.Proof.Stream

/-! # Queries on the in-memory store -/

set_option linter.unusedSectionVars false

namespace Verif

open Spec ConcreteId

variable {Id NP EP : Type} [LinearOrder Id] [ConcreteId Id] [LawfulId Id]

theorem foldl_insertEdge_fun {L : List (Triple Id × EP)} {f : Triple Id → Option EP}
    (hf : ∀ x ∈ L, f x.1 = some x.2) (G : Graph Id NP EP) :
    L.foldl (fun G x => G.insertEdge x.1 x.2) G =
      { G with edges := fun t => if t ∈ L.map Prod.fst then f t else G.edges t } := by
  induction L generalizing G with
  | nil => simp
  | cons a L ih =>
    rw [List.foldl_cons, ih (fun x hx => hf x (List.mem_cons_of_mem _ hx))]
    refine Graph.ext' (fun _ => rfl) (fun t => ?_)
    have := hf a (by simp)
    simp only [Graph.insertEdge, List.map_cons, List.mem_cons]
    by_cases h1 : t ∈ L.map Prod.fst
    · simp [h1]
    · by_cases h2 : t = a.1
      · subst h2; simp [h1, this]
      · simp [h1, h2]

namespace Mem

theorem Ok.congr {n : Nat} {s : Mem Id NP EP} {G H : Graph Id NP EP} (h : Ok n s G) (e : G = H) :
    Ok n s H := e ▸ h

theorem edgeCount_eq (s : Mem Id NP EP) : s.edgeCount = (s.edgeList .SPO).length := by
  rw [edgeCount, iterEdges_eq, List.length_map]

theorem keys_length_le {s : Mem Id NP EP} (h : Agree s) {L : List (Triple Id)} (hn : L.Nodup)
    (hL : ∀ t ∈ L, (s.graph.edges t).isSome) : L.length ≤ s.edgeCount := by
  rw [edgeCount_eq, ← List.length_map (f := Prod.fst)]
  refine (List.subperm_of_subset hn (fun t ht => ?_)).length_le
  obtain ⟨p, hp⟩ := Option.isSome_iff_exists.1 (hL t ht)
  exact List.mem_map.2 ⟨(t, p), ((edgeList_lists h .SPO).2 t p).2 hp, rfl⟩

theorem addRange_eq (s : Mem Id NP EP) (dec : TKey Id → Triple Id) (r : Mem Id NP EP)
    (l : List (TKey Id × Id)) :
    s.addRange dec r l =
      (l.filterMap (fun e => (s.edgeProps.get e.2).map (fun p => (dec e.1, p)))).foldl
        (fun r x => r.insertEdge x.1 x.2) r := by
  unfold addRange
  induction l generalizing r with
  | nil => rfl
  | cons a l ih =>
    rw [List.foldl_cons, ih]
    cases h : s.edgeProps.get a.2 <;> simp [h]

theorem foldRange_eq {κ : Type} (s : Mem Id NP EP) (dec : TKey Id → Triple Id) (r : Mem Id NP EP)
    (rng : κ → List (TKey Id × Id)) (xs : List κ) :
    xs.foldl (fun r x => s.addRange dec r (rng x)) r =
      ((xs.flatMap rng).filterMap (fun e => (s.edgeProps.get e.2).map (fun p => (dec e.1, p)))).foldl
        (fun r x => r.insertEdge x.1 x.2) r := by
  induction xs generalizing r with
  | nil => rfl
  | cons a l ih =>
    rw [List.foldl_cons, ih, addRange_eq, List.flatMap_cons, List.filterMap_append, List.foldl_append]

theorem run_core {κ : Type} [DecidableEq κ] {s : Mem Id NP EP} (h : Inv s) (dec : TKey Id → Triple Id)
    (enc : Triple Id → TKey Id) (hde : ∀ t, dec (enc t) = t) (hed : ∀ k, enc (dec k) = k)
    (rng : κ → List (TKey Id × Id)) (c : Triple Id → κ)
    (hr : ∀ x k i, (k, i) ∈ rng x ↔ s.idOf (dec k) = some i ∧ c (dec k) = x)
    (hnd : ∀ x, ((rng x).map Prod.fst).Nodup) {xs : List κ} (hx : xs.Nodup) (n : Nat) {g : Gen Id}
    (hg : ∀ i < n + s.edgeCount, ∀ j < n + s.edgeCount, g i = g j → i = j) :
    OkFrom g s.edgeCount n (xs.foldl (fun r x => s.addRange dec r (rng x)) (new g))
      { nodes := fun _ => none, edges := fun t => if c t ∈ xs then s.graph.edges t else none } := by
  rw [foldRange_eq]
  set L := (xs.flatMap rng).filterMap (fun e => (s.edgeProps.get e.2).map (fun p => (dec e.1, p))) with hL
  have memL : ∀ t p, (t, p) ∈ L ↔ c t ∈ xs ∧ s.graph.edges t = some p := by
    intro t p
    simp only [hL, List.mem_filterMap, List.mem_flatMap, Prod.exists, Option.map_eq_some_iff,
      Prod.mk.injEq, hr, graph, Option.bind_eq_some_iff]
    constructor
    · rintro ⟨k, i, ⟨x, hx, hi, rfl⟩, q, hq, rfl, rfl⟩
      exact ⟨hx, i, hi, hq⟩
    · rintro ⟨hx, i, hi, hq⟩
      exact ⟨enc t, i, ⟨c t, hx, by rw [hde]; exact hi, by rw [hde]⟩, p, hq, hde t, rfl⟩
  have ndL : (L.map Prod.fst).Nodup := by
    have e : L.map Prod.fst = (((xs.flatMap rng).filter (fun e => (s.edgeProps.get e.2).isSome)).map
        Prod.fst).map dec := by
      rw [hL]
      generalize xs.flatMap rng = l
      induction l with
      | nil => rfl
      | cons a l ih =>
        cases ha : s.edgeProps.get a.2 with
        | none => simp [ha, ih]
        | some q => simp [ha, ih]
    rw [e]
    refine List.Nodup.map (fun a b hab => by rw [← hed a, hab, hed]) ?_
    refine List.Nodup.sublist (List.Sublist.map _ (List.filter_sublist)) ?_
    rw [List.map_flatMap, List.nodup_flatMap]
    refine ⟨fun x _ => hnd x, ?_⟩
    refine (List.nodup_iff_pairwise_ne.1 hx).imp (fun {x y} hxy => ?_)
    intro k hk hk'
    simp only [List.mem_map, Prod.exists, exists_and_right, exists_eq_right] at hk hk'
    obtain ⟨i, hi⟩ := hk
    obtain ⟨j, hj⟩ := hk'
    exact hxy (((hr x k i).1 hi).2.symm.trans ((hr y k j).1 hj).2)
  have lenL : L.length ≤ s.edgeCount := by
    rw [← List.length_map (f := Prod.fst)]
    refine keys_length_le h.toAgree ndL (fun t ht => ?_)
    obtain ⟨⟨t', p⟩, hm, rfl⟩ := List.mem_map.1 ht
    rw [((memL t' p).1 hm).2]; rfl
  have hnew : Ok (n + L.length) (new g : Mem Id NP EP) Graph.empty :=
    (ok_new hg).mono (by omega)
  have := fold_cost (fun (r : Mem Id NP EP) (x : Triple Id × EP) => r.insertEdge x.1 x.2)
    (fun G x => G.insertEdge x.1 x.2) (fun n s G a h => ok_insertEdge n s G a.1 a.2 h) L hnew
  rw [foldl_insertEdge_fun (f := s.graph.edges) (fun x hx => ((memL x.1 x.2).1 hx).2)] at this
  refine ⟨this.congr (Graph.ext' (fun _ => rfl) (fun t => ?_)), ?_⟩
  swap
  · exact (Gen.Adv.foldl Mem.gen (fun (r : Mem Id NP EP) (x : Triple Id × EP) => r.insertEdge x.1 x.2)
      (fun r x => insertEdge_adv r x.1 x.2) L (new g)).mono (by omega)
  by_cases hc : c t ∈ xs
  · cases hg : s.graph.edges t with
    | none => simp [Graph.empty, hg]
    | some p =>
      have : t ∈ L.map Prod.fst := List.mem_map.2 ⟨(t, p), (memL t p).2 ⟨hc, hg⟩, rfl⟩
      simp [this, hc]
  · have : t ∉ L.map Prod.fst := by
      intro ht
      obtain ⟨⟨t', p⟩, hm, rfl⟩ := List.mem_map.1 ht
      exact hc ((memL t' p).1 hm).1
    simp [this, hc, Graph.empty]

theorem mem_spoRange {s : Mem Id NP EP} {b : Bound (TKey Id) × Bound (TKey Id)} {k : TKey Id} {i : Id} :
    (k, i) ∈ s.spo.range b ↔ s.idOf (decodeSpo k) = some i ∧ Bound.contains b (encodeSpo (decodeSpo k)) = true := by
  rw [BMap.mem_range, idOf, LawfulId.encSpo_dec]

theorem mem_posRange {s : Mem Id NP EP} (h : Agree s) {b : Bound (TKey Id) × Bound (TKey Id)} {k : TKey Id}
    {i : Id} : (k, i) ∈ s.pos.range b ↔
      s.idOf (decodePos k) = some i ∧ Bound.contains b (encodePos (decodePos k)) = true := by
  rw [BMap.mem_range, ← h.pos, LawfulId.encPos_dec]

theorem mem_ospRange {s : Mem Id NP EP} (h : Agree s) {b : Bound (TKey Id) × Bound (TKey Id)} {k : TKey Id}
    {i : Id} : (k, i) ∈ s.osp.range b ↔
      s.idOf (decodeOsp k) = some i ∧ Bound.contains b (encodeOsp (decodeOsp k)) = true := by
  rw [BMap.mem_range, ← h.osp, LawfulId.encOsp_dec]

theorem range_nodup {K V : Type} [LinearOrder K] (m : BMap K V) (b : Bound K × Bound K) :
    ((m.range b).map Prod.fst).Nodup := by
  rw [List.nodup_iff_pairwise_ne, List.pairwise_map]
  exact (m.range_sorted b).imp (fun h => ne_of_lt h)

theorem run_nodeProps (s : Mem Id NP EP) {n : Nat} {g : Gen Id} {r : Mem Id NP EP} {G : Graph Id NP EP}
    {N : Nat} (hr : OkFrom g N n r G) (ids : List Id) :
    OkFrom g N n (ids.foldl (fun r n =>
      match s.nodeProps.get n with
      | some d => { r with nodeProps := r.nodeProps.insert n d }
      | none => r) r)
      { G with nodes := fun m => if m ∈ ids then (s.graph.nodes m).or (G.nodes m) else G.nodes m } := by
  induction ids generalizing r G with
  | nil => simpa using hr
  | cons a l ih =>
    rw [List.foldl_cons]
    cases ha : s.nodeProps.get a with
    | none =>
      refine (ih hr).congr (Graph.ext' (fun m => ?_) (fun _ => rfl))
      by_cases hm : m = a
      · subst hm; simp [graph, ha]
      · simp [hm]
    | some d =>
      refine (ih (G := G.insertNode a d) (r := { r with nodeProps := r.nodeProps.insert a d }) (by
        rw [← insertNode_eq]; exact ⟨ok_insertNode _ _ _ _ _ hr.1, by rw [insertNode_gen]; exact hr.2⟩)).congr
          (Graph.ext' (fun m => ?_) (fun _ => rfl))
      by_cases hm : m = a
      · subst hm; simp [graph, ha, Graph.insertNode]
      · simp [hm, Graph.insertNode]


theorem run_from {s : Mem Id NP EP} (h : Inv s) (n : Nat) {g : Gen Id}
    (hg : ∀ i < n + s.edgeCount, ∀ j < n + s.edgeCount, g i = g j → i = j) (q : Query Id)
    (hq : Spec.Query.Nodup q) : OkFrom g s.edgeCount n (s.run g q) (select s.graph q) := by
  cases q with
  | NodeProps ids =>
    have := run_nodeProps s (g := g) (N := s.edgeCount)
      ⟨((ok_new hg).mono (by omega) : Ok n (new g : Mem Id NP EP) _), .refl _ _⟩ ids
    refine this.congr (Graph.ext' (fun m => ?_) (fun _ => rfl))
    simp [Graph.empty, select]
  | SPO xs =>
    have := run_core h decodeSpo encodeSpo LawfulId.decSpo_enc LawfulId.encSpo_dec
      (fun x : Id × Id × Id => (s.spo.get (encodeSpo ⟨x.1, x.2.1, x.2.2⟩)).toList.map
        (fun i => (encodeSpo ⟨x.1, x.2.1, x.2.2⟩, i)))
      (fun t => (t.sub, t.pred, t.obj))
      (fun x k i => by
        obtain ⟨a, b, c⟩ := x
        simp only [List.mem_map, Option.mem_toList, Prod.mk.injEq]
        constructor
        · rintro ⟨j, hj, rfl, rfl⟩
          rw [LawfulId.decSpo_enc]
          exact ⟨hj, rfl, rfl, rfl⟩
        · rintro ⟨h1, h2, h3, h4⟩
          have e : (⟨a, b, c⟩ : Triple Id) = decodeSpo k := by rw [← h2, ← h3, ← h4]
          refine ⟨i, ?_, ?_, rfl⟩
          · rw [e]; exact h1
          · rw [e, LawfulId.encSpo_dec])
      (fun x => by
        cases s.spo.get (encodeSpo ⟨x.1, x.2.1, x.2.2⟩) <;> simp)
      (List.Nodup.of_map _ hq) n hg
    refine Eq.subst (motive := fun r => OkFrom g s.edgeCount n r _) ?_
      (this.congr (Graph.ext' (fun _ => rfl) (fun t => by simp [select])))
    show List.foldl _ _ _ = List.foldl _ _ _
    congr 1
    funext r x
    rw [addRange_eq]
    cases hx : s.spo.get (encodeSpo ⟨x.1, x.2.1, x.2.2⟩) with
    | none => simp [hx]
    | some i => cases hp : s.edgeProps.get i <;> simp [hx, hp, LawfulId.decSpo_enc]
  | S xs =>
    exact run_core h decodeSpo encodeSpo LawfulId.decSpo_enc LawfulId.encSpo_dec
      (fun x => s.spo.range (keyBounds1 x)) (fun t => t.sub)
      (fun x k i => by rw [mem_spoRange, LawfulId.kb1_spo])
      (fun x => range_nodup _ _) (List.Nodup.of_map _ hq) n hg
  | P xs =>
    exact run_core h decodePos encodePos LawfulId.decPos_enc LawfulId.encPos_dec
      (fun x => s.pos.range (keyBounds1 x)) (fun t => t.pred)
      (fun x k i => by rw [mem_posRange h.toAgree, LawfulId.kb1_pos])
      (fun x => range_nodup _ _) (List.Nodup.of_map _ hq) n hg
  | O xs =>
    exact run_core h decodeOsp encodeOsp LawfulId.decOsp_enc LawfulId.encOsp_dec
      (fun x => s.osp.range (keyBounds1 x)) (fun t => t.obj)
      (fun x k i => by rw [mem_ospRange h.toAgree, LawfulId.kb1_osp])
      (fun x => range_nodup _ _) (List.Nodup.of_map _ hq) n hg
  | SP xs =>
    refine (run_core h decodeSpo encodeSpo LawfulId.decSpo_enc LawfulId.encSpo_dec
      (fun x : Id × Id => s.spo.range (keyBounds2 x.1 x.2)) (fun t => (t.sub, t.pred))
      (fun x k i => by rw [mem_spoRange, LawfulId.kb2_spo, Prod.ext_iff])
      (fun x => range_nodup _ _) (List.Nodup.of_map _ hq) n hg).congr
      (Graph.ext' (fun _ => rfl) (fun t => by simp [select]))
  | PO xs =>
    refine (run_core h decodePos encodePos LawfulId.decPos_enc LawfulId.encPos_dec
      (fun x : Id × Id => s.pos.range (keyBounds2 x.1 x.2)) (fun t => (t.pred, t.obj))
      (fun x k i => by rw [mem_posRange h.toAgree, LawfulId.kb2_pos, Prod.ext_iff])
      (fun x => range_nodup _ _) (List.Nodup.of_map _ hq) n hg).congr
      (Graph.ext' (fun _ => rfl) (fun t => by simp [select]))
  | SO xs =>
    refine (run_core h decodeOsp encodeOsp LawfulId.decOsp_enc LawfulId.encOsp_dec
      (fun x : Id × Id => s.osp.range (keyBounds2 x.2 x.1)) (fun t => (t.sub, t.obj))
      (fun x k i => by
        rw [mem_ospRange h.toAgree, LawfulId.kb2_osp, Prod.ext_iff]
        simp only [and_congr_right_iff]
        intro _
        exact and_comm)
      (fun x => range_nodup _ _) (List.Nodup.of_map _ hq) n hg).congr
      (Graph.ext' (fun _ => rfl) (fun t => by simp [select]))

theorem run_spec {s : Mem Id NP EP} (h : Inv s) (n : Nat) {g : Gen Id}
    (hg : ∀ i < n + s.edgeCount, ∀ j < n + s.edgeCount, g i = g j → i = j) (q : Query Id)
    (hq : Spec.Query.Nodup q) : Ok n (s.run g q) (select s.graph q) := (run_from h n hg q hq).1

end Mem

end Verif
