import Verif.Proof.SledOwn
import Verif.Proof.SledRecs
import Verif.Proof.Linear

/-! # Threads that touch different edges and nodes -/

set_option linter.unusedSectionVars false

namespace Verif

open Spec ConcreteId

variable {Id NP EP E : Type} [LinearOrder Id] [ConcreteId Id]

namespace Spec

theorem okPrefix_oks {α : Type} (l : List (Except E α)) : okPrefix l = oks l := by
  induction l with
  | nil => rfl
  | cons x l ih => cases x with
    | error e => rfl
    | ok a => simp only [okPrefix, oks, ih]

theorem edgePrefix_oks (src : Source E Id NP EP) :
    Source.edgePrefix src = if fails src.nodes then [] else oks src.edges := by
  have h : ∀ {α : Type} (l : List (Except E α)), (firstErr l).isSome = fails l := by
    intro α l
    induction l with
    | nil => rfl
    | cons x l ih => cases x with
      | error e => rfl
      | ok a => simpa only [firstErr, fails] using ih
  unfold Source.edgePrefix
  have := h src.nodes
  cases hf : firstErr src.nodes with
  | none => rw [hf] at this; simp [← this, okPrefix_oks]
  | some e => rw [hf] at this; simp [← this]

theorem mem_oks {α : Type} {l : List (Except E α)} {a : α} (h : a ∈ oks l) : .ok a ∈ l := by
  induction l with
  | nil => cases h
  | cons x l ih => cases x with
    | error e => cases h
    | ok b =>
      rcases List.mem_cons.1 h with rfl | h
      · exact List.mem_cons_self
      · exact List.mem_cons_of_mem _ (ih h)

variable {mN : NP → NP → NP} {mE : EP → EP → EP}

theorem insertNodes_edges (l : List (Id × NP)) (G : Graph Id NP EP) :
    (l.foldl (fun G x => G.insertNode x.1 x.2) G).edges = G.edges := by
  induction l generalizing G with
  | nil => rfl
  | cons x l ih => exact ih _

theorem mergeNodes_edges (l : List (Id × NP)) (G : Graph Id NP EP) :
    (l.foldl (fun G x => G.mergeNode mN x.1 x.2) G).edges = G.edges := by
  induction l generalizing G with
  | nil => rfl
  | cons x l ih => exact ih _

theorem insertEdges_nodes (l : List (Triple Id × EP)) (G : Graph Id NP EP) :
    (l.foldl (fun G x => G.insertEdge x.1 x.2) G).nodes = G.nodes := by
  induction l generalizing G with
  | nil => rfl
  | cons x l ih => exact ih _

theorem mergeEdges_nodes (l : List (Triple Id × EP)) (G : Graph Id NP EP) :
    (l.foldl (fun G x => G.mergeEdge mE x.1 x.2) G).nodes = G.nodes := by
  induction l generalizing G with
  | nil => rfl
  | cons x l ih => exact ih _

/-- what becomes of an edge depends on that edge only -/
theorem foldl_congr {α γ : Type} {f : Graph Id NP EP → α → Graph Id NP EP} {v : Graph Id NP EP → γ}
    (hf : ∀ G H a, v G = v H → v (f G a) = v (f H a)) (l : List α) (G H : Graph Id NP EP) (h : v G = v H) :
    v (l.foldl f G) = v (l.foldl f H) := by
  induction l generalizing G H with
  | nil => exact h
  | cons x l ih => exact ih _ _ (hf _ _ _ h)

theorem apply_edges (t : Triple Id) (G H : Graph Id NP EP) (op : Op E Id NP EP) (h : G.edges t = H.edges t) :
    (op.apply mN mE G).edges t = (op.apply mN mE H).edges t := by
  have hi : ∀ (G H : Graph Id NP EP) (x : Triple Id × EP), G.edges t = H.edges t →
      (G.insertEdge x.1 x.2).edges t = (H.insertEdge x.1 x.2).edges t := by
    intro G H x h; simp only [Graph.insertEdge]; split
    · rfl
    · exact h
  have hm : ∀ (G H : Graph Id NP EP) (x : Triple Id × EP), G.edges t = H.edges t →
      (G.mergeEdge mE x.1 x.2).edges t = (H.mergeEdge mE x.1 x.2).edges t := by
    intro G H x h; simp only [Graph.mergeEdge]; split
    · rename_i e; subst e; rw [h]
    · exact h
  cases op with
  | insertNode n p => exact h
  | insertEdge u p => exact hi G H (u, p) h
  | removeNode n =>
    simp only [Op.apply, Graph.removeNode]; split
    · rfl
    · exact h
  | removeEdge u =>
    simp only [Op.apply, Graph.removeEdge]; split
    · rfl
    · exact h
  | mergeNode n p => exact h
  | mergeEdge u p => exact hm G H (u, p) h
  | extend src =>
    exact foldl_congr (v := fun G => G.edges t) hi _ _ _ (by rw [insertNodes_edges, insertNodes_edges]; exact h)
  | merge src =>
    exact foldl_congr (v := fun G => G.edges t) hm _ _ _ (by rw [mergeNodes_edges, mergeNodes_edges]; exact h)

theorem apply_nodes (n : Id) (G H : Graph Id NP EP) (op : Op E Id NP EP) (h : G.nodes n = H.nodes n) :
    (op.apply mN mE G).nodes n = (op.apply mN mE H).nodes n := by
  have hi : ∀ (G H : Graph Id NP EP) (x : Id × NP), G.nodes n = H.nodes n →
      (G.insertNode x.1 x.2).nodes n = (H.insertNode x.1 x.2).nodes n := by
    intro G H x h; simp only [Graph.insertNode]; split
    · rfl
    · exact h
  have hm : ∀ (G H : Graph Id NP EP) (x : Id × NP), G.nodes n = H.nodes n →
      (G.mergeNode mN x.1 x.2).nodes n = (H.mergeNode mN x.1 x.2).nodes n := by
    intro G H x h; simp only [Graph.mergeNode]; split
    · rename_i e; subst e; rw [h]
    · exact h
  cases op with
  | insertNode m p => exact hi G H (m, p) h
  | insertEdge u p => exact h
  | removeNode m =>
    simp only [Op.apply, Graph.removeNode]; split
    · rfl
    · exact h
  | removeEdge u => exact h
  | mergeNode m p => exact hm G H (m, p) h
  | mergeEdge u p => exact h
  | extend src =>
    simp only [Op.apply, insertEdges_nodes]
    exact foldl_congr (v := fun G => G.nodes n) hi _ _ _ h
  | merge src =>
    simp only [Op.apply, mergeEdges_nodes]
    exact foldl_congr (v := fun G => G.nodes n) hm _ _ _ h

theorem applyAll_edges (t : Triple Id) (h : List (Op E Id NP EP)) (G H : Graph Id NP EP) (e : G.edges t = H.edges t) :
    (applyAll mN mE G h).edges t = (applyAll mN mE H h).edges t :=
  foldl_congr (v := fun G => G.edges t) (apply_edges t) h G H e

theorem applyAll_nodes (n : Id) (h : List (Op E Id NP EP)) (G H : Graph Id NP EP) (e : G.nodes n = H.nodes n) :
    (applyAll mN mE G h).nodes n = (applyAll mN mE H h).nodes n :=
  foldl_congr (v := fun G => G.nodes n) (apply_nodes n) h G H e

theorem applyAll_append (h h' : List (Op E Id NP EP)) (G : Graph Id NP EP) :
    applyAll mN mE G (h ++ h') = applyAll mN mE (applyAll mN mE G h) h' := List.foldl_append

theorem foldl_same {α γ : Type} {f : Graph Id NP EP → α → Graph Id NP EP} {v : Graph Id NP EP → γ} (l : List α)
    (hf : ∀ G, ∀ a ∈ l, v (f G a) = v G) (G : Graph Id NP EP) : v (l.foldl f G) = v G := by
  induction l generalizing G with
  | nil => rfl
  | cons x l ih => exact (ih (fun G a ha => hf G a (List.mem_cons_of_mem _ ha)) _).trans (hf G x List.mem_cons_self)

end Spec

namespace Sled

variable {mN : NP → NP → NP} {mE : EP → EP → EP}

theorem ops_merge (g : Gen Id) (src : Source E Id NP EP) (G : Graph Id NP EP) :
    applyAll mN mE G (Call.merge g src : Call E Id NP EP).ops = Op.apply mN mE G (.merge src : Op E Id NP EP) := by
  have hN : ∀ (l : List (Id × NP)) (G : Graph Id NP EP),
      applyAll mN mE G (l.map (fun x => (.mergeNode x.1 x.2 : Op E Id NP EP))) = l.foldl (fun G x => G.mergeNode mN x.1 x.2) G :=
    fun l G => by unfold applyAll; rw [List.foldl_map]; rfl
  have hE : ∀ (l : List (Triple Id × EP)) (G : Graph Id NP EP),
      applyAll mN mE G (l.map (fun x => (.mergeEdge x.1 x.2 : Op E Id NP EP))) = l.foldl (fun G x => G.mergeEdge mE x.1 x.2) G :=
    fun l G => by unfold applyAll; rw [List.foldl_map]; rfl
  simp only [Call.ops, Op.apply, applyAll_append, hN, edgePrefix_oks, Source.nodePrefix, okPrefix_oks]
  split
  · rfl
  · exact hE _ _

theorem untouched_edges {t : Triple Id} (x : Call E Id NP EP) (hx : ¬ x.TouchesEdge t) (G : Graph Id NP EP) :
    (applyAll mN mE G x.ops).edges t = G.edges t := by
  cases x with
  | insertNode n p => rfl
  | insertEdge i u p => exact if_neg hx
  | removeNode n => exact if_neg hx
  | removeNodeScan n f b => exact if_neg hx
  | removeEdge u => exact if_neg hx
  | mergeNode n p => rfl
  | mergeEdge i u p => exact if_neg hx
  | extend u src =>
    show (Op.apply mN mE G (.extend src : Op E Id NP EP)).edges t = _
    unfold Op.apply
    refine (foldl_same (v := fun G => G.edges t) _ (fun G a ha => ?_) _).trans (congrFun (insertNodes_edges _ _) t)
    refine if_neg (fun e => hx ?_)
    subst e
    rw [edgePrefix_oks] at ha
    split at ha
    · cases ha
    · exact ⟨a.2, mem_oks ha⟩
  | merge g src =>
    rw [ops_merge]
    refine (foldl_same (v := fun G => G.edges t) _ (fun G a ha => ?_) _).trans (congrFun (mergeNodes_edges _ _) t)
    refine if_neg (fun e => hx ?_)
    subst e
    rw [edgePrefix_oks] at ha
    split at ha
    · cases ha
    · exact ⟨a.2, mem_oks ha⟩

theorem untouched_nodes {n : Id} (x : Call E Id NP EP) (hx : ¬ x.TouchesNode n) (G : Graph Id NP EP) :
    (applyAll mN mE G x.ops).nodes n = G.nodes n := by
  cases x with
  | insertNode m p => exact if_neg hx
  | insertEdge i u p => rfl
  | removeNode m => exact if_neg hx
  | removeNodeScan m f b => exact if_neg hx
  | removeEdge u => rfl
  | mergeNode m p => exact if_neg hx
  | mergeEdge i u p => rfl
  | extend u src =>
    refine (congrFun (insertEdges_nodes _ _) n).trans (foldl_same (v := fun G => G.nodes n) _ (fun G a ha => ?_) _)
    refine if_neg (fun e => hx ?_)
    subst e
    rw [Source.nodePrefix, okPrefix_oks] at ha
    exact ⟨a.2, mem_oks ha⟩
  | merge g src =>
    rw [ops_merge]
    refine (congrFun (mergeEdges_nodes _ _) n).trans (foldl_same (v := fun G => G.nodes n) _ (fun G a ha => ?_) _)
    refine if_neg (fun e => hx ?_)
    subst e
    rw [Source.nodePrefix, okPrefix_oks] at ha
    exact ⟨a.2, mem_oks ha⟩

/-! ## one edge -/

variable [LawfulId Id]

open Db

variable {c : Codecs NP EP} {Own : Bytes → Triple Id → Prop} {α β : Type}

theorem own_call (hc : c.RoundTrip) (htot : c.Total) (hown : ∀ v t u, Own v t → Own v u → t = u) {t : Triple Id}
    {F : List Bytes} {L : Part} (G : Graph Id NP EP) (x : Call E Id NP EP) (hx : ¬ (x.IsScan ∧ x.TouchesEdge t))
    (hL : Settled c L (G.edges t) (x.writes.map Prod.fst ++ F)) (hnd : (x.writes.map Prod.fst ++ F).Nodup)
    (hw : ∀ y ∈ x.writes, Own y.1 y.2) (hs : x.Scanned Own) :
    OnEdge c Own t (x.prog c mN mE) L ((applyAll mN mE G x.ops).edges t) F := by
  have hF : Settled c L (G.edges t) F := hL.sub (fun v hv => List.mem_append_right _ hv)
  by_cases ht : x.TouchesEdge t
  · cases x with
    | insertNode n p => cases ht
    | mergeNode n p => cases ht
    | removeNodeScan n f b => exact absurd ⟨trivial, ht⟩ hx
    | insertEdge i u p =>
      have ht : t = u := ht
      subst ht
      have e : (applyAll mN mE G (Call.insertEdge i t p : Call E Id NP EP).ops).edges t = some p := if_pos rfl
      rw [e]
      exact (own_insertEdge hc htot hown (hw ((toBeBytes i).1, t) (List.mem_singleton.2 rfl)) (List.nodup_cons.1 hnd).1).bind
        (fun _ _ h => h)
    | removeNode n =>
      have ht : t.sub = n ∨ t.obj = n := ht
      have e : (applyAll mN mE G (Call.removeNode n : Call E Id NP EP).ops).edges t = none := if_pos ht
      rw [e]
      exact (own_removeNode hown ht hF).bind (fun _ _ h => h)
    | removeEdge u =>
      have ht : t = u := ht
      subst ht
      have e : (applyAll mN mE G (Call.removeEdge t : Call E Id NP EP).ops).edges t = none := if_pos rfl
      rw [e]
      exact (own_removeEdge hown).bind (fun _ _ h => h)
    | mergeEdge i u p =>
      have ht : t = u := ht
      subst ht
      have e : (applyAll mN mE G (Call.mergeEdge i t p : Call E Id NP EP).ops).edges t = some (merged mE (G.edges t) p) := by
        refine (if_pos rfl).trans ?_
        unfold merged
        cases G.edges t <;> rfl
      rw [e]
      exact (own_mergeEdge hc htot hown hL (hw ((toBeBytes i).1, t) (List.mem_singleton.2 rfl)) (List.nodup_cons.1 hnd).1).bind
        (fun _ _ h => h.2)
    | extend g src =>
      have e : (applyAll mN mE G (Call.extend g src : Call E Id NP EP).ops).edges t =
          (if fails src.nodes then G else (oks src.edges).foldl (fun G x => G.insertEdge x.1 x.2) G).edges t := by
        refine (foldl_congr (v := fun G => G.edges t) (fun G H a h => ?_) _ _ G (congrFun (insertNodes_edges _ _) t)).trans ?_
        · simp only [Graph.insertEdge]; split
          · rfl
          · exact h
        · rw [edgePrefix_oks]
          split <;> rfl
      rw [e]
      show OnEdge c Own t ((Sled.extend c g src).bind _) L _ F
      unfold Sled.extend
      rw [extendNodes_bind, bind_assoc]
      refine ((within_extendNodes (T := fun _ : Triple Id => False) hc src.nodes).edge id).loc_bind (fun r hr => ?_)
      rcases hr htot with ⟨h1, e, rfl⟩ | ⟨h1, rfl⟩
      · rw [if_pos h1]
        exact hF
      · rw [if_neg (by rw [h1]; simp)]
        exact (own_extendEdges hc htot hown src.edges g L G hL hnd hw).bind (fun _ _ h => h)
    | merge g src =>
      have e : (applyAll mN mE G (Call.merge g src : Call E Id NP EP).ops).edges t =
          (if fails src.nodes then G else (oks src.edges).foldl (fun G x => G.mergeEdge mE x.1 x.2) G).edges t := by
        rw [ops_merge]
        refine (foldl_congr (v := fun G => G.edges t) (fun G H a h => ?_) _ _ G (congrFun (mergeNodes_edges _ _) t)).trans ?_
        · simp only [Graph.mergeEdge]; split
          · rename_i e; subst e; rw [h]
          · exact h
        · rw [edgePrefix_oks]
          split <;> rfl
      rw [e]
      show OnEdge c Own t ((Sled.merge c mN mE g src).bind _) L _ F
      unfold Sled.merge
      rw [mergeNodes_bind, bind_assoc]
      refine ((within_mergeNodes (T := fun _ : Triple Id => False) hc mN src.nodes).edge id).loc_bind (fun r hr => ?_)
      rcases hr htot with ⟨h1, e, rfl⟩ | ⟨h1, rfl⟩
      · rw [if_pos h1]
        exact hF
      · rw [if_neg (by rw [h1]; simp)]
        exact (own_mergeEdges hc htot hown src.edges g L G hL hnd hw).bind (fun _ _ h => h)
  · rw [untouched_edges x ht]
    exact ((within_prog hc hown mN mE x hw hs).edge ht).toLocal (fun _ _ => hF)

theorem own_thread (hc : c.RoundTrip) (htot : c.Total) (hown : ∀ v t u, Own v t → Own v u → t = u) {t : Triple Id}
    {F : List Bytes} {L : Part} (G : Graph Id NP EP) (th : List (Call E Id NP EP))
    (hx : ∀ x ∈ th, ¬ (x.IsScan ∧ x.TouchesEdge t))
    (hL : Settled c L (G.edges t) ((th.flatMap Call.writes).map Prod.fst ++ F))
    (hnd : ((th.flatMap Call.writes).map Prod.fst ++ F).Nodup)
    (hw : ∀ x ∈ th, ∀ y ∈ x.writes, Own y.1 y.2) (hs : ∀ x ∈ th, x.Scanned Own) :
    LocalAll (Neat c Own) (edgePart Own t) (th.map (Call.prog c mN mE)) L
      (fun L' => Settled c L' ((applyAll mN mE G (th.flatMap Call.ops)).edges t) F) := by
  induction th generalizing L G with
  | nil => exact hL
  | cons x th ih =>
    rw [List.flatMap_cons, List.map_append, List.append_assoc] at hL hnd
    refine (own_call (mN := mN) (mE := mE) hc htot hown G x (hx x List.mem_cons_self) hL hnd (hw x List.mem_cons_self)
      (hs x List.mem_cons_self)).mono (fun _ L' hL' => ?_)
    have := ih (applyAll mN mE G x.ops) (fun y hy => hx y (List.mem_cons_of_mem _ hy)) hL' (List.nodup_append.1 hnd).2.1
      (fun y hy => hw y (List.mem_cons_of_mem _ hy)) (fun y hy => hs y (List.mem_cons_of_mem _ hy))
    rw [List.flatMap_cons, applyAll_append]
    exact this

/-! ## one node -/

variable (c Own) in
abbrev OnNode (n : Id) (p : Prog Db α) (L : Option Bytes) (q : Option NP) : Prop :=
  Local (Neat c Own) (nodePart n) p L (fun _ L' => L'.bind c.n.de = q)

theorem own_insertNode (hc : c.RoundTrip) (htot : c.Total) {n : Id} {p : NP} {L : Option Bytes} :
    OnNode c Own n (Sled.insertNode c n p) L (some p) := by
  unfold Sled.insertNode
  cases hb : c.n.ser p with
  | none => have := htot.1 p; rw [hb] at this; cases this
  | some b =>
    intro d hd _
    refine ⟨(neat_nodes (T := fun _ : Triple Id => False) hd (n := n) (hc.1 _ _ hb)).1, ?_⟩
    show Option.bind (nodePart n _) c.n.de = _
    unfold nodePart
    dsimp only
    rw [BMap.get_insert_self]
    exact hc.1 _ _ hb

theorem own_mergeNode (hc : c.RoundTrip) (htot : c.Total) {n : Id} {p : NP} {L : Option Bytes} :
    Local (Neat c Own) (nodePart n) (Sled.mergeNode c mN n p) L
      (fun r L' => r = .ok () ∧ L'.bind c.n.de = some (merged mN (L.bind c.n.de) p)) := by
  have hr := fun d (h : Neat c Own d) => mergeNode_neat h.nodes mN n p
  have hw := within_mergeNode (Own := Own) (T := fun _ : Triple Id => False) hc mN n p
  obtain ⟨f, hf⟩ : ∃ f, Sled.mergeNode c mN n p = transaction f := ⟨_, rfl⟩
  rw [hf] at hr hw ⊢
  intro d hd hl
  refine ⟨(hw d hd).1, ?_⟩
  have hq : (d.graph (Id := Id) c).nodes n = L.bind c.n.de := by rw [← hl]; rfl
  rcases hr d hd with ⟨h1, h2⟩ | ⟨b, h1, h2⟩
  · rw [Codecs.okN, htot.1] at h1; cases h1
  · have e1 : commit f d = _ := congrArg Prod.fst h2
    have e2 : txResult f d = .ok () := congrArg Prod.snd h2
    rw [hq] at h1
    refine ⟨e2, ?_⟩
    show Option.bind (nodePart n (commit f d)) c.n.de = _
    rw [e1]
    unfold nodePart
    dsimp only
    rw [BMap.get_insert_self]
    exact hc.1 _ _ h1

theorem dropped_node {n : Id} {F B : List (Triple Id × Bytes)} (d : Db) : nodePart n (dropped n F B d) = none :=
  BMap.get_erase_self _ _

theorem own_scanned (hown : ∀ v t u, Own v t → Own v u → t = u) {n : Id} {fwd bwd : List (Bytes × Bytes)}
    (hs : (Call.removeNodeScan n fwd bwd : Call E Id NP EP).Scanned Own) {L : Option Bytes} :
    OnNode c Own n (removeNodeScanned n fwd bwd) L none := by
  obtain ⟨h1, h2, h3, h4⟩ := hs
  have enc : ∀ {enc : Triple Id → TKey Id} (l : List (Bytes × Bytes)), (∀ e ∈ l, ∃ t : Triple Id, e.1 = (enc t).1) →
      ∃ F : List (Triple Id × Bytes), l = F.map (fun x => ((enc x.1).1, x.2)) := by
    intro enc l hl
    induction l with
    | nil => exact ⟨[], rfl⟩
    | cons e l ih =>
      obtain ⟨F, hF⟩ := ih (fun e he => hl e (List.mem_cons_of_mem _ he))
      obtain ⟨t, ht⟩ := hl e List.mem_cons_self
      exact ⟨(t, e.2) :: F, by rw [hF, List.map_cons, ← ht]⟩
  obtain ⟨F, hF⟩ := enc fwd h3
  obtain ⟨B, hB⟩ := enc bwd h4
  subst hF hB
  rw [removeNodeScanned_enc]
  intro d hd _
  refine ⟨(neat_dropped (T := fun u : Triple Id => u.sub = n ∨ u.obj = n) (n := n) hown hd (by
      rintro ⟨u, v⟩ hx
      rcases List.mem_append.1 hx with hx | hx
      · obtain ⟨a, b⟩ := h1 u v (List.mem_map.2 ⟨(u, v), hx, rfl⟩)
        exact ⟨.inl a, b⟩
      · obtain ⟨a, b⟩ := h2 u v (List.mem_map.2 ⟨(u, v), hx, rfl⟩)
        exact ⟨.inr a, b⟩)).1, ?_⟩
  show Option.bind (nodePart n (dropped n F B d)) c.n.de = _
  rw [dropped_node]; rfl

theorem own_removeNode' (hown : ∀ v t u, Own v t → Own v u → t = u) {n : Id} {L : Option Bytes} :
    OnNode c Own n (Sled.removeNode n) L none := by
  rw [removeNode_eq]
  intro d1 hd1 hl1
  refine ⟨hd1, ?_⟩
  obtain ⟨Fw, hF, hFm⟩ := rangeArr_enc (hd1.keys .SPO) (keyBounds1 n)
  have hF' : d1.spo.rangeArr (keyBounds1 n) = Fw.map (fun x => ((encodeSpo x.1).1, x.2)) := hF
  dsimp only
  rw [hF', forwardBatch_enc]
  intro d2 hd2 hl2
  refine ⟨hd2, ?_⟩
  obtain ⟨Bw, hB, hBm⟩ := rangeArr_enc (hd2.keys .OSP) (keyBounds1 n)
  have hB' : d2.osp.rangeArr (keyBounds1 n) = Bw.map (fun x => ((encodeOsp x.1).1, x.2)) := hB
  dsimp only
  rw [hB', removeNodeScanned_enc]
  intro d3 hd3 hl3
  refine ⟨(neat_dropped (T := fun u : Triple Id => u.sub = n ∨ u.obj = n) (n := n) (F := Fw) (B := Bw) hown hd3 (by
      rintro ⟨u, v⟩ hx
      rcases List.mem_append.1 hx with hx | hx
      · obtain ⟨h1, h2⟩ := (hFm u v).1 hx
        exact ⟨.inl ((LawfulId.kb1_spo n u).1 h2), hd1.refs _ _ _ h1⟩
      · obtain ⟨h1, h2⟩ := (hBm u v).1 hx
        exact ⟨.inr ((LawfulId.kb1_osp n u).1 h2), hd2.refs _ _ _ h1⟩)).1, ?_⟩
  show Option.bind (nodePart n (dropped n Fw Bw d3)) c.n.de = _
  rw [dropped_node]; rfl

theorem own_mergeNodes (hc : c.RoundTrip) (htot : c.Total) {n : Id} (l : List (Except E (Id × NP))) (G : Graph Id NP EP)
    (L : Option Bytes) (hL : L.bind c.n.de = G.nodes n) :
    OnNode c Own n (mergeNodes c mN .ret l) L (((oks l).foldl (fun G x => G.mergeNode mN x.1 x.2) G).nodes n) := by
  induction l generalizing L G with
  | nil => exact hL
  | cons x l ih =>
    cases x with
    | error e => exact hL
    | ok x =>
      rw [mergeNodes]
      by_cases e : n = x.1
      · subst e
        refine (own_mergeNode hc htot).bind (fun r L' ⟨h1, h2⟩ => ?_)
        subst h1
        refine ih (G.mergeNode mN x.1 x.2) _ (h2.trans ?_)
        rw [hL]
        simp only [Graph.mergeNode, if_true, merged]
        cases G.nodes x.1 <;> rfl
      · refine ((within_mergeNode (T := fun _ : Triple Id => False) hc mN x.1 x.2).node e).loc_bind (fun r hr => ?_)
        have hr := hr htot
        subst hr
        refine ih (G.mergeNode mN x.1 x.2) _ (hL.trans ?_)
        simp only [Graph.mergeNode, if_neg e]

theorem own_extendNodes (hc : c.RoundTrip) (htot : c.Total) {n : Id} (l : List (Except E (Id × NP))) (G : Graph Id NP EP)
    (L : Option Bytes) (hL : L.bind c.n.de = G.nodes n) :
    OnNode c Own n (extendNodes c .ret l) L (((oks l).foldl (fun G x => G.insertNode x.1 x.2) G).nodes n) := by
  induction l generalizing L G with
  | nil => exact hL
  | cons x l ih =>
    cases x with
    | error e => exact hL
    | ok x =>
      rw [extendNodes]
      cases hb : c.n.ser x.2 with
      | none => have := htot.1 x.2; rw [hb] at this; cases this
      | some b =>
        intro d hd hl
        refine ⟨(neat_nodes (T := fun _ : Triple Id => False) hd (n := x.1) (hc.1 _ _ hb)).1, ih (G.insertNode x.1 x.2) _ ?_⟩
        unfold nodePart
        dsimp only
        rw [BMap.get_insert]
        by_cases e : n = x.1
        · subst e
          simp only [Graph.insertNode, if_true]
          exact hc.1 _ _ hb
        · rw [if_neg (fun h => e (toBe_inj.1 h))]
          simp only [Graph.insertNode, if_neg e]
          rw [← hL, ← hl]; rfl

theorem own_callNode (hc : c.RoundTrip) (htot : c.Total) (hown : ∀ v t u, Own v t → Own v u → t = u) {n : Id}
    {L : Option Bytes} (G : Graph Id NP EP) (x : Call E Id NP EP) (hL : L.bind c.n.de = G.nodes n)
    (hw : ∀ y ∈ x.writes, Own y.1 y.2) (hs : x.Scanned Own) :
    OnNode c Own n (x.prog c mN mE) L ((applyAll mN mE G x.ops).nodes n) := by
  by_cases ht : x.TouchesNode n
  · cases x with
    | insertNode m p =>
      have ht : n = m := ht
      subst ht
      have e : (applyAll mN mE G (Call.insertNode n p : Call E Id NP EP).ops).nodes n = some p := if_pos rfl
      rw [e]
      exact (own_insertNode hc htot).bind (fun _ _ h => h)
    | mergeNode m p =>
      have ht : n = m := ht
      subst ht
      have e : (applyAll mN mE G (Call.mergeNode n p : Call E Id NP EP).ops).nodes n = some (merged mN (G.nodes n) p) := by
        refine (if_pos rfl).trans ?_
        unfold merged
        cases G.nodes n <;> rfl
      rw [e, ← hL]
      exact (own_mergeNode hc htot).bind (fun _ _ h => h.2)
    | removeNodeScan m f b =>
      have ht : n = m := ht
      subst ht
      have e : (applyAll mN mE G (Call.removeNodeScan n f b : Call E Id NP EP).ops).nodes n = none := if_pos rfl
      rw [e]
      exact (own_scanned (E := E) (NP := NP) (EP := EP) hown hs).bind (fun _ _ h => h)
    | insertEdge i u p => cases ht
    | removeNode m =>
      have ht : n = m := ht
      subst ht
      have e : (applyAll mN mE G (Call.removeNode n : Call E Id NP EP).ops).nodes n = none := if_pos rfl
      rw [e]
      exact (own_removeNode' hown).bind (fun _ _ h => h)
    | removeEdge u => cases ht
    | mergeEdge i u p => cases ht
    | extend g src =>
      have e : (applyAll mN mE G (Call.extend g src : Call E Id NP EP).ops).nodes n =
          ((oks src.nodes).foldl (fun G x => G.insertNode x.1 x.2) G).nodes n := by
        refine (congrFun (insertEdges_nodes _ _) n).trans ?_
        rw [Source.nodePrefix, okPrefix_oks]
      rw [e]
      show OnNode c Own n ((Sled.extend c g src).bind _) L _
      unfold Sled.extend
      rw [extendNodes_bind, bind_assoc]
      refine (own_extendNodes hc htot src.nodes G L hL).bind (fun r L' h => ?_)
      cases r with
      | error e => exact h
      | ok _ =>
        exact ((within_extendEdges (N := fun _ => False) hc hown src.edges g hw).node id).loc_bind (fun _ _ => h)
    | merge g src =>
      have e : (applyAll mN mE G (Call.merge g src : Call E Id NP EP).ops).nodes n =
          ((oks src.nodes).foldl (fun G x => G.mergeNode mN x.1 x.2) G).nodes n := by
        rw [ops_merge]
        refine (congrFun (mergeEdges_nodes _ _) n).trans ?_
        rw [Source.nodePrefix, okPrefix_oks]
      rw [e]
      show OnNode c Own n ((Sled.merge c mN mE g src).bind _) L _
      unfold Sled.merge
      rw [mergeNodes_bind, bind_assoc]
      refine (own_mergeNodes hc htot src.nodes G L hL).bind (fun r L' h => ?_)
      cases r with
      | error e => exact h
      | ok _ =>
        exact ((within_mergeEdges (N := fun _ => False) hc hown src.edges g hw).node id).loc_bind (fun _ _ => h)
  · rw [untouched_nodes x ht]
    exact ((within_prog hc hown mN mE x hw hs).node ht).toLocal (fun _ _ => hL)

theorem own_threadNode (hc : c.RoundTrip) (htot : c.Total) (hown : ∀ v t u, Own v t → Own v u → t = u) {n : Id}
    {L : Option Bytes} (G : Graph Id NP EP) (th : List (Call E Id NP EP)) (hL : L.bind c.n.de = G.nodes n)
    (hw : ∀ x ∈ th, ∀ y ∈ x.writes, Own y.1 y.2) (hs : ∀ x ∈ th, x.Scanned Own) :
    LocalAll (Neat c Own) (nodePart n) (th.map (Call.prog c mN mE)) L
      (fun L' => L'.bind c.n.de = (applyAll mN mE G (th.flatMap Call.ops)).nodes n) := by
  induction th generalizing L G with
  | nil => exact hL
  | cons x th ih =>
    refine (own_callNode (mN := mN) (mE := mE) hc htot hown G x hL (hw x List.mem_cons_self)
      (hs x List.mem_cons_self)).mono (fun _ L' hL' => ?_)
    have := ih (applyAll mN mE G x.ops) hL'
      (fun y hy => hw y (List.mem_cons_of_mem _ hy)) (fun y hy => hs y (List.mem_cons_of_mem _ hy))
    rw [List.flatMap_cons, applyAll_append]
    exact this

/-! ## the threads -/

variable {d0 : Db} {threads : List (List (Call E Id NP EP))}

theorem neat_start (h0 : d0.Inv Id c) (hd : DistinctIds d0 threads) : Neat c (owner d0 (allWrites threads)) d0 where
  keys := h0.keys
  nodes := h0.nodes
  refs o u v h := .inr ((h0.same o u).symm.trans h)
  recs v u b ho hb := by
    rcases ho with ho | ho
    · have := hd.2 _ ho
      rw [hb] at this; cases this
    · obtain ⟨b', p, h1, h2⟩ := h0.recs _ _ ho
      rw [hb] at h1; cases h1
      exact ⟨p, h2⟩

theorem writes_owned (th : List (Call E Id NP EP)) (hth : th ∈ threads) (x : Call E Id NP EP) (hx : x ∈ th) :
    ∀ y ∈ x.writes, owner d0 (allWrites threads) y.1 y.2 :=
  fun _ hy => .inl (List.mem_flatMap.2 ⟨x, List.mem_flatten.2 ⟨th, hth, hx⟩, hy⟩)

theorem scans_owned (h0 : d0.Inv Id c) (hs : ScansOf d0 threads) (th : List (Call E Id NP EP)) (hth : th ∈ threads)
    (x : Call E Id NP EP) (hx : x ∈ th) : x.Scanned (owner d0 (allWrites threads)) := by
  cases x with
  | removeNodeScan n fwd bwd =>
    obtain ⟨h1, h2⟩ := hs th hth n fwd bwd hx
    refine ⟨fun t v hv => ?_, fun t v hv => ?_, fun e he => ?_, fun e he => ?_⟩
    · obtain ⟨u, hu, hk, ho⟩ := h1 _ hv
      have := (encOf_inj .SPO).1 hk
      subst this
      exact ⟨hu, ho.symm⟩
    · obtain ⟨u, hu, hk, ho⟩ := h2 _ hv
      have := (encOf_inj .OSP).1 hk
      subst this
      refine ⟨hu, ?_⟩
      rcases ho with ho | ho
      · exact .inr ((h0.same .OSP t).symm.trans ho)
      · exact .inl ho
    · obtain ⟨u, _, hk, _⟩ := h1 _ he
      exact ⟨u, hk⟩
    · obtain ⟨u, _, hk, _⟩ := h2 _ he
      exact ⟨u, hk⟩
  | _ => trivial

theorem settled_start (h0 : d0.Inv Id c) (hd : DistinctIds d0 threads) (t : Triple Id) (F : List Bytes)
    (hF : ∀ v ∈ F, v ∈ (allWrites threads).map Prod.fst) :
    Settled c (edgePart (owner d0 (allWrites threads)) t d0) ((d0.graph c).edges t) F := by
  refine ⟨fun o v hv h => ?_, ?_⟩
  · have h : d0.idIn o t = some v := h
    obtain ⟨x, hx, rfl⟩ := List.mem_map.1 (hF v hv)
    rw [h0.same] at h
    obtain ⟨b, p, h1, -⟩ := h0.recs _ _ h
    rw [hd.2 x hx] at h1; cases h1
  · cases h : d0.idIn .SPO t with
    | none =>
      refine .inl ⟨fun o => (h0.same o t).trans h, ?_⟩
      show d0.view c .SPO t = none
      rw [Db.view, h]; rfl
    | some v =>
      obtain ⟨b, p, h1, h2⟩ := h0.recs _ _ h
      refine .inr ⟨v, b, p, fun o => (h0.same o t).trans h, ?_, h2, ?_⟩
      · rw [edgePart_rec (.inr h)]; exact h1
      · show d0.view c .SPO t = some p
        rw [Db.view, h, Option.bind_some, h1, Option.bind_some, h2]

theorem thread_writes {th : List (Call E Id NP EP)} (h : th ∈ threads) :
    ((th.flatMap Call.writes).map Prod.fst).Sublist ((allWrites threads).map Prod.fst) := by
  refine List.Sublist.map _ ?_
  obtain ⟨pre, post, rfl⟩ := List.append_of_mem h
  unfold allWrites
  rw [List.flatten_append, List.flatten_cons, List.flatMap_append, List.flatMap_append]
  exact (List.sublist_append_left _ _).trans (List.sublist_append_right _ _)

theorem start_get (j : Nat) (q : List (Prog Db Unit)) (h : (start c mN mE d0 threads).2[j]? = some q) :
    ∃ th, threads[j]? = some th ∧ q = th.map (Call.prog c mN mE) := by
  have h : (threads.map (List.map (Call.prog c mN mE)))[j]? = some q := h
  rw [List.getElem?_map] at h
  cases e : threads[j]? with
  | none => rw [e] at h; cases h
  | some th => rw [e] at h; cases h; exact ⟨th, rfl, rfl⟩

/-- No thread touches the edge. -/
theorem untouched_moment (hc : c.RoundTrip) (h0 : d0.Inv Id c) (hd : DistinctIds d0 threads) (hs : ScansOf d0 threads)
    {d : Db} (hm : Moment c mN mE d0 threads d) {t : Triple Id} (ht : ∀ th ∈ threads, ∀ x ∈ th, ¬ x.TouchesEdge t) :
    Neat c (owner d0 (allWrites threads)) d ∧
      Settled c (edgePart (owner d0 (allWrites threads)) t d) ((d0.graph c).edges t) [] := by
  obtain ⟨rest, hst⟩ := hm
  have hown := owner_fun h0 hd.1 hd.2
  obtain ⟨h1, h2, -⟩ := framed_steps (J := Neat c (owner d0 (allWrites threads)))
    (loc := edgePart (owner d0 (allWrites threads)) t) hst (neat_start h0 hd) (by
      intro q hq p hp
      obtain ⟨th, hth, rfl⟩ := List.mem_map.1 hq
      obtain ⟨x, hx, rfl⟩ := List.mem_map.1 hp
      exact (within_prog hc hown mN mE x (writes_owned th hth x hx) (scans_owned h0 hs th hth x hx)).edge (ht th hth x hx))
  refine ⟨h1, ?_⟩
  rw [h2]
  exact settled_start h0 hd t [] (by simp)

/-- No thread touches the node. -/
theorem untouchedNode_moment (hc : c.RoundTrip) (h0 : d0.Inv Id c) (hd : DistinctIds d0 threads) (hs : ScansOf d0 threads)
    {d : Db} (hm : Moment c mN mE d0 threads d) {n : Id} (hn : ∀ th ∈ threads, ∀ x ∈ th, ¬ x.TouchesNode n) :
    Neat c (owner d0 (allWrites threads)) d ∧ (d.graph c).nodes n = (d0.graph c).nodes n := by
  obtain ⟨rest, hst⟩ := hm
  have hown := owner_fun h0 hd.1 hd.2
  obtain ⟨h1, h2, -⟩ := framed_steps (J := Neat c (owner d0 (allWrites threads))) (loc := nodePart n) hst (neat_start h0 hd) (by
      intro q hq p hp
      obtain ⟨th, hth, rfl⟩ := List.mem_map.1 hq
      obtain ⟨x, hx, rfl⟩ := List.mem_map.1 hp
      exact (within_prog hc hown mN mE x (writes_owned th hth x hx) (scans_owned h0 hs th hth x hx)).node (hn th hth x hx))
  refine ⟨h1, ?_⟩
  show Option.bind (nodePart n d) c.n.de = Option.bind (nodePart n d0) c.n.de
  exact congrArg (fun o => Option.bind o c.n.de) h2

/-- Only the thread number `i` touches the edge. -/
theorem oneThread_final (hc : c.RoundTrip) (htot : c.Total) (h0 : d0.Inv Id c) (hd : DistinctIds d0 threads)
    (hs : ScansOf d0 threads) {d : Db} (hm : Final c mN mE d0 threads d) {t : Triple Id} {i : Nat}
    {th : List (Call E Id NP EP)} (hi : threads[i]? = some th)
    (hx : ∀ x ∈ th, ¬ (x.IsScan ∧ x.TouchesEdge t))
    (ho : ∀ j th', threads[j]? = some th' → j ≠ i → ∀ x ∈ th', ¬ x.TouchesEdge t) :
    Neat c (owner d0 (allWrites threads)) d ∧
      Settled c (edgePart (owner d0 (allWrites threads)) t d) ((applyAll mN mE (d0.graph c) (th.flatMap Call.ops)).edges t) [] := by
  obtain ⟨rest, hst, hr⟩ := hm
  have hown := owner_fun h0 hd.1 hd.2
  have hth : th ∈ threads := List.mem_of_getElem? hi
  have hsub := thread_writes hth
  obtain ⟨h1, -, h3⟩ := local_steps (J := Neat c (owner d0 (allWrites threads)))
    (loc := edgePart (owner d0 (allWrites threads)) t) (i := i)
    (Q := fun L' => Settled c L' ((applyAll mN mE (d0.graph c) (th.flatMap Call.ops)).edges t) []) hst (neat_start h0 hd) (by
      intro j q hq hj p hp
      obtain ⟨th', hth', rfl⟩ := start_get j q hq
      have hm' := List.mem_of_getElem? hth'
      obtain ⟨x, hx', rfl⟩ := List.mem_map.1 hp
      exact (within_prog hc hown mN mE x (writes_owned th' hm' x hx') (scans_owned h0 hs th' hm' x hx')).edge
        (ho j th' hth' hj x hx')) (by
      intro q hq
      obtain ⟨th', hth', rfl⟩ := start_get i q hq
      rw [hi] at hth'; cases hth'
      refine own_thread hc htot hown (d0.graph c) th hx ?_ ?_ (writes_owned th hth) (scans_owned h0 hs th hth)
      · refine settled_start h0 hd t _ (fun v hv => hsub.subset ?_)
        rwa [List.append_nil] at hv
      · rw [List.append_nil]
        exact hsub.nodup hd.1)
  refine ⟨h1, ?_⟩
  have hlen : rest.length = threads.length := by
    have : ∀ {x y : Db × List (List (Prog Db Unit))}, CalmSteps x y → y.2.length = x.2.length := by
      intro x y h
      induction h with
      | refl => rfl
      | tail _ h ih => cases h <;> simpa using ih
    exact (this hst).trans (List.length_map _)
  obtain ⟨hlt, -⟩ := List.getElem?_eq_some_iff.1 hi
  have hri : rest[i]? = some [] := by
    have : i < rest.length := hlen ▸ hlt
    rw [List.getElem?_eq_getElem this, hr _ (List.getElem_mem this)]
  exact h3 [] hri

/-- Only the thread number `i` touches the node. -/
theorem oneThreadNode_final (hc : c.RoundTrip) (htot : c.Total) (h0 : d0.Inv Id c) (hd : DistinctIds d0 threads)
    (hs : ScansOf d0 threads) {d : Db} (hm : Final c mN mE d0 threads d) {n : Id} {i : Nat}
    {th : List (Call E Id NP EP)} (hi : threads[i]? = some th)
    (ho : ∀ j th', threads[j]? = some th' → j ≠ i → ∀ x ∈ th', ¬ x.TouchesNode n) :
    Neat c (owner d0 (allWrites threads)) d ∧
      (d.graph c).nodes n = (applyAll mN mE (d0.graph c) (th.flatMap Call.ops)).nodes n := by
  obtain ⟨rest, hst, hr⟩ := hm
  have hown := owner_fun h0 hd.1 hd.2
  have hth : th ∈ threads := List.mem_of_getElem? hi
  obtain ⟨h1, -, h3⟩ := local_steps (J := Neat c (owner d0 (allWrites threads)))
    (loc := nodePart n) (i := i)
    (Q := fun L' => L'.bind c.n.de = (applyAll mN mE (d0.graph c) (th.flatMap Call.ops)).nodes n) hst (neat_start h0 hd) (by
      intro j q hq hj p hp
      obtain ⟨th', hth', rfl⟩ := start_get j q hq
      have hm' := List.mem_of_getElem? hth'
      obtain ⟨x, hx', rfl⟩ := List.mem_map.1 hp
      exact (within_prog hc hown mN mE x (writes_owned th' hm' x hx') (scans_owned h0 hs th' hm' x hx')).node
        (ho j th' hth' hj x hx')) (by
      intro q hq
      obtain ⟨th', hth', rfl⟩ := start_get i q hq
      rw [hi] at hth'; cases hth'
      exact own_threadNode hc htot hown (d0.graph c) th rfl (writes_owned th hth) (scans_owned h0 hs th hth))
  refine ⟨h1, ?_⟩
  have hlen : rest.length = threads.length := by
    have : ∀ {x y : Db × List (List (Prog Db Unit))}, CalmSteps x y → y.2.length = x.2.length := by
      intro x y h
      induction h with
      | refl => rfl
      | tail _ h ih => cases h <;> simpa using ih
    exact (this hst).trans (List.length_map _)
  obtain ⟨hlt, -⟩ := List.getElem?_eq_some_iff.1 hi
  have hri : rest[i]? = some [] := by
    have : i < rest.length := hlen ▸ hlt
    rw [List.getElem?_eq_getElem this, hr _ (List.getElem_mem this)]
  exact h3 [] hri

/-- iteration, whatever is wrong with other edges -/
theorem mem_iterEdges {d : Db} {o : EdgeOrder} (hk : d.KeysOk Id o) (t : Triple Id) (p : EP) :
    .ok (t, p) ∈ iterEdges Id c d o ↔ d.view c o t = some p := by
  unfold iterEdges
  rw [orderedEdges_eq, List.map_map, List.mem_map]
  constructor
  · rintro ⟨⟨k, v⟩, he, h⟩
    rw [BMap.mem_entries] at he
    obtain ⟨u, rfl⟩ := hk k v he
    simp only [Function.comp, decodeEntry_enc, getData] at h
    cases hb : d.edgeProps.get v with
    | none => simp only [hb] at h; cases h
    | some b =>
      cases hp : c.e.de b with
      | none => simp only [hb, hp] at h; cases h
      | some q =>
        simp only [hb, hp] at h
        cases h
        show (d.idIn o t).bind _ = _
        rw [show d.idIn o t = some v from he, Option.bind_some, hb, Option.bind_some, hp]
  · intro h
    obtain ⟨v, hv, hb⟩ := Option.bind_eq_some_iff.1 h
    obtain ⟨b, hb, hp⟩ := Option.bind_eq_some_iff.1 hb
    refine ⟨((encOf o t).1, v), BMap.mem_entries.2 hv, ?_⟩
    simp only [Function.comp, decodeEntry_enc, getData, hb, hp]

theorem mem_iterVertices {d : Db} (hk : d.NodesOk Id c) (n : Id) (p : NP) :
    .ok (n, p) ∈ iterVertices Id c d ↔ (d.graph (Id := Id) c).nodes n = some p := by
  obtain ⟨l, h1, -, h2⟩ := iterVertices_lists hk
  rw [h1, ← h2 n p, List.mem_map]
  constructor
  · rintro ⟨a, ha, h⟩
    cases h
    exact ha
  · exact fun h => ⟨_, h, rfl⟩

theorem neat_moment (hc : c.RoundTrip) (h0 : d0.Inv Id c) (hd : DistinctIds d0 threads) (hs : ScansOf d0 threads)
    {d : Db} (hm : Moment c mN mE d0 threads d) : Neat c (owner d0 (allWrites threads)) d := by
  obtain ⟨rest, hst⟩ := hm
  have frame : ∀ {α : Type} {T : Triple Id → Prop} {N : Id → Prop} {R : α → Prop} (p : Prog Db α),
      Within c (owner d0 (allWrites threads)) T N p R →
      Framed (Neat c (owner d0 (allWrites threads))) (fun _ => ()) p R := by
    intro α T N R p h
    induction p with
    | ret a => exact h
    | call f k ih => exact fun s hs => ⟨(h s hs).1, rfl, ih s (h s hs).2.2⟩
  exact (framed_steps (J := Neat c (owner d0 (allWrites threads))) (loc := fun _ => ()) hst (neat_start h0 hd) (by
    intro q hq p hp
    obtain ⟨th, hth, rfl⟩ := List.mem_map.1 hq
    obtain ⟨x, hx, rfl⟩ := List.mem_map.1 hp
    exact frame _ (within_prog hc (owner_fun h0 hd.1 hd.2) mN mE x (writes_owned th hth x hx)
      (scans_owned h0 hs th hth x hx)))).1

theorem skip_edges {t : Triple Id} (l : List (Call E Id NP EP)) (G : Graph Id NP EP) (h : ∀ x ∈ l, ¬ x.TouchesEdge t) :
    (applyAll mN mE G (l.flatMap Call.ops)).edges t = G.edges t := by
  induction l generalizing G with
  | nil => rfl
  | cons x l ih =>
    rw [List.flatMap_cons, applyAll_append, ih _ (fun y hy => h y (List.mem_cons_of_mem _ hy)),
      untouched_edges x (h x List.mem_cons_self)]

theorem skip_nodes {n : Id} (l : List (Call E Id NP EP)) (G : Graph Id NP EP) (h : ∀ x ∈ l, ¬ x.TouchesNode n) :
    (applyAll mN mE G (l.flatMap Call.ops)).nodes n = G.nodes n := by
  induction l generalizing G with
  | nil => rfl
  | cons x l ih =>
    rw [List.flatMap_cons, applyAll_append, ih _ (fun y hy => h y (List.mem_cons_of_mem _ hy)),
      untouched_nodes x (h x List.mem_cons_self)]

/-- the threads one after the other -/
theorem flatten_edges {t : Triple Id} {i : Nat} {th : List (Call E Id NP EP)} (hi : threads[i]? = some th)
    (ho : ∀ j th', threads[j]? = some th' → j ≠ i → ∀ x ∈ th', ¬ x.TouchesEdge t) (G : Graph Id NP EP) :
    (applyAll mN mE G (threads.flatten.flatMap Call.ops)).edges t = (applyAll mN mE G (th.flatMap Call.ops)).edges t := by
  induction threads generalizing i G with
  | nil => cases hi
  | cons th0 threads ih =>
    rw [List.flatten_cons, List.flatMap_append, applyAll_append]
    cases i with
    | zero =>
      cases hi
      refine skip_edges _ _ (fun x hx => ?_)
      obtain ⟨th', h1, h2⟩ := List.mem_flatten.1 hx
      obtain ⟨j, hj⟩ := List.getElem?_of_mem h1
      exact ho (j + 1) th' hj (by omega) x h2
    | succ i =>
      have h1 := skip_edges (mN := mN) (mE := mE) th0 G (ho 0 th0 rfl (by omega))
      rw [applyAll_edges t _ _ _ h1]
      exact ih hi (fun j th' hj hne => ho (j + 1) th' hj (by omega)) G

theorem flatten_nodes {n : Id} {i : Nat} {th : List (Call E Id NP EP)} (hi : threads[i]? = some th)
    (ho : ∀ j th', threads[j]? = some th' → j ≠ i → ∀ x ∈ th', ¬ x.TouchesNode n) (G : Graph Id NP EP) :
    (applyAll mN mE G (threads.flatten.flatMap Call.ops)).nodes n = (applyAll mN mE G (th.flatMap Call.ops)).nodes n := by
  induction threads generalizing i G with
  | nil => cases hi
  | cons th0 threads ih =>
    rw [List.flatten_cons, List.flatMap_append, applyAll_append]
    cases i with
    | zero =>
      cases hi
      refine skip_nodes _ _ (fun x hx => ?_)
      obtain ⟨th', h1, h2⟩ := List.mem_flatten.1 hx
      obtain ⟨j, hj⟩ := List.getElem?_of_mem h1
      exact ho (j + 1) th' hj (by omega) x h2
    | succ i =>
      have h1 := skip_nodes (mN := mN) (mE := mE) th0 G (ho 0 th0 rfl (by omega))
      rw [applyAll_nodes n _ _ _ h1]
      exact ih hi (fun j th' hj hne => ho (j + 1) th' hj (by omega)) G

/-- either no thread touches it or exactly one -/
theorem one_or_none {P : Call E Id NP EP → Prop}
    (h : threads.Pairwise (fun th th' => ∀ x ∈ th, ∀ y ∈ th', ¬ (P x ∧ P y))) :
    (∀ th ∈ threads, ∀ x ∈ th, ¬ P x) ∨
    ∃ (i : Nat) (th : _), threads[i]? = some th ∧ ∀ (j : Nat) th', threads[j]? = some th' → j ≠ i → ∀ x ∈ th', ¬ P x := by
  by_cases h0 : ∀ th ∈ threads, ∀ x ∈ th, ¬ P x
  · exact .inl h0
  · right
    simp only [not_forall, not_not] at h0
    obtain ⟨th, hth, x, hx, hP⟩ := h0
    obtain ⟨i, hi⟩ := List.getElem?_of_mem hth
    refine ⟨i, th, hi, fun j th' hj hne y hy hy' => ?_⟩
    obtain ⟨hi', ei⟩ := List.getElem?_eq_some_iff.1 hi
    obtain ⟨hj', ej⟩ := List.getElem?_eq_some_iff.1 hj
    rw [List.pairwise_iff_getElem] at h
    rcases Nat.lt_or_gt_of_ne hne with hlt | hlt
    · exact h j i hj' hi' hlt y (by rw [ej]; exact hy) x (by rw [ei]; exact hx) ⟨hy', hP⟩
    · exact h i j hi' hj' hlt x (by rw [ei]; exact hx) y (by rw [ej]; exact hy) ⟨hP, hy'⟩

theorem Final.moment {d : Db} (h : Final c mN mE d0 threads d) : Moment c mN mE d0 threads d := by
  obtain ⟨rest, h1, -⟩ := h
  exact ⟨rest, h1.steps⟩

theorem apart_final (hc : c.RoundTrip) (htot : c.Total) (h0 : d0.Inv Id c) (hd : DistinctIds d0 threads)
    (hns : ∀ th ∈ threads, ∀ x ∈ th, ¬ x.IsScan) (ha : Apart threads) {d : Db} (hm : Final c mN mE d0 threads d) :
    d.Inv Id c ∧ d.graph c = applyAll mN mE (d0.graph c) (threads.flatten.flatMap Call.ops) := by
  have hs : ScansOf d0 threads := fun th hth n f b hx => absurd trivial (hns th hth _ hx)
  have he : ∀ t, Neat c (owner d0 (allWrites threads)) d ∧ Settled c (edgePart (owner d0 (allWrites threads)) t d)
      ((applyAll mN mE (d0.graph c) (threads.flatten.flatMap Call.ops)).edges t) [] := by
    intro t
    rcases one_or_none (P := fun x => x.TouchesEdge t) (ha.imp (fun h x hx y hy => (h x hx y hy).1 t)) with h | ⟨i, th, hi, h⟩
    · have := untouched_moment hc h0 hd hs hm.moment h
      rw [skip_edges]
      · exact this
      · intro x hx
        obtain ⟨th, h1, h2⟩ := List.mem_flatten.1 hx
        exact h th h1 x h2
    · rw [flatten_edges hi h]
      exact oneThread_final hc htot h0 hd hs hm hi
        (fun x hx hsx => hns th (List.mem_of_getElem? hi) x hx hsx.1) h
  have hnd : ∀ n, (d.graph c).nodes n = (applyAll mN mE (d0.graph c) (threads.flatten.flatMap Call.ops)).nodes n := by
    intro n
    rcases one_or_none (P := fun x => x.TouchesNode n) (ha.imp (fun h x hx y hy => (h x hx y hy).2 n)) with h | ⟨i, th, hi, h⟩
    · rw [(untouchedNode_moment hc h0 hd hs hm.moment h).2, skip_nodes]
      intro x hx
      obtain ⟨th, h1, h2⟩ := List.mem_flatten.1 hx
      exact h th h1 x h2
    · rw [flatten_nodes hi h]
      exact (oneThreadNode_final hc htot h0 hd hs hm hi h).2
  have hown := owner_fun h0 hd.1 hd.2
  have hneat : Neat c (owner d0 (allWrites threads)) d := neat_moment hc h0 hd hs hm.moment
  refine ⟨⟨⟨hneat.keys, fun o t => ?_⟩, hneat.nodes, ?_, fun t u v h1 h2 => ?_⟩, Graph.ext' hnd (fun t => (he t).2.view .SPO)⟩
  · rcases (he t).2.val with ⟨h1, -⟩ | ⟨v, b, p, h1, -, -, -⟩
    · exact (h1 o).trans (h1 .SPO).symm
    · exact (h1 o).trans (h1 .SPO).symm
  · intro k v hk
    obtain ⟨t, rfl⟩ := hneat.keys .SPO k v hk
    exact (he t).2.recs (o := .SPO) hk
  · exact hown v t u (hneat.refs _ _ _ h1) (hneat.refs _ _ _ h2)

end Sled

end Verif
