import Verif.Proof.SledFrame

/-! # Edges and nodes that only one thread touches -/

set_option linter.unusedSectionVars false

namespace Verif

open Spec ConcreteId

variable {Id NP EP E : Type} [LinearOrder Id] [ConcreteId Id] [LawfulId Id]

namespace Sled

open Db

variable {c : Codecs NP EP} {Own : Bytes → Triple Id → Prop} {T : Triple Id → Prop} {N : Id → Prop} {α β : Type}

/-- what concerns one edge: its id in each ordering, and the records under its ids -/
abbrev Part := (EdgeOrder → Option Bytes) × (Bytes → Option Bytes)

open Classical in
noncomputable def edgePart (Own : Bytes → Triple Id → Prop) (t : Triple Id) (d : Db) : Part :=
  (fun o => d.idIn o t, fun v => if Own v t then d.edgeProps.get v else none)

def nodePart (n : Id) (d : Db) : Option Bytes := d.nodeProps.get (toBeBytes n).1

theorem Within.edge {p : Prog Db α} {R : α → Prop} (h : Within c Own T N p R) {t : Triple Id} (ht : ¬ T t) :
    Framed (Neat c Own) (edgePart Own t) p R := by
  induction p with
  | ret a => exact h
  | call f k ih =>
    intro d hd
    obtain ⟨h1, h2, h3⟩ := h d hd
    refine ⟨h1, ?_, ih d h3⟩
    unfold edgePart
    refine Prod.ext (funext fun o => h2.ids o t ht) (funext fun v => ?_)
    by_cases ho : Own v t
    · simp only [ho, if_true]
      exact h2.recs v t ht ho
    · simp only [ho, if_false]

theorem Within.node {p : Prog Db α} {R : α → Prop} (h : Within c Own T N p R) {n : Id} (hn : ¬ N n) :
    Framed (Neat c Own) (nodePart n) p R := by
  induction p with
  | ret a => exact h
  | call f k ih =>
    intro d hd
    obtain ⟨h1, h2, h3⟩ := h d hd
    exact ⟨h1, h2.nodes n hn, ih d h3⟩

/-! ## one edge -/

/-- All orderings have the edge under the same id, with a record to be read as `q`, or all do not have it and `q` is
`none`; the ids in `F` are not in use for it. -/
structure Settled (c : Codecs NP EP) (L : Part) (q : Option EP) (F : List Bytes) : Prop where
  fresh : ∀ o v, v ∈ F → L.1 o ≠ some v
  val : ((∀ o, L.1 o = none) ∧ q = none) ∨
    ∃ v b p, (∀ o, L.1 o = some v) ∧ L.2 v = some b ∧ c.e.de b = some p ∧ q = some p

theorem Settled.sub {L : Part} {q : Option EP} {F F' : List Bytes} (h : Settled c L q F) (hF : ∀ v ∈ F', v ∈ F) :
    Settled c L q F' := ⟨fun o v hv => h.fresh o v (hF v hv), h.val⟩

theorem settled_put {L : Part} {F : List Bytes} {i b : Bytes} {p : EP} (h1 : ∀ o, L.1 o = some i) (h2 : L.2 i = some b)
    (h3 : c.e.de b = some p) (hi : i ∉ F) : Settled c L (some p) F := by
  refine ⟨fun o v hv e => ?_, .inr ⟨i, b, p, h1, h2, h3, rfl⟩⟩
  rw [h1] at e
  cases e
  exact hi hv

theorem settled_none {L : Part} {F : List Bytes} (h1 : ∀ o, L.1 o = none) : Settled c L (none : Option EP) F :=
  ⟨fun o v _ e => by rw [h1] at e; (cases e), .inl ⟨h1, rfl⟩⟩

theorem edgePart_rec {t : Triple Id} {d : Db} {v : Bytes} (h : Own v t) : (edgePart Own t d).2 v = d.edgeProps.get v := by
  unfold edgePart
  simp only [h, if_true]

theorem edgePart_some {t : Triple Id} {d : Db} {v b : Bytes} (h : (edgePart Own t d).2 v = some b) :
    d.edgeProps.get v = some b := by
  unfold edgePart at h
  dsimp only at h
  split at h
  · exact h
  · cases h

theorem Settled.view {t : Triple Id} {d : Db} {q : Option EP} {F : List Bytes} (h : Settled c (edgePart Own t d) q F)
    (o : EdgeOrder) : d.view c o t = q := by
  rcases h.val with ⟨h1, h2⟩ | ⟨v, b, p, h1, h2, h3, h4⟩
  · have h1 : d.idIn o t = none := h1 o
    rw [h2, Db.view, h1]; rfl
  · have h1 : d.idIn o t = some v := h1 o
    rw [Db.view, h1, Option.bind_some, edgePart_some h2, Option.bind_some, h3, h4]

theorem Settled.recs {t : Triple Id} {d : Db} {q : Option EP} {F : List Bytes} (h : Settled c (edgePart Own t d) q F)
    {o : EdgeOrder} {v : Bytes} (hv : d.idIn o t = some v) : ∃ b p, d.edgeProps.get v = some b ∧ c.e.de b = some p := by
  rcases h.val with ⟨h1, h2⟩ | ⟨w, b, p, h1, h2, h3, h4⟩
  · have h1 : d.idIn o t = none := h1 o
    rw [h1] at hv; cases hv
  · have h1 : d.idIn o t = some w := h1 o
    rw [h1] at hv; cases hv
    exact ⟨b, p, edgePart_some h2, h3⟩

variable (c Own) in
/-- what a program makes of one edge while nobody else touches it -/
abbrev OnEdge (t : Triple Id) (p : Prog Db α) (L : Part) (q : Option EP) (F : List Bytes) : Prop :=
  Local (Neat c Own) (edgePart Own t) p L (fun _ L' => Settled c L' q F)

theorem own_insertEdge (hc : c.RoundTrip) (htot : c.Total) (hown : ∀ v t u, Own v t → Own v u → t = u) {i : Id}
    {t : Triple Id} {p : EP} {L : Part} {F : List Bytes} (hi : Own (toBeBytes i).1 t) (hF : (toBeBytes i).1 ∉ F) :
    OnEdge c Own t (Sled.insertEdge c i t p) L (some p) F := by
  have hw := within_insertEdge (N := fun _ => False) hc hown (p := p) hi
  unfold Sled.insertEdge at hw ⊢
  cases hb : c.e.ser p with
  | none => have := htot.2 p; rw [hb] at this; cases this
  | some b =>
    rw [hb] at hw
    intro d hd hl
    refine ⟨(hw d hd).1, settled_put (i := (toBeBytes i).1) (b := b) (fun o => ?_) ?_ (hc.2 _ _ hb) hF⟩
    · show ({ d with edgeProps := d.edgeProps.insert (toBeBytes i).1 b }.setEdge t (toBeBytes i).1).idIn o t = _
      rw [setEdge_idIn, if_pos rfl]
    · rw [edgePart_rec hi]
      exact BMap.get_insert_self _ _ _

theorem own_mergeEdge (hc : c.RoundTrip) (htot : c.Total) (hown : ∀ v t u, Own v t → Own v u → t = u) {mE : EP → EP → EP}
    {i : Id} {t : Triple Id} {p : EP} {L : Part} {q : Option EP} {F F' : List Bytes} (hL : Settled c L q F')
    (hi : Own (toBeBytes i).1 t) (hF : (toBeBytes i).1 ∉ F) :
    Local (Neat c Own) (edgePart Own t) (Sled.mergeEdge c mE i t p) L
      (fun r L' => r = .ok () ∧ Settled c L' (some (merged mE q p)) F) := by
  have hw := within_mergeEdge (N := fun _ => False) hc hown (mE := mE) (p := p) hi
  have hr := fun d (h : Neat c Own d) => mergeEdge_neat h mE i t p
  obtain ⟨f, hf⟩ : ∃ f, Sled.mergeEdge c mE i t p = transaction f := ⟨_, rfl⟩
  rw [hf] at hr hw ⊢
  intro d hd hl
  refine ⟨(hw d hd).1, ?_⟩
  have hq : (d.graph c).edges t = q := by
    rw [← hl] at hL
    exact hL.view .SPO
  rcases hr d hd with ⟨h1, h2⟩ | ⟨b, h1, h2⟩
  · rw [Codecs.okE, htot.2] at h1; cases h1
  · have e1 : commit f d = _ := congrArg Prod.fst h2
    have e2 : txResult f d = .ok () := congrArg Prod.snd h2
    rw [hq] at h1
    refine ⟨e2, ?_⟩
    show Settled c (edgePart Own t (commit f d)) _ F
    rw [e1]
    refine settled_put (i := (toBeBytes i).1) (b := b) (fun o => ?_) ?_ (hc.2 _ _ h1) hF
    · show Db.idIn _ o t = _
      rw [setEdge_idIn, if_pos rfl]
    · rw [edgePart_rec hi]
      show (mergedProps d t (toBeBytes i).1 b).get _ = _
      unfold mergedProps
      split <;> exact BMap.get_insert_self _ _ _

theorem own_removeEdge (hown : ∀ v t u, Own v t → Own v u → t = u) {t : Triple Id} {L : Part} {F : List Bytes} :
    OnEdge c Own t (Sled.removeEdge t) L none F := by
  have hid : ∀ {d d' : Db} {o : EdgeOrder}, edgePart Own t d = edgePart Own t d' → d.idIn o t = d'.idIn o t :=
    fun {d d'} {o} h => congrFun (congrArg Prod.fst h) o
  intro d hd hl
  refine ⟨(neat_removed (N := fun _ => False) hown hd t).1, ?_⟩
  have n0 : ∀ o, (removed d t).idIn o t = none := fun o => by rw [removed, unsetEdge_idIn, if_pos rfl]
  have n0' : ∀ {d1 : Db}, edgePart Own t d1 = edgePart Own t (removed d t) → ∀ o, d1.idIn o t = none :=
    fun h o => (hid h).trans (n0 o)
  intro d1 hd1 hl1
  have n1 := n0' hl1
  refine ⟨(neat_unset (N := fun _ => False) (d' := { d1 with spo := d1.spo.erase (encodeSpo t).1 }) hd1 .SPO t rfl rfl
    (fun o => by cases o <;> rfl)).1, ?_⟩
  have n1' : ∀ o, ({ d1 with spo := d1.spo.erase (encodeSpo t).1 } : Db).idIn o t = none := by
    intro o
    cases o
    · exact BMap.get_erase_self _ _
    · exact n1 .POS
    · exact n1 .OSP
  intro d2 hd2 hl2
  have n2 : ∀ o, d2.idIn o t = none := fun o => (hid hl2).trans (n1' o)
  refine ⟨(neat_unset (N := fun _ => False) (d' := { d2 with pos := d2.pos.erase (encodePos t).1 }) hd2 .POS t rfl rfl
    (fun o => by cases o <;> rfl)).1, ?_⟩
  have n2' : ∀ o, ({ d2 with pos := d2.pos.erase (encodePos t).1 } : Db).idIn o t = none := by
    intro o
    cases o
    · exact n2 .SPO
    · exact BMap.get_erase_self _ _
    · exact n2 .OSP
  intro d3 hd3 hl3
  have n3 : ∀ o, d3.idIn o t = none := fun o => (hid hl3).trans (n2' o)
  refine ⟨(neat_unset (N := fun _ => False) (d' := { d3 with osp := d3.osp.erase (encodeOsp t).1 }) hd3 .OSP t rfl rfl
    (fun o => by cases o <;> rfl)).1, ?_⟩
  have e : d1.spo.get (encodeSpo t).1 = none := n1 .SPO
  rw [e]
  refine settled_none (fun o => ?_)
  cases o
  · exact n3 .SPO
  · exact n3 .POS
  · exact BMap.get_erase_self _ _

/-- remove_node after scans that have found encoded triples -/
theorem removeNodeScanned_enc (n : Id) (F B : List (Triple Id × Bytes)) :
    removeNodeScanned n (F.map (fun x => ((encodeSpo x.1).1, x.2))) (B.map (fun x => ((encodeOsp x.1).1, x.2))) =
      transaction (fun d => .ok (dropped n F B d)) := by
  unfold removeNodeScanned
  rw [forwardBatch_enc, backwardBatch_enc]
  simp only [List.nil_append]
  rfl

theorem own_removeNode (hown : ∀ v t u, Own v t → Own v u → t = u) {n : Id} {t : Triple Id} (ht : t.sub = n ∨ t.obj = n)
    {L : Part} {q : Option EP} {F F' : List Bytes} (hL : Settled c L q F') :
    OnEdge c Own t (Sled.removeNode n) L none F := by
  rw [removeNode_eq]
  intro d1 hd1 hl1
  refine ⟨hd1, ?_⟩
  obtain ⟨Fw, hF, hFm⟩ := rangeArr_enc (hd1.keys .SPO) (keyBounds1 n)
  have hF' : d1.spo.rangeArr (keyBounds1 n) = Fw.map (fun x => ((encodeSpo x.1).1, x.2)) := hF
  dsimp only
  rw [hF', forwardBatch_enc]
  intro d2 hd2 hl2
  refine ⟨hd2, ?_⟩
  obtain ⟨Bw, hB, hBm⟩ := rangeArr_enc (hd2.keys .OSP) (keyBounds1 n)
  have hB' : d2.osp.rangeArr (keyBounds1 n) = Bw.map (fun x => ((encodeOsp x.1).1, x.2)) := hB
  dsimp only
  rw [hB', removeNodeScanned_enc]
  intro d3 hd3 hl3
  have l2 : edgePart Own t d2 = L := hl2.trans hl1
  have l3 : edgePart Own t d3 = L := hl3.trans l2
  have mF : ∀ u v, (u, v) ∈ Fw → u.sub = n ∧ Own v u := fun u v hu => by
    obtain ⟨h1, h2⟩ := (hFm u v).1 hu
    exact ⟨(LawfulId.kb1_spo n u).1 h2, hd1.refs _ _ _ h1⟩
  have mB : ∀ u v, (u, v) ∈ Bw → u.obj = n ∧ Own v u := fun u v hu => by
    obtain ⟨h1, h2⟩ := (hBm u v).1 hu
    exact ⟨(LawfulId.kb1_osp n u).1 h2, hd2.refs _ _ _ h1⟩
  refine ⟨(neat_dropped (T := fun u : Triple Id => u.sub = n ∨ u.obj = n) (n := n) (F := Fw) (B := Bw) hown hd3 (by
      rintro ⟨u, v⟩ hx
      rcases List.mem_append.1 hx with hx | hx
      · exact ⟨.inl (mF u v hx).1, (mF u v hx).2⟩
      · exact ⟨.inr (mB u v hx).1, (mB u v hx).2⟩)).1, settled_none (fun o => ?_)⟩
  show (dropped n Fw Bw d3).idIn o t = none
  rw [dropped_idIn]
  rcases hL.val with ⟨h1, -⟩ | ⟨v, b, p, h1, -, -, -⟩
  · have : d3.idIn o t = L.1 o := congrFun (congrArg Prod.fst l3) o
    rw [this, h1, ite_self]
  · rw [if_pos]
    refine List.mem_map.2 ⟨(t, v), List.mem_append.2 ?_, rfl⟩
    rcases ht with ht | ht
    · left
      have : d1.idIn .SPO t = L.1 .SPO := congrFun (congrArg Prod.fst hl1) _
      exact (hFm t v).2 ⟨this.trans (h1 _), (LawfulId.kb1_spo n t).2 ht⟩
    · right
      have : d2.idIn .OSP t = L.1 .OSP := congrFun (congrArg Prod.fst l2) _
      exact (hBm t v).2 ⟨this.trans (h1 _), (LawfulId.kb1_osp n t).2 ht⟩

/-- one item of extend -/
theorem own_extendItem (hown : ∀ v t u, Own v t → Own v u → t = u) {t : Triple Id} {i b : Bytes} {p : EP} {L : Part}
    {q : Option EP} {F : List Bytes} (hL : Settled c L q (i :: F)) (hi : Own i t) (hb : c.e.de b = some p) (hF : i ∉ F)
    {k : Prog Db α} {Q : α → Part → Prop}
    (hk : ∀ L', Settled c L' (some p) F → Local (Neat c Own) (edgePart Own t) k L' Q) :
    Local (Neat c Own) (edgePart Own t)
      (.call (fun d => { d with edgeProps := d.edgeProps.insert i b }) (fun _ =>
        .call (fun d => { d with spo := d.spo.insert (encodeSpo t).1 i }) (fun d1 =>
          .call (fun d => { d with pos := d.pos.insert (encodePos t).1 i }) (fun _ =>
            .call (fun d => { d with osp := d.osp.insert (encodeOsp t).1 i }) (fun _ =>
              match d1.spo.get (encodeSpo t).1 with
              | some o => .call (fun d => { d with edgeProps := d.edgeProps.erase o }) (fun _ => k)
              | none => k))))) L Q := by
  have hid : ∀ {d d' : Db}, edgePart Own t d = edgePart Own t d' → ∀ o, d.idIn o t = d'.idIn o t :=
    fun {d d'} h o => congrFun (congrArg Prod.fst h) o
  have hrec : ∀ {d d' : Db}, edgePart Own t d = edgePart Own t d' → d.edgeProps.get i = d'.edgeProps.get i :=
    fun {d d'} h => by rw [← edgePart_rec (d := d) hi, ← edgePart_rec (d := d') hi, h]
  intro d hd hl
  refine ⟨(neat_rec (N := fun _ => False) hown hd hi hb).1, fun d1 hd1 hl1 => ?_⟩
  have r1 : d1.edgeProps.get i = some b := (hrec hl1).trans (BMap.get_insert_self _ _ _)
  have i1 : d1.idIn .SPO t ≠ some i := by
    rw [hid hl1, withProps_idIn]
    have : d.idIn .SPO t = L.1 .SPO := congrFun (congrArg Prod.fst hl) _
    rw [this]
    exact hL.fresh .SPO i List.mem_cons_self
  refine ⟨(neat_set (N := fun _ => False) (d' := { d1 with spo := d1.spo.insert (encodeSpo t).1 i }) hd1 .SPO t hi rfl rfl
    (fun o => by cases o <;> rfl)).1, fun d2 hd2 hl2 => ?_⟩
  have r2 : d2.edgeProps.get i = some b := (hrec hl2).trans r1
  have a2 : d2.idIn .SPO t = some i := (hid hl2 .SPO).trans (BMap.get_insert_self _ _ _)
  refine ⟨(neat_set (N := fun _ => False) (d' := { d2 with pos := d2.pos.insert (encodePos t).1 i }) hd2 .POS t hi rfl rfl
    (fun o => by cases o <;> rfl)).1, fun d3 hd3 hl3 => ?_⟩
  have r3 : d3.edgeProps.get i = some b := (hrec hl3).trans r2
  have a3 : d3.idIn .SPO t = some i := (hid hl3 .SPO).trans a2
  have b3 : d3.idIn .POS t = some i := (hid hl3 .POS).trans (BMap.get_insert_self _ _ _)
  refine ⟨(neat_set (N := fun _ => False) (d' := { d3 with osp := d3.osp.insert (encodeOsp t).1 i }) hd3 .OSP t hi rfl rfl
    (fun o => by cases o <;> rfl)).1, ?_⟩
  have all4 : ∀ o, ({ d3 with osp := d3.osp.insert (encodeOsp t).1 i } : Db).idIn o t = some i := by
    intro o
    cases o
    · exact a3
    · exact b3
    · exact BMap.get_insert_self _ _ _
  cases h1 : d1.spo.get (encodeSpo t).1 with
  | none =>
    refine hk _ (settled_put (i := i) (b := b) all4 ?_ hb hF)
    rw [edgePart_rec hi]
    exact r3
  | some w =>
    intro d4 hd4 hl4
    refine ⟨(neat_erase (N := fun _ => False) hown hd4 (hd1.refs .SPO _ _ h1)).1, hk _ (settled_put (i := i) (b := b) ?_ ?_ hb hF)⟩
    · intro o
      show Db.idIn _ o t = _
      rw [withProps_idIn]
      exact (hid hl4 o).trans (all4 o)
    · rw [edgePart_rec hi]
      show (d4.edgeProps.erase w).get i = _
      rw [BMap.get_erase, if_neg, hrec hl4]
      · exact r3
      · rintro rfl
        exact i1 h1

theorem Only.part {d d' : Db} {u t : Triple Id} (h : Only Own (· = u) N d d') (hne : t ≠ u) :
    edgePart Own t d' = edgePart Own t d := by
  unfold edgePart
  refine Prod.ext (funext fun o => h.ids o t hne) (funext fun v => ?_)
  by_cases ho : Own v t
  · simp only [ho, if_true]
    exact h.recs v t hne ho
  · simp only [ho, if_false]

/-- one item of extend which is another edge -/
theorem frame_extendItem (hown : ∀ v t u, Own v t → Own v u → t = u) {t u : Triple Id} {i b : Bytes} {p : EP} {L : Part}
    (hne : t ≠ u) (hi : Own i u) (hb : c.e.de b = some p)
    {k : Prog Db α} {Q : α → Part → Prop} (hk : Local (Neat c Own) (edgePart Own t) k L Q) :
    Local (Neat c Own) (edgePart Own t)
      (.call (fun d => { d with edgeProps := d.edgeProps.insert i b }) (fun _ =>
        .call (fun d => { d with spo := d.spo.insert (encodeSpo u).1 i }) (fun d1 =>
          .call (fun d => { d with pos := d.pos.insert (encodePos u).1 i }) (fun _ =>
            .call (fun d => { d with osp := d.osp.insert (encodeOsp u).1 i }) (fun _ =>
              match d1.spo.get (encodeSpo u).1 with
              | some o => .call (fun d => { d with edgeProps := d.edgeProps.erase o }) (fun _ => k)
              | none => k))))) L Q := by
  intro d hd hl
  obtain ⟨h1, h2⟩ := neat_rec (N := fun _ => False) hown hd hi hb
  have l1 := (h2.part hne).trans hl
  refine ⟨h1, fun d1 hd1 hl1 => ?_⟩
  obtain ⟨h1, h2⟩ := neat_set (N := fun _ => False) (d' := { d1 with spo := d1.spo.insert (encodeSpo u).1 i }) hd1 .SPO u hi
    rfl rfl (fun o => by cases o <;> rfl)
  have l2 := (h2.part hne).trans (hl1.trans l1)
  refine ⟨h1, fun d2 hd2 hl2 => ?_⟩
  obtain ⟨h1, h2⟩ := neat_set (N := fun _ => False) (d' := { d2 with pos := d2.pos.insert (encodePos u).1 i }) hd2 .POS u hi
    rfl rfl (fun o => by cases o <;> rfl)
  have l3 := (h2.part hne).trans (hl2.trans l2)
  refine ⟨h1, fun d3 hd3 hl3 => ?_⟩
  obtain ⟨h1, h2⟩ := neat_set (N := fun _ => False) (d' := { d3 with osp := d3.osp.insert (encodeOsp u).1 i }) hd3 .OSP u hi
    rfl rfl (fun o => by cases o <;> rfl)
  have l4 := (h2.part hne).trans (hl3.trans l3)
  refine ⟨h1, ?_⟩
  cases hs : d1.spo.get (encodeSpo u).1 with
  | none => dsimp only; rw [l4]; exact hk
  | some w =>
    intro d4 hd4 hl4
    obtain ⟨h1, h2⟩ := neat_erase (N := fun _ => False) hown hd4 (hd1.refs .SPO _ _ hs)
    refine ⟨h1, ?_⟩
    rw [(h2.part hne).trans (hl4.trans l4)]
    exact hk

theorem own_mergeEdges (hc : c.RoundTrip) (htot : c.Total) (hown : ∀ v t u, Own v t → Own v u → t = u) {mE : EP → EP → EP}
    {t : Triple Id} {F : List Bytes} (l : List (Except E (Triple Id × EP))) (g : Gen Id) (L : Part) (G : Graph Id NP EP)
    (hL : Settled c L (G.edges t) ((Call.drawnFor g l).map Prod.fst ++ F))
    (hnd : ((Call.drawnFor g l).map Prod.fst ++ F).Nodup) (hg : ∀ x ∈ Call.drawnFor g l, Own x.1 x.2) :
    OnEdge c Own t (mergeEdges c mE g l) L (((oks l).foldl (fun G x => G.mergeEdge mE x.1 x.2) G).edges t) F := by
  induction l generalizing g L G with
  | nil => exact hL
  | cons x l ih =>
    cases x with
    | error e => exact hL
    | ok x =>
      rw [mergeEdges]
      have hi := hg _ List.mem_cons_self
      have hnd' := (List.nodup_cons.1 hnd)
      have hg' := fun y hy => hg y (List.mem_cons_of_mem _ hy)
      by_cases e : t = x.1
      · subst e
        refine (own_mergeEdge hc htot hown (mE := mE) (p := x.2) hL hi hnd'.1).bind (fun r L' ⟨h1, h2⟩ => ?_)
        subst h1
        refine ih _ _ (G.mergeEdge mE x.1 x.2) ?_ hnd'.2 hg'
        have : (G.mergeEdge mE x.1 x.2).edges x.1 = some (merged mE (G.edges x.1) x.2) := by
          simp only [Graph.mergeEdge, if_true, merged]
          cases G.edges x.1 <;> rfl
        rw [this]
        exact h2
      · refine ((within_mergeEdge (N := fun _ => False) hc hown hi).edge e).loc_bind (fun r hr => ?_)
        have hr := hr htot
        subst hr
        refine ih _ _ (G.mergeEdge mE x.1 x.2) ?_ hnd'.2 hg'
        have : (G.mergeEdge mE x.1 x.2).edges t = G.edges t := by simp only [Graph.mergeEdge, if_neg e]
        rw [this]
        exact hL.sub (fun v hv => List.mem_cons_of_mem _ hv)

theorem own_extendEdges (hc : c.RoundTrip) (htot : c.Total) (hown : ∀ v t u, Own v t → Own v u → t = u)
    {t : Triple Id} {F : List Bytes} (l : List (Except E (Triple Id × EP))) (g : Gen Ulid) (L : Part) (G : Graph Id NP EP)
    (hL : Settled c L (G.edges t) ((Call.drawnFor g l).map Prod.fst ++ F))
    (hnd : ((Call.drawnFor g l).map Prod.fst ++ F).Nodup) (hg : ∀ x ∈ Call.drawnFor g l, Own x.1 x.2) :
    OnEdge c Own t (extendEdges c g l) L (((oks l).foldl (fun G x => G.insertEdge x.1 x.2) G).edges t) F := by
  induction l generalizing g L G with
  | nil => exact hL
  | cons x l ih =>
    cases x with
    | error e => exact hL
    | ok x =>
      rw [extendEdges]
      have hi := hg _ List.mem_cons_self
      have hnd' := (List.nodup_cons.1 hnd)
      have hg' := fun y hy => hg y (List.mem_cons_of_mem _ hy)
      cases hb : c.e.ser x.2 with
      | none => have := htot.2 x.2; rw [hb] at this; cases this
      | some b =>
        by_cases e : t = x.1
        · subst e
          refine own_extendItem hown hL hi (hc.2 _ _ hb) hnd'.1 (fun L' hL' => ?_)
          refine ih _ _ (G.insertEdge x.1 x.2) ?_ hnd'.2 hg'
          have : (G.insertEdge x.1 x.2).edges x.1 = some x.2 := by simp only [Graph.insertEdge, if_true]
          rw [this]
          exact hL'
        · refine frame_extendItem hown e hi (hc.2 _ _ hb) (ih _ _ (G.insertEdge x.1 x.2) ?_ hnd'.2 hg')
          have : (G.insertEdge x.1 x.2).edges t = G.edges t := by simp only [Graph.insertEdge, if_neg e]
          rw [this]
          exact hL.sub (fun v hv => List.mem_cons_of_mem _ hv)

end Sled

end Verif
