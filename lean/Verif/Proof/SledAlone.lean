import Verif.Proof.SledApart
import Verif.Proof.Conc

/-! # Extends that are alone on their edges never lose a record -/

set_option linter.unusedSectionVars false

namespace Verif

open Spec ConcreteId

variable {Id NP EP E : Type} [LinearOrder Id] [ConcreteId Id] [LawfulId Id]

namespace Sled

open Db

/-- Every id in an ordering is known to be used (`X`) and has a record. -/
structure Fit (c : Codecs NP EP) (Own : Bytes → Triple Id → Prop) (d : Db) (X : Bytes → Prop) : Prop where
  neat : Neat c Own d
  refs : ∀ (o : EdgeOrder) (t : Triple Id) (v : Bytes), d.idIn o t = some v → X v ∧ ∃ b, d.edgeProps.get v = some b

/-- `ids`: those to be used yet; `touch`: the edges changed; `mine`: those which nobody else changes. -/
structure Label (Id : Type) where
  ids : List Bytes
  touch : Triple Id → Prop
  mine : Triple Id → Prop

/-- the label with other ids -/
def Label.to (a : Label Id) (L : List Bytes) : Label Id := { a with ids := L }

def fitRG (c : Codecs NP EP) (Own : Bytes → Triple Id → Prop) : RG Db (Bytes → Prop) (Label Id) where
  inv := Fit c Own
  rely a x y := (∀ v, x.2 v → y.2 v) ∧
    (∀ o v, x.2 v → (∀ t, Own v t → a.touch t) → (∀ t : Triple Id, x.1.idIn o t ≠ some v) →
      ∀ t : Triple Id, y.1.idIn o t ≠ some v) ∧
    ∀ t, a.mine t → (∀ o, y.1.idIn o t = x.1.idIn o t) ∧ ∀ v, Own v t → y.1.edgeProps.get v = x.1.edgeProps.get v
  ok a X := ∀ v ∈ a.ids, ¬ X v
  par a b := (∀ v ∈ a.ids, v ∉ b.ids) ∧ ∀ t, (a.mine t → ¬ b.touch t) ∧ (b.mine t → ¬ a.touch t)
  seq a b := ∀ v ∈ a.ids, v ∉ b.ids
  le a b := (∀ v ∈ a.ids, v ∈ b.ids) ∧ a.touch = b.touch ∧ a.mine = b.mine
  rely_refl _ _ := ⟨fun _ => id, fun _ _ _ _ => id, fun _ _ => ⟨fun _ => rfl, fun _ _ => rfl⟩⟩
  rely_trans _ _ _ _ h h' := ⟨fun v hv => h'.1 v (h.1 v hv),
    fun o v hv ht hn => h'.2.1 o v (h.1 v hv) ht (h.2.1 o v hv ht hn),
    fun t ht => ⟨fun o => ((h'.2.2 t ht).1 o).trans ((h.2.2 t ht).1 o),
      fun v hv => ((h'.2.2 t ht).2 v hv).trans ((h.2.2 t ht).2 v hv)⟩⟩
  le_trans _ _ _ h h' := ⟨fun v hv => h'.1 v (h.1 v hv), h.2.1.trans h'.2.1, h.2.2.trans h'.2.2⟩
  par_le _ _ _ h := by
    obtain ⟨h1, h2, h3⟩ := h
    rw [h2, h3]
    exact ⟨fun hp => ⟨fun v hv => hp.1 v (h1 v hv), hp.2⟩, fun hp => ⟨fun v hv hv' => hp.1 v hv (h1 v hv'), hp.2⟩⟩
  seq_le _ _ _ h hp v hv := hp v (h.1 v hv)

variable {c : Codecs NP EP} {Own : Bytes → Triple Id → Prop} {α β : Type} {N : Id → Prop} {a : Label Id}

/-- a call that draws no id -/
theorem fit_drop {d d' : Db} {X : Bytes → Prop} (hL : ∀ v ∈ a.ids, ¬ X v) (h : Fit c Own d' X)
    (hid : ∀ o (t : Triple Id) v, d'.idIn o t = some v → d.idIn o t = some v) (ho : Only Own a.touch N d d') :
    (fitRG c Own).Allowed a d X d' a X :=
  ⟨⟨fun _ => id, rfl, rfl⟩, h, hL, fun _ hp hb => ⟨⟨fun _ => id, fun o v _ _ hn t ht => hn t (hid o t v ht),
    fun t ht => ⟨fun o => ho.ids o t ((hp.2 t).2 ht), fun v hv => ho.recs v t ((hp.2 t).2 ht) hv⟩⟩, hb⟩, fun _ _ => id⟩

theorem fit_weaken {L : List Bytes} {p : Prog Db α} {x : Db × (Bytes → Prop)} (h : (fitRG c Own).Safe p (a.to L) x)
    (hL : ∀ v ∈ L, v ∈ a.ids) : (fitRG c Own).Safe p a x := by
  induction p generalizing a L x with
  | ret => trivial
  | call f k ih =>
    intro d X hr hi hok
    obtain ⟨b', X', h1, h2⟩ := h d X hr hi (fun v hv => hok v (hL v hv))
    refine ⟨b', X', ⟨⟨fun v hv => hL v (h1.1.1 v hv), h1.1.2⟩, h1.2.1, h1.2.2.1, fun b hp hb => ?_, fun b hp hb => ?_⟩, h2⟩
    · exact h1.2.2.2.1 b ⟨fun v hv => hp.1 v (hL v hv), hp.2⟩ hb
    · exact h1.2.2.2.2 b (fun v hv => hp v (hL v hv)) hb

/-- programs that touch no edges -/
theorem fit_nodes {p : Prog Db α} {R : α → Prop} {k : α → Prog Db β} (h : Within c Own (fun _ => False) N p R)
    (hk : ∀ r, R r → ∀ x, (fitRG c Own).Safe (k r) a x) (x : Db × (Bytes → Prop)) : (fitRG c Own).Safe (p.bind k) a x := by
  induction p generalizing x with
  | ret r => exact hk r h x
  | call f j ih =>
    intro d X _ hi hL
    obtain ⟨h1, h2, h3⟩ := h d hi.neat
    refine ⟨a, X, fit_drop (N := N) hL ⟨h1, fun o t v hv => ?_⟩ (fun o t v hv => ?_)
      ⟨fun o u _ => h2.ids o u id, fun v u _ => h2.recs v u id, h2.nodes⟩, ih d h3 _⟩
    · have hv' := hv
      rw [h2.ids o t id] at hv
      rw [h2.recs v t id (h1.refs o t v hv')]
      exact hi.refs o t v hv
    · rwa [h2.ids o t id] at hv

/-- writing one edge under a new id -/
theorem fit_set {L : List Bytes} {d d' : Db} {X : Bytes → Prop} {i b : Bytes} {t : Triple Id} (hi : Fit c Own d X)
    (ha : a.ids = i :: L) (hL : ∀ v ∈ a.ids, ¬ X v) (hnd : i ∉ L) (ht : a.touch t) (h1 : Neat c Own d')
    (h2 : Only Own (· = t) N d d') (hid : ∀ o, d'.idIn o t = some i) (hb : d'.edgeProps.get i = some b) :
    (fitRG c Own).Allowed a d X d' (a.to L) (fun v => X v ∨ v = i) := by
  have hXi : ¬ X i := hL i (by rw [ha]; exact List.mem_cons_self)
  refine ⟨⟨fun v hv => by rw [ha]; exact List.mem_cons_of_mem _ hv, rfl, rfl⟩, ⟨h1, fun o u v hv => ?_⟩, ?_, fun M hp hM => ⟨⟨fun v => .inl,
    fun o v hv _ hn u hu => ?_, fun u hu => ?_⟩, ?_⟩, fun M hp hM => ?_⟩
  · by_cases e : u = t
    · subst e
      rw [hid] at hv
      cases hv
      exact ⟨.inr rfl, b, hb⟩
    · have hv' := hv
      rw [h2.ids o u e] at hv
      obtain ⟨x1, x2⟩ := hi.refs o u v hv
      rw [h2.recs v u e (h1.refs o u v hv')]
      exact ⟨.inl x1, x2⟩
  · rintro v hv (hx | rfl)
    · exact hL v (by rw [ha]; exact List.mem_cons_of_mem _ hv) hx
    · exact hnd hv
  · by_cases e : u = t
    · subst e
      have hu : d'.idIn o u = some v := hu
      rw [hid] at hu
      cases hu
      exact hXi hv
    · have hu : d'.idIn o u = some v := hu
      rw [h2.ids o u e] at hu
      exact hn u hu
  · have e : u ≠ t := by rintro rfl; exact (hp.2 u).2 hu ht
    exact ⟨fun o => h2.ids o u e, fun v hv => h2.recs v u e hv⟩
  · rintro v hv (hx | rfl)
    · exact hM v hv hx
    · exact hp.1 v (by rw [ha]; exact List.mem_cons_self) hv
  · rintro v hv (hx | rfl)
    · exact hM v hv hx
    · exact hp v (by rw [ha]; exact List.mem_cons_self) hv

theorem fit_insertEdge (hc : c.RoundTrip) (hown : ∀ v t u, Own v t → Own v u → t = u) {L : List Bytes} {i : Id}
    {t : Triple Id} {p : EP} {k : Except SErr Unit → Prog Db α} (ha : a.ids = (toBeBytes i).1 :: L)
    (hnd : (toBeBytes i).1 ∉ L) (hot : Own (toBeBytes i).1 t) (ht : a.touch t)
    (hk : ∀ r x, (fitRG c Own).Safe (k r) (a.to L) x) (x : Db × (Bytes → Prop)) :
    (fitRG c Own).Safe ((Sled.insertEdge c i t p).bind k) a x := by
  have hw := within_insertEdge (N := fun _ => False) hc hown (p := p) hot
  unfold Sled.insertEdge at hw ⊢
  cases hb : c.e.ser p with
  | none => exact fit_weaken (hk _ _) (fun v hv => by rw [ha]; exact List.mem_cons_of_mem _ hv)
  | some b =>
    rw [hb] at hw
    dsimp only at hw ⊢
    rw [tx_bind]
    intro d X _ hi hL
    refine ⟨a.to L, fun v => X v ∨ v = (toBeBytes i).1, ?_, hk _ _⟩
    refine fit_set (b := b) (N := fun _ => False) hi ha hL hnd ht (hw d hi.neat).1 (hw d hi.neat).2.1 (fun o => ?_) ?_
    · show ({ d with edgeProps := d.edgeProps.insert (toBeBytes i).1 b }.setEdge t (toBeBytes i).1).idIn o t = _
      rw [setEdge_idIn, if_pos rfl]
    · exact BMap.get_insert_self _ _ _

theorem fit_mergeEdge (hc : c.RoundTrip) (hown : ∀ v t u, Own v t → Own v u → t = u) {mE : EP → EP → EP} {L : List Bytes}
    {i : Id} {t : Triple Id} {p : EP} {k : Except SErr Unit → Prog Db α} (ha : a.ids = (toBeBytes i).1 :: L)
    (hnd : (toBeBytes i).1 ∉ L) (hot : Own (toBeBytes i).1 t) (ht : a.touch t)
    (hk : ∀ r x, (fitRG c Own).Safe (k r) (a.to L) x) (x : Db × (Bytes → Prop)) :
    (fitRG c Own).Safe ((Sled.mergeEdge c mE i t p).bind k) a x := by
  have hw := within_mergeEdge (N := fun _ => False) hc hown (mE := mE) (p := p) hot
  have hr := fun d (h : Neat c Own d) => mergeEdge_neat h mE i t p
  obtain ⟨f, hf⟩ : ∃ f, Sled.mergeEdge c mE i t p = transaction f := ⟨_, rfl⟩
  rw [hf] at hr hw ⊢
  rw [tx_bind]
  intro d X _ hi hL
  rcases hr d hi.neat with ⟨-, h2⟩ | ⟨b, -, h2⟩
  · have e1 : commit f d = d := congrArg Prod.fst h2
    refine ⟨a, X, ?_, fit_weaken (hk _ _) (fun v hv => by rw [ha]; exact List.mem_cons_of_mem _ hv)⟩
    rw [e1]
    exact fit_drop (N := fun _ => False) hL hi (fun _ _ _ => id) (.refl d)
  · have e1 : commit f d = _ := congrArg Prod.fst h2
    refine ⟨a.to L, fun v => X v ∨ v = (toBeBytes i).1, ?_, hk _ _⟩
    refine fit_set (b := b) (N := fun _ => False) hi ha hL hnd ht (hw d hi.neat).1 (hw d hi.neat).2.1 (fun o => ?_) ?_
    · rw [e1, setEdge_idIn, if_pos rfl]
    · rw [e1]
      show (mergedProps d t (toBeBytes i).1 b).get _ = _
      unfold mergedProps
      split <;> exact BMap.get_insert_self _ _ _

theorem fit_scanned (hown : ∀ v t u, Own v t → Own v u → t = u) {n : Id}
    {fwd bwd : List (Bytes × Bytes)} {k : Except SErr Unit → Prog Db α}
    (hf : ∀ (t : Triple Id) v, ((encodeSpo t).1, v) ∈ fwd → a.touch t ∧ Own v t)
    (hb : ∀ (t : Triple Id) v, ((encodeOsp t).1, v) ∈ bwd → a.touch t ∧ Own v t)
    (hk : ∀ r x, (fitRG c Own).Safe (k r) a x) (x : Db × (Bytes → Prop)) :
    (fitRG c Own).Safe ((removeNodeScanned n fwd bwd).bind k) a x := by
  rcases removeNodeScanned_cases n fwd bwd with ⟨r, e⟩ | ⟨F, B, hF, hB, e⟩
  · rw [e]; exact hk _ _
  · rw [e, tx_bind]
    intro d X _ hi hL
    have hFB : ∀ x ∈ F ++ B, a.touch x.1 ∧ Own x.2 x.1 := by
      rintro ⟨t, v⟩ hx
      rcases List.mem_append.1 hx with hx | hx
      · exact hf t v (by rw [hF]; exact List.mem_map.2 ⟨_, hx, rfl⟩)
      · exact hb t v (by rw [hB]; exact List.mem_map.2 ⟨_, hx, rfl⟩)
    obtain ⟨h1, h2⟩ := neat_dropped (T := a.touch) (n := n) hown hi.neat hFB
    obtain ⟨-, h3⟩ := neat_dropped (T := fun t => t ∈ (F ++ B).map Prod.fst) (n := n) hown hi.neat
      (fun x hx => ⟨List.mem_map.2 ⟨x, hx, rfl⟩, (hFB x hx).2⟩)
    have hid : ∀ o (t : Triple Id) v, (dropped n F B d).idIn o t = some v →
        d.idIn o t = some v ∧ t ∉ (F ++ B).map Prod.fst := by
      intro o t v hv
      rw [dropped_idIn] at hv
      split at hv
      · cases hv
      · exact ⟨hv, by assumption⟩
    refine ⟨a, X, fit_drop hL ⟨h1, fun o t v hv => ?_⟩ (fun o t v hv => (hid o t v hv).1) h2, hk _ _⟩
    obtain ⟨y1, y2⟩ := hid o t v hv
    have := h3.recs v t y2 (h1.refs o t v hv)
    have goal := hi.refs o t v y1
    refine ⟨goal.1, ?_⟩
    show ∃ b, (dropped n F B d).edgeProps.get v = some b
    rw [this]
    exact goal.2

theorem fit_removeNode (hown : ∀ v t u, Own v t → Own v u → t = u) {n : Id} (ht : ∀ t, t.sub = n ∨ t.obj = n → a.touch t)
    {k : Except SErr Unit → Prog Db α} (hk : ∀ r x, (fitRG c Own).Safe (k r) a x) (x : Db × (Bytes → Prop)) :
    (fitRG c Own).Safe ((removeNode n).bind k) a x := by
  rw [removeNode_eq]
  intro d1 X1 _ hi1 hL1
  refine ⟨a, X1, fit_drop (N := fun _ => False) hL1 hi1 (fun _ _ _ => id) (.refl d1), ?_⟩
  dsimp only
  cases forwardBatch Id ⟨[], [], [], []⟩ (d1.spo.rangeArr (keyBounds1 n)) with
  | error e => exact hk _ _
  | ok fb =>
    intro d2 X2 _ hi2 hL2
    refine ⟨a, X2, fit_drop (N := fun _ => False) hL2 hi2 (fun _ _ _ => id) (.refl d2), ?_⟩
    refine fit_scanned hown (fun t v h => ?_) (fun t v h => ?_) hk _
    · obtain ⟨h1, h2⟩ := (scan_spo n t v).1 h
      exact ⟨ht t (.inl h2), hi1.neat.refs .SPO _ _ h1⟩
    · obtain ⟨h1, h2⟩ := (scan_osp n t v).1 h
      exact ⟨ht t (.inr h2), hi2.neat.refs .OSP _ _ h1⟩

theorem only_touch {d d' : Db} {t : Triple Id} (h : Only Own (· = t) N d d') (ht : a.touch t) : Only Own a.touch N d d' :=
  ⟨fun o u hu => h.ids o u (by rintro rfl; exact hu ht), fun v u hu => h.recs v u (by rintro rfl; exact hu ht), h.nodes⟩

theorem fit_removeEdge (hown : ∀ v t u, Own v t → Own v u → t = u) {t : Triple Id} (htt : a.touch t)
    {k : Except SErr Unit → Prog Db α} (hk : ∀ r x, (fitRG c Own).Safe (k r) a x) (x : Db × (Bytes → Prop)) :
    (fitRG c Own).Safe ((removeEdge t).bind k) a x := by
  intro d X _ hi hL
  obtain ⟨h1, h2⟩ := neat_removed (N := fun _ => False) hown hi.neat t
  have gone : ∀ o, (removed d t).idIn o t = none := fun o => by rw [removed, unsetEdge_idIn, if_pos rfl]
  have hid : ∀ o (u : Triple Id) v, (removed d t).idIn o u = some v → d.idIn o u = some v ∧ u ≠ t := by
    intro o u v hv
    by_cases e : u = t
    · subst e; rw [gone] at hv; cases hv
    · rw [h2.ids o u e] at hv; exact ⟨hv, e⟩
  refine ⟨a, X, fit_drop hL ⟨h1, fun o u v hv => ?_⟩ (fun o u v hv => (hid o u v hv).1) (only_touch h2 htt), ?_⟩
  · obtain ⟨y1, y2⟩ := hid o u v hv
    have := h2.recs v u y2 (h1.refs o u v hv)
    refine ⟨(hi.refs o u v y1).1, ?_⟩
    show ∃ b, (removed d t).edgeProps.get v = some b
    rw [this]
    exact (hi.refs o u v y1).2
  -- the removals outside the transaction
  have part : ∀ (o' : EdgeOrder) (d d' : Db) (X : Bytes → Prop), Fit c Own d X → d'.edgeProps = d.edgeProps →
      d'.nodeProps = d.nodeProps →
      (∀ o, d'.tree o = if o = o' then (d.tree o).erase (encOf o t).1 else d.tree o) →
      Fit c Own d' X ∧ Only Own a.touch (fun _ => False) d d' ∧
        (∀ o (u : Triple Id) v, d'.idIn o u = some v → d.idIn o u = some v) ∧ d'.idIn o' t = none := by
    intro o' d d' X h he hn ht
    obtain ⟨h1, h2⟩ := neat_unset (N := fun _ => False) h.neat o' t he hn ht
    have hg : ∀ o (u : Triple Id) v, d'.idIn o u = some v → d.idIn o u = some v := by
      intro o u v hk
      unfold Db.idIn at hk ⊢
      rw [ht] at hk
      split at hk
      · rename_i e
        subst e
        exact get_erase_some hk
      · exact hk
    refine ⟨⟨h1, fun o u v hv => by rw [he]; exact h.refs o u v (hg o u v hv)⟩, only_touch h2 htt, hg, ?_⟩
    unfold Db.idIn
    rw [ht, if_pos rfl, BMap.get_erase_self]
  intro d1 X1 _ hi1 hL1
  obtain ⟨p1, w1, q1, r1⟩ := part .SPO d1 { d1 with spo := d1.spo.erase (encodeSpo t).1 } X1 hi1 rfl rfl
    (fun o => by cases o <;> rfl)
  refine ⟨a, X1, fit_drop hL1 p1 q1 w1, ?_⟩
  intro d2 X2 hr2 hi2 hL2
  obtain ⟨p2, w2, q2, r2⟩ := part .POS d2 { d2 with pos := d2.pos.erase (encodePos t).1 } X2 hi2 rfl rfl
    (fun o => by cases o <;> rfl)
  refine ⟨a, X2, fit_drop hL2 p2 q2 w2, ?_⟩
  intro d3 X3 hr3 hi3 hL3
  obtain ⟨p3, w3, q3, r3⟩ := part .OSP d3 { d3 with osp := d3.osp.erase (encodeOsp t).1 } X3 hi3 rfl rfl
    (fun o => by cases o <;> rfl)
  refine ⟨a, X3, fit_drop hL3 p3 q3 w3, ?_⟩
  dsimp only
  cases ht : d1.spo.get (encodeSpo t).1 with
  | none => exact hk _ _
  | some i =>
    -- nobody refers to `i` any more
    have o1 : Own i t := hi1.neat.refs .SPO t i ht
    have x1 := (hi1.refs .SPO t i ht).1
    have mine : ∀ u, Own i u → a.touch u := fun u hu => by rw [hown i u t hu o1]; exact htt
    have only : ∀ {d : Db} {X : Bytes → Prop} {o : EdgeOrder}, Fit c Own d X → d.idIn o t = none →
        ∀ u : Triple Id, d.idIn o u ≠ some i := by
      intro d X o h hn u hu
      rw [hown i u t (h.neat.refs o u i hu) o1, hn] at hu
      cases hu
    have n2 : ∀ u : Triple Id, d2.idIn .SPO u ≠ some i := hr2.2.1 .SPO i x1 mine (only p1 r1)
    have x2 : X2 i := hr2.1 i x1
    have n3 : ∀ u : Triple Id, d3.idIn .SPO u ≠ some i := hr3.2.1 .SPO i x2 mine (fun u hu => n2 u (q2 .SPO u i hu))
    have n3' : ∀ u : Triple Id, d3.idIn .POS u ≠ some i := hr3.2.1 .POS i x2 mine (only p2 r2)
    have x3 : X3 i := hr3.1 i x2
    intro d4 X4 hr4 hi4 hL4
    have n4 : ∀ o (u : Triple Id), d4.idIn o u ≠ some i := by
      intro o
      cases o
      · exact hr4.2.1 .SPO i x3 mine (fun u hu => n3 u (q3 .SPO u i hu))
      · exact hr4.2.1 .POS i x3 mine (fun u hu => n3' u (q3 .POS u i hu))
      · exact hr4.2.1 .OSP i x3 mine (only p3 r3)
    obtain ⟨h1, h2⟩ := neat_erase (N := fun _ => False) hown hi4.neat o1
    refine ⟨a, X4, fit_drop hL4 ⟨h1, fun o u v hv => ?_⟩ (fun o u v hv => ?_) (only_touch h2 htt), hk _ _⟩
    · rw [withProps_idIn] at hv
      obtain ⟨y1, y2⟩ := hi4.refs o u v hv
      refine ⟨y1, ?_⟩
      show ∃ b, (d4.edgeProps.erase i).get v = some b
      rw [BMap.get_erase, if_neg]
      · exact y2
      · rintro rfl; exact n4 o u hv
    · rw [withProps_idIn] at hv
      exact hv

/-- a call of extend that writes the id into one ordering, the record being there -/
theorem fit_put {L : List Bytes} {d d' : Db} {X X' : Bytes → Prop} {i b : Bytes} {t : Triple Id} (o' : EdgeOrder) (hi : Fit c Own d X)
    (hsub : ∀ v ∈ L, v ∈ a.ids) (hX : ∀ v, X v → X' v) (hXi : X' i) (hX' : ∀ v, X' v → X v ∨ v = i)
    (hL : ∀ v ∈ L, ¬ X' v) (hia : X i ∨ i ∈ a.ids) (hm : a.mine t) (ht : a.touch t) (hot : Own i t)
    (hb : d.edgeProps.get i = some b) (he : d'.edgeProps = d.edgeProps) (hn : d'.nodeProps = d.nodeProps)
    (htr : ∀ o, d'.tree o = if o = o' then (d.tree o).insert (encOf o t).1 i else d.tree o) :
    (fitRG c Own).Allowed a d X d' (a.to L) X' := by
  obtain ⟨h1, h2⟩ := neat_set (N := fun _ => False) hi.neat o' t hot he hn htr
  have hid : ∀ o (u : Triple Id) v, d'.idIn o u = some v → d.idIn o u = some v ∨ v = i ∧ u = t := by
    intro o u v hv
    by_cases e : u = t
    · subst e
      unfold Db.idIn at hv ⊢
      rw [htr] at hv
      split at hv
      · rename_i e
        subst e
        rw [BMap.get_insert_self] at hv
        cases hv
        exact .inr ⟨rfl, rfl⟩
      · exact .inl hv
    · rw [h2.ids o u e] at hv
      exact .inl hv
  have okM : ∀ b : Label Id, (∀ v ∈ a.ids, v ∉ b.ids) → (∀ v ∈ b.ids, ¬ X v) → ∀ v ∈ b.ids, ¬ X' v := by
    intro b hp hM v hv hx
    rcases hX' v hx with h | rfl
    · exact hM v hv h
    · rcases hia with h | h
      · exact hM v hv h
      · exact hp v h hv
  refine ⟨⟨hsub, rfl, rfl⟩, ⟨h1, fun o u v hv => ?_⟩, hL, fun M hp hM => ⟨⟨hX,
    fun o v hv hM' hn u hu => ?_, fun u hu => ?_⟩, okM M hp.1 hM⟩, fun M hp hM => okM M hp hM⟩
  · rw [he]
    rcases hid o u v hv with h | ⟨rfl, -⟩
    · exact ⟨hX v (hi.refs o u v h).1, (hi.refs o u v h).2⟩
    · exact ⟨hXi, b, hb⟩
  · rcases hid o u v hu with h | ⟨rfl, rfl⟩
    · exact hn u h
    · exact (hp.2 u).1 hm (hM' u hot)
  · have e : u ≠ t := by rintro rfl; exact (hp.2 u).2 hu ht
    exact ⟨fun o => h2.ids o u e, fun v hv => h2.recs v u e hv⟩

theorem fit_extendItem (hown : ∀ v t u, Own v t → Own v u → t = u) {L : List Bytes} {t : Triple Id} {i b : Bytes} {p : EP}
    (ha : a.ids = i :: L) (hnd : i ∉ L) (hi : Own i t) (hm : a.mine t) (ht : a.touch t) (hb : c.e.de b = some p)
    {k : Prog Db α} (hk : ∀ x, (fitRG c Own).Safe k (a.to L) x) (x : Db × (Bytes → Prop)) :
    (fitRG c Own).Safe
      (.call (fun d => { d with edgeProps := d.edgeProps.insert i b }) (fun _ =>
        .call (fun d => { d with spo := d.spo.insert (encodeSpo t).1 i }) (fun d1 =>
          .call (fun d => { d with pos := d.pos.insert (encodePos t).1 i }) (fun _ =>
            .call (fun d => { d with osp := d.osp.insert (encodeOsp t).1 i }) (fun _ =>
              match d1.spo.get (encodeSpo t).1 with
              | some o => .call (fun d => { d with edgeProps := d.edgeProps.erase o }) (fun _ => k)
              | none => k))))) a x := by
  have ia : i ∈ a.ids := by rw [ha]; exact List.mem_cons_self
  have La : ∀ v ∈ L, v ∈ a.ids := fun v hv => by rw [ha]; exact List.mem_cons_of_mem _ hv
  intro d X _ h hL
  obtain ⟨h1, h2⟩ := neat_rec (N := fun _ => False) hown h.neat hi hb
  refine ⟨a, X, fit_drop hL ⟨h1, fun o u v hv => ?_⟩ (fun o u v hv => by rwa [withProps_idIn] at hv) (only_touch h2 ht), ?_⟩
  · rw [withProps_idIn] at hv
    obtain ⟨y1, y2⟩ := h.refs o u v hv
    refine ⟨y1, ?_⟩
    show ∃ b', (d.edgeProps.insert i b).get v = some b'
    rw [BMap.get_insert, if_neg (by rintro rfl; exact hL v ia y1)]
    exact y2
  intro d1 X1 hr1 hi1 hL1
  have r1 : d1.edgeProps.get i = some b := ((hr1.2.2 t hm).2 i hi).trans (BMap.get_insert_self _ _ _)
  refine ⟨a.to L, fun v => X1 v ∨ v = i, fit_put .SPO hi1 La (fun _ => .inl) (.inr rfl) (fun _ => id) ?_ (.inr ia) hm ht hi r1
    rfl rfl (fun o => by cases o <;> rfl), ?_⟩
  · rintro v hv (hx | rfl)
    · exact hL1 v (La v hv) hx
    · exact hnd hv
  intro d2 X2 hr2 hi2 hL2
  have x2 : X2 i := hr2.1 i (.inr rfl)
  have r2 : d2.edgeProps.get i = some b := ((hr2.2.2 t hm).2 i hi).trans r1
  have s2 : d2.idIn .SPO t = some i := ((hr2.2.2 t hm).1 .SPO).trans (BMap.get_insert_self _ _ _)
  refine ⟨a.to L, X2, fit_put .POS hi2 (fun _ => id) (fun _ => id) x2 (fun _ => .inl) hL2 (.inl x2) hm ht hi r2
    rfl rfl (fun o => by cases o <;> rfl), ?_⟩
  intro d3 X3 hr3 hi3 hL3
  have x3 : X3 i := hr3.1 i x2
  have r3 : d3.edgeProps.get i = some b := ((hr3.2.2 t hm).2 i hi).trans r2
  have s3 : d3.idIn .SPO t = some i := ((hr3.2.2 t hm).1 .SPO).trans s2
  have p3 : d3.idIn .POS t = some i := ((hr3.2.2 t hm).1 .POS).trans (BMap.get_insert_self _ _ _)
  refine ⟨a.to L, X3, fit_put .OSP hi3 (fun _ => id) (fun _ => id) x3 (fun _ => .inl) hL3 (.inl x3) hm ht hi r3
    rfl rfl (fun o => by cases o <;> rfl), ?_⟩
  dsimp only
  cases hw : d1.spo.get (encodeSpo t).1 with
  | none => exact hk _
  | some w =>
    have ow : Own w t := hi1.neat.refs .SPO t w hw
    have wi : w ≠ i := by
      rintro rfl
      exact hL1 w ia (hi1.refs .SPO t w hw).1
    intro d4 X4 hr4 hi4 hL4
    have s4 : ∀ o, d4.idIn o t = some i := by
      intro o
      refine ((hr4.2.2 t hm).1 o).trans ?_
      cases o
      · exact s3
      · exact p3
      · exact BMap.get_insert_self _ _ _
    obtain ⟨h1, h2⟩ := neat_erase (N := fun _ => False) hown hi4.neat ow
    refine ⟨a.to L, X4, fit_drop (a := a.to L) hL4 ⟨h1, fun o u v hv => ?_⟩ (fun o u v hv => ?_) (only_touch h2 ht), hk _⟩
    · rw [withProps_idIn] at hv
      obtain ⟨y1, y2⟩ := hi4.refs o u v hv
      refine ⟨y1, ?_⟩
      show ∃ b, (d4.edgeProps.erase w).get v = some b
      rw [BMap.get_erase, if_neg]
      · exact y2
      · rintro rfl
        have e := hown v u t (hi4.neat.refs o u v hv) ow
        subst e
        rw [s4] at hv
        exact wi (Option.some.inj hv).symm
    · rw [withProps_idIn] at hv
      exact hv

theorem fit_mergeEdges (hc : c.RoundTrip) (hown : ∀ v t u, Own v t → Own v u → t = u) {mE : EP → EP → EP}
    {k : Gen Id × Except (LR SErr E) Unit → Prog Db β} (hk : ∀ r x, (fitRG c Own).Safe (k r) (a.to []) x)
    (l : List (Except E (Triple Id × EP))) (g : Gen Id)
    (hn : ((Call.drawnFor g l).map Prod.fst).Nodup) (ho : ∀ y ∈ Call.drawnFor g l, Own y.1 y.2)
    (ht : ∀ t, (∃ p, .ok (t, p) ∈ l) → a.touch t) (x : Db × (Bytes → Prop)) :
    (fitRG c Own).Safe ((mergeEdges c mE g l).bind k) (a.to ((Call.drawnFor g l).map Prod.fst)) x := by
  induction l generalizing g x with
  | nil => exact hk _ _
  | cons y l ih =>
    cases y with
    | error e => exact hk _ _
    | ok y =>
      rw [mergeEdges, bind_assoc]
      simp only [Call.drawnFor, List.map_cons] at hn ho ⊢
      refine fit_mergeEdge (a := a.to _) (L := (Call.drawnFor (Gen.fresh g).2 l).map Prod.fst) hc hown rfl
        (List.nodup_cons.1 hn).1 (ho _ List.mem_cons_self) (ht _ ⟨y.2, List.mem_cons_self⟩) (fun r x => ?_) x
      cases r with
      | error e => exact fit_weaken (a := a.to _) (L := []) (hk _ _) (fun v hv => by cases hv)
      | ok u =>
        exact ih _ (List.nodup_cons.1 hn).2 (fun z hz => ho z (List.mem_cons_of_mem _ hz))
          (fun t ⟨p, hp⟩ => ht t ⟨p, List.mem_cons_of_mem _ hp⟩) x

theorem fit_extendEdges (hc : c.RoundTrip) (hown : ∀ v t u, Own v t → Own v u → t = u)
    {k : Gen Ulid × Except (LR SErr E) Unit → Prog Db β} (hk : ∀ r x, (fitRG c Own).Safe (k r) (a.to []) x)
    (l : List (Except E (Triple Id × EP))) (g : Gen Ulid)
    (hn : ((Call.drawnFor g l).map Prod.fst).Nodup) (ho : ∀ y ∈ Call.drawnFor g l, Own y.1 y.2)
    (ht : ∀ t, (∃ p, .ok (t, p) ∈ l) → a.touch t ∧ a.mine t) (x : Db × (Bytes → Prop)) :
    (fitRG c Own).Safe ((extendEdges c g l).bind k) (a.to ((Call.drawnFor g l).map Prod.fst)) x := by
  induction l generalizing g x with
  | nil => exact hk _ _
  | cons y l ih =>
    cases y with
    | error e => exact hk _ _
    | ok y =>
      rw [extendEdges]
      cases hb : c.e.ser y.2 with
      | none => exact fit_weaken (a := a.to _) (L := []) (hk _ _) (fun v hv => by cases hv)
      | some b =>
        simp only [Call.drawnFor, List.map_cons] at hn ho ⊢
        have h := fit_extendItem (a := a.to ((toBeBytes (Gen.fresh g).1).1 :: (Call.drawnFor (Gen.fresh g).2 l).map Prod.fst))
          (L := (Call.drawnFor (Gen.fresh g).2 l).map Prod.fst) (k := (extendEdges c (Gen.fresh g).2 l).bind k)
          hown rfl (List.nodup_cons.1 hn).1 (ho _ List.mem_cons_self) (ht _ ⟨y.2, List.mem_cons_self⟩).2
          (ht _ ⟨y.2, List.mem_cons_self⟩).1 (hc.2 _ _ hb) (ih _ (List.nodup_cons.1 hn).2 (fun z hz => ho z (List.mem_cons_of_mem _ hz))
          (fun t ⟨p, hp⟩ => ht t ⟨p, List.mem_cons_of_mem _ hp⟩)) x
        refine cast ?_ h
        congr 1
        simp only [Prog.bind]
        congr 1
        funext _
        congr 1
        funext d1
        congr 1
        funext _
        congr 1
        funext _
        cases d1.spo.get (encodeSpo y.1).1 <;> rfl

/-- the edges a call must be alone on -/
def Call.Mine (x : Call E Id NP EP) (t : Triple Id) : Prop := x.IsExtend ∧ x.TouchesEdge t

def Call.label (x : Call E Id NP EP) : Label Id := ⟨x.writes.map Prod.fst, fun t => x.TouchesEdge t, x.Mine⟩

theorem fit_ret {x : Db × (Bytes → Prop)} {r : α} : (fitRG c Own).Safe (.ret r : Prog Db α) a x := trivial

theorem fit_prog (hc : c.RoundTrip) (hown : ∀ v t u, Own v t → Own v u → t = u) (mN : NP → NP → NP)
    (mE : EP → EP → EP) (x : Call E Id NP EP)
    (hn : (x.writes.map Prod.fst).Nodup) (ho : ∀ y ∈ x.writes, Own y.1 y.2) (hs : x.Scanned Own) (y : Db × (Bytes → Prop)) :
    (fitRG c Own).Safe (x.prog c mN mE) x.label y := by
  cases x with
  | insertNode n p => exact fit_nodes (within_insertNode (T := fun _ : Triple Id => False) hc n p) (fun _ _ _ => fit_ret) y
  | insertEdge i t p =>
    exact fit_insertEdge (L := []) hc hown rfl (by simp) (ho ((toBeBytes i).1, t) (by simp [Call.writes])) rfl (fun _ _ => fit_ret) y
  | removeNode n => exact fit_removeNode hown (fun t h => h) (fun _ _ => fit_ret) y
  | removeNodeScan n fwd bwd =>
    exact fit_scanned (a := (Call.removeNodeScan n fwd bwd : Call E Id NP EP).label) hown (fun t v h => ⟨Or.inl (hs.1 t v h).1, (hs.1 t v h).2⟩)
      (fun t v h => ⟨Or.inr (hs.2.1 t v h).1, (hs.2.1 t v h).2⟩) (fun _ _ => fit_ret) y
  | removeEdge t => exact fit_removeEdge hown rfl (fun _ _ => fit_ret) y
  | mergeNode n p => exact fit_nodes (within_mergeNode (T := fun _ : Triple Id => False) hc mN n p) (fun _ _ _ => fit_ret) y
  | mergeEdge i t p =>
    exact fit_mergeEdge (L := []) hc hown rfl (by simp) (ho ((toBeBytes i).1, t) (by simp [Call.writes])) rfl (fun _ _ => fit_ret) y
  | extend u src =>
    show (fitRG c Own).Safe ((Sled.extend c u src).bind _) _ y
    unfold Sled.extend
    rw [extendNodes_bind, bind_assoc]
    refine fit_nodes (within_extendNodes (T := fun _ : Triple Id => False) hc src.nodes) (fun r _ z => ?_) y
    cases r with
    | error e => exact fit_ret
    | ok _ =>
      exact fit_extendEdges (a := (Call.extend u src : Call E Id NP EP).label) hc hown (fun _ _ => fit_ret) src.edges u hn ho
        (fun t h => ⟨h, trivial, h⟩) z
  | merge g src =>
    show (fitRG c Own).Safe ((Sled.merge c mN mE g src).bind _) _ y
    unfold Sled.merge
    rw [mergeNodes_bind, bind_assoc]
    refine fit_nodes (within_mergeNodes (T := fun _ : Triple Id => False) hc mN src.nodes) (fun r _ z => ?_) y
    cases r with
    | error e => exact fit_ret
    | ok _ =>
      exact fit_mergeEdges (a := (Call.merge g src : Call E Id NP EP).label) hc hown (fun _ _ => fit_ret) src.edges g hn ho
        (fun t h => h) z

variable {d0 : Db} {threads : List (List (Call E Id NP EP))} {mN : NP → NP → NP} {mE : EP → EP → EP}

theorem fit_moment (hc : c.RoundTrip) (h0 : d0.Inv Id c) (hd : DistinctIds d0 threads) (hs : ScansOf d0 threads)
    (ha : ExtendsAlone threads) {d : Db} (hm : Moment c mN mE d0 threads d) :
    ∃ X, Fit c (owner d0 (allWrites threads)) d X := by
  obtain ⟨rest, hst⟩ := hm
  have hown := owner_fun h0 hd.1 hd.2
  have h := (fitRG c (owner d0 (allWrites threads))).good_steps (x := start c mN mE d0 threads)
    ⟨fun v => ∃ t : Triple Id, d0.idIn .SPO t = some v,
      threads.map (fun th => th.map (fun x => (x.prog c mN mE, x.label))), ?_, ⟨neat_start h0 hd, ?_⟩, ?_, ?_⟩ hst
  · obtain ⟨X, _, _, h, _⟩ := h
    exact ⟨X, h⟩
  · simp [start, Function.comp_def]
  · intro o t v hv
    have hv : d0.idIn o t = some v := hv
    rw [h0.same] at hv
    obtain ⟨b, p, h1, -⟩ := h0.recs _ _ hv
    exact ⟨⟨t, hv⟩, b, h1⟩
  · have nd : ∀ th ∈ threads, th.Pairwise (fun x y => ∀ v ∈ x.writes.map Prod.fst, v ∉ y.writes.map Prod.fst) ∧
        ∀ x ∈ th, (x.writes.map Prod.fst).Nodup := by
      intro th hth
      have h1 := hd.1
      unfold allWrites at h1
      rw [List.map_flatMap, List.nodup_flatMap] at h1
      refine ⟨?_, fun x hx => h1.1 x (List.mem_flatten.2 ⟨th, hth, hx⟩)⟩
      have h2 := (List.pairwise_flatten.1 h1.2).1 th hth
      exact h2.imp (fun {a b} hab => fun v hv hv' => hab hv hv')
    intro q hq
    obtain ⟨th, hth, rfl⟩ := List.mem_map.1 hq
    have safe : ∀ x ∈ th, ∀ y, (fitRG c (owner d0 (allWrites threads))).Safe (x.prog c mN mE) x.label y := fun x hx y =>
      fit_prog hc hown mN mE x ((nd th hth).2 x hx) (writes_owned th hth x hx) (scans_owned h0 hs th hth x hx) y
    have unused : ∀ x ∈ th, ∀ v ∈ x.label.ids, ¬ ∃ t : Triple Id, d0.idIn .SPO t = some v := by
      rintro x hx v hv ⟨t, ht⟩
      obtain ⟨y, hy, rfl⟩ := List.mem_map.1 hv
      obtain ⟨b, p, hb, -⟩ := h0.recs _ _ ht
      rw [hd.2 y (List.mem_flatMap.2 ⟨x, List.mem_flatten.2 ⟨th, hth, hx⟩, hy⟩)] at hb
      cases hb
    have np := (nd th hth).1
    clear hq hth
    cases th with
    | nil => trivial
    | cons x th =>
      refine ⟨safe x (by simp) _, ?_, ?_, ?_⟩
      · intro e he y
        obtain ⟨z, hz, rfl⟩ := List.mem_map.1 he
        exact safe z (List.mem_cons_of_mem _ hz) y
      · rw [← List.map_cons (f := fun x : Call E Id NP EP => (x.prog c mN mE, x.label)), List.pairwise_map]
        exact np
      · intro e he
        rw [← List.map_cons (f := fun x : Call E Id NP EP => (x.prog c mN mE, x.label))] at he
        obtain ⟨z, hz, rfl⟩ := List.mem_map.1 he
        exact unused z hz
  · rw [List.pairwise_map]
    have h1 := hd.1
    unfold allWrites at h1
    rw [List.map_flatMap, List.nodup_flatMap] at h1
    have h2 := (List.pairwise_flatten.1 h1.2).2
    refine (h2.and ha).imp (fun {th th'} h => ?_)
    intro e he e' he'
    obtain ⟨x, hx, rfl⟩ := List.mem_map.1 he
    obtain ⟨x', hx', rfl⟩ := List.mem_map.1 he'
    have hal := h.2 x hx x' hx'
    refine ⟨⟨fun v hv hv' => h.1 x hx x' hx' hv hv', fun t => ⟨fun h1 h2 => ?_, fun h1 h2 => ?_⟩⟩,
      ⟨fun v hv hv' => h.1 x hx x' hx' hv' hv, fun t => ⟨fun h1 h2 => ?_, fun h1 h2 => ?_⟩⟩⟩
    · exact hal (.inl h1.1) t ⟨h1.2, h2⟩
    · exact hal (.inr h1.1) t ⟨h2, h1.2⟩
    · exact hal (.inr h1.1) t ⟨h2, h1.2⟩
    · exact hal (.inl h1.1) t ⟨h1.2, h2⟩

theorem Fit.recsOk {d : Db} {X : Bytes → Prop} (h : Fit c Own d X) (o : EdgeOrder) : RecsOk c o d := by
  intro k v hk
  obtain ⟨t, rfl⟩ := h.neat.keys o k v hk
  obtain ⟨-, b, hb⟩ := h.refs o t v hk
  obtain ⟨p, hp⟩ := h.neat.recs v t b (h.neat.refs o t v hk) hb
  exact ⟨b, p, hb, hp⟩

end Sled

end Verif
