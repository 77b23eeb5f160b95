import Verif.Proof.SledConc

/-! # Concurrent calls: the records of the edges -/

set_option linter.unusedSectionVars false

namespace Verif

open Spec ConcreteId

variable {Id NP EP E : Type} [LinearOrder Id] [ConcreteId Id] [LawfulId Id]

namespace Sled

open Db

/-- Every entry of an ordering is well-formed; its id was drawn for that triple (`Own`) and is known to be used (`X`); the
record exists. -/
structure Sound (c : Codecs NP EP) (Own : Bytes → Triple Id → Prop) (d : Db) (X : Bytes → Prop) : Prop where
  keys : ∀ o, KeysOk Id o d
  nodes : NodesOk Id c d
  refs : ∀ (o : EdgeOrder) (t : Triple Id) (v : Bytes), d.idIn o t = some v → X v ∧ Own v t ∧
    ∃ b p, d.edgeProps.get v = some b ∧ c.e.de b = some p

/-- The ids in the label are those to be used yet. -/
def soundRG (c : Codecs NP EP) (Own : Bytes → Triple Id → Prop) : RG Db (Bytes → Prop) (List Bytes) where
  inv := Sound c Own
  rely _ x y := (∀ v, x.2 v → y.2 v) ∧ ∀ o v, x.2 v → (∀ t : Triple Id, x.1.idIn o t ≠ some v) →
    ∀ t : Triple Id, y.1.idIn o t ≠ some v
  ok L X := ∀ v ∈ L, ¬ X v
  par L M := ∀ v ∈ L, v ∉ M
  seq L M := ∀ v ∈ L, v ∉ M
  le L M := ∀ v ∈ L, v ∈ M
  rely_refl _ _ := ⟨fun _ => id, fun _ _ _ => id⟩
  rely_trans _ _ _ _ h h' := ⟨fun v hv => h'.1 v (h.1 v hv), fun o v hv hn => h'.2 o v (h.1 v hv) (h.2 o v hv hn)⟩
  le_trans _ _ _ h h' v hv := h' v (h v hv)
  par_le _ _ _ h := ⟨fun hp v hv => hp v (h v hv), fun hp v hv hv' => hp v hv (h v hv')⟩
  seq_le _ _ _ h hp v hv := hp v (h v hv)

variable {c : Codecs NP EP} {Own : Bytes → Triple Id → Prop} {α : Type}

/-- a call that draws no id -/
theorem allowed_drop {L : List Bytes} {d d' : Db} {X : Bytes → Prop} (hL : ∀ v ∈ L, ¬ X v) (h : Sound c Own d' X)
    (hid : ∀ o (t : Triple Id) v, d'.idIn o t = some v → d.idIn o t = some v) :
    (soundRG c Own).Allowed L d X d' L X :=
  ⟨fun _ => id, h, hL, fun b _ hb => ⟨⟨fun _ => id, fun o v _ hn t ht => hn t (hid o t v ht)⟩, hb⟩, fun _ _ => id⟩

theorem Sound.of_same {d d' : Db} {X : Bytes → Prop} (h : Sound c Own d X) (ht : ∀ o, d'.tree o = d.tree o)
    (he : d'.edgeProps = d.edgeProps) (hn : NodesOk Id c d') : Sound c Own d' X where
  keys o k v hk := h.keys o k v (by rw [← ht]; exact hk)
  nodes := hn
  refs o t v hv := by rw [he]; exact h.refs o t v (by unfold Db.idIn at hv ⊢; rw [← ht]; exact hv)

theorem nodes_insert {d d' : Db} (h : NodesOk Id c d) {n : Id} {b : Bytes} {p : NP} (hb : c.n.de b = some p)
    (hd : d'.nodeProps = d.nodeProps.insert (toBeBytes n).1 b) : NodesOk Id c d' := by
  intro k b' hk
  rw [hd, BMap.get_insert] at hk
  split at hk
  · cases hk; exact ⟨⟨n, by assumption⟩, p, hb⟩
  · exact h k b' hk

/-- a call that touches neither edges nor records -/
theorem safe2_call {L : List Bytes} {f : Db → Db} {k : Db → Prog Db α}
    (hf : ∀ d X, Sound c Own d X → (∀ o, (f d).tree o = d.tree o) ∧ (f d).edgeProps = d.edgeProps ∧ NodesOk Id c (f d))
    (hk : ∀ d x, (soundRG c Own).Safe (k d) L x) (x : Db × (Bytes → Prop)) :
    (soundRG c Own).Safe (.call f k) L x := by
  intro d X _ hi hL
  obtain ⟨h1, h2, h3⟩ := hf d X hi
  refine ⟨L, X, allowed_drop hL (hi.of_same h1 h2 h3) (fun o t v hv => ?_), hk d _⟩
  unfold Db.idIn at hv ⊢; rw [← h1]; exact hv

/-- writing an edge under a new id `i`, with the record of at most the old id removed -/
theorem allowed_set (hown : ∀ v t u, Own v t → Own v u → t = u) {L : List Bytes} {d : Db} {X : Bytes → Prop}
    {i b : Bytes} {t : Triple Id} {p : EP} {m : Tree} (hi : Sound c Own d X) (hL : ∀ v ∈ i :: L, ¬ X v)
    (hnd : i ∉ L) (hot : Own i t) (hb : c.e.de b = some p)
    (hm : ∀ v, v ≠ i → ¬ Own v t → m.get v = d.edgeProps.get v) (hmi : m.get i = some b) :
    (soundRG c Own).Allowed (i :: L) d X ({ d with edgeProps := m }.setEdge t i) L (fun v => X v ∨ v = i) := by
  have hid : ∀ o (u : Triple Id), ({ d with edgeProps := m }.setEdge t i).idIn o u = if u = t then some i else d.idIn o u := by
    intro o u; rw [setEdge_idIn, withProps_idIn]
  refine ⟨fun v hv => List.mem_cons_of_mem _ hv, ⟨?_, ?_, ?_⟩, ?_, ?_, ?_⟩
  · intro o k v hk
    rw [setEdge_tree, withProps_tree, BMap.get_insert] at hk
    split at hk
    · exact ⟨t, by assumption⟩
    · exact hi.keys o k v hk
  · exact hi.nodes
  · intro o u v hv
    rw [hid] at hv
    split at hv
    · rename_i e
      subst e
      cases hv
      exact ⟨.inr rfl, hot, b, p, hmi, hb⟩
    · rename_i e
      obtain ⟨h1, h2, h3⟩ := hi.refs o u v hv
      refine ⟨.inl h1, h2, ?_⟩
      rw [setEdge_edgeProps]
      show ∃ b p, m.get v = some b ∧ _
      rw [hm v (fun hvi => hL i (by simp) (hvi ▸ h1)) (fun ho => e (hown v u t h2 ho))]
      exact h3
  · rintro v hv (hx | rfl)
    · exact hL v (List.mem_cons_of_mem _ hv) hx
    · exact hnd hv
  · intro M hp hM
    refine ⟨⟨fun v => .inl, fun o v hv hn u hu => ?_⟩, ?_⟩
    · rw [hid] at hu
      split at hu
      · cases hu; exact hL _ (List.mem_cons_self) hv
      · exact hn u hu
    · rintro v hv (hx | rfl)
      · exact hM v hv hx
      · exact hp v (by simp) hv
  · intro M hp hM
    rintro v hv (hx | rfl)
    · exact hM v hv hx
    · exact hp v (by simp) hv

/-- removing edges and, at the same time, records -/
theorem sound_drop (hown : ∀ v t u, Own v t → Own v u → t = u) {d d' : Db} {X : Bytes → Prop} (h : Sound c Own d X)
    (T : Triple Id → Prop) [DecidablePred T]
    (hk : ∀ o k v, (d'.tree o).get k = some v → (d.tree o).get k = some v)
    (hid : ∀ o (t : Triple Id), d'.idIn o t = if T t then none else d.idIn o t)
    (hm : ∀ v, (∀ t, Own v t → ¬ T t) → d'.edgeProps.get v = d.edgeProps.get v) (hn : NodesOk Id c d') :
    Sound c Own d' X where
  keys o k v hkv := h.keys o k v (hk o k v hkv)
  nodes := hn
  refs o t v hv := by
    rw [hid] at hv
    split at hv
    · cases hv
    · rename_i ht
      obtain ⟨h1, h2, h3⟩ := h.refs o t v hv
      refine ⟨h1, h2, ?_⟩
      rw [hm v (fun u hu => by rw [hown v u t hu h2]; exact ht)]
      exact h3

theorem safe2_insertNode (hc : c.RoundTrip) {L : List Bytes} {n : Id} {p : NP} {k : Except SErr Unit → Prog Db α}
    (hk : ∀ r x, (soundRG c Own).Safe (k r) L x) (x : Db × (Bytes → Prop)) :
    (soundRG c Own).Safe ((Sled.insertNode c n p).bind k) L x := by
  unfold Sled.insertNode
  split
  · exact hk _ _
  · rename_i b hb
    refine safe2_call (f := fun d => { d with nodeProps := d.nodeProps.insert (toBeBytes n).1 b })
      (fun d X h => ⟨fun o => by cases o <;> rfl, rfl, ?_⟩) (fun d x => hk _ _) x
    exact nodes_insert (n := n) h.nodes (hc.1 _ _ hb) rfl

theorem safe2_mergeNode (hc : c.RoundTrip) {mN : NP → NP → NP} {L : List Bytes} {n : Id} {p : NP}
    {k : Except SErr Unit → Prog Db α}
    (hk : ∀ r x, (soundRG c Own).Safe (k r) L x) (x : Db × (Bytes → Prop)) :
    (soundRG c Own).Safe ((Sled.mergeNode c mN n p).bind k) L x := by
  obtain ⟨f, hf, he⟩ := mergeNode_commit c mN n p
  rw [hf, tx_bind]
  refine safe2_call (fun d X h => ?_) (fun d x => hk _ _) x
  rcases he d with e | ⟨b, q, hb, e⟩
  · rw [e]; exact ⟨fun _ => rfl, rfl, h.nodes⟩
  · rw [e]; exact ⟨fun o => by cases o <;> rfl, rfl, nodes_insert h.nodes (hc.1 _ _ hb) rfl⟩

theorem weaken {L M : List Bytes} {p : Prog Db α} {x : Db × (Bytes → Prop)} (h : (soundRG c Own).Safe p M x)
    (hL : ∀ v ∈ M, v ∈ L) : (soundRG c Own).Safe p L x := by
  induction p generalizing L M x with
  | ret => trivial
  | call f k ih =>
    intro d X hr hi hok
    obtain ⟨M', X', h1, h2⟩ := h d X hr hi (fun v hv => hok v (hL v hv))
    refine ⟨M', X', ⟨fun v hv => hL v (h1.1 v hv), h1.2.1, h1.2.2.1, fun b hp hb => ?_, fun b hp hb => ?_⟩, h2⟩
    · exact h1.2.2.2.1 b (fun v hv => hp v (hL v hv)) hb
    · exact h1.2.2.2.2 b (fun v hv => hp v (hL v hv)) hb

theorem safe2_insertEdge (hc : c.RoundTrip) (hown : ∀ v t u, Own v t → Own v u → t = u) {L : List Bytes} {i : Id}
    {t : Triple Id} {p : EP} {k : Except SErr Unit → Prog Db α} (hnd : (toBeBytes i).1 ∉ L) (hot : Own (toBeBytes i).1 t)
    (hk : ∀ r x, (soundRG c Own).Safe (k r) L x) (x : Db × (Bytes → Prop)) :
    (soundRG c Own).Safe ((Sled.insertEdge c i t p).bind k) ((toBeBytes i).1 :: L) x := by
  unfold Sled.insertEdge
  split
  · exact weaken (hk _ _) (fun v hv => List.mem_cons_of_mem _ hv)
  · rename_i b hb
    rw [tx_bind]
    intro d X _ hi hL
    refine ⟨L, fun v => X v ∨ v = (toBeBytes i).1, ?_, hk _ _⟩
    exact allowed_set (m := d.edgeProps.insert (toBeBytes i).1 b) hown hi hL hnd hot (hc.2 _ _ hb)
      (fun v hv _ => by rw [BMap.get_insert, if_neg hv]) (BMap.get_insert_self _ _ _)

theorem safe2_mergeEdge (hc : c.RoundTrip) (hown : ∀ v t u, Own v t → Own v u → t = u) {mE : EP → EP → EP} {L : List Bytes}
    {i : Id} {t : Triple Id} {p : EP} {k : Except SErr Unit → Prog Db α} (hnd : (toBeBytes i).1 ∉ L)
    (hot : Own (toBeBytes i).1 t) (hk : ∀ r x, (soundRG c Own).Safe (k r) L x) (x : Db × (Bytes → Prop)) :
    (soundRG c Own).Safe ((Sled.mergeEdge c mE i t p).bind k) ((toBeBytes i).1 :: L) x := by
  obtain ⟨f, hf, he⟩ := mergeEdge_commit c mE i t p
  rw [hf, tx_bind]
  intro d X _ hi hL
  rcases he d with e | ⟨b, q, hb, e⟩
  · refine ⟨(toBeBytes i).1 :: L, X, ?_, weaken (hk _ _) (fun v hv => List.mem_cons_of_mem _ hv)⟩
    rw [e]
    exact allowed_drop hL hi (fun _ _ _ => id)
  · refine ⟨L, fun v => X v ∨ v = (toBeBytes i).1, ?_, hk _ _⟩
    rw [e]
    refine allowed_set hown hi hL hnd hot (hc.2 _ _ hb) (fun v hv ho => ?_) (BMap.get_insert_self _ _ _)
    rw [BMap.get_insert, if_neg hv]
    split
    · rename_i o hto
      rw [BMap.get_erase, if_neg]
      rintro rfl
      exact ho (hi.refs _ _ _ hto).2.1
    · rfl

theorem sound_dropped (hown : ∀ v t u, Own v t → Own v u → t = u) {d : Db} {X : Bytes → Prop} (h : Sound c Own d X)
    (n : Id) {F B : List (Triple Id × Bytes)} (ho : ∀ x ∈ F ++ B, Own x.2 x.1) :
    Sound c Own (dropped n F B d) X := by
  refine sound_drop hown h (fun t => t ∈ (F ++ B).map Prod.fst) (fun o k v hk => ?_) (dropped_idIn n F B d)
    (fun v hv => ?_) ?_
  · rw [dropped_get] at hk
    split at hk
    · cases hk
    · exact hk
  · show (applyBatch (applyBatch d.edgeProps (F.map Prod.snd)) (B.map Prod.snd)).get v = _
    have key : ∀ x ∈ F ++ B, x.2 ≠ v := by
      rintro x hx rfl
      exact hv x.1 (ho x hx) (List.mem_map.2 ⟨x, hx, rfl⟩)
    rw [applyBatch_get, applyBatch_get, if_neg, if_neg]
    · intro hm
      obtain ⟨x, hx, e⟩ := List.mem_map.1 hm
      exact key x (List.mem_append_left _ hx) e
    · intro hm
      obtain ⟨x, hx, e⟩ := List.mem_map.1 hm
      exact key x (List.mem_append_right _ hx) e
  · intro k b hk
    have hk' : (d.nodeProps.erase (toBeBytes n).1).get k = some b := hk
    rw [BMap.get_erase] at hk'
    split at hk'
    · cases hk'
    · exact h.nodes k b hk'

theorem safe2_scanned (hown : ∀ v t u, Own v t → Own v u → t = u) {L : List Bytes} {n : Id}
    {fwd bwd : List (Bytes × Bytes)} {k : Except SErr Unit → Prog Db α}
    (hf : ∀ (t : Triple Id) v, ((encodeSpo t).1, v) ∈ fwd → Own v t) (hb : ∀ (t : Triple Id) v, ((encodeOsp t).1, v) ∈ bwd → Own v t)
    (hk : ∀ r x, (soundRG c Own).Safe (k r) L x) (x : Db × (Bytes → Prop)) :
    (soundRG c Own).Safe ((removeNodeScanned n fwd bwd).bind k) L x := by
  rcases removeNodeScanned_cases n fwd bwd with ⟨r, e⟩ | ⟨F, B, hF, hB, e⟩
  · rw [e]; exact hk _ _
  · rw [e, tx_bind]
    intro d X _ hi hL
    refine ⟨L, X, allowed_drop hL (sound_dropped hown hi n (F := F) (B := B) ?_) ?_, hk _ _⟩
    · rintro ⟨t, v⟩ hx
      rcases List.mem_append.1 hx with hx | hx
      · exact hf t v (by rw [hF]; exact List.mem_map.2 ⟨_, hx, rfl⟩)
      · exact hb t v (by rw [hB]; exact List.mem_map.2 ⟨_, hx, rfl⟩)
    · intro o t v hv
      have hv' : (dropped n F B d).idIn o t = some v := hv
      rw [dropped_idIn] at hv'
      split at hv'
      · cases hv'
      · exact hv'

theorem safe2_removeNode (hown : ∀ v t u, Own v t → Own v u → t = u) {L : List Bytes} {n : Id}
    {k : Except SErr Unit → Prog Db α} (hk : ∀ r x, (soundRG c Own).Safe (k r) L x) (x : Db × (Bytes → Prop)) :
    (soundRG c Own).Safe ((removeNode n).bind k) L x := by
  rw [removeNode_eq]
  intro d1 X1 _ hi1 hL1
  refine ⟨L, X1, allowed_drop hL1 hi1 (fun _ _ _ => id), ?_⟩
  dsimp only
  cases forwardBatch Id ⟨[], [], [], []⟩ (d1.spo.rangeArr (keyBounds1 n)) with
  | error e => exact hk _ _
  | ok fb =>
    intro d2 X2 _ hi2 hL2
    refine ⟨L, X2, allowed_drop hL2 hi2 (fun _ _ _ => id), ?_⟩
    refine safe2_scanned hown (fun t v ht => ?_) (fun t v ht => ?_) hk _
    · exact (hi1.refs .SPO t v (rangeArr_sub ht)).2.1
    · exact (hi2.refs .OSP t v (rangeArr_sub ht)).2.1

theorem safe2_removeEdge (hown : ∀ v t u, Own v t → Own v u → t = u) {L : List Bytes} {t : Triple Id}
    {k : Except SErr Unit → Prog Db α} (hk : ∀ r x, (soundRG c Own).Safe (k r) L x) (x : Db × (Bytes → Prop)) :
    (soundRG c Own).Safe ((removeEdge t).bind k) L x := by
  intro d X _ hi hL
  have hid0 : ∀ o (u : Triple Id), (removed d t).idIn o u = if u = t then none else d.idIn o u := by
    intro o u; rw [removed, unsetEdge_idIn, withProps_idIn]
  have s0 : Sound c Own (removed d t) X := by
    refine sound_drop hown hi (fun u => u = t) (fun o k v hk => ?_) hid0 (fun v hv => ?_) hi.nodes
    · rw [removed, unsetEdge_tree, withProps_tree, BMap.get_erase] at hk
      split at hk
      · cases hk
      · exact hk
    · show (match d.spo.get (encodeSpo t).1 with
        | some i => d.edgeProps.erase i
        | none => d.edgeProps).get v = _
      cases ht : d.spo.get (encodeSpo t).1 with
      | none => rfl
      | some i =>
        show (d.edgeProps.erase i).get v = _
        rw [BMap.get_erase, if_neg]
        rintro rfl
        exact hv t (hi.refs .SPO t v ht).2.1 rfl
  refine ⟨L, X, allowed_drop hL s0 (fun o u v hv => ?_), ?_⟩
  · have := hid0 o u
    have hv' : (removed d t).idIn o u = some v := hv
    rw [this] at hv'
    split at hv'
    · cases hv'
    · exact hv'
  -- the removals outside the transaction
  have part : ∀ (o' : EdgeOrder) (d d' : Db) (X : Bytes → Prop), Sound c Own d X →
      (∀ o, d'.tree o = if o = o' then (d.tree o).erase (encOf o t).1 else d.tree o) → d'.edgeProps = d.edgeProps →
      d'.nodeProps = d.nodeProps →
      Sound c Own d' X ∧ (∀ o (u : Triple Id) v, d'.idIn o u = some v → d.idIn o u = some v) ∧ d'.idIn o' t = none := by
    intro o' d d' X h ht he hn
    have hg : ∀ o k v, (d'.tree o).get k = some v → (d.tree o).get k = some v := by
      intro o k v hk
      rw [ht] at hk
      split at hk
      · rw [BMap.get_erase] at hk
        split at hk
        · cases hk
        · exact hk
      · exact hk
    refine ⟨⟨fun o k v hk => h.keys o k v (hg o k v hk), fun k b hk => h.nodes k b (by rw [← hn]; exact hk),
      fun o u v hv => by rw [he]; exact h.refs o u v (hg o _ v hv)⟩, fun o u v hv => hg o _ v hv, ?_⟩
    unfold Db.idIn
    rw [ht, if_pos rfl, BMap.get_erase_self]
  intro d1 X1 _ hi1 hL1
  obtain ⟨p1, q1, r1⟩ := part .SPO d1 { d1 with spo := d1.spo.erase (encodeSpo t).1 } X1 hi1
    (fun o => by cases o <;> rfl) rfl rfl
  refine ⟨L, X1, allowed_drop hL1 p1 q1, ?_⟩
  intro d2 X2 hr2 hi2 hL2
  obtain ⟨p2, q2, r2⟩ := part .POS d2 { d2 with pos := d2.pos.erase (encodePos t).1 } X2 hi2
    (fun o => by cases o <;> rfl) rfl rfl
  refine ⟨L, X2, allowed_drop hL2 p2 q2, ?_⟩
  intro d3 X3 hr3 hi3 hL3
  obtain ⟨p3, q3, r3⟩ := part .OSP d3 { d3 with osp := d3.osp.erase (encodeOsp t).1 } X3 hi3
    (fun o => by cases o <;> rfl) rfl rfl
  refine ⟨L, X3, allowed_drop hL3 p3 q3, ?_⟩
  dsimp only
  cases ht : d1.spo.get (encodeSpo t).1 with
  | none => exact hk _ _
  | some i =>
    -- nobody refers to `i` any more
    obtain ⟨x1, o1, -⟩ := hi1.refs .SPO t i ht
    have only : ∀ {d : Db} {X : Bytes → Prop} {o : EdgeOrder}, Sound c Own d X → d.idIn o t = none →
        ∀ u : Triple Id, d.idIn o u ≠ some i := by
      intro d X o h hn u hu
      rw [hown i u t (h.refs o u i hu).2.1 o1, hn] at hu
      cases hu
    have n2 : ∀ u : Triple Id, d2.idIn .SPO u ≠ some i := hr2.2 .SPO i x1 (only p1 r1)
    have x2 : X2 i := hr2.1 i x1
    have n3 : ∀ u : Triple Id, d3.idIn .SPO u ≠ some i := hr3.2 .SPO i x2 (fun u hu => n2 u (q2 .SPO u i hu))
    have n3' : ∀ u : Triple Id, d3.idIn .POS u ≠ some i := hr3.2 .POS i x2 (only p2 r2)
    have x3 : X3 i := hr3.1 i x2
    intro d4 X4 hr4 hi4 hL4
    have n4 : ∀ o (u : Triple Id), d4.idIn o u ≠ some i := by
      intro o
      cases o
      · exact hr4.2 .SPO i x3 (fun u hu => n3 u (q3 .SPO u i hu))
      · exact hr4.2 .POS i x3 (fun u hu => n3' u (q3 .POS u i hu))
      · exact hr4.2 .OSP i x3 (only p3 r3)
    refine ⟨L, X4, allowed_drop hL4 ⟨fun o k v hk => ?_, hi4.nodes, fun o u v hv => ?_⟩ (fun o u v hv => ?_), hk _ _⟩
    · exact hi4.keys o k v (by rw [withProps_tree] at hk; exact hk)
    · rw [withProps_idIn] at hv
      obtain ⟨y1, y2, y3⟩ := hi4.refs o u v hv
      refine ⟨y1, y2, ?_⟩
      show ∃ b p, (d4.edgeProps.erase i).get v = some b ∧ _
      rw [BMap.get_erase, if_neg]
      · exact y3
      · rintro rfl; exact n4 o u hv
    · rw [withProps_idIn] at hv
      exact hv

theorem safe2_mergeEdges (hc : c.RoundTrip) (hown : ∀ v t u, Own v t → Own v u → t = u) {mE : EP → EP → EP} {β : Type}
    {k : Gen Id × Except (LR SErr E) Unit → Prog Db β} (hk : ∀ r x, (soundRG c Own).Safe (k r) [] x)
    (l : List (Except E (Triple Id × EP))) (g : Gen Id)
    (hn : ((Call.drawnFor g l).map Prod.fst).Nodup) (ho : ∀ y ∈ Call.drawnFor g l, Own y.1 y.2) (x : Db × (Bytes → Prop)) :
    (soundRG c Own).Safe ((mergeEdges c mE g l).bind k) ((Call.drawnFor g l).map Prod.fst) x := by
  induction l generalizing g x with
  | nil => exact hk _ _
  | cons y l ih =>
    cases y with
    | error e => exact hk _ _
    | ok y =>
      rw [mergeEdges]
      have assoc : ∀ f : Except SErr Unit → Prog Db (Gen Id × Except (LR SErr E) Unit),
          ((Sled.mergeEdge c mE (Gen.fresh g).1 y.1 y.2).bind f).bind k =
            (Sled.mergeEdge c mE (Gen.fresh g).1 y.1 y.2).bind (fun r => (f r).bind k) := fun f => rfl
      rw [assoc]
      simp only [Call.drawnFor, List.map_cons] at hn ho ⊢
      refine safe2_mergeEdge hc hown (List.nodup_cons.1 hn).1 (ho _ List.mem_cons_self) (fun r x => ?_) x
      cases r with
      | error e => exact weaken (hk _ _) (fun v hv => by cases hv)
      | ok u => exact ih _ (List.nodup_cons.1 hn).2 (fun z hz => ho z (List.mem_cons_of_mem _ hz)) x

theorem safe2_mergeNodes (hc : c.RoundTrip) {mN : NP → NP → NP} {L : List Bytes} {α β : Type}
    {j : Except (LR SErr E) Unit → Prog Db α} {k : α → Prog Db β} (hk : ∀ r x, (soundRG c Own).Safe ((j r).bind k) L x)
    (l : List (Except E (Id × NP))) (x : Db × (Bytes → Prop)) :
    (soundRG c Own).Safe ((mergeNodes c mN j l).bind k) L x := by
  induction l generalizing x with
  | nil => exact hk _ _
  | cons y l ih =>
    cases y with
    | error e => exact hk _ _
    | ok y =>
      rw [mergeNodes]
      have assoc : ∀ f : Except SErr Unit → Prog Db α,
          ((Sled.mergeNode c mN y.1 y.2).bind f).bind k =
            (Sled.mergeNode c mN y.1 y.2).bind (fun r => (f r).bind k) := fun f => rfl
      rw [assoc]
      refine safe2_mergeNode hc (fun r x => ?_) x
      cases r with
      | error e => exact hk _ _
      | ok u => exact ih x

theorem safe2_ret {L : List Bytes} {x : Db × (Bytes → Prop)} {r : α} :
    (soundRG c Own).Safe (.ret r : Prog Db α) L x := trivial

theorem safe2_prog (hc : c.RoundTrip) (hown : ∀ v t u, Own v t → Own v u → t = u) (mN : NP → NP → NP)
    (mE : EP → EP → EP) (x : Call E Id NP EP)
    (hn : (x.writes.map Prod.fst).Nodup) (ho : ∀ y ∈ x.writes, Own y.1 y.2) (he : ¬ x.IsExtend)
    (hs : ∀ n fwd bwd, x = .removeNodeScan n fwd bwd → (∀ (t : Triple Id) v, ((encodeSpo t).1, v) ∈ fwd → Own v t) ∧
      ∀ (t : Triple Id) v, ((encodeOsp t).1, v) ∈ bwd → Own v t) (y : Db × (Bytes → Prop)) :
    (soundRG c Own).Safe (x.prog c mN mE) (x.writes.map Prod.fst) y := by
  cases x with
  | insertNode n p => exact safe2_insertNode hc (fun _ _ => safe2_ret) y
  | insertEdge i t p =>
    exact safe2_insertEdge hc hown (by simp) (ho ((toBeBytes i).1, t) (by simp [Call.writes])) (fun _ _ => safe2_ret) y
  | removeNode n => exact safe2_removeNode hown (fun _ _ => safe2_ret) y
  | removeNodeScan n fwd bwd =>
    exact safe2_scanned hown (hs n fwd bwd rfl).1 (hs n fwd bwd rfl).2 (fun _ _ => safe2_ret) y
  | removeEdge t => exact safe2_removeEdge hown (fun _ _ => safe2_ret) y
  | mergeNode n p => exact safe2_mergeNode hc (fun _ _ => safe2_ret) y
  | mergeEdge i t p =>
    exact safe2_mergeEdge hc hown (by simp) (ho ((toBeBytes i).1, t) (by simp [Call.writes])) (fun _ _ => safe2_ret) y
  | extend u src => exact absurd trivial he
  | merge g src =>
    refine safe2_mergeNodes hc (fun r y => ?_) src.nodes y
    cases r with
    | error e => exact safe2_ret
    | ok u => exact safe2_mergeEdges hc hown (fun _ _ => safe2_ret) _ g hn ho y

/-- the triple an id was drawn for -/
def owner (d0 : Db) (W : List (Bytes × Triple Id)) (v : Bytes) (t : Triple Id) : Prop :=
  (v, t) ∈ W ∨ d0.idIn .SPO t = some v

theorem owner_fun {d0 : Db} {W : List (Bytes × Triple Id)} (h0 : d0.Inv Id c) (hn : (W.map Prod.fst).Nodup)
    (hu : ∀ x ∈ W, d0.edgeProps.get x.1 = none) (v : Bytes) (t u : Triple Id) :
    owner d0 W v t → owner d0 W v u → t = u := by
  have nope : ∀ {t u : Triple Id}, (v, t) ∈ W → d0.idIn .SPO u = some v → False := by
    intro t u ht h
    obtain ⟨b, p, hb, -⟩ := h0.recs _ _ h
    rw [hu _ ht] at hb
    cases hb
  rintro (h | h) (h' | h')
  · have := List.inj_on_of_nodup_map hn h h' rfl
    exact congrArg Prod.snd this
  · exact (nope h h').elim
  · exact (nope h' h).elim
  · exact h0.inj t u v h h'

theorem start_sound {d0 : Db} {W : List (Bytes × Triple Id)} (h0 : d0.Inv Id c) :
    Sound c (owner d0 W) d0 (fun v => ∃ t : Triple Id, d0.idIn .SPO t = some v) where
  keys := h0.keys
  nodes := h0.nodes
  refs o t v hv := by
    rw [h0.same] at hv
    exact ⟨⟨t, hv⟩, .inr hv, h0.recs _ _ hv⟩

theorem sound_moment (hc : c.RoundTrip) {mN : NP → NP → NP} {mE : EP → EP → EP} {d0 : Db}
    {threads : List (List (Call E Id NP EP))} (h0 : d0.Inv Id c) (hne : ∀ th ∈ threads, ∀ x ∈ th, ¬ x.IsExtend)
    (hd : DistinctIds d0 threads) (hs : ScansSeen d0 threads) {d : Db} (hm : Moment c mN mE d0 threads d) :
    ∃ X, Sound c (owner d0 (allWrites threads)) d X := by
  obtain ⟨rest, hst⟩ := hm
  have hown := owner_fun h0 hd.1 hd.2
  have h := (soundRG c (owner d0 (allWrites threads))).good_steps (x := start c mN mE d0 threads)
    ⟨_, threads.map (fun th => th.map (fun x => (x.prog c mN mE, x.writes.map Prod.fst))), ?_, start_sound h0, ?_, ?_⟩ hst
  · obtain ⟨X, _, _, h, _⟩ := h
    exact ⟨X, h⟩
  · simp [start, Function.comp_def]
  · have nd : ∀ th ∈ threads, th.Pairwise (fun x y => ∀ v ∈ x.writes.map Prod.fst, v ∉ y.writes.map Prod.fst) ∧
        ∀ x ∈ th, (x.writes.map Prod.fst).Nodup := by
      intro th hth
      have h1 := hd.1
      unfold allWrites at h1
      rw [List.map_flatMap, List.nodup_flatMap] at h1
      refine ⟨?_, fun x hx => h1.1 x (List.mem_flatten.2 ⟨th, hth, hx⟩)⟩
      have h2 := (List.pairwise_flatten.1 h1.2).1 th hth
      exact h2.imp (fun {a b} hab => fun v hv hv' => hab hv hv')
    have sub : ∀ th ∈ threads, ∀ x ∈ th, ∀ y ∈ x.writes, y ∈ allWrites threads := fun th hth x hx y hy =>
      List.mem_flatMap.2 ⟨x, List.mem_flatten.2 ⟨th, hth, hx⟩, hy⟩
    intro q hq
    obtain ⟨th, hth, rfl⟩ := List.mem_map.1 hq
    have safe : ∀ x ∈ th, ∀ y, (soundRG c (owner d0 (allWrites threads))).Safe (x.prog c mN mE) (x.writes.map Prod.fst) y := by
      intro x hx y
      refine safe2_prog hc hown mN mE x ((nd th hth).2 x hx) (fun y hy => .inl (sub th hth x hx y hy)) (hne th hth x hx) ?_ y
      rintro n fwd bwd rfl
      obtain ⟨s1, s2⟩ := hs th hth n fwd bwd hx
      constructor
      · intro t v ht
        rcases s1 _ ht with h | ⟨u, h, e⟩
        · exact .inr h
        · rw [(encOf_inj .SPO).1 e]; exact .inl h
      · intro t v ht
        rcases s2 _ ht with h | ⟨u, h, e⟩
        · exact .inr (by rw [← h0.same .OSP]; exact h)
        · rw [(encOf_inj .OSP).1 e]; exact .inl h
    have unused : ∀ x ∈ th, ∀ v ∈ x.writes.map Prod.fst, ¬ ∃ t : Triple Id, d0.idIn .SPO t = some v := by
      rintro x hx v hv ⟨t, ht⟩
      obtain ⟨y, hy, rfl⟩ := List.mem_map.1 hv
      obtain ⟨b, p, hb, -⟩ := h0.recs _ _ ht
      rw [hd.2 y (sub th hth x hx y hy)] at hb
      cases hb
    have np := (nd th hth).1
    clear hq hth
    cases th with
    | nil => trivial
    | cons x th =>
      refine ⟨safe x (by simp) _, ?_, ?_, ?_⟩
      · intro e he y
        obtain ⟨z, hz, rfl⟩ := List.mem_map.1 he
        exact safe z (List.mem_cons_of_mem _ hz) y
      · rw [← List.map_cons (f := fun x : Call E Id NP EP => (x.prog c mN mE, x.writes.map Prod.fst)), List.pairwise_map]
        exact np
      · intro e he
        rw [← List.map_cons (f := fun x : Call E Id NP EP => (x.prog c mN mE, x.writes.map Prod.fst))] at he
        obtain ⟨z, hz, rfl⟩ := List.mem_map.1 he
        exact unused z hz
  · rw [List.pairwise_map]
    have h1 := hd.1
    unfold allWrites at h1
    rw [List.map_flatMap, List.nodup_flatMap] at h1
    have h2 := (List.pairwise_flatten.1 h1.2).2
    refine h2.imp (fun {th th'} h => ?_)
    intro e he e' he'
    obtain ⟨x, hx, rfl⟩ := List.mem_map.1 he
    obtain ⟨x', hx', rfl⟩ := List.mem_map.1 he'
    exact ⟨fun v hv hv' => h x hx x' hx' hv hv', fun v hv hv' => h x hx x' hx' hv' hv⟩

theorem Sound.recsOk {d : Db} {X : Bytes → Prop} (h : Sound c Own d X) (o : EdgeOrder) : RecsOk c o d := by
  intro k v hk
  obtain ⟨t, rfl⟩ := h.keys o k v hk
  exact (h.refs o t v hk).2.2

theorem inv_moment (hc : c.RoundTrip) {mN : NP → NP → NP} {mE : EP → EP → EP} {d0 : Db}
    {threads : List (List (Call E Id NP EP))} (h0 : d0.Inv Id c) (hne : ∀ th ∈ threads, ∀ x ∈ th, ¬ x.IsExtend)
    (hd : DistinctIds d0 threads) (hs : ScansSeen d0 threads) (hr : NoRace threads) {d : Db}
    (hm : Moment c mN mE d0 threads d) : d.Inv Id c := by
  obtain ⟨X, h⟩ := sound_moment hc h0 hne hd hs hm
  refine { agree_moment h0.toAgree hne (hr.imp ?_) hm with nodes := h.nodes, recs := h.recsOk _, inj := ?_ }
  · intro th th' h t
    refine ⟨?_, ?_⟩
    · rintro ⟨⟨x, hx, hxt⟩, ⟨y, hy, v, hv⟩⟩
      exact (h x hx y hy t).1 hxt v hv
    · rintro ⟨⟨x, hx, hxt⟩, ⟨y, hy, v, hv⟩⟩
      exact (h y hy x hx t).2 hxt v hv
  · intro t u v ht hu
    exact owner_fun h0 hd.1 hd.2 v t u (h.refs _ _ _ ht).2.1 (h.refs _ _ _ hu).2.1

end Sled

end Verif
