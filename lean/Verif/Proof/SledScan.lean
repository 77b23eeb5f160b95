import Verif.Proof.SledAlone
import Verif.Spec.SledScan
import Verif.Model.SledScan

/-! # What a reader sees while others write -/

set_option linter.unusedSectionVars false

namespace Verif

open Spec ConcreteId

variable {Id NP EP E : Type} [LinearOrder Id] [ConcreteId Id] [LawfulId Id]

namespace Sled

open Db

/-- `H`: the records there have ever been.  A record is written before its id is used; those of the edges in `K` stay. -/
structure Hist (c : Codecs NP EP) (Own : Bytes → Triple Id → Prop) (K : Triple Id → Prop) (d : Db) (H : Bytes → Option Bytes) :
    Prop where
  neat : Neat c Own d
  recs : ∀ v b, d.edgeProps.get v = some b → H v = some b
  used : ∀ (o : EdgeOrder) (t : Triple Id) (v : Bytes), d.idIn o t = some v → H v ≠ none
  kept : ∀ t : Triple Id, K t → ∀ o v, d.idIn o t = some v → ∃ b, d.edgeProps.get v = some b

/-- what a reader can rely on; `K`: edges, `M`: nodes which are not removed -/
structure Later (Own : Bytes → Triple Id → Prop) (K : Triple Id → Prop) (M : Id → Prop) (d d' : Db) (H H' : Bytes → Option Bytes) :
    Prop where
  mono : ∀ v b, H v = some b → H' v = some b
  gone : ∀ v, H v ≠ none → d.edgeProps.get v = none → d'.edgeProps.get v = none
  recs : ∀ t, K t → ∀ v b, Own v t → d.edgeProps.get v = some b → d'.edgeProps.get v = some b
  ids : ∀ t : Triple Id, K t → ∀ o, d.idIn o t ≠ none → d'.idIn o t ≠ none
  nodes : ∀ n, M n → d.nodeProps.get (toBeBytes n).1 ≠ none → d'.nodeProps.get (toBeBytes n).1 ≠ none

variable {c : Codecs NP EP} {Own : Bytes → Triple Id → Prop} {K : Triple Id → Prop} {M : Id → Prop} {α β : Type} {N : Id → Prop}
  {L : List Bytes}

theorem Later.refl (d : Db) (H : Bytes → Option Bytes) : Later Own K M d d H H :=
  ⟨fun _ _ => id, fun _ _ => id, fun _ _ _ _ _ => id, fun _ _ _ => id, fun _ _ => id⟩

theorem Later.trans {d d' d'' : Db} {H H' H'' : Bytes → Option Bytes} (h : Later Own K M d d' H H')
    (h' : Later Own K M d' d'' H' H'') : Later Own K M d d'' H H'' where
  mono v b hb := h'.mono v b (h.mono v b hb)
  gone v hv hd := by
    refine h'.gone v (fun e => ?_) (h.gone v hv hd)
    obtain ⟨b, hb⟩ := Option.ne_none_iff_exists'.1 hv
    rw [h.mono v b hb] at e
    cases e
  recs t ht v b ho hb := h'.recs t ht v b ho (h.recs t ht v b ho hb)
  ids t ht o hd := h'.ids t ht o (h.ids t ht o hd)
  nodes n hn hd := h'.nodes n hn (h.nodes n hn hd)

variable (c Own K M) in
def histRG : RG Db (Bytes → Option Bytes) (List Bytes) where
  inv := Hist c Own K
  rely _ x y := Later Own K M x.1 y.1 x.2 y.2
  ok L H := ∀ v ∈ L, H v = none
  par a b := ∀ v ∈ a, v ∉ b
  seq a b := ∀ v ∈ a, v ∉ b
  le a b := ∀ v ∈ a, v ∈ b
  rely_refl _ _ := .refl _ _
  rely_trans _ _ _ _ h h' := h.trans h'
  le_trans _ _ _ h h' v hv := h' v (h v hv)
  par_le _ _ _ h := ⟨fun hp v hv => hp v (h v hv), fun hp v hv hv' => hp v hv (h v hv')⟩
  seq_le _ _ _ h hp v hv := hp v (h v hv)

/-- a call that writes no record and no id -/
structure Quiet (Own : Bytes → Triple Id → Prop) (K : Triple Id → Prop) (M : Id → Prop) (d d' : Db) : Prop where
  recs : ∀ v b, d'.edgeProps.get v = some b → d.edgeProps.get v = some b
  ids : ∀ (o : EdgeOrder) (t : Triple Id) (v : Bytes), d'.idIn o t = some v → d.idIn o t = some v
  keptIds : ∀ t : Triple Id, K t → ∀ o, d'.idIn o t = d.idIn o t
  keptRecs : ∀ t, K t → ∀ v, Own v t → d'.edgeProps.get v = d.edgeProps.get v
  nodes : ∀ n, M n → d.nodeProps.get (toBeBytes n).1 ≠ none → d'.nodeProps.get (toBeBytes n).1 ≠ none

theorem hist_quiet {d d' : Db} {H : Bytes → Option Bytes} (hi : Hist c Own K d H) (hL : ∀ v ∈ L, H v = none) (hn : Neat c Own d')
    (hq : Quiet Own K M d d') : (histRG c Own K M).Allowed L d H d' L H := by
  have later : Later Own K M d d' H H := by
    refine ⟨fun _ _ => id, fun v _ hd => ?_, fun t ht v b ho hb => by rw [hq.keptRecs t ht v ho]; exact hb,
      fun t ht o hd => by rw [hq.keptIds t ht o]; exact hd, hq.nodes⟩
    by_contra hne
    obtain ⟨b, hb⟩ := Option.ne_none_iff_exists'.1 hne
    rw [hq.recs v b hb] at hd
    cases hd
  refine ⟨fun _ => id, ⟨hn, fun v b hb => hi.recs v b (hq.recs v b hb), fun o t v hv => hi.used o t v (hq.ids o t v hv),
    fun t ht o v hv => ?_⟩, hL, fun _ _ hb => ⟨later, hb⟩, fun _ _ => id⟩
  rw [hq.keptRecs t ht v (hn.refs o t v hv)]
  exact hi.kept t ht o v (hq.ids o t v hv)

theorem hist_weaken {L' : List Bytes} {p : Prog Db α} {x : Db × (Bytes → Option Bytes)} (h : (histRG c Own K M).Safe p L x)
    (hL : ∀ v ∈ L, v ∈ L') : (histRG c Own K M).Safe p L' x := by
  cases p with
  | ret => trivial
  | call f k =>
    intro d X hr hi hok
    obtain ⟨b', X', h1, h2⟩ := h d X hr hi (fun v hv => hok v (hL v hv))
    exact ⟨b', X', ⟨fun v hv => hL v (h1.1 v hv), h1.2.1, h1.2.2.1, fun b hp hb => h1.2.2.2.1 b (fun v hv => hp v (hL v hv)) hb,
      fun b hp hb => h1.2.2.2.2 b (fun v hv => hp v (hL v hv)) hb⟩, h2⟩

variable (c Own K M) in
/-- programs all of whose calls are quiet -/
def QuietAll : Prog Db α → (α → Prop) → Prop
  | .ret a, R => R a
  | .call f k, R => ∀ d, Neat c Own d → Neat c Own (f d) ∧ Quiet Own K M d (f d) ∧ QuietAll (k d) R

theorem hist_quietAll {p : Prog Db α} {k : α → Prog Db β} {R : α → Prop} (h : QuietAll c Own K M p R)
    (hk : ∀ a, R a → ∀ x, (histRG c Own K M).Safe (k a) L x) (x : Db × (Bytes → Option Bytes)) :
    (histRG c Own K M).Safe (p.bind k) L x := by
  induction p generalizing x with
  | ret a => exact hk a h x
  | call f j ih =>
    intro d H _ hi hL
    obtain ⟨h1, h2, h3⟩ := h d hi.neat
    exact ⟨L, H, hist_quiet hi hL h1 h2, ih d h3 _⟩

theorem QuietAll.bind {p : Prog Db α} {k : α → Prog Db β} {R : α → Prop} {R' : β → Prop} (h : QuietAll c Own K M p R)
    (hk : ∀ a, R a → QuietAll c Own K M (k a) R') : QuietAll c Own K M (p.bind k) R' := by
  induction p with
  | ret a => exact hk a h
  | call f j ih => exact fun s hs => ⟨(h s hs).1, (h s hs).2.1, ih s (h s hs).2.2⟩

theorem Quiet.refl (d : Db) : Quiet Own K M d d :=
  ⟨fun _ _ => id, fun _ _ _ => id, fun _ _ _ => rfl, fun _ _ _ _ => rfl, fun _ _ => id⟩

/-- from what is known of the call otherwise -/
theorem Only.quiet {T : Triple Id → Prop} {d d' : Db} (h : Only Own T N d d') (hT : ∀ t, T t → ¬ K t) (hN : ∀ n, N n → ¬ M n)
    (h1 : ∀ v b, d'.edgeProps.get v = some b → d.edgeProps.get v = some b)
    (h2 : ∀ (o : EdgeOrder) (t : Triple Id) (v : Bytes), d'.idIn o t = some v → d.idIn o t = some v) : Quiet Own K M d d' where
  recs := h1
  ids := h2
  keptIds t ht o := h.ids o t (fun e => hT t e ht)
  keptRecs t ht v ho := h.recs v t (fun e => hT t e ht) ho
  nodes n hn hd := by rw [h.nodes n (fun e => hN n e hn)]; exact hd

/-! ## nodes -/

theorem quiet_putNode (d : Db) (n : Id) (b : Bytes) :
    Quiet Own K M d { d with nodeProps := d.nodeProps.insert (toBeBytes n).1 b } := by
  refine ⟨fun _ _ => id, fun o t v hv => by rwa [withNodes_idIn] at hv, fun t _ o => withNodes_idIn _ _ _ _, fun _ _ _ _ => rfl,
    fun m _ hd => ?_⟩
  show (d.nodeProps.insert (toBeBytes n).1 b).get _ ≠ none
  rw [BMap.get_insert]
  split
  · simp
  · exact hd

theorem quiet_insertNode (hc : c.RoundTrip) (n : Id) (p : NP) : QuietAll c Own K M (Sled.insertNode c n p) (fun _ => True) := by
  unfold Sled.insertNode
  cases hb : c.n.ser p with
  | none => trivial
  | some b => exact fun d hd => ⟨(neat_nodes (T := fun _ => True) hd (hc.1 _ _ hb)).1, quiet_putNode d n b, trivial⟩

theorem quiet_mergeNode (hc : c.RoundTrip) (mN : NP → NP → NP) (n : Id) (p : NP) :
    QuietAll c Own K M (Sled.mergeNode c mN n p) (fun _ => True) := by
  have hr := fun d (h : Neat c Own d) => mergeNode_neat h.nodes mN n p
  obtain ⟨f, hf⟩ : ∃ f, Sled.mergeNode c mN n p = transaction f := ⟨_, rfl⟩
  rw [hf] at hr ⊢
  intro d hd
  show Neat c Own (commit f d) ∧ Quiet Own K M d (commit f d) ∧ True
  rcases hr d hd with ⟨h1, h2⟩ | ⟨b, h1, h2⟩
  · have e1 : commit f d = d := congrArg Prod.fst h2
    rw [e1]
    exact ⟨hd, .refl d, trivial⟩
  · have e1 : commit f d = _ := congrArg Prod.fst h2
    rw [e1]
    exact ⟨(neat_nodes (T := fun _ => True) hd (hc.1 _ _ h1)).1, quiet_putNode d n b, trivial⟩

theorem quiet_mergeNodes (hc : c.RoundTrip) (mN : NP → NP → NP) (l : List (Except E (Id × NP))) :
    QuietAll c Own K M (mergeNodes c mN .ret l) (fun _ => True) := by
  induction l with
  | nil => trivial
  | cons x l ih =>
    cases x with
    | error e => trivial
    | ok x =>
      rw [mergeNodes]
      refine (quiet_mergeNode hc mN x.1 x.2).bind (fun r _ => ?_)
      cases r with
      | error e => trivial
      | ok _ => exact ih

theorem quiet_extendNodes (hc : c.RoundTrip) (l : List (Except E (Id × NP))) :
    QuietAll c Own K M (extendNodes c .ret l) (fun _ => True) := by
  induction l with
  | nil => trivial
  | cons x l ih =>
    cases x with
    | error e => trivial
    | ok x =>
      rw [extendNodes]
      cases hb : c.n.ser x.2 with
      | none => trivial
      | some b => exact fun d hd => ⟨(neat_nodes (T := fun _ => True) hd (hc.1 _ _ hb)).1, quiet_putNode d x.1 b, ih⟩

/-! ## removals -/

theorem quiet_scanned (hown : ∀ v t u, Own v t → Own v u → t = u) {n : Id} (hK : ∀ t : Triple Id, t.sub = n ∨ t.obj = n → ¬ K t)
    (hM : ¬ M n) {fwd bwd : List (Bytes × Bytes)} (hf : ∀ (t : Triple Id) v, ((encodeSpo t).1, v) ∈ fwd → t.sub = n ∧ Own v t)
    (hb : ∀ (t : Triple Id) v, ((encodeOsp t).1, v) ∈ bwd → t.obj = n ∧ Own v t) :
    QuietAll c Own K M (removeNodeScanned n fwd bwd) (fun _ => True) := by
  rcases removeNodeScanned_cases n fwd bwd with ⟨r, e⟩ | ⟨F, B, hF, hB, e⟩
  · rw [e]; trivial
  · rw [e]
    intro d hd
    obtain ⟨h1, h2⟩ := neat_dropped (T := fun t : Triple Id => t.sub = n ∨ t.obj = n) (n := n) (F := F) (B := B) hown hd (by
      rintro ⟨t, v⟩ hx
      rcases List.mem_append.1 hx with hx | hx
      · obtain ⟨h1, h2⟩ := hf t v (by rw [hF]; exact List.mem_map.2 ⟨_, hx, rfl⟩)
        exact ⟨.inl h1, h2⟩
      · obtain ⟨h1, h2⟩ := hb t v (by rw [hB]; exact List.mem_map.2 ⟨_, hx, rfl⟩)
        exact ⟨.inr h1, h2⟩)
    refine ⟨h1, h2.quiet hK (fun m hm => by rw [hm]; exact hM) (fun v b hb => ?_) (fun o t v hv => ?_), trivial⟩
    · exact get_applyBatch_some (get_applyBatch_some hb)
    · have hv : (dropped n F B d).idIn o t = some v := hv
      rw [dropped_idIn] at hv
      split at hv
      · cases hv
      · exact hv

theorem quiet_removeNode (hown : ∀ v t u, Own v t → Own v u → t = u) {n : Id} (hK : ∀ t : Triple Id, t.sub = n ∨ t.obj = n → ¬ K t)
    (hM : ¬ M n) : QuietAll c Own K M (removeNode n) (fun _ => True) := by
  rw [removeNode_eq]
  intro d1 hd1
  refine ⟨hd1, .refl d1, ?_⟩
  dsimp only
  cases forwardBatch Id ⟨[], [], [], []⟩ (d1.spo.rangeArr (keyBounds1 n)) with
  | error e => trivial
  | ok fb =>
    intro d2 hd2
    refine ⟨hd2, .refl d2, quiet_scanned hown hK hM (fun t v h => ?_) (fun t v h => ?_)⟩
    · obtain ⟨h1, h2⟩ := (scan_spo n t v).1 h
      exact ⟨h2, hd1.refs .SPO _ _ h1⟩
    · obtain ⟨h1, h2⟩ := (scan_osp n t v).1 h
      exact ⟨h2, hd2.refs .OSP _ _ h1⟩

theorem quiet_erase (hown : ∀ v t u, Own v t → Own v u → t = u) {d : Db} (h : Neat c Own d) {t : Triple Id} (hK : ¬ K t) {i : Bytes}
    (hi : Own i t) : Neat c Own { d with edgeProps := d.edgeProps.erase i } ∧
      Quiet Own K M d { d with edgeProps := d.edgeProps.erase i } := by
  obtain ⟨h1, h2⟩ := neat_erase (N := fun _ => False) hown h hi
  exact ⟨h1, h2.quiet (fun u hu => by rw [hu]; exact hK) (fun _ => False.elim) (fun v b hb => get_erase_some hb)
    (fun o u v hv => by rwa [withProps_idIn] at hv)⟩

theorem quiet_removeEdge (hown : ∀ v t u, Own v t → Own v u → t = u) {t : Triple Id} (hK : ¬ K t) :
    QuietAll c Own K M (removeEdge t) (fun _ => True) := by
  have hT : ∀ u, u = t → ¬ K u := fun u hu => by rw [hu]; exact hK
  have part : ∀ (o' : EdgeOrder) (d d' : Db), Neat c Own d → d'.edgeProps = d.edgeProps → d'.nodeProps = d.nodeProps →
      (∀ o, d'.tree o = if o = o' then (d.tree o).erase (encOf o t).1 else d.tree o) → Neat c Own d' ∧ Quiet Own K M d d' := by
    intro o' d d' h he hn ht
    obtain ⟨h1, h2⟩ := neat_unset (N := fun _ => False) h o' t he hn ht
    refine ⟨h1, h2.quiet hT (fun _ => False.elim) (fun v b hb => by rwa [he] at hb) (fun o u v hv => ?_)⟩
    unfold Db.idIn at hv ⊢
    rw [ht] at hv
    split at hv
    · exact get_erase_some hv
    · exact hv
  intro d hd
  obtain ⟨h1, h2⟩ := neat_removed (N := fun _ => False) hown hd t
  refine ⟨h1, h2.quiet hT (fun _ => False.elim) (fun v b hb => ?_) (fun o u v hv => ?_), ?_⟩
  · have hb : (removed d t).edgeProps.get v = some b := hb
    unfold removed at hb
    split at hb
    · exact get_erase_some hb
    · exact hb
  · have hv : (removed d t).idIn o u = some v := hv
    rw [removed, unsetEdge_idIn, withProps_idIn] at hv
    split at hv
    · cases hv
    · exact hv
  intro d1 hd1
  obtain ⟨p1, q1⟩ := part .SPO d1 { d1 with spo := d1.spo.erase (encodeSpo t).1 } hd1 rfl rfl (fun o => by cases o <;> rfl)
  refine ⟨p1, q1, fun d2 hd2 => ?_⟩
  obtain ⟨p2, q2⟩ := part .POS d2 { d2 with pos := d2.pos.erase (encodePos t).1 } hd2 rfl rfl (fun o => by cases o <;> rfl)
  refine ⟨p2, q2, fun d3 hd3 => ?_⟩
  obtain ⟨p3, q3⟩ := part .OSP d3 { d3 with osp := d3.osp.erase (encodeOsp t).1 } hd3 rfl rfl (fun o => by cases o <;> rfl)
  refine ⟨p3, q3, ?_⟩
  dsimp only
  cases ht : d1.spo.get (encodeSpo t).1 with
  | none => trivial
  | some i =>
    intro d4 hd4
    obtain ⟨h1, h2⟩ := quiet_erase (K := K) (M := M) hown hd4 hK (hd1.refs .SPO t i ht)
    exact ⟨h1, h2, trivial⟩

/-! ## writing -/

/-- a record is written, under a new id -/
theorem hist_write {d d' : Db} {H : Bytes → Option Bytes} {i b : Bytes} {t : Triple Id} (hi : Hist c Own K d H)
    (hL : ∀ v ∈ i :: L, H v = none) (hnd : i ∉ L) (hn : Neat c Own d') (hot : Own i t)
    (h1 : ∀ v b', d'.edgeProps.get v = some b' → d.edgeProps.get v = some b' ∨ v = i ∧ b' = b)
    (h2 : d'.edgeProps.get i = some b)
    (h3 : ∀ (o : EdgeOrder) (u : Triple Id) (v : Bytes), d'.idIn o u = some v → d.idIn o u = some v ∨ v = i ∧ u = t)
    (h4 : ∀ u, K u → ∀ v b, Own v u → d.edgeProps.get v = some b → d'.edgeProps.get v = some b)
    (h5 : ∀ u : Triple Id, K u → ∀ o, d.idIn o u ≠ none → d'.idIn o u ≠ none)
    (h6 : d'.nodeProps = d.nodeProps) :
    (histRG c Own K M).Allowed (i :: L) d H d' L (fun v => if v = i then some b else H v) := by
  have hHi : H i = none := hL i List.mem_cons_self
  have later : Later Own K M d d' H (fun v => if v = i then some b else H v) := by
    refine ⟨fun v b' hb => ?_, fun v hv hd => ?_, h4, h5, fun n _ hd => by rw [h6]; exact hd⟩
    · have : v ≠ i := by rintro rfl; rw [hHi] at hb; cases hb
      exact (if_neg this).trans hb
    · by_contra hne
      obtain ⟨b', hb⟩ := Option.ne_none_iff_exists'.1 hne
      rcases h1 v b' hb with h | ⟨rfl, -⟩
      · rw [h] at hd; cases hd
      · exact hv hHi
  have ok : ∀ l : List Bytes, (∀ v ∈ i :: L, v ∉ l) → (∀ v ∈ l, H v = none) → ∀ v ∈ l, (if v = i then some b else H v) = none := by
    intro l hp hl v hv
    rw [if_neg (by rintro rfl; exact hp _ List.mem_cons_self hv)]
    exact hl v hv
  refine ⟨fun v hv => List.mem_cons_of_mem _ hv, ⟨hn, fun v b' hb => ?_, fun o u v hv => ?_, fun u hu o v hv => ?_⟩, fun v hv => ?_,
    fun l hp hl => ⟨later, ok l hp hl⟩, fun l hp hl => ok l hp hl⟩
  · rcases h1 v b' hb with h | ⟨rfl, rfl⟩
    · exact later.mono v b' (hi.recs v b' h)
    · exact if_pos rfl
  · show (if v = i then some b else H v) ≠ none
    rcases h3 o u v hv with h | ⟨rfl, -⟩
    · split
      · simp
      · exact hi.used o u v h
    · simp
  · rcases h3 o u v hv with h | ⟨rfl, rfl⟩
    · obtain ⟨b', hb⟩ := hi.kept u hu o v h
      exact ⟨b', h4 u hu v b' (hn.refs o u v hv) hb⟩
    · exact ⟨b, h2⟩
  · show (if v = i then some b else H v) = none
    rw [if_neg (by rintro rfl; exact hnd hv)]
    exact hL v (List.mem_cons_of_mem _ hv)

theorem hist_insertEdge (hc : c.RoundTrip) (hown : ∀ v t u, Own v t → Own v u → t = u) {i : Id}
    {t : Triple Id} {p : EP} {k : Except SErr Unit → Prog Db α}
    (hnd : (toBeBytes i).1 ∉ L) (hot : Own (toBeBytes i).1 t)
    (hk : ∀ r x, (histRG c Own K M).Safe (k r) L x) (x : Db × (Bytes → Option Bytes)) :
    (histRG c Own K M).Safe ((Sled.insertEdge c i t p).bind k) ((toBeBytes i).1 :: L) x := by
  have hw := within_insertEdge (N := fun _ => False) hc hown (p := p) hot
  unfold Sled.insertEdge at hw ⊢
  cases hb : c.e.ser p with
  | none => exact hist_weaken (hk _ _) (fun v hv => List.mem_cons_of_mem _ hv)
  | some b =>
    rw [hb] at hw
    dsimp only at hw ⊢
    rw [tx_bind]
    intro d H _ hi hL
    have hid : ∀ (o : EdgeOrder) (u : Triple Id),
        ({ d with edgeProps := d.edgeProps.insert (toBeBytes i).1 b }.setEdge t (toBeBytes i).1).idIn o u =
          if u = t then some (toBeBytes i).1 else d.idIn o u := by
      intro o u
      rw [setEdge_idIn, withProps_idIn]
    refine ⟨L, _, hist_write (b := b) hi hL hnd (hw d hi.neat).1 hot (fun v b' h => ?_) (BMap.get_insert_self _ _ _) (fun o u v hv => ?_)
      (fun u _ v b' _ h => ?_) (fun u _ o h => ?_) rfl, hk _ _⟩
    · have h : (d.edgeProps.insert (toBeBytes i).1 b).get v = some b' := h
      rw [BMap.get_insert] at h
      split at h
      · cases h; exact .inr ⟨by assumption, rfl⟩
      · exact .inl h
    · have hv := (hid o u).symm.trans hv
      split at hv
      · cases hv; exact .inr ⟨rfl, by assumption⟩
      · exact .inl hv
    · show (d.edgeProps.insert (toBeBytes i).1 b).get v = some b'
      rw [BMap.get_insert, if_neg]
      · exact h
      · rintro rfl
        have := hi.recs _ _ h
        rw [hL _ List.mem_cons_self] at this
        cases this
    · show ({ d with edgeProps := d.edgeProps.insert (toBeBytes i).1 b }.setEdge t (toBeBytes i).1).idIn o u ≠ none
      rw [hid]
      split
      · simp
      · exact h

theorem hist_mergeEdge (hc : c.RoundTrip) (hown : ∀ v t u, Own v t → Own v u → t = u) {mE : EP → EP → EP} {i : Id}
    {t : Triple Id} {p : EP} {k : Except SErr Unit → Prog Db α}
    (hnd : (toBeBytes i).1 ∉ L) (hot : Own (toBeBytes i).1 t) (hK : ¬ K t)
    (hk : ∀ r x, (histRG c Own K M).Safe (k r) L x) (x : Db × (Bytes → Option Bytes)) :
    (histRG c Own K M).Safe ((Sled.mergeEdge c mE i t p).bind k) ((toBeBytes i).1 :: L) x := by
  have hw := within_mergeEdge (N := fun _ => False) hc hown (mE := mE) (p := p) hot
  have hr := fun d (h : Neat c Own d) => mergeEdge_neat h mE i t p
  obtain ⟨f, hf⟩ : ∃ f, Sled.mergeEdge c mE i t p = transaction f := ⟨_, rfl⟩
  rw [hf] at hr hw ⊢
  rw [tx_bind]
  intro d H _ hi hL
  rcases hr d hi.neat with ⟨-, h2⟩ | ⟨b, -, h2⟩
  · have e1 : commit f d = d := congrArg Prod.fst h2
    refine ⟨(toBeBytes i).1 :: L, H, ?_, hist_weaken (hk _ _) (fun v hv => List.mem_cons_of_mem _ hv)⟩
    rw [e1]
    exact hist_quiet hi hL hi.neat (.refl d)
  · have e1 : commit f d = _ := congrArg Prod.fst h2
    have ho : Only Own (· = t) (fun _ => False) d (commit f d) := (hw d hi.neat).2.1
    have hne : ∀ u, K u → u ≠ t := by rintro u hu rfl; exact hK hu
    have hget : (commit f d).edgeProps = mergedProps d t (toBeBytes i).1 b := by rw [e1]; rfl
    refine ⟨L, _, hist_write (b := b) hi hL hnd (hw d hi.neat).1 hot (fun v b' h => ?_) ?_ (fun o u v hv => ?_)
      (fun u hu v b' hv h => by rw [ho.recs v u (hne u hu) hv]; exact h) (fun u hu o h => by rw [ho.ids o u (hne u hu)]; exact h)
      (by rw [e1]; rfl), hk _ _⟩
    · rw [hget] at h
      unfold mergedProps at h
      have key : ∀ T : Tree, (T.insert (toBeBytes i).1 b).get v = some b' → T.get v = some b' ∨ v = (toBeBytes i).1 ∧ b' = b := by
        intro T h
        rw [BMap.get_insert] at h
        split at h
        · cases h; exact .inr ⟨by assumption, rfl⟩
        · exact .inl h
      split at h
      · exact key _ h
      · rcases key _ h with h | h
        · exact .inl (get_erase_some h)
        · exact .inr h
    · rw [hget]
      unfold mergedProps
      split <;> exact BMap.get_insert_self _ _ _
    · rw [e1, setEdge_idIn, withProps_idIn] at hv
      split at hv
      · cases hv; exact .inr ⟨rfl, by assumption⟩
      · exact .inl hv

/-- an id whose record has been written is put into an ordering -/
theorem hist_put {d d' : Db} {H : Bytes → Option Bytes} {i b : Bytes} {t : Triple Id} (o' : EdgeOrder) (hi : Hist c Own K d H)
    (hL : ∀ v ∈ L, H v = none) (hot : Own i t) (hK : ¬ K t) (hH : H i = some b) (he : d'.edgeProps = d.edgeProps)
    (hn : d'.nodeProps = d.nodeProps)
    (htr : ∀ o, d'.tree o = if o = o' then (d.tree o).insert (encOf o t).1 i else d.tree o) :
    (histRG c Own K M).Allowed L d H d' L H := by
  obtain ⟨h1, h2⟩ := neat_set (N := fun _ => False) hi.neat o' t hot he hn htr
  have hne : ∀ u, K u → u ≠ t := by rintro u hu rfl; exact hK hu
  have later : Later Own K M d d' H H :=
    ⟨fun _ _ => id, fun v _ hd => by rw [he]; exact hd, fun u hu v b hv h => by rw [he]; exact h,
      fun u hu o h => by rw [h2.ids o u (hne u hu)]; exact h, fun n _ hd => by rw [hn]; exact hd⟩
  refine ⟨fun _ => id, ⟨h1, fun v b hb => hi.recs v b (by rwa [he] at hb), fun o u v hv => ?_, fun u hu o v hv => ?_⟩, hL,
    fun _ _ hb => ⟨later, hb⟩, fun _ _ => id⟩
  · by_cases e : u = t
    · subst e
      unfold Db.idIn at hv
      rw [htr] at hv
      split at hv
      · rw [BMap.get_insert_self] at hv
        cases hv
        rw [hH]; simp
      · exact hi.used o u v hv
    · rw [h2.ids o u e] at hv
      exact hi.used o u v hv
  · rw [h2.ids o u (hne u hu)] at hv
    rw [he]
    exact hi.kept u hu o v hv

theorem hist_extendItem (hown : ∀ v t u, Own v t → Own v u → t = u) {t : Triple Id} {i b : Bytes} {p : EP}
    (hnd : i ∉ L) (hi : Own i t) (hK : ¬ K t) (hb : c.e.de b = some p)
    {k : Prog Db α} (hk : ∀ x, (histRG c Own K M).Safe k L x) (x : Db × (Bytes → Option Bytes)) :
    (histRG c Own K M).Safe
      (.call (fun d => { d with edgeProps := d.edgeProps.insert i b }) (fun _ =>
        .call (fun d => { d with spo := d.spo.insert (encodeSpo t).1 i }) (fun d1 =>
          .call (fun d => { d with pos := d.pos.insert (encodePos t).1 i }) (fun _ =>
            .call (fun d => { d with osp := d.osp.insert (encodeOsp t).1 i }) (fun _ =>
              match d1.spo.get (encodeSpo t).1 with
              | some o => .call (fun d => { d with edgeProps := d.edgeProps.erase o }) (fun _ => k)
              | none => k))))) (i :: L) x := by
  intro d H _ h hL
  obtain ⟨h1, h2⟩ := neat_rec (N := fun _ => False) hown h.neat hi hb
  refine ⟨L, _, hist_write (b := b) h hL hnd h1 hi (fun v b' h => ?_) (BMap.get_insert_self _ _ _)
    (fun o u v hv => .inl (by rwa [withProps_idIn] at hv)) (fun u hu v b' hv h' => ?_)
    (fun u _ o hu => by rw [withProps_idIn]; exact hu) rfl, ?_⟩
  · have h : (d.edgeProps.insert i b).get v = some b' := h
    rw [BMap.get_insert] at h
    split at h
    · cases h; exact .inr ⟨by assumption, rfl⟩
    · exact .inl h
  · rw [h2.recs v u (by rintro rfl; exact hK hu) hv]
    exact h'
  intro d1 H1 hr1 hi1 hL1
  have e1 : H1 i = some b := hr1.mono i b (if_pos rfl)
  refine ⟨L, H1, hist_put .SPO hi1 hL1 hi hK e1 rfl rfl (fun o => by cases o <;> rfl), ?_⟩
  intro d2 H2 hr2 hi2 hL2
  have e2 : H2 i = some b := hr2.mono i b e1
  refine ⟨L, H2, hist_put .POS hi2 hL2 hi hK e2 rfl rfl (fun o => by cases o <;> rfl), ?_⟩
  intro d3 H3 hr3 hi3 hL3
  have e3 : H3 i = some b := hr3.mono i b e2
  refine ⟨L, H3, hist_put .OSP hi3 hL3 hi hK e3 rfl rfl (fun o => by cases o <;> rfl), ?_⟩
  dsimp only
  cases hw : d1.spo.get (encodeSpo t).1 with
  | none => exact hk _
  | some w =>
    intro d4 H4 hr4 hi4 hL4
    obtain ⟨h1, h2⟩ := quiet_erase (K := K) (M := M) hown hi4.neat hK (hi1.neat.refs .SPO t w hw)
    exact ⟨L, H4, hist_quiet hi4 hL4 h1 h2, hk _⟩

theorem hist_mergeEdges (hc : c.RoundTrip) (hown : ∀ v t u, Own v t → Own v u → t = u) {mE : EP → EP → EP}
    {k : Gen Id × Except (LR SErr E) Unit → Prog Db β} (hk : ∀ r x, (histRG c Own K M).Safe (k r) [] x)
    (l : List (Except E (Triple Id × EP))) (g : Gen Id)
    (hn : ((Call.drawnFor g l).map Prod.fst).Nodup) (ho : ∀ y ∈ Call.drawnFor g l, Own y.1 y.2)
    (ht : ∀ t, (∃ p, .ok (t, p) ∈ l) → ¬ K t) (x : Db × (Bytes → Option Bytes)) :
    (histRG c Own K M).Safe ((mergeEdges c mE g l).bind k) ((Call.drawnFor g l).map Prod.fst) x := by
  induction l generalizing g x with
  | nil => exact hk _ _
  | cons y l ih =>
    cases y with
    | error e => exact hk _ _
    | ok y =>
      rw [mergeEdges, bind_assoc]
      simp only [Call.drawnFor, List.map_cons] at hn ho ⊢
      refine hist_mergeEdge hc hown (List.nodup_cons.1 hn).1 (ho _ List.mem_cons_self) (ht _ ⟨y.2, List.mem_cons_self⟩) (fun r x => ?_) x
      cases r with
      | error e => exact hist_weaken (L := []) (hk _ _) (fun v hv => by cases hv)
      | ok u =>
        exact ih _ (List.nodup_cons.1 hn).2 (fun z hz => ho z (List.mem_cons_of_mem _ hz))
          (fun t ⟨p, hp⟩ => ht t ⟨p, List.mem_cons_of_mem _ hp⟩) x

theorem hist_extendEdges (hc : c.RoundTrip) (hown : ∀ v t u, Own v t → Own v u → t = u)
    {k : Gen Ulid × Except (LR SErr E) Unit → Prog Db β} (hk : ∀ r x, (histRG c Own K M).Safe (k r) [] x)
    (l : List (Except E (Triple Id × EP))) (g : Gen Ulid)
    (hn : ((Call.drawnFor g l).map Prod.fst).Nodup) (ho : ∀ y ∈ Call.drawnFor g l, Own y.1 y.2)
    (ht : ∀ t, (∃ p, .ok (t, p) ∈ l) → ¬ K t) (x : Db × (Bytes → Option Bytes)) :
    (histRG c Own K M).Safe ((extendEdges c g l).bind k) ((Call.drawnFor g l).map Prod.fst) x := by
  induction l generalizing g x with
  | nil => exact hk _ _
  | cons y l ih =>
    cases y with
    | error e => exact hk _ _
    | ok y =>
      rw [extendEdges]
      cases hb : c.e.ser y.2 with
      | none => exact hist_weaken (L := []) (hk _ _) (fun v hv => by cases hv)
      | some b =>
        simp only [Call.drawnFor, List.map_cons] at hn ho ⊢
        have h := hist_extendItem (M := M) (k := (extendEdges c (Gen.fresh g).2 l).bind k)
          hown (List.nodup_cons.1 hn).1 (ho _ List.mem_cons_self) (ht _ ⟨y.2, List.mem_cons_self⟩)
          (hc.2 _ _ hb) (ih _ (List.nodup_cons.1 hn).2 (fun z hz => ho z (List.mem_cons_of_mem _ hz))
          (fun t ⟨p, hp⟩ => ht t ⟨p, List.mem_cons_of_mem _ hp⟩)) x
        refine cast ?_ h
        congr 1
        simp only [Prog.bind]
        congr 1
        funext _
        congr 1
        funext d1
        congr 1
        funext _
        congr 1
        funext _
        cases d1.spo.get (encodeSpo y.1).1 <;> rfl

theorem hist_prog (hc : c.RoundTrip) (hown : ∀ v t u, Own v t → Own v u → t = u) (mN : NP → NP → NP)
    (mE : EP → EP → EP) (x : Call E Id NP EP)
    (hn : (x.writes.map Prod.fst).Nodup) (ho : ∀ y ∈ x.writes, Own y.1 y.2) (hs : x.Scanned Own)
    (hK : ∀ t, K t → x.TouchesEdge t → ∃ i p, x = .insertEdge i t p)
    (hM : ∀ n, M n → x ≠ .removeNode n ∧ ∀ f b, x ≠ .removeNodeScan n f b) (y : Db × (Bytes → Option Bytes)) :
    (histRG c Own K M).Safe (x.prog c mN mE) (x.writes.map Prod.fst) y := by
  have ret : ∀ (r : Unit) L y, (histRG c Own K M).Safe (.ret r : Prog Db Unit) L y := fun _ _ _ => trivial
  have not : ∀ t, x.TouchesEdge t → (¬ ∃ i p, x = .insertEdge i t p) → ¬ K t := fun t h1 h2 h3 => h2 (hK t h3 h1)
  cases x with
  | insertNode n p => exact hist_quietAll (quiet_insertNode hc n p) (fun _ _ => ret _ _) y
  | insertEdge i t p =>
    exact hist_insertEdge hc hown (by simp) (ho ((toBeBytes i).1, t) (by simp [Call.writes])) (fun _ => ret _ _) y
  | removeNode n =>
    exact hist_quietAll (quiet_removeNode hown (fun t ht => not t ht (by simp)) (fun h => (hM n h).1 rfl)) (fun _ _ => ret _ _) y
  | removeNodeScan n fwd bwd =>
    exact hist_quietAll (quiet_scanned hown (fun t ht => not t ht (by simp)) (fun h => (hM n h).2 fwd bwd rfl) hs.1 hs.2.1)
      (fun _ _ => ret _ _) y
  | removeEdge t => exact hist_quietAll (quiet_removeEdge hown (not t rfl (by simp))) (fun _ _ => ret _ _) y
  | mergeNode n p => exact hist_quietAll (quiet_mergeNode hc mN n p) (fun _ _ => ret _ _) y
  | mergeEdge i t p =>
    exact hist_mergeEdge hc hown (by simp) (ho ((toBeBytes i).1, t) (by simp [Call.writes])) (not t rfl (by simp)) (fun _ => ret _ _) y
  | extend u src =>
    show (histRG c Own K M).Safe ((Sled.extend c u src).bind _) _ y
    unfold Sled.extend
    rw [extendNodes_bind, bind_assoc]
    refine hist_quietAll (quiet_extendNodes hc src.nodes) (fun r _ z => ?_) y
    cases r with
    | error e => exact ret _ _ _
    | ok _ => exact hist_extendEdges hc hown (fun _ => ret _ _) src.edges u hn ho (fun t h => not t h (by simp)) z
  | merge g src =>
    show (histRG c Own K M).Safe ((Sled.merge c mN mE g src).bind _) _ y
    unfold Sled.merge
    rw [mergeNodes_bind, bind_assoc]
    refine hist_quietAll (quiet_mergeNodes hc mN src.nodes) (fun r _ z => ?_) y
    cases r with
    | error e => exact ret _ _ _
    | ok _ => exact hist_mergeEdges hc hown (fun _ => ret _ _) src.edges g hn ho (fun t h => not t h (by simp)) z

variable {d0 : Db} {threads : List (List (Call E Id NP EP))} {mN : NP → NP → NP} {mE : EP → EP → EP}

/-- programs doing what calls do, the ids they draw being distinct -/
theorem hist_programs {ths : List (List (Prog Db Unit × Call E Id NP EP))} (h0 : d0.Inv Id c)
    (hd : DistinctIds d0 (ths.map (List.map Prod.snd)))
    (safe : ∀ th ∈ ths, ∀ e ∈ th, (e.2.writes.map Prod.fst).Nodup → ∀ y, (histRG c (owner d0 (allWrites (ths.map (List.map Prod.snd)))) K M).Safe
      e.1 (e.2.writes.map Prod.fst) y) :
    (histRG c (owner d0 (allWrites (ths.map (List.map Prod.snd)))) K M).Watched [] (d0, d0.edgeProps.get) d0 (ths.map (List.map Prod.fst)) := by
  refine ⟨d0.edgeProps.get, ths.map (fun th => th.map (fun e => (e.1, e.2.writes.map Prod.fst))), ?_,
    ⟨neat_start h0 hd, fun _ _ => id, ?_, ?_⟩, ?_, ?_, ?_, ?_, .refl _ _⟩
  · simp [Function.comp_def]
  · intro o t v hv
    have hv : d0.idIn o t = some v := hv
    rw [h0.same] at hv
    obtain ⟨b, p, h1, -⟩ := h0.recs _ _ hv
    rw [h1]; simp
  · intro t _ o v hv
    have hv : d0.idIn o t = some v := hv
    rw [h0.same] at hv
    obtain ⟨b, p, h1, -⟩ := h0.recs _ _ hv
    exact ⟨b, h1⟩
  · have nd : ∀ th ∈ ths, th.Pairwise (fun x y => ∀ v ∈ x.2.writes.map Prod.fst, v ∉ y.2.writes.map Prod.fst) ∧
        ∀ x ∈ th, (x.2.writes.map Prod.fst).Nodup := by
      intro th hth
      have h1 := hd.1
      unfold allWrites at h1
      rw [List.map_flatMap, List.nodup_flatMap] at h1
      refine ⟨?_, fun x hx => h1.1 x.2 (List.mem_flatten.2 ⟨_, List.mem_map_of_mem hth, List.mem_map_of_mem hx⟩)⟩
      have h2 := (List.pairwise_flatten.1 h1.2).1 _ (List.mem_map_of_mem hth)
      rw [List.pairwise_map] at h2
      exact h2.imp (fun {a b} hab => fun v hv hv' => hab hv hv')
    intro q hq
    obtain ⟨th, hth, rfl⟩ := List.mem_map.1 hq
    have safe : ∀ x ∈ th, ∀ y, _ := fun x hx y => safe th hth x hx ((nd th hth).2 x hx) y
    have unused : ∀ x ∈ th, ∀ v ∈ x.2.writes.map Prod.fst, d0.edgeProps.get v = none := by
      rintro x hx v hv
      obtain ⟨y, hy, rfl⟩ := List.mem_map.1 hv
      exact hd.2 y (List.mem_flatMap.2 ⟨x.2, List.mem_flatten.2 ⟨_, List.mem_map_of_mem hth, List.mem_map_of_mem hx⟩, hy⟩)
    have np := (nd th hth).1
    clear hq hth
    cases th with
    | nil => trivial
    | cons x th =>
      refine ⟨safe x (by simp) _, ?_, ?_, ?_⟩
      · intro e he y
        obtain ⟨z, hz, rfl⟩ := List.mem_map.1 he
        exact safe z (List.mem_cons_of_mem _ hz) y
      · rw [← List.map_cons (f := fun e : Prog Db Unit × Call E Id NP EP => (e.1, e.2.writes.map Prod.fst)), List.pairwise_map]
        exact np
      · intro e he
        rw [← List.map_cons (f := fun e : Prog Db Unit × Call E Id NP EP => (e.1, e.2.writes.map Prod.fst))] at he
        obtain ⟨z, hz, rfl⟩ := List.mem_map.1 he
        exact unused z hz
  · rw [List.pairwise_map]
    have h1 := hd.1
    unfold allWrites at h1
    rw [List.map_flatMap, List.nodup_flatMap] at h1
    have h2 := (List.pairwise_flatten.1 h1.2).2
    rw [List.pairwise_map] at h2
    refine h2.imp (fun {th th'} h => ?_)
    intro e he e' he'
    obtain ⟨x, hx, rfl⟩ := List.mem_map.1 he
    obtain ⟨x', hx', rfl⟩ := List.mem_map.1 he'
    exact ⟨fun v hv hv' => h _ (List.mem_map_of_mem hx) _ (List.mem_map_of_mem hx') hv hv',
      fun v hv hv' => h _ (List.mem_map_of_mem hx) _ (List.mem_map_of_mem hx') hv' hv⟩
  · intro q _ e _ v _ hv
    cases hv
  · intro v hv
    cases hv

/-- two moments of an execution of such programs -/
theorem hist_two {ths : List (List (Prog Db Unit × Call E Id NP EP))} (h0 : d0.Inv Id c)
    (hd : DistinctIds d0 (ths.map (List.map Prod.snd)))
    (safe : ∀ th ∈ ths, ∀ e ∈ th, (e.2.writes.map Prod.fst).Nodup → ∀ y, (histRG c (owner d0 (allWrites (ths.map (List.map Prod.snd)))) K M).Safe
      e.1 (e.2.writes.map Prod.fst) y)
    {x y : Db × List (List (Prog Db Unit))} (h1 : Steps (d0, ths.map (List.map Prod.fst)) x) (h2 : Steps x y) :
    ∃ H H', Hist c (owner d0 (allWrites (ths.map (List.map Prod.snd)))) K x.1 H ∧
      Hist c (owner d0 (allWrites (ths.map (List.map Prod.snd)))) K y.1 H' ∧
      Later (owner d0 (allWrites (ths.map (List.map Prod.snd)))) K M x.1 y.1 H H' := by
  have h1 := (histRG c (owner d0 (allWrites (ths.map (List.map Prod.snd)))) K M).watched_steps (hist_programs h0 hd safe) h1
  obtain ⟨H, hi, -, hw⟩ := h1.now
  have h2 := (histRG c (owner d0 (allWrites (ths.map (List.map Prod.snd)))) K M).watched_steps hw h2
  obtain ⟨H', hi', hr, -⟩ := h2.now
  exact ⟨H, H', hi, hi', hr⟩

/-- two moments of an execution -/
theorem hist_moments (hc : c.RoundTrip) (h0 : d0.Inv Id c) (hd : DistinctIds d0 threads) (hs : ScansOf d0 threads) {D : Nat → Db}
    (hm : Moments c mN mE d0 threads D) {m l : Nat} (hml : m ≤ l) :
    ∃ H H', Hist c (owner d0 (allWrites threads)) (OnlyInserted threads) (D m) H ∧
      Hist c (owner d0 (allWrites threads)) (OnlyInserted threads) (D l) H' ∧
      Later (owner d0 (allWrites threads)) (OnlyInserted threads) (NodeKept threads) (D m) (D l) H H' := by
  obtain ⟨X, hX0, hX, hD⟩ := hm
  have trans : ∀ {x y z : Db × List (List (Prog Db Unit))}, Steps x y → Steps y z → Steps x z := by
    intro x y z h1 h2
    induction h2 with
    | refl => exact h1
    | tail _ h ih => exact .tail ih h
  have upto : ∀ m k, Steps (X m) (X (m + k)) := by
    intro m k
    induction k with
    | zero => exact .refl _
    | succ k ih => exact trans ih (hX (m + k))
  have hown := owner_fun h0 hd.1 hd.2
  have e1 : (threads.map (List.map (fun x => (x.prog c mN mE, x)))).map (List.map Prod.snd) = threads := by simp [Function.comp_def]
  have e2 : (threads.map (List.map (fun x => (x.prog c mN mE, x)))).map (List.map Prod.fst) = (start c mN mE d0 threads).2 := by
    simp [start, Function.comp_def]
  have := hist_two (c := c) (K := OnlyInserted threads) (M := NodeKept threads) (d0 := d0)
    (ths := threads.map (List.map (fun x => (x.prog c mN mE, x)))) h0 (by rw [e1]; exact hd) (by
      rw [e1]
      intro th hth e he hn y
      obtain ⟨th, hth', rfl⟩ := List.mem_map.1 hth
      obtain ⟨x, hx, rfl⟩ := List.mem_map.1 he
      replace hth := hth'
      exact hist_prog hc hown mN mE x hn (writes_owned th hth x hx) (scans_owned h0 hs th hth x hx)
        (fun t ht => ht th hth x hx) (fun n hn => hn th hth x hx) y)
    (x := X m) (y := X l) (by rw [e2]; exact trans hX0 (by simpa using upto 0 m))
    (by have := upto m (l - m); rwa [Nat.add_sub_cancel' hml] at this)
  rw [e1] at this
  obtain ⟨H, H', hi, hi', hr⟩ := this
  refine ⟨H, H', ?_, ?_, ?_⟩
  · rw [hD]; exact hi
  · rw [hD]; exact hi'
  · rw [hD, hD]; exact hr

end Sled

end Verif
