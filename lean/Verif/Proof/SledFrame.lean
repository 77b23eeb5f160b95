import Verif.Spec.SledFrame
import Verif.Proof.Local
import Verif.Proof.Linear

/-! # What concurrent calls leave alone -/

set_option linter.unusedSectionVars false

namespace Verif

open Spec ConcreteId

variable {Id NP EP E : Type} [LinearOrder Id] [ConcreteId Id] [LawfulId Id]

namespace Sled

open Db

/-- Whatever the threads do: keys are encoded triples, every entry has an id drawn for its triple, and every record under
such an id can be read. -/
structure Neat (c : Codecs NP EP) (Own : Bytes → Triple Id → Prop) (d : Db) : Prop where
  keys : ∀ o, KeysOk Id o d
  nodes : NodesOk Id c d
  refs : ∀ (o : EdgeOrder) (u : Triple Id) (v : Bytes), d.idIn o u = some v → Own v u
  recs : ∀ (v : Bytes) (u : Triple Id) (b : Bytes), Own v u → d.edgeProps.get v = some b → ∃ p, c.e.de b = some p

/-- Only the edges in `T` with their records, and the nodes in `N`, are changed. -/
structure Only (Own : Bytes → Triple Id → Prop) (T : Triple Id → Prop) (N : Id → Prop) (d d' : Db) : Prop where
  ids : ∀ (o : EdgeOrder) (u : Triple Id), ¬ T u → d'.idIn o u = d.idIn o u
  recs : ∀ (v : Bytes) (u : Triple Id), ¬ T u → Own v u → d'.edgeProps.get v = d.edgeProps.get v
  nodes : ∀ n, ¬ N n → d'.nodeProps.get (toBeBytes n).1 = d.nodeProps.get (toBeBytes n).1

variable {c : Codecs NP EP} {Own : Bytes → Triple Id → Prop} {T : Triple Id → Prop} {N : Id → Prop} {α β : Type}

theorem Neat.step {d d' : Db} (h : Neat c Own d)
    (h1 : ∀ o k v, (d'.tree o).get k = some v → (d.tree o).get k = some v ∨ ∃ u, k = (encOf o u).1 ∧ Own v u)
    (h2 : ∀ v b, d'.edgeProps.get v = some b → d.edgeProps.get v = some b ∨ ∃ p, c.e.de b = some p)
    (h3 : ∀ k b, d'.nodeProps.get k = some b → d.nodeProps.get k = some b ∨
      (∃ n : Id, k = (toBeBytes n).1) ∧ ∃ p, c.n.de b = some p) : Neat c Own d' where
  keys o k v hk := by
    rcases h1 o k v hk with h1 | ⟨u, hu, -⟩
    · exact h.keys o k v h1
    · exact ⟨u, hu⟩
  nodes k b hk := by
    rcases h3 k b hk with h3 | h3
    · exact h.nodes k b h3
    · exact h3
  refs o u v hu := by
    rcases h1 o _ v hu with h1 | ⟨u', hu', ho⟩
    · exact h.refs o u v h1
    · rw [(encOf_inj o).1 hu']; exact ho
  recs v u b ho hb := by
    rcases h2 v b hb with h2 | h2
    · exact h.recs v u b ho h2
    · exact h2

theorem Only.refl (d : Db) : Only Own T N d d := ⟨fun _ _ _ => rfl, fun _ _ _ _ => rfl, fun _ _ => rfl⟩

variable (c Own T N) in
/-- Every call of the program keeps the database neat and changes edges in `T` and nodes in `N` only. -/
def Within : Prog Db α → (α → Prop) → Prop
  | .ret a, R => R a
  | .call f k, R => ∀ d, Neat c Own d → Neat c Own (f d) ∧ Only Own T N d (f d) ∧ Within (k d) R

theorem Within.mono {T' : Triple Id → Prop} {N' : Id → Prop} {p : Prog Db α} {R R' : α → Prop}
    (h : Within c Own T N p R) (hT : ∀ t, T t → T' t) (hN : ∀ n, N n → N' n) (hR : ∀ a, R a → R' a) :
    Within c Own T' N' p R' := by
  induction p with
  | ret a => exact hR a h
  | call f k ih =>
    intro d hd
    obtain ⟨h1, h2, h3⟩ := h d hd
    exact ⟨h1, ⟨fun o u hu => h2.ids o u (mt (hT u) hu), fun v u hu => h2.recs v u (mt (hT u) hu),
      fun n hn => h2.nodes n (mt (hN n) hn)⟩, ih d h3⟩

theorem Within.bind {p : Prog Db α} {k : α → Prog Db β} {R : α → Prop} {R' : β → Prop} (h : Within c Own T N p R)
    (hk : ∀ a, R a → Within c Own T N (k a) R') : Within c Own T N (p.bind k) R' := by
  induction p with
  | ret a => exact hk a h
  | call f j ih => exact fun s hs => ⟨(h s hs).1, (h s hs).2.1, ih s (h s hs).2.2⟩

/-! ## single steps -/

theorem neat_nodes {d : Db} (h : Neat c Own d) {n : Id} {b : Bytes} {p : NP} (hb : c.n.de b = some p) :
    Neat c Own { d with nodeProps := d.nodeProps.insert (toBeBytes n).1 b } ∧
      Only Own T (· = n) d { d with nodeProps := d.nodeProps.insert (toBeBytes n).1 b } := by
  refine ⟨h.step (fun o k v hk => .inl (by rw [withNodes_tree] at hk; exact hk)) (fun v b hb => .inl hb)
    (fun k b' hk => ?_), ⟨fun o u _ => withNodes_idIn _ _ _ _, fun _ _ _ _ => rfl, fun m hm => ?_⟩⟩
  · rw [BMap.get_insert] at hk
    split at hk
    · cases hk; exact .inr ⟨⟨n, by assumption⟩, p, hb⟩
    · exact .inl hk
  · rw [BMap.get_insert, if_neg (fun e => hm (toBe_inj.1 e))]

/-- writing the edge `u` under an id drawn for it -/
theorem neat_put {d : Db} (h : Neat c Own d) {u : Triple Id} {i b : Bytes} {p : EP}
    (hi : Own i u) (hb : c.e.de b = some p) {m : Tree} (hm : ∀ w x, Own w x → x ≠ u → m.get w = d.edgeProps.get w)
    (hs : ∀ w b', m.get w = some b' → d.edgeProps.get w = some b' ∨ b' = b) :
    Neat c Own ({ d with edgeProps := m }.setEdge u i) ∧ Only Own (· = u) N d ({ d with edgeProps := m }.setEdge u i) := by
  refine ⟨h.step (fun o k v hk => ?_) (fun v b' hb' => ?_) (fun k b h => .inl h),
    ⟨fun o x hx => ?_, fun v x hx ho => hm v x ho hx, fun _ _ => rfl⟩⟩
  · rw [setEdge_tree, withProps_tree, BMap.get_insert] at hk
    split at hk
    · cases hk; exact .inr ⟨u, by assumption, hi⟩
    · exact .inl hk
  · rcases hs v b' hb' with h | rfl
    · exact .inl h
    · exact .inr ⟨p, hb⟩
  · rw [setEdge_idIn, withProps_idIn, if_neg hx]

/-- removing edges -/
theorem neat_less {d d' : Db} (h : Neat c Own d) (h1 : ∀ o k v, (d'.tree o).get k = some v → (d.tree o).get k = some v)
    (h2 : ∀ v b, d'.edgeProps.get v = some b → d.edgeProps.get v = some b)
    (h3 : ∀ k b, d'.nodeProps.get k = some b → d.nodeProps.get k = some b) : Neat c Own d' :=
  h.step (fun o k v hk => .inl (h1 o k v hk)) (fun v b hb => .inl (h2 v b hb)) (fun k b hb => .inl (h3 k b hb))

theorem get_erase_some {t : Tree} {a k v : Bytes} (h : (t.erase a).get k = some v) : t.get k = some v := by
  rw [BMap.get_erase] at h
  split at h
  · cases h
  · exact h

theorem get_applyBatch_some {t : Tree} {a : List Bytes} {k v : Bytes} (h : (applyBatch t a).get k = some v) :
    t.get k = some v := by
  rw [applyBatch_get] at h
  split at h
  · cases h
  · exact h

/-- deleting a record -/
theorem neat_erase (hown : ∀ v t u, Own v t → Own v u → t = u) {d : Db} (h : Neat c Own d) {u : Triple Id} {i : Bytes}
    (hi : Own i u) : Neat c Own { d with edgeProps := d.edgeProps.erase i } ∧
      Only Own (· = u) N d { d with edgeProps := d.edgeProps.erase i } := by
  refine ⟨neat_less h (fun o k v hk => by rw [withProps_tree] at hk; exact hk) (fun v b hb => get_erase_some hb)
    (fun _ _ => id), ⟨fun o x _ => withProps_idIn _ _ _ _, fun v x hx ho => ?_, fun _ _ => rfl⟩⟩
  show (d.edgeProps.erase i).get v = _
  rw [BMap.get_erase, if_neg]
  rintro rfl
  exact hx (hown _ _ _ ho hi)

/-- an entry of one ordering changed -/
theorem only_tree {o : EdgeOrder} {d d' : Db} {u : Triple Id} (he : d'.edgeProps = d.edgeProps) (hn : d'.nodeProps = d.nodeProps)
    (hs : ∀ o', o' ≠ o → d'.tree o' = d.tree o') (ho : ∀ k, k ≠ (encOf o u).1 → (d'.tree o).get k = (d.tree o).get k) :
    Only Own (· = u) N d d' := by
  refine ⟨fun o' x hx => ?_, fun _ _ _ _ => by rw [he], fun _ _ => by rw [hn]⟩
  by_cases e : o' = o
  · subst e
    exact ho _ (fun h => hx ((encOf_inj o').1 h))
  · unfold Db.idIn; rw [hs o' e]

/-! ## the calls -/

variable (c) in
/-- The result is no error if everything can be serialized. -/
def OkIf (r : Except SErr Unit) : Prop := c.Total → r = .ok ()

theorem within_insertNode (hc : c.RoundTrip) (n : Id) (p : NP) :
    Within c Own T (· = n) (Sled.insertNode c n p) (OkIf c) := by
  unfold Sled.insertNode
  cases hb : c.n.ser p with
  | none => exact fun ht => by have := ht.1 p; rw [hb] at this; cases this
  | some b =>
    intro d hd
    obtain ⟨h1, h2⟩ := neat_nodes (T := T) hd (n := n) (hc.1 _ _ hb)
    exact ⟨h1, h2, fun _ => rfl⟩

/-- merge_node on a neat database -/
theorem mergeNode_neat {d : Db} (h : NodesOk Id c d) (mN : NP → NP → NP) (n : Id) (p : NP) :
    (c.okN (merged mN ((d.graph c).nodes n) p) = false ∧
      (mergeNode c mN n p).run d = (d, .error .serialization)) ∨
    ∃ b, c.n.ser (merged mN ((d.graph c).nodes n) p) = some b ∧
      (mergeNode c mN n p).run d = ({ d with nodeProps := d.nodeProps.insert (toBeBytes n).1 b }, .ok ()) := by
  unfold mergeNode transaction
  simp only [Prog.run, graph, Codecs.okN, merged]
  cases hn : d.nodeProps.get (toBeBytes n).1 with
  | none =>
    simp only [Option.bind_none]
    cases hs : c.n.ser p with
    | none => left; simp
    | some b => right; exact ⟨b, rfl, rfl⟩
  | some v =>
    obtain ⟨_, q, hq⟩ := h _ _ hn
    simp only [Option.bind_some, hq]
    cases hs : c.n.ser (mN q p) with
    | none => left; simp
    | some b => right; exact ⟨b, rfl, rfl⟩

/-- merge_edge on a neat database -/
theorem mergeEdge_neat {d : Db} (h : Neat c Own d) (mE : EP → EP → EP) (i : Id) (t : Triple Id) (p : EP) :
    (c.okE (merged mE ((d.graph c).edges t) p) = false ∧
      (mergeEdge c mE i t p).run d = (d, .error .serialization)) ∨
    ∃ b, c.e.ser (merged mE ((d.graph c).edges t) p) = some b ∧
      (mergeEdge c mE i t p).run d =
        ({ d with edgeProps := mergedProps d t (toBeBytes i).1 b }.setEdge t (toBeBytes i).1, .ok ()) := by
  unfold mergeEdge transaction mergedProps
  simp only [Prog.run, graph, Codecs.okE, view, merged]
  have e : d.idIn .SPO t = d.spo.get (encodeSpo t).1 := rfl
  rw [e]
  cases ht : d.spo.get (encodeSpo t).1 with
  | none =>
    simp only [Option.bind_none]
    cases hs : c.e.ser p with
    | none => left; simp
    | some b => right; exact ⟨b, rfl, rfl⟩
  | some o =>
    cases hv : d.edgeProps.get o with
    | none =>
      simp only [Option.bind_some, hv, Option.bind_none]
      cases hs : c.e.ser p with
      | none => left; simp
      | some b => right; exact ⟨b, rfl, rfl⟩
    | some v =>
      obtain ⟨q, hq⟩ := h.recs _ _ _ (h.refs .SPO _ _ ht) hv
      simp only [Option.bind_some, hv, hq]
      cases hs : c.e.ser (mE q p) with
      | none => left; simp
      | some b => right; exact ⟨b, rfl, rfl⟩

theorem within_mergeNode (hc : c.RoundTrip) (mN : NP → NP → NP) (n : Id) (p : NP) :
    Within c Own T (· = n) (Sled.mergeNode c mN n p) (OkIf c) := by
  have hr := fun d (h : Neat c Own d) => mergeNode_neat h.nodes mN n p
  obtain ⟨f, hf⟩ : ∃ f, Sled.mergeNode c mN n p = transaction f := ⟨_, rfl⟩
  rw [hf] at hr ⊢
  intro d hd
  rcases hr d hd with ⟨h1, h2⟩ | ⟨b, h1, h2⟩
  · have e1 : commit f d = d := congrArg Prod.fst h2
    show Neat c Own (commit f d) ∧ Only Own T (· = n) d (commit f d) ∧ _
    rw [e1]
    refine ⟨hd, .refl d, fun ht => ?_⟩
    rw [Codecs.okN, ht.1] at h1; cases h1
  · have e1 : commit f d = _ := congrArg Prod.fst h2
    have e2 : txResult f d = .ok () := congrArg Prod.snd h2
    show Neat c Own (commit f d) ∧ Only Own T (· = n) d (commit f d) ∧ OkIf c (txResult f d)
    rw [e1, e2]
    obtain ⟨h3, h4⟩ := neat_nodes (T := T) hd (n := n) (hc.1 _ _ h1)
    exact ⟨h3, h4, fun _ => rfl⟩

theorem insert_get_cases {t : Tree} {k b w b' : Bytes} (h : (t.insert k b).get w = some b') : t.get w = some b' ∨ b' = b := by
  rw [BMap.get_insert] at h
  split at h
  · cases h; exact .inr rfl
  · exact .inl h

theorem within_insertEdge (hc : c.RoundTrip) (hown : ∀ v t u, Own v t → Own v u → t = u) {i : Id} {u : Triple Id} {p : EP}
    (hi : Own (toBeBytes i).1 u) : Within c Own (· = u) N (Sled.insertEdge c i u p) (OkIf c) := by
  unfold Sled.insertEdge
  cases hb : c.e.ser p with
  | none => exact fun ht => by have := ht.2 p; rw [hb] at this; cases this
  | some b =>
    intro d hd
    obtain ⟨h1, h2⟩ := neat_put (N := N) hd hi (hc.2 _ _ hb) (m := d.edgeProps.insert (toBeBytes i).1 b)
      (fun w x hw hx => by
        rw [BMap.get_insert, if_neg]
        rintro rfl
        exact hx (hown _ _ _ hw hi)) (fun w b' h => insert_get_cases h)
    exact ⟨h1, h2, fun _ => rfl⟩

theorem mergedProps_other (hown : ∀ v t u, Own v t → Own v u → t = u) {d : Db} (hd : Neat c Own d) {u : Triple Id}
    {i b : Bytes} (hi : Own i u) (w : Bytes) (x : Triple Id) (hw : Own w x) (hx : x ≠ u) :
    (mergedProps d u i b).get w = d.edgeProps.get w := by
  have hne : w ≠ i := by rintro rfl; exact hx (hown _ _ _ hw hi)
  unfold mergedProps
  split
  · rw [BMap.get_insert, if_neg hne]
  · rename_i o ho
    rw [BMap.get_insert, if_neg hne, BMap.get_erase, if_neg]
    rintro rfl
    exact hx (hown _ _ _ hw (hd.refs .SPO _ _ ho))

theorem mergedProps_some {d : Db} {u : Triple Id} {i b w b' : Bytes} (h : (mergedProps d u i b).get w = some b') :
    d.edgeProps.get w = some b' ∨ b' = b := by
  unfold mergedProps at h
  split at h
  · exact insert_get_cases h
  · rcases insert_get_cases h with h | h
    · exact .inl (get_erase_some h)
    · exact .inr h

theorem within_mergeEdge (hc : c.RoundTrip) (hown : ∀ v t u, Own v t → Own v u → t = u) {mE : EP → EP → EP} {i : Id}
    {u : Triple Id} {p : EP} (hi : Own (toBeBytes i).1 u) :
    Within c Own (· = u) N (Sled.mergeEdge c mE i u p) (OkIf c) := by
  have hr := fun d (h : Neat c Own d) => mergeEdge_neat h mE i u p
  obtain ⟨f, hf⟩ : ∃ f, Sled.mergeEdge c mE i u p = transaction f := ⟨_, rfl⟩
  rw [hf] at hr ⊢
  intro d hd
  rcases hr d hd with ⟨h1, h2⟩ | ⟨b, h1, h2⟩
  · have e1 : commit f d = d := congrArg Prod.fst h2
    show Neat c Own (commit f d) ∧ Only Own (· = u) N d (commit f d) ∧ _
    rw [e1]
    refine ⟨hd, .refl d, fun ht => ?_⟩
    rw [Codecs.okE, ht.2] at h1; cases h1
  · have e1 : commit f d = _ := congrArg Prod.fst h2
    have e2 : txResult f d = .ok () := congrArg Prod.snd h2
    show Neat c Own (commit f d) ∧ Only Own (· = u) N d (commit f d) ∧ OkIf c (txResult f d)
    rw [e1, e2]
    obtain ⟨h3, h4⟩ := neat_put (N := N) hd hi (hc.2 _ _ h1) (mergedProps_other hown hd hi)
      (fun w b' => mergedProps_some)
    exact ⟨h3, h4, fun _ => rfl⟩

/-- the transaction of remove_edge -/
theorem neat_removed (hown : ∀ v t u, Own v t → Own v u → t = u) {d : Db} (hd : Neat c Own d) (u : Triple Id) :
    Neat c Own (removed d u) ∧ Only Own (· = u) N d (removed d u) := by
  have hrec : (removed d u).edgeProps = match d.spo.get (encodeSpo u).1 with
      | some i => d.edgeProps.erase i
      | none => d.edgeProps := rfl
  refine ⟨neat_less hd (fun o k v hk => ?_) (fun v b hb => ?_) (fun _ _ => id),
    ⟨fun o x hx => ?_, fun v x hx ho => ?_, fun _ _ => rfl⟩⟩
  · rw [removed, unsetEdge_tree, withProps_tree] at hk
    exact get_erase_some hk
  · rw [hrec] at hb
    split at hb
    · exact get_erase_some hb
    · exact hb
  · rw [removed, unsetEdge_idIn, withProps_idIn, if_neg hx]
  · rw [hrec]
    split
    · rename_i i hi
      rw [BMap.get_erase, if_neg]
      rintro rfl
      exact hx (hown _ _ _ ho (hd.refs .SPO _ _ hi))
    · rfl

/-- deleting an entry of one ordering -/
theorem neat_unset {d d' : Db} (hd : Neat c Own d) (o : EdgeOrder) (u : Triple Id) (he : d'.edgeProps = d.edgeProps)
    (hn : d'.nodeProps = d.nodeProps) (ht : ∀ o', d'.tree o' = if o' = o then (d.tree o').erase (encOf o' u).1 else d.tree o') :
    Neat c Own d' ∧ Only Own (· = u) N d d' := by
  refine ⟨neat_less hd (fun o' k v hk => ?_) (fun v b hb => by rwa [he] at hb) (fun _ _ h => by rwa [hn] at h),
    only_tree (o := o) he hn (fun o' ho' => by rw [ht, if_neg ho']) (fun k hk => ?_)⟩
  · rw [ht] at hk
    split at hk
    · exact get_erase_some hk
    · exact hk
  · rw [ht, if_pos rfl, BMap.get_erase, if_neg hk]

/-- writing an entry of one ordering -/
theorem neat_set {d d' : Db} (hd : Neat c Own d) (o : EdgeOrder) (u : Triple Id) {i : Bytes} (hi : Own i u)
    (he : d'.edgeProps = d.edgeProps) (hn : d'.nodeProps = d.nodeProps)
    (ht : ∀ o', d'.tree o' = if o' = o then (d.tree o').insert (encOf o' u).1 i else d.tree o') :
    Neat c Own d' ∧ Only Own (· = u) N d d' := by
  refine ⟨hd.step (fun o' k v hk => ?_) (fun v b hb => .inl (by rwa [he] at hb)) (fun _ _ h => .inl (by rwa [hn] at h)),
    only_tree (o := o) he hn (fun o' ho' => by rw [ht, if_neg ho']) (fun k hk => ?_)⟩
  · rw [ht] at hk
    split at hk
    · rw [BMap.get_insert] at hk
      split at hk
      · cases hk; exact .inr ⟨u, by assumption, hi⟩
      · exact .inl hk
    · exact .inl hk
  · rw [ht, if_pos rfl, BMap.get_insert, if_neg hk]

/-- writing a record -/
theorem neat_rec (hown : ∀ v t u, Own v t → Own v u → t = u) {d : Db} (hd : Neat c Own d) {u : Triple Id} {i b : Bytes} {p : EP}
    (hi : Own i u) (hb : c.e.de b = some p) : Neat c Own { d with edgeProps := d.edgeProps.insert i b } ∧
      Only Own (· = u) N d { d with edgeProps := d.edgeProps.insert i b } := by
  refine ⟨hd.step (fun o k v hk => .inl (by rw [withProps_tree] at hk; exact hk)) (fun v b' h => ?_) (fun _ _ => .inl),
    ⟨fun o x _ => withProps_idIn _ _ _ _, fun v x hx ho => ?_, fun _ _ => rfl⟩⟩
  · rcases insert_get_cases h with h | rfl
    · exact .inl h
    · exact .inr ⟨p, hb⟩
  · show (d.edgeProps.insert i b).get v = _
    rw [BMap.get_insert, if_neg]
    rintro rfl
    exact hx (hown _ _ _ ho hi)

theorem within_removeEdge (hown : ∀ v t u, Own v t → Own v u → t = u) (u : Triple Id) :
    Within c Own (· = u) N (Sled.removeEdge u) (fun _ => True) := by
  intro d hd
  obtain ⟨h1, h2⟩ := neat_removed (N := N) hown hd u
  refine ⟨h1, h2, fun d1 hd1 => ?_⟩
  obtain ⟨h1, h2⟩ := neat_unset (N := N) (d' := { d1 with spo := d1.spo.erase (encodeSpo u).1 }) hd1 .SPO u rfl rfl
    (fun o => by cases o <;> rfl)
  refine ⟨h1, h2, fun d2 hd2 => ?_⟩
  obtain ⟨h1, h2⟩ := neat_unset (N := N) (d' := { d2 with pos := d2.pos.erase (encodePos u).1 }) hd2 .POS u rfl rfl
    (fun o => by cases o <;> rfl)
  refine ⟨h1, h2, fun d3 hd3 => ?_⟩
  obtain ⟨h1, h2⟩ := neat_unset (N := N) (d' := { d3 with osp := d3.osp.erase (encodeOsp u).1 }) hd3 .OSP u rfl rfl
    (fun o => by cases o <;> rfl)
  refine ⟨h1, h2, ?_⟩
  cases h : d1.spo.get (encodeSpo u).1 with
  | none => trivial
  | some i =>
    intro d4 hd4
    obtain ⟨h1, h2⟩ := neat_erase (N := N) hown hd4 (hd1.refs .SPO _ _ h)
    exact ⟨h1, h2, trivial⟩

/-- the transaction of remove_node -/
theorem neat_dropped (hown : ∀ v t u, Own v t → Own v u → t = u) {d : Db} (hd : Neat c Own d) {n : Id}
    {F B : List (Triple Id × Bytes)} (hF : ∀ x ∈ F ++ B, T x.1 ∧ Own x.2 x.1) :
    Neat c Own (dropped n F B d) ∧ Only Own T (· = n) d (dropped n F B d) := by
  refine ⟨neat_less hd (fun o k v hk => ?_) (fun v b hb => get_applyBatch_some (get_applyBatch_some hb))
    (fun k b hb => get_erase_some hb), ⟨fun o x hx => ?_, fun v x hx ho => ?_, fun m hm => ?_⟩⟩
  · rw [dropped_get] at hk
    split at hk
    · cases hk
    · exact hk
  · rw [dropped_idIn, if_neg]
    intro hm
    obtain ⟨y, hy, rfl⟩ := List.mem_map.1 hm
    exact hx (hF y hy).1
  · show (applyBatch (applyBatch d.edgeProps (F.map Prod.snd)) (B.map Prod.snd)).get v = _
    have key : ∀ y ∈ F ++ B, y.2 ≠ v := by
      rintro y hy rfl
      exact hx (hown _ _ _ ho (hF y hy).2 ▸ (hF y hy).1)
    rw [applyBatch_get, applyBatch_get, if_neg, if_neg]
    · intro hm
      obtain ⟨y, hy, e⟩ := List.mem_map.1 hm
      exact key y (List.mem_append_left _ hy) e
    · intro hm
      obtain ⟨y, hy, e⟩ := List.mem_map.1 hm
      exact key y (List.mem_append_right _ hy) e
  · show (d.nodeProps.erase (toBeBytes n).1).get _ = _
    rw [BMap.get_erase, if_neg (fun e => hm (toBe_inj.1 e))]

theorem within_scanned (hown : ∀ v t u, Own v t → Own v u → t = u) {n : Id} {fwd bwd : List (Bytes × Bytes)}
    (hf : ∀ (t : Triple Id) v, ((encodeSpo t).1, v) ∈ fwd → t.sub = n ∧ Own v t)
    (hb : ∀ (t : Triple Id) v, ((encodeOsp t).1, v) ∈ bwd → t.obj = n ∧ Own v t) :
    Within c Own (fun t => t.sub = n ∨ t.obj = n) (· = n) (removeNodeScanned n fwd bwd) (fun _ => True) := by
  rcases removeNodeScanned_cases n fwd bwd with ⟨r, e⟩ | ⟨F, B, hF, hB, e⟩
  · rw [e]; trivial
  · rw [e]
    intro d hd
    obtain ⟨h1, h2⟩ := neat_dropped (T := fun t : Triple Id => t.sub = n ∨ t.obj = n) (n := n) (F := F) (B := B) hown hd (by
      rintro ⟨t, v⟩ hx
      rcases List.mem_append.1 hx with hx | hx
      · obtain ⟨h1, h2⟩ := hf t v (by rw [hF]; exact List.mem_map.2 ⟨_, hx, rfl⟩)
        exact ⟨.inl h1, h2⟩
      · obtain ⟨h1, h2⟩ := hb t v (by rw [hB]; exact List.mem_map.2 ⟨_, hx, rfl⟩)
        exact ⟨.inr h1, h2⟩)
    exact ⟨h1, h2, trivial⟩

theorem scan_spo {d : Db} (n : Id) (t : Triple Id) (v : Bytes) :
    ((encodeSpo t).1, v) ∈ d.spo.rangeArr (keyBounds1 n) ↔ d.idIn .SPO t = some v ∧ t.sub = n := by
  rw [mem_rangeArr]
  exact and_congr Iff.rfl (LawfulId.kb1_spo n t)

theorem scan_osp {d : Db} (n : Id) (t : Triple Id) (v : Bytes) :
    ((encodeOsp t).1, v) ∈ d.osp.rangeArr (keyBounds1 n) ↔ d.idIn .OSP t = some v ∧ t.obj = n := by
  rw [mem_rangeArr]
  exact and_congr Iff.rfl (LawfulId.kb1_osp n t)

theorem within_removeNode (hown : ∀ v t u, Own v t → Own v u → t = u) (n : Id) :
    Within c Own (fun t => t.sub = n ∨ t.obj = n) (· = n) (removeNode n) (fun _ => True) := by
  rw [removeNode_eq]
  intro d1 hd1
  refine ⟨hd1, .refl d1, ?_⟩
  dsimp only
  cases forwardBatch Id ⟨[], [], [], []⟩ (d1.spo.rangeArr (keyBounds1 n)) with
  | error e => trivial
  | ok fb =>
    intro d2 hd2
    refine ⟨hd2, .refl d2, within_scanned hown (fun t v h => ?_) (fun t v h => ?_)⟩
    · obtain ⟨h1, h2⟩ := (scan_spo n t v).1 h
      exact ⟨h2, hd1.refs .SPO _ _ h1⟩
    · obtain ⟨h1, h2⟩ := (scan_osp n t v).1 h
      exact ⟨h2, hd2.refs .OSP _ _ h1⟩

/-! ## bulk operations -/

theorem bind_assoc {γ : Type} (p : Prog Db α) (f : α → Prog Db β) (g : β → Prog Db γ) :
    (p.bind f).bind g = p.bind (fun a => (f a).bind g) := by
  induction p with
  | ret a => rfl
  | call h k ih =>
    show Prog.call h (fun s => ((k s).bind f).bind g) = Prog.call h (fun s => (k s).bind (fun a => (f a).bind g))
    congr 1
    funext s
    exact ih s

theorem mergeNodes_bind (mN : NP → NP → NP) (k : Except (LR SErr E) Unit → Prog Db α) (l : List (Except E (Id × NP))) :
    mergeNodes c mN k l = (mergeNodes c mN .ret l).bind k := by
  induction l with
  | nil => rfl
  | cons x l ih =>
    cases x with
    | error e => rfl
    | ok x =>
      rw [mergeNodes, mergeNodes, bind_assoc]
      congr 1
      funext r
      cases r with
      | error e => rfl
      | ok _ => exact ih

theorem extendNodes_bind (k : Except (LR SErr E) Unit → Prog Db α) (l : List (Except E (Id × NP))) :
    extendNodes c k l = (extendNodes c .ret l).bind k := by
  induction l with
  | nil => rfl
  | cons x l ih =>
    cases x with
    | error e => rfl
    | ok x =>
      rw [extendNodes, extendNodes]
      cases c.n.ser x.2 with
      | none => rfl
      | some b =>
        show Prog.call _ _ = Prog.call _ _
        congr 1
        funext s
        exact ih

variable (c) in
/-- how the loop over the nodes of a source ends -/
def EndsAs (l : List (Except E α)) (r : Except (LR SErr E) Unit) : Prop :=
  c.Total → (fails l = true ∧ ∃ e, r = .error e) ∨ (fails l = false ∧ r = .ok ())

theorem within_mergeNodes (hc : c.RoundTrip) (mN : NP → NP → NP) (l : List (Except E (Id × NP))) :
    Within c Own T (fun n => ∃ p, .ok (n, p) ∈ l) (mergeNodes c mN .ret l) (EndsAs c l) := by
  induction l with
  | nil => exact fun _ => .inr ⟨rfl, rfl⟩
  | cons x l ih =>
    cases x with
    | error e => exact fun _ => .inl ⟨rfl, _, rfl⟩
    | ok x =>
      rw [mergeNodes]
      have h1 : Within c Own T (fun n => ∃ p, .ok (n, p) ∈ .ok x :: l) (Sled.mergeNode c mN x.1 x.2) (OkIf c) :=
        (within_mergeNode hc mN x.1 x.2).mono (fun _ => id)
          (fun n hn => ⟨x.2, by rw [hn]; exact List.mem_cons_self⟩) (fun _ => id)
      refine h1.bind (fun r hr => ?_)
      cases r with
      | error e => exact fun ht => nomatch hr ht
      | ok _ => exact ih.mono (fun _ => id) (fun n ⟨p, hp⟩ => ⟨p, List.mem_cons_of_mem _ hp⟩) (fun r h => h)

theorem within_extendNodes (hc : c.RoundTrip) (l : List (Except E (Id × NP))) :
    Within c Own T (fun n => ∃ p, .ok (n, p) ∈ l) (extendNodes c .ret l) (EndsAs c l) := by
  induction l with
  | nil => exact fun _ => .inr ⟨rfl, rfl⟩
  | cons x l ih =>
    cases x with
    | error e => exact fun _ => .inl ⟨rfl, _, rfl⟩
    | ok x =>
      rw [extendNodes]
      cases hb : c.n.ser x.2 with
      | none => exact fun ht => by have := ht.1 x.2; rw [hb] at this; cases this
      | some b =>
        intro d hd
        obtain ⟨h1, h2⟩ := neat_nodes (T := T) hd (n := x.1) (hc.1 _ _ hb)
        refine ⟨h1, ⟨h2.ids, h2.recs, fun n hn => h2.nodes n (fun e => hn ⟨x.2, ?_⟩)⟩,
          ih.mono (fun _ => id) (fun n ⟨p, hp⟩ => ⟨p, List.mem_cons_of_mem _ hp⟩) (fun r h => h)⟩
        rw [e]; exact List.mem_cons_self

theorem within_mergeEdges (hc : c.RoundTrip) (hown : ∀ v t u, Own v t → Own v u → t = u) {mE : EP → EP → EP}
    (l : List (Except E (Triple Id × EP))) (g : Gen Id) (hg : ∀ x ∈ Call.drawnFor g l, Own x.1 x.2) :
    Within c Own (fun t => ∃ p, .ok (t, p) ∈ l) N (mergeEdges c mE g l) (fun _ => True) := by
  induction l generalizing g with
  | nil => trivial
  | cons x l ih =>
    cases x with
    | error e => trivial
    | ok x =>
      rw [mergeEdges]
      have h1 : Within c Own (fun t => ∃ p, .ok (t, p) ∈ .ok x :: l) N
          (Sled.mergeEdge c mE (Gen.fresh g).1 x.1 x.2) (OkIf c) :=
        (within_mergeEdge hc hown (hg _ List.mem_cons_self)).mono
          (fun t ht => ⟨x.2, by rw [ht]; exact List.mem_cons_self⟩) (fun _ => id) (fun _ => id)
      refine h1.bind (fun r hr => ?_)
      cases r with
      | error e => trivial
      | ok _ =>
        exact (ih _ (fun y hy => hg y (List.mem_cons_of_mem _ hy))).mono
          (fun t ⟨p, hp⟩ => ⟨p, List.mem_cons_of_mem _ hp⟩) (fun _ => id) (fun r h => h)

theorem within_extendEdges (hc : c.RoundTrip) (hown : ∀ v t u, Own v t → Own v u → t = u)
    (l : List (Except E (Triple Id × EP))) (g : Gen Ulid) (hg : ∀ x ∈ Call.drawnFor g l, Own x.1 x.2) :
    Within c Own (fun t => ∃ p, .ok (t, p) ∈ l) N (extendEdges c g l) (fun _ => True) := by
  induction l generalizing g with
  | nil => trivial
  | cons x l ih =>
    cases x with
    | error e => trivial
    | ok x =>
      rw [extendEdges]
      cases hb : c.e.ser x.2 with
      | none => trivial
      | some b =>
        have hi : Own (toBeBytes (Gen.fresh g).1).1 x.1 := hg _ List.mem_cons_self
        have only : ∀ {d d' : Db}, Only Own (· = x.1) N d d' → Only Own (fun t => ∃ p, .ok (t, p) ∈ .ok x :: l) N d d' := by
          intro d d' h
          have hne : ∀ u : Triple Id, (¬ ∃ p, Except.ok (u, p) ∈ (.ok x :: l : List (Except E (Triple Id × EP)))) → u ≠ x.1 := by
            rintro u hu rfl
            exact hu ⟨x.2, List.mem_cons_self⟩
          exact ⟨fun o u hu => h.ids o u (hne u hu), fun v u hu => h.recs v u (hne u hu), h.nodes⟩
        have hrest := (ih (Gen.fresh g).2 (fun y hy => hg y (List.mem_cons_of_mem _ hy))).mono
            (T' := fun t => ∃ p, .ok (t, p) ∈ .ok x :: l) (N' := N) (R' := fun _ => True)
            (fun t ⟨p, hp⟩ => ⟨p, List.mem_cons_of_mem _ hp⟩) (fun _ => id) (fun r h => h)
        intro d hd
        obtain ⟨h1, h2⟩ := neat_rec (N := N) hown hd hi (hc.2 _ _ hb)
        refine ⟨h1, only h2, fun d1 hd1 => ?_⟩
        obtain ⟨h1, h2⟩ := neat_set (N := N)
          (d' := { d1 with spo := d1.spo.insert (encodeSpo x.1).1 (toBeBytes (Gen.fresh g).1).1 }) hd1 .SPO x.1 hi rfl rfl
          (fun o => by cases o <;> rfl)
        refine ⟨h1, only h2, fun d2 hd2 => ?_⟩
        obtain ⟨h1, h2⟩ := neat_set (N := N)
          (d' := { d2 with pos := d2.pos.insert (encodePos x.1).1 (toBeBytes (Gen.fresh g).1).1 }) hd2 .POS x.1 hi rfl rfl
          (fun o => by cases o <;> rfl)
        refine ⟨h1, only h2, fun d3 hd3 => ?_⟩
        obtain ⟨h1, h2⟩ := neat_set (N := N)
          (d' := { d3 with osp := d3.osp.insert (encodeOsp x.1).1 (toBeBytes (Gen.fresh g).1).1 }) hd3 .OSP x.1 hi rfl rfl
          (fun o => by cases o <;> rfl)
        refine ⟨h1, only h2, ?_⟩
        cases h : d1.spo.get (encodeSpo x.1).1 with
        | none => exact hrest
        | some i =>
          intro d4 hd4
          obtain ⟨h1, h2⟩ := neat_erase (N := N) hown hd4 (hd1.refs .SPO _ _ h)
          exact ⟨h1, only h2, hrest⟩

theorem within_merge (hc : c.RoundTrip) (hown : ∀ v t u, Own v t → Own v u → t = u) {mN : NP → NP → NP} {mE : EP → EP → EP}
    {g : Gen Id} {src : Source E Id NP EP} (hg : ∀ x ∈ Call.drawnFor g src.edges, Own x.1 x.2) :
    Within c Own (fun t => ∃ p, .ok (t, p) ∈ src.edges) (fun n => ∃ p, .ok (n, p) ∈ src.nodes)
      (merge c mN mE g src) (fun _ => True) := by
  unfold merge
  rw [mergeNodes_bind]
  refine (within_mergeNodes hc mN src.nodes).bind (fun r _ => ?_)
  cases r with
  | error e => trivial
  | ok _ => exact within_mergeEdges hc hown _ _ hg

theorem within_extend (hc : c.RoundTrip) (hown : ∀ v t u, Own v t → Own v u → t = u)
    {g : Gen Ulid} {src : Source E Id NP EP} (hg : ∀ x ∈ Call.drawnFor g src.edges, Own x.1 x.2) :
    Within c Own (fun t => ∃ p, .ok (t, p) ∈ src.edges) (fun n => ∃ p, .ok (n, p) ∈ src.nodes)
      (extend c g src) (fun _ => True) := by
  unfold extend
  rw [extendNodes_bind]
  refine (within_extendNodes hc src.nodes).bind (fun r _ => ?_)
  cases r with
  | error e => trivial
  | ok _ => exact within_extendEdges hc hown _ _ hg

variable (Own) in
/-- the scans of `remove_node` have seen edges at the node, with their ids -/
def Call.Scanned : Call E Id NP EP → Prop
  | .removeNodeScan n fwd bwd => (∀ (t : Triple Id) v, ((encodeSpo t).1, v) ∈ fwd → t.sub = n ∧ Own v t) ∧
      (∀ (t : Triple Id) v, ((encodeOsp t).1, v) ∈ bwd → t.obj = n ∧ Own v t) ∧
      (∀ e ∈ fwd, ∃ t : Triple Id, e.1 = (encodeSpo t).1) ∧ ∀ e ∈ bwd, ∃ t : Triple Id, e.1 = (encodeOsp t).1
  | _ => True

/-- What a call touches. -/
theorem within_prog (hc : c.RoundTrip) (hown : ∀ v t u, Own v t → Own v u → t = u) (mN : NP → NP → NP) (mE : EP → EP → EP)
    (x : Call E Id NP EP) (hw : ∀ y ∈ x.writes, Own y.1 y.2) (hs : x.Scanned Own) :
    Within c Own (fun t => x.TouchesEdge t) (fun n => x.TouchesNode n) (x.prog c mN mE) (fun _ => True) := by
  cases x with
  | insertNode n p => exact ((within_insertNode hc n p).mono (fun _ => id) (fun _ => id) (fun _ h => h)).bind (fun _ _ => trivial)
  | insertEdge i t p =>
    exact (within_insertEdge hc hown (hw ((toBeBytes i).1, t) (List.mem_singleton.2 rfl))).bind (fun _ _ => trivial)
  | removeNode n => exact (within_removeNode hown n).bind (fun _ _ => trivial)
  | removeNodeScan n fwd bwd => exact (within_scanned hown hs.1 hs.2.1).bind (fun _ _ => trivial)
  | removeEdge t => exact (within_removeEdge hown t).bind (fun _ _ => trivial)
  | mergeNode n p => exact (within_mergeNode hc mN n p).bind (fun _ _ => trivial)
  | mergeEdge i t p => exact (within_mergeEdge hc hown (hw ((toBeBytes i).1, t) (List.mem_singleton.2 rfl))).bind (fun _ _ => trivial)
  | extend u src => exact (within_extend hc hown hw).bind (fun _ _ => trivial)
  | merge g src => exact (within_merge hc hown hw).bind (fun _ _ => trivial)

end Sled

end Verif
