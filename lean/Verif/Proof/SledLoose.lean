import Verif.Proof.LinearGhost
import Verif.Proof.SledBulk

/-! # The first ordering, whoever races with whom -/

set_option linter.unusedSectionVars false

namespace Verif

open Spec ConcreteId

variable {Id NP EP E : Type} [LinearOrder Id] [ConcreteId Id] [LawfulId Id]

namespace Sled

open Db

/-- Every id in an ordering is known to be used (`X`), and those in the first ordering have a record. -/
structure SpoOk (c : Codecs NP EP) (Own : Bytes → Triple Id → Prop) (d : Db) (X : Bytes → Prop) : Prop where
  neat : Neat c Own d
  used : ∀ (o : EdgeOrder) (t : Triple Id) (v : Bytes), d.idIn o t = some v → X v
  recs : ∀ (t : Triple Id) (v : Bytes), d.idIn .SPO t = some v → ∃ b, d.edgeProps.get v = some b

/-- `ids`: those to be used yet; `alone`: the edges which no other thread writes. -/
structure Plan (Id : Type) where
  ids : List Bytes
  alone : Triple Id → Prop

def Plan.to (a : Plan Id) (L : List Bytes) : Plan Id := { a with ids := L }

def spoRG (c : Codecs NP EP) (Own : Bytes → Triple Id → Prop) : RG Db (Bytes → Prop) (Plan Id) where
  inv := SpoOk c Own
  rely a x y := (∀ v, x.2 v → y.2 v) ∧
    (∀ v, x.2 v → (∀ t : Triple Id, x.1.idIn .SPO t ≠ some v) → ∀ t : Triple Id, y.1.idIn .SPO t ≠ some v) ∧
    (∀ v ∈ a.ids, y.1.edgeProps.get v = x.1.edgeProps.get v) ∧
    ∀ t, a.alone t → x.1.idIn .SPO t = none → y.1.idIn .SPO t = none
  ok a X := ∀ v ∈ a.ids, ¬ X v
  par a b := (∀ v ∈ a.ids, v ∉ b.ids) ∧ ∀ v ∈ a.ids, ∀ t, Own v t → ¬ b.alone t
  seq a b := ∀ v ∈ a.ids, v ∉ b.ids
  le a b := (∀ v ∈ a.ids, v ∈ b.ids) ∧ a.alone = b.alone
  rely_refl _ _ := ⟨fun _ => id, fun _ _ => id, fun _ _ => rfl, fun _ _ => id⟩
  rely_trans _ _ _ _ h h' := ⟨fun v hv => h'.1 v (h.1 v hv), fun v hv hn => h'.2.1 v (h.1 v hv) (h.2.1 v hv hn),
    fun v hv => (h'.2.2.1 v hv).trans (h.2.2.1 v hv), fun t ht hn => h'.2.2.2 t ht (h.2.2.2 t ht hn)⟩
  le_trans _ _ _ h h' := ⟨fun v hv => h'.1 v (h.1 v hv), h.2.trans h'.2⟩
  par_le _ _ _ h := by
    obtain ⟨h1, h2⟩ := h
    rw [h2]
    exact ⟨fun hp => ⟨fun v hv => hp.1 v (h1 v hv), fun v hv => hp.2 v (h1 v hv)⟩,
      fun hp => ⟨fun v hv hv' => hp.1 v hv (h1 v hv'), hp.2⟩⟩
  seq_le _ _ _ h hp v hv := hp v (h.1 v hv)

variable {c : Codecs NP EP} {mN : NP → NP → NP} {mE : EP → EP → EP} {b : Bool} {α β : Type}
  {Own : Bytes → Triple Id → Prop} {WS WO : Triple Id → Prop} {a : Plan Id}

/-- what a call may do: it writes ids of its own, and changes only records which are its own or in use -/
structure Fair (c : Codecs NP EP) (Own : Bytes → Triple Id → Prop) (a : Plan Id) (d : Db) (X : Bytes → Prop) (d' : Db)
    (L : List Bytes) (X' : Bytes → Prop) : Prop where
  inv : SpoOk c Own d' X'
  less : ∀ v ∈ L, v ∈ a.ids
  free : ∀ v ∈ L, ¬ X' v
  grow : ∀ v, X v → X' v
  mine : ∀ v, X' v → X v ∨ v ∈ a.ids
  adds : ∀ (t : Triple Id) v, d'.idIn .SPO t = some v → d.idIn .SPO t = some v ∨ v ∈ a.ids
  recs : ∀ v, ¬ X v → v ∉ a.ids → d'.edgeProps.get v = d.edgeProps.get v

theorem Fair.allowed {d d' : Db} {X X' : Bytes → Prop} {L : List Bytes} (h : Fair c Own a d X d' L X') (ok : ∀ v ∈ a.ids, ¬ X v) :
    (spoRG c Own).Allowed a d X d' (a.to L) X' := by
  have free : ∀ M : Plan Id, (∀ v ∈ a.ids, v ∉ M.ids) → (∀ v ∈ M.ids, ¬ X v) → ∀ v ∈ M.ids, ¬ X' v := by
    intro M hp hM v hv hx
    rcases h.mine v hx with h | h
    · exact hM v hv h
    · exact hp v h hv
  refine ⟨⟨h.less, rfl⟩, h.inv, h.free, fun M hp hM => ⟨⟨h.grow, fun v hv hn t ht => ?_, fun v hv => ?_, fun t ht hn => ?_⟩,
    free M hp.1 hM⟩, fun M hp hM => free M hp hM⟩
  · rcases h.adds t v ht with h | h
    · exact hn t h
    · exact ok v h hv
  · exact h.recs v (hM v hv) (fun h => hp.1 v h hv)
  · cases hv : d'.idIn .SPO t with
    | none => rfl
    | some v =>
      rcases h.adds t v hv with h | h'
      · rw [hn] at h; cases h
      · exact absurd ht (hp.2 v h' t (h.inv.neat.refs _ _ _ hv))

/-- the orderings agree, but for some edges -/
def Agreed (WO : Triple Id → Prop) (d : Db) : Prop := ∀ t, ¬ WO t → AgreeAt t d

variable (E c mN mE b Own WS WO) in
/-- the program does the operations, as far as the first ordering shows -/
abbrev DoesS (a : Plan Id) (p : Prog Db α) (x : Db × (Bytes → Prop)) (l : List (Op E Id NP EP)) : Prop :=
  (spoRG c Own).SafeE (fun d => d.graph c) (LooseStep c.okN c.okE mN mE WS WO) (Agreed WO) b p a x l

/-- a call which does one operation -/
theorem doesS_one {f : Db → Db} {k : Db → Prog Db α} {x : Db × (Bytes → Prop)} {op : Op E Id NP EP} {l : List (Op E Id NP EP)}
    (h : ∀ d X, (spoRG c Own).rely a x (d, X) → SpoOk c Own d X → (∀ v ∈ a.ids, ¬ X v) →
      ∃ L X', Fair c Own a d X (f d) L X' ∧ LooseStep c.okN c.okE mN mE WS WO (d.graph c) op ((f d).graph c) ∧
        DoesS E c mN mE b Own WS WO (a.to L) (k d) (f d, X') l) :
    DoesS E c mN mE b Own WS WO a (.call f k) x (op :: l) := by
  intro d X hr hi hok _
  obtain ⟨L, X', h1, h2, h3⟩ := h d X hr hi hok
  exact ⟨a.to L, X', h1.allowed hok, [op], l, rfl, runs_one h2, h3⟩

/-- a call which does nothing -/
theorem doesS_noneJ {f : Db → Db} {k : Db → Prog Db α} {x : Db × (Bytes → Prop)} {l : List (Op E Id NP EP)}
    (h : ∀ d X, (spoRG c Own).rely a x (d, X) → SpoOk c Own d X → (∀ v ∈ a.ids, ¬ X v) → Agreed WO d →
      Fair c Own a d X (f d) a.ids X ∧ (f d).graph c = d.graph (Id := Id) c ∧
        DoesS E c mN mE b Own WS WO a (k d) (f d, X) l) :
    DoesS E c mN mE b Own WS WO a (.call f k) x l := by
  intro d X hr hi hok hJ
  obtain ⟨h1, h2, h3⟩ := h d X hr hi hok hJ
  exact ⟨a, X, h1.allowed hok, [], l, rfl, h2, h3⟩

theorem doesS_none {f : Db → Db} {k : Db → Prog Db α} {x : Db × (Bytes → Prop)} {l : List (Op E Id NP EP)}
    (h : ∀ d X, (spoRG c Own).rely a x (d, X) → SpoOk c Own d X → (∀ v ∈ a.ids, ¬ X v) →
      Fair c Own a d X (f d) a.ids X ∧ (f d).graph c = d.graph (Id := Id) c ∧
        DoesS E c mN mE b Own WS WO a (k d) (f d, X) l) :
    DoesS E c mN mE b Own WS WO a (.call f k) x l :=
  doesS_noneJ (fun d X h1 h2 h3 _ => h d X h1 h2 h3)

/-- a call that draws no id -/
theorem fair_drop {d d' : Db} {X : Bytes → Prop} (ok : ∀ v ∈ a.ids, ¬ X v) (h : SpoOk c Own d' X)
    (hs : ∀ (t : Triple Id) v, d'.idIn .SPO t = some v → d.idIn .SPO t = some v)
    (hr : ∀ v, ¬ X v → v ∉ a.ids → d'.edgeProps.get v = d.edgeProps.get v) : Fair c Own a d X d' a.ids X :=
  ⟨h, fun _ => id, ok, fun _ => id, fun _ => .inl, fun t v hv => .inl (hs t v hv), hr⟩

theorem fair_same {d : Db} {X : Bytes → Prop} (ok : ∀ v ∈ a.ids, ¬ X v) (h : SpoOk c Own d X) : Fair c Own a d X d a.ids X :=
  fair_drop ok h (fun _ _ => id) (fun _ _ _ => rfl)

variable (E c mN mE b Own WS WO) in
/-- what a call goes on with after a serialization error -/
abbrev StopsS (a : Plan Id) (k : Except SErr Unit → Prog Db α) : Prop :=
  b = true → ∀ e L (l : List (Op E Id NP EP)) y, DoesS E c mN mE b Own WS WO (a.to L) (k (.error e)) y l

/-! ## nodes -/

theorem spoOk_nodes {d : Db} {X : Bytes → Prop} (h : SpoOk c Own d X) {n : Id} {v : Bytes} {p : NP} (hb : c.n.de v = some p) :
    SpoOk c Own { d with nodeProps := d.nodeProps.insert (toBeBytes n).1 v } X :=
  ⟨(neat_nodes (T := fun _ => False) h.neat hb).1, fun o t v hv => h.used o t v (by rwa [withNodes_idIn] at hv),
    fun t v hv => h.recs t v (by rwa [withNodes_idIn] at hv)⟩

theorem doesS_insertNode (hc : c.RoundTrip) (hb : b = true ∨ c.Total) {n : Id} {p : NP} {l : List (Op E Id NP EP)}
    {k : Except SErr Unit → Prog Db α} (hk : ∀ y, DoesS E c mN mE b Own WS WO a (k (.ok ())) y l)
    (hs : StopsS E c mN mE b Own WS WO a k) (x : Db × (Bytes → Prop)) :
    DoesS E c mN mE b Own WS WO a ((Sled.insertNode c n p).bind k) x (.insertNode n p :: l) := by
  unfold Sled.insertNode
  cases hp : c.n.ser p with
  | none =>
    rcases hb with hb | hb
    · exact hs hb _ a.ids _ _
    · have := hb.1 p; rw [hp] at this; cases this
  | some v =>
    refine doesS_one (fun d X _ hi hok => ⟨a.ids, X, fair_drop hok (spoOk_nodes hi (hc.1 _ _ hp))
      (fun t v hv => by rwa [withNodes_idIn] at hv) (fun _ _ _ => rfl), ?_, hk _⟩)
    have ok : c.okN p = true := by unfold Codecs.okN; rw [hp]; rfl
    simp only [LooseStep, Op.step, storeNode, ok, if_true, one]
    rw [← insNode_graph (hc.1 _ _ hp)]

theorem doesS_mergeNode (hc : c.RoundTrip) (hb : b = true ∨ c.Total) {n : Id} {p : NP} {l : List (Op E Id NP EP)}
    {k : Except SErr Unit → Prog Db α} (hk : ∀ y, DoesS E c mN mE b Own WS WO a (k (.ok ())) y l)
    (hs : StopsS E c mN mE b Own WS WO a k) (x : Db × (Bytes → Prop)) :
    DoesS E c mN mE b Own WS WO a ((Sled.mergeNode c mN n p).bind k) x (.mergeNode n p :: l) := by
  have hr := fun d (h : NodesOk Id c d) => mergeNode_neat h mN n p
  obtain ⟨f, hf⟩ : ∃ f, Sled.mergeNode c mN n p = transaction f := ⟨_, rfl⟩
  rw [hf] at hr ⊢
  rw [tx_bind']
  refine doesS_one (fun d X _ hi hok => ?_)
  rcases hr d hi.neat.nodes with ⟨h1, h2⟩ | ⟨v, h1, h2⟩
  · have e1 : commit f d = d := congrArg Prod.fst h2
    have e2 : txResult f d = .error .serialization := congrArg Prod.snd h2
    rw [e1]
    refine ⟨a.ids, X, fair_same hok hi, ?_, ?_⟩
    · simp [LooseStep, Op.step, storeMergedNode, storeNode, h1, one]
    · rw [e2]
      rcases hb with hb | hb
      · exact hs hb _ _ _ _
      · rw [Codecs.okN, hb.1] at h1; cases h1
  · have e1 : commit f d = _ := congrArg Prod.fst h2
    have e2 : txResult f d = .ok () := congrArg Prod.snd h2
    rw [e1]
    refine ⟨a.ids, X, fair_drop hok (spoOk_nodes hi (hc.1 _ _ h1)) (fun t v hv => by rwa [withNodes_idIn] at hv)
      (fun _ _ _ => rfl), ?_, by rw [e2]; exact hk _⟩
    have ok : c.okN (merged mN ((d.graph c).nodes n) p) = true := by unfold Codecs.okN; rw [h1]; rfl
    simp only [LooseStep, Op.step, storeMergedNode, storeNode, ok, if_true, one]
    rw [← insNode_graph (hc.1 _ _ h1)]

/-! ## writing an edge in a transaction -/

theorem fair_put {L : List Bytes} {d : Db} {X : Bytes → Prop} {t : Triple Id} {i v : Bytes} {p : EP}
    (ha : a.ids = i :: L) (hnd : i ∉ L) (ok : ∀ v ∈ a.ids, ¬ X v) (h : SpoOk c Own d X) (hi : Own i t) (hv : c.e.de v = some p)
    {m : Tree} (hm : ∀ w x, Own w x → x ≠ t → m.get w = d.edgeProps.get w)
    (hs : ∀ w b', m.get w = some b' → d.edgeProps.get w = some b' ∨ b' = v) (hmi : m.get i = some v)
    (hr : ∀ w, ¬ X w → w ≠ i → m.get w = d.edgeProps.get w) :
    Fair c Own a d X ({ d with edgeProps := m }.setEdge t i) L (fun v => X v ∨ v = i) := by
  have ia : i ∈ a.ids := by rw [ha]; exact List.mem_cons_self
  have La : ∀ v ∈ L, v ∈ a.ids := fun v hv => by rw [ha]; exact List.mem_cons_of_mem _ hv
  have hid : ∀ o u w, ({ d with edgeProps := m }.setEdge t i).idIn o u = some w → (u = t ∧ w = i) ∨ (u ≠ t ∧ d.idIn o u = some w) := by
    intro o u w hw
    rw [setEdge_idIn, withProps_idIn] at hw
    split at hw
    · exact .inl ⟨by assumption, (Option.some.inj hw).symm⟩
    · exact .inr ⟨by assumption, hw⟩
  refine ⟨⟨(neat_put (N := fun _ => False) h.neat hi hv hm hs).1, fun o u w hw => ?_, fun u w hw => ?_⟩, La, ?_, fun _ => .inl, ?_,
    fun u w hw => ?_, fun w hw hn => hr w hw (by rintro rfl; exact hn ia)⟩
  · rcases hid o u w hw with ⟨-, rfl⟩ | ⟨-, h'⟩
    · exact .inr rfl
    · exact .inl (h.used o u w h')
  · show ∃ b, m.get w = some b
    rcases hid .SPO u w hw with ⟨-, rfl⟩ | ⟨hu, h'⟩
    · exact ⟨v, hmi⟩
    · rw [hm w u (h.neat.refs _ _ _ h') hu]
      exact h.recs u w h'
  · rintro w hw (hx | rfl)
    · exact ok w (La w hw) hx
    · exact hnd hw
  · rintro w (hw | rfl)
    · exact .inl hw
    · exact .inr ia
  · rcases hid .SPO u w hw with ⟨-, rfl⟩ | ⟨-, h'⟩
    · exact .inr ia
    · exact .inl h'

theorem doesS_insertEdge (hc : c.RoundTrip) (hb : b = true ∨ c.Total) (hown : ∀ v t u, Own v t → Own v u → t = u)
    {L : List Bytes} {i : Id} {t : Triple Id} {p : EP} (ha : a.ids = (toBeBytes i).1 :: L) (hnd : (toBeBytes i).1 ∉ L)
    (ho : Own (toBeBytes i).1 t) {l : List (Op E Id NP EP)} {k : Except SErr Unit → Prog Db α}
    (hk : ∀ y, DoesS E c mN mE b Own WS WO (a.to L) (k (.ok ())) y l)
    (hs : StopsS E c mN mE b Own WS WO a k) (x : Db × (Bytes → Prop)) :
    DoesS E c mN mE b Own WS WO a ((Sled.insertEdge c i t p).bind k) x (.insertEdge t p :: l) := by
  unfold Sled.insertEdge
  cases hp : c.e.ser p with
  | none =>
    rcases hb with hb | hb
    · exact hs hb _ a.ids _ _
    · have := hb.2 p; rw [hp] at this; cases this
  | some v =>
    have other : ∀ (d : Db) (w : Bytes), w ≠ (toBeBytes i).1 → (d.edgeProps.insert (toBeBytes i).1 v).get w = d.edgeProps.get w :=
      fun d w hw => by rw [BMap.get_insert, if_neg hw]
    have hm : ∀ (d : Db) (w : Bytes) (y : Triple Id), Own w y → y ≠ t →
        (d.edgeProps.insert (toBeBytes i).1 v).get w = d.edgeProps.get w :=
      fun d w y hw hy => other d w (by rintro rfl; exact hy (hown _ _ _ hw ho))
    refine doesS_one (fun d X _ hi hok => ⟨L, _, fair_put (m := d.edgeProps.insert (toBeBytes i).1 v) ha hnd hok hi ho
      (hc.2 _ _ hp) (hm d) (fun w b' h => ?_) (BMap.get_insert_self _ _ _) (fun w _ => other d w), ?_, hk _⟩)
    · rcases insert_get_cases h with h | rfl
      · exact .inl h
      · exact .inr rfl
    · have ok : c.okE p = true := by unfold Codecs.okE; rw [hp]; rfl
      simp only [LooseStep, Op.step, storeEdge, ok, if_true, one]
      rw [← put_graph (m := d.edgeProps.insert (toBeBytes i).1 v) hi.neat (hc.2 _ _ hp) (hm d) (BMap.get_insert_self _ _ _)]
      rfl

theorem doesS_mergeEdge (hc : c.RoundTrip) (hb : b = true ∨ c.Total) (hown : ∀ v t u, Own v t → Own v u → t = u)
    {L : List Bytes} {i : Id} {t : Triple Id} {p : EP} (ha : a.ids = (toBeBytes i).1 :: L) (hnd : (toBeBytes i).1 ∉ L)
    (ho : Own (toBeBytes i).1 t) {l : List (Op E Id NP EP)} {k : Except SErr Unit → Prog Db α}
    (hk : ∀ y, DoesS E c mN mE b Own WS WO (a.to L) (k (.ok ())) y l)
    (hs : StopsS E c mN mE b Own WS WO a k) (x : Db × (Bytes → Prop)) :
    DoesS E c mN mE b Own WS WO a ((Sled.mergeEdge c mE i t p).bind k) x (.mergeEdge t p :: l) := by
  have hr := fun d (h : Neat c Own d) => mergeEdge_neat h mE i t p
  obtain ⟨f, hf⟩ : ∃ f, Sled.mergeEdge c mE i t p = transaction f := ⟨_, rfl⟩
  rw [hf] at hr ⊢
  rw [tx_bind']
  refine doesS_one (fun d X _ hi hok => ?_)
  rcases hr d hi.neat with ⟨h1, h2⟩ | ⟨v, h1, h2⟩
  · have e1 : commit f d = d := congrArg Prod.fst h2
    have e2 : txResult f d = .error .serialization := congrArg Prod.snd h2
    rw [e1]
    refine ⟨a.ids, X, fair_same hok hi, ?_, ?_⟩
    · simp [LooseStep, Op.step, storeMergedEdge, storeEdge, h1, one]
    · rw [e2]
      rcases hb with hb | hb
      · exact hs hb _ _ _ _
      · rw [Codecs.okE, hb.2] at h1; cases h1
  · have e1 : commit f d = _ := congrArg Prod.fst h2
    have e2 : txResult f d = .ok () := congrArg Prod.snd h2
    rw [e1]
    refine ⟨L, _, fair_put ha hnd hok hi ho (hc.2 _ _ h1) (mergedProps_other hown hi.neat ho)
      (fun w b' h => mergedProps_some h) (mergedProps_self _ _ _ _) (fun w hw hn => ?_), ?_, by rw [e2]; exact hk _⟩
    · unfold mergedProps
      split
      · rw [BMap.get_insert, if_neg hn]
      · rename_i o ho'
        rw [BMap.get_insert, if_neg hn, BMap.get_erase, if_neg]
        rintro rfl
        exact hw (hi.used .SPO t _ ho')
    · have ok : c.okE (merged mE ((d.graph c).edges t) p) = true := by unfold Codecs.okE; rw [h1]; rfl
      simp only [LooseStep, Op.step, storeMergedEdge, storeEdge, ok, if_true, one]
      rw [← put_graph hi.neat (hc.2 _ _ h1) (mergedProps_other hown hi.neat ho) (mergedProps_self _ _ _ _)]

/-! ## one tree at a time -/

/-- a change of one of the other orderings -/
theorem fair_other {d d' : Db} {X : Bytes → Prop} (ok : ∀ v ∈ a.ids, ¬ X v) (h : SpoOk c Own d X) (hn : Neat c Own d')
    (hu : ∀ o (t : Triple Id) v, d'.idIn o t = some v → X v) (he : d'.edgeProps = d.edgeProps)
    (hs : d'.spo = d.spo) : Fair c Own a d X d' a.ids X :=
  fair_drop ok ⟨hn, hu, fun t v hv => by rw [he]; refine h.recs t v ?_; unfold Db.idIn Db.tree at hv ⊢; rwa [hs] at hv⟩
    (fun t v hv => by unfold Db.idIn Db.tree at hv ⊢; rwa [hs] at hv) (fun v _ _ => by rw [he])

theorem graph_other {d d' : Db} (hs : d'.spo = d.spo) (he : d'.edgeProps = d.edgeProps) (hn : d'.nodeProps = d.nodeProps) :
    d'.graph c = d.graph (Id := Id) c := by
  refine Graph.ext' (fun m => ?_) (fun u => ?_)
  · simp only [graph, hn]
  · simp only [graph, view, he]
    unfold Db.idIn Db.tree
    simp only [hs]

/-- deleting a record no id in the first ordering refers to -/
theorem fair_erase (hown : ∀ v t u, Own v t → Own v u → t = u) {d : Db} {X : Bytes → Prop} {i : Bytes} {t : Triple Id}
    (ok : ∀ v ∈ a.ids, ¬ X v) (h : SpoOk c Own d X) (hi : Own i t) (hx : X i) (hn : ∀ u : Triple Id, d.idIn .SPO u ≠ some i) :
    Fair c Own a d X { d with edgeProps := d.edgeProps.erase i } a.ids X ∧
      ({ d with edgeProps := d.edgeProps.erase i } : Db).graph c = d.graph (Id := Id) c := by
  have key : ∀ v, v ≠ i → (d.edgeProps.erase i).get v = d.edgeProps.get v := fun v hv => by rw [BMap.get_erase, if_neg hv]
  refine ⟨fair_drop ok ⟨(neat_erase (N := fun _ => False) hown h.neat hi).1,
    fun o u v hv => h.used o u v (by rwa [withProps_idIn] at hv), fun u v hv => ?_⟩ (fun u v hv => by rwa [withProps_idIn] at hv)
    (fun v hv _ => key v (by rintro rfl; exact hv hx)), Graph.ext' (fun _ => rfl) (fun u => ?_)⟩
  · rw [withProps_idIn] at hv
    show ∃ b, (d.edgeProps.erase i).get v = some b
    rw [key v (by rintro rfl; exact hn u hv)]
    exact h.recs u v hv
  · show view c _ .SPO u = view c d .SPO u
    unfold view
    rw [withProps_idIn]
    cases hv : d.idIn .SPO u with
    | none => rfl
    | some v =>
      show Option.bind ((d.edgeProps.erase i).get v) _ = Option.bind (d.edgeProps.get v) _
      rw [key v (by rintro rfl; exact hn u hv)]

/-- deleting an entry of the first ordering -/
theorem fair_unset {d : Db} {X : Bytes → Prop} (t : Triple Id) (ok : ∀ v ∈ a.ids, ¬ X v) (h : SpoOk c Own d X) :
    Fair c Own a d X { d with spo := d.spo.erase (encodeSpo t).1 } a.ids X ∧
      ({ d with spo := d.spo.erase (encodeSpo t).1 } : Db).graph c = (d.graph c).removeEdge t ∧
      ∀ u, ({ d with spo := d.spo.erase (encodeSpo t).1 } : Db).idIn .SPO u = if u = t then none else d.idIn .SPO u := by
  obtain ⟨h1, h2⟩ := neat_unset (N := fun _ => False) (d' := { d with spo := d.spo.erase (encodeSpo t).1 }) h.neat .SPO t rfl rfl
    (fun o => by cases o <;> rfl)
  have hid : ∀ u, ({ d with spo := d.spo.erase (encodeSpo t).1 } : Db).idIn .SPO u = if u = t then none else d.idIn .SPO u := by
    intro u
    by_cases e : u = t
    · subst e
      rw [if_pos rfl]
      show (d.spo.erase (encodeSpo u).1).get (encodeSpo u).1 = none
      rw [BMap.get_erase, if_pos rfl]
    · rw [if_neg e]
      exact h2.ids .SPO u e
  have sub : ∀ o (u : Triple Id) v, ({ d with spo := d.spo.erase (encodeSpo t).1 } : Db).idIn o u = some v → d.idIn o u = some v := by
    intro o u v hv
    cases o with
    | SPO =>
      rw [hid] at hv
      split at hv
      · cases hv
      · exact hv
    | POS => exact hv
    | OSP => exact hv
  refine ⟨fair_drop ok ⟨h1, fun o u v hv => h.used o u v (sub o u v hv), fun u v hv => h.recs u v (sub _ u v hv)⟩
    (sub .SPO) (fun _ _ _ => rfl), Graph.ext' (fun _ => rfl) (fun u => ?_), hid⟩
  show _ = if u = t then none else (d.graph c).edges u
  by_cases e : u = t
  · rw [if_pos e]
    show view c _ .SPO u = none
    unfold view
    rw [hid, if_pos e]
    rfl
  · rw [if_neg e]
    exact h2.edge h.neat e

theorem doesS_removeEdge (hown : ∀ v t u, Own v t → Own v u → t = u) {t : Triple Id}
    {l : List (Op E Id NP EP)} {k : Except SErr Unit → Prog Db α} (hk : ∀ y, DoesS E c mN mE b Own WS WO a (k (.ok ())) y l)
    (x : Db × (Bytes → Prop)) :
    DoesS E c mN mE b Own WS WO a ((Sled.removeEdge t).bind k) x (.removeEdge t :: .removeEdge t :: l) := by
  refine doesS_one (fun d X _ hi hok => ⟨a.ids, X, ?_, removed_graph hown hi.neat t, ?_⟩)
  · obtain ⟨h1, h2⟩ := neat_removed (N := fun _ => False) hown hi.neat t
    have hid : ∀ o (u : Triple Id) v, (removed d t).idIn o u = some v → u ≠ t ∧ d.idIn o u = some v := by
      intro o u v hv
      rw [removed, unsetEdge_idIn, withProps_idIn] at hv
      split at hv
      · cases hv
      · exact ⟨by assumption, hv⟩
    refine fair_drop hok ⟨h1, fun o u v hv => hi.used o u v (hid o u v hv).2, fun u v hv => ?_⟩ (fun u v hv => (hid _ u v hv).2)
      (fun v hv _ => ?_)
    · obtain ⟨hu, hv⟩ := hid _ u v hv
      show ∃ b, (removed d t).edgeProps.get v = some b
      rw [h2.recs v u hu (hi.neat.refs _ _ _ hv)]
      exact hi.recs u v hv
    · show (removed d t).edgeProps.get v = _
      have e : (removed d t).edgeProps = match d.spo.get (encodeSpo t).1 with
        | some i => d.edgeProps.erase i
        | none => d.edgeProps := rfl
      rw [e]
      split
      · rename_i i hi'
        rw [BMap.get_erase, if_neg]
        rintro rfl
        exact hv (hi.used .SPO t v hi')
      · rfl
  refine doesS_one (fun d1 X1 _ hi1 hok1 => ?_)
  obtain ⟨g1, g2, g3⟩ := fair_unset t hok1 hi1
  refine ⟨a.ids, X1, g1, g2, doesS_none (fun d2 X2 hr2 hi2 hok2 => ?_)⟩
  have p2 := (neat_unset (N := fun _ => False) (d' := { d2 with pos := d2.pos.erase (encodePos t).1 }) hi2.neat .POS t rfl rfl
    (fun o => by cases o <;> rfl)).1
  refine ⟨fair_other hok2 hi2 p2 (fun o u v hv => ?_) rfl rfl, graph_other rfl rfl rfl, doesS_none (fun d3 X3 hr3 hi3 hok3 => ?_)⟩
  · cases o with
    | SPO => exact hi2.used .SPO u v hv
    | POS => exact hi2.used .POS u v (get_erase_some hv)
    | OSP => exact hi2.used .OSP u v hv
  have p3 := (neat_unset (N := fun _ => False) (d' := { d3 with osp := d3.osp.erase (encodeOsp t).1 }) hi3.neat .OSP t rfl rfl
    (fun o => by cases o <;> rfl)).1
  refine ⟨fair_other hok3 hi3 p3 (fun o u v hv => ?_) rfl rfl, graph_other rfl rfl rfl, ?_⟩
  · cases o with
    | SPO => exact hi3.used .SPO u v hv
    | POS => exact hi3.used .POS u v hv
    | OSP => exact hi3.used .OSP u v (get_erase_some hv)
  dsimp only
  cases h : d1.spo.get (encodeSpo t).1 with
  | none => exact hk _
  | some i =>
    have ho : Own i t := hi1.neat.refs .SPO t i h
    have x1 : X1 i := hi1.used .SPO t i h
    have n1 : ∀ u : Triple Id, ({ d1 with spo := d1.spo.erase (encodeSpo t).1 } : Db).idIn .SPO u ≠ some i := by
      intro u hu
      rw [g3] at hu
      split at hu
      · cases hu
      · rename_i hne
        exact hne (hown _ _ _ (hi1.neat.refs .SPO u i hu) ho)
    have x2 : X2 i := hr2.1 i x1
    have n2 := hr2.2.1 i x1 n1
    have x3 : X3 i := hr3.1 i x2
    have n3 := hr3.2.1 i x2 n2
    refine doesS_none (fun d4 X4 hr4 hi4 hok4 => ?_)
    obtain ⟨g1, g2⟩ := fair_erase hown hok4 hi4 ho (hr4.1 i x3) (hr4.2.1 i x3 n3)
    exact ⟨g1, g2, hk _⟩

theorem doesS_extendItem (hown : ∀ v t u, Own v t → Own v u → t = u) {L : List Bytes} {t : Triple Id} {i v : Bytes} {p : EP}
    (ha : a.ids = i :: L) (hnd : i ∉ L) (ho : Own i t) (hv : c.e.de v = some p) (hok : c.okE p = true)
    {k : Prog Db α} {l : List (Op E Id NP EP)} (hk : ∀ y, DoesS E c mN mE b Own WS WO (a.to L) k y l) (x : Db × (Bytes → Prop)) :
    DoesS E c mN mE b Own WS WO a
      (.call (fun d => { d with edgeProps := d.edgeProps.insert i v }) (fun _ =>
        .call (fun d => { d with spo := d.spo.insert (encodeSpo t).1 i }) (fun d1 =>
          .call (fun d => { d with pos := d.pos.insert (encodePos t).1 i }) (fun _ =>
            .call (fun d => { d with osp := d.osp.insert (encodeOsp t).1 i }) (fun _ =>
              match d1.spo.get (encodeSpo t).1 with
              | some o => .call (fun d => { d with edgeProps := d.edgeProps.erase o }) (fun _ => k)
              | none => k))))) x (.insertEdge t p :: l) := by
  have ia : i ∈ a.ids := by rw [ha]; exact List.mem_cons_self
  have La : ∀ v ∈ L, v ∈ a.ids := fun v hv => by rw [ha]; exact List.mem_cons_of_mem _ hv
  refine doesS_none (fun d X _ hi hok0 => ?_)
  have key : ∀ w, w ≠ i → (d.edgeProps.insert i v).get w = d.edgeProps.get w := fun w hw => by rw [BMap.get_insert, if_neg hw]
  have ni : ∀ (u : Triple Id) w, d.idIn .SPO u = some w → w ≠ i := by
    rintro u w hw rfl
    exact hok0 w ia (hi.used _ _ _ hw)
  refine ⟨fair_drop hok0 ⟨(neat_rec (N := fun _ => False) hown hi.neat ho hv).1,
    fun o u w hw => hi.used o u w (by rwa [withProps_idIn] at hw), fun u w hw => ?_⟩
    (fun u w hw => by rwa [withProps_idIn] at hw) (fun w _ hw => key w (by rintro rfl; exact hw ia)),
    Graph.ext' (fun _ => rfl) (fun u => ?_), ?_⟩
  · rw [withProps_idIn] at hw
    show ∃ b, (d.edgeProps.insert i v).get w = some b
    rw [key w (ni u w hw)]
    exact hi.recs u w hw
  · show view c _ .SPO u = view c d .SPO u
    unfold view
    rw [withProps_idIn]
    cases hw : d.idIn .SPO u with
    | none => rfl
    | some w =>
      show Option.bind ((d.edgeProps.insert i v).get w) _ = Option.bind (d.edgeProps.get w) _
      rw [key w (ni u w hw)]
  refine doesS_one (fun d1 X1 hr1 hi1 hok1 => ?_)
  have r1 : d1.edgeProps.get i = some v := (hr1.2.2.1 i ia).trans (BMap.get_insert_self _ _ _)
  obtain ⟨g1, g2⟩ := neat_set (N := fun _ => False) (d' := { d1 with spo := d1.spo.insert (encodeSpo t).1 i }) hi1.neat .SPO t ho
    rfl rfl (fun o => by cases o <;> rfl)
  have hid : ∀ u : Triple Id, ({ d1 with spo := d1.spo.insert (encodeSpo t).1 i } : Db).idIn .SPO u =
      if u = t then some i else d1.idIn .SPO u := by
    intro u
    by_cases e : u = t
    · subst e
      rw [if_pos rfl]
      exact BMap.get_insert_self _ _ _
    · rw [if_neg e]
      exact g2.ids .SPO u e
  have cases' : ∀ o (u : Triple Id) w, ({ d1 with spo := d1.spo.insert (encodeSpo t).1 i } : Db).idIn o u = some w →
      w = i ∨ d1.idIn o u = some w := by
    intro o u w hw
    cases o with
    | SPO =>
      rw [hid] at hw
      split at hw
      · exact .inl (Option.some.inj hw).symm
      · exact .inr hw
    | POS => exact .inr hw
    | OSP => exact .inr hw
  refine ⟨L, fun w => X1 w ∨ w = i, ⟨⟨g1, fun o u w hw => ?_, fun u w hw => ?_⟩, La, ?_, fun _ => .inl, ?_, fun u w hw => ?_,
    fun _ _ _ => rfl⟩, ?_, ?_⟩
  · exact (cases' o u w hw).symm.imp (hi1.used o u w) id
  · rcases cases' _ u w hw with rfl | h
    · exact ⟨v, r1⟩
    · exact hi1.recs u w h
  · rintro w hw (h | rfl)
    · exact hok1 w (La w hw) h
    · exact hnd hw
  · rintro w (h | rfl)
    · exact .inl h
    · exact .inr ia
  · rcases cases' _ u w hw with rfl | h
    · exact .inr ia
    · exact .inl h
  · simp only [LooseStep, Op.step, storeEdge, hok, if_true, one]
    refine Graph.ext' (fun _ => rfl) (fun u => ?_)
    show _ = if u = t then some p else (d1.graph c).edges u
    by_cases e : u = t
    · rw [if_pos e]
      show view c _ .SPO u = _
      unfold view
      rw [hid, if_pos e]
      show Option.bind (d1.edgeProps.get i) _ = _
      rw [r1]
      exact hv
    · rw [if_neg e]
      exact g2.edge hi1.neat e
  have x1 : ∀ w, w = i → X1 w ∨ w = i := fun w => .inr
  have used : ∀ {d2 : Db} {X2 : Bytes → Prop} {d' : Db}, SpoOk c Own d2 X2 → X2 i →
      (∀ o (u : Triple Id) w, d'.idIn o u = some w → w = i ∨ d2.idIn o u = some w) →
      ∀ o (u : Triple Id) w, d'.idIn o u = some w → X2 w := by
    intro d2 X2 d' h hx hd o u w hw
    rcases hd o u w hw with rfl | h'
    · exact hx
    · exact h.used o u w h'
  refine doesS_none (fun d2 X2 hr2 hi2 hok2 => ?_)
  have x2 : X2 i := hr2.1 i (.inr rfl)
  have p2 := (neat_set (N := fun _ => False) (d' := { d2 with pos := d2.pos.insert (encodePos t).1 i }) hi2.neat .POS t ho rfl rfl
    (fun o => by cases o <;> rfl)).1
  refine ⟨fair_other hok2 hi2 p2 (used hi2 x2 (fun o u w hw => ?_)) rfl rfl, graph_other rfl rfl rfl, doesS_none (fun d3 X3 hr3 hi3 hok3 => ?_)⟩
  · cases o with
    | SPO => exact .inr hw
    | POS => exact (insert_get_cases (show (d2.pos.insert _ i).get _ = some w from hw)).symm
    | OSP => exact .inr hw
  have x3 : X3 i := hr3.1 i x2
  have p3 := (neat_set (N := fun _ => False) (d' := { d3 with osp := d3.osp.insert (encodeOsp t).1 i }) hi3.neat .OSP t ho rfl rfl
    (fun o => by cases o <;> rfl)).1
  refine ⟨fair_other hok3 hi3 p3 (used hi3 x3 (fun o u w hw => ?_)) rfl rfl, graph_other rfl rfl rfl, ?_⟩
  · cases o with
    | SPO => exact .inr hw
    | POS => exact .inr hw
    | OSP => exact (insert_get_cases (show (d3.osp.insert _ i).get _ = some w from hw)).symm
  cases hw : d1.spo.get (encodeSpo t).1 with
  | none => exact hk _
  | some w =>
    have ow : Own w t := hi1.neat.refs .SPO t w hw
    have xw : X1 w := hi1.used .SPO t w hw
    have wi : w ≠ i := by rintro rfl; exact hok1 w ia xw
    have n1 : ∀ u : Triple Id, ({ d1 with spo := d1.spo.insert (encodeSpo t).1 i } : Db).idIn .SPO u ≠ some w := by
      intro u hu
      rw [hid] at hu
      split at hu
      · exact wi (Option.some.inj hu).symm
      · rename_i hne
        exact hne (hown _ _ _ (hi1.neat.refs .SPO u w hu) ow)
    have xw2 : X2 w := hr2.1 w (.inl xw)
    have n2 := hr2.2.1 w (.inl xw) n1
    have xw3 : X3 w := hr3.1 w xw2
    have n3 := hr3.2.1 w xw2 n2
    refine doesS_none (fun d4 X4 hr4 hi4 hok4 => ?_)
    obtain ⟨g1, g2⟩ := fair_erase hown hok4 hi4 ow (hr4.1 w xw3) (hr4.2.1 w xw3 n3)
    exact ⟨g1, g2, hk _⟩

/-! ## bulk operations -/

theorem doesS_mergeEdges (hc : c.RoundTrip) (hb : b = true ∨ c.Total) (hown : ∀ v t u, Own v t → Own v u → t = u)
    {k : Gen Id × Except (LR SErr E) Unit → Prog Db β} {r : List (Op E Id NP EP)}
    (hk : ∀ L x y, DoesS E c mN mE b Own WS WO (a.to L) (k x) y r)
    (hs : b = true → ∀ L x (l : List (Op E Id NP EP)) y, DoesS E c mN mE b Own WS WO (a.to L) (k x) y l)
    (l : List (Except E (Triple Id × EP))) (g : Gen Id) (hn : ((Call.drawnFor g l).map Prod.fst).Nodup)
    (ho : ∀ y ∈ Call.drawnFor g l, Own y.1 y.2) (x : Db × (Bytes → Prop)) :
    DoesS E c mN mE b Own WS WO (a.to ((Call.drawnFor g l).map Prod.fst)) ((mergeEdges c mE g l).bind k) x
      ((oks l).map (fun x => .mergeEdge x.1 x.2) ++ r) := by
  induction l generalizing g x with
  | nil => exact hk _ _ _
  | cons y l ih =>
    cases y with
    | error e => exact hk _ _ _
    | ok y =>
      rw [mergeEdges]
      have assoc : ∀ f : Except SErr Unit → Prog Db (Gen Id × Except (LR SErr E) Unit),
          ((Sled.mergeEdge c mE (Gen.fresh g).1 y.1 y.2).bind f).bind k =
            (Sled.mergeEdge c mE (Gen.fresh g).1 y.1 y.2).bind (fun r => (f r).bind k) := fun f => rfl
      rw [assoc]
      simp only [Call.drawnFor, List.map_cons] at hn ho ⊢
      exact doesS_mergeEdge (a := a.to _) (L := (Call.drawnFor (Gen.fresh g).2 l).map Prod.fst) hc hb hown rfl
        (List.nodup_cons.1 hn).1 (ho _ List.mem_cons_self)
        (ih _ (List.nodup_cons.1 hn).2 (fun z hz => ho z (List.mem_cons_of_mem _ hz)))
        (fun hb e L l y => hs hb L _ _ _) x

theorem doesS_extendEdges (hc : c.RoundTrip) (hb : b = true ∨ c.Total) (hown : ∀ v t u, Own v t → Own v u → t = u)
    {k : Gen Ulid × Except (LR SErr E) Unit → Prog Db β} {r : List (Op E Id NP EP)}
    (hk : ∀ L x y, DoesS E c mN mE b Own WS WO (a.to L) (k x) y r)
    (hs : b = true → ∀ L x (l : List (Op E Id NP EP)) y, DoesS E c mN mE b Own WS WO (a.to L) (k x) y l)
    (l : List (Except E (Triple Id × EP))) (g : Gen Ulid) (hn : ((Call.drawnFor g l).map Prod.fst).Nodup)
    (ho : ∀ y ∈ Call.drawnFor g l, Own y.1 y.2) (x : Db × (Bytes → Prop)) :
    DoesS E c mN mE b Own WS WO (a.to ((Call.drawnFor g l).map Prod.fst)) ((extendEdges c g l).bind k) x
      ((oks l).map (fun x => .insertEdge x.1 x.2) ++ r) := by
  induction l generalizing g x with
  | nil => exact hk _ _ _
  | cons y l ih =>
    cases y with
    | error e => exact hk _ _ _
    | ok y =>
      rw [extendEdges]
      cases hp : c.e.ser y.2 with
      | none =>
        rcases hb with hb | hb
        · exact hs hb _ _ _ _
        · have := hb.2 y.2; rw [hp] at this; cases this
      | some v =>
        simp only [Call.drawnFor, List.map_cons] at hn ho ⊢
        have ok : c.okE y.2 = true := by unfold Codecs.okE; rw [hp]; rfl
        have h := doesS_extendItem (mN := mN) (mE := mE) (WS := WS) (WO := WO) (b := b)
          (a := a.to ((toBeBytes (Gen.fresh g).1).1 :: (Call.drawnFor (Gen.fresh g).2 l).map Prod.fst))
          (L := (Call.drawnFor (Gen.fresh g).2 l).map Prod.fst) (k := (extendEdges c (Gen.fresh g).2 l).bind k)
          hown rfl (List.nodup_cons.1 hn).1 (ho _ List.mem_cons_self) (hc.2 _ _ hp) ok
          (ih _ (List.nodup_cons.1 hn).2 (fun z hz => ho z (List.mem_cons_of_mem _ hz))) x
        refine cast ?_ h
        congr 1
        simp only [Prog.bind]
        congr 1
        funext _
        congr 1
        funext d1
        congr 1
        funext _
        congr 1
        funext _
        cases d1.spo.get (encodeSpo y.1).1 <;> rfl

theorem doesS_mergeNodes (hc : c.RoundTrip) (hb : b = true ∨ c.Total)
    {j : Except (LR SErr E) Unit → Prog Db α} {k : α → Prog Db β} {r : List (Op E Id NP EP)}
    (hk : ∀ y, DoesS E c mN mE b Own WS WO a ((j (.ok ())).bind k) y r)
    (he : ∀ e y, DoesS E c mN mE b Own WS WO a ((j (.error e)).bind k) y ([] : List (Op E Id NP EP)))
    (hs : b = true → ∀ e L (l : List (Op E Id NP EP)) y, DoesS E c mN mE b Own WS WO (a.to L) ((j (.error e)).bind k) y l)
    (l : List (Except E (Id × NP))) (x : Db × (Bytes → Prop)) :
    DoesS E c mN mE b Own WS WO a ((mergeNodes c mN j l).bind k) x
      ((oks l).map (fun x => .mergeNode x.1 x.2) ++ if fails l then [] else r) := by
  induction l generalizing x with
  | nil => exact hk _
  | cons y l ih =>
    cases y with
    | error e => exact he _ _
    | ok y =>
      rw [mergeNodes]
      have assoc : ∀ f : Except SErr Unit → Prog Db α,
          ((Sled.mergeNode c mN y.1 y.2).bind f).bind k =
            (Sled.mergeNode c mN y.1 y.2).bind (fun r => (f r).bind k) := fun f => rfl
      rw [assoc]
      exact doesS_mergeNode hc hb ih (fun hb e L l y => hs hb _ _ _ _) x

theorem doesS_extendNodes (hc : c.RoundTrip) (hb : b = true ∨ c.Total)
    {j : Except (LR SErr E) Unit → Prog Db α} {k : α → Prog Db β} {r : List (Op E Id NP EP)}
    (hk : ∀ y, DoesS E c mN mE b Own WS WO a ((j (.ok ())).bind k) y r)
    (he : ∀ e y, DoesS E c mN mE b Own WS WO a ((j (.error e)).bind k) y ([] : List (Op E Id NP EP)))
    (hs : b = true → ∀ e L (l : List (Op E Id NP EP)) y, DoesS E c mN mE b Own WS WO (a.to L) ((j (.error e)).bind k) y l)
    (l : List (Except E (Id × NP))) (x : Db × (Bytes → Prop)) :
    DoesS E c mN mE b Own WS WO a ((extendNodes c j l).bind k) x
      ((oks l).map (fun x => .insertNode x.1 x.2) ++ if fails l then [] else r) := by
  induction l generalizing x with
  | nil => exact hk _
  | cons y l ih =>
    cases y with
    | error e => exact he _ _
    | ok y =>
      rw [extendNodes]
      cases hp : c.n.ser y.2 with
      | none =>
        rcases hb with hb | hb
        · exact hs hb _ a.ids _ _
        · have := hb.1 y.2; rw [hp] at this; cases this
      | some v =>
        refine doesS_one (fun d X _ hi hok => ⟨a.ids, X, fair_drop hok (spoOk_nodes hi (hc.1 _ _ hp))
          (fun t v hv => by rwa [withNodes_idIn] at hv) (fun _ _ _ => rfl), ?_, ih _⟩)
        have ok : c.okN y.2 = true := by unfold Codecs.okN; rw [hp]; rfl
        simp only [LooseStep, Op.step, storeNode, ok, if_true, one]
        rw [← insNode_graph (hc.1 _ _ hp)]

/-! ## remove_node -/

theorem doesS_scan {n : Id} (o : EdgeOrder) {tree : Db → Tree} (htree : ∀ d, tree d = d.tree o)
    (cls : Triple Id → Id) (hb : ∀ t, Bound.contains (keyBounds1 n) (encOf o t) = true ↔ cls t = n)
    {A : Triple Id → Prop} (hA : ∀ t, A t → a.alone t ∧ ∀ d, Agreed WO d → d.idIn .SPO t ≠ none → d.idIn o t ≠ none)
    {k : List (Bytes × Bytes) → Prog Db α} {l : List (Op E Id NP EP)} {x0 : Db × (Bytes → Prop)}
    (hk : ∀ x L, (spoRG c Own).rely a x0 x → (∀ e ∈ L, ∃ t, e.1 = (encOf o t).1 ∧ cls t = n ∧ Own e.2 t ∧ x.2 e.2) →
      (∀ t, A t → cls t = n → x.1.idIn .SPO t ≠ none → ∃ e ∈ L, e.1 = (encOf o t).1) →
      DoesS E c mN mE b Own WS WO a (k L) x l) :
    ∀ (ss : List Nat) (cur : Option Bytes) (acc : List (Bytes × Bytes)) (x : Db × (Bytes → Prop)), (spoRG c Own).rely a x0 x →
      (∀ e ∈ acc, ∃ t, e.1 = (encOf o t).1 ∧ cls t = n ∧ Own e.2 t ∧ x.2 e.2) →
      (∀ t, A t → cls t = n → x.1.idIn .SPO t ≠ none → ¬ After cur (encOf o t).1 →
        ∃ e ∈ acc, e.1 = (encOf o t).1) →
      DoesS E c mN mE b Own WS WO a (scanPieces tree (keyBounds1 n) k ss cur acc) x l := by
  -- an entry of the range
  have entry : ∀ (s : Db) (X : Bytes → Prop), SpoOk c Own s X → ∀ e ∈ (s.tree o).rangeArr (keyBounds1 n),
      ∃ t : Triple Id, e.1 = (encOf o t).1 ∧ cls t = n ∧ Own e.2 t ∧ X e.2 := by
    intro s X hi e he
    obtain ⟨t, ht⟩ := hi.neat.keys o e.1 e.2 (rangeArr_sub he)
    have he' : ((encOf o t).1, e.2) ∈ (s.tree o).rangeArr (keyBounds1 n) := by rw [← ht]; exact he
    exact ⟨t, ht, (hb t).1 (mem_rangeArr.1 he').2, hi.neat.refs o t e.2 (mem_rangeArr.1 he').1, hi.used o t e.2 (mem_rangeArr.1 he').1⟩
  -- an edge in question
  have there : ∀ (s : Db), Agreed WO s → ∀ t, A t → cls t = n → s.idIn .SPO t ≠ none →
      ∃ v, ((encOf o t).1, v) ∈ (s.tree o).rangeArr (keyBounds1 n) := by
    intro s hJ t hX ht hs
    obtain ⟨v, hv⟩ := Option.ne_none_iff_exists'.1 ((hA t hX).2 s hJ hs)
    exact ⟨v, mem_rangeArr.2 ⟨hv, (hb t).2 ht⟩⟩
  have older : ∀ {x : Db × (Bytes → Prop)} {s : Db} {X : Bytes → Prop} {acc : List (Bytes × Bytes)}, (spoRG c Own).rely a x (s, X) →
      (∀ e ∈ acc, ∃ t, e.1 = (encOf o t).1 ∧ cls t = n ∧ Own e.2 t ∧ x.2 e.2) →
      ∀ e ∈ acc, ∃ t, e.1 = (encOf o t).1 ∧ cls t = n ∧ Own e.2 t ∧ X e.2 := by
    intro x s X acc hr h e he
    obtain ⟨t, h1, h2, h3, h4⟩ := h e he
    exact ⟨t, h1, h2, h3, hr.1 _ h4⟩
  intro ss
  induction ss with
  | nil =>
    intro cur acc x hx hg hc
    refine doesS_noneJ (fun s X hr hi hok hJ => ⟨fair_same hok hi, rfl, ?_⟩)
    refine hk (s, X) _ ((spoRG c Own).rely_trans _ _ _ _ hx hr) (fun e he => ?_) (fun t hX ht hs => ?_)
    · rcases List.mem_append.1 he with he | he
      · exact older hr hg e he
      · rw [htree] at he
        exact entry s X hi e (mem_rest.1 he).1
    · have hs : s.idIn .SPO t ≠ none := hs
      by_cases haf : After cur (encOf o t).1
      · obtain ⟨v, hv⟩ := there s hJ t hX ht hs
        exact ⟨_, List.mem_append_right _ (mem_rest.2 ⟨by rw [htree]; exact hv, haf⟩), rfl⟩
      · obtain ⟨e, he, h⟩ := hc t hX ht (fun h => hs (hr.2.2.2 t (hA t hX).1 h)) haf
        exact ⟨e, List.mem_append_left _ he, h⟩
  | cons p ss ih =>
    intro cur acc x hx hg hc
    refine doesS_noneJ (fun s X hr hi hok hJ => ⟨fair_same hok hi, rfl, ?_⟩)
    refine ih _ _ (s, X) ((spoRG c Own).rely_trans _ _ _ _ hx hr) (fun e he => ?_) (fun t hX ht hs hn => ?_)
    · rcases List.mem_append.1 he with he | he
      · exact older hr hg e he
      · have := List.mem_of_mem_take he
        rw [htree] at this
        exact entry s X hi e (mem_rest.1 this).1
    · have hs : s.idIn .SPO t ≠ none := hs
      by_cases haf : After cur (encOf o t).1
      · obtain ⟨v, hv⟩ := there s hJ t hX ht hs
        rw [← htree] at hv
        exact ⟨_, List.mem_append_right _ (mem_take_of_cursor (rest_sorted (rangeArr_sorted _ _))
          (mem_rest.2 ⟨hv, haf⟩) haf hn), rfl⟩
      · obtain ⟨e, he, h⟩ := hc t hX ht (fun h => hs (hr.2.2.2 t (hA t hX).1 h)) haf
        exact ⟨e, List.mem_append_left _ he, h⟩

theorem doesS_scanned (hown : ∀ v t u, Own v t → Own v u → t = u) {n : Id} {fwd bwd : List (Bytes × Bytes)}
    {x : Db × (Bytes → Prop)} {k : Except SErr Unit → Prog Db α} {l : List (Op E Id NP EP)}
    (ha : ∀ t : Triple Id, t.sub = n → ¬ WS t → a.alone t)
    (ha' : ∀ t : Triple Id, t.obj = n → ¬ WO t → a.alone t)
    (hf : ∀ e ∈ fwd, ∃ t : Triple Id, e.1 = (encodeSpo t).1 ∧ t.sub = n ∧ Own e.2 t ∧ x.2 e.2)
    (hb : ∀ e ∈ bwd, ∃ t : Triple Id, e.1 = (encodeOsp t).1 ∧ t.obj = n ∧ Own e.2 t ∧ x.2 e.2)
    (hfc : ∀ t : Triple Id, a.alone t → t.sub = n → x.1.idIn .SPO t ≠ none → ∃ e ∈ fwd, e.1 = (encodeSpo t).1)
    (hbc : ∀ t : Triple Id, a.alone t ∧ ¬ WO t → t.obj = n → x.1.idIn .SPO t ≠ none → ∃ e ∈ bwd, e.1 = (encodeOsp t).1)
    (hk : ∀ r y, DoesS E c mN mE b Own WS WO a (k r) y l) :
    DoesS E c mN mE b Own WS WO a ((removeNodeScanned n fwd bwd).bind k) x (.removeNode n :: l) := by
  obtain ⟨F, rfl⟩ := exists_map_of (fun x : Triple Id × Bytes => ((encodeSpo x.1).1, x.2)) (l := fwd) (fun e he => by
    obtain ⟨t, ht, -⟩ := hf e he
    exact ⟨(t, e.2), Prod.ext ht rfl⟩)
  obtain ⟨B, rfl⟩ := exists_map_of (fun x : Triple Id × Bytes => ((encodeOsp x.1).1, x.2)) (l := bwd) (fun e he => by
    obtain ⟨t, ht, -⟩ := hb e he
    exact ⟨(t, e.2), Prod.ext ht rfl⟩)
  rw [scanned_ok, tx_bind]
  have hF : ∀ y ∈ F ++ B, (y.1.sub = n ∨ y.1.obj = n) ∧ Own y.2 y.1 ∧ x.2 y.2 := by
    intro y hy
    rcases List.mem_append.1 hy with hy | hy
    · obtain ⟨t, h1, h2, h3, h4⟩ := hf _ (List.mem_map_of_mem hy)
      rw [(encOf_inj .SPO).1 h1]; exact ⟨.inl h2, h3, h4⟩
    · obtain ⟨t, h1, h2, h3, h4⟩ := hb _ (List.mem_map_of_mem hy)
      rw [(encOf_inj .OSP).1 h1]; exact ⟨.inr h2, h3, h4⟩
  refine doesS_one (fun s X hr hi hok => ?_)
  obtain ⟨h1, h2⟩ := neat_dropped (T := fun t : Triple Id => t ∈ (F ++ B).map Prod.fst) (n := n) hown hi.neat
    (fun y hy => ⟨List.mem_map_of_mem hy, (hF y hy).2.1⟩)
  have hid : ∀ o (t : Triple Id) v, (dropped n F B s).idIn o t = some v → s.idIn o t = some v ∧ t ∉ (F ++ B).map Prod.fst := by
    intro o t v hv
    rw [dropped_idIn] at hv
    split at hv
    · cases hv
    · exact ⟨hv, by assumption⟩
  refine ⟨a.ids, X, fair_drop hok ⟨h1, fun o t v hv => hi.used o t v (hid o t v hv).1, fun t v hv => ?_⟩
    (fun t v hv => (hid _ t v hv).1) (fun v hv _ => ?_), ⟨fun m => ?_, fun u => ?_, fun u hu hW => ?_, fun u hu hW => ?_⟩, hk _ _⟩
  · obtain ⟨y1, y2⟩ := hid _ t v hv
    show ∃ b, (dropped n F B s).edgeProps.get v = some b
    rw [h2.recs v t y2 (hi.neat.refs _ _ _ y1)]
    exact hi.recs t v y1
  · show (applyBatch (applyBatch s.edgeProps (F.map Prod.snd)) (B.map Prod.snd)).get v = _
    have key : ∀ y ∈ F ++ B, y.2 ≠ v := by
      rintro y hy rfl
      exact hv (hr.1 _ (hF y hy).2.2)
    rw [applyBatch_get, applyBatch_get, if_neg, if_neg]
    · intro hm
      obtain ⟨y, hy, e⟩ := List.mem_map.1 hm
      exact key y (List.mem_append_left _ hy) e
    · intro hm
      obtain ⟨y, hy, e⟩ := List.mem_map.1 hm
      exact key y (List.mem_append_right _ hy) e
  · show ((s.nodeProps.erase (toBeBytes n).1).get (toBeBytes m).1).bind c.n.de = if m = n then none else _
    rw [BMap.get_erase]
    by_cases e : m = n
    · rw [if_pos e, if_pos (by rw [e])]; rfl
    · rw [if_neg e, if_neg (fun h => e (toBe_inj.1 h))]; rfl
  · by_cases hu : u ∈ (F ++ B).map Prod.fst
    · refine .inr ⟨?_, ?_⟩
      · obtain ⟨y, hy, rfl⟩ := List.mem_map.1 hu
        exact (hF y hy).1
      · show view c (dropped n F B s) .SPO u = none
        unfold view
        rw [dropped_idIn, if_pos hu]
        rfl
    · exact .inl (h2.edge hi.neat hu)
  · have hn : (dropped n F B s).idIn .SPO u = none := by
      rw [dropped_idIn]
      by_cases hs : s.idIn .SPO u = none
      · rw [hs, ite_self]
      · have hx : x.1.idIn .SPO u ≠ none := fun h => hs (hr.2.2.2 u (ha u hu hW) h)
        rw [if_pos]
        rw [List.map_append, List.mem_append]
        obtain ⟨y, hy, h⟩ := hfc u (ha u hu hW) hu hx
        obtain ⟨z, hz, rfl⟩ := List.mem_map.1 hy
        rw [← (encOf_inj .SPO).1 h]
        exact .inl (List.mem_map_of_mem hz)
    show view c (dropped n F B s) .SPO u = none
    unfold view
    rw [hn]
    rfl
  · have hn : (dropped n F B s).idIn .SPO u = none := by
      rw [dropped_idIn]
      by_cases hs : s.idIn .SPO u = none
      · rw [hs, ite_self]
      · have hx : x.1.idIn .SPO u ≠ none := fun h => hs (hr.2.2.2 u (ha' u hu hW) h)
        rw [if_pos]
        rw [List.map_append, List.mem_append]
        obtain ⟨y, hy, h⟩ := hbc u ⟨ha' u hu hW, hW⟩ hu hx
        obtain ⟨z, hz, rfl⟩ := List.mem_map.1 hy
        rw [← (encOf_inj .OSP).1 h]
        exact .inr (List.mem_map_of_mem hz)
    show view c (dropped n F B s) .SPO u = none
    unfold view
    rw [hn]
    rfl

theorem doesS_pieces (hown : ∀ v t u, Own v t → Own v u → t = u) {n : Id} (fs bs : List Nat)
    {k : Except SErr Unit → Prog Db α} {l : List (Op E Id NP EP)} (ha : ∀ t : Triple Id, t.sub = n → ¬ WS t → a.alone t)
    (ha' : ∀ t : Triple Id, t.obj = n → ¬ WO t → a.alone t)
    (hk : ∀ r y, DoesS E c mN mE b Own WS WO a (k r) y l) (x : Db × (Bytes → Prop)) :
    DoesS E c mN mE b Own WS WO a ((removeNodePieces fs bs n).bind k) x (.removeNode n :: l) := by
  unfold removeNodePieces
  rw [scan_bind]
  refine doesS_scan .SPO (fun _ => rfl) (fun t => t.sub) (fun t => LawfulId.kb1_spo n t) (A := a.alone) (fun t h => ⟨h, fun _ _ => id⟩)
    (x0 := x) (fun x1 fwd _ hf hfc => ?_) fs none [] x ((spoRG c Own).rely_refl _ _) (by simp) (fun t _ _ _ h => absurd trivial h)
  rw [scan_bind]
  refine doesS_scan .OSP (fun _ => rfl) (fun t => t.obj) (fun t => LawfulId.kb1_osp n t)
    (A := fun t => a.alone t ∧ ¬ WO t) (fun t h => ⟨h.1, fun d hJ => by rw [hJ t h.2 .OSP]; exact id⟩)
    (x0 := x1) (fun x2 bwd h2 hb hbc => ?_) bs none [] x1 ((spoRG c Own).rely_refl _ _) (by simp) (fun t _ _ _ h => absurd trivial h)
  refine doesS_scanned hown ha ha' (fun e he => ?_) hb (fun t hX ht h => hfc t hX ht (fun h' => h (h2.2.2.2 t hX h'))) hbc hk
  obtain ⟨t, y1, y2, y3, y4⟩ := hf e he
  exact ⟨t, y1, y2, y3, h2.1 _ y4⟩

theorem doesS_removeNode (hown : ∀ v t u, Own v t → Own v u → t = u) {n : Id}
    {k : Except SErr Unit → Prog Db α} {l : List (Op E Id NP EP)} (ha : ∀ t : Triple Id, t.sub = n → ¬ WS t → a.alone t)
    (ha' : ∀ t : Triple Id, t.obj = n → ¬ WO t → a.alone t)
    (hk : ∀ r y, DoesS E c mN mE b Own WS WO a (k r) y l) (x : Db × (Bytes → Prop)) :
    DoesS E c mN mE b Own WS WO a ((removeNode n).bind k) x (.removeNode n :: l) := by
  rw [removeNode_eq]
  refine doesS_none (fun s X hr hi hok => ⟨fair_same hok hi, rfl, ?_⟩)
  obtain ⟨F, hF, hF'⟩ := rangeArr_enc (hi.neat.keys .SPO) (keyBounds1 n)
  have hF : s.spo.rangeArr (keyBounds1 n) = F.map (fun x => ((encodeSpo x.1).1, x.2)) := hF
  have hm : ∀ t v, (t, v) ∈ F ↔ s.idIn .SPO t = some v ∧ t.sub = n := fun t v =>
    (hF' t v).trans (and_congr Iff.rfl (LawfulId.kb1_spo n t))
  dsimp only
  rw [hF, forwardBatch_enc]
  dsimp only
  exact doesS_scan .OSP (tree := fun d => d.osp) (fun _ => rfl) (fun t => t.obj) (fun t => LawfulId.kb1_osp n t)
    (A := fun t => a.alone t ∧ ¬ WO t) (fun t h => ⟨h.1, fun d hJ => by rw [hJ t h.2 .OSP]; exact id⟩)
    (x0 := (s, X))
    (k := fun bwd => (removeNodeScanned n (F.map (fun x => ((encodeSpo x.1).1, x.2))) bwd).bind k) (fun x2 bwd h2 hb hbc => by
      refine doesS_scanned hown ha ha' (fun e he => ?_) hb (fun t hX ht h => ?_) hbc hk
      · obtain ⟨y, hy, rfl⟩ := List.mem_map.1 he
        have := (hm y.1 y.2).1 hy
        exact ⟨y.1, rfl, this.2, hi.neat.refs _ _ _ this.1, h2.1 _ (hi.used _ _ _ this.1)⟩
      · have hs : s.idIn .SPO t ≠ none := fun h' => h (h2.2.2.2 t hX h')
        obtain ⟨v, hv⟩ := Option.ne_none_iff_exists'.1 hs
        exact ⟨_, List.mem_map_of_mem ((hm t v).2 ⟨hv, ht⟩), rfl⟩) [] none [] (s, X) ((spoRG c Own).rely_refl _ _) (by simp)
    (fun t _ _ _ h => absurd trivial h)

/-! ## the calls -/

/-- what a call is about -/
def Call.plan (WS WO : Triple Id → Prop) (x : Call E Id NP EP) : Plan Id :=
  ⟨x.writes.map Prod.fst, fun t => (x = .removeNode t.sub ∧ ¬ WS t) ∨ (x = .removeNode t.obj ∧ ¬ WO t)⟩

theorem doesS_prog (hc : c.RoundTrip) (hb : b = true ∨ c.Total) (hown : ∀ v t u, Own v t → Own v u → t = u) (x : Call E Id NP EP)
    (hx : ¬ x.IsScan) (hn : (x.writes.map Prod.fst).Nodup) (ho : ∀ y ∈ x.writes, Own y.1 y.2) (y : Db × (Bytes → Prop)) :
    DoesS E c mN mE b Own WS WO (x.plan WS WO) (x.prog c mN mE) y x.acts := by
  have ret : ∀ (a : Plan Id) (u : Unit) y, DoesS E c mN mE b Own WS WO a (.ret u : Prog Db Unit) y ([] : List (Op E Id NP EP)) :=
    fun _ _ _ => .inr rfl
  have any : ∀ (a : Plan Id), b = true → ∀ (u : Unit) (l : List (Op E Id NP EP)) y, DoesS E c mN mE b Own WS WO a (.ret u : Prog Db Unit) y l :=
    fun _ hb _ _ _ => .inl hb
  cases x with
  | insertNode n p => exact doesS_insertNode hc hb (fun y => ret _ _ y) (fun hb _ _ _ _ => any _ hb _ _ _) y
  | insertEdge i t p =>
    have h0 : ((toBeBytes i).1, t) ∈ (Call.insertEdge i t p : Call E Id NP EP).writes := List.mem_singleton.2 rfl
    exact doesS_insertEdge (a := (.insertEdge i t p : Call E Id NP EP).plan WS WO) (L := []) hc hb hown rfl (by simp) (ho _ h0)
      (fun y => ret _ _ y) (fun hb _ _ _ _ => any _ hb _ _ _) y
  | removeNode n =>
    exact doesS_removeNode (a := (.removeNode n : Call E Id NP EP).plan WS WO) hown (fun t ht hW => .inl ⟨by rw [ht], hW⟩) (fun t ht hW => .inr ⟨by rw [ht], hW⟩)
      (fun _ _ => ret _ _ _) y
  | removeNodeScan n fwd bwd => exact absurd trivial hx
  | removeEdge t => exact doesS_removeEdge (a := (.removeEdge t : Call E Id NP EP).plan WS WO) hown (fun _ => ret _ _ _) y
  | mergeNode n p => exact doesS_mergeNode hc hb (fun y => ret _ _ y) (fun hb _ _ _ _ => any _ hb _ _ _) y
  | mergeEdge i t p =>
    have h0 : ((toBeBytes i).1, t) ∈ (Call.mergeEdge i t p : Call E Id NP EP).writes := List.mem_singleton.2 rfl
    exact doesS_mergeEdge (a := (.mergeEdge i t p : Call E Id NP EP).plan WS WO) (L := []) hc hb hown rfl (by simp) (ho _ h0)
      (fun y => ret _ _ y) (fun hb _ _ _ _ => any _ hb _ _ _) y
  | extend u src =>
    refine doesS_extendNodes (a := (.extend u src : Call E Id NP EP).plan WS WO) hc hb (fun y => ?_) (fun e y => ret _ _ y)
      (fun hb e L l y => any _ hb _ _ _) src.nodes y
    have := doesS_extendEdges (a := (.extend u src : Call E Id NP EP).plan WS WO) (mN := mN) (mE := mE) hc hb hown
      (k := fun _ => .ret ()) (r := []) (fun _ _ y => ret _ _ y) (fun hb _ _ l y => any _ hb _ _ _) src.edges u hn ho y
    rwa [List.append_nil] at this
  | merge g src =>
    refine doesS_mergeNodes (a := (.merge g src : Call E Id NP EP).plan WS WO) hc hb (fun y => ?_) (fun e y => ret _ _ y)
      (fun hb e L l y => any _ hb _ _ _) src.nodes y
    have := doesS_mergeEdges (a := (.merge g src : Call E Id NP EP).plan WS WO) (mN := mN) (mE := mE) hc hb hown
      (k := fun _ => .ret ()) (r := []) (fun _ _ y => ret _ _ y) (fun hb _ _ l y => any _ hb _ _ _) src.edges g hn ho y
    rwa [List.append_nil] at this

theorem doesS_piece (hc : c.RoundTrip) (hb : b = true ∨ c.Total) (hown : ∀ v t u, Own v t → Own v u → t = u) (x : PieceCall E Id NP EP)
    (hx : ¬ x.1.IsScan) (hn : (x.1.writes.map Prod.fst).Nodup) (ho : ∀ y ∈ x.1.writes, Own y.1 y.2) (y : Db × (Bytes → Prop)) :
    DoesS E c mN mE b Own WS WO (x.1.plan WS WO) (x.prog c mN mE) y x.1.acts := by
  obtain ⟨x, fs, bs⟩ := x
  cases x with
  | removeNode n =>
    exact doesS_pieces (a := (.removeNode n : Call E Id NP EP).plan WS WO) hown fs bs (fun t ht hW => .inl ⟨by rw [ht], hW⟩) (fun t ht hW => .inr ⟨by rw [ht], hW⟩)
      (k := fun _ => .ret ()) (l := []) (fun _ _ => Or.inr rfl) y
  | removeNodeScan n f b => exact absurd trivial hx
  | insertNode n p => exact doesS_prog hc hb hown _ hx hn ho y
  | insertEdge i t p => exact doesS_prog hc hb hown _ hx hn ho y
  | removeEdge t => exact doesS_prog hc hb hown _ hx hn ho y
  | mergeNode n p => exact doesS_prog hc hb hown _ hx hn ho y
  | mergeEdge i t p => exact doesS_prog hc hb hown _ hx hn ho y
  | extend u src => exact doesS_prog hc hb hown _ hx hn ho y
  | merge g src => exact doesS_prog hc hb hown _ hx hn ho y

end Sled

end Verif
