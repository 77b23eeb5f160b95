import Verif.Proof.Conc
import Verif.Spec.SledConc
import Verif.Proof.SledExtend

/-! # Concurrent calls: the orderings -/

set_option linter.unusedSectionVars false

namespace Verif

open Spec ConcreteId

variable {Id NP EP E : Type} [LinearOrder Id] [ConcreteId Id] [LawfulId Id]

/-! ## Consistent -/

namespace Sled

open Db

theorem agree_of_consistent {d : Db} (h : Consistent Id d) : Agree Id d := by
  obtain ⟨ids, h⟩ := h
  have key : ∀ o, KeysOk Id o d := by
    intro o k v hk
    obtain ⟨l, h1, -⟩ := h o
    rw [orderedEdges_eq] at h1
    have hm := List.mem_map_of_mem (f := decodeEntry (Id := Id) (decOf o)) (BMap.mem_entries.2 hk)
    rw [h1] at hm
    rcases key_cases (Id := Id) o k with ⟨t, rfl⟩ | ⟨hl, hn⟩
    · exact ⟨t, rfl⟩
    · obtain ⟨x, -, hx⟩ := List.mem_map.1 hm
      simp [decodeEntry, hn] at hx
  have all : ∀ (o : EdgeOrder) (t : Triple Id), d.idIn o t = ids t := by
    intro o t
    obtain ⟨l, h1, h2⟩ := h o
    rw [orderedEdges_eq] at h1
    refine Option.ext (fun v => ?_)
    rw [← h2.2]
    constructor
    · intro hv
      have hm := List.mem_map_of_mem (f := decodeEntry (Id := Id) (decOf o)) (BMap.mem_entries.2 hv)
      rw [h1, decodeEntry_enc] at hm
      obtain ⟨x, hx, e⟩ := List.mem_map.1 hm
      cases e; exact hx
    · intro hv
      have hm := List.mem_map_of_mem (f := (Except.ok : _ → Except SErr (Triple Id × Bytes))) hv
      rw [← h1] at hm
      obtain ⟨⟨k, w⟩, hx, e⟩ := List.mem_map.1 hm
      rw [BMap.mem_entries] at hx
      obtain ⟨u, rfl⟩ := key o k w hx
      rw [decodeEntry_enc] at e
      cases e; exact hx
  exact ⟨key, fun o t => by rw [all, all]⟩

theorem consistent_of_agree {d : Db} (h : Agree Id d) : Consistent Id d := by
  refine ⟨d.idIn .SPO, fun o => ?_⟩
  have key : ∀ e ∈ (d.tree o).entries, ∃ t : Triple Id, e.1 = (encOf o t).1 ∧
      decodeEntry (Id := Id) (decOf o) e = .ok (t, e.2) := by
    rintro ⟨k, v⟩ he
    obtain ⟨t, rfl⟩ := h.keys o k v (BMap.mem_entries.1 he)
    exact ⟨t, rfl, decodeEntry_enc o t v⟩
  rw [orderedEdges_eq]
  refine ⟨_, map_all_ok (fun a ha => by obtain ⟨t, -, e⟩ := key a ha; exact ⟨_, e⟩), ?_, ?_⟩
  · have hs := List.Pairwise.and_mem.1 (d.tree o).sorted
    refine List.Pairwise.filterMap _ (fun a a' haa b hb b' hb' => ?_) hs
    obtain ⟨ha, ha', hlt⟩ := haa
    obtain ⟨t, h1, h2⟩ := key a ha
    obtain ⟨t', h1', h2'⟩ := key a' ha'
    rw [h2] at hb; cases hb
    rw [h2'] at hb'; cases hb'
    rw [h1, h1'] at hlt
    exact (encOf_lt o).1 hlt
  · intro t v
    rw [List.mem_filterMap, ← h.same o]
    constructor
    · rintro ⟨a, ha, e⟩
      obtain ⟨t', h1, h2⟩ := key a ha
      rw [h2] at e; cases e
      rw [Db.idIn, ← h1]
      exact BMap.mem_entries.1 ha
    · intro hv
      exact ⟨_, BMap.mem_entries.2 hv, by rw [decodeEntry_enc]⟩

/-! ## single calls -/

/-- result of a transaction -/
def commit (f : Db → Except SErr Db) (d : Db) : Db :=
  match f d with
  | .ok d' => d'
  | .error _ => d

theorem tx_bind {β : Type} (f : Db → Except SErr Db) (k : Except SErr Unit → Prog Db β) :
    (transaction f).bind k = .call (commit f) (fun d => k (match f d with | .ok _ => .ok () | .error e => .error e)) := rfl

/-- what merge_edge makes of any database -/
theorem mergeEdge_commit (c : Codecs NP EP) (mE : EP → EP → EP) (i : Id) (t : Triple Id) (p : EP) :
    ∃ f, Sled.mergeEdge c mE i t p = transaction f ∧ ∀ d, commit f d = d ∨
      ∃ b q, c.e.ser q = some b ∧ commit f d = ({ d with
        edgeProps := (match d.idIn .SPO t with
          | some o => d.edgeProps.erase o
          | none => d.edgeProps).insert (toBeBytes i).1 b }.setEdge t (toBeBytes i).1) := by
  refine ⟨_, rfl, fun d => ?_⟩
  have e : d.idIn .SPO t = d.spo.get (encodeSpo t).1 := rfl
  rw [e]
  unfold commit
  cases ho : d.spo.get (encodeSpo t).1 with
  | none =>
    simp only [ho]
    cases hs : c.e.ser p with
    | none => exact .inl rfl
    | some b => exact .inr ⟨b, p, hs, rfl⟩
  | some o =>
    simp only [ho]
    cases hv : d.edgeProps.get o with
    | none =>
      simp only
      cases hs : c.e.ser p with
      | none => exact .inl rfl
      | some b => exact .inr ⟨b, p, hs, rfl⟩
    | some v =>
      simp only
      cases hd : c.e.de v with
      | none => exact .inl rfl
      | some q =>
        simp only
        cases hs : c.e.ser (mE q p) with
        | none => exact .inl rfl
        | some b => exact .inr ⟨b, _, hs, rfl⟩

/-- what merge_node makes of any database -/
theorem mergeNode_commit (c : Codecs NP EP) (mN : NP → NP → NP) (n : Id) (p : NP) :
    ∃ f, Sled.mergeNode c mN n p = transaction f ∧ ∀ d, commit f d = d ∨
      ∃ b q, c.n.ser q = some b ∧ commit f d = { d with nodeProps := d.nodeProps.insert (toBeBytes n).1 b } := by
  refine ⟨_, rfl, fun d => ?_⟩
  unfold commit
  cases hv : d.nodeProps.get (toBeBytes n).1 with
  | none =>
    simp only [hv]
    cases hs : c.n.ser p with
    | none => exact .inl rfl
    | some b => exact .inr ⟨b, _, hs, rfl⟩
  | some v =>
    simp only [hv]
    cases hd : c.n.de v with
    | none => exact .inl rfl
    | some q =>
      simp only
      cases hs : c.n.ser (mN q p) with
      | none => exact .inl rfl
      | some b => exact .inr ⟨b, _, hs, rfl⟩

/-- the batches made of what was scanned -/
def batchOf (L : List (Triple Id × Bytes)) : Batch :=
  { spo := L.map (fun x => (encodeSpo x.1).1), pos := L.map (fun x => (encodePos x.1).1),
    osp := L.map (fun x => (encodeOsp x.1).1), edge := L.map Prod.snd }

theorem forwardBatch_ok {fwd : List (Bytes × Bytes)} {b fb : Batch} (h : forwardBatch Id b fwd = .ok fb) :
    ∃ L : List (Triple Id × Bytes), fwd = L.map (fun x => ((encodeSpo x.1).1, x.2)) := by
  induction fwd generalizing b with
  | nil => exact ⟨[], rfl⟩
  | cons e l ih =>
    obtain ⟨k, v⟩ := e
    rw [forwardBatch] at h
    rcases key_cases (Id := Id) .SPO k with ⟨t, rfl⟩ | ⟨hl, hn⟩
    · cases hk : ByteArr.tryFrom (tripleLen (Id := Id)) (encOf .SPO t).1 with
      | none => rw [hk] at h; cases h
      | some key =>
        rw [hk] at h
        obtain ⟨L, rfl⟩ := ih h
        exact ⟨(t, v) :: L, rfl⟩
    · rw [hn] at h; cases h

theorem backwardBatch_ok {bwd : List (Bytes × Bytes)} {b fb : Batch} (h : backwardBatch Id b bwd = .ok fb) :
    ∃ L : List (Triple Id × Bytes), bwd = L.map (fun x => ((encodeOsp x.1).1, x.2)) := by
  induction bwd generalizing b with
  | nil => exact ⟨[], rfl⟩
  | cons e l ih =>
    obtain ⟨k, v⟩ := e
    rw [backwardBatch] at h
    rcases key_cases (Id := Id) .OSP k with ⟨t, rfl⟩ | ⟨hl, hn⟩
    · cases hk : ByteArr.tryFrom (tripleLen (Id := Id)) (encOf .OSP t).1 with
      | none => rw [hk] at h; cases h
      | some key =>
        rw [hk] at h
        obtain ⟨L, rfl⟩ := ih h
        exact ⟨(t, v) :: L, rfl⟩
    · rw [hn] at h; cases h

/-- the database after the transaction of remove_node -/
def dropped (n : Id) (F B : List (Triple Id × Bytes)) (d : Db) : Db :=
  { nodeProps := d.nodeProps.erase (toBeBytes n).1
    edgeProps := applyBatch (applyBatch d.edgeProps (F.map Prod.snd)) (B.map Prod.snd)
    spo := applyBatch (applyBatch d.spo (F.map (fun x => (encodeSpo x.1).1))) (B.map (fun x => (encodeSpo x.1).1))
    pos := applyBatch (applyBatch d.pos (F.map (fun x => (encodePos x.1).1))) (B.map (fun x => (encodePos x.1).1))
    osp := applyBatch (applyBatch d.osp (F.map (fun x => (encodeOsp x.1).1))) (B.map (fun x => (encodeOsp x.1).1)) }

theorem dropped_get (n : Id) (F B : List (Triple Id × Bytes)) (d : Db) (o : EdgeOrder) (k : Bytes) :
    ((dropped n F B d).tree o).get k = if k ∈ (F ++ B).map (fun x => (encOf o x.1).1) then none else (d.tree o).get k := by
  have : (dropped n F B d).tree o = applyBatch (applyBatch (d.tree o) (F.map (fun x => (encOf o x.1).1)))
      (B.map (fun x => (encOf o x.1).1)) := by cases o <;> rfl
  rw [this, applyBatch_get, applyBatch_get, List.map_append]
  by_cases h1 : k ∈ F.map (fun x => (encOf o x.1).1) <;> by_cases h2 : k ∈ B.map (fun x => (encOf o x.1).1) <;>
    simp only [h1, h2, List.mem_append, if_true, if_false, or_true, true_or, or_self]

theorem dropped_idIn (n : Id) (F B : List (Triple Id × Bytes)) (d : Db) (o : EdgeOrder) (t : Triple Id) :
    (dropped n F B d).idIn o t = if t ∈ (F ++ B).map Prod.fst then none else d.idIn o t := by
  unfold Db.idIn
  rw [dropped_get]
  have : (encOf o t).1 ∈ (F ++ B).map (fun x => (encOf o x.1).1) ↔ t ∈ (F ++ B).map Prod.fst := by
    simp only [List.mem_map, encOf_inj]
  simp only [this]

theorem dropped_keys {n : Id} {F B : List (Triple Id × Bytes)} {d : Db} {o : EdgeOrder} (h : KeysOk Id o d) :
    KeysOk Id o (dropped n F B d) := by
  intro k v hk
  rw [dropped_get] at hk
  split at hk
  · cases hk
  · exact h k v hk

theorem removeNodeScanned_cases (n : Id) (fwd bwd : List (Bytes × Bytes)) :
    (∃ r, removeNodeScanned n fwd bwd = .ret r) ∨
    ∃ F B : List (Triple Id × Bytes), fwd = F.map (fun x => ((encodeSpo x.1).1, x.2)) ∧
      bwd = B.map (fun x => ((encodeOsp x.1).1, x.2)) ∧
      removeNodeScanned n fwd bwd = transaction (fun d => .ok (dropped n F B d)) := by
  unfold removeNodeScanned
  cases h1 : forwardBatch Id ⟨[], [], [], []⟩ fwd with
  | error e => exact .inl ⟨_, rfl⟩
  | ok fb =>
    cases h2 : backwardBatch Id ⟨[], [], [], []⟩ bwd with
    | error e => exact .inl ⟨_, rfl⟩
    | ok bb =>
      right
      obtain ⟨F, rfl⟩ := forwardBatch_ok h1
      obtain ⟨B, rfl⟩ := backwardBatch_ok h2
      refine ⟨F, B, rfl, rfl, ?_⟩
      rw [forwardBatch_enc] at h1
      rw [backwardBatch_enc] at h2
      cases h1; cases h2
      simp only [List.nil_append]
      rfl

/-! ## orderings agree -/

/-- which edges a thread writes, and which it removes with remove_edge -/
structure Role (Id : Type) where
  writes : Triple Id → Prop
  removes : Triple Id → Prop

/-- threads may not write what others remove -/
def agreeRG (Id : Type) [LinearOrder Id] [ConcreteId Id] : RG Db Unit (Role Id) where
  inv d _ := Agree Id d
  rely a x y := ∀ t, a.removes t → x.1.idIn .SPO t = none → y.1.idIn .SPO t = none
  ok _ _ := True
  par a b := ∀ t, b.removes t → ¬ a.writes t
  seq _ _ := True
  le a b := a = b
  rely_refl _ _ _ _ h := h
  rely_trans _ _ _ _ h h' t ht hn := h' t ht (h t ht hn)
  le_trans _ _ _ h h' := h.trans h'
  par_le a a' b h := by subst h; exact ⟨id, id⟩
  seq_le _ _ _ _ := id

/-- effect of one call -/
def Eff (a : Role Id) (d d' : Db) : Prop :=
  Agree Id d' ∧ ∀ t, ¬ a.writes t → d.idIn .SPO t = none → d'.idIn .SPO t = none

theorem allowed_of_eff {a : Role Id} {d d' : Db} (h : Eff a d d') : (agreeRG Id).Allowed a d () d' a () :=
  ⟨rfl, h.1, trivial, fun b hp _ => ⟨fun t ht hn => h.2 t (hp t ht) hn, trivial⟩, fun _ _ => id⟩

variable {α : Type}

theorem safe_call {a : Role Id} {f : Db → Db} {k : Db → Prog Db α} (hf : ∀ d, Agree Id d → Eff a d (f d))
    (hk : ∀ d x, (agreeRG Id).Safe (k d) a x) (x : Db × Unit) : (agreeRG Id).Safe (.call f k) a x :=
  fun d _ _ hi _ => ⟨a, (), allowed_of_eff (hf d hi), hk d _⟩

theorem eff_same {a : Role Id} {d d' : Db} (h : Agree Id d) (ht : ∀ o, d'.tree o = d.tree o) : Eff a d d' := by
  have hi : ∀ o (t : Triple Id), d'.idIn o t = d.idIn o t := fun o t => by unfold Db.idIn; rw [ht]
  exact ⟨⟨fun o k v hk => h.keys o k v (by rw [← ht]; exact hk), fun o t => by rw [hi, hi, h.same]⟩,
    fun t _ hn => by rw [hi]; exact hn⟩

theorem eff_set {a : Role Id} {d : Db} (h : Agree Id d) {m : Tree} {t : Triple Id} {v : Bytes} (ht : a.writes t) :
    Eff a d ({ d with edgeProps := m }.setEdge t v) := by
  refine ⟨setEdge_agree (withProps_agree h m) t v, fun u hu hn => ?_⟩
  rw [setEdge_idIn, withProps_idIn, if_neg]
  · exact hn
  · rintro rfl; exact hu ht

theorem eff_dropped {a : Role Id} {d : Db} (h : Agree Id d) (n : Id) (F B : List (Triple Id × Bytes)) :
    Eff a d (dropped n F B d) := by
  refine ⟨⟨fun o => dropped_keys (h.keys o), fun o t => by rw [dropped_idIn, dropped_idIn, h.same]⟩, fun t _ hn => ?_⟩
  rw [dropped_idIn, hn, ite_self]

theorem safe_insertNode {c : Codecs NP EP} {a : Role Id} {n : Id} {p : NP} {k : Except SErr Unit → Prog Db α}
    (hk : ∀ r x, (agreeRG Id).Safe (k r) a x) (x : Db × Unit) :
    (agreeRG Id).Safe ((Sled.insertNode c n p).bind k) a x := by
  unfold Sled.insertNode
  split
  · exact hk _ _
  · exact safe_call (fun d h => eff_same h (fun o => by cases o <;> rfl)) (fun d x => hk _ _) x

theorem safe_insertEdge {c : Codecs NP EP} {a : Role Id} {i : Id} {t : Triple Id} {p : EP}
    {k : Except SErr Unit → Prog Db α} (ht : a.writes t) (hk : ∀ r x, (agreeRG Id).Safe (k r) a x) (x : Db × Unit) :
    (agreeRG Id).Safe ((Sled.insertEdge c i t p).bind k) a x := by
  unfold Sled.insertEdge
  split
  · exact hk _ _
  · rename_i b hb
    rw [tx_bind]
    refine safe_call (fun d h => ?_) (fun d x => hk _ _) x
    exact eff_set (m := d.edgeProps.insert (toBeBytes i).1 b) (v := (toBeBytes i).1) h ht

theorem safe_mergeNode {c : Codecs NP EP} {mN : NP → NP → NP} {a : Role Id} {n : Id} {p : NP}
    {k : Except SErr Unit → Prog Db α}
    (hk : ∀ r x, (agreeRG Id).Safe (k r) a x) (x : Db × Unit) :
    (agreeRG Id).Safe ((Sled.mergeNode c mN n p).bind k) a x := by
  obtain ⟨f, hf, he⟩ := mergeNode_commit c mN n p
  rw [hf, tx_bind]
  refine safe_call (fun d h => ?_) (fun d x => hk _ _) x
  rcases he d with e | ⟨b, q, -, e⟩
  · rw [e]; exact eff_same h (fun _ => rfl)
  · rw [e]; exact eff_same h (fun o => by cases o <;> rfl)

theorem safe_mergeEdge {c : Codecs NP EP} {mE : EP → EP → EP} {a : Role Id} {i : Id} {t : Triple Id} {p : EP}
    {k : Except SErr Unit → Prog Db α} (ht : a.writes t) (hk : ∀ r x, (agreeRG Id).Safe (k r) a x) (x : Db × Unit) :
    (agreeRG Id).Safe ((Sled.mergeEdge c mE i t p).bind k) a x := by
  obtain ⟨f, hf, he⟩ := mergeEdge_commit c mE i t p
  rw [hf, tx_bind]
  refine safe_call (fun d h => ?_) (fun d x => hk _ _) x
  rcases he d with e | ⟨b, q, -, e⟩
  · rw [e]; exact eff_same h (fun _ => rfl)
  · rw [e]; exact eff_set h ht

theorem safe_removeNodeScanned {a : Role Id} {n : Id} {fwd bwd : List (Bytes × Bytes)}
    {k : Except SErr Unit → Prog Db α} (hk : ∀ r x, (agreeRG Id).Safe (k r) a x) (x : Db × Unit) :
    (agreeRG Id).Safe ((removeNodeScanned n fwd bwd).bind k) a x := by
  rcases removeNodeScanned_cases n fwd bwd with ⟨r, e⟩ | ⟨F, B, -, -, e⟩
  · rw [e]; exact hk _ _
  · rw [e, tx_bind]
    exact safe_call (fun d h => eff_dropped h n F B) (fun d x => hk _ _) x

theorem removeNode_eq (n : Id) : removeNode n = .call id (fun d1 =>
    match forwardBatch Id ⟨[], [], [], []⟩ (d1.spo.rangeArr (keyBounds1 n)) with
    | .error e => .ret (.error e)
    | .ok _ => .call id (fun d2 =>
        removeNodeScanned n (d1.spo.rangeArr (keyBounds1 n)) (d2.osp.rangeArr (keyBounds1 n)))) := by
  unfold removeNode
  congr 1
  funext d1
  cases h : forwardBatch Id ⟨[], [], [], []⟩ (d1.spo.rangeArr (keyBounds1 n)) with
  | error e => rfl
  | ok fb =>
    simp only
    congr 1
    funext d2
    unfold removeNodeScanned
    simp only [h]

theorem safe_removeNode {a : Role Id} {n : Id} {k : Except SErr Unit → Prog Db α}
    (hk : ∀ r x, (agreeRG Id).Safe (k r) a x) (x : Db × Unit) :
    (agreeRG Id).Safe ((removeNode n).bind k) a x := by
  rw [removeNode_eq]
  refine safe_call (fun d h => eff_same h (fun _ => rfl)) (fun d x => ?_) x
  dsimp only
  cases forwardBatch Id ⟨[], [], [], []⟩ (d.spo.rangeArr (keyBounds1 n)) with
  | error e => exact hk _ _
  | ok fb => exact safe_call (fun d h => eff_same h (fun _ => rfl)) (fun d' x => safe_removeNodeScanned hk x) x

theorem safe_removeEdge {a : Role Id} {t : Triple Id} {k : Except SErr Unit → Prog Db α} (ht : a.removes t)
    (hk : ∀ r x, (agreeRG Id).Safe (k r) a x) (x : Db × Unit) :
    (agreeRG Id).Safe ((removeEdge t).bind k) a x := by
  intro d _ _ hi _
  have e0 : Eff a d (removed d t) := by
    refine ⟨unsetEdge_agree (withProps_agree hi _) t, fun u _ hn => ?_⟩
    rw [removed, unsetEdge_idIn, withProps_idIn, hn, ite_self]
  have n0 : (removed d t).idIn .SPO t = none := by rw [removed, unsetEdge_idIn, if_pos rfl]
  refine ⟨a, (), allowed_of_eff e0, ?_⟩
  intro d1 _ h1 hi1 _
  have n1 : ∀ o, d1.idIn o t = none := fun o => by rw [hi1.same]; exact h1 t ht n0
  have f1 : ({ d1 with spo := d1.spo.erase (encodeSpo t).1 } : Db) = d1 := by
    rw [BMap.erase_of_none d1.spo (k := (encodeSpo t).1) (n1 .SPO)]
  refine ⟨a, (), allowed_of_eff (by dsimp only; rw [f1]; exact eff_same hi1 (fun _ => rfl)), ?_⟩
  dsimp only
  rw [f1]
  intro d2 _ h2 hi2 _
  have n2 : ∀ o, d2.idIn o t = none := fun o => by rw [hi2.same]; exact h2 t ht (n1 .SPO)
  have f2 : ({ d2 with pos := d2.pos.erase (encodePos t).1 } : Db) = d2 := by
    rw [BMap.erase_of_none d2.pos (k := (encodePos t).1) (n2 .POS)]
  refine ⟨a, (), allowed_of_eff (by dsimp only; rw [f2]; exact eff_same hi2 (fun _ => rfl)), ?_⟩
  dsimp only
  rw [f2]
  intro d3 _ h3 hi3 _
  have n3 : ∀ o, d3.idIn o t = none := fun o => by rw [hi3.same]; exact h3 t ht (n2 .SPO)
  have f3 : ({ d3 with osp := d3.osp.erase (encodeOsp t).1 } : Db) = d3 := by
    rw [BMap.erase_of_none d3.osp (k := (encodeOsp t).1) (n3 .OSP)]
  refine ⟨a, (), allowed_of_eff (by dsimp only; rw [f3]; exact eff_same hi3 (fun _ => rfl)), ?_⟩
  have : d1.spo.get (encodeSpo t).1 = none := n1 .SPO
  simp only [this]
  exact hk _ _

theorem safe_mergeEdges {c : Codecs NP EP} {mE : EP → EP → EP} {a : Role Id} {β : Type}
    {k : Gen Id × Except (LR SErr E) Unit → Prog Db β} (hk : ∀ r x, (agreeRG Id).Safe (k r) a x)
    (l : List (Except E (Triple Id × EP))) (g : Gen Id)
    (ht : ∀ y ∈ Call.drawnFor g l, a.writes y.2) (x : Db × Unit) :
    (agreeRG Id).Safe ((mergeEdges c mE g l).bind k) a x := by
  induction l generalizing g x with
  | nil => exact hk _ _
  | cons y l ih =>
    cases y with
    | error e => exact hk _ _
    | ok y =>
      rw [mergeEdges]
      have assoc : ∀ f : Except SErr Unit → Prog Db (Gen Id × Except (LR SErr E) Unit),
          ((Sled.mergeEdge c mE (Gen.fresh g).1 y.1 y.2).bind f).bind k =
            (Sled.mergeEdge c mE (Gen.fresh g).1 y.1 y.2).bind (fun r => (f r).bind k) := fun f => rfl
      rw [assoc]
      refine safe_mergeEdge (ht _ (by simp only [Call.drawnFor]; exact List.mem_cons_self)) (fun r x => ?_) x
      cases r with
      | error e => exact hk _ _
      | ok u => exact ih _ (fun z hz => ht z (List.mem_cons_of_mem _ hz)) x

theorem safe_mergeNodes {c : Codecs NP EP} {mN : NP → NP → NP} {a : Role Id} {α β : Type}
    {j : Except (LR SErr E) Unit → Prog Db α} {k : α → Prog Db β} (hk : ∀ r x, (agreeRG Id).Safe ((j r).bind k) a x)
    (l : List (Except E (Id × NP))) (x : Db × Unit) :
    (agreeRG Id).Safe ((mergeNodes c mN j l).bind k) a x := by
  induction l generalizing x with
  | nil => exact hk _ _
  | cons y l ih =>
    cases y with
    | error e => exact hk _ _
    | ok y =>
      rw [mergeNodes]
      have assoc : ∀ f : Except SErr Unit → Prog Db α,
          ((Sled.mergeNode c mN y.1 y.2).bind f).bind k =
            (Sled.mergeNode c mN y.1 y.2).bind (fun r => (f r).bind k) := fun f => rfl
      rw [assoc]
      refine safe_mergeNode (fun r x => ?_) x
      cases r with
      | error e => exact hk _ _
      | ok u => exact ih x

theorem safe_ret {a : Role Id} {x : Db × Unit} {r : α} : (agreeRG Id).Safe (.ret r : Prog Db α) a x := trivial

theorem safe_prog (c : Codecs NP EP) (mN : NP → NP → NP) (mE : EP → EP → EP) (a : Role Id) (x : Call E Id NP EP)
    (hw : ∀ y ∈ x.writes, a.writes y.2) (hr : ∀ t, x.Removes t → a.removes t) (he : ¬ x.IsExtend) (y : Db × Unit) :
    (agreeRG Id).Safe (x.prog c mN mE) a y := by
  cases x with
  | insertNode n p => exact safe_insertNode (fun _ _ => safe_ret) y
  | insertEdge i t p => exact safe_insertEdge (hw ((toBeBytes i).1, t) (by simp [Call.writes])) (fun _ _ => safe_ret) y
  | removeNode n => exact safe_removeNode (fun _ _ => safe_ret) y
  | removeNodeScan n fwd bwd => exact safe_removeNodeScanned (fun _ _ => safe_ret) y
  | removeEdge t => exact safe_removeEdge (hr t rfl) (fun _ _ => safe_ret) y
  | mergeNode n p => exact safe_mergeNode (fun _ _ => safe_ret) y
  | mergeEdge i t p => exact safe_mergeEdge (hw ((toBeBytes i).1, t) (by simp [Call.writes])) (fun _ _ => safe_ret) y
  | extend u src => exact absurd trivial he
  | merge g src =>
    refine safe_mergeNodes (fun r y => ?_) src.nodes y
    cases r with
    | error e => exact safe_ret
    | ok u => exact safe_mergeEdges (fun _ _ => safe_ret) _ g hw y

/-- what a thread does, all in all -/
def roleOf (th : List (Call E Id NP EP)) : Role Id where
  writes t := ∃ x ∈ th, ∃ v, (v, t) ∈ x.writes
  removes t := ∃ x ∈ th, x.Removes t

theorem agree_moment {c : Codecs NP EP} {mN : NP → NP → NP} {mE : EP → EP → EP} {d0 : Db}
    {threads : List (List (Call E Id NP EP))} (h0 : Agree Id d0) (hne : ∀ th ∈ threads, ∀ x ∈ th, ¬ x.IsExtend)
    (hp : threads.Pairwise (fun th th' => ∀ t, ¬ ((roleOf th).removes t ∧ (roleOf th').writes t) ∧
      ¬ ((roleOf th').removes t ∧ (roleOf th).writes t)))
    {d : Db} (hd : Moment c mN mE d0 threads d) : Agree Id d := by
  obtain ⟨rest, hs⟩ := hd
  have h := (agreeRG Id).good_steps (x := start c mN mE d0 threads)
    ⟨(), threads.map (fun th => th.map (fun x => (x.prog c mN mE, roleOf th))), ?_, h0, ?_, ?_⟩ hs
  · obtain ⟨_, _, _, h, _⟩ := h
    exact h
  · simp [start, Function.comp_def]
  · intro q hq
    obtain ⟨th, hth, rfl⟩ := List.mem_map.1 hq
    have safe : ∀ x ∈ th, ∀ y, (agreeRG Id).Safe (x.prog c mN mE) (roleOf th) y := fun x hx y =>
      safe_prog c mN mE (roleOf th) x (fun z hz => ⟨x, hx, z.1, hz⟩) (fun t ht => ⟨x, hx, ht⟩) (hne th hth x hx) y
    generalize roleOf th = a at safe
    clear hq hth
    cases th with
    | nil => trivial
    | cons x th =>
      refine ⟨safe x (by simp) _, ?_, List.pairwise_of_forall (fun _ _ => trivial), fun _ _ => trivial⟩
      intro e he y
      obtain ⟨z, hz, rfl⟩ := List.mem_map.1 he
      exact safe z (List.mem_cons_of_mem _ hz) y
  · rw [List.pairwise_map]
    refine hp.imp (fun {th th'} h => ?_)
    intro e he e' he'
    obtain ⟨x, -, rfl⟩ := List.mem_map.1 he
    obtain ⟨x', -, rfl⟩ := List.mem_map.1 he'
    exact ⟨fun t ht hw => (h t).2 ⟨ht, hw⟩, fun t ht hw => (h t).1 ⟨ht, hw⟩⟩

end Sled

end Verif
