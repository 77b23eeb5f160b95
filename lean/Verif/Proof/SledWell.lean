import Verif.Spec.SledWell
import Verif.Proof.Local
import Verif.Proof.SledOps
import Verif.Proof.SledReading

/-! # Every write of the back-end keeps the database contents well-formed -/

namespace Verif

open Spec ConcreteId

variable {Id NP EP E : Type} [LinearOrder Id] [ConcreteId Id] {c : Codecs NP EP}

namespace Sled

section
variable {d d' : Db}

theorem WellFormed.sub (h : WellFormed Id c d) (hn : ∀ k b, d'.nodeProps.get k = some b → d.nodeProps.get k = some b)
    (he : ∀ k b, d'.edgeProps.get k = some b → d.edgeProps.get k = some b)
    (ht : ∀ o k v, (d'.tree o).get k = some v → (d.tree o).get k = some v) : WellFormed Id c d' :=
  ⟨fun k b hk => h.nodes k b (hn k b hk), fun k b hk => h.recs k b (he k b hk), fun o k v hk => h.keys o k v (ht o k v hk)⟩

theorem get_of_erase {t : Tree} {k k' b : Bytes} (h : (t.erase k).get k' = some b) : t.get k' = some b := by
  rw [BMap.get_erase] at h
  split at h
  · cases h
  · exact h

theorem get_of_applyBatch {t : Tree} {ks : List Bytes} {k b : Bytes} (h : (applyBatch t ks).get k = some b) :
    t.get k = some b := by
  rw [applyBatch_get] at h
  split at h
  · cases h
  · exact h

theorem WellFormed.node (h : WellFormed Id c d) (n : Id) {p : NP} {b : Bytes} (hb : c.n.ser p = some b) :
    WellFormed Id c { d with nodeProps := d.nodeProps.insert (toBeBytes n).1 b } := by
  refine ⟨fun k b' hk => ?_, h.recs, h.keys⟩
  dsimp only at hk
  rw [BMap.get_insert] at hk
  split at hk
  · rename_i e
    obtain rfl := Option.some.inj hk
    exact ⟨e ▸ (toBeBytes n).2, p, hb⟩
  · exact h.nodes _ _ hk

theorem WellFormed.setRec (h : WellFormed Id c d) (v : Bytes) {p : EP} {b : Bytes} (hb : c.e.ser p = some b) :
    WellFormed Id c { d with edgeProps := d.edgeProps.insert v b } := by
  refine ⟨h.nodes, fun k b' hk => ?_, h.keys⟩
  dsimp only at hk
  rw [BMap.get_insert] at hk
  split at hk
  · obtain rfl := Option.some.inj hk
    exact ⟨p, hb⟩
  · exact h.recs _ _ hk

theorem WellFormed.unrec (h : WellFormed Id c d) (v : Bytes) :
    WellFormed Id c { d with edgeProps := d.edgeProps.erase v } :=
  h.sub (fun _ _ => id) (fun _ _ => get_of_erase) (fun o _ _ => by cases o <;> exact id)

theorem WellFormed.put (h : WellFormed Id c d) {ts tp tq : Tree}
    (hs : ∀ k v, ts.get k = some v → k.length = tripleLen (Id := Id))
    (hp : ∀ k v, tp.get k = some v → k.length = tripleLen (Id := Id))
    (ho : ∀ k v, tq.get k = some v → k.length = tripleLen (Id := Id)) :
    WellFormed Id c { d with spo := ts, pos := tp, osp := tq } :=
  ⟨h.nodes, h.recs, fun o => by cases o <;> assumption⟩

theorem sized_insert {t : Tree} (h : ∀ k v, t.get k = some v → k.length = tripleLen (Id := Id)) (key : TKey Id) (i : Bytes) :
    ∀ k v, (t.insert key.1 i).get k = some v → k.length = tripleLen (Id := Id) := by
  intro k v hk
  rw [BMap.get_insert] at hk
  split at hk
  · rename_i e
    exact e ▸ key.2
  · exact h _ _ hk

theorem sized_erase {t : Tree} (h : ∀ k v, t.get k = some v → k.length = tripleLen (Id := Id)) (key : Bytes) :
    ∀ k v, (t.erase key).get k = some v → k.length = tripleLen (Id := Id) := fun k v hk => h k v (get_of_erase hk)

theorem WellFormed.edge (h : WellFormed Id c d) (t : Triple Id) (i : Bytes) :
    WellFormed Id c { d with
      spo := d.spo.insert (encodeSpo t).1 i
      pos := d.pos.insert (encodePos t).1 i
      osp := d.osp.insert (encodeOsp t).1 i } :=
  h.put (sized_insert (h.keys .SPO) _ _) (sized_insert (h.keys .POS) _ _) (sized_insert (h.keys .OSP) _ _)

end

/-- Every call of the program keeps the contents well-formed; its result satisfies `R`. -/
abbrev Keeps {α : Type} (Id : Type) [LinearOrder Id] [ConcreteId Id] (c : Codecs NP EP) (p : Prog Db α) (R : α → Prop) :
    Prop := Framed (WellFormed Id c) (fun _ => ()) p R

theorem keeps_call {α : Type} {f : Db → Db} {k : Db → Prog Db α} {R : α → Prop}
    (hf : ∀ d, WellFormed Id c d → WellFormed Id c (f d)) (hk : ∀ d, WellFormed Id c d → Keeps Id c (k d) R) :
    Keeps Id c (.call f k) R := fun d hd => ⟨hf d hd, rfl, hk d hd⟩

theorem keeps_transaction {f : Db → Except SErr Db} {R : Except SErr Unit → Prop}
    (hf : ∀ d d', WellFormed Id c d → f d = .ok d' → WellFormed Id c d' ∧ R (.ok ()))
    (he : ∀ d e, WellFormed Id c d → f d = .error e → R (.error e)) : Keeps Id c (transaction f) R := by
  unfold transaction
  refine keeps_call (fun d hd => ?_) (fun d hd => ?_)
  · cases h : f d with
    | ok d' => exact (hf d d' hd h).1
    | error e => exact hd
  · cases h : f d with
    | ok d' => exact (hf d d' hd h).2
    | error e => exact he d e hd h

/-- the property of a node, or of an edge, can fail to be serialized -/
def Unser (c : Codecs NP EP) : Prop := (∃ p, c.n.ser p = none) ∨ ∃ p, c.e.ser p = none

/-- the result of a function working on one item -/
def ItemResult (c : Codecs NP EP) (r : Except SErr Unit) : Prop := r = .ok () ∨ r = .error .serialization ∧ Unser c

theorem insertNode_keeps (n : Id) (p : NP) : Keeps Id c (insertNode c n p) (ItemResult c) := by
  unfold insertNode
  cases hb : c.n.ser p with
  | none => exact .inr ⟨rfl, .inl ⟨p, hb⟩⟩
  | some b => exact keeps_call (fun d hd => hd.node n hb) (fun _ _ => .inl rfl)

theorem insertEdge_keeps (i : Id) (t : Triple Id) (p : EP) : Keeps Id c (insertEdge c i t p) (ItemResult c) := by
  unfold insertEdge
  cases hb : c.e.ser p with
  | none => exact .inr ⟨rfl, .inr ⟨p, hb⟩⟩
  | some b =>
    refine keeps_transaction (fun d d' hd h => ⟨?_, .inl rfl⟩) (fun d e _ h => by cases h)
    cases h
    exact (hd.edge t (toBeBytes i).1).setRec (toBeBytes i).1 hb

theorem forwardBatch_sized {l : List (Bytes × Bytes)} (h : ∀ e ∈ l, e.1.length = tripleLen (Id := Id)) (b : Batch) :
    ∃ b', forwardBatch Id b l = .ok b' := by
  induction l generalizing b with
  | nil => exact ⟨b, rfl⟩
  | cons e l ih =>
    obtain ⟨k, v⟩ := e
    have hk : ByteArr.tryFrom (tripleLen (Id := Id)) k = some ⟨k, h (k, v) (by simp)⟩ := by
      unfold ByteArr.tryFrom; rw [dif_pos]
    simp only [forwardBatch, hk]
    exact ih (fun e he => h e (List.mem_cons_of_mem _ he)) _

theorem backwardBatch_sized {l : List (Bytes × Bytes)} (h : ∀ e ∈ l, e.1.length = tripleLen (Id := Id)) (b : Batch) :
    ∃ b', backwardBatch Id b l = .ok b' := by
  induction l generalizing b with
  | nil => exact ⟨b, rfl⟩
  | cons e l ih =>
    obtain ⟨k, v⟩ := e
    have hk : ByteArr.tryFrom (tripleLen (Id := Id)) k = some ⟨k, h (k, v) (by simp)⟩ := by
      unfold ByteArr.tryFrom; rw [dif_pos]
    simp only [backwardBatch, hk]
    exact ih (fun e he => h e (List.mem_cons_of_mem _ he)) _

theorem removeNodeTx_keeps (n : Id) (f b : Batch) : Keeps Id c (removeNodeTx n f b) (fun r => r = .ok ()) := by
  unfold removeNodeTx
  refine keeps_transaction (fun d d' hd h => ⟨?_, rfl⟩) (fun d e _ h => by cases h)
  cases h
  refine hd.sub (fun _ _ => get_of_erase) (fun _ _ h => get_of_applyBatch (get_of_applyBatch h)) (fun o _ _ h => ?_)
  cases o <;> exact get_of_applyBatch (get_of_applyBatch h)

/-- whatever the scans have read -/
theorem removeNodeScanned_keeps (n : Id) (fwd bwd : List (Bytes × Bytes)) :
    Keeps Id c (removeNodeScanned n fwd bwd)
      (fun r => (∀ e ∈ fwd ++ bwd, e.1.length = tripleLen (Id := Id)) → r = .ok ()) := by
  unfold removeNodeScanned
  cases hf : forwardBatch Id ⟨[], [], [], []⟩ fwd with
  | error e =>
    intro h
    obtain ⟨b', hb⟩ := forwardBatch_sized (Id := Id) (l := fwd) (fun e he => h e (by simp [he])) ⟨[], [], [], []⟩
    rw [hf] at hb; cases hb
  | ok fb =>
    cases hb : backwardBatch Id ⟨[], [], [], []⟩ bwd with
    | error e =>
      intro h
      obtain ⟨b', hb'⟩ := backwardBatch_sized (Id := Id) (l := bwd) (fun e he => h e (by simp [he])) ⟨[], [], [], []⟩
      rw [hb] at hb'; cases hb'
    | ok bb => exact (removeNodeTx_keeps n fb bb).mono (fun _ h _ => h)

theorem rangeArr_sized {m : Nat} {t : Tree} {b : Bound (ByteArr m) × Bound (ByteArr m)}
    (h : ∀ k v, t.get k = some v → k.length = tripleLen (Id := Id)) :
    ∀ e ∈ t.rangeArr b, e.1.length = tripleLen (Id := Id) := by
  rintro ⟨k, v⟩ he
  exact h k v (BMap.mem_range.1 he).1

theorem removeNode_keeps (n : Id) : Keeps Id c (removeNode n) (fun r => r = .ok ()) := by
  unfold removeNode
  refine keeps_call (fun d hd => hd) (fun d1 h1 => ?_)
  obtain ⟨fb, hf⟩ := forwardBatch_sized (Id := Id) (l := d1.spo.rangeArr (keyBounds1 n)) (rangeArr_sized (h1.keys .SPO)) ⟨[], [], [], []⟩
  simp only [hf]
  refine keeps_call (fun d hd => hd) (fun d2 h2 => ?_)
  obtain ⟨bb, hb⟩ := backwardBatch_sized (Id := Id) (l := d2.osp.rangeArr (keyBounds1 n)) (rangeArr_sized (h2.keys .OSP)) ⟨[], [], [], []⟩
  simp only [hb]
  exact removeNodeTx_keeps n fb bb

theorem removeEdge_keeps (t : Triple Id) : Keeps Id c (removeEdge t) (fun r => r = .ok ()) := by
  unfold removeEdge
  refine keeps_call (fun d hd => ?_) (fun _ _ => keeps_call (fun d hd => ?_) (fun d1 _ => keeps_call (fun d hd => ?_)
    (fun _ _ => keeps_call (fun d hd => ?_) (fun _ _ => ?_))))
  · refine hd.sub (fun _ _ => id) (fun k b h => ?_) (fun o _ _ h => ?_)
    · dsimp only at h
      split at h
      · exact get_of_erase h
      · exact h
    · cases o <;> exact get_of_erase h
  · exact hd.put (sized_erase (hd.keys .SPO) _) (hd.keys .POS) (hd.keys .OSP)
  · exact hd.put (hd.keys .SPO) (sized_erase (hd.keys .POS) _) (hd.keys .OSP)
  · exact hd.put (hd.keys .SPO) (hd.keys .POS) (sized_erase (hd.keys .OSP) _)
  · cases d1.spo.get (encodeSpo t).1 with
    | none => exact rfl
    | some i => exact keeps_call (fun d hd => hd.unrec i) (fun _ _ => rfl)

theorem mergeNode_keeps (hc : c.RoundTrip) (mN : NP → NP → NP) (n : Id) (p : NP) :
    Keeps Id c (mergeNode c mN n p) (ItemResult c) := by
  unfold mergeNode
  refine keeps_transaction (fun d d' hd h => ⟨?_, .inl rfl⟩) (fun d e hd h => ?_)
  · cases hv : d.nodeProps.get (toBeBytes n).1 with
    | none =>
      simp only [hv] at h
      split at h
      · cases h
      · rename_i b hb
        cases h
        exact hd.node n hb
    | some v =>
      simp only [hv] at h
      split at h
      · cases h
      · split at h
        · cases h
        · rename_i b hb
          cases h
          exact hd.node n hb
  · cases hv : d.nodeProps.get (toBeBytes n).1 with
    | none =>
      simp only [hv] at h
      split at h
      · rename_i hb
        cases h
        exact .inr ⟨rfl, .inl ⟨_, hb⟩⟩
      · cases h
    | some v =>
      obtain ⟨-, q, hq⟩ := hd.nodes _ _ hv
      simp only [hv, hc.1 _ _ hq] at h
      split at h
      · rename_i hb
        cases h
        exact .inr ⟨rfl, .inl ⟨_, hb⟩⟩
      · cases h

theorem mergeEdge_keeps (hc : c.RoundTrip) (mE : EP → EP → EP) (i : Id) (t : Triple Id) (p : EP) :
    Keeps Id c (mergeEdge c mE i t p) (ItemResult c) := by
  unfold mergeEdge
  refine keeps_transaction (fun d d' hd h => ⟨?_, .inl rfl⟩) (fun d e hd h => ?_)
  · have h1 := hd.edge t (toBeBytes i).1
    cases ho : d.spo.get (encodeSpo t).1 with
    | none =>
      simp only [ho] at h
      split at h
      · cases h
      · rename_i b hb
        cases h
        exact h1.setRec _ hb
    | some o =>
      simp only [ho] at h
      split at h
      · split at h
        · cases h
        · rename_i b hb
          cases h
          exact (h1.unrec o).setRec _ hb
      · split at h
        · cases h
        · split at h
          · cases h
          · rename_i b hb
            cases h
            exact (h1.unrec o).setRec _ hb
  · cases ho : d.spo.get (encodeSpo t).1 with
    | none =>
      simp only [ho] at h
      split at h
      · rename_i hb
        cases h
        exact .inr ⟨rfl, .inr ⟨_, hb⟩⟩
      · cases h
    | some o =>
      simp only [ho] at h
      split at h
      · split at h
        · rename_i hb
          cases h
          exact .inr ⟨rfl, .inr ⟨_, hb⟩⟩
        · cases h
      · rename_i v hv
        obtain ⟨q, hq⟩ := hd.recs _ _ hv
        simp only [hc.2 _ _ hq] at h
        split at h
        · rename_i hb
          cases h
          exact .inr ⟨rfl, .inr ⟨_, hb⟩⟩
        · cases h

/-- the result of a function that reads a source -/
def BulkResult (c : Codecs NP EP) (src : Source E Id NP EP) (r : Except (LR SErr E) Unit) : Prop :=
  r = .ok () ∨ (∃ e, r = .error (.right e) ∧ (.error e ∈ src.nodes ∨ .error e ∈ src.edges)) ∨
    r = .error (.left .serialization) ∧ Unser c

theorem mergeNodes_keeps (hc : c.RoundTrip) (mN : NP → NP → NP) {α : Type} (k : Except (LR SErr E) Unit → Prog Db α)
    {R : α → Prop} (l : List (Except E (Id × NP))) (h1 : Keeps Id c (k (.ok ())) R)
    (h2 : ∀ e, .error e ∈ l → Keeps Id c (k (.error (.right e))) R)
    (h3 : Unser c → Keeps Id c (k (.error (.left .serialization))) R) : Keeps Id c (mergeNodes c mN k l) R := by
  induction l with
  | nil => exact h1
  | cons x l ih =>
    cases x with
    | error e => exact h2 e (by simp)
    | ok x =>
      refine (mergeNode_keeps hc mN x.1 x.2).bind (fun r hr => ?_)
      rcases hr with rfl | ⟨rfl, hu⟩
      · exact ih (fun e he => h2 e (List.mem_cons_of_mem _ he))
      · exact h3 hu

theorem mergeEdges_keeps (hc : c.RoundTrip) (mE : EP → EP → EP) (g : Gen Id) (l : List (Except E (Triple Id × EP)))
    {R : Except (LR SErr E) Unit → Prop} (h1 : R (.ok ())) (h2 : ∀ e, .error e ∈ l → R (.error (.right e)))
    (h3 : Unser c → R (.error (.left .serialization))) : Keeps Id c (mergeEdges c mE g l) (fun r => R r.2) := by
  induction l generalizing g with
  | nil => exact h1
  | cons x l ih =>
    cases x with
    | error e => exact h2 e (by simp)
    | ok x =>
      refine (mergeEdge_keeps hc mE _ x.1 x.2).bind (fun r hr => ?_)
      rcases hr with rfl | ⟨rfl, hu⟩
      · exact ih _ (fun e he => h2 e (List.mem_cons_of_mem _ he))
      · exact h3 hu

theorem merge_keeps (hc : c.RoundTrip) (mN : NP → NP → NP) (mE : EP → EP → EP) (g : Gen Id) (src : Source E Id NP EP) :
    Keeps Id c (merge c mN mE g src) (fun r => BulkResult c src r.2) := by
  unfold merge
  refine mergeNodes_keeps hc mN _ _ ?_ (fun e he => ?_) (fun hu => ?_)
  · exact mergeEdges_keeps hc mE g src.edges (.inl rfl) (fun e he => .inr (.inl ⟨e, rfl, .inr he⟩))
      (fun hu => .inr (.inr ⟨rfl, hu⟩))
  · exact .inr (.inl ⟨e, rfl, .inl he⟩)
  · exact .inr (.inr ⟨rfl, hu⟩)

theorem extendNodes_keeps {α : Type} (k : Except (LR SErr E) Unit → Prog Db α)
    {R : α → Prop} (l : List (Except E (Id × NP))) (h1 : Keeps Id c (k (.ok ())) R)
    (h2 : ∀ e, .error e ∈ l → Keeps Id c (k (.error (.right e))) R)
    (h3 : Unser c → Keeps Id c (k (.error (.left .serialization))) R) : Keeps Id c (extendNodes c k l) R := by
  induction l with
  | nil => exact h1
  | cons x l ih =>
    cases x with
    | error e => exact h2 e (by simp)
    | ok x =>
      unfold extendNodes
      cases hb : c.n.ser x.2 with
      | none => exact h3 (.inl ⟨_, hb⟩)
      | some b => exact keeps_call (fun d hd => hd.node x.1 hb) (fun _ _ => ih (fun e he => h2 e (List.mem_cons_of_mem _ he)))

theorem extendEdges_keeps (u : Gen Ulid) (l : List (Except E (Triple Id × EP)))
    {R : Except (LR SErr E) Unit → Prop} (h1 : R (.ok ())) (h2 : ∀ e, .error e ∈ l → R (.error (.right e)))
    (h3 : Unser c → R (.error (.left .serialization))) : Keeps Id c (extendEdges c u l) (fun r => R r.2) := by
  induction l generalizing u with
  | nil => exact h1
  | cons x l ih =>
    cases x with
    | error e => exact h2 e (by simp)
    | ok x =>
      unfold extendEdges
      have ih := fun u => ih u (fun e he => h2 e (List.mem_cons_of_mem _ he))
      cases hb : c.e.ser x.2 with
      | none => exact h3 (.inr ⟨_, hb⟩)
      | some b =>
        refine keeps_call (fun d hd => hd.setRec _ hb) (fun _ _ => keeps_call (fun d hd => ?_) (fun d1 _ =>
          keeps_call (fun d hd => ?_) (fun _ _ => keeps_call (fun d hd => ?_) (fun _ _ => ?_))))
        · exact hd.put (sized_insert (hd.keys .SPO) _ _) (hd.keys .POS) (hd.keys .OSP)
        · exact hd.put (hd.keys .SPO) (sized_insert (hd.keys .POS) _ _) (hd.keys .OSP)
        · exact hd.put (hd.keys .SPO) (hd.keys .POS) (sized_insert (hd.keys .OSP) _ _)
        · cases d1.spo.get (encodeSpo x.1).1 with
          | none => exact ih _
          | some o => exact keeps_call (fun d hd => hd.unrec o) (fun _ _ => ih _)

theorem extend_keeps (u : Gen Ulid) (src : Source E Id NP EP) :
    Keeps Id c (extend c u src) (fun r => BulkResult c src r.2) := by
  unfold extend
  refine extendNodes_keeps _ _ ?_ (fun e he => ?_) (fun hu => ?_)
  · exact extendEdges_keeps u src.edges (.inl rfl) (fun e he => .inr (.inl ⟨e, rfl, .inr he⟩))
      (fun hu => .inr (.inr ⟨rfl, hu⟩))
  · exact .inr (.inl ⟨e, rfl, .inl he⟩)
  · exact .inr (.inr ⟨rfl, hu⟩)

theorem Call.result_keeps' (hc : c.RoundTrip) (mN : NP → NP → NP) (mE : EP → EP → EP) (x : Call E Id NP EP) :
    Keeps Id c (x.result c mN mE) (fun r =>
      (∀ n fwd bwd, x = .removeNodeScan n fwd bwd → ∀ e ∈ fwd ++ bwd, e.1.length = tripleLen (Id := Id)) → x.Returns c r) := by
  have item : ∀ (x : Call E Id NP EP) (r : Except SErr Unit), x.Writes → ItemResult c r → x.Returns c (SledStore.tag r) := by
    rintro x r hw (rfl | ⟨rfl, hu⟩)
    · exact .ok
    · exact .unserializable hw hu
  have bulk : ∀ (x : Call E Id NP EP) (src : Source E Id NP EP) (r : Except (LR SErr E) Unit), x.Writes →
      (∀ e, .error e ∈ src.nodes ∨ .error e ∈ src.edges → x.Yields e) → BulkResult c src r → x.Returns c r := by
    rintro x src r hw hy (rfl | ⟨e, rfl, he⟩ | ⟨rfl, hu⟩)
    · exact .ok
    · exact .source (hy e he)
    · exact .unserializable hw hu
  cases x with
  | insertNode n p => exact (insertNode_keeps n p).bind (fun r hr _ => item _ r trivial hr)
  | insertEdge i t p => exact (insertEdge_keeps i t p).bind (fun r hr _ => item _ r trivial hr)
  | removeNode n => exact (removeNode_keeps n).bind (fun r hr _ => by subst hr; exact .ok)
  | removeNodeScan n fwd bwd =>
    exact (removeNodeScanned_keeps n fwd bwd).bind (fun r hr hs => by cases hr (hs n fwd bwd rfl); exact .ok)
  | removeEdge t => exact (removeEdge_keeps t).bind (fun r hr _ => by subst hr; exact .ok)
  | mergeNode n p => exact (mergeNode_keeps hc mN n p).bind (fun r hr _ => item _ r trivial hr)
  | mergeEdge i t p => exact (mergeEdge_keeps hc mE i t p).bind (fun r hr _ => item _ r trivial hr)
  | extend u src => exact (extend_keeps u src).bind (fun r hr _ => bulk _ src _ trivial (fun _ h => h) hr)
  | merge g src => exact (merge_keeps hc mN mE g src).bind (fun r hr _ => bulk _ src _ trivial (fun _ h => h) hr)

theorem Call.result_keeps (hc : c.RoundTrip) (mN : NP → NP → NP) (mE : EP → EP → EP) (x : Call E Id NP EP)
    (hs : ∀ n fwd bwd, x = .removeNodeScan n fwd bwd → ∀ e ∈ fwd ++ bwd, e.1.length = tripleLen (Id := Id)) :
    Keeps Id c (x.result c mN mE) (x.Returns c) := (result_keeps' hc mN mE x).mono (fun _ h => h hs)

theorem Call.result_framed (hc : c.RoundTrip) (mN : NP → NP → NP) (mE : EP → EP → EP) (x : Call E Id NP EP) :
    Keeps Id c (x.result c mN mE) (fun _ => True) := (result_keeps' hc mN mE x).mono (fun _ _ => trivial)

/-! ## all the states a process goes through -/

theorem framed_states {S Λ α : Type} {J : S → Prop} {loc : S → Λ} {p : Prog S α} {R : α → Prop} (h : Framed J loc p R) {s : S}
    (hs : J s) : ∀ x ∈ p.states s, J x := by
  induction p generalizing s with
  | ret a => intro x hx; rw [List.mem_singleton.1 hx]; exact hs
  | call f k ih =>
    intro x hx
    rcases List.mem_cons.1 hx with rfl | hx
    · exact hs
    · exact ih s (h s hs).2.2 (h s hs).1 x hx

theorem framed_run {S Λ α : Type} {J : S → Prop} {loc : S → Λ} {p : Prog S α} {R : α → Prop} (h : Framed J loc p R) {s : S}
    (hs : J s) : J (p.run s).1 ∧ R (p.run s).2 := by
  induction p generalizing s with
  | ret a => exact ⟨hs, h⟩
  | call f k ih => exact ih s (h s hs).2.2 (h s hs).1

/-- the program of a thread is what is left of the calls it was started with -/
def Left {S Λ α β : Type} (J : S → Prop) (loc : S → Λ) (R : β → α → Prop) (th : List β) (q : List (Prog S α)) : Prop :=
  ∃ th', th' <:+ th ∧ List.Forall₂ (fun x p => Framed J loc p (R x)) th' q

theorem Left.pop {S Λ α β : Type} {J : S → Prop} {loc : S → Λ} {R : β → α → Prop} {th : List β} {p : Prog S α}
    {q : List (Prog S α)} (h : Left J loc R th (p :: q)) : Left J loc R th q := by
  obtain ⟨th', h1, h2⟩ := h
  cases h2 with
  | cons hx hl => exact ⟨_, (List.suffix_cons _ _).trans h1, hl⟩

theorem forall₂_replace {α β : Type} {R : α → β → Prop} {l : List α} {pre post : List β} {b b' : β}
    (h : List.Forall₂ R l (pre ++ b :: post)) (hb : ∀ a, R a b → R a b') : List.Forall₂ R l (pre ++ b' :: post) := by
  induction pre generalizing l with
  | nil => cases h with | cons h1 h2 => exact .cons (hb _ h1) h2
  | cons x pre ih => cases h with | cons h1 h2 => exact .cons h1 (ih h2)

theorem forall₂_mem {α β : Type} {R : α → β → Prop} {l : List α} {m : List β} (h : List.Forall₂ R l m) {b : β} (hb : b ∈ m) :
    ∃ a ∈ l, R a b := by
  induction h with
  | nil => cases hb
  | cons h1 _ ih =>
    rcases List.mem_cons.1 hb with rfl | hb
    · exact ⟨_, by simp, h1⟩
    · obtain ⟨a, ha, h2⟩ := ih hb
      exact ⟨a, List.mem_cons_of_mem _ ha, h2⟩

theorem steps_framed {S Λ α β : Type} {J : S → Prop} {loc : S → Λ} {R : β → α → Prop} {threads : List (List β)}
    {x y : S × List (List (Prog S α))} (hx : J x.1) (hl : List.Forall₂ (Left J loc R) threads x.2) (h : Steps x y) :
    J y.1 ∧ List.Forall₂ (Left J loc R) threads y.2 := by
  induction h with
  | refl => exact ⟨hx, hl⟩
  | tail _ hstep ih =>
    cases hstep with
    | call s pre post f k q =>
      refine ⟨?_, ?_⟩
      · obtain ⟨th, -, hth⟩ := forall₂_mem ih.2 (b := .call f k :: q) (by simp)
        obtain ⟨th', -, h2⟩ := hth
        cases h2 with | cons hp _ => exact (hp s ih.1).1
      · refine forall₂_replace ih.2 ?_
        rintro th ⟨th', h1, h2⟩
        cases h2 with | cons hp hl' => exact ⟨_, h1, .cons (hp s ih.1).2.2 hl'⟩
    | ret s pre post a q => exact ⟨ih.1, forall₂_replace ih.2 (fun _ h => h.pop)⟩
    | fail s pre post p q => exact ⟨ih.1, forall₂_replace ih.2 (fun _ h => h.pop)⟩

theorem left_start {S Λ α β : Type} {J : S → Prop} {loc : S → Λ} {R : β → α → Prop} (f : β → Prog S α)
    (threads : List (List β)) (h : ∀ th ∈ threads, ∀ x ∈ th, Framed J loc (f x) (R x)) :
    List.Forall₂ (Left J loc R) threads (threads.map (List.map f)) := by
  rw [List.forall₂_map_right_iff]
  refine List.forall₂_same.2 (fun th hth => ⟨th, List.suffix_refl _, ?_⟩)
  rw [List.forall₂_map_right_iff]
  exact List.forall₂_same.2 (fun x hx => h th hth x hx)

theorem left_ret {S Λ α β : Type} {J : S → Prop} {loc : S → Λ} {R : β → α → Prop} {threads : List (List β)}
    {pre post : List (List (Prog S α))} {r : α} {q : List (Prog S α)}
    (h : List.Forall₂ (Left J loc R) threads (pre ++ (.ret r :: q) :: post)) :
    ∃ th x later, threads[pre.length]? = some th ∧ x :: later <:+ th ∧ later.length = q.length ∧ R x r := by
  induction pre generalizing threads with
  | nil =>
    cases h with
    | cons h1 h2 =>
      obtain ⟨th', h3, h4⟩ := h1
      cases h4 with
      | cons hp hl => exact ⟨_, _, _, rfl, h3, hl.length_eq, hp⟩
  | cons a pre ih => cases h with | cons h1 h2 => exact ih h2

theorem Call.prog_eq (mN : NP → NP → NP) (mE : EP → EP → EP) (x : Call E Id NP EP) :
    x.prog c mN mE = (x.result c mN mE).bind (fun _ => .ret ()) := by
  have assoc : ∀ {α β : Type} (p : Prog Db α) (f : α → β),
      p.bind (fun _ => .ret ()) = (p.bind (fun a => .ret (f a))).bind (fun _ => (.ret () : Prog Db Unit)) := by
    intro α β p f
    induction p with
    | ret a => rfl
    | call g k ih => simp only [Prog.bind]; congr 1; funext s; exact ih s
  cases x <;> exact assoc _ _

/-! ## reading well-formed contents -/

section
variable [LawfulId Id] {d : Db}

theorem WellFormed.vertices (hc : c.RoundTrip) (h : WellFormed Id c d) :
    (∃ l : List (Id × NP), iterVertices Id c d = l.map .ok) ∧ ∃ ns : List Id, vertices Id d = .ok ns := by
  refine ⟨?_, ?_⟩
  · have := iterVertices_items (Id := Id) c d
    have hd : ∀ e ∈ d.nodeProps.entries, e.1.length = idLen (Id := Id) ∧ ∃ p, c.n.de e.2 = some p := by
      rintro ⟨k, b⟩ he
      obtain ⟨h1, p, hp⟩ := h.nodes k b (BMap.mem_entries.1 he)
      exact ⟨h1, p, hc.1 _ _ hp⟩
    generalize iterVertices Id c d = l at this
    generalize d.nodeProps.entries = m at this hd
    induction this with
    | nil => exact ⟨[], rfl⟩
    | @cons e x m l hx _ ih =>
      obtain ⟨l', rfl⟩ := ih (fun e he => hd e (List.mem_cons_of_mem _ he))
      obtain ⟨h1, p, hp⟩ := hd e (by simp)
      cases hx with
      | badKey h => exact absurd h1 h
      | undecodable h => rw [h] at hp; cases hp
      | @good n _ q _ => exact ⟨(n, q) :: l', rfl⟩
  · cases hv : Sled.vertices Id d with
    | ok ns => exact ⟨ns, rfl⟩
    | error x =>
      obtain ⟨-, ⟨k, b⟩, he, hl⟩ := vertices_err hv
      exact absurd (h.nodes _ _ (BMap.mem_entries.1 he)).1 hl

theorem WellFormed.edges (hc : c.RoundTrip) (h : WellFormed Id c d) (o : EdgeOrder) {e : SErr}
    (he : .error e ∈ iterEdges Id c d o) : e = .missing := by
  obtain ⟨⟨k, v⟩, ha, hx⟩ := forall₂_mem (iterEdges_items c d o) he
  have hk := h.keys o k v (BMap.mem_entries.1 ha)
  cases hx with
  | badKey h' => exact absurd hk h'
  | missing _ => rfl
  | undecodable h1 h2 =>
    obtain ⟨p, hp⟩ := h.recs _ _ h1
    rw [hc.2 _ _ hp] at h2; cases h2

omit [LawfulId Id] in
theorem WellFormed.decodable (hc : c.RoundTrip) (h : WellFormed Id c d) (k : Bytes) :
    ¬ Undecodable c.n d.nodeProps k ∧ ¬ Undecodable c.e d.edgeProps k := by
  constructor <;> rintro ⟨b, h1, h2⟩
  · obtain ⟨-, p, hp⟩ := h.nodes _ _ h1
    rw [hc.1 _ _ hp] at h2; cases h2
  · obtain ⟨p, hp⟩ := h.recs _ _ h1
    rw [hc.2 _ _ hp] at h2; cases h2

theorem WellFormed.edgesWithProps (hc : c.RoundTrip) (h : WellFormed Id c d) (o : EdgeOrder) {e : SErr}
    (he : .error e ∈ iterEdgesWithProps Id c d o) : e = .missing := by
  obtain ⟨⟨k, v⟩, ha, hx⟩ := forall₂_mem (iterEdgesWithProps_items c d o) he
  have hk := h.keys o k v (BMap.mem_entries.1 ha)
  cases hx with
  | badKey h' => exact absurd hk h'
  | missing _ _ _ _ => rfl
  | undecodable h' =>
    rcases h' with h' | h' | h'
    · exact absurd h' (h.decodable hc _).1
    · exact absurd h' (h.decodable hc _).2
    · exact absurd h' (h.decodable hc _).1

theorem tryFold_all {X σ α : Type} {f : σ → α → Except X σ} {l : List α} (h : ∀ s, ∀ a ∈ l, ∃ s', f s a = .ok s') (s : σ) :
    ∃ s', tryFold f s l = .ok s' := by
  induction l generalizing s with
  | nil => exact ⟨s, rfl⟩
  | cons a l ih =>
    obtain ⟨s', hs⟩ := h s a (by simp)
    simp only [tryFold, hs]
    exact ih (fun s a ha => h s a (List.mem_cons_of_mem _ ha)) s'

omit [LawfulId Id] in
theorem WellFormed.query (hc : c.RoundTrip) (h : WellFormed Id c d) (g : Gen Id) (q : Query Id) :
    ∃ r, runQuery c d g q = .ok r := by
  have range : ∀ (o : EdgeOrder) {n : Nat} (b : Bound (ByteArr n) × Bound (ByteArr n)) (dec : TKey Id → Triple Id)
      (r : Mem Id NP EP), ∃ r', addRange c d dec r ((d.tree o).rangeArr b) = .ok r' := by
    intro o n b dec r
    refine tryFold_all (fun s e he => ?_) r
    have hk := rangeArr_sized (h.keys o) e he
    cases hb : d.edgeProps.get e.2 with
    | none => exact ⟨s, rfl⟩
    | some v =>
      obtain ⟨p, hp⟩ := h.recs _ _ hb
      have : ByteArr.tryFrom (tripleLen (Id := Id)) e.1 = some ⟨e.1, hk⟩ := by unfold ByteArr.tryFrom; rw [dif_pos]
      simp only [this, hc.2 _ _ hp]
      exact ⟨_, rfl⟩
  have : ∃ r, runQ c d g q = .ok r := by
    cases q with
    | NodeProps l =>
      refine tryFold_all (fun s n _ => ?_) _
      cases hb : d.nodeProps.get (toBeBytes n).1 with
      | none => exact ⟨s, rfl⟩
      | some v =>
        obtain ⟨-, p, hp⟩ := h.nodes _ _ hb
        simp only [hc.1 _ _ hp]
        exact ⟨_, rfl⟩
    | SPO l =>
      refine tryFold_all (fun s x _ => ?_) _
      dsimp only
      cases d.spo.get (encodeSpo (⟨x.1, x.2.1, x.2.2⟩ : Triple Id)).1 with
      | none => exact ⟨s, rfl⟩
      | some i =>
        cases hb : d.edgeProps.get i with
        | none => simp only [hb]; exact ⟨s, rfl⟩
        | some v =>
          obtain ⟨p, hp⟩ := h.recs _ _ hb
          simp only [hb, hc.2 _ _ hp]
          exact ⟨_, rfl⟩
    | S l => exact tryFold_all (fun s x _ => range .SPO _ _ s) _
    | SP l => exact tryFold_all (fun s x _ => range .SPO _ _ s) _
    | SO l => exact tryFold_all (fun s x _ => range .OSP _ _ s) _
    | P l => exact tryFold_all (fun s x _ => range .POS _ _ s) _
    | PO l => exact tryFold_all (fun s x _ => range .POS _ _ s) _
    | O l => exact tryFold_all (fun s x _ => range .OSP _ _ s) _
  obtain ⟨r, hr⟩ := this
  exact ⟨r, by unfold runQuery; rw [hr]⟩

end

section
variable [LawfulId Id] {D : Nat → Db}

theorem getData_well {P : Type} {k : Codec P} (hk : k.RoundTrips) {t : Tree} (h : ∀ x b, t.get x = some b → ∃ p, k.ser p = some b)
    (x : Bytes) : ∃ r, getData k t x = .ok r := by
  cases hb : t.get x with
  | none => exact ⟨none, getData_none hb⟩
  | some b =>
    obtain ⟨p, hp⟩ := h x b hb
    exact ⟨some p, getData_some hb (hk _ _ hp)⟩

omit [LawfulId Id] in
theorem lazy_entry (hD : ∀ m, WellFormed Id c (D m)) {o : EdgeOrder} {b : Bound Bytes × Bound Bytes} {l : List Seen}
    (hl : Reading D o b l) {x : Seen} (hx : x ∈ l) :
    ∃ t, decodeEntry (Id := Id) (decoder o) (x.key, x.id) = .ok (t, x.id) ∧ x.key.length = tripleLen (Id := Id) := by
  have hk := (hD x.scan).keys o _ _ (hl.mem hx).2
  unfold decodeEntry
  have : ByteArr.tryFrom (tripleLen (Id := Id)) x.key = some ⟨x.key, hk⟩ := by unfold ByteArr.tryFrom; rw [dif_pos]
  simp only [this]
  exact ⟨_, rfl, hk⟩

omit [LawfulId Id] in
theorem lazy_edge (hc : c.RoundTrip) (hD : ∀ m, WellFormed Id c (D m)) {o : EdgeOrder} {b : Bound Bytes × Bound Bytes}
    {l : List Seen} (hl : Reading D o b l) {x : Seen} (hx : x ∈ l) {e : SErr}
    (he : edgeItem Id c (D x.look) o (x.key, x.id) = .error e) : e = .missing := by
  obtain ⟨t, ht, -⟩ := lazy_entry hD hl hx
  obtain ⟨r, hr⟩ := getData_well hc.2 (hD x.look).recs x.id
  simp only [edgeItem, ht, hr] at he
  cases r <;> cases he
  rfl

omit [LawfulId Id] in
theorem lazy_props (hc : c.RoundTrip) (hD : ∀ m, WellFormed Id c (D m)) {o : EdgeOrder} {b : Bound Bytes × Bound Bytes}
    {l : List Seen} (hl : Reading D o b l) {x : Seen} (hx : x ∈ l) {ms mo : Nat} {e : SErr}
    (he : propsItem Id c (D ms) (D x.look) (D mo) o (x.key, x.id) = .error e) : e = .missing := by
  obtain ⟨t, ht, -⟩ := lazy_entry hD hl hx
  obtain ⟨r1, h1⟩ := getData_well hc.1 (fun k b h => ((hD ms).nodes k b h).2) (toBeBytes t.sub).1
  obtain ⟨r2, h2⟩ := getData_well hc.2 (hD x.look).recs x.id
  obtain ⟨r3, h3⟩ := getData_well hc.1 (fun k b h => ((hD mo).nodes k b h).2) (toBeBytes t.obj).1
  simp only [propsItem, ht, h1, h2, h3] at he
  cases r1 <;> cases r2 <;> cases r3 <;> cases he <;> rfl

theorem lazy_vertex (hc : c.RoundTrip) {d : Db} (h : WellFormed Id c d) {x : Bytes × Bytes} (hx : x ∈ d.nodeProps.entries) :
    ∃ y, vertexItem Id c x = .ok y := by
  obtain ⟨h1, p, hp⟩ := h.nodes x.1 x.2 (BMap.mem_entries.1 hx)
  rcases node_cases (Id := Id) x.1 with ⟨n, hn⟩ | ⟨h', -⟩
  · simp only [vertexItem, decodeId, hn, LawfulId.try_toBe, deser, hc.1 _ _ hp]
    exact ⟨_, rfl⟩
  · exact absurd h1 h'

omit [LawfulId Id] in
theorem lazy_query (hc : c.RoundTrip) (hD : ∀ m, WellFormed Id c (D m)) {q : Query Id} {ρ : Reads} (ha : Asked D q ρ) (g : Gen Id) :
    ∃ r, runLazy c g ρ q = .ok r := by
  have range : ∀ (dec : TKey Id → Triple Id) (r : Mem Id NP EP), ∃ r', tryFold (fun r l => addSeen c dec r l) r ρ.ranges = .ok r' := by
    intro dec r
    refine tryFold_all (fun s l hl => tryFold_all (fun s x hx => ?_) s) r
    obtain ⟨b, -, l', hr, rfl⟩ := forall₂_mem ha.ranges hl
    obtain ⟨y, hy, rfl⟩ := List.mem_map.1 hx
    have hk := (lazy_entry (Id := Id) (c := c) hD hr hy).choose_spec.2
    dsimp only
    cases hb : (D y.look).edgeProps.get y.id with
    | none => exact ⟨s, rfl⟩
    | some v =>
      obtain ⟨p, hp⟩ := (hD y.look).recs _ _ hb
      have : ByteArr.tryFrom (tripleLen (Id := Id)) y.key = some ⟨y.key, hk⟩ := by unfold ByteArr.tryFrom; rw [dif_pos]
      simp only [this, hc.2 _ _ hp]
      exact ⟨_, rfl⟩
  cases q with
  | NodeProps l =>
    refine tryFold_all (fun s x hx => ?_) _
    obtain ⟨m, hm⟩ := ha.nodes x.2 (List.of_mem_zip hx).2
    rw [hm]
    cases hb : (D m).nodeProps.get (toBeBytes x.1).1 with
    | none => exact ⟨s, rfl⟩
    | some v =>
      obtain ⟨-, p, hp⟩ := (hD m).nodes _ _ hb
      simp only [hc.1 _ _ hp]
      exact ⟨_, rfl⟩
  | SPO l =>
    refine tryFold_all (fun s x hx => ?_) _
    obtain ⟨m, m', -, hm⟩ := ha.points x.2 (List.of_mem_zip hx).2
    rw [hm]
    dsimp only
    cases (D m).spo.get (encodeSpo (⟨x.1.1, x.1.2.1, x.1.2.2⟩ : Triple Id)).1 with
    | none => exact ⟨s, rfl⟩
    | some i =>
      cases hb : (D m').edgeProps.get i with
      | none => simp only [hb]; exact ⟨s, rfl⟩
      | some v =>
        obtain ⟨p, hp⟩ := (hD m').recs _ _ hb
        simp only [hb, hc.2 _ _ hp]
        exact ⟨_, rfl⟩
  | S l => exact range _ _
  | SP l => exact range _ _
  | SO l => exact range _ _
  | P l => exact range _ _
  | PO l => exact range _ _
  | O l => exact range _ _

end

theorem WellFormed.empty : WellFormed Id c Db.empty :=
  ⟨fun k b h => by simp [Db.empty] at h, fun k b h => by simp [Db.empty] at h,
    fun o k b h => by cases o <;> simp [Db.empty, Db.tree] at h⟩

theorem WellFormed.crash (hc : c.RoundTrip) {mN : NP → NP → NP} {mE : EP → EP → EP} {s : SledStore Id}
    (h : WellFormed Id c s.db) (op : Op E Id NP EP) : ∀ d ∈ s.crashStates c mN mE op, WellFormed Id c d := by
  intro d hd
  cases op with
  | insertNode n p => exact framed_states (insertNode_keeps n p) h d hd
  | insertEdge t p => exact framed_states (insertEdge_keeps _ t p) h d hd
  | removeNode n => exact framed_states (removeNode_keeps n) h d hd
  | removeEdge t => exact framed_states (removeEdge_keeps t) h d hd
  | mergeNode n p => exact framed_states (mergeNode_keeps hc mN n p) h d hd
  | mergeEdge t p => exact framed_states (mergeEdge_keeps hc mE _ t p) h d hd
  | extend src => exact framed_states (extend_keeps s.ulid src) h d hd
  | merge src => exact framed_states (merge_keeps hc mN mE s.gen src) h d hd

theorem WellFormed.apply (hc : c.RoundTrip) {mN : NP → NP → NP} {mE : EP → EP → EP} {s : SledStore Id}
    (h : WellFormed Id c s.db) (op : Op E Id NP EP) : WellFormed Id c (s.apply c mN mE op).db := by
  cases op with
  | insertNode n p => exact (framed_run (insertNode_keeps n p) h).1
  | insertEdge t p => exact (framed_run (insertEdge_keeps _ t p) h).1
  | removeNode n => exact (framed_run (removeNode_keeps n) h).1
  | removeEdge t => exact (framed_run (removeEdge_keeps t) h).1
  | mergeNode n p => exact (framed_run (mergeNode_keeps hc mN n p) h).1
  | mergeEdge t p => exact (framed_run (mergeEdge_keeps hc mE _ t p) h).1
  | extend src => exact (framed_run (extend_keeps s.ulid src) h).1
  | merge src => exact (framed_run (merge_keeps hc mN mE s.gen src) h).1

theorem WellFormed.applyAll (hc : c.RoundTrip) {mN : NP → NP → NP} {mE : EP → EP → EP} {s : SledStore Id}
    (h : WellFormed Id c s.db) (ops : List (Op E Id NP EP)) : WellFormed Id c (s.applyAll c mN mE ops).db := by
  induction ops generalizing s with
  | nil => exact h
  | cons op ops ih => exact ih (h.apply hc op)

theorem WellFormed.reach (hc : c.RoundTrip) {mN : NP → NP → NP} {mE : EP → EP → EP} {n m : Nat} {s : SledStore Id}
    (h : SledStore.Reach E c mN mE n m s) : WellFormed Id c s.db := by
  induction h with
  | new _ => exact .empty
  | op o _ ih => exact ih.apply hc o
  | reopen _ _ _ ih => exact ih
  | crash o _ hd _ _ _ ih => exact ih.crash hc o _ hd

end Sled

end Verif
