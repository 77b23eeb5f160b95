import Verif.Proof.SledTree

/-! # Mutations of the sled back-end -/

set_option linter.unusedSectionVars false

namespace Verif

open Spec ConcreteId

variable {Id NP EP E : Type} [LinearOrder Id] [ConcreteId Id] [LawfulId Id]

namespace Db

theorem inv_empty (c : Codecs NP EP) : Db.empty.Inv Id c where
  keys o k v h := by cases o <;> cases h
  same o t := by cases o <;> rfl
  nodes k b h := by cases h
  recs k v h := by cases h
  inj t u v h := by cases h

theorem graph_empty (c : Codecs NP EP) : Db.empty.graph c = (Graph.empty : Graph Id NP EP) := rfl

/-! ## writing one edge -/

/-- the database with an edge written to the three orderings -/
def setEdge (d : Db) (t : Triple Id) (v : Bytes) : Db :=
  { d with
    spo := d.spo.insert (encodeSpo t).1 v
    pos := d.pos.insert (encodePos t).1 v
    osp := d.osp.insert (encodeOsp t).1 v }

/-- the database with an edge removed from the three orderings -/
def unsetEdge (d : Db) (t : Triple Id) : Db :=
  { d with
    spo := d.spo.erase (encodeSpo t).1
    pos := d.pos.erase (encodePos t).1
    osp := d.osp.erase (encodeOsp t).1 }

theorem setEdge_tree (d : Db) (t : Triple Id) (v : Bytes) (o : EdgeOrder) :
    (d.setEdge t v).tree o = (d.tree o).insert (encOf o t).1 v := by cases o <;> rfl

theorem unsetEdge_tree (d : Db) (t : Triple Id) (o : EdgeOrder) :
    (d.unsetEdge t).tree o = (d.tree o).erase (encOf o t).1 := by cases o <;> rfl

theorem setEdge_idIn (d : Db) (t : Triple Id) (v : Bytes) (o : EdgeOrder) (u : Triple Id) :
    (d.setEdge t v).idIn o u = if u = t then some v else d.idIn o u := by
  unfold idIn
  rw [setEdge_tree, BMap.get_insert]
  simp only [encOf_inj]

theorem unsetEdge_idIn (d : Db) (t : Triple Id) (o : EdgeOrder) (u : Triple Id) :
    (d.unsetEdge t).idIn o u = if u = t then none else d.idIn o u := by
  unfold idIn
  rw [unsetEdge_tree, BMap.get_erase]
  simp only [encOf_inj]

theorem setEdge_agree {d : Db} (h : Agree Id d) (t : Triple Id) (v : Bytes) : Agree Id (d.setEdge t v) where
  keys o k w hk := by
    rw [setEdge_tree, BMap.get_insert] at hk
    split at hk
    · exact ⟨t, by assumption⟩
    · exact h.keys o k w hk
  same o u := by rw [setEdge_idIn, setEdge_idIn, h.same]

theorem unsetEdge_agree {d : Db} (h : Agree Id d) (t : Triple Id) : Agree Id (d.unsetEdge t) where
  keys o k w hk := by
    rw [unsetEdge_tree, BMap.get_erase] at hk
    split at hk
    · cases hk
    · exact h.keys o k w hk
  same o u := by rw [unsetEdge_idIn, unsetEdge_idIn, h.same]

@[simp] theorem withProps_tree (d : Db) (m : Tree) (o : EdgeOrder) :
    ({ d with edgeProps := m } : Db).tree o = d.tree o := by cases o <;> rfl
@[simp] theorem withNodes_tree (d : Db) (m : Tree) (o : EdgeOrder) :
    ({ d with nodeProps := m } : Db).tree o = d.tree o := by cases o <;> rfl
@[simp] theorem withProps_idIn (d : Db) (m : Tree) (o : EdgeOrder) (t : Triple Id) :
    ({ d with edgeProps := m } : Db).idIn o t = d.idIn o t := by cases o <;> rfl
@[simp] theorem withNodes_idIn (d : Db) (m : Tree) (o : EdgeOrder) (t : Triple Id) :
    ({ d with nodeProps := m } : Db).idIn o t = d.idIn o t := by cases o <;> rfl
@[simp] theorem setEdge_edgeProps (d : Db) (t : Triple Id) (v : Bytes) : (d.setEdge t v).edgeProps = d.edgeProps := rfl
@[simp] theorem setEdge_nodeProps (d : Db) (t : Triple Id) (v : Bytes) : (d.setEdge t v).nodeProps = d.nodeProps := rfl
@[simp] theorem unsetEdge_edgeProps (d : Db) (t : Triple Id) : (d.unsetEdge t).edgeProps = d.edgeProps := rfl
@[simp] theorem unsetEdge_nodeProps (d : Db) (t : Triple Id) : (d.unsetEdge t).nodeProps = d.nodeProps := rfl

theorem withProps_agree {d : Db} (h : Agree Id d) (m : Tree) : Agree Id { d with edgeProps := m } where
  keys o k w hk := by rw [withProps_tree] at hk; exact h.keys o k w hk
  same o t := by simp only [withProps_idIn]; exact h.same o t

theorem withNodes_agree {d : Db} (h : Agree Id d) (m : Tree) : Agree Id { d with nodeProps := m } where
  keys o k w hk := by rw [withNodes_tree] at hk; exact h.keys o k w hk
  same o t := by simp only [withNodes_idIn]; exact h.same o t

/-- Writing the edge `t` under the id `v`, with the record tree replaced by `m`. -/
theorem put_inv {c : Codecs NP EP} {d : Db} (h : Inv Id c d) {t : Triple Id} {v b : Bytes} {p : EP}
    (hv : ∀ u : Triple Id, d.idIn .SPO u = some v → u = t) (hb : c.e.de b = some p) {m : Tree}
    (hm : m.get v = some b)
    (ho : ∀ (u : Triple Id) (w : Bytes), u ≠ t → d.idIn .SPO u = some w → m.get w = d.edgeProps.get w) :
    Inv Id c ({ d with edgeProps := m }.setEdge t v) ∧
    ({ d with edgeProps := m }.setEdge t v).graph c = (d.graph c).insertEdge t p := by
  have hid : ∀ u, ({ d with edgeProps := m }.setEdge t v).idIn .SPO u = if u = t then some v else d.idIn .SPO u := by
    intro u; rw [setEdge_idIn, withProps_idIn]
  have ha := setEdge_agree (withProps_agree h.toAgree m) t v
  refine ⟨⟨ha, ?_, ?_, ?_⟩, ?_⟩
  · exact h.nodes
  · intro k w hk
    obtain ⟨u, rfl⟩ := ha.keys .SPO k w hk
    replace hk := (hid u).symm.trans hk
    split at hk
    · cases hk; exact ⟨b, p, hm, hb⟩
    · rename_i hne
      obtain ⟨b', p', h1, h2⟩ := h.recs _ w hk
      exact ⟨b', p', (ho u w hne hk).trans h1, h2⟩
  · intro x y w hx hy
    rw [hid] at hx hy
    split at hx <;> split at hy
    · subst_vars; rfl
    · cases hx; subst_vars; exact (hv y hy).symm
    · cases hy; subst_vars; exact hv x hx
    · exact h.inj x y w hx hy
  · refine Graph.ext' (fun _ => rfl) (fun u => ?_)
    simp only [graph, view, hid, Graph.insertEdge]
    split
    · simp [hm, hb]
    · rename_i hne
      cases hi : d.idIn .SPO u with
      | none => rfl
      | some w => simp [ho u w hne hi]

/-- Removing the edges in `T` (and nothing but their records). -/
theorem drop_inv {c : Codecs NP EP} {d d' : Db} (h : Inv Id c d) (T : Triple Id → Prop) [DecidablePred T]
    (hk : ∀ o k v, (d'.tree o).get k = some v → (d.tree o).get k = some v)
    (hid : ∀ (o : EdgeOrder) (t : Triple Id), d'.idIn o t = if T t then none else d.idIn o t)
    (hE : ∀ (u : Triple Id) (w : Bytes), ¬ T u → d.idIn .SPO u = some w → d'.edgeProps.get w = d.edgeProps.get w)
    (hn : d'.NodesOk Id c) :
    Inv Id c d' ∧ ∀ u : Triple Id, d'.view c .SPO u = if T u then none else d.view c .SPO u := by
  refine ⟨⟨⟨fun o k v hkv => h.keys o k v (hk o k v hkv), fun o t => ?_⟩, hn, ?_, ?_⟩, ?_⟩
  · rw [hid, hid, h.same]
  · intro k w hkw
    obtain ⟨u, rfl⟩ := h.keys .SPO k w (hk _ _ _ hkw)
    have h1 : d'.idIn .SPO u = some w := hkw
    rw [hid] at h1
    split at h1
    · cases h1
    · rename_i hT
      rw [hE u w hT h1]
      exact h.recs _ w h1
  · intro t u v ht hu
    rw [hid] at ht hu
    split at ht
    · cases ht
    · split at hu
      · cases hu
      · exact h.inj t u v ht hu
  · intro u
    simp only [view, hid]
    split
    · rfl
    · rename_i hT
      cases hi : d.idIn .SPO u with
      | none => rfl
      | some w => simp [hE u w hT hi]

theorem insNode_inv {c : Codecs NP EP} {d : Db} (h : Inv Id c d) {n : Id} {b : Bytes} {p : NP}
    (hb : c.n.de b = some p) :
    Inv Id c { d with nodeProps := d.nodeProps.insert (toBeBytes n).1 b } ∧
    ({ d with nodeProps := d.nodeProps.insert (toBeBytes n).1 b } : Db).graph c = (d.graph c).insertNode n p := by
  refine ⟨⟨withNodes_agree h.toAgree _, ?_, h.recs, h.inj⟩, ?_⟩
  · intro k b' hk
    simp only [BMap.get_insert] at hk
    split at hk
    · cases hk; exact ⟨⟨n, by assumption⟩, p, hb⟩
    · exact h.nodes k b' hk
  · refine Graph.ext' (fun m => ?_) (fun u => rfl)
    simp only [graph, Graph.insertNode, BMap.get_insert, toBe_inj]
    split <;> simp [hb]

theorem recOf {c : Codecs NP EP} {d : Db} (h : Inv Id c d) {t : Triple Id} {v : Bytes}
    (hv : d.idIn .SPO t = some v) : ∃ b p, d.edgeProps.get v = some b ∧ c.e.de b = some p := h.recs _ v hv

theorem view_of_id {c : Codecs NP EP} {d : Db} {t : Triple Id} {v b : Bytes} {p : EP}
    (hv : d.idIn .SPO t = some v) (hb : d.edgeProps.get v = some b) (hp : c.e.de b = some p) :
    d.view c .SPO t = some p := by simp [view, hv, hb, hp]

end Db

/-! ## the six single operations -/

namespace Sled

open Db

variable {c : Codecs NP EP}

theorem insertNode_run {d : Db} {n : Id} {p : NP} {b : Bytes} (hb : c.n.ser p = some b) :
    (insertNode c n p).run d = ({ d with nodeProps := d.nodeProps.insert (toBeBytes n).1 b }, .ok ()) := by
  unfold insertNode; simp only [hb]; rfl

theorem insertNode_err {d : Db} {n : Id} {p : NP} (hb : c.n.ser p = none) :
    (insertNode c n p).run d = (d, .error .serialization) := by
  unfold insertNode; simp only [hb]; rfl

theorem insertEdge_run {d : Db} {i : Id} {t : Triple Id} {p : EP} {b : Bytes} (hb : c.e.ser p = some b) :
    (insertEdge c i t p).run d =
      ({ d with edgeProps := d.edgeProps.insert (toBeBytes i).1 b }.setEdge t (toBeBytes i).1, .ok ()) := by
  unfold insertEdge; simp only [hb]; rfl

theorem insertEdge_err {d : Db} {i : Id} {t : Triple Id} {p : EP} (hb : c.e.ser p = none) :
    (insertEdge c i t p).run d = (d, .error .serialization) := by
  unfold insertEdge; simp only [hb]; rfl

theorem insertEdge_inv {d : Db} (h : Inv Id c d) {i : Id} {t : Triple Id} {p : EP} {b : Bytes}
    (hi : ∀ u : Triple Id, d.idIn .SPO u = some (toBeBytes i).1 → u = t) (hb : c.e.de b = some p) :
    Inv Id c ({ d with edgeProps := d.edgeProps.insert (toBeBytes i).1 b }.setEdge t (toBeBytes i).1) ∧
    ({ d with edgeProps := d.edgeProps.insert (toBeBytes i).1 b }.setEdge t (toBeBytes i).1).graph c =
      (d.graph c).insertEdge t p := by
  refine put_inv h hi hb (BMap.get_insert_self _ _ _) (fun u w hu hw => ?_)
  rw [BMap.get_insert, if_neg]
  rintro rfl
  exact hu (hi u hw)

/-- the database after remove_edge -/
def removed (d : Db) (t : Triple Id) : Db :=
  { d with edgeProps := match d.spo.get (encodeSpo t).1 with
      | some i => d.edgeProps.erase i
      | none => d.edgeProps }.unsetEdge t

theorem removed_idem (d : Db) (t : Triple Id) :
    (removed d t).spo.get (encodeSpo t).1 = none ∧
    (removed d t).spo.erase (encodeSpo t).1 = (removed d t).spo ∧
    (removed d t).pos.erase (encodePos t).1 = (removed d t).pos ∧
    (removed d t).osp.erase (encodeOsp t).1 = (removed d t).osp := by
  refine ⟨?_, ?_, ?_, ?_⟩
  · exact BMap.get_erase_self _ _
  · exact BMap.erase_erase _ _
  · exact BMap.erase_erase _ _
  · exact BMap.erase_erase _ _

theorem removeEdge_states (d : Db) (t : Triple Id) :
    (removeEdge t).states d = [d, removed d t, removed d t, removed d t, removed d t] ∧
    (removeEdge t).run d = (removed d t, .ok ()) := by
  obtain ⟨h0, h1, h2, h3⟩ := removed_idem d t
  have e1 : ({ removed d t with spo := (removed d t).spo.erase (encodeSpo t).1 } : Db) = removed d t := by rw [h1]
  have e2 : ({ removed d t with pos := (removed d t).pos.erase (encodePos t).1 } : Db) = removed d t := by rw [h2]
  have e3 : ({ removed d t with osp := (removed d t).osp.erase (encodeOsp t).1 } : Db) = removed d t := by rw [h3]
  have key : ∀ d' : Db, d' = removed d t →
      ((Prog.call (fun d : Db => { d with spo := d.spo.erase (encodeSpo t).1 }) (fun d1 =>
        .call (fun d => { d with pos := d.pos.erase (encodePos t).1 }) (fun _ =>
          .call (fun d => { d with osp := d.osp.erase (encodeOsp t).1 }) (fun _ =>
            match d1.spo.get (encodeSpo t).1 with
            | some i => .call (fun d => { d with edgeProps := d.edgeProps.erase i }) (fun _ => .ret (.ok ()))
            | none => .ret (.ok ())))) : Prog Db (Except SErr Unit)).states d' =
          [removed d t, removed d t, removed d t, removed d t] ∧
      (Prog.call (fun d : Db => { d with spo := d.spo.erase (encodeSpo t).1 }) (fun d1 =>
        .call (fun d => { d with pos := d.pos.erase (encodePos t).1 }) (fun _ =>
          .call (fun d => { d with osp := d.osp.erase (encodeOsp t).1 }) (fun _ =>
            match d1.spo.get (encodeSpo t).1 with
            | some i => .call (fun d => { d with edgeProps := d.edgeProps.erase i }) (fun _ => .ret (.ok ()))
            | none => .ret (.ok ())))) : Prog Db (Except SErr Unit)).run d' = (removed d t, .ok ())) := by
    rintro d' rfl
    simp only [Prog.states, Prog.run, h0, h1, h2, h3, and_self]
  refine ⟨?_, ?_⟩
  · exact congrArg (d :: ·) (key _ rfl).1
  · exact (key _ rfl).2

theorem removed_inv {d : Db} (h : Inv Id c d) (t : Triple Id) :
    Inv Id c (removed d t) ∧ (removed d t).graph c = (d.graph c).removeEdge t := by
  have := drop_inv (d' := removed d t) h (fun u => u = t) (fun o k v hk => ?_) (fun o u => ?_)
    (fun u w hu hw => ?_) h.nodes
  · exact ⟨this.1, Graph.ext' (fun _ => rfl) this.2⟩
  · rw [removed, unsetEdge_tree, withProps_tree, BMap.get_erase] at hk
    split at hk
    · cases hk
    · exact hk
  · rw [removed, unsetEdge_idIn, withProps_idIn]
  · show (match d.spo.get (encodeSpo t).1 with
      | some i => d.edgeProps.erase i
      | none => d.edgeProps).get w = _
    cases ht : d.spo.get (encodeSpo t).1 with
    | none => rfl
    | some i =>
      show (d.edgeProps.erase i).get w = _
      rw [BMap.get_erase, if_neg]
      rintro rfl
      exact hu (h.inj _ _ _ hw ht)

/-! ### remove_node -/

theorem forwardBatch_enc (L : List (Triple Id × Bytes)) (b : Batch) :
    forwardBatch Id b (L.map (fun x => ((encodeSpo x.1).1, x.2))) =
      .ok { spo := b.spo ++ L.map (fun x => (encodeSpo x.1).1), pos := b.pos ++ L.map (fun x => (encodePos x.1).1),
            osp := b.osp ++ L.map (fun x => (encodeOsp x.1).1), edge := b.edge ++ L.map Prod.snd } := by
  induction L generalizing b with
  | nil => simp [forwardBatch]
  | cons x L ih =>
    simp only [List.map_cons, forwardBatch, tryFrom_arr, LawfulId.decSpo_enc, ih]
    simp

theorem backwardBatch_enc (L : List (Triple Id × Bytes)) (b : Batch) :
    backwardBatch Id b (L.map (fun x => ((encodeOsp x.1).1, x.2))) =
      .ok { spo := b.spo ++ L.map (fun x => (encodeSpo x.1).1), pos := b.pos ++ L.map (fun x => (encodePos x.1).1),
            osp := b.osp ++ L.map (fun x => (encodeOsp x.1).1), edge := b.edge ++ L.map Prod.snd } := by
  induction L generalizing b with
  | nil => simp [backwardBatch]
  | cons x L ih =>
    simp only [List.map_cons, backwardBatch, tryFrom_arr, LawfulId.decOsp_enc, ih]
    simp

theorem applyBatch_get (t : Tree) (ks : List Bytes) (k : Bytes) :
    (applyBatch t ks).get k = if k ∈ ks then none else t.get k := by
  induction ks generalizing t with
  | nil => simp [applyBatch]
  | cons a ks ih =>
    show (applyBatch (t.erase a) ks).get k = _
    rw [ih, BMap.get_erase]
    by_cases h1 : k ∈ ks <;> by_cases h2 : k = a <;> simp [h1, h2]

theorem mem_rangeArr {n : Nat} {t : Tree} {b : Bound (ByteArr n) × Bound (ByteArr n)} {k : ByteArr n} {v : Bytes} :
    (k.1, v) ∈ t.rangeArr b ↔ t.get k.1 = some v ∧ Bound.contains b k = true := by
  unfold Tree.rangeArr
  rw [BMap.mem_range]
  obtain ⟨l, u⟩ := b
  cases l <;> cases u <;> rfl


theorem exists_map_of {α β : Type} (f : α → β) {l : List β} (h : ∀ b ∈ l, ∃ a, b = f a) : ∃ L : List α, l = L.map f := by
  induction l with
  | nil => exact ⟨[], rfl⟩
  | cons b l ih =>
    obtain ⟨a, rfl⟩ := h b (by simp)
    obtain ⟨L, rfl⟩ := ih (fun b hb => h b (List.mem_cons_of_mem _ hb))
    exact ⟨a :: L, rfl⟩

theorem rangeArr_sub {n : Nat} {t : Tree} {b : Bound (ByteArr n) × Bound (ByteArr n)} {e : Bytes × Bytes}
    (h : e ∈ t.rangeArr b) : t.get e.1 = some e.2 := by
  unfold Tree.rangeArr at h
  exact (BMap.mem_range.1 h).1

/-- a range of a well-formed ordering consists of encoded triples -/
theorem rangeArr_enc {d : Db} {o : EdgeOrder} (h : KeysOk Id o d) (b : Bound (TKey Id) × Bound (TKey Id)) :
    ∃ L : List (Triple Id × Bytes), (d.tree o).rangeArr b = L.map (fun x => ((encOf o x.1).1, x.2)) ∧
      ∀ t v, (t, v) ∈ L ↔ d.idIn o t = some v ∧ Bound.contains b (encOf o t) = true := by
  obtain ⟨L, hL⟩ := exists_map_of (fun x : Triple Id × Bytes => ((encOf o x.1).1, x.2))
    (l := (d.tree o).rangeArr b) (fun e he => by
      obtain ⟨t, ht⟩ := h e.1 e.2 (rangeArr_sub he)
      exact ⟨(t, e.2), Prod.ext ht rfl⟩)
  refine ⟨L, hL, fun t v => ?_⟩
  rw [Db.idIn, ← mem_rangeArr, hL, List.mem_map]
  constructor
  · intro hm; exact ⟨(t, v), hm, rfl⟩
  · rintro ⟨⟨u, w⟩, hm, he⟩
    rw [Prod.mk.injEq] at he
    obtain ⟨h1, rfl⟩ := he
    rw [← (encOf_inj o).1 h1]; exact hm

/-- what remove_node makes of a database in which the orderings agree -/
theorem removeNode_run {d : Db} (h : Agree Id d) (n : Id) :
    ∃ F B : List (Triple Id × Bytes),
      (∀ t v, (t, v) ∈ F ↔ d.idIn .SPO t = some v ∧ t.sub = n) ∧
      (∀ t v, (t, v) ∈ B ↔ d.idIn .OSP t = some v ∧ t.obj = n) ∧
      (removeNode n).states d = [d, d, d,
        { nodeProps := d.nodeProps.erase (toBeBytes n).1
          edgeProps := applyBatch (applyBatch d.edgeProps (F.map Prod.snd)) (B.map Prod.snd)
          spo := applyBatch (applyBatch d.spo (F.map (fun x => (encodeSpo x.1).1))) (B.map (fun x => (encodeSpo x.1).1))
          pos := applyBatch (applyBatch d.pos (F.map (fun x => (encodePos x.1).1))) (B.map (fun x => (encodePos x.1).1))
          osp := applyBatch (applyBatch d.osp (F.map (fun x => (encodeOsp x.1).1))) (B.map (fun x => (encodeOsp x.1).1)) }] ∧
      (removeNode n).run d = (
        { nodeProps := d.nodeProps.erase (toBeBytes n).1
          edgeProps := applyBatch (applyBatch d.edgeProps (F.map Prod.snd)) (B.map Prod.snd)
          spo := applyBatch (applyBatch d.spo (F.map (fun x => (encodeSpo x.1).1))) (B.map (fun x => (encodeSpo x.1).1))
          pos := applyBatch (applyBatch d.pos (F.map (fun x => (encodePos x.1).1))) (B.map (fun x => (encodePos x.1).1))
          osp := applyBatch (applyBatch d.osp (F.map (fun x => (encodeOsp x.1).1))) (B.map (fun x => (encodeOsp x.1).1)) },
        .ok ()) := by
  obtain ⟨F, hF, hFm⟩ := rangeArr_enc (h.keys .SPO) (keyBounds1 n)
  obtain ⟨B, hB, hBm⟩ := rangeArr_enc (h.keys .OSP) (keyBounds1 n)
  refine ⟨F, B, fun t v => ?_, fun t v => ?_, ?_, ?_⟩
  · rw [hFm]; exact and_congr_right (fun _ => LawfulId.kb1_spo n t)
  · rw [hBm]; exact and_congr_right (fun _ => LawfulId.kb1_osp n t)
  · have e1 := (congrArg (forwardBatch Id ⟨[], [], [], []⟩) hF).trans (forwardBatch_enc F _)
    have e2 := (congrArg (backwardBatch Id ⟨[], [], [], []⟩) hB).trans (backwardBatch_enc B _)
    simp only [List.nil_append] at e1 e2
    unfold removeNode
    simp only [Prog.states, id]
    simp only [Db.tree] at e1 e2
    rw [e1]
    simp only [Prog.states, id]
    rw [e2]
    rfl
  · have e1 := (congrArg (forwardBatch Id ⟨[], [], [], []⟩) hF).trans (forwardBatch_enc F _)
    have e2 := (congrArg (backwardBatch Id ⟨[], [], [], []⟩) hB).trans (backwardBatch_enc B _)
    simp only [List.nil_append] at e1 e2
    unfold removeNode
    simp only [Prog.run, id]
    simp only [Db.tree] at e1 e2
    rw [e1]
    simp only [Prog.run, id]
    rw [e2]
    rfl

theorem removeNode_inv {d : Db} (h : Inv Id c d) (n : Id) :
    ∃ d', (removeNode n).states d = [d, d, d, d'] ∧ (removeNode n).run d = (d', .ok ()) ∧
      Inv Id c d' ∧ d'.graph c = (d.graph c).removeNode n ∧
      ∀ (t : Triple Id) v, d'.idIn .SPO t = some v → d.idIn .SPO t = some v := by
  obtain ⟨F, B, hF, hB, hst, hrun⟩ := removeNode_run h.toAgree n
  refine ⟨_, hst, hrun, ?_⟩
  generalize hd' : (Db.mk _ _ _ _ _) = d'
  have htree : ∀ o, d'.tree o = applyBatch (applyBatch (d.tree o) (F.map (fun x => (encOf o x.1).1)))
      (B.map (fun x => (encOf o x.1).1)) := by
    intro o; subst hd'; cases o <;> rfl
  have hget : ∀ o k, (d'.tree o).get k = if k ∈ B.map (fun x => (encOf o x.1).1) then none else
      if k ∈ F.map (fun x => (encOf o x.1).1) then none else (d.tree o).get k := by
    intro o k; rw [htree, applyBatch_get, applyBatch_get]
  have hk : ∀ o k v, (d'.tree o).get k = some v → (d.tree o).get k = some v := by
    intro o k v hv
    rw [hget] at hv
    split at hv
    · cases hv
    · split at hv
      · cases hv
      · exact hv
  have hid : ∀ (o : EdgeOrder) (t : Triple Id), d'.idIn o t = if t.sub = n ∨ t.obj = n then none else d.idIn o t := by
    intro o t
    have hh := hget o (encOf o t).1
    have m1 : (encOf o t).1 ∈ B.map (fun x => (encOf o x.1).1) ↔ (∃ v, d.idIn .SPO t = some v) ∧ t.obj = n := by
      rw [List.mem_map]
      constructor
      · rintro ⟨⟨u, v⟩, hm, he⟩
        have := (encOf_inj o).1 he
        subst this
        obtain ⟨h1, h2⟩ := (hB u v).1 hm
        exact ⟨⟨v, (h.same .OSP u).symm.trans h1⟩, h2⟩
      · rintro ⟨⟨v, hv⟩, ho⟩
        exact ⟨(t, v), (hB t v).2 ⟨(h.same .OSP t).trans hv, ho⟩, rfl⟩
    have m2 : (encOf o t).1 ∈ F.map (fun x => (encOf o x.1).1) ↔ (∃ v, d.idIn .SPO t = some v) ∧ t.sub = n := by
      rw [List.mem_map]
      constructor
      · rintro ⟨⟨u, v⟩, hm, he⟩
        have := (encOf_inj o).1 he
        subst this
        obtain ⟨h1, h2⟩ := (hF u v).1 hm
        exact ⟨⟨v, h1⟩, h2⟩
      · rintro ⟨⟨v, hv⟩, ho⟩
        exact ⟨(t, v), (hF t v).2 ⟨hv, ho⟩, rfl⟩
    replace hh : d'.idIn o t = if (encOf o t).1 ∈ B.map (fun x => (encOf o x.1).1) then none else
      if (encOf o t).1 ∈ F.map (fun x => (encOf o x.1).1) then none else d.idIn o t := hh
    rw [hh, h.same o t]
    cases hv : d.idIn .SPO t with
    | none => simp
    | some v =>
      simp only [hv, Option.some.injEq, exists_eq', true_and] at m1 m2
      simp only [m1, m2]
      by_cases h1 : t.sub = n <;> by_cases h2 : t.obj = n <;> simp [h1, h2]
  have hE : ∀ (u : Triple Id) (w : Bytes), ¬ (u.sub = n ∨ u.obj = n) → d.idIn .SPO u = some w →
      d'.edgeProps.get w = d.edgeProps.get w := by
    intro u w hu hw
    subst hd'
    show (applyBatch (applyBatch d.edgeProps (F.map Prod.snd)) (B.map Prod.snd)).get w = _
    rw [applyBatch_get, applyBatch_get, if_neg, if_neg]
    · rintro hm
      obtain ⟨⟨t, v⟩, hm', rfl⟩ := List.mem_map.1 hm
      obtain ⟨h1, h2⟩ := (hF t v).1 hm'
      exact hu (Or.inl ((h.inj _ _ _ hw h1) ▸ h2))
    · rintro hm
      obtain ⟨⟨t, v⟩, hm', rfl⟩ := List.mem_map.1 hm
      obtain ⟨h1, h2⟩ := (hB t v).1 hm'
      exact hu (Or.inr ((h.inj _ _ _ hw ((h.same .OSP t).symm.trans h1)) ▸ h2))
  have hn : d'.nodeProps = d.nodeProps.erase (toBeBytes n).1 := by subst hd'; rfl
  have hnok : d'.NodesOk Id c := by
    intro k b hkb
    rw [hn, BMap.get_erase] at hkb
    split at hkb
    · cases hkb
    · exact h.nodes k b hkb
  have hdrop := drop_inv h (fun t => t.sub = n ∨ t.obj = n) hk hid hE hnok
  refine ⟨hdrop.1, Graph.ext' (fun m => ?_) hdrop.2, fun t v ht => ?_⟩
  · simp only [graph, Graph.removeNode, hn, BMap.get_erase, toBe_inj]
    split <;> rfl
  · rw [hid] at ht
    split at ht
    · cases ht
    · exact ht

/-! ### merge_node, merge_edge -/

theorem mergeNode_run {d : Db} (h : Inv Id c d) (mN : NP → NP → NP) (n : Id) (p : NP) :
    (c.okN (merged mN ((d.graph c).nodes n) p) = false ∧
      (mergeNode c mN n p).run d = (d, .error .serialization)) ∨
    ∃ b, c.n.ser (merged mN ((d.graph c).nodes n) p) = some b ∧
      (mergeNode c mN n p).run d = ({ d with nodeProps := d.nodeProps.insert (toBeBytes n).1 b }, .ok ()) := by
  unfold mergeNode transaction
  simp only [Prog.run, graph, Codecs.okN, merged]
  cases hn : d.nodeProps.get (toBeBytes n).1 with
  | none =>
    simp only [Option.bind_none]
    cases hs : c.n.ser p with
    | none => left; simp
    | some b => right; exact ⟨b, rfl, rfl⟩
  | some v =>
    obtain ⟨_, q, hq⟩ := h.nodes _ _ hn
    simp only [Option.bind_some, hq]
    cases hs : c.n.ser (mN q p) with
    | none => left; simp
    | some b => right; exact ⟨b, rfl, rfl⟩

/-- the record tree after merge_edge stored `b` under `i` -/
def mergedProps (d : Db) (t : Triple Id) (i b : Bytes) : Tree :=
  match d.spo.get (encodeSpo t).1 with
  | none => d.edgeProps.insert i b
  | some o => (d.edgeProps.erase o).insert i b

theorem mergeEdge_run {d : Db} (h : Inv Id c d) (mE : EP → EP → EP) (i : Id) (t : Triple Id) (p : EP) :
    (c.okE (merged mE ((d.graph c).edges t) p) = false ∧
      (mergeEdge c mE i t p).run d = (d, .error .serialization)) ∨
    ∃ b, c.e.ser (merged mE ((d.graph c).edges t) p) = some b ∧
      (mergeEdge c mE i t p).run d =
        ({ d with edgeProps := mergedProps d t (toBeBytes i).1 b }.setEdge t (toBeBytes i).1, .ok ()) := by
  unfold mergeEdge transaction mergedProps
  simp only [Prog.run, graph, Codecs.okE, view, merged]
  have e : d.idIn .SPO t = d.spo.get (encodeSpo t).1 := rfl
  rw [e]
  cases ht : d.spo.get (encodeSpo t).1 with
  | none =>
    simp only [Option.bind_none]
    cases hs : c.e.ser p with
    | none => left; simp
    | some b => right; exact ⟨b, rfl, rfl⟩
  | some o =>
    obtain ⟨v, q, hv, hq⟩ := h.recs _ _ ht
    simp only [Option.bind_some, hv, hq]
    cases hs : c.e.ser (mE q p) with
    | none => left; simp
    | some b => right; exact ⟨b, rfl, rfl⟩

theorem mergeEdge_inv {d : Db} (h : Inv Id c d) {i : Id} {t : Triple Id} {p : EP} {b : Bytes}
    (hi : ∀ u : Triple Id, d.idIn .SPO u = some (toBeBytes i).1 → u = t) (hb : c.e.de b = some p) :
    Inv Id c ({ d with edgeProps := mergedProps d t (toBeBytes i).1 b }.setEdge t (toBeBytes i).1) ∧
    ({ d with edgeProps := mergedProps d t (toBeBytes i).1 b }.setEdge t (toBeBytes i).1).graph c =
      (d.graph c).insertEdge t p := by
  refine put_inv h hi hb ?_ (fun u w hu hw => ?_)
  · unfold mergedProps
    split <;> exact BMap.get_insert_self _ _ _
  · have hne : w ≠ (toBeBytes i).1 := by rintro rfl; exact hu (hi u hw)
    unfold mergedProps
    split
    · rw [BMap.get_insert, if_neg hne]
    · rename_i o ho
      rw [BMap.get_insert, if_neg hne, BMap.get_erase, if_neg]
      rintro rfl
      exact hu (h.inj _ _ _ hw ho)

/-! ### one edge of extend -/

/-- the record tree after extend wrote one edge -/
def extendedProps (d : Db) (t : Triple Id) (i b : Bytes) : Tree :=
  match d.spo.get (encodeSpo t).1 with
  | none => d.edgeProps.insert i b
  | some o => (d.edgeProps.insert i b).erase o

theorem extendEdge_inv {d : Db} (h : Inv Id c d) {i : Bytes} {t : Triple Id} {p : EP} {b : Bytes}
    (hi : ∀ u : Triple Id, d.idIn .SPO u ≠ some i) (hb : c.e.de b = some p) :
    Inv Id c ({ d with edgeProps := extendedProps d t i b }.setEdge t i) ∧
    ({ d with edgeProps := extendedProps d t i b }.setEdge t i).graph c = (d.graph c).insertEdge t p := by
  refine put_inv h (fun u hu => absurd hu (hi u)) hb ?_ (fun u w hu hw => ?_)
  · unfold extendedProps
    split
    · exact BMap.get_insert_self _ _ _
    · rename_i o ho
      rw [BMap.get_erase, if_neg, BMap.get_insert_self]
      rintro rfl
      exact hi t ho
  · have hne : w ≠ i := by rintro rfl; exact hi u hw
    unfold extendedProps
    split
    · rw [BMap.get_insert, if_neg hne]
    · rename_i o ho
      rw [BMap.get_erase, if_neg, BMap.get_insert, if_neg hne]
      rintro rfl
      exact hu (h.inj _ _ _ hw ho)

end Sled

/-! ## stores -/

namespace SledStore

open Db

variable {c : Codecs NP EP}

/-- `s` holds the graph `G`, and the next `n` ids of the generator and the next `m` of `Ulid::new()` are new; moreover
the ids in `F` are neither in use nor among these. -/
structure Ok (c : Codecs NP EP) (n m : Nat) (F : Bytes → Prop) (s : SledStore Id) (G : Graph Id NP EP) : Prop where
  inv : s.db.Inv Id c
  graph : s.db.graph c = G
  fresh : FreshIds n m s.gen s.ulid
  gUnused : ∀ i < n, ∀ t : Triple Id, s.db.idIn .SPO t ≠ some (toBeBytes (s.gen i)).1
  uUnused : ∀ j < m, ∀ t : Triple Id, s.db.idIn .SPO t ≠ some (toBeBytes (s.ulid j)).1
  fUnused : ∀ v, F v → ∀ t : Triple Id, s.db.idIn .SPO t ≠ some v
  gF : ∀ i < n, ¬ F (toBeBytes (s.gen i)).1
  uF : ∀ j < m, ¬ F (toBeBytes (s.ulid j)).1

namespace Ok

variable {n m : Nat} {F : Bytes → Prop} {s : SledStore Id} {G : Graph Id NP EP}

theorem mono (h : Ok c n m F s G) {n' m' : Nat} (hn : n' ≤ n) (hm : m' ≤ m) : Ok c n' m' F s G where
  inv := h.inv
  graph := h.graph
  fresh := ⟨fun i hi j hj => h.fresh.1 i (by omega) j (by omega), fun i hi j hj => h.fresh.2.1 i (by omega) j (by omega),
    fun i hi j hj => h.fresh.2.2 i (by omega) j (by omega)⟩
  gUnused i hi := h.gUnused i (by omega)
  uUnused j hj := h.uUnused j (by omega)
  fUnused := h.fUnused
  gF i hi := h.gF i (by omega)
  uF j hj := h.uF j (by omega)

theorem shows (h : Ok c n m F s G) : Shows (s.obs c) G := by
  have := Sled.shows h.inv
  rw [h.graph] at this; exact this

theorem congrGraph (h : Ok c n m F s G) : Ok c n m F s (s.db.graph c) := by rw [h.graph]; exact h

/-- the database changes, no id is drawn -/
theorem db (h : Ok c n m F s G) {d' : Db} {G' : Graph Id NP EP} (hi : d'.Inv Id c) (hG : d'.graph c = G')
    (hid : ∀ (t : Triple Id) v, d'.idIn .SPO t = some v → ∃ u : Triple Id, s.db.idIn .SPO u = some v) :
    Ok c n m F { s with db := d' } G' where
  inv := hi
  graph := hG
  fresh := h.fresh
  gUnused i hi t ht := by obtain ⟨u, hu⟩ := hid _ _ ht; exact h.gUnused i hi u hu
  uUnused j hj t ht := by obtain ⟨u, hu⟩ := hid _ _ ht; exact h.uUnused j hj u hu
  fUnused v hv t ht := by obtain ⟨u, hu⟩ := hid _ _ ht; exact h.fUnused v hv u hu
  gF := h.gF
  uF := h.uF

/-- the database changes, an id is drawn from the generator -/
theorem draw (h : Ok c (n + 1) m F s G) {d' : Db} {G' : Graph Id NP EP} (hi : d'.Inv Id c) (hG : d'.graph c = G')
    (hid : ∀ (t : Triple Id) v, d'.idIn .SPO t = some v →
      v = (toBeBytes (Gen.fresh s.gen).1).1 ∨ ∃ u : Triple Id, s.db.idIn .SPO u = some v) :
    Ok c n m F { s with db := d', gen := (Gen.fresh s.gen).2 } G' where
  inv := hi
  graph := hG
  fresh := ⟨fun i hi j hj he => by have := h.fresh.1 (i + 1) (by omega) (j + 1) (by omega) he; omega, h.fresh.2.1,
    fun i hi j hj => h.fresh.2.2 (i + 1) (by omega) j hj⟩
  gUnused i hi t ht := by
    rcases hid _ _ ht with e | ⟨u, hu⟩
    · have := h.fresh.1 (i + 1) (by omega) 0 (by omega) (toBe_inj.1 e)
      omega
    · exact h.gUnused (i + 1) (by omega) u hu
  uUnused j hj t ht := by
    rcases hid _ _ ht with e | ⟨u, hu⟩
    · exact h.fresh.2.2 0 (by omega) j hj e.symm
    · exact h.uUnused j hj u hu
  fUnused v hv t ht := by
    rcases hid _ _ ht with e | ⟨u, hu⟩
    · exact h.gF 0 (by omega) (e ▸ hv)
    · exact h.fUnused v hv u hu
  gF i hi := h.gF (i + 1) (by omega)
  uF := h.uF

/-- the database changes, `Ulid::new()` is called -/
theorem drawUlid (h : Ok c n (m + 1) F s G) {d' : Db} {G' : Graph Id NP EP} (hi : d'.Inv Id c) (hG : d'.graph c = G')
    (hid : ∀ (t : Triple Id) v, d'.idIn .SPO t = some v →
      v = (toBeBytes (Gen.fresh s.ulid).1).1 ∨ ∃ u : Triple Id, s.db.idIn .SPO u = some v) :
    Ok c n m F { s with db := d', ulid := (Gen.fresh s.ulid).2 } G' where
  inv := hi
  graph := hG
  fresh := ⟨h.fresh.1, fun i hi j hj he => by have := h.fresh.2.1 (i + 1) (by omega) (j + 1) (by omega) he; omega,
    fun i hi j hj => h.fresh.2.2 i hi (j + 1) (by omega)⟩
  gUnused i hi t ht := by
    rcases hid _ _ ht with e | ⟨u, hu⟩
    · exact h.fresh.2.2 i hi 0 (by omega) e
    · exact h.gUnused i hi u hu
  uUnused j hj t ht := by
    rcases hid _ _ ht with e | ⟨u, hu⟩
    · have := h.fresh.2.1 (j + 1) (by omega) 0 (by omega) (toBe_inj.1 e)
      omega
    · exact h.uUnused (j + 1) (by omega) u hu
  fUnused v hv t ht := by
    rcases hid _ _ ht with e | ⟨u, hu⟩
    · exact h.uF 0 (by omega) (e ▸ hv)
    · exact h.fUnused v hv u hu
  gF := h.gF
  uF j hj := h.uF (j + 1) (by omega)

end Ok

theorem ok_new (c : Codecs NP EP) {n m : Nat} {g : Gen Id} {u : Gen Ulid} (h : FreshIds n m g u) {F : Bytes → Prop}
    (hg : ∀ i < n, ¬ F (toBeBytes (g i)).1) (hu : ∀ j < m, ¬ F (toBeBytes (u j)).1) :
    Ok c n m F (SledStore.new Db.empty g u) Graph.empty where
  inv := inv_empty c
  graph := graph_empty c
  fresh := h
  gUnused i hi t ht := by cases ht
  uUnused i hi t ht := by cases ht
  fUnused v hv t ht := by cases ht
  gF := hg
  uF := hu

section
variable {n m : Nat} {F : Bytes → Prop} {s : SledStore Id} {G : Graph Id NP EP}

/-- the result of an operation, and the state it leaves -/
def Good (c : Codecs NP EP) (n m : Nat) (F : Bytes → Prop) (r : SledStore Id × Except (LR SErr E) Unit)
    (e : Graph Id NP EP × Outcome E) : Prop := Ok c n m F r.1 e.1 ∧ r.2 = e.2.result

theorem setEdge_ids {d d1 : Db} {t : Triple Id} {w : Bytes} (hd : ∀ o (u : Triple Id), d1.idIn o u = d.idIn o u)
    (u : Triple Id) (v : Bytes) (h : (d1.setEdge t w).idIn .SPO u = some v) :
    v = w ∨ ∃ x : Triple Id, d.idIn .SPO x = some v := by
  rw [setEdge_idIn, hd] at h
  split at h
  · left; exact (Option.some.inj h).symm
  · exact Or.inr ⟨u, h⟩

theorem good_insertNode (hc : c.RoundTrip) (h : Ok c n m F s G) (x : Id) (p : NP) :
    Good (E := E) c n m F ((s.insertNode c x p).1, tag (s.insertNode c x p).2) (one G (storeNode c.okN G x p)) := by
  unfold Good SledStore.insertNode storeNode Codecs.okN
  cases hb : c.n.ser p with
  | none => simp only [Sled.insertNode_err hb]; exact ⟨h, rfl⟩
  | some b =>
    simp only [Sled.insertNode_run hb]
    obtain ⟨h1, h2⟩ := insNode_inv h.inv (n := x) (hc.1 p b hb)
    exact ⟨h.db h1 (h2.trans (by rw [h.graph]; rfl)) (fun t v ht => ⟨t, ht⟩), rfl⟩

theorem good_insertEdge (hc : c.RoundTrip) (h : Ok c (n + 1) m F s G) (t : Triple Id) (p : EP) :
    Good (E := E) c n m F ((s.insertEdge c t p).1, tag (s.insertEdge c t p).2) (one G (storeEdge c.okE G t p)) := by
  unfold Good SledStore.insertEdge storeEdge Codecs.okE
  cases hb : c.e.ser p with
  | none =>
    simp only [Sled.insertEdge_err hb]
    exact ⟨h.draw h.inv h.graph (fun t v ht => Or.inr ⟨t, ht⟩), rfl⟩
  | some b =>
    simp only [Sled.insertEdge_run hb]
    obtain ⟨h1, h2⟩ := Sled.insertEdge_inv h.inv (i := (Gen.fresh s.gen).1) (t := t)
      (fun u hu => absurd hu (h.gUnused 0 (by omega) u)) (hc.2 p b hb)
    refine ⟨h.draw h1 (h2.trans (by rw [h.graph]; rfl)) (setEdge_ids (fun _ _ => withProps_idIn _ _ _ _)), rfl⟩

theorem good_removeEdge (h : Ok c n m F s G) (t : Triple Id) :
    Good (E := E) c n m F ((s.removeEdge t).1, tag (s.removeEdge t).2) (G.removeEdge t, .done) := by
  unfold Good SledStore.removeEdge
  rw [(Sled.removeEdge_states s.db t).2]
  obtain ⟨h1, h2⟩ := Sled.removed_inv h.inv t
  refine ⟨h.db h1 (h2.trans (by rw [h.graph])) (fun u v hu => ⟨u, ?_⟩), rfl⟩
  rw [Sled.removed, unsetEdge_idIn, withProps_idIn] at hu
  split at hu
  · cases hu
  · exact hu

theorem good_removeNode (h : Ok c n m F s G) (x : Id) :
    Good (E := E) c n m F ((s.removeNode x).1, tag (s.removeNode x).2) (G.removeNode x, .done) := by
  unfold Good SledStore.removeNode
  obtain ⟨d', _, hr, h1, h2, h3⟩ := Sled.removeNode_inv h.inv x
  rw [hr]
  exact ⟨h.db h1 (h2.trans (by rw [h.graph])) (fun u v hu => ⟨u, h3 u v hu⟩), rfl⟩

theorem good_mergeNode (hc : c.RoundTrip) (h : Ok c n m F s G) (mN : NP → NP → NP) (x : Id) (p : NP) :
    Good (E := E) c n m F ((s.mergeNode c mN x p).1, tag (s.mergeNode c mN x p).2)
      (one G (storeMergedNode c.okN mN G x p)) := by
  unfold Good SledStore.mergeNode storeMergedNode storeNode
  rw [← h.graph]
  rcases Sled.mergeNode_run h.inv mN x p with ⟨h1, h2⟩ | ⟨b, h1, h2⟩
  · rw [if_neg (by rw [h1]; simp)]
    simp only [h2]
    exact ⟨h.congrGraph, rfl⟩
  · have : c.okN (merged mN ((s.db.graph c).nodes x) p) = true := by
      unfold Codecs.okN; rw [h1]; rfl
    rw [if_pos this]
    simp only [h2]
    obtain ⟨h3, h4⟩ := insNode_inv h.inv (n := x) (hc.1 _ b h1)
    exact ⟨h.db h3 h4 (fun t v ht => ⟨t, ht⟩), rfl⟩

theorem good_mergeEdge (hc : c.RoundTrip) (h : Ok c (n + 1) m F s G) (mE : EP → EP → EP) (t : Triple Id) (p : EP) :
    Good (E := E) c n m F ((s.mergeEdge c mE t p).1, tag (s.mergeEdge c mE t p).2)
      (one G (storeMergedEdge c.okE mE G t p)) := by
  unfold Good SledStore.mergeEdge storeMergedEdge storeEdge
  rw [← h.graph]
  rcases Sled.mergeEdge_run h.inv mE (Gen.fresh s.gen).1 t p with ⟨h1, h2⟩ | ⟨b, h1, h2⟩
  · rw [if_neg (by rw [h1]; simp)]
    simp only [h2]
    exact ⟨h.draw h.inv rfl (fun t v ht => Or.inr ⟨t, ht⟩), rfl⟩
  · have : c.okE (merged mE ((s.db.graph c).edges t) p) = true := by
      unfold Codecs.okE; rw [h1]; rfl
    rw [if_pos this]
    simp only [h2]
    obtain ⟨h3, h4⟩ := Sled.mergeEdge_inv h.inv (i := (Gen.fresh s.gen).1) (t := t)
      (fun u hu => absurd hu (h.gUnused 0 (by omega) u)) (hc.2 _ b h1)
    exact ⟨h.draw h3 h4 (setEdge_ids (fun _ _ => withProps_idIn _ _ _ _)), rfl⟩

end

end SledStore

end Verif
