import Verif.Proof.SledTx

/-!
# The calls of the crate are made of single sled calls and of the closures
-/

namespace Verif

open Spec ConcreteId

namespace Tree

theorem get_set (m : Tree) (k k' : Bytes) (v : Option Bytes) : (m.set k v).get k' = if k' = k then v else m.get k' := by
  cases v with
  | none => simp [set, BMap.get_erase]
  | some v => simp [set, BMap.get_insert]

end Tree

instance : LawfulTrees Db where
  look_put s t t' k k' v := by
    cases t <;> cases t' <;> simp [Trees.look, Trees.put, Tree.get_set]
  ext s s' h := by
    have h1 := BMap.ext_get (h .nodeProps)
    have h2 := BMap.ext_get (h .edgeProps)
    have h3 := BMap.ext_get (h .spo)
    have h4 := BMap.ext_get (h .pos)
    have h5 := BMap.ext_get (h .osp)
    cases s; cases s'
    simp only at h1 h2 h3 h4 h5
    subst h1 h2 h3 h4 h5
    rfl

instance : LawfulTrees IndexDb where
  look_put s t t' k k' v := by
    cases t <;> cases t' <;> simp [Trees.look, Trees.put, Tree.get_set]
  ext s s' h := by
    have h1 := BMap.ext_get (h .leftToRight)
    have h2 := BMap.ext_get (h .rightToLeft)
    cases s; cases s'
    simp only at h1 h2
    subst h1 h2
    rfl

instance : LawfulTrees RdfDb where
  look_put s t t' k k' v := by
    cases t with
    | inl t =>
      cases t' with
      | inl t' =>
        simp only [Sum.inl.injEq]
        exact LawfulTrees.look_put s.names t t' k k' v
      | inr t' => simp [Trees.look, Trees.put]
    | inr t =>
      cases t' with
      | inr t' =>
        simp only [Sum.inr.injEq]
        exact LawfulTrees.look_put s.data t t' k k' v
      | inl t' => simp [Trees.look, Trees.put]
  ext s s' h := by
    have h1 := LawfulTrees.ext s.names s'.names (fun t k => h (.inl t) k)
    have h2 := LawfulTrees.ext s.data s'.data (fun t k => h (.inr t) k)
    cases s; cases s'
    simp only at h1 h2
    subst h1 h2
    rfl

namespace Tx

variable {S T X α β : Type} [Trees S T]

theorem Plain.bind {f : S → S} {k : S → Prog S α} (h : Plain f k) (g : α → Prog S β) : Plain f (fun s => (k s).bind g) := by
  rcases h with ⟨t, key, v, rfl, h⟩ | ⟨rfl, t, h⟩
  · exact .inl ⟨t, key, v, rfl, fun s s' e => by simp only [h s s' e]⟩
  · exact .inr ⟨rfl, t, fun s s' e => by simp only [h s s' e]⟩

theorem Performs.bind {b : Tx T X} {back : Except X Unit → Prog S α} {f : S → S} {k : S → Prog S α} (h : Performs b back f k)
    (g : α → Prog S β) : Performs b (fun r => (back r).bind g) f (fun s => (k s).bind g) := by
  intro s
  have := h s
  cases e : b.atomic s with
  | ok s' => rw [e] at this; exact ⟨this.1, by simp only [this.2]⟩
  | error x => rw [e] at this; exact ⟨this.1, by simp only [this.2]⟩

theorem madeOf_bind {closures : Tx T X → Prop} {p : Prog S α} (hp : p.MadeOf closures) {g : α → Prog S β}
    (hg : ∀ a, (g a).MadeOf closures) : (p.bind g).MadeOf closures := by
  induction p with
  | ret a => exact hg a
  | call f k ih =>
    refine ⟨?_, fun s => ih s (hp.2 s)⟩
    rcases hp.1 with h | ⟨b, back, hb, h⟩
    · exact .inl (h.bind g)
    · exact .inr ⟨b, _, hb, h.bind g⟩

theorem madeOf_ret {closures : Tx T X → Prop} (a : α) : (Prog.ret a : Prog S α).MadeOf closures := trivial

/-- an `insert` or `remove` whose result is not used -/
theorem madeOf_write {closures : Tx T X → Prop} (t : T) (key : Bytes) (v : Option Bytes) {f : S → S}
    (hf : f = fun s => Trees.put s t key v) {p : Prog S α} (hp : p.MadeOf closures) :
    (Prog.call f (fun _ => p)).MadeOf closures :=
  ⟨.inl (.inl ⟨t, key, v, hf, fun _ _ _ => rfl⟩), fun _ => hp⟩

/-! ## closures among more trees -/

theorem atomic_onData (b : Tx DbTree X) {X' : Type} (g : X → X') (d : RdfDb) :
    (b.lift (Sum.inr (α := IndexTree)) g).atomic d =
      match b.atomic d.data with | .ok s => .ok { d with data := s } | .error e => .error (g e) := by
  induction b generalizing d with
  | done => rfl
  | abort e => rfl
  | get t k next ih => exact ih _ d
  | write t k v next ih => exact ih _ { d with data := Trees.put d.data t k v }

theorem atomic_onNames (b : Tx IndexTree X) {X' : Type} (g : X → X') (d : RdfDb) :
    (b.lift (Sum.inl (β := DbTree)) g).atomic d =
      match b.atomic d.names with | .ok s => .ok { d with names := s } | .error e => .error (g e) := by
  induction b generalizing d with
  | done => rfl
  | abort e => rfl
  | get t k next ih => exact ih _ d
  | write t k v next ih => exact ih _ { d with names := Trees.put d.names t k v }

theorem madeOf_onData {closures : Tx DbTree SErr → Prop}
    {closures' : Tx (IndexTree ⊕ DbTree) (SledIndexErr String Ulid ⊕ SErr) → Prop}
    (hcl : ∀ b, closures b → closures' (b.lift .inr .inr)) {p : Prog Db α} (hp : p.MadeOf closures) : p.onData.MadeOf closures' := by
  induction p with
  | ret a => trivial
  | call f k ih =>
    refine ⟨?_, fun s => ih s.data (hp.2 s.data)⟩
    rcases hp.1 with (⟨t, key, v, rfl, h⟩ | ⟨rfl, t, h⟩) | ⟨b, back, hb, h⟩
    · exact .inl (.inl ⟨.inr t, key, v, rfl, fun s s' e => by simp only [h s.data s'.data e]⟩)
    · exact .inl (.inr ⟨rfl, .inr t, fun s s' e => by simp only [h s.data s'.data e]⟩)
    · refine .inr ⟨_, fun r => (back (match r with | .ok u => .ok u | .error (.inr e) => .error e | .error (.inl _) => .ok ())).onData,
        hcl b hb, fun d => ?_⟩
      rw [atomic_onData]
      have := h d.data
      cases e : b.atomic d.data with
      | ok s' => rw [e] at this; exact ⟨by simp only [this.1], by simp only [this.2]⟩
      | error x => rw [e] at this; exact ⟨by simp only [this.1], by simp only [this.2]⟩

theorem madeOf_onNames {closures : Tx IndexTree (SledIndexErr String Ulid) → Prop}
    {closures' : Tx (IndexTree ⊕ DbTree) (SledIndexErr String Ulid ⊕ SErr) → Prop}
    (hcl : ∀ b, closures b → closures' (b.lift .inl .inl)) {p : Prog IndexDb α} (hp : p.MadeOf closures) :
    p.onNames.MadeOf closures' := by
  induction p with
  | ret a => trivial
  | call f k ih =>
    refine ⟨?_, fun s => ih s.names (hp.2 s.names)⟩
    rcases hp.1 with (⟨t, key, v, rfl, h⟩ | ⟨rfl, t, h⟩) | ⟨b, back, hb, h⟩
    · exact .inl (.inl ⟨.inl t, key, v, rfl, fun s s' e => by simp only [h s.names s'.names e]⟩)
    · exact .inl (.inr ⟨rfl, .inl t, fun s s' e => by simp only [h s.names s'.names e]⟩)
    · refine .inr ⟨_, fun r => (back (match r with | .ok u => .ok u | .error (.inl e) => .error e | .error (.inr _) => .ok ())).onNames,
        hcl b hb, fun d => ?_⟩
      rw [atomic_onNames]
      have := h d.names
      cases e : b.atomic d.names with
      | ok s' => rw [e] at this; exact ⟨by simp only [this.1], by simp only [this.2]⟩
      | error x => rw [e] at this; exact ⟨by simp only [this.1], by simp only [this.2]⟩

theorem atomic_removeAll (t : T) (ks : List Bytes) (next : Tx T X) (s : S) :
    (removeAll t ks next).atomic s = next.atomic (ks.foldl (fun s k => Trees.put s t k none) s) := by
  induction ks generalizing s with
  | nil => rfl
  | cons k ks ih => exact ih _

end Tx

namespace Sled

variable {Id NP EP E : Type} [LinearOrder Id] [ConcreteId Id] {c : Codecs NP EP} {mN : NP → NP → NP} {mE : EP → EP → EP}

theorem performs_transaction {b : Tx DbTree SErr} {f : Db → Except SErr Db} (h : ∀ d, b.atomic d = f d) :
    ∃ f' k, transaction f = .call f' k ∧ Tx.Performs b .ret f' k := by
  refine ⟨_, _, rfl, fun d => ?_⟩
  rw [h d]
  beta_reduce
  cases f d with
  | ok d' => exact ⟨rfl, rfl⟩
  | error x => exact ⟨rfl, rfl⟩

theorem madeOf_transaction {closures : Tx DbTree SErr → Prop} {b : Tx DbTree SErr} (hb : closures b) {f : Db → Except SErr Db}
    (h : ∀ d, b.atomic d = f d) : (transaction f).MadeOf closures := by
  obtain ⟨f', k, e, h'⟩ := performs_transaction h
  obtain ⟨rfl, rfl⟩ := Prog.call.inj e
  exact ⟨.inr ⟨b, _, hb, h'⟩, fun _ => trivial⟩

theorem madeOf_insertNode (closures : Tx DbTree SErr → Prop) (n : Id) (p : NP) : (insertNode c n p).MadeOf closures := by
  unfold insertNode
  split
  · trivial
  · rename_i b _
    exact Tx.madeOf_write DbTree.nodeProps _ (some b) rfl (Tx.madeOf_ret _)

theorem madeOf_insertEdge (i : Id) (t : Triple Id) (p : EP) :
    (insertEdge c i t p).MadeOf (Closure (Id := Id) c mN mE) := by
  unfold insertEdge
  split
  · trivial
  · exact madeOf_transaction (.insertEdge i t _) (fun d => rfl)

theorem atomic_removeNodeClosure (n : Id) (fwd bwd : Batch) (d : Db) :
    (removeNodeClosure n fwd bwd).atomic d = .ok
      { nodeProps := d.nodeProps.erase (toBeBytes n).1
        edgeProps := applyBatch (applyBatch d.edgeProps fwd.edge) bwd.edge
        spo := applyBatch (applyBatch d.spo fwd.spo) bwd.spo
        pos := applyBatch (applyBatch d.pos fwd.pos) bwd.pos
        osp := applyBatch (applyBatch d.osp fwd.osp) bwd.osp } := by
  have e1 : ∀ (ks : List Bytes) (d : Db), ks.foldl (fun s k => Trees.put s DbTree.edgeProps k none) d =
      { d with edgeProps := applyBatch d.edgeProps ks } := by
    intro ks; induction ks with
    | nil => intro d; rfl
    | cons k ks ih => intro d; exact ih _
  have e2 : ∀ (ks : List Bytes) (d : Db), ks.foldl (fun s k => Trees.put s DbTree.spo k none) d =
      { d with spo := applyBatch d.spo ks } := by
    intro ks; induction ks with
    | nil => intro d; rfl
    | cons k ks ih => intro d; exact ih _
  have e3 : ∀ (ks : List Bytes) (d : Db), ks.foldl (fun s k => Trees.put s DbTree.pos k none) d =
      { d with pos := applyBatch d.pos ks } := by
    intro ks; induction ks with
    | nil => intro d; rfl
    | cons k ks ih => intro d; exact ih _
  have e4 : ∀ (ks : List Bytes) (d : Db), ks.foldl (fun s k => Trees.put s DbTree.osp k none) d =
      { d with osp := applyBatch d.osp ks } := by
    intro ks; induction ks with
    | nil => intro d; rfl
    | cons k ks ih => intro d; exact ih _
  show (Tx.removeAll .edgeProps fwd.edge _).atomic (Trees.put d DbTree.nodeProps (toBeBytes n).1 none) = _
  simp only [Tx.atomic_removeAll, e1, e2, e3, e4]
  rfl

theorem madeOf_removeNodeTx (n : Id) (fwd bwd : Batch) :
    (removeNodeTx n fwd bwd).MadeOf (Closure (Id := Id) c mN mE) :=
  madeOf_transaction (.removeNode n fwd bwd) (atomic_removeNodeClosure n fwd bwd)

theorem madeOf_removeNodeScanned (n : Id) (fwd bwd : List (Bytes × Bytes)) :
    (removeNodeScanned n fwd bwd).MadeOf (Closure (Id := Id) c mN mE) := by
  unfold removeNodeScanned
  split
  · trivial
  · split
    · trivial
    · exact madeOf_removeNodeTx ..

theorem madeOf_removeNode (n : Id) : (removeNode n).MadeOf (Closure (Id := Id) c mN mE) := by
  refine ⟨.inl (.inr ⟨rfl, .spo, fun s s' h => ?_⟩), fun s => ?_⟩
  · simp only [show s.spo = s'.spo from BMap.ext_get h]
  · beta_reduce
    split
    · trivial
    · refine ⟨.inl (.inr ⟨rfl, .osp, fun s s' h => ?_⟩), fun s => ?_⟩
      · simp only [show s.osp = s'.osp from BMap.ext_get h]
      · beta_reduce
        split
        · trivial
        · exact madeOf_removeNodeTx ..

theorem madeOf_scanPieces {α : Type} {closures : Tx DbTree SErr → Prop} (tr : DbTree) {tree : Db → Tree}
    (htr : ∀ d d' : Db, (∀ key, Trees.look d tr key = Trees.look d' tr key) → tree d = tree d') {n : Nat}
    (b : Bound (ByteArr n) × Bound (ByteArr n)) {k : List (Bytes × Bytes) → Prog Db α} (hk : ∀ l, (k l).MadeOf closures)
    (ss : List Nat) (cur : Option Bytes) (acc : List (Bytes × Bytes)) : (scanPieces tree b k ss cur acc).MadeOf closures := by
  induction ss generalizing cur acc with
  | nil => exact ⟨.inl (.inr ⟨rfl, tr, fun s s' h => by simp only [htr s s' h]⟩), fun s => hk _⟩
  | cons s ss ih => exact ⟨.inl (.inr ⟨rfl, tr, fun s s' h => by simp only [htr s s' h]⟩), fun s => ih _ _⟩

theorem madeOf_removeNodePieces (fs bs : List Nat) (n : Id) :
    (removeNodePieces fs bs n).MadeOf (Closure (Id := Id) c mN mE) :=
  madeOf_scanPieces .spo (fun _ _ h => BMap.ext_get h) _
    (fun _ => madeOf_scanPieces .osp (fun _ _ h => BMap.ext_get h) _ (fun _ => madeOf_removeNodeScanned ..) _ _ _) _ _ _

theorem performs_removeEdge (t : Triple Id) :
    ∃ f p, removeEdge t = .call f (fun _ => p) ∧ Tx.Performs (removeEdgeClosure t) (fun _ => p) f (fun _ => p) := by
  refine ⟨_, _, rfl, fun d => ?_⟩
  have e : (removeEdgeClosure t).atomic d = .ok { d with
      spo := d.spo.erase (encodeSpo t).1
      pos := d.pos.erase (encodePos t).1
      osp := d.osp.erase (encodeOsp t).1
      edgeProps :=
        match d.spo.get (encodeSpo t).1 with
        | some i => d.edgeProps.erase i
        | none => d.edgeProps } := by
    unfold removeEdgeClosure
    simp only [Tx.atomic, Tx.remove, Trees.look]
    cases d.spo.get (encodeSpo t).1 <;> rfl
  rw [e]
  exact ⟨rfl, rfl⟩

theorem madeOf_removeEdge (t : Triple Id) : (removeEdge t).MadeOf (Closure (Id := Id) c mN mE) := by
  obtain ⟨f, p, e, h⟩ := performs_removeEdge t
  have e' := e
  unfold removeEdge at e'
  obtain ⟨_, ep⟩ := Prog.call.inj e'
  have ep := congrFun ep Db.empty
  rw [e]
  refine ⟨.inr ⟨removeEdgeClosure t, _, .removeEdge t, h⟩, fun _ => ?_⟩
  rw [← ep]
  refine ⟨.inl (.inl ⟨.spo, (encodeSpo t).1, none, rfl, fun s s' h => ?_⟩), fun s => ?_⟩
  · have h : s.spo.get (encodeSpo t).1 = s'.spo.get (encodeSpo t).1 := h
    simp only [h]
  · refine Tx.madeOf_write DbTree.pos _ none rfl (Tx.madeOf_write DbTree.osp _ none rfl ?_)
    split
    · rename_i i _
      exact Tx.madeOf_write DbTree.edgeProps i none rfl (Tx.madeOf_ret _)
    · trivial

theorem performs_mergeNode (n : Id) (p : NP) :
    ∃ f k, mergeNode c mN n p = .call f k ∧ Tx.Performs (mergeNodeClosure c.n mN n p) .ret f k := by
  refine performs_transaction (fun d => ?_)
  simp only [mergeNodeClosure, Tx.atomic, Trees.look]
  cases d.nodeProps.get (toBeBytes n).1 with
  | none =>
    simp only
    cases c.n.ser p <;> rfl
  | some v =>
    simp only
    cases c.n.de v with
    | none => rfl
    | some old =>
      simp only
      cases c.n.ser (mN old p) <;> rfl

theorem performs_mergeEdge (i : Id) (t : Triple Id) (p : EP) :
    ∃ f k, mergeEdge c mE i t p = .call f k ∧ Tx.Performs (mergeEdgeClosure c.e mE i t p) .ret f k := by
  refine performs_transaction (fun d => ?_)
  simp only [mergeEdgeClosure, Tx.atomic, Tx.insert, Trees.look, Trees.put]
  cases d.spo.get (encodeSpo t).1 with
  | none =>
    simp only
    cases c.e.ser p <;> rfl
  | some o =>
    simp only [Tx.atomic, Trees.look]
    cases d.edgeProps.get o with
    | none =>
      simp only
      cases c.e.ser p <;> rfl
    | some v =>
      simp only
      cases c.e.de v with
      | none => rfl
      | some old =>
        simp only
        cases c.e.ser (mE old p) <;> rfl

/-- a function that is a transaction -/
theorem madeOf_performs {closures : Tx DbTree SErr → Prop} {b : Tx DbTree SErr} (hb : closures b) {p : Prog Db (Except SErr Unit)}
    {f : Db → Db} {k : Db → Prog Db (Except SErr Unit)} (e : p = .call f k) (h : Tx.Performs b .ret f k) : p.MadeOf closures := by
  rw [e]
  refine ⟨.inr ⟨b, _, hb, h⟩, fun d => ?_⟩
  have := h d
  cases e : b.atomic d with
  | ok s => rw [e] at this; rw [this.2]; trivial
  | error x => rw [e] at this; rw [this.2]; trivial

theorem madeOf_mergeNode (n : Id) (p : NP) : (mergeNode c mN n p).MadeOf (Closure (Id := Id) c mN mE) := by
  obtain ⟨f, k, e, h⟩ := performs_mergeNode (c := c) (mN := mN) n p
  exact madeOf_performs (.mergeNode n p) e h

theorem madeOf_mergeEdge (i : Id) (t : Triple Id) (p : EP) : (mergeEdge c mE i t p).MadeOf (Closure (Id := Id) c mN mE) := by
  obtain ⟨f, k, e, h⟩ := performs_mergeEdge (c := c) (mE := mE) i t p
  exact madeOf_performs (.mergeEdge i t p) e h

theorem madeOf_mergeNodes {α : Type} {k : Except (LR SErr E) Unit → Prog Db α} (hk : ∀ r, (k r).MadeOf (Closure (Id := Id) c mN mE))
    (l : List (Except E (Id × NP))) : (mergeNodes c mN k l).MadeOf (Closure (Id := Id) c mN mE) := by
  induction l with
  | nil => exact hk _
  | cons r l ih =>
    cases r with
    | error e => exact hk _
    | ok x =>
      refine Tx.madeOf_bind (madeOf_mergeNode _ _) (fun r => ?_)
      cases r with
      | error e => exact hk _
      | ok _ => exact ih

theorem madeOf_mergeEdges (l : List (Except E (Triple Id × EP))) (g : Gen Id) :
    (mergeEdges c mE g l).MadeOf (Closure (Id := Id) c mN mE) := by
  induction l generalizing g with
  | nil => trivial
  | cons r l ih =>
    cases r with
    | error e => trivial
    | ok x =>
      refine Tx.madeOf_bind (madeOf_mergeEdge _ _ _) (fun r => ?_)
      cases r with
      | error e => trivial
      | ok _ => exact ih _

theorem madeOf_merge (g : Gen Id) (src : Source E Id NP EP) : (merge c mN mE g src).MadeOf (Closure (Id := Id) c mN mE) := by
  refine madeOf_mergeNodes (fun r => ?_) _
  cases r with
  | error e => trivial
  | ok _ => exact madeOf_mergeEdges _ _

theorem madeOf_extendNodes {α : Type} {closures : Tx DbTree SErr → Prop} {k : Except (LR SErr E) Unit → Prog Db α}
    (hk : ∀ r, (k r).MadeOf closures) (l : List (Except E (Id × NP))) : (extendNodes c k l).MadeOf closures := by
  induction l with
  | nil => exact hk _
  | cons r l ih =>
    cases r with
    | error e => exact hk _
    | ok x =>
      unfold extendNodes
      split
      · exact hk _
      · rename_i b _
        exact Tx.madeOf_write DbTree.nodeProps _ (some b) rfl ih

theorem madeOf_extendEdges {closures : Tx DbTree SErr → Prop} (l : List (Except E (Triple Id × EP))) (u : Gen Ulid) :
    (extendEdges c u l).MadeOf closures := by
  induction l generalizing u with
  | nil => trivial
  | cons r l ih =>
    cases r with
    | error e => trivial
    | ok x =>
      unfold extendEdges
      simp only
      split
      · trivial
      · rename_i b _
        refine Tx.madeOf_write DbTree.edgeProps _ (some b) rfl ?_
        refine ⟨.inl (.inl ⟨.spo, (encodeSpo x.1).1, some (toBeBytes (Gen.fresh u).1).1, rfl, fun s s' h => ?_⟩), fun s => ?_⟩
        · have h : s.spo.get (encodeSpo x.1).1 = s'.spo.get (encodeSpo x.1).1 := h
          simp only [h]
        · refine Tx.madeOf_write DbTree.pos _ (some (toBeBytes (Gen.fresh u).1).1) rfl
            (Tx.madeOf_write DbTree.osp _ (some (toBeBytes (Gen.fresh u).1).1) rfl ?_)
          split
          · rename_i o _
            exact Tx.madeOf_write DbTree.edgeProps o none rfl (ih _)
          · exact ih _

theorem madeOf_extend {closures : Tx DbTree SErr → Prop} (u : Gen Ulid) (src : Source E Id NP EP) :
    (extend c u src).MadeOf closures := by
  refine madeOf_extendNodes (fun r => ?_) _
  cases r with
  | error e => trivial
  | ok _ => exact madeOf_extendEdges _ _

theorem madeOf_call (x : Call E Id NP EP) : (x.prog c mN mE).MadeOf (Closure (Id := Id) c mN mE) := by
  cases x with
  | insertNode n p => exact Tx.madeOf_bind (madeOf_insertNode _ n p) (fun _ => trivial)
  | insertEdge i t p => exact Tx.madeOf_bind (madeOf_insertEdge i t p) (fun _ => trivial)
  | removeNode n => exact Tx.madeOf_bind (madeOf_removeNode n) (fun _ => trivial)
  | removeNodeScan n fwd bwd => exact Tx.madeOf_bind (madeOf_removeNodeScanned n fwd bwd) (fun _ => trivial)
  | removeEdge t => exact Tx.madeOf_bind (madeOf_removeEdge t) (fun _ => trivial)
  | mergeNode n p => exact Tx.madeOf_bind (madeOf_mergeNode n p) (fun _ => trivial)
  | mergeEdge i t p => exact Tx.madeOf_bind (madeOf_mergeEdge i t p) (fun _ => trivial)
  | extend u src => exact Tx.madeOf_bind (madeOf_extend u src) (fun _ => trivial)
  | merge g src => exact Tx.madeOf_bind (madeOf_merge g src) (fun _ => trivial)

theorem madeOf_pieceCall (x : PieceCall E Id NP EP) : (x.prog c mN mE).MadeOf (Closure (Id := Id) c mN mE) := by
  obtain ⟨x, ss⟩ := x
  unfold PieceCall.prog
  cases x with
  | removeNode n => exact Tx.madeOf_bind (madeOf_removeNodePieces _ _ n) (fun _ => trivial)
  | _ => exact madeOf_call _

/-- the keys of a batch in any order -/
theorem applyBatch_same {ks ks' : List Bytes} (h : ∀ k, k ∈ ks ↔ k ∈ ks') (t : Tree) : applyBatch t ks = applyBatch t ks' := by
  have e : ∀ (ks : List Bytes) (t : Tree) (k : Bytes), (applyBatch t ks).get k = if k ∈ ks then none else t.get k := by
    intro ks
    induction ks with
    | nil => intro t k; simp [applyBatch]
    | cons a ks ih =>
      intro t k
      have := ih (t.erase a) k
      rw [show applyBatch t (a :: ks) = applyBatch (t.erase a) ks from rfl, this, BMap.get_erase]
      by_cases h1 : k = a <;> by_cases h2 : k ∈ ks <;> simp [h1, h2]
  exact BMap.ext_get (fun k => by rw [e, e]; simp [h k])

end Sled

namespace SledIndex

variable {L R : Type} {cl : Codec L} {cr : Codec R}

theorem performs_set (l : L) (r : R) {lb rb : Bytes} (hl : cl.ser l = some lb) (hr : cr.ser r = some rb) :
    ∃ f k, setProg cl cr l r = .call f k ∧ Tx.Performs (setClosure cl cr l r lb rb) .ret f k := by
  unfold setProg
  rw [hl, hr]
  refine ⟨_, _, rfl, fun d => ?_⟩
  have e : (setClosure cl cr l r lb rb).atomic d = setTx cl cr l r lb rb d := by
    simp only [setClosure, setTx, Tx.atomic, Trees.look]
    cases d.leftToRight.get lb with
    | some b =>
      simp only
      cases cr.de b <;> rfl
    | none =>
      simp only [Tx.insert, Tx.atomic, Trees.look, Trees.put]
      cases d.rightToLeft.get rb with
      | some b =>
        simp only
        cases cl.de b <;> rfl
      | none => rfl
  rw [e]
  beta_reduce
  cases setTx cl cr l r lb rb d with
  | ok d' => exact ⟨rfl, rfl⟩
  | error x => exact ⟨rfl, rfl⟩

theorem madeOf_setProg {closures : Tx IndexTree (SledIndexErr L R) → Prop} (l : L) (r : R)
    (h : ∀ lb rb, closures (setClosure cl cr l r lb rb)) : (setProg cl cr l r).MadeOf closures := by
  cases hl : cl.ser l with
  | none => unfold setProg; rw [hl]; trivial
  | some lb =>
    cases hr : cr.ser r with
    | none => unfold setProg; rw [hl, hr]; trivial
    | some rb =>
      obtain ⟨f, k, e, hp⟩ := performs_set (cl := cl) (cr := cr) l r hl hr
      rw [e]
      refine ⟨.inr ⟨_, _, h lb rb, hp⟩, fun d => ?_⟩
      have := hp d
      cases e : (setClosure cl cr l r lb rb).atomic d with
      | ok s => rw [e] at this; rw [this.2]; trivial
      | error x => rw [e] at this; rw [this.2]; trivial

theorem madeOf_leftToRightProg {closures : Tx IndexTree (SledIndexErr L R) → Prop} (l : L) :
    (leftToRightProg cl cr l).MadeOf closures := by
  unfold leftToRightProg
  split
  · trivial
  · refine ⟨.inl (.inr ⟨rfl, .leftToRight, fun s s' h => ?_⟩), fun _ => trivial⟩
    simp only [show s.leftToRight = s'.leftToRight from BMap.ext_get h]

end SledIndex

namespace RdfSled

variable {NP EP E α β : Type} {cl : Codec String} {cr : Codec Ulid} {c : Codecs NP EP} {mN : NP → NP → NP} {mE : EP → EP → EP}

/-- the function is made of single calls and of the closures, whatever ids it draws -/
def TxMade (cl : Codec String) (cr : Codec Ulid) (c : Codecs NP EP) (mN : NP → NP → NP) (mE : EP → EP → EP) (m : Task α) : Prop :=
  ∀ i, (m i).MadeOf (Closure cl cr c mN mE)

theorem made_andThen {m : Task α} {f : α → Task β} (hm : TxMade cl cr c mN mE m) (hf : ∀ a, TxMade cl cr c mN mE (f a)) :
    TxMade cl cr c mN mE (m.andThen f) := by
  intro i
  refine Tx.madeOf_bind (hm i) (fun r => ?_)
  split
  · trivial
  · exact hf _ _

theorem made_done (a : α) : TxMade cl cr c mN mE (done a) := fun _ => trivial

theorem made_onIndex {p : Prog IndexDb (Except (SledIndexErr String Ulid) α)}
    (hp : p.MadeOf (fun b => ∃ l r lb rb, b = SledIndex.setClosure cl cr l r lb rb)) : TxMade cl cr c mN mE (onIndex p) := by
  intro i
  refine Tx.madeOf_bind (Tx.madeOf_onNames ?_ hp) (fun _ => trivial)
  rintro b ⟨l, r, lb, rb, rfl⟩
  exact .index l r lb rb

theorem made_onGraph {p : Prog Db (Except SErr Unit)} (hp : p.MadeOf (Sled.Closure (Id := Ulid) c mN mE)) :
    TxMade cl cr c mN mE (onGraph p) := by
  intro i
  exact Tx.madeOf_bind (Tx.madeOf_onData (fun b hb => .store b hb) hp) (fun _ => trivial)

theorem made_lookupOrCreateEntity (e : Entity) : TxMade cl cr c mN mE (lookupOrCreateEntity cl cr e) := by
  cases e with
  | string s =>
    refine made_andThen (made_onIndex (SledIndex.madeOf_leftToRightProg s)) (fun o => ?_)
    cases o with
    | some id => exact made_done id
    | none =>
      intro i
      exact made_andThen (made_onIndex (SledIndex.madeOf_setProg s _ (fun lb rb => ⟨_, _, lb, rb, rfl⟩))) (fun _ => made_done _) _
  | ulid id => exact made_done id

theorem made_lookupEntity (e : Entity) : TxMade cl cr c mN mE (lookupEntity cl cr e) := by
  cases e with
  | string s =>
    refine made_andThen (made_onIndex (SledIndex.madeOf_leftToRightProg s)) (fun o => ?_)
    cases o with
    | some id => exact made_done id
    | none => exact fun _ => trivial
  | ulid id => exact made_done id

theorem made_tryMap {f : Entity → Task Ulid} (hf : ∀ e, TxMade cl cr c mN mE (f e)) (t : Triple Entity) :
    TxMade cl cr c mN mE (tryMap f t) :=
  made_andThen (hf _) (fun _ => made_andThen (hf _) (fun _ => made_andThen (hf _) (fun _ => made_done _)))

theorem made_insertNode (e : Entity) (p : NP) : TxMade cl cr c mN mE (insertNode cl cr c e p) :=
  made_andThen (made_lookupOrCreateEntity e) (fun _ => made_onGraph (Sled.madeOf_insertNode _ _ _))

theorem made_insertEdge (t : Triple Entity) (p : EP) : TxMade cl cr c mN mE (insertEdge cl cr c t p) :=
  made_andThen (made_tryMap made_lookupOrCreateEntity t) (fun _ _ => made_onGraph (Sled.madeOf_insertEdge _ _ _) _)

theorem made_mergeNode (e : Entity) (p : NP) : TxMade cl cr c mN mE (mergeNode cl cr c mN e p) :=
  made_andThen (made_lookupOrCreateEntity e) (fun _ => made_onGraph (Sled.madeOf_mergeNode _ _))

theorem made_mergeEdge (t : Triple Entity) (p : EP) : TxMade cl cr c mN mE (mergeEdge cl cr c mE t p) :=
  made_andThen (made_tryMap made_lookupOrCreateEntity t) (fun _ _ => made_onGraph (Sled.madeOf_mergeEdge _ _ _) _)

theorem made_removeNode (e : Entity) : TxMade cl cr c mN mE (removeNode cl cr e) :=
  made_andThen (made_lookupEntity e) (fun _ => made_onGraph (Sled.madeOf_removeNode _))

theorem made_removeNodePieces (fs bs : List Nat) (e : Entity) : TxMade cl cr c mN mE (removeNodePieces cl cr fs bs e) :=
  made_andThen (made_lookupEntity e) (fun _ => made_onGraph (Sled.madeOf_removeNodePieces _ _ _))

theorem made_removeEdge (t : Triple Entity) : TxMade cl cr c mN mE (removeEdge cl cr t) :=
  made_andThen (made_tryMap made_lookupEntity t) (fun _ => made_onGraph (Sled.madeOf_removeEdge _))

theorem made_absorb {f : α → Task Unit} (hf : ∀ a, TxMade cl cr c mN mE (f a))
    {k : Ids → Prog RdfDb (Ids × Except (LR Err E) Unit)} (hk : ∀ i, (k i).MadeOf (Closure cl cr c mN mE)) (l : List (Except E α))
    (i : Ids) : (absorb f k l i).MadeOf (Closure cl cr c mN mE) := by
  induction l generalizing i with
  | nil => exact hk i
  | cons r l ih =>
    cases r with
    | error e => trivial
    | ok a =>
      refine Tx.madeOf_bind (hf a i) (fun r => ?_)
      split
      · trivial
      · exact ih _

theorem madeOf_single {m : Task Unit} (hm : TxMade cl cr c mN mE m) (i : Ids) :
    (single (E := E) m i).MadeOf (Closure cl cr c mN mE) :=
  Tx.madeOf_bind (hm i) (fun _ => trivial)

theorem madeOf_prog (op : Op E Entity NP EP) (i : Ids) : (prog cl cr c mN mE op i).MadeOf (Closure cl cr c mN mE) := by
  cases op with
  | insertNode e p => exact madeOf_single (made_insertNode e p) i
  | insertEdge t p => exact madeOf_single (made_insertEdge t p) i
  | removeNode e => exact madeOf_single (made_removeNode e) i
  | removeEdge t => exact madeOf_single (made_removeEdge t) i
  | mergeNode e p => exact madeOf_single (made_mergeNode e p) i
  | mergeEdge t p => exact madeOf_single (made_mergeEdge t p) i
  | extend src => exact made_absorb (fun _ => made_insertNode _ _) (made_absorb (fun _ => made_insertEdge _ _)
      (fun _ => Tx.madeOf_ret _) _) _ i
  | merge src => exact made_absorb (fun _ => made_mergeNode _ _) (made_absorb (fun _ => made_mergeEdge _ _)
      (fun _ => Tx.madeOf_ret _) _) _ i

theorem madeOf_call (x : Call E NP EP) : (x.prog cl cr c mN mE).MadeOf (Closure cl cr c mN mE) :=
  Tx.madeOf_bind (madeOf_prog _ _) (fun _ => trivial)

theorem madeOf_pieceCall (x : PieceCall E NP EP) : (x.prog cl cr c mN mE).MadeOf (Closure cl cr c mN mE) := by
  unfold PieceCall.prog
  split
  · exact Tx.madeOf_bind (madeOf_single (made_removeNodePieces _ _ _) _) (fun _ => trivial)
  · exact madeOf_call _

end RdfSled

end Verif
