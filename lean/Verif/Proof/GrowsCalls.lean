import Verif.Proof.Grows

/-! # How much the trees can grow: the API -/

namespace Verif

open Spec ConcreteId

theorem has_insert {t : Tree} {k v a : Bytes} (h : (t.insert k v).get a ≠ none) : t.get a ≠ none ∨ a = k := by
  rw [BMap.get_insert] at h
  split at h
  · exact .inr ‹_›
  · exact .inl h

theorem has_erase {t : Tree} {k a : Bytes} (h : (t.erase k).get a ≠ none) : t.get a ≠ none := by
  rw [BMap.get_erase] at h
  split at h
  · exact absurd rfl h
  · exact h

namespace Sled

variable {Id NP EP E : Type} [LinearOrder Id] [ConcreteId Id] {c : Codecs NP EP} {mN : NP → NP → NP} {mE : EP → EP → EP}

open Prog (Adds)

theorem has_applyBatch {ks : List Bytes} {t : Tree} {a : Bytes} (h : (applyBatch t ks).get a ≠ none) : t.get a ≠ none := by
  induction ks generalizing t with
  | nil => exact h
  | cons k ks ih => exact has_erase (ih h)

theorem adds_transaction_none {tree : Db → Tree} {f : Db → Except SErr Db} {n : Nat}
    (h : ∀ d d', f d = .ok d' → ∀ a, (tree d').get a ≠ none → (tree d).get a ≠ none) : (transaction f).Adds tree n := by
  refine .nothing (fun d a ha => ?_) (fun _ => trivial)
  cases e : f d with
  | error _ => simp only [e] at ha; exact ha
  | ok d' => simp only [e] at ha; exact h d d' e a ha

theorem adds_transaction {tree : Db → Tree} {f : Db → Except SErr Db} (b : Bytes)
    (h : ∀ d d', f d = .ok d' → ∀ a, (tree d').get a ≠ none → (tree d).get a ≠ none ∨ a = b) : (transaction f).Adds tree 1 := by
  refine .one (n := 0) b (fun d a ha => ?_) (fun _ => trivial)
  cases e : f d with
  | error _ => simp only [e] at ha; exact .inl ha
  | ok d' => simp only [e] at ha; exact h d d' e a ha

/-- the number of entries an insertion into the nodes, or the edges, adds -/
def inNodes (t : DbTree) : Nat := if t = .nodeProps then 1 else 0
def inEdges (t : DbTree) : Nat := if t = .nodeProps then 0 else 1

theorem adds_node {t : DbTree} {α : Type} {n : Nat} {k : Db → Prog Db α} (key : Bytes) {b : Bytes} (hk : ∀ d, (k d).Adds t.tree n) :
    (Prog.call (fun d => { d with nodeProps := d.nodeProps.insert key b }) k).Adds t.tree (n + inNodes t) := by
  cases t with
  | nodeProps => exact .one key (fun d a ha => has_insert ha) hk
  | _ => exact .nothing (fun d a ha => ha) hk

theorem adds_insertNode (t : DbTree) (n : Id) (p : NP) : (insertNode c n p).Adds t.tree (inNodes t) := by
  unfold insertNode
  split
  · trivial
  · exact (adds_node (t := t) (n := 0) _ (fun _ => Adds.ret _)).mono (by omega)

theorem adds_mergeNode (t : DbTree) (n : Id) (p : NP) : (mergeNode c mN n p).Adds t.tree (inNodes t) := by
  have key : ∀ d d' : Db, (match d.nodeProps.get (toBeBytes n).1 with
      | none =>
        match c.n.ser p with
        | none => .error .serialization
        | some b => .ok { d with nodeProps := d.nodeProps.insert (toBeBytes n).1 b }
      | some v =>
        match c.n.de v with
        | none => .error .serialization
        | some old =>
          match c.n.ser (mN old p) with
          | none => .error .serialization
          | some b => .ok { d with nodeProps := d.nodeProps.insert (toBeBytes n).1 b } : Except SErr Db) = .ok d' →
      ∃ b, d' = { d with nodeProps := d.nodeProps.insert (toBeBytes n).1 b } := by
    intro d d' h
    split at h
    · split at h
      · cases h
      · cases h; exact ⟨_, rfl⟩
    · split at h
      · cases h
      · split at h
        · cases h
        · cases h; exact ⟨_, rfl⟩
  cases t with
  | nodeProps =>
    refine adds_transaction (toBeBytes n).1 (fun d d' h a ha => ?_)
    obtain ⟨b, rfl⟩ := key d d' h
    exact has_insert ha
  | _ =>
    refine adds_transaction_none (fun d d' h a ha => ?_)
    obtain ⟨b, rfl⟩ := key d d' h
    exact ha

theorem adds_insertEdge (t : DbTree) (i : Id) (y : Triple Id) (p : EP) : (insertEdge c i y p).Adds t.tree (inEdges t) := by
  unfold insertEdge
  split
  · trivial
  · cases t with
    | nodeProps => exact adds_transaction_none (fun d d' h a ha => by cases h; exact ha)
    | edgeProps => exact adds_transaction (toBeBytes i).1 (fun d d' h a ha => by cases h; exact has_insert ha)
    | spo => exact adds_transaction (encodeSpo y).1 (fun d d' h a ha => by cases h; exact has_insert ha)
    | pos => exact adds_transaction (encodePos y).1 (fun d d' h a ha => by cases h; exact has_insert ha)
    | osp => exact adds_transaction (encodeOsp y).1 (fun d d' h a ha => by cases h; exact has_insert ha)

theorem mergeEdge_ok {i : Id} {t : Triple Id} {p : EP} :
    ∃ f, mergeEdge c mE i t p = transaction f ∧ ∀ d d' : Db, f d = .ok d' →
      d'.nodeProps = d.nodeProps ∧ d'.spo = d.spo.insert (encodeSpo t).1 (toBeBytes i).1 ∧
      d'.pos = d.pos.insert (encodePos t).1 (toBeBytes i).1 ∧ d'.osp = d.osp.insert (encodeOsp t).1 (toBeBytes i).1 ∧
      ∀ a, d'.edgeProps.get a ≠ none → d.edgeProps.get a ≠ none ∨ a = (toBeBytes i).1 := by
  refine ⟨_, rfl, fun d d' h => ?_⟩
  simp only at h
  split at h
  · split at h
    · cases h
    · cases h; exact ⟨rfl, rfl, rfl, rfl, fun a ha => has_insert ha⟩
  · split at h
    · split at h
      · cases h
      · cases h; exact ⟨rfl, rfl, rfl, rfl, fun a ha => (has_insert ha).imp has_erase id⟩
    · split at h
      · cases h
      · split at h
        · cases h
        · cases h; exact ⟨rfl, rfl, rfl, rfl, fun a ha => (has_insert ha).imp has_erase id⟩

theorem adds_mergeEdge (t : DbTree) (i : Id) (y : Triple Id) (p : EP) : (mergeEdge c mE i y p).Adds t.tree (inEdges t) := by
  obtain ⟨f, e, hf⟩ := mergeEdge_ok (c := c) (mE := mE) (i := i) (t := y) (p := p)
  rw [e]
  cases t with
  | nodeProps => exact adds_transaction_none (fun d d' h a ha => by rw [DbTree.tree, (hf d d' h).1] at ha; exact ha)
  | edgeProps => exact adds_transaction (toBeBytes i).1 (fun d d' h a ha => (hf d d' h).2.2.2.2 a ha)
  | spo => exact adds_transaction (encodeSpo y).1 (fun d d' h a ha => by rw [DbTree.tree, (hf d d' h).2.1] at ha; exact has_insert ha)
  | pos => exact adds_transaction (encodePos y).1 (fun d d' h a ha => by rw [DbTree.tree, (hf d d' h).2.2.1] at ha; exact has_insert ha)
  | osp =>
    exact adds_transaction (encodeOsp y).1 (fun d d' h a ha => by rw [DbTree.tree, (hf d d' h).2.2.2.1] at ha; exact has_insert ha)

theorem adds_removeNodeScanned (t : DbTree) (n : Id) (fwd bwd : List (Bytes × Bytes)) : (removeNodeScanned n fwd bwd).Adds t.tree 0 := by
  unfold removeNodeScanned
  split
  · trivial
  · split
    · trivial
    · refine adds_transaction_none (fun d d' h a ha => ?_)
      cases h
      cases t with
      | nodeProps => exact has_erase ha
      | _ => exact has_applyBatch (has_applyBatch ha)

theorem adds_scanPieces {α : Type} (t : DbTree) (tree : Db → Tree) {n m : Nat} (b : Bound (ByteArr n) × Bound (ByteArr n))
    {k : List (Bytes × Bytes) → Prog Db α} (hk : ∀ l, (k l).Adds t.tree m) (ss : List Nat) (cur : Option Bytes)
    (acc : List (Bytes × Bytes)) : (scanPieces tree b k ss cur acc).Adds t.tree m := by
  induction ss generalizing cur acc with
  | nil => exact .nothing (fun d a ha => ha) (fun d => hk _)
  | cons s ss ih => exact .nothing (fun d a ha => ha) (fun d => ih _ _)

theorem adds_removeNodePieces (t : DbTree) (fs bs : List Nat) (n : Id) : (removeNodePieces fs bs n).Adds t.tree 0 :=
  adds_scanPieces _ _ _ (fun _ => adds_scanPieces _ _ _ (fun _ => adds_removeNodeScanned t n _ _) _ _ _) _ _ _

theorem adds_removeEdge (t : DbTree) (y : Triple Id) : (removeEdge y).Adds t.tree 0 := by
  refine .nothing (fun d a ha => ?_) (fun _ => .nothing (fun d a ha => ?_) (fun d1 => .nothing (fun d a ha => ?_) (fun _ =>
    .nothing (fun d a ha => ?_) (fun _ => ?_))))
  · cases t with
    | nodeProps => exact ha
    | edgeProps =>
      simp only [DbTree.tree] at ha ⊢
      split at ha
      · exact has_erase ha
      · exact ha
    | _ => exact has_erase ha
  · cases t with
    | spo => exact has_erase ha
    | _ => exact ha
  · cases t with
    | pos => exact has_erase ha
    | _ => exact ha
  · cases t with
    | osp => exact has_erase ha
    | _ => exact ha
  · split
    · refine .nothing (fun d a ha => ?_) (fun _ => trivial)
      cases t with
      | edgeProps => exact has_erase ha
      | _ => exact ha
    · trivial

theorem adds_mergeNodes {α : Type} {m : Nat} (t : DbTree) {k : Except (LR SErr E) Unit → Prog Db α} (l : List (Except E (Id × NP)))
    (he : ∀ e, (k (.error e)).Adds t.tree 0) (hk : fails l = false → (k (.ok ())).Adds t.tree m) :
    (mergeNodes c mN k l).Adds t.tree ((oks l).length * inNodes t + if fails l then 0 else m) := by
  induction l with
  | nil => exact (hk rfl).mono (by simp [fails])
  | cons r l ih =>
    cases r with
    | error e => exact (he _).mono (by omega)
    | ok x =>
      refine ((adds_mergeNode t x.1 x.2).bind (m := (oks l).length * inNodes t + if fails l then 0 else m) fun r => ?_).mono ?_
      · cases r with
        | error e => exact (he _).mono (by omega)
        | ok _ => exact ih hk
      · show inNodes t + ((oks l).length * inNodes t + if fails l then 0 else m) ≤
          ((oks l).length + 1) * inNodes t + if fails l then 0 else m
        rw [Nat.succ_mul]; omega

theorem adds_mergeEdges (t : DbTree) (l : List (Except E (Triple Id × EP))) (g : Gen Id) :
    (mergeEdges c mE g l).Adds t.tree ((oks l).length * inEdges t) := by
  induction l generalizing g with
  | nil => trivial
  | cons r l ih =>
    cases r with
    | error e => trivial
    | ok x =>
      refine ((adds_mergeEdge t _ x.1 x.2).bind (m := (oks l).length * inEdges t) fun r => ?_).mono ?_
      · cases r with
        | error e => trivial
        | ok _ => exact ih _
      · simp only [oks, List.length_cons, Nat.succ_mul]; omega

theorem adds_extendNodes {α : Type} {m : Nat} (t : DbTree) {k : Except (LR SErr E) Unit → Prog Db α} (l : List (Except E (Id × NP)))
    (he : ∀ e, (k (.error e)).Adds t.tree 0) (hk : fails l = false → (k (.ok ())).Adds t.tree m) :
    (extendNodes c k l).Adds t.tree ((oks l).length * inNodes t + if fails l then 0 else m) := by
  induction l with
  | nil => exact (hk rfl).mono (by simp [fails])
  | cons r l ih =>
    cases r with
    | error e => exact (he _).mono (by omega)
    | ok x =>
      unfold extendNodes
      cases c.n.ser x.2 with
      | none => exact (he _).mono (by omega)
      | some b =>
        refine (adds_node (n := (oks l).length * inNodes t + if fails l then 0 else m) _ fun _ => ih hk).mono ?_
        show (oks l).length * inNodes t + (if fails l then 0 else m) + inNodes t ≤
          ((oks l).length + 1) * inNodes t + if fails l then 0 else m
        rw [Nat.succ_mul]; omega

theorem adds_extendEdges (t : DbTree) (l : List (Except E (Triple Id × EP))) (u : Gen Ulid) :
    (extendEdges c u l).Adds t.tree ((oks l).length * inEdges t) := by
  induction l generalizing u with
  | nil => trivial
  | cons r l ih =>
    cases r with
    | error e => trivial
    | ok x =>
      have last : ∀ (o : Option Bytes) (u : Gen Ulid), Adds t.tree (match o with
          | some o => .call (fun d => { d with edgeProps := d.edgeProps.erase o }) (fun _ => extendEdges c u l)
          | none => extendEdges c u l : Prog Db (Gen Ulid × Except (LR SErr E) Unit)) ((oks l).length * inEdges t) := by
        intro o u
        cases o with
        | none => exact ih u
        | some o =>
          refine .nothing (fun d a ha => ?_) (fun _ => ih u)
          cases t with
          | edgeProps => exact has_erase ha
          | _ => exact ha
      unfold extendEdges
      simp only
      split
      · trivial
      · rw [show (oks (.ok x :: l)).length * inEdges t = (oks l).length * inEdges t + inEdges t by
          simp only [oks, List.length_cons, Nat.succ_mul]]
        cases t with
        | nodeProps =>
          exact .nothing (fun d a ha => ha) (fun _ => .nothing (fun d a ha => ha) (fun _ => .nothing (fun d a ha => ha)
            (fun _ => .nothing (fun d a ha => ha) (fun _ => last _ _))))
        | edgeProps =>
          exact .one _ (fun d a ha => has_insert ha) (fun _ => .nothing (fun d a ha => ha) (fun _ => .nothing (fun d a ha => ha)
            (fun _ => .nothing (fun d a ha => ha) (fun _ => last _ _))))
        | spo =>
          exact .nothing (fun d a ha => ha) (fun _ => .one _ (fun d a ha => has_insert ha) (fun _ => .nothing (fun d a ha => ha)
            (fun _ => .nothing (fun d a ha => ha) (fun _ => last _ _))))
        | pos =>
          exact .nothing (fun d a ha => ha) (fun _ => .nothing (fun d a ha => ha) (fun _ => .one _ (fun d a ha => has_insert ha)
            (fun _ => .nothing (fun d a ha => ha) (fun _ => last _ _))))
        | osp =>
          exact .nothing (fun d a ha => ha) (fun _ => .nothing (fun d a ha => ha) (fun _ => .nothing (fun d a ha => ha)
            (fun _ => .one _ (fun d a ha => has_insert ha) (fun _ => last _ _))))

theorem inNodes_inEdges (t : DbTree) (f : Bool) (n m : Nat) :
    n * inNodes t + (if f then 0 else m * inEdges t) = if t = .nodeProps then n else if f then 0 else m := by
  unfold inNodes inEdges
  by_cases h : t = .nodeProps
  · simp [h]
  · simp [h]

theorem adds_pieceCall (t : DbTree) (x : PieceCall E Id NP EP) : (x.prog c mN mE).Adds t.tree (x.adds t) := by
  obtain ⟨x, ss⟩ := x
  cases x with
  | removeNode n => exact (adds_removeNodePieces t _ _ n).drop
  | insertNode n p => exact (adds_insertNode t n p).drop
  | insertEdge i y p => exact (adds_insertEdge t i y p).drop
  | removeNodeScan n fwd bwd => exact (adds_removeNodeScanned t n fwd bwd).drop
  | removeEdge y => exact (adds_removeEdge t y).drop
  | mergeNode n p => exact (adds_mergeNode t n p).drop
  | mergeEdge i y p => exact (adds_mergeEdge t i y p).drop
  | extend u src =>
    have h : (extend c u src).Adds t.tree ((oks src.nodes).length * inNodes t + if fails src.nodes then 0 else (oks src.edges).length * inEdges t) :=
      adds_extendNodes t _ (fun _ => trivial) (fun _ => adds_extendEdges t _ _)
    rw [inNodes_inEdges] at h
    exact h.drop
  | merge g src =>
    have h : (merge c mN mE g src).Adds t.tree
        ((oks src.nodes).length * inNodes t + if fails src.nodes then 0 else (oks src.edges).length * inEdges t) :=
      adds_mergeNodes t _ (fun _ => trivial) (fun _ => adds_mergeEdges t _ _)
    rw [inNodes_inEdges] at h
    exact h.drop

end Sled

namespace RdfSled

variable {NP EP E α β : Type} {cl : Codec String} {cr : Codec Ulid} {c : Codecs NP EP} {mN : NP → NP → NP} {mE : EP → EP → EP}

open Prog (Adds)

/-- a function of the name index: `a` new keys in each of its trees, none in the others -/
theorem adds_onNames {p : Prog IndexDb α} (t : IndexTree ⊕ DbTree) {n : Nat} (h : ∀ t : IndexTree, p.Adds t.tree n) :
    p.onNames.Adds (tree t) (t.elim (fun _ => n) (fun _ => 0)) := by
  cases t with
  | inl t =>
    replace h := h t
    induction p generalizing n with
    | ret a => trivial
    | call f k ih =>
      intro d
      rcases h d.names with ⟨h1, h2⟩ | ⟨m, b, rfl, h1, h2⟩
      · exact .inl ⟨h1, ih _ h2⟩
      · exact .inr ⟨m, b, rfl, h1, ih _ h2⟩
  | inr t =>
    clear h
    induction p with
    | ret a => trivial
    | call f k ih => exact .nothing (fun d a ha => ha) (fun d => ih _)

theorem adds_onData {p : Prog Db α} (t : IndexTree ⊕ DbTree) {n : DbTree → Nat} (h : ∀ t : DbTree, p.Adds t.tree (n t)) :
    p.onData.Adds (tree t) (t.elim (fun _ => 0) n) := by
  cases t with
  | inr t =>
    replace h := h t
    simp only [Sum.elim_inr]
    generalize n t = m at h ⊢
    clear n
    induction p generalizing m with
    | ret a => trivial
    | call f k ih =>
      intro d
      rcases h d.data with ⟨h1, h2⟩ | ⟨m, b, rfl, h1, h2⟩
      · exact .inl ⟨h1, ih _ _ h2⟩
      · exact .inr ⟨m, b, rfl, h1, ih _ _ h2⟩
  | inl t =>
    clear h
    induction p with
    | ret a => trivial
    | call f k ih => exact .nothing (fun d a ha => ha) (fun d => ih _)

/-- the same whatever ids are drawn -/
def AddsNew (t : IndexTree ⊕ DbTree) (n : Nat) (m : Task α) : Prop := ∀ i, (m i).Adds (tree t) n

variable {t : IndexTree ⊕ DbTree}

theorem new_andThen {n m : Nat} {x : Task α} {f : α → Task β} (ht : AddsNew t n x) (hf : ∀ a, AddsNew t m (f a)) :
    AddsNew t (n + m) (x.andThen f) := by
  intro i
  refine (ht i).bind (fun r => ?_)
  split
  · trivial
  · exact hf _ _

theorem new_done (a : α) : AddsNew t 0 (done a) := fun _ => trivial

theorem new_onIndex {n : Nat} {p : Prog IndexDb (Except (SledIndexErr String Ulid) α)} (hp : ∀ t : IndexTree, p.Adds t.tree n) :
    AddsNew t (t.elim (fun _ => n) (fun _ => 0)) (onIndex p) := fun _ => (adds_onNames t hp).drop

theorem new_onGraph {n : DbTree → Nat} {p : Prog Db (Except SErr Unit)} (hp : ∀ t : DbTree, p.Adds t.tree (n t)) :
    AddsNew t (t.elim (fun _ => 0) n) (onGraph p) := fun _ => (adds_onData t hp).drop

theorem adds_leftToRight (s : String) (t : IndexTree) : (SledIndex.leftToRightProg cl cr s).Adds t.tree 0 := by
  unfold SledIndex.leftToRightProg
  split
  · trivial
  · exact .nothing (fun d a ha => ha) (fun _ => trivial)

theorem adds_set (s : String) (u : Ulid) (t : IndexTree) : (SledIndex.setProg cl cr s u).Adds t.tree 1 := by
  unfold SledIndex.setProg
  split
  · trivial
  · rename_i lb _
    split
    · trivial
    · rename_i rb _
      have key : ∀ d d' : IndexDb, SledIndex.setTx cl cr s u lb rb d = .ok d' →
          d'.leftToRight = d.leftToRight.insert lb rb ∧ d'.rightToLeft = d.rightToLeft.insert rb lb := by
        intro d d' h
        unfold SledIndex.setTx at h
        split at h
        · split at h <;> cases h
        · simp only at h
          split at h
          · split at h <;> cases h
          · cases h; exact ⟨rfl, rfl⟩
      cases t with
      | leftToRight =>
        refine .one (n := 0) lb (fun d a ha => ?_) (fun _ => trivial)
        cases e : SledIndex.setTx cl cr s u lb rb d with
        | error _ => simp only [e] at ha; exact .inl ha
        | ok d' =>
          simp only [e, IndexTree.tree] at ha
          rw [(key d d' e).1] at ha
          exact has_insert ha
      | rightToLeft =>
        refine .one (n := 0) rb (fun d a ha => ?_) (fun _ => trivial)
        cases e : SledIndex.setTx cl cr s u lb rb d with
        | error _ => simp only [e] at ha; exact .inl ha
        | ok d' =>
          simp only [e, IndexTree.tree] at ha
          rw [(key d d' e).2] at ha
          exact has_insert ha

/-- in the trees of the index only -/
def inNames (t : IndexTree ⊕ DbTree) (n : Nat) : Nat := t.elim (fun _ => n) (fun _ => 0)

theorem inNames_add (n m : Nat) : inNames t (n + m) = inNames t n + inNames t m := by cases t <;> rfl

theorem new_lookup (e : Entity) : AddsNew t 0 (lookupEntity cl cr e) := by
  cases e with
  | string s =>
    intro i
    have h := new_andThen (t := t) (m := 0) (new_onIndex (fun t => adds_leftToRight (cl := cl) (cr := cr) s t)) (f := fun o => match o with
      | some id => done id
      | none => fun i => .ret (i, .error (.nameNotFound s))) (fun o => by
        cases o with
        | some id => exact fun _ => trivial
        | none => exact fun _ => trivial)
    exact (h i).mono (by cases t <;> simp)
  | ulid id => exact new_done id

theorem new_lookupOrCreate (e : Entity) : AddsNew t (inNames t (namesIn [e])) (lookupOrCreateEntity cl cr e) := by
  cases e with
  | string s =>
    intro i
    refine (new_andThen (t := t) (m := inNames t 1) (new_onIndex (fun t => adds_leftToRight s t)) (fun o => ?_) i).mono
      (by cases t <;> simp [inNames, namesIn])
    cases o with
    | some id => exact fun _ => trivial
    | none =>
      intro i
      exact new_andThen (m := 0) (new_onIndex (fun t => adds_set s _ t)) (fun _ => new_done _) _
  | ulid id => exact fun _ => trivial

theorem new_tryMap {f : Entity → Task Ulid} {w : Entity → Nat} (hf : ∀ e, AddsNew t (w e) (f e)) (y : Triple Entity) :
    AddsNew t (w y.sub + (w y.pred + w y.obj)) (tryMap f y) :=
  new_andThen (hf _) (fun _ => new_andThen (hf _) (fun _ => new_andThen (m := 0) (hf _) (fun _ => new_done _)))

theorem new_tryCreate (y : Triple Entity) : AddsNew t (inNames t (namesIn (RdfState.parts y))) (tryMap (lookupOrCreateEntity cl cr) y) := by
  rw [namesIn_parts, inNames_add, inNames_add]
  exact new_tryMap new_lookupOrCreate y

/-- for a node, for an edge -/
def nodeNew (t : IndexTree ⊕ DbTree) (e : Entity) : Nat := t.elim (fun _ => namesIn [e]) Sled.inNodes
def edgeNew (t : IndexTree ⊕ DbTree) (y : Triple Entity) : Nat := t.elim (fun _ => namesIn (RdfState.parts y)) Sled.inEdges

theorem new_insertNode (e : Entity) (p : NP) : AddsNew t (nodeNew t e) (insertNode cl cr c e p) := fun i =>
  (new_andThen (new_lookupOrCreate e) (fun _ => new_onGraph (fun t => Sled.adds_insertNode t _ _)) i).mono
    (by cases t <;> simp [inNames, nodeNew])

theorem new_mergeNode (e : Entity) (p : NP) : AddsNew t (nodeNew t e) (mergeNode cl cr c mN e p) := fun i =>
  (new_andThen (new_lookupOrCreate e) (fun _ => new_onGraph (fun t => Sled.adds_mergeNode t _ _)) i).mono
    (by cases t <;> simp [inNames, nodeNew])

theorem new_insertEdge (y : Triple Entity) (p : EP) : AddsNew t (edgeNew t y) (insertEdge cl cr c y p) := fun i =>
  (new_andThen (new_tryCreate y) (fun _ _ => new_onGraph (fun t => Sled.adds_insertEdge t _ _ _) _) i).mono
    (by cases t <;> simp [inNames, edgeNew])

theorem new_mergeEdge (y : Triple Entity) (p : EP) : AddsNew t (edgeNew t y) (mergeEdge cl cr c mE y p) := fun i =>
  (new_andThen (new_tryCreate y) (fun _ _ => new_onGraph (fun t => Sled.adds_mergeEdge t _ _ _) _) i).mono
    (by cases t <;> simp [inNames, edgeNew])

theorem new_removeNodePieces (fs bs : List Nat) (e : Entity) : AddsNew t 0 (removeNodePieces cl cr fs bs e) := fun i =>
  (new_andThen (new_lookup e) (fun _ => new_onGraph (fun t => Sled.adds_removeNodePieces t _ _ _)) i).mono (by cases t <;> simp)

theorem new_removeEdge (y : Triple Entity) : AddsNew t 0 (removeEdge cl cr y) := fun i =>
  (new_andThen (new_tryMap (w := fun _ => 0) new_lookup y) (fun _ => new_onGraph (fun t => Sled.adds_removeEdge t _)) i).mono
    (by cases t <;> simp)

theorem new_absorb {f : α → Task Unit} {w : α → Nat} (hf : ∀ a, AddsNew t (w a) (f a)) {m : Nat}
    {k : Ids → Prog RdfDb (Ids × Except (LR Err E) Unit)} (l : List (Except E α)) (hk : fails l = false → ∀ i, (k i).Adds (tree t) m)
    (i : Ids) : (absorb f k l i).Adds (tree t) (((oks l).map w).sum + if fails l then 0 else m) := by
  induction l generalizing i with
  | nil => exact (hk rfl i).mono (by simp [fails])
  | cons r l ih =>
    cases r with
    | error e => trivial
    | ok a =>
      refine ((hf a i).bind (m := ((oks l).map w).sum + if fails l then 0 else m) fun r => ?_).mono ?_
      · obtain ⟨i', r⟩ := r
        cases r with
        | error e => trivial
        | ok _ => exact ih hk _
      · show w a + (((oks l).map w).sum + if fails l then 0 else m) ≤ (w a + ((oks l).map w).sum) + if fails l then 0 else m
        omega

theorem new_single {n : Nat} {m : Task Unit} (hm : AddsNew t n m) (i : Ids) : (single (E := E) m i).Adds (tree t) n := (hm i).drop

theorem sum_const {A : Type} (l : List A) (n : Nat) : (l.map (fun _ => n)).sum = l.length * n := by simp

theorem adds_source (src : Source E Entity NP EP) :
    ((oks src.nodes).map (fun y => nodeNew t y.1)).sum + (if fails src.nodes then 0 else ((oks src.edges).map (fun y => edgeNew t y.1)).sum) =
    t.elim (fun _ => ((oks src.nodes).map (fun y => namesIn [y.1])).sum +
        if fails src.nodes then 0 else ((oks src.edges).map (fun y => namesIn (RdfState.parts y.1))).sum)
      (fun t => if t = .nodeProps then (oks src.nodes).length else if fails src.nodes then 0 else (oks src.edges).length) := by
  cases t with
  | inl t => rfl
  | inr t =>
    have := Sled.inNodes_inEdges t (fails src.nodes) (oks src.nodes).length (oks src.edges).length
    simp only [nodeNew, edgeNew, Sum.elim_inr]
    rw [sum_const, sum_const, this]

theorem adds_pieceCall (t : IndexTree ⊕ DbTree) (x : PieceCall E NP EP) : (x.prog cl cr c mN mE).Adds (tree t) (x.adds t) := by
  obtain ⟨⟨op, i⟩, ss⟩ := x
  cases op with
  | removeNode e => exact ((new_single (new_removeNodePieces _ _ e) i).drop).mono (Nat.zero_le _)
  | insertNode e p => cases t <;> exact (new_single (new_insertNode e p) i).drop
  | insertEdge y p => cases t <;> exact (new_single (new_insertEdge y p) i).drop
  | removeEdge y => exact ((new_single (new_removeEdge y) i).drop).mono (Nat.zero_le _)
  | mergeNode e p => cases t <;> exact (new_single (new_mergeNode e p) i).drop
  | mergeEdge y p => cases t <;> exact (new_single (new_mergeEdge y p) i).drop
  | extend src =>
    have h := (new_absorb (t := t) (m := ((oks src.edges).map (fun y => edgeNew t y.1)).sum)
      (fun y => new_insertNode (cl := cl) (cr := cr) (c := c) y.1 y.2) src.nodes (fun _ i =>
      (new_absorb (t := t) (m := 0) (fun y => new_insertEdge (cl := cl) (cr := cr) (c := c) y.1 y.2) src.edges
        (k := fun i => .ret (i, .ok ())) (fun _ _ => trivial) i).mono (by split <;> omega)) i).drop (g := fun _ => ())
    rw [adds_source] at h
    cases t <;> exact h
  | merge src =>
    have h := (new_absorb (t := t) (m := ((oks src.edges).map (fun y => edgeNew t y.1)).sum)
      (fun y => new_mergeNode (cl := cl) (cr := cr) (c := c) (mN := mN) y.1 y.2) src.nodes (fun _ i =>
      (new_absorb (t := t) (m := 0) (fun y => new_mergeEdge (cl := cl) (cr := cr) (c := c) (mE := mE) y.1 y.2) src.edges
        (k := fun i => .ret (i, .ok ())) (fun _ _ => trivial) i).mono (by split <;> omega)) i).drop (g := fun _ => ())
    rw [adds_source] at h
    cases t <;> exact h

end RdfSled

end Verif
