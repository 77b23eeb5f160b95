import Verif.Spec.RdfSledScan
import Verif.Proof.RdfSledNames
import Verif.Proof.SledBulk
import Verif.Proof.SledWell

/-! # Which ids occur in a database -/

namespace Verif

open Spec ConcreteId

namespace Sled

variable {Id NP EP E α β : Type} [LinearOrder Id] [ConcreteId Id] [LawfulId Id] {c : Codecs NP EP} {P : Id → Prop}

/-- the ids in use are those there were before, and some others -/
def NewIn (P : Id → Prop) (d d' : Db) : Prop := ∀ u, Uses d' u → Uses d u ∨ P u

theorem NewIn.refl (d : Db) : NewIn P d d := fun _ h => .inl h

theorem NewIn.trans {d d' d'' : Db} (h : NewIn P d d') (h' : NewIn P d' d'') : NewIn P d d'' := fun u hu =>
  (h' u hu).elim (h u) .inr

/-- fewer keys -/
theorem newIn_sub {d d' : Db} (hn : ∀ k, d'.nodeProps.get k ≠ none → d.nodeProps.get k ≠ none)
    (ht : ∀ o k, (d'.tree o).get k ≠ none → (d.tree o).get k ≠ none) : NewIn P d d' := by
  rintro u (h | ⟨o, t, h, hu⟩)
  · exact .inl (.inl (hn _ h))
  · exact .inl (.inr ⟨o, t, ht o _ h, hu⟩)

theorem ne_of_some {t t' : Tree} (h : ∀ k b, t'.get k = some b → t.get k = some b) {k : Bytes} (hk : t'.get k ≠ none) :
    t.get k ≠ none := by
  obtain ⟨b, hb⟩ := Option.ne_none_iff_exists'.1 hk
  rw [h k b hb]
  simp

theorem newIn_node (d : Db) {n : Id} (b : Bytes) (h : P n) :
    NewIn P d { d with nodeProps := d.nodeProps.insert (toBeBytes n).1 b } := by
  rintro u (hu | hu)
  · dsimp only at hu
    rw [BMap.get_insert] at hu
    split at hu
    · rename_i e
      rw [toBe_inj.1 e]
      exact .inr h
    · exact .inl (.inl hu)
  · exact .inl (.inr (by obtain ⟨o, t, h1, h2⟩ := hu; exact ⟨o, t, by cases o <;> exact h1, h2⟩))

theorem newIn_edge (d : Db) {t : Triple Id} (i : Bytes) (e : Tree) (hs : P t.sub) (hp : P t.pred) (ho : P t.obj) :
    NewIn P d { d with
      edgeProps := e
      spo := d.spo.insert (encodeSpo t).1 i
      pos := d.pos.insert (encodePos t).1 i
      osp := d.osp.insert (encodeOsp t).1 i } := by
  rintro u (hu | ⟨o, t', h1, h2⟩)
  · exact .inl (.inl hu)
  · have e : ((d.tree o).insert (encOf o t).1 i).get (encOf o t').1 ≠ none := by cases o <;> exact h1
    rw [BMap.get_insert] at e
    split at e
    · rename_i e'
      obtain rfl := (encOf_inj o).1 e'
      right
      rcases h2 with rfl | rfl | rfl <;> assumption
    · exact .inl (.inr ⟨o, t', e, h2⟩)

abbrev New (P : Id → Prop) (p : Prog Db α) : Prop := p.Keeps (NewIn P)

theorem new_transaction {f : Db → Except SErr Db} (h : ∀ d d', f d = .ok d' → NewIn P d d') : New P (transaction f) := by
  refine ⟨fun d => ?_, fun d => trivial⟩
  dsimp only
  cases e : f d with
  | ok d' => exact h d d' e
  | error x => exact .refl d

theorem new_insertNode {n : Id} (p : NP) (h : P n) : New P (insertNode c n p) := by
  unfold insertNode
  split
  · trivial
  · exact ⟨fun d => newIn_node d _ h, fun _ => trivial⟩

theorem new_mergeNode (mN : NP → NP → NP) {n : Id} (p : NP) (h : P n) : New P (mergeNode c mN n p) := by
  refine new_transaction (fun d d' hd => ?_)
  split at hd
  · split at hd
    · cases hd
    · cases hd; exact newIn_node d _ h
  · split at hd
    · cases hd
    · split at hd
      · cases hd
      · cases hd; exact newIn_node d _ h

theorem new_insertEdge (i : Id) {t : Triple Id} (p : EP) (hs : P t.sub) (hp : P t.pred) (ho : P t.obj) :
    New P (insertEdge c i t p) := by
  unfold insertEdge
  split
  · trivial
  · refine new_transaction (fun d d' hd => ?_)
    cases hd
    exact newIn_edge d _ _ hs hp ho

theorem new_mergeEdge (mE : EP → EP → EP) (i : Id) {t : Triple Id} (p : EP) (hs : P t.sub) (hp : P t.pred) (ho : P t.obj) :
    New P (mergeEdge c mE i t p) := by
  refine new_transaction (fun d d' hd => ?_)
  dsimp only at hd
  split at hd
  · split at hd
    · cases hd
    · cases hd; exact newIn_edge d _ _ hs hp ho
  · split at hd
    · split at hd
      · cases hd
      · cases hd; exact newIn_edge d _ _ hs hp ho
    · split at hd
      · cases hd
      · split at hd
        · cases hd
        · cases hd; exact newIn_edge d _ _ hs hp ho

theorem new_removeNodeScanned (n : Id) (fwd bwd : List (Bytes × Bytes)) : New P (removeNodeScanned n fwd bwd) := by
  unfold removeNodeScanned
  split
  · trivial
  · split
    · trivial
    · refine new_transaction (fun d d' hd => ?_)
      cases hd
      refine newIn_sub (fun k => ne_of_some (fun _ _ => get_of_erase)) (fun o k => ?_)
      cases o <;> exact ne_of_some (fun _ _ h => get_of_applyBatch (get_of_applyBatch h))

theorem new_scan {tree : Db → Tree} {m : Nat} {bd : Bound (ByteArr m) × Bound (ByteArr m)}
    {k : List (Bytes × Bytes) → Prog Db α} (h : ∀ l, New P (k l)) (ss : List Nat) (cur : Option Bytes)
    (acc : List (Bytes × Bytes)) : New P (scanPieces tree bd k ss cur acc) := by
  induction ss generalizing cur acc with
  | nil => exact ⟨fun d => .refl d, fun d => h _⟩
  | cons s ss ih => exact ⟨fun d => .refl d, fun d => ih _ _⟩

theorem new_removeEdge (t : Triple Id) : New P (removeEdge t) := by
  have one : ∀ (d : Db) (ts tp tq e : Tree), (∀ k b, ts.get k = some b → d.spo.get k = some b) →
      (∀ k b, tp.get k = some b → d.pos.get k = some b) → (∀ k b, tq.get k = some b → d.osp.get k = some b) →
      NewIn P d { d with spo := ts, pos := tp, osp := tq, edgeProps := e } := fun d ts tp tq e h1 h2 h3 =>
    newIn_sub (fun _ h => h) (fun o k => by
      cases o
      · exact ne_of_some h1
      · exact ne_of_some h2
      · exact ne_of_some h3)
  unfold removeEdge
  refine ⟨fun d => one d _ _ _ _ (fun _ _ => get_of_erase) (fun _ _ => get_of_erase) (fun _ _ => get_of_erase), fun _ => ?_⟩
  refine ⟨fun d => one d _ _ _ _ (fun _ _ => get_of_erase) (fun _ _ => id) (fun _ _ => id), fun d1 => ?_⟩
  refine ⟨fun d => one d _ _ _ _ (fun _ _ => id) (fun _ _ => get_of_erase) (fun _ _ => id), fun _ => ?_⟩
  refine ⟨fun d => one d _ _ _ _ (fun _ _ => id) (fun _ _ => id) (fun _ _ => get_of_erase), fun _ => ?_⟩
  split
  · exact ⟨fun d => one d _ _ _ _ (fun _ _ => id) (fun _ _ => id) (fun _ _ => id), fun _ => trivial⟩
  · trivial

/-- the ids a call puts into keys -/
def puts {Id NP EP E : Type} : Call E Id NP EP → List Id
  | .insertNode n _ => [n]
  | .mergeNode n _ => [n]
  | .insertEdge _ t _ => [t.sub, t.pred, t.obj]
  | .mergeEdge _ t _ => [t.sub, t.pred, t.obj]
  | _ => []

/-- calls for one node or one edge -/
def One {Id NP EP E : Type} : Call E Id NP EP → Prop
  | .insertNode _ _ => True
  | .mergeNode _ _ => True
  | .removeNode _ => True
  | .removeEdge _ => True
  | .insertEdge _ _ _ => True
  | .mergeEdge _ _ _ => True
  | _ => False

theorem new_piece (mN : NP → NP → NP) (mE : EP → EP → EP) {x : PieceCall E Id NP EP} (hx : One x.1) (h : ∀ u ∈ puts x.1, P u) :
    New P (x.prog c mN mE) := by
  obtain ⟨x, fs, bs⟩ := x
  have done : ∀ {β : Type} {p : Prog Db β}, New P p → New P (p.bind (fun _ => .ret ())) := fun h => h.bind (fun _ => trivial)
  cases x with
  | insertNode n p => exact done (new_insertNode p (h n (by simp [puts])))
  | mergeNode n p => exact done (new_mergeNode mN p (h n (by simp [puts])))
  | insertEdge i t p => exact done (new_insertEdge i p (h _ (by simp [puts])) (h _ (by simp [puts])) (h _ (by simp [puts])))
  | mergeEdge i t p => exact done (new_mergeEdge mE i p (h _ (by simp [puts])) (h _ (by simp [puts])) (h _ (by simp [puts])))
  | removeNode n => exact done (new_scan (fun _ => new_scan (fun _ => new_removeNodeScanned n _ _) _ _ _) _ _ _)
  | removeEdge t => exact done (new_removeEdge t)
  | _ => exact hx.elim

end Sled

end Verif
