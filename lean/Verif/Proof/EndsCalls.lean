import Verif.Proof.Ends
import Verif.Proof.SledTxCalls

/-! # Calls come to an end: the API -/

namespace Verif

open Spec ConcreteId

namespace Sled

variable {Id NP EP E : Type} [LinearOrder Id] [ConcreteId Id] {c : Codecs NP EP} {mN : NP → NP → NP} {mE : EP → EP → EP}

open Prog (AtMost)

theorem most_transaction (f : Db → Except SErr Db) : (transaction f).AtMost 1 := fun _ => trivial

theorem most_insertNode (n : Id) (p : NP) : (insertNode c n p).AtMost 1 := by
  unfold insertNode
  split
  · trivial
  · exact fun _ => trivial

theorem most_insertEdge (i : Id) (t : Triple Id) (p : EP) : (insertEdge c i t p).AtMost 1 := by
  unfold insertEdge
  split
  · trivial
  · exact most_transaction _

theorem most_removeNodeScanned (n : Id) (fwd bwd : List (Bytes × Bytes)) : (removeNodeScanned n fwd bwd).AtMost 1 := by
  unfold removeNodeScanned
  split
  · trivial
  · split
    · trivial
    · exact most_transaction _

theorem most_scanPieces {α : Type} (tree : Db → Tree) {n m : Nat} (b : Bound (ByteArr n) × Bound (ByteArr n))
    {k : List (Bytes × Bytes) → Prog Db α} (hk : ∀ l, (k l).AtMost m) (ss : List Nat) (cur : Option Bytes) (acc : List (Bytes × Bytes)) :
    (scanPieces tree b k ss cur acc).AtMost ((ss.length + 1) + m) := by
  induction ss generalizing cur acc with
  | nil =>
    rw [show ([] : List Nat).length + 1 + m = m + 1 by simp [Nat.add_comm]]
    exact fun d => hk _
  | cons s ss ih =>
    rw [show (s :: ss).length + 1 + m = (ss.length + 1 + m) + 1 by simp; omega]
    exact fun d => ih _ _

theorem most_removeNodePieces (fs bs : List Nat) (n : Id) : (removeNodePieces fs bs n).AtMost ((fs.length + 1) + (bs.length + 1) + 1) := by
  rw [Nat.add_assoc]
  exact most_scanPieces _ _ (fun _ => most_scanPieces _ _ (fun _ => most_removeNodeScanned n _ _) _ _ _) _ _ _

theorem most_removeEdge (t : Triple Id) : (removeEdge t).AtMost 5 := by
  intro _ _ _ _
  dsimp only
  split
  · exact fun _ => trivial
  · trivial

theorem most_mergeNode (n : Id) (p : NP) : (mergeNode c mN n p).AtMost 1 := most_transaction _

theorem most_mergeEdge (i : Id) (t : Triple Id) (p : EP) : (mergeEdge c mE i t p).AtMost 1 := most_transaction _

theorem most_mergeNodes {α : Type} {m : Nat} {k : Except (LR SErr E) Unit → Prog Db α} (l : List (Except E (Id × NP)))
    (he : ∀ e, (k (.error e)).AtMost 0) (hk : fails l = false → (k (.ok ())).AtMost m) :
    (mergeNodes c mN k l).AtMost ((oks l).length + if fails l then 0 else m) := by
  induction l with
  | nil => exact (hk rfl).mono (by simp [fails])
  | cons r l ih =>
    cases r with
    | error e => exact (he _).mono (by omega)
    | ok x =>
      refine ((most_mergeNode x.1 x.2).bind (m := (oks l).length + if fails l then 0 else m) fun r => ?_).mono ?_
      · cases r with
        | error e => exact (he _).mono (by omega)
        | ok _ => exact ih hk
      · show 1 + ((oks l).length + if fails l then 0 else m) ≤ (oks l).length + 1 + if fails l then 0 else m
        omega

theorem most_mergeEdges (l : List (Except E (Triple Id × EP))) (g : Gen Id) : (mergeEdges c mE g l).AtMost (oks l).length := by
  induction l generalizing g with
  | nil => exact .ret _
  | cons r l ih =>
    cases r with
    | error e => exact .ret _
    | ok x =>
      refine ((most_mergeEdge _ x.1 x.2).bind (m := (oks l).length) fun r => ?_).mono ?_
      · cases r with
        | error e => exact .ret _
        | ok _ => exact ih _
      · simp only [oks, List.length_cons]; omega

theorem most_extendNodes {α : Type} {m : Nat} {k : Except (LR SErr E) Unit → Prog Db α} (l : List (Except E (Id × NP)))
    (he : ∀ e, (k (.error e)).AtMost 0) (hk : fails l = false → (k (.ok ())).AtMost m) :
    (extendNodes c k l).AtMost ((oks l).length + if fails l then 0 else m) := by
  induction l with
  | nil => exact (hk rfl).mono (by simp [fails])
  | cons r l ih =>
    cases r with
    | error e => exact (he _).mono (by omega)
    | ok x =>
      unfold extendNodes
      cases c.n.ser x.2 with
      | none => exact (he _).mono (by omega)
      | some b =>
        refine (AtMost.call (n := (oks l).length + if fails l then 0 else m) fun _ => ih hk).mono ?_
        show (oks l).length + (if fails l then 0 else m) + 1 ≤ (oks l).length + 1 + if fails l then 0 else m
        omega

theorem most_extendEdges (l : List (Except E (Triple Id × EP))) (u : Gen Ulid) : (extendEdges c u l).AtMost (5 * (oks l).length) := by
  induction l generalizing u with
  | nil => exact .ret _
  | cons r l ih =>
    cases r with
    | error e => exact .ret _
    | ok x =>
      unfold extendEdges
      simp only
      split
      · exact .ret _
      · rw [show 5 * (oks (.ok x :: l)).length = 5 * (oks l).length + 1 + 1 + 1 + 1 + 1 by simp only [oks, List.length_cons]; omega]
        intro _ _ _ _
        dsimp only
        split
        · exact fun _ => ih _
        · exact (ih _).mono (by omega)

theorem most_pieceCall (x : PieceCall E Id NP EP) : (x.prog c mN mE).AtMost x.cost := by
  obtain ⟨x, ss⟩ := x
  cases x with
  | removeNode n => exact (most_removeNodePieces _ _ n).drop
  | insertNode n p => exact (most_insertNode n p).drop
  | insertEdge i t p => exact (most_insertEdge i t p).drop
  | removeNodeScan n fwd bwd => exact (most_removeNodeScanned n fwd bwd).drop
  | removeEdge t => exact (most_removeEdge t).drop
  | mergeNode n p => exact (most_mergeNode n p).drop
  | mergeEdge i t p => exact (most_mergeEdge i t p).drop
  | extend u src =>
    have h : (extend c u src).AtMost ((oks src.nodes).length + if fails src.nodes then 0 else 5 * (oks src.edges).length) :=
      most_extendNodes _ (fun _ => .ret _) (fun _ => most_extendEdges _ _)
    exact h.drop
  | merge g src =>
    have h : (merge c mN mE g src).AtMost ((oks src.nodes).length + if fails src.nodes then 0 else (oks src.edges).length) :=
      most_mergeNodes _ (fun _ => .ret _) (fun _ => most_mergeEdges _ _)
    exact h.drop

end Sled

namespace RdfSled

variable {NP EP E α β : Type} {cl : Codec String} {cr : Codec Ulid} {c : Codecs NP EP} {mN : NP → NP → NP} {mE : EP → EP → EP}

open Prog (AtMost)

theorem most_onNames {p : Prog IndexDb α} {n : Nat} (h : p.AtMost n) : p.onNames.AtMost n := by
  induction n generalizing p with
  | zero =>
    cases p with
    | ret a => trivial
    | call f k => exact h.elim
  | succ n ih =>
    cases p with
    | ret a => trivial
    | call f k => exact fun d => ih (h _)

theorem most_onData {p : Prog Db α} {n : Nat} (h : p.AtMost n) : p.onData.AtMost n := by
  induction n generalizing p with
  | zero =>
    cases p with
    | ret a => trivial
    | call f k => exact h.elim
  | succ n ih =>
    cases p with
    | ret a => trivial
    | call f k => exact fun d => ih (h _)

/-- the same whatever ids are drawn -/
def Most (n : Nat) (m : Task α) : Prop := ∀ i, (m i).AtMost n

theorem most_andThen {n m : Nat} {t : Task α} {f : α → Task β} (ht : Most n t) (hf : ∀ a, Most m (f a)) : Most (n + m) (t.andThen f) := by
  intro i
  refine (ht i).bind (fun r => ?_)
  split
  · exact .ret _
  · exact hf _ _

theorem most_done (a : α) : Most 0 (done a) := fun _ => trivial

theorem most_onIndex {n : Nat} {p : Prog IndexDb (Except (SledIndexErr String Ulid) α)} (hp : p.AtMost n) : Most n (onIndex p) :=
  fun _ => (most_onNames hp).drop

theorem most_onGraph {n : Nat} {p : Prog Db (Except SErr Unit)} (hp : p.AtMost n) : Most n (onGraph p) :=
  fun _ => (most_onData hp).drop

theorem most_leftToRight (s : String) : (SledIndex.leftToRightProg cl cr s).AtMost 1 := by
  unfold SledIndex.leftToRightProg
  split
  · trivial
  · exact fun _ => trivial

theorem most_set (s : String) (u : Ulid) : (SledIndex.setProg cl cr s u).AtMost 1 := by
  unfold SledIndex.setProg
  split
  · trivial
  · split
    · trivial
    · exact fun _ => trivial

theorem most_lookupOrCreate (e : Entity) : Most (2 * namesIn [e]) (lookupOrCreateEntity cl cr e) := by
  cases e with
  | string s =>
    refine most_andThen (n := 1) (m := 1) (most_onIndex (most_leftToRight s)) (fun o => ?_)
    cases o with
    | some id => exact fun _ => trivial
    | none =>
      intro i
      exact most_andThen (n := 1) (m := 0) (most_onIndex (most_set s _)) (fun _ => most_done _) _
  | ulid id => exact most_done id

theorem most_lookup (e : Entity) : Most (namesIn [e]) (lookupEntity cl cr e) := by
  cases e with
  | string s =>
    refine most_andThen (n := 1) (m := 0) (most_onIndex (most_leftToRight s)) (fun o => ?_)
    cases o with
    | some id => exact fun _ => trivial
    | none => exact fun _ => trivial
  | ulid id => exact most_done id

theorem namesIn_parts (t : Triple Entity) : namesIn (RdfState.parts t) = namesIn [t.sub] + (namesIn [t.pred] + namesIn [t.obj]) := by
  obtain ⟨s, p, o⟩ := t
  cases s <;> cases p <;> cases o <;> rfl

theorem most_tryMap {f : Entity → Task Ulid} {a : Nat} (hf : ∀ e, Most (a * namesIn [e]) (f e)) (t : Triple Entity) :
    Most (a * namesIn (RdfState.parts t)) (tryMap f t) := by
  rw [namesIn_parts, Nat.mul_add, Nat.mul_add]
  exact most_andThen (hf _) (fun _ => most_andThen (hf _) (fun _ => most_andThen (m := 0) (hf _) (fun _ => most_done _)))

theorem most_insertNode (e : Entity) (p : NP) : Most (2 * namesIn [e] + 1) (insertNode cl cr c e p) :=
  most_andThen (most_lookupOrCreate e) (fun _ => most_onGraph (Sled.most_insertNode _ _))

theorem most_insertEdge (t : Triple Entity) (p : EP) : Most (2 * namesIn (RdfState.parts t) + 1) (insertEdge cl cr c t p) :=
  most_andThen (most_tryMap most_lookupOrCreate t) (fun _ _ => most_onGraph (Sled.most_insertEdge _ _ _) _)

theorem most_mergeNode (e : Entity) (p : NP) : Most (2 * namesIn [e] + 1) (mergeNode cl cr c mN e p) :=
  most_andThen (most_lookupOrCreate e) (fun _ => most_onGraph (Sled.most_mergeNode _ _))

theorem most_mergeEdge (t : Triple Entity) (p : EP) : Most (2 * namesIn (RdfState.parts t) + 1) (mergeEdge cl cr c mE t p) :=
  most_andThen (most_tryMap most_lookupOrCreate t) (fun _ _ => most_onGraph (Sled.most_mergeEdge _ _ _) _)

theorem most_removeNodePieces (fs bs : List Nat) (e : Entity) :
    Most (namesIn [e] + ((fs.length + 1) + (bs.length + 1) + 1)) (removeNodePieces cl cr fs bs e) :=
  most_andThen (most_lookup e) (fun _ => most_onGraph (Sled.most_removeNodePieces _ _ _))

theorem most_removeEdge (t : Triple Entity) : Most (namesIn (RdfState.parts t) + 5) (removeEdge cl cr t) := by
  have := most_tryMap (a := 1) (f := lookupEntity cl cr) (fun e => by rw [Nat.one_mul]; exact most_lookup e) t
  rw [Nat.one_mul] at this
  exact most_andThen this (fun _ => most_onGraph (Sled.most_removeEdge _))

theorem most_absorb {f : α → Task Unit} {w : α → Nat} (hf : ∀ a, Most (w a) (f a)) {m : Nat}
    {k : Ids → Prog RdfDb (Ids × Except (LR Err E) Unit)} (l : List (Except E α)) (hk : fails l = false → ∀ i, (k i).AtMost m)
    (i : Ids) : (absorb f k l i).AtMost (((oks l).map w).sum + if fails l then 0 else m) := by
  induction l generalizing i with
  | nil => exact (hk rfl i).mono (by simp [fails])
  | cons r l ih =>
    cases r with
    | error e => exact .ret _
    | ok a =>
      refine ((hf a i).bind (m := ((oks l).map w).sum + if fails l then 0 else m) fun r => ?_).mono ?_
      · obtain ⟨i', r⟩ := r
        cases r with
        | error e => exact .ret _
        | ok _ => exact ih hk _
      · show w a + (((oks l).map w).sum + if fails l then 0 else m) ≤ (w a + ((oks l).map w).sum) + if fails l then 0 else m
        omega

theorem most_single {n : Nat} {m : Task Unit} (hm : Most n m) (i : Ids) : (single (E := E) m i).AtMost n := (hm i).drop

theorem most_pieceCall (x : PieceCall E NP EP) : (x.prog cl cr c mN mE).AtMost x.cost := by
  obtain ⟨⟨op, i⟩, ss⟩ := x
  cases op with
  | removeNode e => exact (most_single (most_removeNodePieces _ _ e) i).drop
  | insertNode e p => exact (most_single (most_insertNode e p) i).drop
  | insertEdge t p => exact (most_single (most_insertEdge t p) i).drop
  | removeEdge t => exact (most_single (most_removeEdge t) i).drop
  | mergeNode e p => exact (most_single (most_mergeNode e p) i).drop
  | mergeEdge t p => exact (most_single (most_mergeEdge t p) i).drop
  | extend src =>
    exact (most_absorb (m := ((oks src.edges).map (fun y => 2 * namesIn (RdfState.parts y.1) + 1)).sum)
      (fun y => most_insertNode y.1 y.2) src.nodes (fun _ i =>
      (most_absorb (m := 0) (fun y => most_insertEdge y.1 y.2) src.edges (fun _ _ => .ret _) i).mono (by split <;> omega)) i).drop
  | merge src =>
    exact (most_absorb (m := ((oks src.edges).map (fun y => 2 * namesIn (RdfState.parts y.1) + 1)).sum)
      (fun y => most_mergeNode y.1 y.2) src.nodes (fun _ i =>
      (most_absorb (m := 0) (fun y => most_mergeEdge y.1 y.2) src.edges (fun _ _ => .ret _) i).mono (by split <;> omega)) i).drop

end RdfSled

end Verif
