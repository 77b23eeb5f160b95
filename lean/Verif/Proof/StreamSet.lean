import Verif.Proof.MemReach
import Verif.Proof.SledHist

/-! # How far set operations and the operations of the sled back-end advance the generators -/

set_option linter.unusedSectionVars false

namespace Verif

open Spec ConcreteId

variable {Id NP EP E : Type} [LinearOrder Id] [ConcreteId Id] [LawfulId Id]

/-- `k` of the `N` ids that may be drawn are left -/
def Gen.Left {α : Type} (g : Gen α) (N k : Nat) (g' : Gen α) : Prop := ∃ d, d + k ≤ N ∧ g' = fun i => g (d + i)

namespace Gen.Left

variable {α : Type} {g g' g'' : Gen α} {N k : Nat}

theorem refl (g : Gen α) (N : Nat) : Left g N N g := ⟨0, by omega, by funext i; rw [Nat.zero_add]⟩

theorem mono (h : Left g N k g') {k' : Nat} (hk : k' ≤ k) : Left g N k' g' := by
  obtain ⟨d, h, e⟩ := h
  exact ⟨d, by omega, e⟩

theorem step (h : Left g N (k + 1) g') (h' : Adv 1 g' g'') : Left g N k g'' := by
  obtain ⟨d, h, rfl⟩ := h
  obtain ⟨d', h', rfl⟩ := h'
  exact ⟨d + d', by omega, by funext i; rw [Nat.add_assoc]⟩

theorem adv (h : Left g N k g') : Adv N g g' := by
  obtain ⟨d, h, e⟩ := h
  exact ⟨d, by omega, e⟩

end Gen.Left

namespace Mem

theorem union_adv {s r : Mem Id NP EP} {g : Gen Id} {other : Source E Id NP EP} (hr : s.union g other = .ok r) :
    Gen.Adv (s.edgeCount + other.edges.length) g r.gen := by
  rw [union_eq] at hr
  split at hr
  · cases hr
  · cases hr
    have hN : ∀ (l : List (Id × NP)) (r : Mem Id NP EP), (l.foldl (fun (r : Mem Id NP EP) x => r.insertNode x.1 x.2) r).gen = r.gen :=
      foldl_gen (fun r x => insertNode_gen r x.1 x.2)
    have hE := Gen.Adv.foldl Mem.gen (fun (r : Mem Id NP EP) (x : Triple Id × EP) => r.insertEdge x.1 x.2)
      (fun r x => insertEdge_adv r x.1 x.2)
    have h1 := hE (s.edgeList .SPO) (s.nodeProps.entries.foldl (fun r x => r.insertNode x.1 x.2) (new g))
    rw [hN] at h1
    have h2 := hE (okPrefix other.edges) ((okPrefix other.nodes).foldl (fun r x => r.insertNode x.1 x.2)
      ((s.edgeList .SPO).foldl (fun r x => r.insertEdge x.1 x.2)
        (s.nodeProps.entries.foldl (fun r x => r.insertNode x.1 x.2) (new g))))
    rw [hN] at h2
    refine (h1.trans h2).mono ?_
    have := okPrefix_length other.edges
    rw [edgeCount_eq]
    omega

theorem intersection_adv {s r : Mem Id NP EP} {g : Gen Id} {other : Source E Id NP EP} (hr : s.intersection g other = .ok r) :
    Gen.Adv s.edgeCount g r.gen := by
  unfold intersection at hr
  simp only at hr
  split at hr
  · cases hr
  rename_i c1 i1 hn1
  split at hr
  · cases hr
  rename_i c2 i2 hn2
  split at hr
  · cases hr
  rename_i w hw
  split at hr
  · cases hr
  rename_i c3 i3 hn3
  split at hr
  · cases hr
  rename_i c4 i4 hn4
  split at hr
  · cases hr
  rename_i w' hw'
  cases hr
  have h1 := walk_inv (fun _ (st : Mem Id NP EP) => Gen.Left g s.edgeCount s.edgeCount st.gen) (fun _ _ _ h => h) (fun _ _ _ h => h)
    (fun _ st a _ h => by rw [insertNode_gen]; exact h) _ _ _ _ _ _ hw (Gen.Left.refl _ _)
  have h2 := walk_inv (fun k (st : Mem Id NP EP) => Gen.Left g s.edgeCount k st.gen) (fun k _ _ h => h.mono (by omega)) (fun _ _ _ h => h)
    (fun k st a b h => h.step (insertEdge_adv _ _ _)) _ _ _ _ _ _ hw' (by
      rw [nextItem_len hn3, errLeft_length, into_eq, List.length_map, ← edgeCount_eq]; exact h1)
  exact h2.adv

theorem difference_adv {s r : Mem Id NP EP} {g : Gen Id} {other : Source E Id NP EP} (hr : s.difference g other = .ok r) :
    Gen.Adv s.edgeCount g r.gen := by
  unfold difference at hr
  simp only at hr
  split at hr
  · cases hr
  rename_i c1 i1 hn1
  split at hr
  · cases hr
  rename_i c2 i2 hn2
  split at hr
  · cases hr
  rename_i w hw
  split at hr
  · cases hr
  rename_i s1 hs1
  split at hr
  · cases hr
  rename_i c3 i3 hn3
  split at hr
  · cases hr
  rename_i c4 i4 hn4
  split at hr
  · cases hr
  rename_i w' hw'
  have h1 := walk_inv (fun _ (st : Mem Id NP EP × HSet Id) => Gen.Left g s.edgeCount s.edgeCount st.1.gen)
    (onL := fun st l => (st.1.insertNode l.1 l.2, st.2)) (onR := fun st r => (st.1, st.2.insert r.1))
    (onB := fun st _ r => (st.1, st.2.insert r.1))
    (fun _ _ _ h => by rw [insertNode_gen]; exact h) (fun _ _ _ h => h)
    (fun _ _ _ _ h => h) (new g, []) c1 i1 c2 i2 w hw (Gen.Left.refl _ _)
  have h2 := drain_inv (fun _ (st : Mem Id NP EP) => Gen.Left g s.edgeCount s.edgeCount st.gen)
    (fun _ _ _ h => by rw [insertNode_gen]; exact h) (fun _ _ h => h) _ _ _ _ hs1 h1
  have h3 := walk_inv (fun k (st : Mem Id NP EP) => Gen.Left g s.edgeCount k st.gen) (fun k st a h => by
      split
      · exact h.step (insertEdge_adv _ _ _)
      · exact h.mono (by omega)) (fun _ _ _ h => h)
    (fun k st a b h => h.mono (by omega)) _ _ _ _ _ _ hw' (by
      rw [nextItem_len hn3, errLeft_length, into_eq, List.length_map, ← edgeCount_eq]; exact h2)
  exact (drain_inv (fun k (st : Mem Id NP EP) => Gen.Left g s.edgeCount k st.gen) (fun k st a h => h.step (insertEdge_adv _ _ _))
    (fun k st h => h.mono (by omega)) _ _ _ _ hr h3).adv

end Mem

namespace Sled

theorem mergeNodes_ret {α : Type} (P : α → Prop) (c : Codecs NP EP) (mN : NP → NP → NP) (k : Except (LR SErr E) Unit → Prog Db α)
    (hk : ∀ r d, P ((k r).run d).2) (l : List (Except E (Id × NP))) (d : Db) : P ((mergeNodes c mN k l).run d).2 := by
  induction l generalizing d with
  | nil => exact hk _ _
  | cons a l ih =>
    cases a with
    | error e => exact hk _ _
    | ok x =>
      rw [mergeNodes, Prog.run_bind]
      cases ((mergeNode c mN x.1 x.2).run d).2 with
      | error e => exact hk _ _
      | ok u => exact ih _

theorem extendNodes_ret {α : Type} (P : α → Prop) (c : Codecs NP EP) (k : Except (LR SErr E) Unit → Prog Db α)
    (hk : ∀ r d, P ((k r).run d).2) (l : List (Except E (Id × NP))) (d : Db) : P ((extendNodes c k l).run d).2 := by
  induction l generalizing d with
  | nil => exact hk _ _
  | cons a l ih =>
    cases a with
    | error e => exact hk _ _
    | ok x =>
      rw [extendNodes]
      cases c.n.ser x.2 with
      | none => exact hk _ _
      | some b => exact ih _

theorem mergeEdges_adv (c : Codecs NP EP) (mE : EP → EP → EP) (l : List (Except E (Triple Id × EP))) (g : Gen Id) (d : Db) :
    Gen.Adv l.length g ((mergeEdges c mE g l).run d).2.1 := by
  induction l generalizing g d with
  | nil => exact .refl _ _
  | cons a l ih =>
    cases a with
    | error e => exact .refl _ _
    | ok x =>
      rw [mergeEdges, Prog.run_bind]
      cases ((mergeEdge c mE (Gen.fresh g).1 x.1 x.2).run d).2 with
      | error e => exact (Gen.Adv.fresh g).mono (by simp)
      | ok u => exact ((Gen.Adv.fresh g).trans (ih _ _)).mono (by rw [List.length_cons]; omega)

theorem extendEdges_adv (c : Codecs NP EP) (l : List (Except E (Triple Id × EP))) (g : Gen Ulid) (d : Db) :
    Gen.Adv l.length g ((extendEdges c g l).run d).2.1 := by
  induction l generalizing g d with
  | nil => exact .refl _ _
  | cons a l ih =>
    cases a with
    | error e => exact .refl _ _
    | ok x =>
      have hl : 1 + l.length ≤ (Except.ok x :: l : List (Except E (Triple Id × EP))).length := by rw [List.length_cons]; omega
      cases hb : c.e.ser x.2 with
      | none =>
        rw [extendEdges]
        simp only [hb]
        exact (Gen.Adv.fresh g).mono (by simp)
      | some b =>
        rw [SledStore.extendEdges_cons hb]
        exact ((Gen.Adv.fresh g).trans (ih _ _)).mono hl

end Sled

namespace SledStore

theorem call_gen (c : Codecs NP EP) (mN : NP → NP → NP) (mE : EP → EP → EP) (s : SledStore Id) (op : Op E Id NP EP) :
    Gen.Adv op.genDraws s.gen (s.call c mN mE op).1.gen := by
  cases op with
  | insertNode n p => exact .refl _ _
  | insertEdge t p => exact .fresh _
  | removeNode n => exact .refl _ _
  | removeEdge t => exact .refl _ _
  | mergeNode n p => exact .refl _ _
  | mergeEdge t p => exact .fresh _
  | extend src => exact .refl _ _
  | merge src =>
    refine Sled.mergeNodes_ret (fun r : Gen Id × Except (LR SErr E) Unit => Gen.Adv src.edges.length s.gen r.1) c mN _ (fun r d => ?_) src.nodes s.db
    cases r with
    | error e => exact .refl _ _
    | ok u => exact Sled.mergeEdges_adv c mE src.edges s.gen d

theorem call_ulid (c : Codecs NP EP) (mN : NP → NP → NP) (mE : EP → EP → EP) (s : SledStore Id) (op : Op E Id NP EP) :
    Gen.Adv op.ulidDraws s.ulid (s.call c mN mE op).1.ulid := by
  cases op with
  | extend src =>
    refine Sled.extendNodes_ret (fun r : Gen Ulid × Except (LR SErr E) Unit => Gen.Adv src.edges.length s.ulid r.1) c _ (fun r d => ?_) src.nodes s.db
    cases r with
    | error e => exact .refl _ _
    | ok u => exact Sled.extendEdges_adv c src.edges s.ulid d
  | _ => exact .refl _ _

end SledStore

end Verif
