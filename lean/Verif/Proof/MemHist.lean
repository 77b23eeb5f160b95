import Verif.Proof.MemIter

/-! # Histories of operations on the in-memory store -/

set_option linter.unusedSectionVars false

namespace Verif

open Spec ConcreteId

variable {Id NP EP E : Type} [LinearOrder Id] [ConcreteId Id]

namespace Mem

variable [LawfulId Id]

theorem ok_apply (mN : NP → NP → NP) (mE : EP → EP → EP) (n : Nat) (s : Mem Id NP EP)
    (G : Graph Id NP EP) (op : Op E Id NP EP) (h : Ok (n + op.draws) s G) :
    Ok n (s.apply mN mE op) (op.apply mN mE G) := by
  cases op with
  | insertNode m p => exact ok_insertNode n s G m p h
  | insertEdge t p => exact ok_insertEdge n s G t p h
  | removeNode m => exact ok_removeNode n s G m h
  | removeEdge t => exact ok_removeEdge n s G t h
  | mergeNode m p => exact ok_mergeNode mN n s G m p h
  | mergeEdge t p => exact ok_mergeEdge mE n s G t p h
  | extend src =>
    show Ok n (s.extend src).1 _
    rw [extend_eq]
    refine fold_cost _ _ (fun n s G a h => ok_extendEdge n s G a h) _ ?_
    refine fold_free (fun s (a : Id × NP) => s.extendNode a) _
      (fun n s G a h => ok_insertNode n s G a.1 a.2 h) ?_ _
    exact h.mono (Nat.add_le_add_left (edgePrefix_length src) n)
  | merge src =>
    show Ok n (s.merge mN mE src).1 _
    rw [merge_eq]
    refine fold_cost (fun s (a : Triple Id × EP) => s.mergeEdge mE a.1 a.2) _
      (fun n s G a h => ok_mergeEdge mE n s G a.1 a.2 h) _ ?_
    refine fold_free (fun s (a : Id × NP) => s.mergeNode mN a.1 a.2) _
      (fun n s G a h => ok_mergeNode mN n s G a.1 a.2 h) ?_ _
    exact h.mono (Nat.add_le_add_left (edgePrefix_length src) n)

theorem ok_applyAll (mN : NP → NP → NP) (mE : EP → EP → EP) (n : Nat) (s : Mem Id NP EP)
    (G : Graph Id NP EP) (ops : List (Op E Id NP EP)) (h : Ok (n + draws ops) s G) :
    Ok n (s.applyAll mN mE ops) (Spec.applyAll mN mE G ops) := by
  induction ops generalizing s G with
  | nil => exact h
  | cons op ops ih =>
    show Ok n ((s.apply mN mE op).applyAll mN mE ops) _
    refine ih (s.apply mN mE op) _ (ok_apply mN mE _ s G op ?_)
    have : n + draws (op :: ops) = n + draws ops + op.draws := by
      simp [draws]; omega
    rw [this] at h; exact h

theorem ok_new {n : Nat} {g : Gen Id} (h : ∀ i < n, ∀ j < n, g i = g j → i = j) :
    Ok n (new g : Mem Id NP EP) Graph.empty := ⟨inv_new g, genOk_new h, graph_new g⟩

/-- Agreement of the orderings needs no freshness at all. -/
theorem apply_agree (mN : NP → NP → NP) (mE : EP → EP → EP) {s : Mem Id NP EP} (h : Agree s)
    (op : Op E Id NP EP) : Agree (s.apply mN mE op) := by
  have hn : ∀ {s : Mem Id NP EP} (m : BMap Id NP), Agree s → Agree { s with nodeProps := m } :=
    fun _ h => ⟨h.pos, h.osp⟩
  have he : ∀ {s : Mem Id NP EP} (m : BMap Id EP), Agree s → Agree { s with edgeProps := m } :=
    fun _ h => ⟨h.pos, h.osp⟩
  have hme : ∀ {s : Mem Id NP EP} (t : Triple Id) (p : EP), Agree s → Agree (s.mergeEdge mE t p) := by
    intro s t p h
    cases hi : s.idOf t with
    | none => rw [mergeEdge_new mE p hi]; exact insertEdge_agree h t p
    | some i =>
      have : ∃ m, s.mergeEdge mE t p =
          ({ s with edgeProps := m } : Mem Id NP EP).insertEdgeDataInternal t i := by
        unfold idOf at hi
        unfold mergeEdge mergeEdgeCreateData
        simp only [hi]
        cases s.edgeProps.get i with
        | some q => exact ⟨_, rfl⟩
        | none => exact ⟨_, rfl⟩
      obtain ⟨m, hm⟩ := this
      rw [hm, reinsert_id (he m h) hi]
      exact he m h
  have hee : ∀ {s : Mem Id NP EP} (x : Triple Id × EP), Agree s → Agree (s.extendEdge x) := by
    rintro s ⟨t, p⟩ h
    cases hi : s.idOf t with
    | none => rw [extendEdge_new p hi]; exact insertEdge_agree h t p
    | some i => rw [extendEdge_old p hi]; exact he _ h
  have hf : ∀ {α : Type} (f : Mem Id NP EP → α → Mem Id NP EP),
      (∀ s a, Agree s → Agree (f s a)) → ∀ (l : List α) (s : Mem Id NP EP), Agree s →
        Agree (l.foldl f s) := by
    intro α f hf l
    induction l with
    | nil => exact fun s h => h
    | cons a l ih => exact fun s h => ih _ (hf _ _ h)
  cases op with
  | insertNode n p => show Agree (s.insertNode n p); rw [insertNode_eq]; exact hn _ h
  | insertEdge t p => exact insertEdge_agree h t p
  | removeNode n => exact (removeNode_spec h n).1
  | removeEdge t => exact removeEdge_agree h t
  | mergeNode n p => show Agree (s.mergeNode mN n p); rw [mergeNode_eq]; exact hn _ h
  | mergeEdge t p => exact hme t p h
  | extend src =>
    show Agree (s.extend src).1
    rw [extend_eq]
    refine hf _ (fun s a h => hee a h) _ _ (hf _ (fun s a h => ?_) _ _ h)
    rw [extendNode_eq, insertNode_eq]; exact hn _ h
  | merge src =>
    show Agree (s.merge mN mE src).1
    rw [merge_eq]
    refine hf _ (fun s a h => hme _ _ h) _ _ (hf _ (fun s a h => ?_) _ _ h)
    rw [mergeNode_eq]; exact hn _ h

theorem applyAll_agree (mN : NP → NP → NP) (mE : EP → EP → EP) {s : Mem Id NP EP} (h : Agree s)
    (ops : List (Op E Id NP EP)) : Agree (s.applyAll mN mE ops) := by
  induction ops generalizing s with
  | nil => exact h
  | cons op ops ih => exact ih (s := s.apply mN mE op) (apply_agree mN mE h op)

end Mem

end Verif
