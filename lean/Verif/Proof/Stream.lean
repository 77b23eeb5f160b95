import Verif.Proof.MemHist

/-! # How far an operation advances the generator -/

set_option linter.unusedSectionVars false

namespace Verif

open Spec ConcreteId

/-- `g'` is what is left of `g` after at most `n` ids were drawn. -/
def Gen.Adv {α : Type} (n : Nat) (g g' : Gen α) : Prop := ∃ d ≤ n, g' = fun i => g (d + i)

namespace Gen.Adv

variable {α : Type} {n m : Nat} {g g' g'' : Gen α}

theorem refl (n : Nat) (g : Gen α) : Adv n g g := ⟨0, Nat.zero_le _, by funext i; rw [Nat.zero_add]⟩

theorem fresh (g : Gen α) : Adv 1 g (Gen.fresh g).2 := ⟨1, le_rfl, by funext i; rw [Nat.add_comm]; rfl⟩

theorem mono (h : Adv n g g') (hm : n ≤ m) : Adv m g g' := by
  obtain ⟨d, hd, e⟩ := h
  exact ⟨d, by omega, e⟩

theorem trans (h : Adv n g g') (h' : Adv m g' g'') : Adv (n + m) g g'' := by
  obtain ⟨d, hd, rfl⟩ := h
  obtain ⟨d', hd', rfl⟩ := h'
  exact ⟨d + d', by omega, by funext i; rw [Nat.add_assoc]⟩

/-- the ids to come are ids that were to come -/
theorem get (h : Adv n g g') {i : Nat} (hi : i < m) : ∃ j < m + n, g' i = g j := by
  obtain ⟨d, hd, rfl⟩ := h
  exact ⟨d + i, by omega, rfl⟩

theorem distinct (h : Adv n g g') (hg : Fresh (m + n) g) : Fresh m g' := by
  obtain ⟨d, hd, rfl⟩ := h
  intro i hi j hj e
  have := hg (d + i) (by omega) (d + j) (by omega) e
  omega

theorem foldl {σ β : Type} (gen : σ → Gen α) (f : σ → β → σ) (hf : ∀ s b, Adv n (gen s) (gen (f s b))) (l : List β) (s : σ) :
    Adv (n * l.length) (gen s) (gen (l.foldl f s)) := by
  induction l generalizing s with
  | nil => exact refl _ _
  | cons b l ih =>
    refine ((hf s b).trans (ih _)).mono ?_
    rw [List.length_cons, Nat.mul_succ, Nat.add_comm]

end Gen.Adv

namespace Mem

variable {Id NP EP E : Type} [LinearOrder Id] [ConcreteId Id] [LawfulId Id]

theorem insertNode_gen (s : Mem Id NP EP) (n : Id) (p : NP) : (s.insertNode n p).gen = s.gen := by rw [insertNode_eq]

theorem insertEdge_adv (s : Mem Id NP EP) (t : Triple Id) (p : EP) : Gen.Adv 1 s.gen (s.insertEdge t p).gen := by
  unfold insertEdge insertEdgeCreateData
  cases s.spo.get (encodeSpo t) <;> exact .fresh _

theorem mergeNode_gen (mN : NP → NP → NP) (s : Mem Id NP EP) (n : Id) (p : NP) : (s.mergeNode mN n p).gen = s.gen := by
  rw [mergeNode_eq]

theorem mergeEdge_adv (mE : EP → EP → EP) (s : Mem Id NP EP) (t : Triple Id) (p : EP) :
    Gen.Adv 1 s.gen (s.mergeEdge mE t p).gen := by
  unfold mergeEdge mergeEdgeCreateData
  cases s.spo.get (encodeSpo t) with
  | none => exact .fresh _
  | some i => simp only; cases s.edgeProps.get i <;> exact .refl _ _

theorem extendEdge_adv (s : Mem Id NP EP) (x : Triple Id × EP) : Gen.Adv 1 s.gen (s.extendEdge x).gen := by
  unfold extendEdge
  cases s.spo.get (encodeSpo x.1) with
  | none => exact .fresh _
  | some i => simp only; cases s.edgeProps.get i <;> exact .refl _ _

theorem foldl_gen {α : Type} {f : Mem Id NP EP → α → Mem Id NP EP} (hf : ∀ s a, (f s a).gen = s.gen) (l : List α)
    (s : Mem Id NP EP) : (l.foldl f s).gen = s.gen := by
  induction l generalizing s with
  | nil => rfl
  | cons a l ih => rw [List.foldl_cons, ih, hf]

theorem removeNode_gen (s : Mem Id NP EP) (n : Id) : (s.removeNode n).gen = s.gen := by
  unfold removeNode
  simp only
  rw [foldl_gen (fun s t => removeEdge_gen s t), foldl_gen (f := fun (s : Mem Id NP EP) (i : Id) => { s with edgeProps := s.edgeProps.erase i }) (fun _ _ => rfl)]

theorem apply_adv (mN : NP → NP → NP) (mE : EP → EP → EP) (s : Mem Id NP EP) (op : Op E Id NP EP) :
    Gen.Adv op.draws s.gen (s.apply mN mE op).gen := by
  cases op with
  | insertNode n p => show Gen.Adv _ _ (s.insertNode n p).gen; rw [insertNode_gen]; exact .refl _ _
  | insertEdge t p => exact insertEdge_adv s t p
  | removeNode n => show Gen.Adv _ _ (s.removeNode n).gen; rw [removeNode_gen]; exact .refl _ _
  | removeEdge t => show Gen.Adv _ _ (s.removeEdge t).gen; rw [removeEdge_gen]; exact .refl _ _
  | mergeNode n p => show Gen.Adv _ _ (s.mergeNode mN n p).gen; rw [mergeNode_gen]; exact .refl _ _
  | mergeEdge t p => exact mergeEdge_adv mE s t p
  | extend src =>
    show Gen.Adv src.edges.length s.gen (s.extend src).1.gen
    rw [extend_eq]
    have h0 := foldl_gen (fun (s : Mem Id NP EP) (a : Id × NP) => by rw [extendNode_eq, insertNode_gen] : ∀ s a, (extendNode s a).gen = s.gen)
      (Source.nodePrefix src) s
    have := Gen.Adv.foldl Mem.gen extendEdge extendEdge_adv (Source.edgePrefix src) ((Source.nodePrefix src).foldl extendNode s)
    rw [h0] at this
    exact this.mono (by rw [Nat.one_mul]; exact edgePrefix_length src)
  | merge src =>
    show Gen.Adv src.edges.length s.gen (s.merge mN mE src).1.gen
    rw [merge_eq]
    have h0 := foldl_gen (f := fun (s : Mem Id NP EP) (a : Id × NP) => s.mergeNode mN a.1 a.2) (fun s a => mergeNode_gen mN s a.1 a.2)
      (Source.nodePrefix src) s
    have := Gen.Adv.foldl Mem.gen (fun (s : Mem Id NP EP) (a : Triple Id × EP) => s.mergeEdge mE a.1 a.2)
      (fun s a => mergeEdge_adv mE s a.1 a.2) (Source.edgePrefix src)
      ((Source.nodePrefix src).foldl (fun (s : Mem Id NP EP) (a : Id × NP) => s.mergeNode mN a.1 a.2) s)
    rw [h0] at this
    exact this.mono (by rw [Nat.one_mul]; exact edgePrefix_length src)

/-- `Ok`, and at most `N` ids of `g` were drawn. -/
def OkFrom (g : Gen Id) (N n : Nat) (s : Mem Id NP EP) (G : Graph Id NP EP) : Prop := Ok n s G ∧ Gen.Adv N g s.gen

theorem OkFrom.congr {g : Gen Id} {N n : Nat} {s : Mem Id NP EP} {G H : Graph Id NP EP} (h : OkFrom g N n s G) (e : G = H) :
    OkFrom g N n s H := e ▸ h

/-- a stream is advanced by others -/
theorem Ok.advance {n m : Nat} {s : Mem Id NP EP} {G : Graph Id NP EP} (h : Ok (n + m) s G) {g : Gen Id} (hg : Gen.Adv m s.gen g) :
    Ok n { s with gen := g } G := by
  refine ⟨⟨⟨h.inv.pos, h.inv.osp⟩, h.inv.inj, h.inv.ref⟩, ⟨fun i hi => ?_, hg.distinct h.gen.distinct⟩, h.graph⟩
  obtain ⟨j, hj, e⟩ := hg.get hi
  show s.edgeProps.get (g i) = none
  rw [e]
  exact h.gen.unused j hj

end Mem

end Verif
