import Verif.Proof.SledHist

/-! # `extend` and `merge` with an error-free source -/

set_option linter.unusedSectionVars false

namespace Verif

open Spec

variable {Id NP EP X : Type} [LinearOrder Id] {src : Source X Id NP EP} {H : Graph Id NP EP}

theorem Spec.Represents.merge (hr : Represents src H) (mN : NP → NP → NP) (mE : EP → EP → EP) (G : Graph Id NP EP) :
    (Op.merge src : Op X Id NP EP).apply mN mE G = G.mergeWith mN mE H := by
  obtain ⟨⟨ln, hln, hnn, hmn⟩, ⟨le, hle, hne, hme⟩⟩ := hr
  simp only [Op.apply, Source.edgePrefix, Source.nodePrefix, hln, hle, Mem.firstErr_map_ok, Mem.okPrefix_map_ok]
  rw [foldl_mergeNode mN hnn, foldl_mergeEdge mE hne]
  refine Graph.ext' (fun m => ?_) (fun t => ?_)
  · simp [Graph.mergeWith, alGet_eq_of_lists hnn hmn]
  · simp [Graph.mergeWith, alGet_eq_of_lists hne hme]

theorem Spec.Represents.extend (hr : Represents src H) (mN : NP → NP → NP) (mE : EP → EP → EP) (G : Graph Id NP EP) :
    (Op.extend src : Op X Id NP EP).apply mN mE G = G.overlay H := by
  obtain ⟨⟨ln, hln, hnn, hmn⟩, ⟨le, hle, hne, hme⟩⟩ := hr
  simp only [Op.apply, Source.edgePrefix, Source.nodePrefix, hln, hle, Mem.firstErr_map_ok, Mem.okPrefix_map_ok]
  rw [foldl_insertNode hnn, foldl_insertEdge hne]
  refine Graph.ext' (fun m => ?_) (fun t => ?_)
  · simp [Graph.overlay, alGet_eq_of_lists hnn hmn]
  · simp [Graph.overlay, alGet_eq_of_lists hne hme]

theorem Spec.Represents.firstErr (hr : Represents src H) : Source.firstErr src = none := by
  obtain ⟨⟨ln, hln, -, -⟩, ⟨le, hle, -, -⟩⟩ := hr
  rw [Source.firstErr, hln, hle, Mem.firstErr_map_ok, Mem.firstErr_map_ok]; rfl

variable [ConcreteId Id] [LawfulId Id]

/-- with values that can all be serialized -/
theorem Spec.Represents.merge_done (hr : Represents src H) {c : Codecs NP EP} (ht : c.Total) (mN : NP → NP → NP) (mE : EP → EP → EP)
    (G : Graph Id NP EP) : (Op.merge src : Op X Id NP EP).step c.okN c.okE mN mE G = (G.mergeWith mN mE H, .done) := by
  refine Prod.ext ?_ ?_
  · rw [step_total (okN := c.okN) (okE := c.okE) ht.1 ht.2, hr.merge]
  · rw [Op.step, both_total (fun G x => storeMergedNode_total (okN := c.okN) ht.1 mN G x.1 x.2)
      (fun G x => storeMergedEdge_total (okE := c.okE) ht.2 mE G x.1 x.2), hr.firstErr]

theorem Spec.Represents.extend_done (hr : Represents src H) {c : Codecs NP EP} (ht : c.Total) (mN : NP → NP → NP) (mE : EP → EP → EP)
    (G : Graph Id NP EP) : (Op.extend src : Op X Id NP EP).step c.okN c.okE mN mE G = (G.overlay H, .done) := by
  refine Prod.ext ?_ ?_
  · rw [step_total (okN := c.okN) (okE := c.okE) ht.1 ht.2, hr.extend]
  · rw [Op.step, both_total (gN := fun G x => G.insertNode x.1 x.2) (gE := fun G x => G.insertEdge x.1 x.2)
      (fun G x => by simp [storeNode, Codecs.okN, ht.1]) (fun G x => by simp [storeEdge, Codecs.okE, ht.2]), hr.firstErr]

/-- storing what is there already -/
theorem takeIn_same {S X α : Type} {f : S → α → Option S} {s : S} (l : List α) (h : ∀ a ∈ l, f s a = some s) :
    takeIn f s (l.map (.ok : α → Except X α)) = (s, .done) := by
  induction l with
  | nil => rfl
  | cons a l ih =>
    rw [List.map_cons, takeIn, h a (by simp)]
    exact ih fun a ha => h a (List.mem_cons_of_mem _ ha)

theorem Spec.Represents.extend_same (hr : Represents src H) {okN : NP → Bool} {okE : EP → Bool} (hN : ∀ n p, H.nodes n = some p → okN p)
    (hE : ∀ t p, H.edges t = some p → okE p) (mN : NP → NP → NP) (mE : EP → EP → EP) :
    (Op.extend src : Op X Id NP EP).step okN okE mN mE H = (H, .done) := by
  obtain ⟨⟨ln, hln, -, hmn⟩, ⟨le, hle, -, hme⟩⟩ := hr
  show both H (fun G x => storeNode okN G x.1 x.2) (fun G x => storeEdge okE G x.1 x.2) src = _
  unfold both
  rw [hln, takeIn_same]
  · rw [hle]
    refine takeIn_same _ ?_
    rintro ⟨t, p⟩ h
    have h := (hme t p).1 h
    simp only [storeEdge, hE t p h, if_true, Option.some.injEq]
    refine Graph.ext' (fun _ => rfl) (fun u => ?_)
    simp only [Graph.insertEdge]
    split
    · next hu => rw [hu, h]
    · rfl
  · rintro ⟨n, p⟩ h
    have h := (hmn n p).1 h
    simp only [storeNode, hN n p h, if_true, Option.some.injEq]
    refine Graph.ext' (fun u => ?_) (fun _ => rfl)
    simp only [Graph.insertNode]
    split
    · next hu => rw [hu, h]
    · rfl

end Verif
