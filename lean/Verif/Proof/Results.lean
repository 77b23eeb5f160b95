import Verif.Spec.Results
import Verif.Proof.SledWell

/-! # What concurrent calls on a triple store return -/

namespace Verif

open Spec ConcreteId

variable {Id NP EP E : Type} [LinearOrder Id] [ConcreteId Id] {c : Codecs NP EP}

namespace Sled

theorem saved_none {P : Type} {k : Codec P} {p : P} (h : k.ser p = none) : saved k p = .error .serialization := by
  simp [saved, h]

theorem saved_some {P : Type} {k : Codec P} {p : P} {b : Bytes} (h : k.ser p = some b) : saved k p = .ok () := by
  simp [saved, h]

theorem saved_mix {P : Type} {k : Codec P} {m : P → P → P} (hm : Mixes k m) {old p : P} {b : Bytes} (h : k.ser old = some b) :
    saved k (m old p) = saved k p := by
  unfold saved
  rw [hm old p (by rw [h]; rfl)]

theorem insertNode_saved (n : Id) (p : NP) : Keeps Id c (insertNode c n p) (fun r => r = saved c.n p) := by
  unfold insertNode
  cases hb : c.n.ser p with
  | none => exact (saved_none hb).symm
  | some b => exact keeps_call (fun d hd => hd.node n hb) (fun _ _ => (saved_some hb).symm)

theorem insertEdge_saved (i : Id) (t : Triple Id) (p : EP) : Keeps Id c (insertEdge c i t p) (fun r => r = saved c.e p) := by
  unfold insertEdge
  cases hb : c.e.ser p with
  | none => exact (saved_none hb).symm
  | some b =>
    refine keeps_transaction (fun d d' hd h => ⟨?_, (saved_some hb).symm⟩) (fun d e _ h => by cases h)
    cases h
    exact (hd.edge t (toBeBytes i).1).setRec (toBeBytes i).1 hb

theorem mergeNode_saved (hc : c.RoundTrip) {mN : NP → NP → NP} (hm : Mixes c.n mN) (n : Id) (p : NP) :
    Keeps Id c (mergeNode c mN n p) (fun r => r = saved c.n p) := by
  unfold mergeNode
  refine keeps_transaction (fun d d' hd h => ?_) (fun d e hd h => ?_)
  · cases hv : d.nodeProps.get (toBeBytes n).1 with
    | none =>
      simp only [hv] at h
      split at h
      · cases h
      · rename_i b hb
        cases h
        exact ⟨hd.node n hb, (saved_some hb).symm⟩
    | some v =>
      obtain ⟨-, q, hq⟩ := hd.nodes _ _ hv
      simp only [hv, hc.1 _ _ hq] at h
      split at h
      · cases h
      · rename_i b hb
        cases h
        exact ⟨hd.node n hb, by rw [← saved_mix hm hq]; exact (saved_some hb).symm⟩
  · cases hv : d.nodeProps.get (toBeBytes n).1 with
    | none =>
      simp only [hv] at h
      split at h
      · rename_i hb
        cases h
        exact (saved_none hb).symm
      · cases h
    | some v =>
      obtain ⟨-, q, hq⟩ := hd.nodes _ _ hv
      simp only [hv, hc.1 _ _ hq] at h
      split at h
      · rename_i hb
        cases h
        rw [← saved_mix hm hq]
        exact (saved_none hb).symm
      · cases h

theorem mergeEdge_saved (hc : c.RoundTrip) {mE : EP → EP → EP} (hm : Mixes c.e mE) (i : Id) (t : Triple Id) (p : EP) :
    Keeps Id c (mergeEdge c mE i t p) (fun r => r = saved c.e p) := by
  unfold mergeEdge
  refine keeps_transaction (fun d d' hd h => ?_) (fun d e hd h => ?_)
  · have h1 := hd.edge t (toBeBytes i).1
    cases ho : d.spo.get (encodeSpo t).1 with
    | none =>
      simp only [ho] at h
      split at h
      · cases h
      · rename_i b hb
        cases h
        exact ⟨h1.setRec _ hb, (saved_some hb).symm⟩
    | some o =>
      simp only [ho] at h
      split at h
      · split at h
        · cases h
        · rename_i b hb
          cases h
          exact ⟨(h1.unrec o).setRec _ hb, (saved_some hb).symm⟩
      · rename_i v hv
        obtain ⟨q, hq⟩ := hd.recs _ _ hv
        simp only [hc.2 _ _ hq] at h
        split at h
        · cases h
        · rename_i b hb
          cases h
          exact ⟨(h1.unrec o).setRec _ hb, by rw [← saved_mix hm hq]; exact (saved_some hb).symm⟩
  · cases ho : d.spo.get (encodeSpo t).1 with
    | none =>
      simp only [ho] at h
      split at h
      · rename_i hb
        cases h
        exact (saved_none hb).symm
      · cases h
    | some o =>
      simp only [ho] at h
      split at h
      · split at h
        · rename_i hb
          cases h
          exact (saved_none hb).symm
        · cases h
      · rename_i v hv
        obtain ⟨q, hq⟩ := hd.recs _ _ hv
        simp only [hc.2 _ _ hq] at h
        split at h
        · rename_i hb
          cases h
          rw [← saved_mix hm hq]
          exact (saved_none hb).symm
        · cases h

theorem mergeNodes_saved (hc : c.RoundTrip) {mN : NP → NP → NP} (hm : Mixes c.n mN) {α : Type}
    (k : Except (LR SErr E) Unit → Prog Db α) (next : Except (LR SErr E) Unit) {R : α → Prop} (l : List (Except E (Id × NP)))
    (h1 : absorbed (fun x => saved c.n x.2) next l = next → Keeps Id c (k (.ok ())) R)
    (h2 : ∀ x, absorbed (fun x => saved c.n x.2) next l = .error x → Keeps Id c (k (.error x)) R) :
    Keeps Id c (mergeNodes c mN k l) R := by
  induction l with
  | nil => exact h1 rfl
  | cons x l ih =>
    cases x with
    | error e => exact h2 _ rfl
    | ok x =>
      refine (mergeNode_saved hc hm x.1 x.2).bind (fun r hr => ?_)
      unfold absorbed at h1 h2
      rw [← hr] at h1 h2
      cases r with
      | ok => exact ih h1 h2
      | error e => exact h2 _ rfl

theorem mergeEdges_saved (hc : c.RoundTrip) {mE : EP → EP → EP} (hm : Mixes c.e mE) (g : Gen Id)
    (l : List (Except E (Triple Id × EP))) :
    Keeps Id c (mergeEdges c mE g l) (fun r => r.2 = absorbed (fun x => saved c.e x.2) (.ok ()) l) := by
  induction l generalizing g with
  | nil => exact rfl
  | cons x l ih =>
    cases x with
    | error e => exact rfl
    | ok x =>
      refine (mergeEdge_saved hc hm _ x.1 x.2).bind (fun r hr => ?_)
      simp only [absorbed]
      rw [← hr]
      cases r with
      | ok => exact ih _
      | error e => exact rfl

theorem merge_saved (hc : c.RoundTrip) {mN : NP → NP → NP} {mE : EP → EP → EP} (hn : Mixes c.n mN) (he : Mixes c.e mE) (g : Gen Id)
    (src : Source E Id NP EP) : Keeps Id c (merge c mN mE g src)
      (fun r => r.2 = absorbed (fun x => saved c.n x.2) (absorbed (fun x => saved c.e x.2) (.ok ()) src.edges) src.nodes) := by
  unfold merge
  refine mergeNodes_saved hc hn _ (absorbed (fun x : Triple Id × EP => saved c.e x.2) (.ok ()) src.edges) _ (fun h => ?_) (fun x h => h.symm)
  rw [h]
  exact mergeEdges_saved hc he g src.edges

theorem extendNodes_saved {α : Type} (k : Except (LR SErr E) Unit → Prog Db α) (next : Except (LR SErr E) Unit)
    {R : α → Prop} (l : List (Except E (Id × NP)))
    (h1 : absorbed (fun x => saved c.n x.2) next l = next → Keeps Id c (k (.ok ())) R)
    (h2 : ∀ x, absorbed (fun x => saved c.n x.2) next l = .error x → Keeps Id c (k (.error x)) R) :
    Keeps Id c (extendNodes c k l) R := by
  induction l with
  | nil => exact h1 rfl
  | cons x l ih =>
    cases x with
    | error e => exact h2 _ rfl
    | ok x =>
      unfold extendNodes
      unfold absorbed at h1 h2
      cases hb : c.n.ser x.2 with
      | none => exact h2 _ (by rw [saved_none hb])
      | some b =>
        rw [saved_some hb] at h1 h2
        exact keeps_call (fun d hd => hd.node x.1 hb) (fun _ _ => ih h1 h2)

theorem extendEdges_saved (u : Gen Ulid) (l : List (Except E (Triple Id × EP))) :
    Keeps Id c (extendEdges c u l) (fun r => r.2 = absorbed (fun x => saved c.e x.2) (.ok ()) l) := by
  induction l generalizing u with
  | nil => exact rfl
  | cons x l ih =>
    cases x with
    | error e => exact rfl
    | ok x =>
      unfold extendEdges
      simp only [absorbed]
      cases hb : c.e.ser x.2 with
      | none => rw [saved_none hb]; exact rfl
      | some b =>
        rw [saved_some hb]
        refine keeps_call (fun d hd => hd.setRec _ hb) (fun _ _ => keeps_call (fun d hd => ?_) (fun d1 _ =>
          keeps_call (fun d hd => ?_) (fun _ _ => keeps_call (fun d hd => ?_) (fun _ _ => ?_))))
        · exact hd.put (sized_insert (hd.keys .SPO) _ _) (hd.keys .POS) (hd.keys .OSP)
        · exact hd.put (hd.keys .SPO) (sized_insert (hd.keys .POS) _ _) (hd.keys .OSP)
        · exact hd.put (hd.keys .SPO) (hd.keys .POS) (sized_insert (hd.keys .OSP) _ _)
        · cases d1.spo.get (encodeSpo x.1).1 with
          | none => exact ih _
          | some o => exact keeps_call (fun d hd => hd.unrec o) (fun _ _ => ih _)

theorem extend_saved (u : Gen Ulid) (src : Source E Id NP EP) : Keeps Id c (extend c u src)
    (fun r => r.2 = absorbed (fun x => saved c.n x.2) (absorbed (fun x => saved c.e x.2) (.ok ()) src.edges) src.nodes) := by
  unfold extend
  refine extendNodes_saved _ (absorbed (fun x : Triple Id × EP => saved c.e x.2) (.ok ()) src.edges) _ (fun h => ?_) (fun x h => h.symm)
  rw [h]
  exact extendEdges_saved u src.edges

theorem Call.result_expected (hc : c.RoundTrip) {mN : NP → NP → NP} {mE : EP → EP → EP} (hn : Mixes c.n mN) (he : Mixes c.e mE)
    (x : Call E Id NP EP)
    (hs : ∀ n fwd bwd, x = .removeNodeScan n fwd bwd → ∀ e ∈ fwd ++ bwd, e.1.length = tripleLen (Id := Id)) :
    Keeps Id c (x.result c mN mE) (fun r => r = x.expected c) := by
  have item : ∀ (p : Prog Db (Except SErr Unit)) (g : Except SErr Unit), Keeps Id c p (fun r => r = g) →
      Keeps Id c (p.bind (fun r => .ret (SledStore.tag (E := E) r))) (fun r => r = SledStore.tag g) :=
    fun p g h => h.bind (fun r hr => congrArg SledStore.tag hr)
  cases x with
  | insertNode n p => exact item _ _ (insertNode_saved n p)
  | insertEdge i t p => exact item _ _ (insertEdge_saved i t p)
  | removeNode n => exact item _ _ (removeNode_keeps n)
  | removeNodeScan n fwd bwd => exact item _ _ ((removeNodeScanned_keeps n fwd bwd).mono (fun r hr => hr (hs n fwd bwd rfl)))
  | removeEdge t => exact item _ _ (removeEdge_keeps t)
  | mergeNode n p => exact item _ _ (mergeNode_saved hc hn n p)
  | mergeEdge i t p => exact item _ _ (mergeEdge_saved hc he i t p)
  | extend u src => exact (extend_saved u src).bind (fun r hr => hr)
  | merge g src => exact (merge_saved hc hn he g src).bind (fun r hr => hr)

end Sled

end Verif
