import Verif.Proof.SledBulk

/-! # Reading while others write, `remove_node` scanning piece by piece -/

set_option linter.unusedSectionVars false

namespace Verif

open Spec ConcreteId

variable {Id NP EP E : Type} [LinearOrder Id] [ConcreteId Id] [LawfulId Id]

namespace Sled

open Db

variable {c : Codecs NP EP} {Own : Bytes → Triple Id → Prop} {K : Triple Id → Prop} {M : Id → Prop} {α β : Type}

theorem quiet_scan {n : Id} (o : EdgeOrder) {tree : Db → Tree} (htree : ∀ d, tree d = d.tree o)
    (cls : Triple Id → Id) (hb : ∀ t, Bound.contains (keyBounds1 n) (encOf o t) = true ↔ cls t = n) {R : α → Prop}
    {k : List (Bytes × Bytes) → Prog Db α}
    (hk : ∀ l, (∀ t v, ((encOf o t).1, v) ∈ l → cls t = n ∧ Own v t) → QuietAll c Own K M (k l) R) :
    ∀ (ss : List Nat) (cur : Option Bytes) (acc : List (Bytes × Bytes)),
      (∀ t v, ((encOf o t).1, v) ∈ acc → cls t = n ∧ Own v t) →
      QuietAll c Own K M (scanPieces tree (keyBounds1 n) k ss cur acc) R := by
  have entry : ∀ (s : Db), Neat c Own s → ∀ t v, ((encOf o t).1, v) ∈ (s.tree o).rangeArr (keyBounds1 n) → cls t = n ∧ Own v t :=
    fun s hi t v he => ⟨(hb t).1 (mem_rangeArr.1 he).2, hi.refs o t v (mem_rangeArr.1 he).1⟩
  intro ss
  induction ss with
  | nil =>
    intro cur acc hg s hi
    refine ⟨hi, .refl s, hk _ (fun t v he => ?_)⟩
    rcases List.mem_append.1 he with he | he
    · exact hg t v he
    · rw [htree] at he
      exact entry s hi t v (mem_rest.1 he).1
  | cons p ss ih =>
    intro cur acc hg s hi
    refine ⟨hi, .refl s, ih _ _ (fun t v he => ?_)⟩
    rcases List.mem_append.1 he with he | he
    · exact hg t v he
    · have := List.mem_of_mem_take he
      rw [htree] at this
      exact entry s hi t v (mem_rest.1 this).1

theorem quiet_pieces (hown : ∀ v t u, Own v t → Own v u → t = u) {n : Id} (hK : ∀ t : Triple Id, t.sub = n ∨ t.obj = n → ¬ K t)
    (hM : ¬ M n) (fs bs : List Nat) : QuietAll c Own K M (removeNodePieces fs bs n) (fun _ => True) := by
  unfold removeNodePieces
  refine quiet_scan .SPO (fun _ => rfl) (fun t => t.sub) (fun t => LawfulId.kb1_spo n t) (fun fwd hf => ?_) fs none [] (by simp)
  refine quiet_scan .OSP (fun _ => rfl) (fun t => t.obj) (fun t => LawfulId.kb1_osp n t) (fun bwd hb => ?_) bs none [] (by simp)
  exact quiet_scanned hown hK hM hf hb

theorem hist_piece (hc : c.RoundTrip) (hown : ∀ v t u, Own v t → Own v u → t = u) (mN : NP → NP → NP)
    (mE : EP → EP → EP) (x : PieceCall E Id NP EP)
    (hn : (x.1.writes.map Prod.fst).Nodup) (ho : ∀ y ∈ x.1.writes, Own y.1 y.2) (hs : x.1.Scanned Own)
    (hK : ∀ t, K t → x.1.TouchesEdge t → ∃ i p, x.1 = .insertEdge i t p)
    (hM : ∀ n, M n → x.1 ≠ .removeNode n ∧ ∀ f b, x.1 ≠ .removeNodeScan n f b) (y : Db × (Bytes → Option Bytes)) :
    (histRG c Own K M).Safe (x.prog c mN mE) (x.1.writes.map Prod.fst) y := by
  obtain ⟨x, fs, bs⟩ := x
  have other : (x.prog c mN mE = PieceCall.prog c mN mE (x, fs, bs)) →
      (histRG c Own K M).Safe (PieceCall.prog c mN mE (x, fs, bs)) (x.writes.map Prod.fst) y := fun e =>
    e ▸ hist_prog hc hown mN mE x hn ho hs hK hM y
  cases x with
  | removeNode n =>
    refine hist_quietAll (k := fun _ => .ret ()) (quiet_pieces hown (fun t ht h => ?_) (fun h => (hM n h).1 rfl) fs bs) (fun _ _ _ => trivial) y
    obtain ⟨i, p, e⟩ := hK t h ht
    cases e
  | _ => exact other rfl

variable {d0 : Db} {threads : List (List (PieceCall E Id NP EP))} {mN : NP → NP → NP} {mE : EP → EP → EP}

/-- two moments of an execution -/
theorem hist_pieces (hc : c.RoundTrip) (h0 : d0.Inv Id c) (hd : DistinctIds d0 (calls threads)) (hs : ScansOf d0 (calls threads))
    {x y : Db × List (List (Prog Db Unit))} (h1 : Steps (d0, threads.map (List.map (PieceCall.prog c mN mE))) x) (h2 : Steps x y) :
    ∃ H H', Hist c (owner d0 (allWrites (calls threads))) (OnlyInserted (calls threads)) x.1 H ∧
      Hist c (owner d0 (allWrites (calls threads))) (OnlyInserted (calls threads)) y.1 H' ∧
      Later (owner d0 (allWrites (calls threads))) (OnlyInserted (calls threads)) (NodeKept (calls threads)) x.1 y.1 H H' := by
  have hown := owner_fun h0 hd.1 hd.2
  have e1 : (threads.map (List.map (fun x => (x.prog c mN mE, x.1)))).map (List.map Prod.snd) = calls threads := by
    simp [calls, Function.comp_def]
  have e2 : (threads.map (List.map (fun x => (x.prog c mN mE, x.1)))).map (List.map Prod.fst) =
      threads.map (List.map (PieceCall.prog c mN mE)) := by simp [Function.comp_def]
  have := hist_two (c := c) (K := OnlyInserted (calls threads)) (M := NodeKept (calls threads)) (d0 := d0)
    (ths := threads.map (List.map (fun x => (x.prog c mN mE, x.1)))) h0 (by rw [e1]; exact hd) (by
      rw [e1]
      intro th hth e he hn y
      obtain ⟨th, hth', rfl⟩ := List.mem_map.1 hth
      obtain ⟨x, hx, rfl⟩ := List.mem_map.1 he
      have m1 : th.map Prod.fst ∈ calls threads := List.mem_map_of_mem hth'
      have m2 : x.1 ∈ th.map Prod.fst := List.mem_map_of_mem hx
      exact hist_piece hc hown mN mE x hn (writes_owned _ m1 _ m2) (scans_owned h0 hs _ m1 _ m2)
        (fun t ht => ht _ m1 _ m2) (fun n hn => hn _ m1 _ m2) y)
    (x := x) (y := y) (by rw [e2]; exact h1) h2
  rw [e1] at this
  exact this

end Sled

end Verif
