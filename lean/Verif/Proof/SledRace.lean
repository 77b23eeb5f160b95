import Mathlib.Data.List.Induction
import Verif.Spec.SledRace
import Verif.Proof.Reads

/-! # Each ordering on its own -/

set_option linter.unusedSectionVars false

namespace Verif

open Spec ConcreteId

variable {Id NP EP E : Type} [LinearOrder Id] [ConcreteId Id]

/-- The program does `L` to the ordering `o`, as far as the edges in `U` are concerned; `some t`: it has already taken `t` out, and
will do so again. -/
def Enters (c : Codecs NP EP) (o : EdgeOrder) (U : Triple Id → Prop) {α : Type} (R : α → Prop) :
    Prog Db α → Option (Triple Id) → List (Ev Id) → Prop
  | .ret a, p, L => R a ∧ p = none ∧ L = []
  | .call f k, p, L => ∀ s, Decodable c s → Decodable c (f s) ∧
    ((∀ u, U u → (f s).idIn o u = s.idIn o u) ∧ Enters c o U R (k s) p L ∨
     (∃ t, p = none ∧ (∀ u, U u → u ≠ t → (f s).idIn o u = s.idIn o u) ∧ Enters c o U R (k s) (some t) L) ∨
     ∃ e L', L = e :: L' ∧ (∀ u, U u → (f s).idIn o u = e.on (s.idIn o) u) ∧ (∀ t, p = some t → e = .del t) ∧
       Enters c o U R (k s) none L')

namespace Enters

variable {c : Codecs NP EP} {o : EdgeOrder} {U : Triple Id → Prop} {α β : Type} {R : α → Prop} {R' : β → Prop}

theorem bind {p : Prog Db α} {k : α → Prog Db β} {t : Option (Triple Id)} {L L' : List (Ev Id)} (h : Enters c o U R p t L)
    (hk : ∀ a, R a → Enters c o U R' (k a) none L') : Enters c o U R' (p.bind k) t (L ++ L') := by
  induction p generalizing t L with
  | ret a =>
    obtain ⟨h1, rfl, rfl⟩ := h
    exact hk a h1
  | call f j ih =>
    intro s hs
    obtain ⟨h0, h | ⟨u, h1, h2, h3⟩ | ⟨e, L1, rfl, h2, h3, h4⟩⟩ := h s hs
    · exact ⟨h0, .inl ⟨h.1, ih s h.2⟩⟩
    · exact ⟨h0, .inr (.inl ⟨u, h1, h2, ih s h3⟩)⟩
    · exact ⟨h0, .inr (.inr ⟨e, L1 ++ L', rfl, h2, h3, ih s h4⟩)⟩

theorem done {a : α} (h : R a) : Enters c o U R (.ret a) none [] := ⟨h, rfl, rfl⟩

theorem silent {f : Db → Db} {k : Db → Prog Db α} {t : Option (Triple Id)} {L : List (Ev Id)}
    (h : ∀ s, Decodable c s → Decodable c (f s) ∧ (∀ u, U u → (f s).idIn o u = s.idIn o u) ∧ Enters c o U R (k s) t L) :
    Enters c o U R (.call f k) t L := fun s hs => ⟨(h s hs).1, .inl (h s hs).2⟩

theorem emit {f : Db → Db} {k : Db → Prog Db α} {t : Option (Triple Id)} {e : Ev Id} {L : List (Ev Id)}
    (ht : ∀ u, t = some u → e = .del u)
    (h : ∀ s, Decodable c s → Decodable c (f s) ∧ (∀ u, U u → (f s).idIn o u = e.on (s.idIn o) u) ∧ Enters c o U R (k s) none L) :
    Enters c o U R (.call f k) t (e :: L) := fun s hs => ⟨(h s hs).1, .inr (.inr ⟨e, L, rfl, (h s hs).2.1, ht, (h s hs).2.2⟩)⟩

/-- a transaction that commits -/
theorem tx {f : Db → Except SErr Db} {e : Ev Id}
    (h : ∀ s, Decodable c s → ∃ s', f s = .ok s' ∧ Decodable c s' ∧ ∀ u, s'.idIn o u = e.on (s.idIn o) u) :
    Enters c o U (fun r => r = .ok ()) (transaction f) none [e] := by
  refine emit (by simp) (fun s hs => ?_)
  obtain ⟨s', h1, h2, h3⟩ := h s hs
  simp only [h1]
  exact ⟨h2, fun u _ => h3 u, done rfl⟩

theorem tx_silent {f : Db → Except SErr Db}
    (h : ∀ s, Decodable c s → ∃ s', f s = .ok s' ∧ Decodable c s' ∧ ∀ u : Triple Id, s'.idIn o u = s.idIn o u) :
    Enters c o U (fun r => r = .ok ()) (transaction f) none [] := by
  refine silent (fun s hs => ?_)
  obtain ⟨s', h1, h2, h3⟩ := h s hs
  simp only [h1]
  exact ⟨h2, fun u _ => h3 u, done rfl⟩

end Enters

namespace Spec.Decodable

variable {c : Codecs NP EP} {d : Db}

theorem node (h : Decodable c d) (hc : c.RoundTrip) {k b : Bytes} {p : NP} (hp : c.n.ser p = some b) :
    Decodable c { d with nodeProps := d.nodeProps.insert k b } := by
  refine ⟨fun k' b' h' => ?_, h.2⟩
  rw [BMap.get_insert] at h'
  split at h'
  · cases h'; rw [hc.1 p b hp]; rfl
  · exact h.1 k' b' h'

theorem edge (h : Decodable c d) (hc : c.RoundTrip) {k b : Bytes} {p : EP} (hp : c.e.ser p = some b) :
    Decodable c { d with edgeProps := d.edgeProps.insert k b } := by
  refine ⟨h.1, fun k' b' h' => ?_⟩
  rw [BMap.get_insert] at h'
  split at h'
  · cases h'; rw [hc.2 p b hp]; rfl
  · exact h.2 k' b' h'

theorem erase (h : Decodable c d) (k : Bytes) : Decodable c { d with edgeProps := d.edgeProps.erase k } := by
  refine ⟨h.1, fun k' b' h' => ?_⟩
  rw [BMap.get_erase] at h'
  split at h'
  · cases h'
  · exact h.2 k' b' h'

/-- Decodability does not depend on the orderings, and is kept by removals. -/
theorem sub (h : Decodable c d) {d' : Db} (hn : ∀ k b, d'.nodeProps.get k = some b → d.nodeProps.get k = some b)
    (he : ∀ k b, d'.edgeProps.get k = some b → d.edgeProps.get k = some b) : Decodable c d' :=
  ⟨fun k b hk => h.1 k b (hn k b hk), fun k b hk => h.2 k b (he k b hk)⟩

end Spec.Decodable

namespace Sled

open Verif.Db

variable {c : Codecs NP EP} {mN : NP → NP → NP} {mE : EP → EP → EP} [LaidOutId Id] {o : EdgeOrder} {U : Triple Id → Prop}

omit [LaidOutId Id] in
/-- an ordering after writing, or removing, one entry of one ordering -/
theorem idIn_put [LawfulId Id] (d : Db) (o' : EdgeOrder) (t : Triple Id) (x : Option Bytes) (u : Triple Id) :
    (match o' with
      | .SPO => d.put .spo (encodeSpo t).1 x
      | .POS => d.put .pos (encodePos t).1 x
      | .OSP => d.put .osp (encodeOsp t).1 x).idIn o u =
      if o = o' ∧ u = t then x else d.idIn o u := by
  have hk := encOf_inj o (t := u) (u := t)
  cases o <;> cases o' <;> simp only [idIn, Db.tree, Db.put, Tree.get_put, encOf, reduceCtorEq, false_and, if_false, true_and] at hk ⊢ <;>
    simp only [hk]

theorem enters_insertNode (hc : c.RoundTrip) (ht : c.Total) (n : Id) (p : NP) :
    Enters c o U (fun r => r = .ok ()) (insertNode c n p) none [] := by
  unfold insertNode
  obtain ⟨b, hb⟩ := Option.isSome_iff_exists.1 (ht.1 p)
  simp only [hb]
  exact Enters.silent (fun s hs => ⟨hs.node hc hb, fun u _ => by cases o <;> rfl, Enters.done rfl⟩)

theorem enters_insertEdge (hc : c.RoundTrip) (ht : c.Total) (i : Id) (t : Triple Id) (p : EP) :
    Enters c o U (fun r => r = .ok ()) (insertEdge c i t p) none [.put (be i) t] := by
  unfold insertEdge
  obtain ⟨b, hb⟩ := Option.isSome_iff_exists.1 (ht.2 p)
  simp only [hb]
  refine Enters.tx (fun s hs => ⟨_, rfl, (hs.edge (k := (toBeBytes i).1) hc hb).sub (fun _ _ h => h) (fun _ _ h => h), fun u => ?_⟩)
  exact (setEdge_idIn s t (be i) o u).trans rfl

theorem enters_mergeNode (hc : c.RoundTrip) (ht : c.Total) (n : Id) (p : NP) :
    Enters c o U (fun r => r = .ok ()) (mergeNode c mN n p) none [] := by
  refine Enters.tx_silent (fun s hs => ?_)
  cases hg : s.nodeProps.get (toBeBytes n).1 with
  | none =>
    obtain ⟨b, hb⟩ := Option.isSome_iff_exists.1 (ht.1 p)
    exact ⟨_, by simp only [hb]; rfl, hs.node hc hb, fun u => by cases o <;> rfl⟩
  | some v =>
    obtain ⟨old, ho⟩ := Option.isSome_iff_exists.1 (hs.1 _ v hg)
    obtain ⟨b, hb⟩ := Option.isSome_iff_exists.1 (ht.1 (mN old p))
    exact ⟨_, by simp only [ho, hb]; rfl, hs.node hc hb, fun u => by cases o <;> rfl⟩

theorem enters_mergeEdge (hc : c.RoundTrip) (ht : c.Total) (i : Id) (t : Triple Id) (p : EP) :
    Enters c o U (fun r => r = .ok ()) (mergeEdge c mE i t p) none [.put (be i) t] := by
  refine Enters.tx (fun s hs => ?_)
  obtain ⟨b, hb⟩ := Option.isSome_iff_exists.1 (ht.2 p)
  have hid : ∀ u, (s.setEdge t (be i)).idIn o u = (Ev.put (be i) t).on (s.idIn o) u := fun u => setEdge_idIn s t (be i) o u
  cases hg : s.spo.get (encodeSpo t).1 with
  | none =>
    exact ⟨{ s.setEdge t (be i) with edgeProps := s.edgeProps.insert (be i) b }, by simp only [hb]; rfl, (hs.edge (k := be i) hc hb).sub (fun _ _ h => h) (fun _ _ h => h),
      fun u => .trans (by cases o <;> rfl) (hid u)⟩
  | some w =>
    cases hw : s.edgeProps.get w with
    | none =>
      exact ⟨{ s.setEdge t (be i) with edgeProps := (s.edgeProps.erase w).insert (be i) b }, by simp only [hw, hb]; rfl,
        ((hs.erase w).edge (k := be i) hc hb).sub (fun _ _ h => h) (fun _ _ h => h),
        fun u => .trans (by cases o <;> rfl) (hid u)⟩
    | some v =>
      obtain ⟨old, ho⟩ := Option.isSome_iff_exists.1 (hs.2 _ v hw)
      obtain ⟨b, hb⟩ := Option.isSome_iff_exists.1 (ht.2 (mE old p))
      exact ⟨{ s.setEdge t (be i) with edgeProps := (s.edgeProps.erase w).insert (be i) b }, by simp only [hw, ho, hb]; rfl,
        ((hs.erase w).edge (k := be i) hc hb).sub (fun _ _ h => h) (fun _ _ h => h),
        fun u => .trans (by cases o <;> rfl) (hid u)⟩

theorem enters_removeEdge (t : Triple Id) :
    Enters c o U (fun r => r = .ok ()) (removeEdge t) none [.del t] := by
  have gone : ∀ (s : Db), Decodable c s → ∀ (x : Option Bytes),
      Decodable c { s with edgeProps := match x with | some i => s.edgeProps.erase i | none => s.edgeProps } := by
    intro s hs x
    cases x with
    | none => exact hs
    | some i => exact hs.erase i
  have last : ∀ x : Option Bytes, Enters c o U (fun r : Except SErr Unit => r = .ok ())
      (match x with
        | some i => .call (fun d => { d with edgeProps := d.edgeProps.erase i }) (fun _ => .ret (.ok ()))
        | none => .ret (.ok ())) none [] := by
    intro x
    cases x with
    | none => exact Enters.done rfl
    | some i => exact Enters.silent (fun s hs => ⟨hs.erase i, fun u _ => by cases o <;> rfl, Enters.done rfl⟩)
  intro s hs
  refine ⟨(gone s hs _).sub (fun _ _ h => h) (fun _ _ h => h), .inr (.inl ⟨t, rfl, fun u _ hu => ?_, ?_⟩)⟩
  · refine .trans (b := (s.unsetEdge t).idIn o u) (by cases o <;> rfl) ?_
    rw [unsetEdge_idIn, if_neg hu]
  have i1 := fun s u => idIn_put (o := o) s .SPO t none u
  have i2 := fun s u => idIn_put (o := o) s .POS t none u
  have i3 := fun s u => idIn_put (o := o) s .OSP t none u
  have hdec : ∀ s : Db, Decodable c s → ∀ T k, (T = .spo ∨ T = .pos ∨ T = .osp) → Decodable c (s.put T k none) := by
    rintro s hs T k (rfl | rfl | rfl) <;> exact hs.sub (fun _ _ h => h) (fun _ _ h => h)
  cases o with
  | SPO =>
    refine Enters.emit (by rintro u ⟨⟩; rfl) (fun s hs => ⟨hdec s hs .spo _ (by simp), fun u _ => (i1 s u).trans (by simp [Ev.on]), ?_⟩)
    refine Enters.silent (fun s hs => ⟨hdec s hs .pos _ (by simp), fun u _ => (i2 s u).trans (by simp), ?_⟩)
    refine Enters.silent (fun s hs => ⟨hdec s hs .osp _ (by simp), fun u _ => (i3 s u).trans (by simp), last _⟩)
  | POS =>
    refine Enters.silent (fun s hs => ⟨hdec s hs .spo _ (by simp), fun u _ => (i1 s u).trans (by simp), ?_⟩)
    refine Enters.emit (by rintro u ⟨⟩; rfl) (fun s hs => ⟨hdec s hs .pos _ (by simp), fun u _ => (i2 s u).trans (by simp [Ev.on]), ?_⟩)
    refine Enters.silent (fun s hs => ⟨hdec s hs .osp _ (by simp), fun u _ => (i3 s u).trans (by simp), last _⟩)
  | OSP =>
    refine Enters.silent (fun s hs => ⟨hdec s hs .spo _ (by simp), fun u _ => (i1 s u).trans (by simp), ?_⟩)
    refine Enters.silent (fun s hs => ⟨hdec s hs .pos _ (by simp), fun u _ => (i2 s u).trans (by simp), ?_⟩)
    refine Enters.emit (by rintro u ⟨⟩; rfl) (fun s hs => ⟨hdec s hs .osp _ (by simp), fun u _ => (i3 s u).trans (by simp [Ev.on]), last _⟩)

/-! ### remove_node -/

/-- the zone of a node, with all records -/
def nodeZone (n : Id) : Zone Id :=
  { nodes := fun m => m = n, edges := fun t => t.sub = n ∨ t.obj = n, gone := fun m => m = n, recs := fun _ => True }

omit [LinearOrder Id] [ConcreteId Id] [LaidOutId Id] in
theorem nodeZone_whole (n : Id) : (nodeZone n).Whole := by
  rintro m rfl
  exact ⟨rfl, fun _ h => h⟩

theorem not_cell (n : Id) (u : Triple Id) (h : u.sub ≠ n ∧ u.obj ≠ n) :
    ¬ (nodeZone n).Cell .spo (encodeSpo u).1 ∧ ¬ (nodeZone n).Cell .pos (encodePos u).1 ∧ ¬ (nodeZone n).Cell .osp (encodeOsp u).1 := by
  rw [LaidOutId.spo, LaidOutId.pos, LaidOutId.osp]
  refine ⟨?_, ?_, ?_⟩
  · rintro (⟨t, h1, h2⟩ | ⟨m, rfl, h2⟩)
    · rw [Zone.spo_inj h2] at h; rcases h1 with h1 | h1 <;> simp_all
    · rw [List.append_assoc] at h2; exact h.1 (be_prefix h2).symm
  · rintro ⟨t, h1, h2⟩
    rw [Zone.pos_inj h2] at h; rcases h1 with h1 | h1 <;> simp_all
  · rintro (⟨t, h1, h2⟩ | ⟨m, rfl, h2⟩)
    · rw [Zone.osp_inj h2] at h; rcases h1 with h1 | h1 <;> simp_all
    · rw [List.append_assoc] at h2; exact h.2 (be_prefix h2).symm

theorem enters_removeNodeTx (n : Id) (hU : ∀ u, U u → u.sub ≠ n ∧ u.obj ≠ n) {fb bb : Batch} (hf : fb.In (nodeZone n))
    (hb : bb.In (nodeZone n)) : Enters c o U (fun _ => True) (removeNodeTx n fb bb) none [] := by
  refine Enters.silent (fun s hs => ⟨?_, fun u hu => ?_, Enters.done trivial⟩)
  · refine hs.sub (fun k b hk => ?_) (fun k b hk => ?_)
    · simp only [BMap.get_erase] at hk
      split at hk
      · cases hk
      · exact hk
    · simp only [applyBatch_get] at hk
      split at hk
      · cases hk
      · split at hk
        · cases hk
        · exact hk
  · obtain ⟨h1, h2, h3⟩ := not_cell n u (hU u hu)
    cases o <;> simp only [idIn, Db.tree, encOf, applyBatch_get]
    · rw [if_neg (fun h => h1 (hb.spo _ h)), if_neg (fun h => h1 (hf.spo _ h))]
    · rw [if_neg (fun h => h2 (hb.pos _ h)), if_neg (fun h => h2 (hf.pos _ h))]
    · rw [if_neg (fun h => h3 (hb.osp _ h)), if_neg (fun h => h3 (hf.osp _ h))]

theorem enters_removeNode (n : Id) (hU : ∀ u, U u → u.sub ≠ n ∧ u.obj ≠ n) : Enters c o U (fun _ => True) (removeNode n) none [] := by
  refine Enters.silent (fun s hs => ⟨hs, fun _ _ => rfl, ?_⟩)
  cases hf : forwardBatch Id ⟨[], [], [], []⟩ (s.spo.rangeArr (keyBounds1 n)) with
  | error e => exact Enters.done trivial
  | ok fb =>
    refine Enters.silent (fun s' hs => ⟨hs, fun _ _ => rfl, ?_⟩)
    cases hb : backwardBatch Id ⟨[], [], [], []⟩ (s'.osp.rangeArr (keyBounds1 n)) with
    | error e => exact Enters.done trivial
    | ok bb =>
      refine enters_removeNodeTx n hU (forwardBatch_in (nodeZone_whole n) rfl .nil (fun e he => ?_) hf)
        (backwardBatch_in (nodeZone_whole n) rfl .nil (fun e he => ?_) hb)
      · exact ⟨LaidOutId.range1 n e.1 (mem_rangeArr_bytes he).2, trivial⟩
      · exact ⟨LaidOutId.range1 n e.1 (mem_rangeArr_bytes he).2, trivial⟩

theorem enters_removeNodeScanned (n : Id) (hU : ∀ u, U u → u.sub ≠ n ∧ u.obj ≠ n) {fwd bwd : List (Bytes × Bytes)}
    (h : ∀ e, e ∈ fwd ∨ e ∈ bwd → be n <+: e.1) : Enters c o U (fun _ => True) (removeNodeScanned n fwd bwd) none [] := by
  unfold removeNodeScanned
  cases hf : forwardBatch Id ⟨[], [], [], []⟩ fwd with
  | error e => exact Enters.done trivial
  | ok fb =>
    cases hb : backwardBatch Id ⟨[], [], [], []⟩ bwd with
    | error e => exact Enters.done trivial
    | ok bb =>
      exact enters_removeNodeTx n hU (forwardBatch_in (nodeZone_whole n) rfl .nil (fun e he => ⟨h e (.inl he), trivial⟩) hf)
        (backwardBatch_in (nodeZone_whole n) rfl .nil (fun e he => ⟨h e (.inr he), trivial⟩) hb)

/-! ### bulk operations -/

theorem enters_mergeNodes (hc : c.RoundTrip) (ht : c.Total) {α : Type} {R : α → Prop} {k : Except (LR SErr E) Unit → Prog Db α}
    {L : List (Ev Id)} (l : List (Except E (Id × NP)))
    (hk : ∀ r, (if fails l then ∃ e, r = .error e else r = .ok ()) → Enters c o U R (k r) none L) :
    Enters c o U R (mergeNodes c mN k l) none L := by
  induction l with
  | nil => exact hk _ rfl
  | cons x l ih =>
    cases x with
    | error e => exact hk _ ⟨_, rfl⟩
    | ok x =>
      refine (enters_mergeNode hc ht x.1 x.2).bind (L := []) (fun r hr => ?_)
      subst hr
      exact ih hk

theorem enters_extendNodes (hc : c.RoundTrip) (ht : c.Total) {α : Type} {R : α → Prop} {k : Except (LR SErr E) Unit → Prog Db α}
    {L : List (Ev Id)} (l : List (Except E (Id × NP)))
    (hk : ∀ r, (if fails l then ∃ e, r = .error e else r = .ok ()) → Enters c o U R (k r) none L) :
    Enters c o U R (extendNodes c k l) none L := by
  induction l with
  | nil => exact hk _ rfl
  | cons x l ih =>
    cases x with
    | error e => exact hk _ ⟨_, rfl⟩
    | ok x =>
      unfold extendNodes
      obtain ⟨b, hb⟩ := Option.isSome_iff_exists.1 (ht.1 x.2)
      simp only [hb]
      exact Enters.silent (fun s hs => ⟨hs.node hc hb, fun u _ => by cases o <;> rfl, ih hk⟩)

theorem enters_mergeEdges (hc : c.RoundTrip) (ht : c.Total) (g : Gen Id) (l : List (Except E (Triple Id × EP))) :
    Enters c o U (fun _ => True) (mergeEdges c mE g l) none ((Call.drawnFor g l).map (fun x => .put x.1 x.2)) := by
  induction l generalizing g with
  | nil => exact Enters.done trivial
  | cons x l ih =>
    cases x with
    | error e => exact Enters.done trivial
    | ok x =>
      refine (enters_mergeEdge hc ht (Gen.fresh g).1 x.1 x.2).bind (L := [_]) (fun r hr => ?_)
      subst hr
      exact ih _

theorem enters_extendEdges (hc : c.RoundTrip) (ht : c.Total) (g : Gen Ulid) (l : List (Except E (Triple Id × EP))) :
    Enters c o U (fun _ => True) (extendEdges c g l) none ((Call.drawnFor g l).map (fun x => .put x.1 x.2)) := by
  induction l generalizing g with
  | nil => exact Enters.done trivial
  | cons x l ih =>
    cases x with
    | error e => exact Enters.done trivial
    | ok x =>
      unfold extendEdges
      obtain ⟨b, hb⟩ := Option.isSome_iff_exists.1 (ht.2 x.2)
      simp only [hb]
      have i1 := fun s u => idIn_put (o := o) s .SPO x.1 (some (toBeBytes (Gen.fresh g).1).1) u
      have i2 := fun s u => idIn_put (o := o) s .POS x.1 (some (toBeBytes (Gen.fresh g).1).1) u
      have i3 := fun s u => idIn_put (o := o) s .OSP x.1 (some (toBeBytes (Gen.fresh g).1).1) u
      have hdec : ∀ s : Db, Decodable c s → ∀ T k y, (T = .spo ∨ T = .pos ∨ T = .osp) → Decodable c (s.put T k y) := by
        rintro s hs T k y (rfl | rfl | rfl) <;> exact hs.sub (fun _ _ h => h) (fun _ _ h => h)
      have last : ∀ y : Option Bytes, Enters c o U (fun _ => True)
          (match y with
            | some w => .call (fun d => { d with edgeProps := d.edgeProps.erase w }) (fun _ => extendEdges c (Gen.fresh g).2 l)
            | none => extendEdges c (Gen.fresh g).2 l) none ((Call.drawnFor (Gen.fresh g).2 l).map (fun x => .put x.1 x.2)) := by
        intro y
        cases y with
        | none => exact ih _
        | some w => exact Enters.silent (fun s hs => ⟨hs.erase w, fun u _ => by cases o <;> rfl, ih _⟩)
      refine Enters.silent (fun s hs => ⟨hs.edge hc hb, fun u _ => by cases o <;> rfl, ?_⟩)
      cases o with
      | SPO =>
        refine Enters.emit (by simp) (fun s hs => ⟨hdec s hs .spo _ (some _) (by simp), fun u _ => (i1 s u).trans (by simp [Ev.on]), ?_⟩)
        refine Enters.silent (fun s hs => ⟨hdec s hs .pos _ (some _) (by simp), fun u _ => (i2 s u).trans (by simp), ?_⟩)
        refine Enters.silent (fun s hs => ⟨hdec s hs .osp _ (some _) (by simp), fun u _ => (i3 s u).trans (by simp), last _⟩)
      | POS =>
        refine Enters.silent (fun s hs => ⟨hdec s hs .spo _ (some _) (by simp), fun u _ => (i1 s u).trans (by simp), ?_⟩)
        refine Enters.emit (by simp) (fun s hs => ⟨hdec s hs .pos _ (some _) (by simp), fun u _ => (i2 s u).trans (by simp [Ev.on]), ?_⟩)
        refine Enters.silent (fun s hs => ⟨hdec s hs .osp _ (some _) (by simp), fun u _ => (i3 s u).trans (by simp), last _⟩)
      | OSP =>
        refine Enters.silent (fun s hs => ⟨hdec s hs .spo _ (some _) (by simp), fun u _ => (i1 s u).trans (by simp), ?_⟩)
        refine Enters.silent (fun s hs => ⟨hdec s hs .pos _ (some _) (by simp), fun u _ => (i2 s u).trans (by simp), ?_⟩)
        refine Enters.emit (by simp) (fun s hs => ⟨hdec s hs .osp _ (some _) (by simp), fun u _ => (i3 s u).trans (by simp [Ev.on]), last _⟩)

theorem enters_call (hc : c.RoundTrip) (ht : c.Total) (x : Call E Id NP EP) (hU : ∀ u, U u → x.Spares u)
    (hs : x.Scans) :
    Enters c o U (fun _ => True) (x.prog c mN mE) none x.events := by
  have hr : ∀ {α : Type} {R : α → Prop} {p : Prog Db α} {L : List (Ev Id)}, Enters c o U R p none L →
      Enters c o U (fun _ => True) (p.bind (fun _ => .ret ())) none L := fun {α R p L} h => by
    have := h.bind (k := fun _ => .ret ()) (R' := fun _ => True) (L' := []) (fun _ _ => Enters.done trivial)
    rwa [List.append_nil] at this
  cases x with
  | insertNode n p => exact hr (enters_insertNode hc ht n p)
  | insertEdge i t p => exact hr (enters_insertEdge hc ht i t p)
  | removeNode n => exact hr (enters_removeNode n hU)
  | removeNodeScan n fwd bwd => exact hr (enters_removeNodeScanned n hU hs)
  | removeEdge t => exact hr (enters_removeEdge t)
  | mergeNode n p => exact hr (enters_mergeNode hc ht n p)
  | mergeEdge i t p => exact hr (enters_mergeEdge hc ht i t p)
  | extend u src =>
    refine hr (R := fun _ => True) (enters_extendNodes hc ht _ (fun r h => ?_))
    simp only [Call.events]
    split at h
    · next hf => obtain ⟨e, rfl⟩ := h; rw [if_pos hf]; exact Enters.done trivial
    · next hf => subst h; rw [if_neg hf]; exact enters_extendEdges hc ht u src.edges
  | merge g src =>
    refine hr (R := fun _ => True) (enters_mergeNodes hc ht _ (fun r h => ?_))
    simp only [Call.events]
    split at h
    · next hf => obtain ⟨e, rfl⟩ := h; rw [if_pos hf]; exact Enters.done trivial
    · next hf => subst h; rw [if_neg hf]; exact enters_mergeEdges hc ht g src.edges

end Sled

/-! ## Threads -/

/-- a function that is running, whether it has taken out an edge that it will take out again, and what it will do to the ordering -/
abbrev Task (Id : Type) := Prog Db Unit × Option (Triple Id) × List (Ev Id)

/-- From here on, the ordering ends as if the events were done in some order. -/
def Serial (c : Codecs NP EP) (o : EdgeOrder) (U : Triple Id → Prop) (d : Db) (x : Db × List (List (Prog Db Unit))) : Prop :=
  ∀ W : List (List (Task Id)), x.2 = W.map (List.map Prod.fst) →
    (∀ q ∈ W, ∀ e ∈ q, Enters c o U (fun _ => True) e.1 e.2.1 e.2.2) → Decodable c x.1 →
    ∀ b : Triple Id → Option Bytes, (∀ u, U u → (∀ q ∈ W, ∀ e ∈ q, e.2.1 ≠ some u) → b u = x.1.idIn o u) →
      ∃ h, Shuffle false (W.map (List.flatMap (fun e => e.2.2))) h ∧ ∀ u, U u → d.idIn o u = h.foldl Ev.on b u

section
variable {c : Codecs NP EP} {o : EdgeOrder} {U : Triple Id → Prop} {d : Db}

theorem Serial.step {x y : Db × List (List (Prog Db Unit))} (hs : CalmStep x y) (hy : Serial c o U d y) : Serial c o U d x := by
  intro W hW hD hJ b hb
  cases hs with
  | call s pre post f k q =>
    obtain ⟨Wp, Wr, rfl, rfl, h1⟩ := List.map_eq_append_iff.1 hW.symm
    obtain ⟨w, Wq, rfl, h2, rfl⟩ := List.map_eq_cons_iff.1 h1
    obtain ⟨⟨p, t, L⟩, w, rfl, rfl, rfl⟩ := List.map_eq_cons_iff.1 h2
    have hT : Enters c o U (fun _ => True) (.call f k) t L := hD _ (List.mem_append_right _ List.mem_cons_self) _ List.mem_cons_self
    obtain ⟨hJ', h⟩ := hT s hJ
    have hD' : ∀ t' L', Enters c o U (fun _ => True) (k s) t' L' →
        ∀ q ∈ Wp ++ ((k s, t', L') :: w) :: Wq, ∀ e ∈ q, Enters c o U (fun _ => True) e.1 e.2.1 e.2.2 := by
      intro t' L' h' q hq e he
      rcases List.mem_append.1 hq with hq | hq
      · exact hD q (List.mem_append_left _ hq) e he
      · rcases List.mem_cons.1 hq with rfl | hq
        · rcases List.mem_cons.1 he with rfl | he
          · exact h'
          · exact hD _ (List.mem_append_right _ List.mem_cons_self) e (List.mem_cons_of_mem _ he)
        · exact hD q (List.mem_append_right _ (List.mem_cons_of_mem _ hq)) e he
    have hpend : ∀ {t' L' u}, (∀ q ∈ Wp ++ ((k s, t', L') :: w) :: Wq, ∀ e ∈ q, e.2.1 ≠ some u) → t ≠ some u →
        ∀ q ∈ Wp ++ ((Prog.call f k, t, L) :: w) :: Wq, ∀ e ∈ q, e.2.1 ≠ some u := by
      intro t' L' u h' hne q hq e he
      rcases List.mem_append.1 hq with hq | hq
      · exact h' q (List.mem_append_left _ hq) e he
      · rcases List.mem_cons.1 hq with rfl | hq
        · rcases List.mem_cons.1 he with rfl | he
          · exact hne
          · exact h' _ (List.mem_append_right _ List.mem_cons_self) e (List.mem_cons_of_mem _ he)
        · exact h' q (List.mem_append_right _ (List.mem_cons_of_mem _ hq)) e he
    have hown : ∀ {t' : Option (Triple Id)} {L' u}, (∀ q ∈ Wp ++ ((k s, t', L') :: w) :: Wq, ∀ e ∈ q, e.2.1 ≠ some u) → t' ≠ some u :=
      fun h' => h' _ (List.mem_append_right _ List.mem_cons_self) _ List.mem_cons_self
    rcases h with ⟨h1, h2⟩ | ⟨t1, rfl, h1, h2⟩ | ⟨e, L', rfl, h1, h2, h3⟩
    · obtain ⟨h, i1, i2⟩ := hy (Wp ++ ((k s, t, L) :: w) :: Wq) (by simp) (hD' _ _ h2) hJ' b
        (fun u hu hp => (hb u hu (hpend hp (hown hp))).trans (h1 u hu).symm)
      exact ⟨h, by simpa using i1, i2⟩
    · obtain ⟨h, i1, i2⟩ := hy (Wp ++ ((k s, some t1, L) :: w) :: Wq) (by simp) (hD' _ _ h2) hJ' b
        (fun u hu hp => (hb u hu (hpend hp (by simp))).trans (h1 u hu (fun h => hown hp (h ▸ rfl))).symm)
      exact ⟨h, by simpa using i1, i2⟩
    · obtain ⟨h, i1, i2⟩ := hy (Wp ++ ((k s, none, L') :: w) :: Wq) (by simp) (hD' _ _ h3) hJ' (e.on b) (fun u hu hp => by
        refine .trans ?_ (h1 u hu).symm
        have key : (∀ v, e ≠ .put v u) → e ≠ .del u → b u = s.idIn o u := fun _ n2 =>
          hb u hu (hpend hp (fun ht => n2 (h2 u ht)))
        cases e with
        | put v t1 =>
          simp only [Ev.on]
          split
          · rfl
          · next hne => exact key (fun v' hv => hne (by cases hv; rfl)) (fun hv => nomatch hv)
        | del t1 =>
          simp only [Ev.on]
          split
          · rfl
          · next hne => exact key (fun v' hv => nomatch hv) (fun hv => hne (by cases hv; rfl)))
      refine ⟨e :: h, ?_, i2⟩
      simp only [List.map_append, List.map_cons, List.flatMap_cons] at i1 ⊢
      exact Shuffle.take _ _ e _ h i1
  | ret s pre post a q =>
    obtain ⟨Wp, Wr, rfl, rfl, h1⟩ := List.map_eq_append_iff.1 hW.symm
    obtain ⟨w, Wq, rfl, h2, rfl⟩ := List.map_eq_cons_iff.1 h1
    obtain ⟨⟨p, t, L⟩, w, rfl, h3, rfl⟩ := List.map_eq_cons_iff.1 h2
    cases h3
    obtain ⟨-, rfl, rfl⟩ : True ∧ t = none ∧ L = [] := hD _ (List.mem_append_right _ List.mem_cons_self) _ List.mem_cons_self
    obtain ⟨h, i1, i2⟩ := hy (Wp ++ w :: Wq) (by simp) (fun q hq e he => by
        rcases List.mem_append.1 hq with hq | hq
        · exact hD q (List.mem_append_left _ hq) e he
        · rcases List.mem_cons.1 hq with rfl | hq
          · exact hD _ (List.mem_append_right _ List.mem_cons_self) e (List.mem_cons_of_mem _ he)
          · exact hD q (List.mem_append_right _ (List.mem_cons_of_mem _ hq)) e he) hJ b
      (fun u hu hp => hb u hu (fun q hq e he => by
        rcases List.mem_append.1 hq with hq | hq
        · exact hp q (List.mem_append_left _ hq) e he
        · rcases List.mem_cons.1 hq with rfl | hq
          · rcases List.mem_cons.1 he with rfl | he
            · simp
            · exact hp _ (List.mem_append_right _ List.mem_cons_self) e he
          · exact hp q (List.mem_append_right _ (List.mem_cons_of_mem _ hq)) e he))
    exact ⟨h, by simpa using i1, i2⟩

theorem Serial.steps {x y : Db × List (List (Prog Db Unit))} (hs : CalmSteps x y) (hy : Serial c o U d y) : Serial c o U d x := by
  induction hs with
  | refl => exact hy
  | tail _ h ih => exact ih (Serial.step h hy)

theorem Serial.done {rest : List (List (Prog Db Unit))} (h : ∀ th ∈ rest, th = []) : Serial c o U d (d, rest) := by
  intro W hW _ _ b hb
  have hw : ∀ q ∈ W, q = [] := fun q hq => by
    have := h (q.map Prod.fst) (by rw [show rest = _ from hW]; exact List.mem_map_of_mem hq)
    exact List.map_eq_nil_iff.1 this
  refine ⟨[], .nil _ (fun l hl => ?_), fun u hu => (hb u hu (fun q hq e he => ?_)).symm⟩
  · obtain ⟨q, hq, rfl⟩ := List.mem_map.1 hl
    rw [hw q hq]; rfl
  · rw [hw q hq] at he; cases he

/-- At the end, each ordering is as if the calls had been made one after the other. -/
theorem Sled.serial [LaidOutId Id] {mN : NP → NP → NP} {mE : EP → EP → EP} (hc : c.RoundTrip) (ht : c.Total) {d0 : Db} (hd : Decodable c d0)
    {threads : List (List (Sled.Call E Id NP EP))}
    (hs : ∀ th ∈ threads, ∀ x ∈ th, x.Scans)
    (hf : Sled.Final c mN mE d0 threads d) :
    ∃ h, Shuffle false (threads.map (List.flatMap Sled.Call.events)) h ∧
      ∀ t, (∀ th ∈ threads, ∀ x ∈ th, x.Spares t) → d.idIn o t = h.foldl Ev.on (d0.idIn o) t := by
  obtain ⟨rest, h1, h2⟩ := hf
  obtain ⟨h, i1, i2⟩ := Serial.steps (c := c) (o := o) (U := fun t => ∀ th ∈ threads, ∀ x ∈ th, x.Spares t) h1 (Serial.done h2)
    (threads.map (List.map (fun x => (x.prog c mN mE, none, x.events)))) (by
      simp only [Sled.start, List.map_map]
      exact List.map_congr_left (fun q _ => by simp [Function.comp_def])) (by
      intro q hq e he
      obtain ⟨th, hth, rfl⟩ := List.mem_map.1 hq
      obtain ⟨x, hx, rfl⟩ := List.mem_map.1 he
      exact Sled.enters_call hc ht x (fun u hu => hu th hth x hx) (hs th hth x hx)) hd (d0.idIn o) (fun _ _ _ => rfl)
  refine ⟨h, ?_, i2⟩
  rw [List.map_map] at i1
  convert i1 using 2
  funext q
  simp [List.flatMap_map]

end

/-! ## What remains of the events -/

section

theorem fold_put {h : List (Ev Id)} {b : Triple Id → Option Bytes} {t : Triple Id} {v : Bytes} (h1 : Ev.del t ∉ h) (h2 : Ev.put v t ∈ h) :
    ∃ v', Ev.put v' t ∈ h ∧ h.foldl Ev.on b t = some v' := by
  induction h using List.reverseRecOn with
  | nil => cases h2
  | append_singleton l e ih =>
    rw [List.foldl_append]
    by_cases hl : Ev.put v t ∈ l
    · obtain ⟨v', i1, i2⟩ := ih (fun h => h1 (List.mem_append_left _ h)) hl
      cases e with
      | put w u =>
        by_cases hu : t = u
        · subst hu; exact ⟨w, by simp, by simp [Ev.on]⟩
        · exact ⟨v', List.mem_append_left _ i1, by simp only [List.foldl_cons, List.foldl_nil, Ev.on, if_neg hu]; exact i2⟩
      | del u =>
        have hu : t ≠ u := by rintro rfl; exact h1 (by simp)
        exact ⟨v', List.mem_append_left _ i1, by simp only [List.foldl_cons, List.foldl_nil, Ev.on, if_neg hu]; exact i2⟩
    · have : e = .put v t := by
        rcases List.mem_append.1 h2 with h | h
        · exact absurd h hl
        · exact (List.mem_singleton.1 h).symm
      subst this
      exact ⟨v, by simp, by simp [Ev.on]⟩

theorem fold_del {h : List (Ev Id)} {b : Triple Id → Option Bytes} {t : Triple Id} (h1 : ∀ v, Ev.put v t ∉ h) (h2 : Ev.del t ∈ h) :
    h.foldl Ev.on b t = none := by
  induction h using List.reverseRecOn with
  | nil => cases h2
  | append_singleton l e ih =>
    rw [List.foldl_append]
    by_cases hl : Ev.del t ∈ l
    · have i2 := ih (fun v h => h1 v (List.mem_append_left _ h)) hl
      cases e with
      | put w u =>
        have hu : t ≠ u := by rintro rfl; exact h1 w (by simp)
        simp only [List.foldl_cons, List.foldl_nil, Ev.on, if_neg hu]; exact i2
      | del u =>
        simp only [List.foldl_cons, List.foldl_nil, Ev.on]
        split
        · rfl
        · exact i2
    · have : e = .del t := by
        rcases List.mem_append.1 h2 with h | h
        · exact absurd h hl
        · exact (List.mem_singleton.1 h).symm
      subst this
      simp [Ev.on]

open Classical in
theorem fold_filter (h : List (Ev Id)) {b : Triple Id → Option Bytes} {t : Triple Id} :
    (h.filter (fun e => decide (e.About t))).foldl Ev.on b t = h.foldl Ev.on b t := by
  induction h using List.reverseRecOn with
  | nil => rfl
  | append_singleton l e ih =>
    rw [List.filter_append, List.foldl_append, List.foldl_append]
    by_cases he : e.About t
    · simp only [List.filter_cons, he, decide_true, if_true, List.filter_nil, List.foldl_cons, List.foldl_nil]
      cases e <;> simp only [Ev.on, ih]
    · simp only [List.filter_cons, he, decide_false, List.filter_nil, List.foldl_cons, List.foldl_nil, Bool.false_eq_true, if_false, ih]
      cases e with
      | put v u => exact (if_neg (fun h => he h.symm)).symm
      | del u => exact (if_neg (fun h => he h.symm)).symm

theorem shuffle_mem {α : Type} {ls : List (List α)} {h : List α} (hs : Shuffle false ls h) (a : α) :
    a ∈ h ↔ ∃ l ∈ ls, a ∈ l := by
  induction hs with
  | nil ls h => exact ⟨(fun h => nomatch h), fun ⟨l, hl, ha⟩ => by rw [h l hl] at ha; cases ha⟩
  | drop pre post b l h hp => cases hp
  | take pre post b l h _ ih =>
    rw [List.mem_cons, ih]
    constructor
    · rintro (rfl | ⟨k, hk, ha⟩)
      · exact ⟨a :: l, by simp, by simp⟩
      · rcases List.mem_append.1 hk with hk | hk
        · exact ⟨k, by simp [hk], ha⟩
        · rcases List.mem_cons.1 hk with rfl | hk
          · exact ⟨b :: k, by simp, List.mem_cons_of_mem _ ha⟩
          · exact ⟨k, by simp [hk], ha⟩
    · rintro ⟨k, hk, ha⟩
      rcases List.mem_append.1 hk with hk | hk
      · exact .inr ⟨k, by simp [hk], ha⟩
      · rcases List.mem_cons.1 hk with rfl | hk
        · rcases List.mem_cons.1 ha with rfl | ha
          · exact .inl rfl
          · exact .inr ⟨l, by simp, ha⟩
        · exact .inr ⟨k, by simp [hk], ha⟩

theorem shuffle_filter {α : Type} {P : α → Bool} {ls : List (List α)} {h : List α} (hs : Shuffle false ls h) {pre post : List (List α)}
    {mine : List α} (he : ls = pre ++ mine :: post) (hn : ∀ l ∈ pre ++ post, ∀ a ∈ l, P a = false) : h.filter P = mine.filter P := by
  induction hs generalizing pre post mine with
  | nil ls h =>
    rw [h mine (by rw [he]; simp)]
  | drop _ _ _ _ _ hp => cases hp
  | take pre' post' b l h _ ih =>
    rcases List.append_eq_append_iff.1 he with ⟨m, rfl, hm⟩ | ⟨m, rfl, hm⟩
    · cases m with
      | nil =>
        simp only [List.nil_append, List.append_nil] at hm hn ih ⊢
        obtain ⟨rfl, rfl⟩ := List.cons.inj hm
        rw [List.filter_cons, List.filter_cons, ih rfl hn]
      | cons k m =>
        obtain ⟨rfl, rfl⟩ := List.cons.inj hm
        have hb : P b = false := hn (b :: l) (by simp) b (by simp)
        rw [List.filter_cons, hb]
        refine ih (pre := pre' ++ l :: m) (post := post) (by simp) (fun k hk a ha => ?_)
        simp only [List.append_assoc, List.cons_append, List.mem_append, List.mem_cons] at hk hn
        rcases hk with hk | rfl | hk | hk
        · exact hn k (.inl hk) a ha
        · exact hn (b :: k) (by simp) a (List.mem_cons_of_mem _ ha)
        · exact hn k (by simp [hk]) a ha
        · exact hn k (by simp [hk]) a ha
    · cases m with
      | nil =>
        simp only [List.nil_append, List.append_nil] at hm hn ih ⊢
        obtain ⟨rfl, rfl⟩ := List.cons.inj hm
        rw [List.filter_cons, List.filter_cons, ih rfl hn]
      | cons k m =>
        obtain ⟨rfl, rfl⟩ := List.cons.inj hm
        have hb : P b = false := hn (b :: l) (by simp) b (by simp)
        rw [List.filter_cons, hb]
        refine ih (pre := pre) (post := m ++ l :: post') (by simp) (fun k hk a ha => ?_)
        simp only [List.mem_append, List.mem_cons] at hk hn
        rcases hk with hk | hk | rfl | hk
        · exact hn k (by simp [hk]) a ha
        · exact hn k (by simp [hk]) a ha
        · exact hn (b :: k) (by simp) a (List.mem_cons_of_mem _ ha)
        · exact hn k (by simp [hk]) a ha

open Sled in
theorem mem_events {threads : List (List (Call E Id NP EP))} {h : List (Ev Id)}
    (hs : Shuffle false (threads.map (List.flatMap Call.events)) h) {e : Ev Id} (he : e ∈ h) :
    ∃ th ∈ threads, ∃ x ∈ th, e ∈ x.events := by
  obtain ⟨l, hl, he⟩ := (shuffle_mem hs e).1 he
  obtain ⟨th, hth, rfl⟩ := List.mem_map.1 hl
  obtain ⟨x, hx, he⟩ := List.mem_flatMap.1 he
  exact ⟨th, hth, x, hx, he⟩

open Sled in
theorem mem_of_events {threads : List (List (Call E Id NP EP))} {h : List (Ev Id)}
    (hs : Shuffle false (threads.map (List.flatMap Call.events)) h) {th : List (Call E Id NP EP)} (hth : th ∈ threads)
    {x : Call E Id NP EP} (hx : x ∈ th) {e : Ev Id} (he : e ∈ x.events) : e ∈ h :=
  (shuffle_mem hs e).2 ⟨_, List.mem_map_of_mem hth, List.mem_flatMap.2 ⟨x, hx, he⟩⟩

open Sled in
theorem writes_of_mem {x : Call E Id NP EP} {v : Bytes} {t : Triple Id} (h : Ev.put v t ∈ x.events) : (v, t) ∈ x.writes := by
  cases x with
  | extend u src | merge u src =>
    simp only [Call.events] at h
    split at h
    · cases h
    · obtain ⟨y, hy, h⟩ := List.mem_map.1 h
      cases h; exact hy
  | _ => simp_all [Call.events, Call.writes, be]

open Sled in
theorem removes_of_mem {x : Call E Id NP EP} {t : Triple Id} (h : Ev.del t ∈ x.events) : x.Removes t := by
  cases x with
  | extend u src | merge u src =>
    simp only [Call.events] at h
    split at h
    · cases h
    · obtain ⟨y, hy, h⟩ := List.mem_map.1 h
      cases h
  | _ => simp_all [Call.events, Call.Removes]

open Sled in
theorem mem_of_removes {x : Call E Id NP EP} {t : Triple Id} (h : x.Removes t) : Ev.del t ∈ x.events := by
  cases x with
  | removeEdge u => cases h; simp [Call.events]
  | _ => exact h.elim

end

/-! ## One edge in all orderings -/

/-- what a thread may do to an edge -/
structure Role1 where
  writes : Prop
  removes : Prop

section
variable [LawfulId Id]

/-- The orderings have the same id for the edge. -/
def AgreeAt (t : Triple Id) (d : Db) : Prop := ∀ o, d.idIn o t = d.idIn .SPO t

/-- threads may not write the edge when others remove it -/
def edgeRG (t : Triple Id) : RG Db Unit Role1 where
  inv d _ := AgreeAt t d
  rely a x y := a.removes → x.1.idIn .SPO t = none → y.1.idIn .SPO t = none
  ok _ _ := True
  par a b := b.removes → ¬ a.writes
  seq _ _ := True
  le a b := a = b
  rely_refl _ _ _ h := h
  rely_trans _ _ _ _ h h' ht hn := h' ht (h ht hn)
  le_trans _ _ _ h h' := h.trans h'
  par_le a a' b h := by subst h; exact ⟨id, id⟩
  seq_le _ _ _ _ := id

/-- effect of one call -/
def Eff1 (t : Triple Id) (a : Role1) (d d' : Db) : Prop :=
  AgreeAt t d' ∧ (¬ a.writes → d.idIn .SPO t = none → d'.idIn .SPO t = none)

namespace Sled

open Verif.Db

variable {t : Triple Id} {a : Role1} {α : Type}

theorem allowed1 {d d' : Db} (h : Eff1 t a d d') : (edgeRG t).Allowed a d () d' a () :=
  ⟨rfl, h.1, trivial, fun b hp _ => ⟨fun ht hn => h.2 (hp ht) hn, trivial⟩, fun _ _ => id⟩

theorem safe1_call {f : Db → Db} {k : Db → Prog Db α} (hf : ∀ d, AgreeAt t d → Eff1 t a d (f d))
    (hk : ∀ d x, (edgeRG t).Safe (k d) a x) (x : Db × Unit) : (edgeRG t).Safe (.call f k) a x :=
  fun d _ _ hi _ => ⟨a, (), allowed1 (hf d hi), hk d _⟩

theorem eff1_same {d d' : Db} (h : AgreeAt t d) (ht : ∀ o, d'.idIn o t = d.idIn o t) : Eff1 t a d d' :=
  ⟨fun o => by rw [ht, ht, h], fun _ hn => by rw [ht]; exact hn⟩

theorem eff1_set {d : Db} (h : AgreeAt t d) {m : Tree} {u : Triple Id} {v : Bytes} (hu : u = t → a.writes) :
    Eff1 t a d ({ d with edgeProps := m }.setEdge u v) := by
  have hi : ∀ o, ({ d with edgeProps := m }.setEdge u v).idIn o t = if t = u then some v else d.idIn o t := fun o => by
    rw [setEdge_idIn, withProps_idIn]
  refine ⟨fun o => by rw [hi, hi, h], fun hw hn => ?_⟩
  rw [hi, if_neg (fun e => hw (hu e.symm)), hn]

theorem safe1_insertNode {c : Codecs NP EP} {n : Id} {p : NP} {k : Except SErr Unit → Prog Db α}
    (hk : ∀ r x, (edgeRG t).Safe (k r) a x) (x : Db × Unit) : (edgeRG t).Safe ((Sled.insertNode c n p).bind k) a x := by
  unfold Sled.insertNode
  split
  · exact hk _ _
  · exact safe1_call (fun d h => eff1_same h (fun o => by cases o <;> rfl)) (fun d x => hk _ _) x

theorem safe1_insertEdge {c : Codecs NP EP} {i : Id} {u : Triple Id} {p : EP}
    {k : Except SErr Unit → Prog Db α} (hu : u = t → a.writes) (hk : ∀ r x, (edgeRG t).Safe (k r) a x) (x : Db × Unit) :
    (edgeRG t).Safe ((Sled.insertEdge c i u p).bind k) a x := by
  unfold Sled.insertEdge
  split
  · exact hk _ _
  · rename_i b hb
    rw [tx_bind]
    refine safe1_call (fun d h => ?_) (fun d x => hk _ _) x
    exact eff1_set (m := d.edgeProps.insert (toBeBytes i).1 b) (v := (toBeBytes i).1) h hu

theorem safe1_mergeNode {c : Codecs NP EP} {mN : NP → NP → NP} {n : Id} {p : NP} {k : Except SErr Unit → Prog Db α}
    (hk : ∀ r x, (edgeRG t).Safe (k r) a x) (x : Db × Unit) : (edgeRG t).Safe ((Sled.mergeNode c mN n p).bind k) a x := by
  obtain ⟨f, hf, he⟩ := mergeNode_commit c mN n p
  rw [hf, tx_bind]
  refine safe1_call (fun d h => ?_) (fun d x => hk _ _) x
  rcases he d with e | ⟨b, q, -, e⟩
  · rw [e]; exact eff1_same h (fun _ => rfl)
  · rw [e]; exact eff1_same h (fun o => by cases o <;> rfl)

theorem safe1_mergeEdge {c : Codecs NP EP} {mE : EP → EP → EP} {i : Id} {u : Triple Id} {p : EP}
    {k : Except SErr Unit → Prog Db α} (hu : u = t → a.writes) (hk : ∀ r x, (edgeRG t).Safe (k r) a x) (x : Db × Unit) :
    (edgeRG t).Safe ((Sled.mergeEdge c mE i u p).bind k) a x := by
  obtain ⟨f, hf, he⟩ := mergeEdge_commit c mE i u p
  rw [hf, tx_bind]
  refine safe1_call (fun d h => ?_) (fun d x => hk _ _) x
  rcases he d with e | ⟨b, q, -, e⟩
  · rw [e]; exact eff1_same h (fun _ => rfl)
  · rw [e]; exact eff1_set h hu

theorem safe1_removeNodeScanned {n : Id} {fwd bwd : List (Bytes × Bytes)}
    {k : Except SErr Unit → Prog Db α} (hk : ∀ r x, (edgeRG t).Safe (k r) a x) (x : Db × Unit) :
    (edgeRG t).Safe ((removeNodeScanned n fwd bwd).bind k) a x := by
  rcases removeNodeScanned_cases n fwd bwd with ⟨r, e⟩ | ⟨F, B, -, -, e⟩
  · rw [e]; exact hk _ _
  · rw [e, tx_bind]
    refine safe1_call (fun d h => ⟨fun o => ?_, fun _ hn => ?_⟩) (fun d x => hk _ _) x
    · show (dropped n F B d).idIn o t = (dropped n F B d).idIn .SPO t
      rw [dropped_idIn, dropped_idIn, h o]
    · show (dropped n F B d).idIn .SPO t = none
      rw [dropped_idIn, hn, ite_self]

theorem safe1_removeNode {n : Id} {k : Except SErr Unit → Prog Db α}
    (hk : ∀ r x, (edgeRG t).Safe (k r) a x) (x : Db × Unit) : (edgeRG t).Safe ((removeNode n).bind k) a x := by
  rw [removeNode_eq]
  refine safe1_call (fun d h => eff1_same h (fun _ => rfl)) (fun d x => ?_) x
  dsimp only
  cases forwardBatch Id ⟨[], [], [], []⟩ (d.spo.rangeArr (keyBounds1 n)) with
  | error e => exact hk _ _
  | ok fb => exact safe1_call (fun d h => eff1_same h (fun _ => rfl)) (fun d' x => safe1_removeNodeScanned hk x) x

/-- one entry of one ordering is written or removed, of another edge -/
theorem eff1_put {d : Db} (h : AgreeAt t d) (o' : EdgeOrder) {u : Triple Id} (hu : u ≠ t) (y : Option Bytes) :
    Eff1 t a d (match o' with
      | .SPO => d.put .spo (encodeSpo u).1 y
      | .POS => d.put .pos (encodePos u).1 y
      | .OSP => d.put .osp (encodeOsp u).1 y) :=
  eff1_same h (fun o => by rw [idIn_put, if_neg (fun h => hu h.2.symm)])

theorem safe1_removeEdge {u : Triple Id} {k : Except SErr Unit → Prog Db α} (hu : u = t → a.removes)
    (hk : ∀ r x, (edgeRG t).Safe (k r) a x) (x : Db × Unit) : (edgeRG t).Safe ((removeEdge u).bind k) a x := by
  have last : ∀ (y : Option Bytes) x, (edgeRG t).Safe ((match y with
        | some i => .call (fun d => { d with edgeProps := d.edgeProps.erase i }) (fun _ => .ret (.ok ()))
        | none => .ret (.ok ()) : Prog Db (Except SErr Unit)).bind k) a x := by
    intro y x
    cases y with
    | none => exact hk _ _
    | some i => exact safe1_call (fun d h => eff1_same h (fun o => by cases o <;> rfl)) (fun d x => hk _ _) x
  intro d _ _ hi _
  have hr : ∀ o, (removed d u).idIn o t = if t = u then none else d.idIn o t := fun o => by
    rw [removed, unsetEdge_idIn, withProps_idIn]
  have e0 : Eff1 t a d (removed d u) := by
    refine ⟨fun o => by rw [hr, hr, hi o], fun _ hn => by rw [hr, hn, ite_self]⟩
  refine ⟨a, (), allowed1 e0, ?_⟩
  by_cases he : u = t
  · subst he
    have n0 : (removed d u).idIn .SPO u = none := by rw [hr, if_pos rfl]
    intro d1 _ h1 hi1 _
    have n1 : ∀ o, d1.idIn o u = none := fun o => by rw [hi1 o]; exact h1 (hu rfl) n0
    have f1 : ({ d1 with spo := d1.spo.erase (encodeSpo u).1 } : Db) = d1 := by
      rw [BMap.erase_of_none d1.spo (k := (encodeSpo u).1) (n1 .SPO)]
    refine ⟨a, (), allowed1 (by dsimp only; rw [f1]; exact eff1_same hi1 (fun _ => rfl)), ?_⟩
    dsimp only
    rw [f1]
    intro d2 _ h2 hi2 _
    have n2 : ∀ o, d2.idIn o u = none := fun o => by rw [hi2 o]; exact h2 (hu rfl) (n1 .SPO)
    have f2 : ({ d2 with pos := d2.pos.erase (encodePos u).1 } : Db) = d2 := by
      rw [BMap.erase_of_none d2.pos (k := (encodePos u).1) (n2 .POS)]
    refine ⟨a, (), allowed1 (by dsimp only; rw [f2]; exact eff1_same hi2 (fun _ => rfl)), ?_⟩
    dsimp only
    rw [f2]
    intro d3 _ h3 hi3 _
    have n3 : ∀ o, d3.idIn o u = none := fun o => by rw [hi3 o]; exact h3 (hu rfl) (n2 .SPO)
    have f3 : ({ d3 with osp := d3.osp.erase (encodeOsp u).1 } : Db) = d3 := by
      rw [BMap.erase_of_none d3.osp (k := (encodeOsp u).1) (n3 .OSP)]
    refine ⟨a, (), allowed1 (by dsimp only; rw [f3]; exact eff1_same hi3 (fun _ => rfl)), ?_⟩
    exact last _ _
  · refine safe1_call (fun d h => eff1_put h .SPO he none) (fun d1 x => ?_) _
    refine safe1_call (fun d h => eff1_put h .POS he none) (fun d2 x => ?_) _
    refine safe1_call (fun d h => eff1_put h .OSP he none) (fun d3 x => last _ _) _

theorem safe1_mergeEdges {c : Codecs NP EP} {mE : EP → EP → EP} {β : Type}
    {k : Gen Id × Except (LR SErr E) Unit → Prog Db β} (hk : ∀ r x, (edgeRG t).Safe (k r) a x)
    (l : List (Except E (Triple Id × EP))) (g : Gen Id)
    (ht : ∀ y ∈ Call.drawnFor g l, y.2 = t → a.writes) (x : Db × Unit) :
    (edgeRG t).Safe ((mergeEdges c mE g l).bind k) a x := by
  induction l generalizing g x with
  | nil => exact hk _ _
  | cons y l ih =>
    cases y with
    | error e => exact hk _ _
    | ok y =>
      rw [mergeEdges]
      have assoc : ∀ f : Except SErr Unit → Prog Db (Gen Id × Except (LR SErr E) Unit),
          ((Sled.mergeEdge c mE (Gen.fresh g).1 y.1 y.2).bind f).bind k =
            (Sled.mergeEdge c mE (Gen.fresh g).1 y.1 y.2).bind (fun r => (f r).bind k) := fun f => rfl
      rw [assoc]
      refine safe1_mergeEdge (ht _ (by simp only [Call.drawnFor]; exact List.mem_cons_self)) (fun r x => ?_) x
      cases r with
      | error e => exact hk _ _
      | ok u => exact ih _ (fun z hz => ht z (List.mem_cons_of_mem _ hz)) x

theorem safe1_mergeNodes {c : Codecs NP EP} {mN : NP → NP → NP} {α β : Type}
    {j : Except (LR SErr E) Unit → Prog Db α} {k : α → Prog Db β} (hk : ∀ r x, (edgeRG t).Safe ((j r).bind k) a x)
    (l : List (Except E (Id × NP))) (x : Db × Unit) : (edgeRG t).Safe ((mergeNodes c mN j l).bind k) a x := by
  induction l generalizing x with
  | nil => exact hk _ _
  | cons y l ih =>
    cases y with
    | error e => exact hk _ _
    | ok y =>
      rw [mergeNodes]
      have assoc : ∀ f : Except SErr Unit → Prog Db α,
          ((Sled.mergeNode c mN y.1 y.2).bind f).bind k =
            (Sled.mergeNode c mN y.1 y.2).bind (fun r => (f r).bind k) := fun f => rfl
      rw [assoc]
      refine safe1_mergeNode (fun r x => ?_) x
      cases r with
      | error e => exact hk _ _
      | ok u => exact ih x

theorem safe1_extendNodes {c : Codecs NP EP} {α β : Type}
    {j : Except (LR SErr E) Unit → Prog Db α} {k : α → Prog Db β} (hk : ∀ r x, (edgeRG t).Safe ((j r).bind k) a x)
    (l : List (Except E (Id × NP))) (x : Db × Unit) : (edgeRG t).Safe ((extendNodes c j l).bind k) a x := by
  induction l generalizing x with
  | nil => exact hk _ _
  | cons y l ih =>
    cases y with
    | error e => exact hk _ _
    | ok y =>
      rw [extendNodes]
      cases c.n.ser y.2 with
      | none => exact hk _ _
      | some b => exact safe1_call (fun d h => eff1_same h (fun o => by cases o <;> rfl)) (fun d x => ih x) x

theorem safe1_extendEdges {c : Codecs NP EP} {β : Type}
    {k : Gen Ulid × Except (LR SErr E) Unit → Prog Db β} (hk : ∀ r x, (edgeRG t).Safe (k r) a x)
    (l : List (Except E (Triple Id × EP))) (g : Gen Ulid)
    (ht : ∀ y ∈ Call.drawnFor g l, y.2 ≠ t) (x : Db × Unit) :
    (edgeRG t).Safe ((extendEdges c g l).bind k) a x := by
  induction l generalizing g x with
  | nil => exact hk _ _
  | cons y l ih =>
    cases y with
    | error e => exact hk _ _
    | ok y =>
      rw [extendEdges]
      cases c.e.ser y.2 with
      | none => exact hk _ _
      | some b =>
        have he : y.1 ≠ t := ht (_, y.1) (by simp only [Call.drawnFor]; exact List.mem_cons_self)
        have ih' := fun x => ih (Gen.fresh g).2 (fun z hz => ht z (List.mem_cons_of_mem _ hz)) x
        refine safe1_call (fun d h => eff1_same h (fun o => by cases o <;> rfl)) (fun d x => ?_) x
        refine safe1_call (fun d h => eff1_put h .SPO he (some _)) (fun d1 x => ?_) _
        refine safe1_call (fun d h => eff1_put h .POS he (some _)) (fun d2 x => ?_) _
        refine safe1_call (fun d h => eff1_put h .OSP he (some _)) (fun d3 x => ?_) _
        cases d1.spo.get (encodeSpo y.1).1 with
        | none => exact ih' _
        | some w => exact safe1_call (fun d h => eff1_same h (fun o => by cases o <;> rfl)) (fun d x => ih' x) _

theorem safe1_ret {r : α} {x : Db × Unit} : (edgeRG t).Safe (.ret r : Prog Db α) a x := trivial

theorem safe1_prog (c : Codecs NP EP) (mN : NP → NP → NP) (mE : EP → EP → EP) (x : Call E Id NP EP)
    (hw : x.MayWrite t → a.writes) (hr : x.Removes t → a.removes) (he : x.IsExtend → ¬ x.MayWrite t) (y : Db × Unit) :
    (edgeRG t).Safe (x.prog c mN mE) a y := by
  cases x with
  | insertNode n p => exact safe1_insertNode (fun _ _ => safe1_ret) y
  | insertEdge i u p =>
    exact safe1_insertEdge (fun h => hw ⟨(toBeBytes i).1, by rw [← h]; simp [Call.writes]⟩) (fun _ _ => safe1_ret) y
  | removeNode n => exact safe1_removeNode (fun _ _ => safe1_ret) y
  | removeNodeScan n fwd bwd => exact safe1_removeNodeScanned (fun _ _ => safe1_ret) y
  | removeEdge u => exact safe1_removeEdge (fun h => hr h) (fun _ _ => safe1_ret) y
  | mergeNode n p => exact safe1_mergeNode (fun _ _ => safe1_ret) y
  | mergeEdge i u p =>
    exact safe1_mergeEdge (fun h => hw ⟨(toBeBytes i).1, by rw [← h]; simp [Call.writes]⟩) (fun _ _ => safe1_ret) y
  | extend u src =>
    refine safe1_extendNodes (fun r y => ?_) src.nodes y
    cases r with
    | error e => exact safe1_ret
    | ok _ => exact safe1_extendEdges (fun _ _ => safe1_ret) _ u (fun z hz h => he trivial ⟨z.1, by rw [← h]; exact hz⟩) y
  | merge g src =>
    refine safe1_mergeNodes (fun r y => ?_) src.nodes y
    cases r with
    | error e => exact safe1_ret
    | ok _ => exact safe1_mergeEdges (fun _ _ => safe1_ret) _ g (fun z hz h => hw ⟨z.1, by rw [← h]; exact hz⟩) y

theorem agreeAt_moment {c : Codecs NP EP} {mN : NP → NP → NP} {mE : EP → EP → EP} {d0 : Db}
    {threads : List (List (Call E Id NP EP))} (h0 : AgreeAt t d0) (hne : ∀ th ∈ threads, ∀ x ∈ th, x.IsExtend → ¬ x.MayWrite t)
    (hp : threads.Pairwise (fun th th' => ∀ x ∈ th, ∀ y ∈ th', (x.Removes t → ¬ y.MayWrite t) ∧ (y.Removes t → ¬ x.MayWrite t)))
    {d : Db} (hd : Moment c mN mE d0 threads d) : AgreeAt t d := by
  obtain ⟨rest, hs⟩ := hd
  let roleOf (th : List (Call E Id NP EP)) : Role1 := ⟨∃ x ∈ th, x.MayWrite t, ∃ x ∈ th, x.Removes t⟩
  have h := (edgeRG t).good_steps (x := start c mN mE d0 threads)
    ⟨(), threads.map (fun th => th.map (fun x => (x.prog c mN mE, roleOf th))), ?_, h0, ?_, ?_⟩ hs
  · obtain ⟨_, _, _, h, _⟩ := h
    exact h
  · simp [start, Function.comp_def]
  · intro q hq
    obtain ⟨th, hth, rfl⟩ := List.mem_map.1 hq
    have safe : ∀ x ∈ th, ∀ y, (edgeRG t).Safe (x.prog c mN mE) (roleOf th) y := fun x hx y =>
      safe1_prog (a := roleOf th) c mN mE x (fun h => ⟨x, hx, h⟩) (fun h => ⟨x, hx, h⟩) (hne th hth x hx) y
    generalize roleOf th = a at safe
    clear hq hth
    cases th with
    | nil => trivial
    | cons x th =>
      refine ⟨safe x (by simp) _, ?_, List.pairwise_of_forall (fun _ _ => trivial), fun _ _ => trivial⟩
      intro e he y
      obtain ⟨z, hz, rfl⟩ := List.mem_map.1 he
      exact safe z (List.mem_cons_of_mem _ hz) y
  · rw [List.pairwise_map]
    refine hp.imp (fun {th th'} h => ?_)
    intro e he e' he'
    obtain ⟨x, -, rfl⟩ := List.mem_map.1 he
    obtain ⟨x', -, rfl⟩ := List.mem_map.1 he'
    exact ⟨fun ⟨y, hy, h1⟩ ⟨z, hz, h2⟩ => (h z hz y hy).2 h1 h2, fun ⟨y, hy, h1⟩ ⟨z, hz, h2⟩ => (h y hy z hz).1 h1 h2⟩

end Sled

end

end Verif
