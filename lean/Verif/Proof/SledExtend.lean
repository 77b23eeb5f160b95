import Verif.Proof.SledReach
import Verif.Proof.SledRead

/-! # Crashes in the middle of extend -/

set_option linter.unusedSectionVars false

namespace Verif

open Spec ConcreteId

variable {Id NP EP E : Type}

/-! ## overwriting from a list -/

section
variable {K V : Type}

/-- the items stored by a bulk operation -/
def taken (ok : V → Bool) : List (Except E (K × V)) → List (K × V)
  | [] => []
  | .error _ :: _ => []
  | .ok a :: l => if ok a.2 then a :: taken ok l else []

def outc (ok : V → Bool) : List (Except E (K × V)) → Outcome E
  | [] => .done
  | .error e :: _ => .source e
  | .ok a :: l => if ok a.2 then outc ok l else .unserializable

theorem taken_prefix (ok : V → Bool) {l' l : List (Except E (K × V))} (h : l' <+: l) : taken ok l' <+: taken ok l := by
  induction l generalizing l' with
  | nil => rw [List.prefix_nil.1 h]; exact List.prefix_refl _
  | cons a l ih =>
    cases l' with
    | nil => exact List.nil_prefix
    | cons b l' =>
      obtain ⟨rfl, h'⟩ := List.cons_prefix_cons.1 h
      cases b with
      | error e => exact List.prefix_refl _
      | ok b =>
        simp only [taken]
        split
        · exact List.cons_prefix_cons.2 ⟨rfl, ih h'⟩
        · exact List.prefix_refl _

variable [DecidableEq K]

theorem takeIn_eq {σ : Type} (ok : V → Bool) (ins : σ → K → V → σ) (G : σ) (l : List (Except E (K × V))) :
    takeIn (fun G x => if ok x.2 then some (ins G x.1 x.2) else none) G l =
      ((taken ok l).foldl (fun G x => ins G x.1 x.2) G, outc ok l) := by
  induction l generalizing G with
  | nil => rfl
  | cons a l ih =>
    cases a with
    | error e => rfl
    | ok a =>
      rw [takeIn, taken, outc]
      by_cases h : ok a.2 = true
      · simp only [h, if_true, ih, List.foldl_cons]
      · simp only [h]; rfl

/-- last value written for a key -/
def lastOf (l : List (K × V)) (k : K) : Option V := alGet l.reverse k

theorem alGet_append (l m : List (K × V)) (k : K) : alGet (l ++ m) k = (alGet l k).or (alGet m k) := by
  induction l with
  | nil => rfl
  | cons a l ih =>
    simp only [List.cons_append, alGet]
    split
    · rfl
    · exact ih

theorem lastOf_cons (a : K × V) (l : List (K × V)) (k : K) :
    lastOf (a :: l) k = (lastOf l k).or (if a.1 = k then some a.2 else none) := by
  unfold lastOf
  rw [List.reverse_cons, alGet_append]
  rfl

theorem lastOf_prefix {l' l : List (K × V)} (h : l' <+: l) (k : K) : (lastOf l k).or (lastOf l' k) = lastOf l k := by
  obtain ⟨m, rfl⟩ := h
  unfold lastOf
  rw [List.reverse_append, alGet_append]
  cases alGet m.reverse k with
  | some v => rfl
  | none => cases alGet l'.reverse k <;> rfl

theorem foldl_insertNode_last [DecidableEq Id] (l : List (Id × NP)) (G : Graph Id NP EP) :
    l.foldl (fun G x => G.insertNode x.1 x.2) G = { G with nodes := fun n => (lastOf l n).or (G.nodes n) } := by
  induction l generalizing G with
  | nil => rfl
  | cons a l ih =>
    rw [List.foldl_cons, ih]
    refine Graph.ext' (fun n => ?_) (fun _ => rfl)
    simp only [Graph.insertNode, lastOf_cons, Option.or_assoc]
    congr 1
    by_cases h : n = a.1
    · subst h; simp
    · simp [h, Ne.symm h]

theorem foldl_insertEdge_last [DecidableEq Id] (l : List (Triple Id × EP)) (G : Graph Id NP EP) :
    l.foldl (fun G x => G.insertEdge x.1 x.2) G = { G with edges := fun n => (lastOf l n).or (G.edges n) } := by
  induction l generalizing G with
  | nil => rfl
  | cons a l ih =>
    rw [List.foldl_cons, ih]
    refine Graph.ext' (fun _ => rfl) (fun n => ?_)
    simp only [Graph.insertEdge, lastOf_cons, Option.or_assoc]
    congr 1
    by_cases h : n = a.1
    · subst h; simp
    · simp [h, Ne.symm h]

end

section
variable [DecidableEq Id] (okN : NP → Bool) (okE : EP → Bool)

/-- the edges stored by extend: none if the nodes failed -/
def takenEdges (src : Source E Id NP EP) : List (Triple Id × EP) :=
  match outc okN src.nodes with
  | .done => taken okE src.edges
  | _ => []

/-- what extend makes of a graph -/
def extended (src : Source E Id NP EP) (G : Graph Id NP EP) : Graph Id NP EP :=
  (both G (fun G x => storeNode okN G x.1 x.2) (fun G x => storeEdge okE G x.1 x.2) src).1

theorem both_store (src : Source E Id NP EP) (G : Graph Id NP EP) :
    extended okN okE src G =
      { nodes := fun n => (lastOf (taken okN src.nodes) n).or (G.nodes n)
        edges := fun t => (lastOf (takenEdges okN okE src) t).or (G.edges t) } := by
  unfold extended both takenEdges storeNode storeEdge
  rw [takeIn_eq okN (fun (G : Graph Id NP EP) n p => G.insertNode n p)]
  cases h : outc okN src.nodes with
  | done =>
    simp only [takeIn_eq okE (fun (G : Graph Id NP EP) n p => G.insertEdge n p), foldl_insertNode_last,
      foldl_insertEdge_last]
  | unserializable => simp only [foldl_insertNode_last]; rfl
  | source e => simp only [foldl_insertNode_last]; rfl

theorem both_outcome (src : Source E Id NP EP) (G : Graph Id NP EP) :
    (both G (fun G x => storeNode okN G x.1 x.2) (fun G x => storeEdge okE G x.1 x.2) src).2.result =
      match outc okN src.nodes with
        | .done => (outc okE src.edges).result
        | e => e.result := by
  unfold both storeNode storeEdge
  rw [takeIn_eq okN (fun (G : Graph Id NP EP) n p => G.insertNode n p)]
  cases h : outc okN src.nodes with
  | done => simp only [takeIn_eq okE (fun (G : Graph Id NP EP) n p => G.insertEdge n p)]
  | unserializable => rfl
  | source e => rfl

theorem takenEdges_cutOff {src' src : Source E Id NP EP} (h : Source.CutOff src' src) :
    takenEdges okN okE src' <+: takenEdges okN okE src := by
  obtain ⟨h1, h2, h3⟩ := h
  rcases h3 with h3 | h3
  · unfold takenEdges
    rw [h3]
    cases outc okN src.nodes with
    | done => exact taken_prefix _ h2
    | unserializable => exact List.prefix_refl _
    | source e => exact List.prefix_refl _
  · unfold takenEdges
    rw [h3]
    cases outc okN src'.nodes <;> exact List.nil_prefix

/-- Extending again completes what was begun. -/
theorem extended_again {src' src : Source E Id NP EP} (h : Source.CutOff src' src) (G : Graph Id NP EP) :
    extended okN okE src (extended okN okE src' G) = extended okN okE src G := by
  rw [both_store, both_store, both_store]
  refine Graph.ext' (fun n => ?_) (fun t => ?_)
  · simp only
    rw [← Option.or_assoc, lastOf_prefix (taken_prefix _ h.1)]
  · simp only
    rw [← Option.or_assoc, lastOf_prefix (takenEdges_cutOff _ _ h)]

end

variable [LinearOrder Id] [ConcreteId Id] [LawfulId Id]

namespace Db

/-- As `Inv`, but the orderings may disagree on the triples in `T`. -/
structure Weak (T : Triple Id → Prop) (c : Codecs NP EP) (d : Db) : Prop where
  keys : ∀ o, KeysOk Id o d
  same : ∀ (o : EdgeOrder) (t : Triple Id), ¬ T t → d.idIn o t = d.idIn .SPO t
  nodes : NodesOk Id c d
  recs : ∀ o, RecsOk c o d
  inj : ∀ (o o' : EdgeOrder) (t u : Triple Id) (v : Bytes), d.idIn o t = some v → d.idIn o' u = some v → t = u

variable {c : Codecs NP EP} {d : Db} {T : Triple Id → Prop}

theorem Inv.weak (h : Inv Id c d) (T : Triple Id → Prop) : Weak T c d where
  keys := h.keys
  same o t _ := h.same o t
  nodes := h.nodes
  recs := h.recsAll
  inj o o' t u v ht hu := h.inj t u v (by rw [← h.same o]; exact ht) (by rw [← h.same o']; exact hu)

theorem Weak.inv (h : Weak T c d) (hT : ∀ t, ¬ T t) : Inv Id c d where
  keys := h.keys
  same o t := h.same o t (hT t)
  nodes := h.nodes
  recs := h.recs .SPO
  inj := h.inj .SPO .SPO

theorem Weak.mono (h : Weak T c d) {T' : Triple Id → Prop} (hT : ∀ t, T t → T' t) : Weak T' c d where
  keys := h.keys
  same o t ht := h.same o t (fun h' => ht (hT t h'))
  nodes := h.nodes
  recs := h.recs
  inj := h.inj

/-- An edge partly written: under a new id, in the orderings `S`. -/
theorem Weak.write (h : Weak T c d) {T' : Triple Id → Prop} {t : Triple Id} {i b : Bytes} {p : EP}
    (hi : ∀ o (u : Triple Id), d.idIn o u ≠ some i) (hb : c.e.de b = some p) (S : EdgeOrder → Bool) {d' : Db}
    (hn : d'.nodeProps = d.nodeProps) (ht : ∀ o, d'.tree o = if S o then (d.tree o).insert (encOf o t).1 i else d.tree o)
    (hp1 : d'.edgeProps.get i = some b)
    (hp : ∀ (o : EdgeOrder) (u : Triple Id) (w : Bytes), (u ≠ t ∨ S o = false) → d.idIn o u = some w →
      d'.edgeProps.get w = d.edgeProps.get w)
    (hT : ∀ u, T u → u ≠ t → T' u) (hS : ¬ T' t → ∀ o, S o = true) :
    Weak T' c d' ∧ (∀ o (u : Triple Id), d'.idIn o u = if S o = true ∧ u = t then some i else d.idIn o u) ∧
      (∀ o u, d'.view c o u = if S o = true ∧ u = t then some p else d.view c o u) := by
  have hid : ∀ o (u : Triple Id), d'.idIn o u = if S o = true ∧ u = t then some i else d.idIn o u := by
    intro o u
    unfold idIn
    rw [ht]
    cases hS : S o with
    | false => simp
    | true => simp [BMap.get_insert, encOf_inj]
  have hk : ∀ o, KeysOk Id o d' := by
    intro o k v hkv
    rw [ht] at hkv
    split at hkv
    · rw [BMap.get_insert] at hkv
      split at hkv
      · exact ⟨t, by assumption⟩
      · exact h.keys o k v hkv
    · exact h.keys o k v hkv
  refine ⟨⟨hk, ?_, ?_, ?_, ?_⟩, hid, ?_⟩
  · intro o u hu
    rw [hid, hid]
    by_cases e : u = t
    · subst e
      rw [hS hu o, hS hu .SPO]
      simp
    · simp only [e, and_false, if_false]
      exact h.same o u (fun hT' => hu (hT u hT' e))
  · intro k b' hkb
    rw [hn] at hkb
    exact h.nodes k b' hkb
  · intro o k v hkv
    obtain ⟨u, rfl⟩ := hk o k v hkv
    have := (hid o u).symm.trans hkv
    split at this
    · cases this
      exact ⟨b, p, hp1, hb⟩
    · rename_i hne
      obtain ⟨b', p', h1, h2⟩ := h.recs o _ v this
      refine ⟨b', p', (hp o u v ?_ this).trans h1, h2⟩
      by_cases e : u = t
      · right
        cases hS : S o with
        | false => rfl
        | true => exact absurd ⟨hS, e⟩ hne
      · exact .inl e
  · intro o o' x y v hx hy
    rw [hid] at hx hy
    split at hx <;> split at hy
    · rename_i h1 h2; rw [h1.2, h2.2]
    · cases hx; exact absurd hy (hi _ _)
    · cases hy; exact absurd hx (hi _ _)
    · exact h.inj o o' x y v hx hy
  · intro o u
    unfold view
    rw [hid]
    split
    · simp [hp1, hb]
    · rename_i hne
      cases hu : d.idIn o u with
      | none => rfl
      | some w =>
        rw [Option.bind_some, Option.bind_some, hp o u w ?_ hu]
        by_cases e : u = t
        · right
          cases hS : S o with
          | false => rfl
          | true => exact absurd ⟨hS, e⟩ hne
        · exact .inl e

theorem Weak.insNode (h : Weak T c d) {n : Id} {b : Bytes} {p : NP} (hb : c.n.de b = some p) :
    Weak T c { d with nodeProps := d.nodeProps.insert (toBeBytes n).1 b } where
  keys o k v hk := h.keys o k v (by rw [withNodes_tree] at hk; exact hk)
  same o t ht := by rw [withNodes_idIn, withNodes_idIn]; exact h.same o t ht
  nodes := by
    intro k b' hk
    simp only [BMap.get_insert] at hk
    split at hk
    · cases hk; exact ⟨⟨n, by assumption⟩, p, hb⟩
    · exact h.nodes k b' hk
  recs o k v hk := h.recs o k v (by rw [withNodes_tree] at hk; exact hk)
  inj o o' t u v ht hu := h.inj o o' t u v (by rw [withNodes_idIn] at ht; exact ht) (by rw [withNodes_idIn] at hu; exact hu)

end Db

namespace Sled

open Db

variable {c : Codecs NP EP} {T : Triple Id → Prop}

/-- the next `m` ULIDs are new -/
def NewUlids (Id : Type) [LinearOrder Id] [ConcreteId Id] (m : Nat) (u : Gen Ulid) (d : Db) : Prop :=
  Fresh m u ∧ ∀ j < m, ∀ o (t : Triple Id), d.idIn o t ≠ some (toBeBytes (u j)).1

theorem NewUlids.draw {m : Nat} {u : Gen Ulid} {d d' : Db} (h : NewUlids Id (m + 1) u d)
    (hid : ∀ o (t : Triple Id) v, d'.idIn o t = some v → v = (toBeBytes (Gen.fresh u).1).1 ∨ d.idIn o t = some v) :
    NewUlids Id m (Gen.fresh u).2 d' := by
  refine ⟨fun i hi j hj he => by have := h.1 (i + 1) (by omega) (j + 1) (by omega) he; omega, fun j hj o t ht => ?_⟩
  rcases hid o t _ ht with e | e
  · have := h.1 (j + 1) (by omega) 0 (by omega) (toBe_inj.1 e); omega
  · exact h.2 (j + 1) (by omega) o t e

theorem NewUlids.mono {m m' : Nat} {u : Gen Ulid} {d : Db} (h : NewUlids Id m u d) (hm : m' ≤ m) : NewUlids Id m' u d :=
  ⟨fun i hi j hj => h.1 i (by omega) j (by omega), fun j hj => h.2 j (by omega)⟩

/-- the states while extend writes one edge, before the old record is removed -/
def wrote (d : Db) (t : Triple Id) (i b : Bytes) (S : EdgeOrder → Bool) : Db :=
  { nodeProps := d.nodeProps
    edgeProps := d.edgeProps.insert i b
    spo := if S .SPO then d.spo.insert (encodeSpo t).1 i else d.spo
    pos := if S .POS then d.pos.insert (encodePos t).1 i else d.pos
    osp := if S .OSP then d.osp.insert (encodeOsp t).1 i else d.osp }

theorem wrote_tree (d : Db) (t : Triple Id) (i b : Bytes) (S : EdgeOrder → Bool) (o : EdgeOrder) :
    (wrote d t i b S).tree o = if S o then (d.tree o).insert (encOf o t).1 i else d.tree o := by
  cases o <;> rfl

theorem wrote_weak {d : Db} (h : Weak T c d) {t : Triple Id} {i b : Bytes} {p : EP}
    (hi : ∀ o (u : Triple Id), d.idIn o u ≠ some i) (hb : c.e.de b = some p) (S : EdgeOrder → Bool) :
    Weak (fun u => T u ∨ u = t) c (wrote d t i b S) ∧
      ∀ o u, (wrote d t i b S).view c o u = if S o = true ∧ u = t then some p else d.view c o u := by
  obtain ⟨h1, -, h3⟩ := h.write (T' := fun u => T u ∨ u = t) hi hb S (d' := wrote d t i b S) rfl (wrote_tree d t i b S)
    (BMap.get_insert_self _ _ _) (fun o u w _ hw => by
      show (d.edgeProps.insert i b).get w = _
      rw [BMap.get_insert, if_neg]; rintro rfl; exact hi o u hw) (fun u hu _ => .inl hu) (fun hn => absurd (.inr rfl) hn)
  exact ⟨h1, h3⟩

theorem full_weak {d : Db} (h : Weak T c d) {t : Triple Id} {i b : Bytes} {p : EP}
    (hi : ∀ o (u : Triple Id), d.idIn o u ≠ some i) (hb : c.e.de b = some p) :
    Weak (fun u => T u ∧ u ≠ t) c ({ d with edgeProps := extendedProps d t i b }.setEdge t i) ∧
      (∀ o (u : Triple Id), ({ d with edgeProps := extendedProps d t i b }.setEdge t i).idIn o u =
        if u = t then some i else d.idIn o u) ∧
      ∀ o u, ({ d with edgeProps := extendedProps d t i b }.setEdge t i).view c o u =
        if u = t then some p else d.view c o u := by
  have key : ∀ (o : EdgeOrder) (u : Triple Id) (w : Bytes), u ≠ t → d.idIn o u = some w →
      (extendedProps d t i b).get w = d.edgeProps.get w := by
    intro o u w hu hw
    have hne : w ≠ i := by rintro rfl; exact hi o u hw
    unfold extendedProps
    split
    · rw [BMap.get_insert, if_neg hne]
    · rename_i x hx
      rw [BMap.get_erase, if_neg, BMap.get_insert, if_neg hne]
      rintro rfl
      exact hu (h.inj o .SPO u t _ hw hx)
  obtain ⟨h1, h2, h3⟩ := h.write (T' := fun u => T u ∧ u ≠ t) hi hb (fun _ => true)
    (d' := { d with edgeProps := extendedProps d t i b }.setEdge t i) rfl
    (fun o => by rw [setEdge_tree, withProps_tree]; rfl)
    (by
      show (extendedProps d t i b).get i = some b
      unfold extendedProps
      split
      · exact BMap.get_insert_self _ _ _
      · rename_i o ho
        rw [BMap.get_erase, if_neg, BMap.get_insert_self]
        rintro rfl
        exact hi .SPO t ho)
    (fun o u w hu hw => key o u w (hu.resolve_right (by simp)) hw) (fun u hu hne => ⟨hu, hne⟩) (fun _ _ => rfl)
  exact ⟨h1, fun o u => by rw [h2]; simp, fun o u => by rw [h3]; simp⟩

/-- the edges shown by an ordering after writing those of a list -/
def overlay (l : List (Triple Id × EP)) (f : Triple Id → Option EP) (t : Triple Id) : Option EP := (lastOf l t).or (f t)

theorem overlay_cons (a : Triple Id × EP) (l : List (Triple Id × EP)) (f f' : Triple Id → Option EP)
    (h : ∀ u, f' u = if u = a.1 then some a.2 else f u) : overlay l f' = overlay (a :: l) f := by
  funext t
  unfold overlay
  rw [lastOf_cons, Option.or_assoc, h]
  congr 1
  by_cases e : t = a.1
  · subst e; simp
  · simp [e, Ne.symm e]

theorem extendEdges_run_weak (hc : c.RoundTrip) (m : Nat) (l : List (Except E (Triple Id × EP))) (u : Gen Ulid) (d : Db)
    (h : Weak T c d) (hu : NewUlids Id (m + l.length) u d) :
    Weak (fun t => T t ∧ t ∉ (taken c.okE l).map Prod.fst) c ((extendEdges c u l).run d).1 ∧
      NewUlids Id m ((extendEdges c u l).run d).2.1 ((extendEdges c u l).run d).1 ∧
      ((extendEdges c u l).run d).1.nodeProps = d.nodeProps ∧
      ((extendEdges c u l).run d).2.2 = (outc c.okE l).result ∧
      ∀ o, ((extendEdges c u l).run d).1.view c o = overlay (taken c.okE l) (d.view c o) := by
  induction l generalizing u d T with
  | nil => exact ⟨h.mono (fun t ht => ⟨ht, by simp [taken]⟩), hu, rfl, rfl, fun o => rfl⟩
  | cons a l ih =>
    cases a with
    | error e => exact ⟨h.mono (fun t ht => ⟨ht, by simp [taken]⟩), hu.mono (by simp), rfl, rfl, fun o => rfl⟩
    | ok x =>
      have hu' : NewUlids Id (m + l.length + 1) u d := by rw [List.length_cons, ← Nat.add_assoc] at hu; exact hu
      cases hb : c.e.ser x.2 with
      | none =>
        have hk : c.okE x.2 = false := by simp [Codecs.okE, hb]
        have e : (extendEdges c u (.ok x :: l : List (Except E _))).run d =
            (d, (Gen.fresh u).2, .error (.left .serialization)) := by
          rw [extendEdges]; simp only [hb]; rfl
        rw [e]
        refine ⟨h.mono (fun t ht => ⟨ht, by simp [taken, hk]⟩), ?_, rfl, by simp [outc, hk, Outcome.result], fun o => ?_⟩
        · exact (hu'.draw (fun o t v hv => .inr hv)).mono (by omega)
        · simp only [taken, hk]; rfl
      | some b =>
        have hk : c.okE x.2 = true := by simp [Codecs.okE, hb]
        rw [SledStore.extendEdges_cons hb]
        obtain ⟨h1, h2, h3⟩ := full_weak h (t := x.1) (i := (toBeBytes (Gen.fresh u).1).1)
          (fun o t => hu'.2 0 (by omega) o t) (hc.2 _ _ hb)
        obtain ⟨i1, i2, i3, i4, i5⟩ := ih (Gen.fresh u).2 _ h1 (hu'.draw (fun o t v hv => by
          rw [h2] at hv
          split at hv
          · exact .inl (Option.some.inj hv).symm
          · exact .inr hv))
        refine ⟨i1.mono (fun t ht => ⟨ht.1.1, ?_⟩), i2, i3, by rw [i4]; simp [outc, hk], fun o => ?_⟩
        · simp only [taken, hk, if_true, List.map_cons, List.mem_cons, not_or]
          exact ⟨ht.1.2, ht.2⟩
        · rw [i5]
          simp only [taken, hk, if_true]
          exact overlay_cons _ _ _ _ (h3 o)

/-- Crash points while extend writes edges. -/
theorem extendEdges_states_weak (hc : c.RoundTrip) (l : List (Except E (Triple Id × EP))) (u : Gen Ulid) (d : Db)
    (h : Weak T c d) (hu : NewUlids Id l.length u d) {x : Db} (hx : x ∈ (extendEdges c u l).states d) :
    ∃ (l1 l2 : List (Except E (Triple Id × EP))) (S : EdgeOrder → Bool), l1 <+: l ∧ l2 <+: l ∧
      (l2 = l1 ∨ ∃ a, l2 = l1 ++ [.ok a]) ∧ (S .OSP = true → S .POS = true) ∧ (S .POS = true → S .SPO = true) ∧
      Weak (fun t => T t ∨ t ∈ (taken c.okE l).map Prod.fst) c x ∧ x.nodeProps = d.nodeProps ∧
      ∀ o, x.view c o = overlay (taken c.okE (if S o = true then l2 else l1)) (d.view c o) := by
  induction l generalizing u d T with
  | nil =>
    have := List.mem_singleton.1 hx
    subst this
    exact ⟨[], [], fun _ => false, List.prefix_refl _, List.prefix_refl _, .inl rfl, by simp, by simp,
      h.mono (fun t ht => .inl ht), rfl, fun o => rfl⟩
  | cons a l ih =>
    have start : ∀ {a : Except E (Triple Id × EP)}, ∃ (l1 l2 : List (Except E (Triple Id × EP))) (S : EdgeOrder → Bool), l1 <+: a :: l ∧ l2 <+: a :: l ∧
      (l2 = l1 ∨ ∃ a, l2 = l1 ++ [.ok a]) ∧ (S .OSP = true → S .POS = true) ∧ (S .POS = true → S .SPO = true) ∧
      Weak (fun t => T t ∨ t ∈ (taken c.okE (a :: l)).map Prod.fst) c d ∧ d.nodeProps = d.nodeProps ∧
      ∀ o, d.view c o = overlay (taken c.okE (if S o = true then l2 else l1)) (d.view c o) := by
      intro a
      exact ⟨[], [], fun _ => false, List.nil_prefix, List.nil_prefix, .inl rfl, by simp, by simp,
        h.mono (fun t ht => .inl ht), rfl, fun o => rfl⟩
    cases a with
    | error e =>
      have := List.mem_singleton.1 hx
      subst this
      exact start
    | ok y =>
      cases hb : c.e.ser y.2 with
      | none =>
        rw [extendEdges] at hx
        simp only [hb] at hx
        have := List.mem_singleton.1 hx
        subst this
        exact start
      | some b =>
        have hk : c.okE y.2 = true := by simp [Codecs.okE, hb]
        have hi : ∀ o (t : Triple Id), d.idIn o t ≠ some (toBeBytes (Gen.fresh u).1).1 :=
          fun o t => hu.2 0 (by simp) o t
        obtain ⟨f1, f2, f3⟩ := full_weak h (t := y.1) hi (hc.2 _ _ hb)
        have mid : ∀ (S : EdgeOrder → Bool), (S .OSP = true → S .POS = true) → (S .POS = true → S .SPO = true) →
            x = wrote d y.1 (toBeBytes (Gen.fresh u).1).1 b S →
            ∃ (l1 l2 : List (Except E (Triple Id × EP))) (S : EdgeOrder → Bool), l1 <+: .ok y :: l ∧ l2 <+: .ok y :: l ∧
              (l2 = l1 ∨ ∃ a, l2 = l1 ++ [.ok a]) ∧ (S .OSP = true → S .POS = true) ∧ (S .POS = true → S .SPO = true) ∧
              Weak (fun t => T t ∨ t ∈ (taken c.okE (.ok y :: l)).map Prod.fst) c x ∧ x.nodeProps = d.nodeProps ∧
              ∀ o, x.view c o = overlay (taken c.okE (if S o = true then l2 else l1)) (d.view c o) := by
          intro S s1 s2 hx
          obtain ⟨w1, w2⟩ := wrote_weak h (t := y.1) hi (hc.2 _ _ hb) S
          subst hx
          refine ⟨[], [.ok y], S, List.nil_prefix, List.cons_prefix_cons.2 ⟨rfl, List.nil_prefix⟩, .inr ⟨y, rfl⟩, s1, s2,
            w1.mono (fun t ht => ?_), rfl, fun o => ?_⟩
          · rcases ht with ht | ht
            · exact .inl ht
            · right; simp [taken, hk, ht]
          · cases hS : S o with
            | false =>
              simp only [hS, Bool.false_eq_true, if_false, taken]
              funext t
              rw [w2, hS]
              simp [overlay, lastOf, alGet]
            | true =>
              simp only [hS, if_true, taken, hk]
              rw [← overlay_cons y [] (d.view c o) ((wrote d y.1 (toBeBytes (Gen.fresh u).1).1 b S).view c o)
                (fun t => by rw [w2, hS]; simp)]
              rfl
        have rest : ∀ d', d' = ({ d with edgeProps := extendedProps d y.1 (toBeBytes (Gen.fresh u).1).1 b }.setEdge y.1
              (toBeBytes (Gen.fresh u).1).1) → x ∈ (extendEdges c (Gen.fresh u).2 l).states d' →
            ∃ (l1 l2 : List (Except E (Triple Id × EP))) (S : EdgeOrder → Bool), l1 <+: .ok y :: l ∧ l2 <+: .ok y :: l ∧
              (l2 = l1 ∨ ∃ a, l2 = l1 ++ [.ok a]) ∧ (S .OSP = true → S .POS = true) ∧ (S .POS = true → S .SPO = true) ∧
              Weak (fun t => T t ∨ t ∈ (taken c.okE (.ok y :: l)).map Prod.fst) c x ∧ x.nodeProps = d.nodeProps ∧
              ∀ o, x.view c o = overlay (taken c.okE (if S o = true then l2 else l1)) (d.view c o) := by
          rintro d' rfl hx
          obtain ⟨l1, l2, S, p1, p2, p3, s1, s2, w, n, v⟩ := ih (Gen.fresh u).2 _ f1
            (NewUlids.draw (m := l.length) hu (fun o t v hv => by
              rw [f2] at hv
              split at hv
              · exact .inl (Option.some.inj hv).symm
              · exact .inr hv)) hx
          refine ⟨.ok y :: l1, .ok y :: l2, S, List.cons_prefix_cons.2 ⟨rfl, p1⟩, List.cons_prefix_cons.2 ⟨rfl, p2⟩, ?_, s1, s2,
            w.mono (fun t ht => ?_), n, fun o => ?_⟩
          · rcases p3 with rfl | ⟨a, rfl⟩
            · exact .inl rfl
            · exact .inr ⟨a, rfl⟩
          · rcases ht with ht | ht
            · exact .inl ht.1
            · right; simp only [taken, hk, if_true, List.map_cons, List.mem_cons]; exact .inr ht
          · rw [v o, overlay_cons y _ (d.view c o) _ (f3 o)]
            cases S o <;> simp [taken, hk]
        rw [extendEdges] at hx
        simp only [hb, Prog.states, List.mem_cons] at hx
        rcases hx with rfl | rfl | rfl | rfl | hx
        · exact start
        · exact mid (fun _ => false) (by simp) (by simp) rfl
        · exact mid (fun o => match o with | .SPO => true | _ => false) (by simp) (by simp) rfl
        · exact mid (fun o => match o with | .OSP => false | _ => true) (by simp) (by simp) rfl
        · cases ho : d.spo.get (encodeSpo y.1).1 with
          | none =>
            simp only [ho] at hx
            refine rest _ ?_ hx
            simp only [extendedProps, ho, setEdge]
          | some w =>
            simp only [ho, Prog.states, List.mem_cons] at hx
            rcases hx with rfl | hx
            · exact mid (fun _ => true) (by simp) (by simp) rfl
            · refine rest _ ?_ hx
              simp only [extendedProps, ho, setEdge]

/-- the graph in which `l` was written over `d` -/
theorem shown_nodes {d d' : Db} (h : d'.nodeProps = d.nodeProps) : (d'.graph (Id := Id) c).nodes = (d.graph (Id := Id) c).nodes := by
  unfold graph; rw [h]

theorem extendNodes_run_weak (hc : c.RoundTrip) {α : Type} (k : Except (LR SErr E) Unit → Prog Db α)
    (l : List (Except E (Id × NP))) (d : Db) (h : Weak T c d) :
    ∃ d', (extendNodes c k l).run d = (k (outc c.okN l).result).run d' ∧ Weak T c d' ∧
      (∀ n : Id, (d'.graph c).nodes n = (lastOf (taken c.okN l) n).or ((d.graph c).nodes n)) ∧
      d'.edgeProps = d.edgeProps ∧ ∀ o, d'.tree o = d.tree o := by
  induction l generalizing d with
  | nil => exact ⟨d, rfl, h, fun n => rfl, rfl, fun _ => rfl⟩
  | cons a l ih =>
    cases a with
    | error e => exact ⟨d, rfl, h, fun n => rfl, rfl, fun _ => rfl⟩
    | ok x =>
      rw [extendNodes, taken, outc]
      cases hb : c.n.ser x.2 with
      | none =>
        have : c.okN x.2 = false := by simp [Codecs.okN, hb]
        simp only [this]
        exact ⟨d, rfl, h, fun n => rfl, rfl, fun _ => rfl⟩
      | some b =>
        have : c.okN x.2 = true := by simp [Codecs.okN, hb]
        simp only [this, if_true]
        obtain ⟨d', h1, h2, h3, h4, h5⟩ := ih _ (h.insNode (n := x.1) (hc.1 _ b hb))
        refine ⟨d', h1, h2, fun n => ?_, h4, fun o => (h5 o).trans (withNodes_tree _ _ _)⟩
        rw [h3, lastOf_cons, Option.or_assoc]
        congr 1
        simp only [graph, BMap.get_insert, toBe_inj]
        by_cases e : n = x.1
        · subst e; simp [hc.1 _ b hb]
        · simp [e, Ne.symm e]

theorem extendNodes_states_weak (hc : c.RoundTrip) {α : Type} (k : Except (LR SErr E) Unit → Prog Db α)
    (l : List (Except E (Id × NP))) (d : Db) (h : Weak T c d) {x : Db} (hx : x ∈ (extendNodes c k l).states d) :
    (∃ l', l' <+: l ∧ Weak T c x ∧
      (∀ n : Id, (x.graph c).nodes n = (lastOf (taken c.okN l') n).or ((d.graph c).nodes n)) ∧
      x.edgeProps = d.edgeProps ∧ ∀ o, x.tree o = d.tree o) ∨
    ∃ d', x ∈ (k (outc c.okN l).result).states d' ∧ Weak T c d' ∧
      (∀ n : Id, (d'.graph c).nodes n = (lastOf (taken c.okN l) n).or ((d.graph c).nodes n)) ∧
      d'.edgeProps = d.edgeProps ∧ ∀ o, d'.tree o = d.tree o := by
  induction l generalizing d with
  | nil => exact .inr ⟨d, hx, h, fun n => rfl, rfl, fun _ => rfl⟩
  | cons a l ih =>
    cases a with
    | error e => exact .inr ⟨d, hx, h, fun n => rfl, rfl, fun _ => rfl⟩
    | ok y =>
      rw [extendNodes] at hx
      rw [taken, outc]
      cases hb : c.n.ser y.2 with
      | none =>
        have : c.okN y.2 = false := by simp [Codecs.okN, hb]
        simp only [hb] at hx
        simp only [this]
        exact .inr ⟨d, hx, h, fun n => rfl, rfl, fun _ => rfl⟩
      | some b =>
        have hk : c.okN y.2 = true := by simp [Codecs.okN, hb]
        simp only [hb, Prog.states, List.mem_cons] at hx
        simp only [hk, if_true]
        have key : ∀ (L : List (Id × NP)) (n : Id),
            (lastOf L n).or ((Db.graph c { d with nodeProps := d.nodeProps.insert (toBeBytes y.1).1 b }).nodes n) =
              (lastOf (y :: L) n).or ((d.graph c).nodes n) := by
          intro L n
          rw [lastOf_cons, Option.or_assoc]
          congr 1
          simp only [graph, BMap.get_insert, toBe_inj]
          by_cases e : n = y.1
          · subst e; simp [hc.1 _ b hb]
          · simp [e, Ne.symm e]
        rcases hx with rfl | hx
        · exact .inl ⟨[], List.nil_prefix, h, fun n => rfl, rfl, fun _ => rfl⟩
        · rcases ih _ (h.insNode (n := y.1) (hc.1 _ b hb)) hx with ⟨l', p, h2, h3, h4, h5⟩ | ⟨d', h1, h2, h3, h4, h5⟩
          · refine .inl ⟨.ok y :: l', List.cons_prefix_cons.2 ⟨rfl, p⟩, h2, fun n => ?_, h4,
              fun o => (h5 o).trans (withNodes_tree _ _ _)⟩
            rw [h3, key]
            simp [taken, hk]
          · refine .inr ⟨d', h1, h2, fun n => ?_, h4, fun o => (h5 o).trans (withNodes_tree _ _ _)⟩
            rw [h3, key]

theorem view_congr {d d' : Db} (h1 : d'.edgeProps = d.edgeProps) (h2 : ∀ o, d'.tree o = d.tree o) (o : EdgeOrder)
    (t : Triple Id) : d'.view c o t = d.view c o t := by
  unfold view idIn; rw [h1, h2]

theorem NewUlids.congr {m : Nat} {u : Gen Ulid} {d d' : Db} (h : NewUlids Id m u d) (h2 : ∀ o, d'.tree o = d.tree o) :
    NewUlids Id m u d' := ⟨h.1, fun j hj o t => by unfold idIn; rw [h2]; exact h.2 j hj o t⟩

/-- A complete extend, on a database whose orderings need not agree. -/
theorem extend_run_weak (hc : c.RoundTrip) (src : Source E Id NP EP) {u : Gen Ulid} {d : Db} (h : Weak T c d)
    (hu : NewUlids Id src.edges.length u d) :
    Weak (fun t => T t ∧ t ∉ (takenEdges c.okN c.okE src).map Prod.fst) c ((extend c u src).run d).1 ∧
      (∀ o, shown c ((extend c u src).run d).1 o = extended c.okN c.okE src (shown c d o)) ∧
      ((extend c u src).run d).2.2 = (match outc c.okN src.nodes with
        | .done => (outc c.okE src.edges).result
        | e => e.result) := by
  obtain ⟨d', h1, h2, h3, h4, h5⟩ := extendNodes_run_weak hc (fun
    | .error e => .ret (u, .error e)
    | .ok () => extendEdges c u src.edges) src.nodes d h
  have h1' : (extend c u src).run d = _ := h1
  simp only [h1', both_store, takenEdges]
  have easy : Weak (fun t => T t ∧ t ∉ (([] : List (Triple Id × EP)).map Prod.fst)) c d' ∧
      (∀ o, shown c d' o = ({ nodes := fun n => (lastOf (taken c.okN src.nodes) n).or ((shown c d o).nodes n)
                              edges := fun t => (lastOf [] t).or ((shown c d o).edges t) } : Graph Id NP EP)) := by
    refine ⟨h2.mono (fun t ht => ⟨ht, by simp⟩), fun o => Graph.ext' h3 (fun t => ?_)⟩
    exact view_congr h4 h5 o t
  cases hr : outc c.okN src.nodes with
  | done =>
    simp only [Outcome.result]
    obtain ⟨i1, i2, i3, i4, i5⟩ := extendEdges_run_weak hc 0 src.edges u d' h2
      ((hu.congr h5).mono (by omega))
    refine ⟨i1, fun o => Graph.ext' (fun n => ?_) (fun t => ?_), i4⟩
    · exact (congrFun (shown_nodes i3) n).trans (h3 n)
    · refine (congrFun (i5 o) t).trans ?_
      simp only [overlay]
      rw [view_congr h4 h5]
      rfl
  | unserializable => exact ⟨easy.1, easy.2, rfl⟩
  | source e => exact ⟨easy.1, easy.2, rfl⟩

/-- Crash points of extend. -/
theorem extend_states_weak (hc : c.RoundTrip) (src : Source E Id NP EP) {u : Gen Ulid} {d : Db} (h : Weak T c d)
    (hu : NewUlids Id src.edges.length u d) {x : Db} (hx : x ∈ (extend c u src).states d) :
    ∃ (src1 src2 : Source E Id NP EP) (S : EdgeOrder → Bool), Source.CutOff src1 src ∧ Source.CutOff src2 src ∧
      (src2 = src1 ∨ ∃ a, src2 = { src1 with edges := src1.edges ++ [.ok a] }) ∧
      (S .OSP = true → S .POS = true) ∧ (S .POS = true → S .SPO = true) ∧
      Weak (fun t => T t ∨ t ∈ (takenEdges c.okN c.okE src).map Prod.fst) c x ∧
      ∀ o, shown c x o = extended c.okN c.okE (if S o = true then src2 else src1) (shown c d o) := by
  have nodesOnly : ∀ (l' : List (Except E (Id × NP))), l' <+: src.nodes → Weak T c x →
      (∀ n : Id, (x.graph c).nodes n = (lastOf (taken c.okN l') n).or ((d.graph c).nodes n)) →
      x.edgeProps = d.edgeProps → (∀ o, x.tree o = d.tree o) →
      ∃ (src1 src2 : Source E Id NP EP) (S : EdgeOrder → Bool), Source.CutOff src1 src ∧ Source.CutOff src2 src ∧
        (src2 = src1 ∨ ∃ a, src2 = { src1 with edges := src1.edges ++ [.ok a] }) ∧
        (S .OSP = true → S .POS = true) ∧ (S .POS = true → S .SPO = true) ∧
        Weak (fun t => T t ∨ t ∈ (takenEdges c.okN c.okE src).map Prod.fst) c x ∧
        ∀ o, shown c x o = extended c.okN c.okE (if S o = true then src2 else src1) (shown c d o) := by
    intro l' p h2 h3 h4 h5
    refine ⟨⟨l', []⟩, ⟨l', []⟩, fun _ => false, ⟨p, List.nil_prefix, .inr rfl⟩, ⟨p, List.nil_prefix, .inr rfl⟩, .inl rfl,
      by simp, by simp, h2.mono (fun t ht => .inl ht), fun o => ?_⟩
    simp only [Bool.false_eq_true, if_false, both_store]
    refine Graph.ext' h3 (fun t => (view_congr h4 h5 o t).trans ?_)
    simp only [takenEdges]
    cases outc c.okN l' <;> rfl
  rcases extendNodes_states_weak hc (fun
    | .error e => .ret (u, .error e)
    | .ok () => extendEdges c u src.edges) src.nodes d h hx with ⟨l', p, h2, h3, h4, h5⟩ | ⟨d', h1, h2, h3, h4, h5⟩
  · exact nodesOnly l' p h2 h3 h4 h5
  · cases hr : outc c.okN src.nodes with
    | done =>
      rw [hr] at h1
      simp only [Outcome.result] at h1
      obtain ⟨l1, l2, S, p1, p2, p3, s1, s2, w, nn, v⟩ := extendEdges_states_weak hc src.edges u d' h2 (hu.congr h5) h1
      refine ⟨⟨src.nodes, l1⟩, ⟨src.nodes, l2⟩, S, ⟨List.prefix_refl _, p1, .inl rfl⟩, ⟨List.prefix_refl _, p2, .inl rfl⟩, ?_,
        s1, s2, ?_, fun o => ?_⟩
      · rcases p3 with rfl | ⟨a, rfl⟩
        · exact .inl rfl
        · exact .inr ⟨a, rfl⟩
      · simpa only [takenEdges, hr] using w
      · have e1 : ∀ b : Bool, taken c.okE (if b = true then l2 else l1) =
            takenEdges c.okN c.okE (if b = true then ⟨src.nodes, l2⟩ else ⟨src.nodes, l1⟩ : Source E Id NP EP) := by
          intro b; cases b <;> simp [takenEdges, hr]
        have e2 : ∀ b : Bool, (if b = true then ⟨src.nodes, l2⟩ else ⟨src.nodes, l1⟩ : Source E Id NP EP).nodes = src.nodes := by
          intro b; cases b <;> rfl
        rw [both_store, ← e1, e2]
        refine Graph.ext' (fun n => ?_) (fun t => ?_)
        · exact (congrFun (shown_nodes nn) n).trans (h3 n)
        · refine (congrFun (v o) t).trans ?_
          simp only [overlay]
          rw [view_congr h4 h5]
          rfl
    | unserializable =>
      rw [hr] at h1
      have := List.mem_singleton.1 h1
      subst this
      exact nodesOnly src.nodes (List.prefix_refl _) h2 h3 h4 h5
    | source e =>
      rw [hr] at h1
      have := List.mem_singleton.1 h1
      subst this
      exact nodesOnly src.nodes (List.prefix_refl _) h2 h3 h4 h5

theorem weak_shows {x : Db} (h : Weak T c x) :
    (∃ l : List (Id × NP), iterVertices Id c x = l.map .ok ∧ ∀ o, Lists (· < ·) (shown c x o).nodes l) ∧
    ∀ o, ∃ l : List (Triple Id × EP), iterEdges Id c x o = l.map .ok ∧ Lists (edgeLT o) (shown c x o).edges l := by
  obtain ⟨l, h1, h2⟩ := iterVertices_lists h.nodes
  exact ⟨⟨l, h1, fun o => h2⟩, fun o => iterEdges_lists (h.keys o) (h.recs o)⟩

end Sled

/-! ## interrupted and repeated -/

namespace SledStore

open Db Sled

variable {c : Codecs NP EP}

theorem newUlids {m : Nat} {u : Gen Ulid} {d : Db} (hu : Fresh m u) (hn : UnusedUlids m u d) : NewUlids Id m u d :=
  ⟨hu, fun j hj o t ht => hn o _ (BMap.mem_entries.2 ht) j hj rfl⟩

theorem Interrupted.weak (hc : c.RoundTrip) {src : Source E Id NP EP} {d d' : Db} (hd : d.Inv Id c)
    (h : Interrupted c src d d') :
    Weak (fun t => t ∈ (takenEdges c.okN c.okE src).map Prod.fst) c d' ∧
      ∀ o, extended c.okN c.okE src (shown c d' o) = extended c.okN c.okE src (d.graph c) := by
  induction h with
  | start =>
    refine ⟨hd.weak _, fun o => ?_⟩
    congr 1
    exact Graph.ext' (fun _ => rfl) (fun t => hd.toAgree.view_eq o t)
  | crash h hu hn h2 ih =>
    obtain ⟨src1, src2, S, h3, h4, -, -, -, w, v⟩ := extend_states_weak hc src ih.1 (newUlids hu hn) h2
    refine ⟨w.mono (fun t ht => ht.elim id id), fun o => ?_⟩
    rw [v, ← ih.2 o]
    cases S o
    · exact extended_again _ _ h3 _
    · exact extended_again _ _ h4 _

theorem Interrupted.heal (hc : c.RoundTrip) {src : Source E Id NP EP} {d d' : Db} (hd : d.Inv Id c)
    (h : Interrupted c src d d') {u : Gen Ulid} (hu : Fresh src.edges.length u)
    (hn : UnusedUlids src.edges.length u d') :
    ((Sled.extend c u src).run d').1.Inv Id c ∧
      ((Sled.extend c u src).run d').1.graph c = extended c.okN c.okE src (d.graph c) := by
  obtain ⟨w, v⟩ := h.weak hc hd
  obtain ⟨w', v', -⟩ := extend_run_weak hc src w (newUlids hu hn)
  exact ⟨w'.inv (fun t ht => ht.2 ht.1), (v' .SPO).trans (v .SPO)⟩

end SledStore

end Verif
