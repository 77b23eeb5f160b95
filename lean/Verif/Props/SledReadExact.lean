import Verif.Props.SledRaceExact
import Verif.Props.SledLazy

/-!
# C55 and C56 once more: every edge that is not only inserted can be missed

`C55_violated` and `C56_violated` are readings of one store next to one call.  Here: whatever the store contains, and whatever the threads
do, an edge is sure to be returned by iterations and queries if and only if no thread touches it otherwise than by `insert_edge`.
-/

set_option linter.unusedSectionVars false
set_option maxRecDepth 100000

namespace Verif

open Spec ConcreteId Verif.Sled

/-- The call makes its own scans, and its argument, if it is another store, can be read to the end. -/
def Sled.Call.ReadsAll {Id NP EP E : Type} : Sled.Call E Id NP EP → Prop
  | .removeNodeScan _ _ _ => False
  | .extend _ src => fails src.nodes = false ∧ fails src.edges = false
  | .merge _ src => fails src.nodes = false ∧ fails src.edges = false
  | _ => True

namespace ReadExact

open RaceExact Verif.Db

variable {Id NP EP E : Type} [LinearOrder Id] [ConcreteId Id] [LaidOutId Id]
variable {c : Codecs NP EP} {mN : NP → NP → NP} {mE : EP → EP → EP}

omit [LaidOutId Id] in
theorem result_run {U : Triple Id → Prop} {o : EdgeOrder} {α : Type} {R : α → Prop} {p : Prog Db α} {t : Option (Triple Id)}
    {L : List (Ev Id)} (h : Enters c o U R p t L) {s : Db} (hs : Decodable c s) : R (p.run s).2 := by
  induction p generalizing t L s with
  | ret v => exact h.1
  | call f k ih =>
    obtain ⟨h0, h | ⟨u, h1, h2, h3⟩ | ⟨e, L1, rfl, h2, h3, h4⟩⟩ := h s hs
    · exact ih s h.2 h0
    · exact ih s h3 h0
    · exact ih s h4 h0

/-- the state after `merge_edge` -/
theorem mergeEdge_eq (ht : c.Total) {d : Db} (hd : Decodable c d) (i : Id) (t : Triple Id) (p : EP) :
    ∃ b, ((mergeEdge c mE i t p).run d).1 =
      { d.setEdge t (be i) with edgeProps := mergedProps d t (be i) b } := by
  unfold mergeEdge transaction mergedProps
  simp only [Prog.run]
  obtain ⟨b, hb⟩ := Option.isSome_iff_exists.1 (ht.2 p)
  cases hg : d.spo.get (encodeSpo t).1 with
  | none => exact ⟨b, by simp only [hb]; rfl⟩
  | some w =>
    cases hw : d.edgeProps.get w with
    | none => exact ⟨b, by simp only [hw, hb]; rfl⟩
    | some v =>
      obtain ⟨old, ho⟩ := Option.isSome_iff_exists.1 (hd.2 _ v hw)
      obtain ⟨b, hb⟩ := Option.isSome_iff_exists.1 (ht.2 (mE old p))
      exact ⟨b, by simp only [hw, ho, hb]; rfl⟩

/-- What is left to do is to remove the record `v` of the edge `t`, or it is done. -/
def Doomed (t : Triple Id) (v : Bytes) (d : Db) : Prop := d.idIn .SPO t = some v ∨ d.edgeProps.get v = none

theorem mergedProps_get {d : Db} {t : Triple Id} {i b v : Bytes} (hi : i ≠ v) :
    (mergedProps d t i b).get v = if d.idIn .SPO t = some v then none else d.edgeProps.get v := by
  unfold mergedProps
  have e : d.idIn .SPO t = d.spo.get (encodeSpo t).1 := rfl
  rw [e]
  cases hg : d.spo.get (encodeSpo t).1 with
  | none => simp [BMap.get_insert, hi.symm]
  | some w =>
    by_cases hw : w = v
    · subst hw
      simp [BMap.get_insert, hi.symm, BMap.get_erase]
    · have : v ≠ w := fun h => hw h.symm
      simp [BMap.get_insert, hi.symm, BMap.get_erase, hw, this]

theorem merge_item (hc : c.RoundTrip) (ht : c.Total) {d : Db} (hd : Decodable c d) {t u : Triple Id} {v : Bytes} {i : Id} {p : EP} (hi : be i ≠ v)
    (h : Doomed t v d) :
    Doomed t v ((mergeEdge c mE i u p).run d).1 ∧ (u = t → ((mergeEdge c mE i u p).run d).1.edgeProps.get v = none) ∧
    (d.edgeProps.get v = none → ((mergeEdge c mE i u p).run d).1.edgeProps.get v = none) := by
  obtain ⟨b, e⟩ := mergeEdge_eq (mE := mE) ht hd i u p
  rw [e]
  have key : d.edgeProps.get v = none → (mergedProps d u (be i) b).get v = none := by
    intro h
    rw [mergedProps_get hi, h]
    split <;> rfl
  refine ⟨?_, ?_, key⟩
  · rcases h with h | h
    · by_cases hu : u = t
      · subst hu
        exact .inr (by simp only; rw [mergedProps_get hi, h]; simp)
      · refine .inl ?_
        have := setEdge_idIn d u (be i) .SPO t
        rw [if_neg (fun h => hu h.symm)] at this
        exact this.trans h
    · exact .inr (key h)
  · rintro rfl
    rcases h with h | h
    · simp only
      rw [mergedProps_get hi, h]; simp
    · exact key h

theorem merge_edges (hc : c.RoundTrip) (ht : c.Total) {t : Triple Id} {v : Bytes} (l : List (Except E (Triple Id × EP)))
    (hl : fails l = false) (g : Gen Id) (hi : ∀ x ∈ Call.drawnFor g l, x.1 ≠ v) {d : Db} (hd : Decodable c d) (h : Doomed t v d) :
    ((∃ p, .ok (t, p) ∈ l) → ((mergeEdges c mE g l).run d).1.edgeProps.get v = none) ∧
    (d.edgeProps.get v = none → ((mergeEdges c mE g l).run d).1.edgeProps.get v = none) := by
  induction l generalizing d g with
  | nil => exact ⟨(by rintro ⟨p, h⟩; cases h), fun h => h⟩
  | cons x l ih =>
    cases x with
    | error e => cases hl
    | ok x =>
      have hi1 : be (Gen.fresh g).1 ≠ v := hi _ List.mem_cons_self
      obtain ⟨h1, h2, h3⟩ := merge_item (mE := mE) (p := x.2) (u := x.1) hc ht hd hi1 h
      have he := enters_mergeEdge (mE := mE) (o := .SPO) (U := fun _ => False) hc ht (Gen.fresh g).1 x.1 x.2
      have hr := result_run he hd
      have hd' := decodable_run he hd
      have e : ((mergeEdges c mE g (.ok x :: l)).run d).1 =
          ((mergeEdges c mE (Gen.fresh g).2 l).run ((mergeEdge c mE (Gen.fresh g).1 x.1 x.2).run d).1).1 := by
        rw [mergeEdges, Prog.run_bind, hr]
      rw [e]
      obtain ⟨i1, i2⟩ := ih hl (Gen.fresh g).2 (fun y hy => hi y (List.mem_cons_of_mem _ hy)) hd' h1
      refine ⟨?_, fun h => i2 (h3 h)⟩
      rintro ⟨p, hp⟩
      rcases List.mem_cons.1 hp with hp | hp
      · cases hp
        exact i2 (h2 rfl)
      · exact i1 ⟨p, hp⟩

theorem merge_nodes (hc : c.RoundTrip) (ht : c.Total) {α : Type} {k : Except (LR SErr E) Unit → Prog Db α} (l : List (Except E (Id × NP)))
    (hl : fails l = false) {d : Db} (hd : Decodable c d) :
    ∃ d', (mergeNodes c mN k l).run d = (k (.ok ())).run d' ∧ Decodable c d' ∧ d'.spo = d.spo ∧ d'.edgeProps = d.edgeProps := by
  induction l generalizing d with
  | nil => exact ⟨d, rfl, hd, rfl, rfl⟩
  | cons x l ih =>
    cases x with
    | error e => cases hl
    | ok x =>
      have he := enters_mergeNode (mN := mN) (o := .SPO) (U := fun _ : Triple Id => False) hc ht x.1 x.2
      have hr := result_run he hd
      have hd' := decodable_run he hd
      obtain ⟨d', h1, h2, h3, h4⟩ := ih hl hd'
      refine ⟨d', ?_, h2, h3.trans ?_, h4.trans ?_⟩
      · rw [mergeNodes, Prog.run_bind, hr]
        exact h1
      all_goals
        unfold mergeNode transaction
        simp only [Prog.run]
        obtain ⟨b, hb⟩ := Option.isSome_iff_exists.1 (ht.1 x.2)
        cases hg : d.nodeProps.get (toBeBytes x.1).1 with
        | none => simp only [hb]
        | some v =>
          obtain ⟨old, ho⟩ := Option.isSome_iff_exists.1 (hd.1 _ v hg)
          obtain ⟨b, hb⟩ := Option.isSome_iff_exists.1 (ht.1 (mN old x.2))
          simp only [ho, hb]

/-- the records after one edge of `extend` -/
def extProps (d : Db) (t : Triple Id) (i b : Bytes) : Tree :=
  match d.spo.get (encodeSpo t).1 with
  | none => d.edgeProps.insert i b
  | some o => (d.edgeProps.insert i b).erase o

theorem extProps_get {d : Db} {t : Triple Id} {i b v : Bytes} (hi : i ≠ v) :
    (extProps d t i b).get v = if d.idIn .SPO t = some v then none else d.edgeProps.get v := by
  unfold extProps
  have e : d.idIn .SPO t = d.spo.get (encodeSpo t).1 := rfl
  rw [e]
  cases hg : d.spo.get (encodeSpo t).1 with
  | none => simp [BMap.get_insert, hi.symm]
  | some w =>
    by_cases hw : w = v
    · subst hw
      simp [BMap.get_erase]
    · have : v ≠ w := fun h => hw h.symm
      simp [BMap.get_insert, hi.symm, BMap.get_erase, hw, this]

/-- the state after one edge of `extend` -/
theorem extend_item (ht : c.Total) (u : Gen Ulid) (x : Triple Id × EP) (l : List (Except E (Triple Id × EP))) (d : Db) :
    ∃ b, ((extendEdges c u (.ok x :: l)).run d).1 = ((extendEdges c (Gen.fresh u).2 l).run
      { (d.setEdge x.1 (be (Gen.fresh u).1)) with edgeProps := extProps d x.1 (be (Gen.fresh u).1) b }).1 := by
  obtain ⟨b, hb⟩ := Option.isSome_iff_exists.1 (ht.2 x.2)
  refine ⟨b, ?_⟩
  rw [extendEdges_ok u x l hb]
  simp only [Prog.run, extProps]
  cases hg : d.spo.get (encodeSpo x.1).1 with
  | none => rfl
  | some o => rfl

theorem extend_edges (ht : c.Total) {t : Triple Id} {v : Bytes} (l : List (Except E (Triple Id × EP)))
    (hl : fails l = false) (g : Gen Ulid) (hi : ∀ x ∈ Call.drawnFor g l, x.1 ≠ v) {d : Db} (h : Doomed t v d) :
    ((∃ p, .ok (t, p) ∈ l) → ((extendEdges c g l).run d).1.edgeProps.get v = none) ∧
    (d.edgeProps.get v = none → ((extendEdges c g l).run d).1.edgeProps.get v = none) := by
  induction l generalizing d g with
  | nil => exact ⟨(by rintro ⟨p, h⟩; cases h), fun h => h⟩
  | cons x l ih =>
    cases x with
    | error e => cases hl
    | ok x =>
      have hi1 : be (Gen.fresh g).1 ≠ v := hi _ List.mem_cons_self
      obtain ⟨b, e⟩ := extend_item ht g x l d
      rw [e]
      have hget := extProps_get (d := d) (t := x.1) (b := b) hi1
      generalize extProps d x.1 (be (Gen.fresh g).1) b = w at hget ⊢
      have key : d.edgeProps.get v = none → w.get v = none := by
        intro h
        rw [hget, h]
        split <;> rfl
      have h1 : Doomed t v { (d.setEdge x.1 (be (Gen.fresh g).1)) with edgeProps := w } := by
        rcases h with h | h
        · by_cases hu : x.1 = t
          · refine .inr ?_
            simp only
            rw [hget, hu, h]; simp
          · refine .inl ?_
            have := setEdge_idIn d x.1 (be (Gen.fresh g).1) .SPO t
            rw [if_neg (fun h => hu h.symm)] at this
            exact this.trans h
        · exact .inr (key h)
      obtain ⟨i1, i2⟩ := ih hl (Gen.fresh g).2 (fun y hy => hi y (List.mem_cons_of_mem _ hy)) h1
      refine ⟨?_, fun h => i2 (key h)⟩
      rintro ⟨p, hp⟩
      rcases List.mem_cons.1 hp with hp | hp
      · cases hp
        refine i2 ?_
        simp only
        rcases h with h | h
        · rw [hget, h]; simp
        · exact key h
      · exact i1 ⟨p, hp⟩

theorem extend_nodes (ht : c.Total) {α : Type} {k : Except (LR SErr E) Unit → Prog Db α} (l : List (Except E (Id × NP)))
    (hl : fails l = false) (d : Db) :
    ∃ d', (extendNodes c k l).run d = (k (.ok ())).run d' ∧ d'.spo = d.spo ∧ d'.edgeProps = d.edgeProps := by
  induction l generalizing d with
  | nil => exact ⟨d, rfl, rfl, rfl⟩
  | cons x l ih =>
    cases x with
    | error e => cases hl
    | ok x =>
      obtain ⟨b, hb⟩ := Option.isSome_iff_exists.1 (ht.1 x.2)
      obtain ⟨d', h1, h2, h3⟩ := ih hl { d with nodeProps := d.nodeProps.insert (toBeBytes x.1).1 b }
      refine ⟨d', ?_, h2, h3⟩
      rw [extendNodes, hb]
      exact h1

/-- A call that touches an edge otherwise than by `insert_edge` removes its record. -/
theorem gone (hc : c.RoundTrip) (ht : c.Total) {x : Call E Id NP EP} {t : Triple Id} (hw : x.ReadsAll) (hx : x.TouchesEdge t)
    (hn : ¬ ∃ i p, x = .insertEdge i t p) {d : Db} (hd : Decodable c d) (hk : ∀ o, d.KeysOk Id o) {v : Bytes} (hid : ∀ o, d.idIn o t = some v)
    (hv : ∀ y ∈ x.writes, y.1 ≠ v) : ((x.prog c mN mE).run d).1.edgeProps.get v = none := by
  have h1 : Doomed t v d := .inl (hid .SPO)
  cases x with
  | insertNode n p => exact hx.elim
  | mergeNode n p => exact hx.elim
  | insertEdge i u p =>
    cases hx
    exact absurd ⟨i, p, rfl⟩ hn
  | removeNodeScan n f b => exact hw.elim
  | mergeEdge i u p =>
    cases hx
    rw [Call.prog, Prog.run_bind]
    exact (merge_item hc ht hd (hv _ List.mem_cons_self) h1).2.1 rfl
  | removeEdge u =>
    cases hx
    have e : d.spo.get (encodeSpo t).1 = some v := hid .SPO
    rw [Call.prog, Prog.run_bind]
    simp only [Prog.run, removeEdge, e, BMap.get_erase_self]
  | removeNode n =>
    obtain ⟨F, hF, hFm⟩ := rangeArr_enc (hk .SPO) (keyBounds1 n)
    obtain ⟨B, hB, hBm⟩ := rangeArr_enc (hk .OSP) (keyBounds1 n)
    have e1 := (congrArg (forwardBatch Id ⟨[], [], [], []⟩) hF).trans (forwardBatch_enc F _)
    have e2 := (congrArg (backwardBatch Id ⟨[], [], [], []⟩) hB).trans (backwardBatch_enc B _)
    simp only [List.nil_append] at e1 e2
    have e : ((removeNode n).run d).1.edgeProps = applyBatch (applyBatch d.edgeProps (F.map Prod.snd)) (B.map Prod.snd) := by
      unfold removeNode
      simp only [Prog.run, id]
      simp only [Db.tree] at e1 e2
      rw [e1]
      simp only [Prog.run, id]
      rw [e2]
      rfl
    rw [Call.prog, Prog.run_bind]
    simp only [Prog.run]
    rw [e, applyBatch_get, applyBatch_get]
    rcases hx with hx | hx
    · have : v ∈ F.map Prod.snd := List.mem_map.2 ⟨(t, v), (hFm t v).2 ⟨hid .SPO, (LawfulId.kb1_spo n t).2 hx⟩, rfl⟩
      simp [this]
    · have : v ∈ B.map Prod.snd := List.mem_map.2 ⟨(t, v), (hBm t v).2 ⟨hid .OSP, (LawfulId.kb1_osp n t).2 hx⟩, rfl⟩
      simp [this]
  | extend u src =>
    rw [Call.prog, Prog.run_bind]
    simp only [Prog.run]
    obtain ⟨d', i1, i2, i3⟩ := extend_nodes (k := fun
      | .error e => .ret (u, .error e)
      | .ok () => extendEdges c u src.edges) ht src.nodes hw.1 d
    unfold extend
    refine (congrArg (fun x => x.1.edgeProps.get v) i1).trans ?_
    refine (extend_edges ht src.edges hw.2 u hv (t := t) (.inl ?_)).1 hx
    have : d.spo.get (encodeSpo t).1 = some v := hid .SPO
    rw [← i2] at this
    exact this
  | merge g src =>
    rw [Call.prog, Prog.run_bind]
    simp only [Prog.run]
    obtain ⟨d', i1, i2, i3, i4⟩ := merge_nodes (mN := mN) (k := fun
      | .error e => .ret (g, .error e)
      | .ok () => mergeEdges c mE g src.edges) hc ht src.nodes hw.1 hd
    unfold merge
    refine (congrArg (fun x => x.1.edgeProps.get v) i1).trans ?_
    refine (merge_edges hc ht src.edges hw.2 g hv i2 (t := t) (.inl ?_)).1 hx
    have : d.spo.get (encodeSpo t).1 = some v := hid .SPO
    rw [← i3] at this
    exact this

section
variable {S α : Type} {pre post : List (List (Prog S α))}

theorem runOne (p : Prog S α) (s : S) (q : List (Prog S α)) :
    CalmSteps (s, pre ++ (p :: q) :: post) ((p.run s).1, pre ++ q :: post) := by
  induction p generalizing s with
  | ret v => exact .tail (.refl _) (.ret s pre post v q)
  | call f k ih => exact RaceExact.trans (.tail (.refl _) (.call s pre post f k q)) (ih s (f s))

end

theorem callsOne (hc : c.RoundTrip) (ht : c.Total) {s : Db} (hs : Decodable c s) (l : List (Call E Id NP EP)) (hl : ∀ x ∈ l, x.ReadsAll) :
    ∃ s', Decodable c s' ∧ ∀ pre post q,
      CalmSteps (s, pre ++ (l.map (Call.prog c mN mE) ++ q) :: post) (s', pre ++ q :: post) := by
  induction l generalizing s with
  | nil => exact ⟨s, hs, fun _ _ _ => .refl _⟩
  | cons x l ih =>
    have hsc : x.Scans := by
      have := hl x List.mem_cons_self
      cases x <;> trivial
    have h := decodable_run (enters_call (o := .SPO) (U := fun _ => False) (mN := mN) (mE := mE) hc ht x (fun _ h => h.elim) hsc) hs
    obtain ⟨s', h1, h2⟩ := ih h (fun y hy => hl y (List.mem_cons_of_mem _ hy))
    exact ⟨s', h1, fun pre post q => trans (runOne (x.prog c mN mE) s _) (h2 pre post q)⟩

/-- the first one in a list -/
theorem first_of {β : Type} {P : β → Prop} {l : List β} (h : ∃ x ∈ l, P x) :
    ∃ l1 x l2, l = l1 ++ x :: l2 ∧ P x ∧ ∀ y ∈ l1, ¬ P y := by
  induction l with
  | nil => obtain ⟨x, hx, -⟩ := h; cases hx
  | cons a l ih =>
    by_cases ha : P a
    · exact ⟨[], a, l, rfl, ha, nofun⟩
    · obtain ⟨x, hx, hp⟩ := h
      rcases List.mem_cons.1 hx with rfl | hx
      · exact absurd hp ha
      · obtain ⟨l1, x, l2, rfl, h1, h2⟩ := ih ⟨x, hx, hp⟩
        refine ⟨a :: l1, x, l2, rfl, h1, fun y hy => ?_⟩
        rcases List.mem_cons.1 hy with rfl | hy
        · exact ha
        · exact h2 y hy

/-- An edge which some thread touches otherwise than by `insert_edge`: there are two moments, the edge being in the orderings at the first,
and its record gone at the second. -/
theorem miss (hc : c.RoundTrip) (ht : c.Total) {d0 : Db} (h0 : d0.Inv Id c) (hd : Decodable c d0) {threads : List (List (Call E Id NP EP))}
    (hi : DistinctIds d0 threads) (hw : ∀ th ∈ threads, ∀ x ∈ th, x.ReadsAll) {t : Triple Id} (hp : d0.idIn .SPO t ≠ none)
    {A1 A2 : List (Call E Id NP EP)} {pre post : List (List (Call E Id NP EP))} {x : Call E Id NP EP}
    (e : threads = pre ++ (A1 ++ x :: A2) :: post) (hx : x.TouchesEdge t) (hn : ¬ ∃ i p, x = .insertEdge i t p)
    (hA : ∀ y ∈ A1, y.TouchesEdge t → ∃ i p, y = .insertEdge i t p) :
    ∃ d1 d2 v, Moments c mN mE d0 threads (fun m => if m = 0 then d1 else d2) ∧ (∀ o, d1.idIn o t = some v) ∧
      d2.edgeProps.get v = none ∧ d2 = ((x.prog c mN mE).run d1).1 ∧ Decodable c d1 ∧ (∀ y ∈ x.writes, y.1 ≠ v) ∧
      (∀ o, d1.KeysOk Id o) ∧ d1.NodesOk Id c ∧ ∃ p, ∀ o, d1.view c o t = some p := by
  subst e
  have hwt : ∀ y ∈ A1 ++ x :: A2, y.ReadsAll := hw _ (by simp)
  obtain ⟨d1, hd1, hs1⟩ := callsOne (mN := mN) (mE := mE) hc ht hd A1 (fun y hy => hwt y (by simp [hy]))
  -- the calls before, by themselves
  have hone : Moments c mN mE d0 [A1] (fun m => if m = 0 then d0 else d1) := by
    refine ⟨fun m => if m = 0 then start c mN mE d0 [A1] else (d1, [[]]), .refl _, fun m => ?_, fun m => ?_⟩
    · cases m with
      | zero =>
        have := hs1 [] [] []
        simpa [start] using this.steps
      | succ m => exact .refl _
    · cases m <;> rfl
  have hsub : (allWrites [A1]).Sublist (allWrites (pre ++ (A1 ++ x :: A2) :: post)) := by
    simp only [allWrites, List.flatten_append, List.flatten_cons, List.flatMap_append, List.flatten_nil, List.append_nil, List.append_assoc]
    exact (List.sublist_append_left _ _).trans (List.sublist_append_right _ _)
  have hi1 : DistinctIds d0 [A1] := ⟨hi.1.sublist (hsub.map _), fun y hy => hi.2 y (hsub.subset hy)⟩
  have hsc1 : ScansOf d0 [A1] := by
    intro th hth n f b h
    simp only [List.mem_singleton] at hth
    subst hth
    exact (hwt _ (List.mem_append_left _ h)).elim
  have hOnly : OnlyInserted [A1] t := by
    intro th hth y hy
    simp only [List.mem_singleton] at hth
    subst hth
    exact hA y hy
  have hneat : Neat c (owner d0 (allWrites [A1])) d1 := keys_moments hc h0 hi1 hsc1 hone 1
  have hkept : ∀ o, d1.idIn o t ≠ none := fun o => kept_moments hc h0 hi1 hsc1 hone hOnly o (by
    show d0.idIn o t ≠ none
    rw [h0.same o]; exact hp) 1
  have hsame : ∀ o, d1.idIn o t = d1.idIn .SPO t := by
    refine agreeAt_moment (c := c) (mN := mN) (mE := mE) (d0 := d0) (threads := [A1]) (fun o => h0.same o t) ?_ (by simp) (moments_moment hone 1)
    intro th hth y hy he ⟨v, hv⟩
    simp only [List.mem_singleton] at hth
    subst hth
    cases y <;> try exact he.elim
    next u src =>
      have : (Call.extend u src : Call E Id NP EP).TouchesEdge t := by
        have : ∀ (l : List (Except E (Triple Id × EP))) (u : Gen Ulid), (v, t) ∈ Call.drawnFor u l → ∃ p, .ok (t, p) ∈ l := by
          intro l
          induction l with
          | nil => intro u h; cases h
          | cons z l ih =>
            intro u h
            cases z with
            | error e => cases h
            | ok z =>
              rcases List.mem_cons.1 h with h | h
              · cases h
                exact ⟨z.2, List.mem_cons_self⟩
              · obtain ⟨p, hp⟩ := ih _ h
                exact ⟨p, List.mem_cons_of_mem _ hp⟩
        exact this _ _ hv
      obtain ⟨i, p, e⟩ := hA _ hy this
      cases e
  obtain ⟨v, hv⟩ := Option.ne_none_iff_exists'.1 (hkept .SPO)
  have hfresh : ∀ y ∈ x.writes, y.1 ≠ v := by
    rintro ⟨w, u⟩ hy rfl
    rcases hneat.refs .SPO t w hv with h | h
    · have hnd := hi.1
      simp only [allWrites, List.flatten_append, List.flatten_cons, List.flatMap_append, List.flatMap_cons, List.map_append] at hnd
      have h1 := (List.nodup_append.1 (List.nodup_append.1 (List.nodup_append.1 hnd).2.1).1).2.2
      refine h1 w (List.mem_map.2 ⟨(w, t), ?_, rfl⟩) w (List.mem_append_left _ (List.mem_map.2 ⟨(w, u), hy, rfl⟩)) rfl
      simpa [allWrites] using h
    · obtain ⟨b, p, h1, -⟩ := h0.recs _ _ h
      have := hi.2 (w, u) (by
        simp only [allWrites, List.flatten_append, List.flatten_cons, List.flatMap_append, List.flatMap_cons]
        simp [hy])
      rw [h1] at this
      cases this
  refine ⟨d1, ((x.prog c mN mE).run d1).1, v, ?_, fun o => (hsame o).trans hv, ?_, rfl, hd1, hfresh, hneat.keys, hneat.nodes, ?_⟩
  · let P : List (List (Call E Id NP EP)) → List (List (Prog Db Unit)) := List.map (List.map (Call.prog c mN mE))
    refine ⟨fun m => if m = 0 then (d1, P pre ++ (P [x :: A2]).head! :: P post)
      else (((x.prog c mN mE).run d1).1, P pre ++ A2.map (Call.prog c mN mE) :: P post), ?_, fun m => ?_, fun m => ?_⟩
    · have := hs1 (P pre) (P post) ((x :: A2).map (Call.prog c mN mE))
      simpa [start, P] using this.steps
    · cases m with
      | zero => exact (runOne (pre := P pre) (post := P post) (x.prog c mN mE) d1 (A2.map (Call.prog c mN mE))).steps
      | succ m => exact .refl _
    · cases m <;> rfl
  · exact gone hc ht (hwt x (by simp)) hx hn hd1 hneat.keys (fun o => (hsame o).trans hv) hfresh
  · obtain ⟨t', e1, -, ⟨-, h⟩ | ⟨b, p, h1, h2, -⟩⟩ := entry_item hc h0 hi1 hsc1 hone (le_refl 1) (o := .SPO) (k := (encOf .SPO t).1) hv
    · obtain rfl := (encOf_inj .SPO).1 e1
      exact absurd hOnly h
    · refine ⟨p, fun o => ?_⟩
      have h1 : d1.edgeProps.get v = some b := h1
      simp [Db.view, hsame o, hv, h1, h2]

omit [LaidOutId Id] in
theorem tryFold_map' {X σ α β : Type} (f : σ → β → Except X σ) (h : α → β) (s : σ) (l : List α) :
    tryFold f s (l.map h) = tryFold (fun s a => f s (h a)) s l := by
  induction l generalizing s with
  | nil => rfl
  | cons a l ih =>
    rw [List.map_cons, tryFold, tryFold]
    simp only [ih]

/-- Everything `run` sees of the orderings is of the first of two moments, and the records are of the second. -/
theorem asked_two (d1 d2 : Db) (q : Query Id) (g : Gen Id) :
    ∃ ρ, Asked (fun m => if m = 0 then d1 else d2) q ρ ∧ runLazy c g ρ q = runQ c { d1 with edgeProps := d2.edgeProps } g q ∧
      ∃ ρ', Asked (fun _ => { d1 with edgeProps := d2.edgeProps }) q ρ' ∧ ρ'.size = ρ.size ∧
        ((∀ ts, q ≠ .SPO ts) → ρ.points = []) := by
  have mk : ∀ (D : Nat → Db) (look : Nat), Asked D q ⟨match q with | .NodeProps ids => List.replicate ids.length (D 0) | _ => [],
      match q with | .SPO ts => List.replicate ts.length (D 0, D look) | _ => [],
      (ranges q).map (fun b => (((D 0).tree b.1).range b.2).map (fun e => (D look, e.1, e.2)))⟩ := by
    intro D look
    refine ⟨?_, ?_, ?_, ?_, ?_⟩
    · intro d hd
      cases q <;> simp at hd
      exact ⟨0, hd.2⟩
    · rintro ids rfl
      simp
    · intro x hx
      cases q <;> simp at hx
      exact ⟨0, look, Nat.zero_le _, hx.2⟩
    · rintro ts rfl
      simp
    · rw [List.forall₂_map_right_iff, List.forall₂_same]
      intro b _
      refine ⟨(((D 0).tree b.1).range b.2).map (fun e => ⟨0, look, e.1, e.2⟩), ⟨?_, ?_⟩, ?_⟩
      · have := scan_at (fun m => (D m).tree b.1) b.2 0
        rw [List.map_map]
        exact this
      · intro x hx
        obtain ⟨e, -, rfl⟩ := List.mem_map.1 hx
        exact Nat.zero_le _
      · rw [List.map_map]; rfl
  refine ⟨_, mk _ 1, ?_, _, mk _ 1, ?_, ?_⟩
  · have rng : ∀ {κ : Type} (o : EdgeOrder) (dec : TKey Id → Triple Id) (bnd : κ → Bound (TKey Id) × Bound (TKey Id)) (xs : List κ)
        (r : Mem Id NP EP),
        tryFold (fun r l => addSeen c dec r l) r ((xs.map (fun x => (o, boundBytes (bnd x)))).map
          (fun b => ((d1.tree b.1).range b.2).map (fun e => (d2, e.1, e.2)))) =
        tryFold (fun r x => addRange c { d1 with edgeProps := d2.edgeProps } dec r ((d1.tree o).rangeArr (bnd x))) r xs := by
      intro κ o dec bnd xs r
      rw [List.map_map, tryFold_map']
      congr 1
      funext r x
      have := Props.addSeen_still (c := c) d2 dec r ((d1.tree o).range (boundBytes (bnd x)))
      rw [rangeArr_eq]
      exact this
    cases q with
    | NodeProps ids =>
      exact Props.tryFold_zip (b := d1) (X := SErr) (fun (r : Mem Id NP EP) (n : Id) (d : Db) =>
        match d.nodeProps.get (toBeBytes n).1 with
        | none => Except.ok r
        | some b =>
          match c.n.de b with
          | none => .error .serialization
          | some p => .ok (r.insertNode n p)) (fun x hx => by simpa using (List.mem_replicate.1 hx).2) ids (by simp) (Mem.new g)
    | SPO ts =>
      exact Props.tryFold_zip (b := (d1, d2)) (X := SErr) (fun (r : Mem Id NP EP) (x : Id × Id × Id) (d : Db × Db) =>
        let t : Triple Id := { sub := x.1, pred := x.2.1, obj := x.2.2 }
        match d.1.spo.get (encodeSpo t).1 with
        | none => Except.ok r
        | some i =>
          match d.2.edgeProps.get i with
          | none => .ok r
          | some b =>
            match c.e.de b with
            | none => .error .serialization
            | some p => .ok (r.insertEdge t p)) (fun x hx => by simpa using (List.mem_replicate.1 hx).2) ts (by simp) (Mem.new g)
    | S xs => exact rng .SPO _ (fun x => keyBounds1 x) xs _
    | P xs => exact rng .POS _ (fun x => keyBounds1 x) xs _
    | O xs => exact rng .OSP _ (fun x => keyBounds1 x) xs _
    | SP xs => exact rng .SPO _ (fun x : Id × Id => keyBounds2 x.1 x.2) xs _
    | PO xs => exact rng .POS _ (fun x : Id × Id => keyBounds2 x.1 x.2) xs _
    | SO xs => exact rng .OSP _ (fun x : Id × Id => keyBounds2 x.2 x.1) xs _
  · have e : ∀ o, ({ d1 with edgeProps := d2.edgeProps } : Db).tree o = d1.tree o := by intro o; cases o <;> rfl
    simp only [Reads.size, List.map_map]
    congr 1
    · cases q <;> simp
    · congr 1
      refine List.map_congr_left (fun b _ => ?_)
      simp [e]
  · intro h
    cases q <;> first | rfl | exact absurd rfl (h _)

/-- the keys which a query reads -/
theorem asked_keys {D : Nat → Db} (hk : ∀ m o, (D m).KeysOk Id o) {q : Query Id} (hq : Spec.Query.Nodup q) {ρ : Reads} (ha : Asked D q ρ) :
    (ρ.ranges.flatten.map (fun e => e.2.1)).Nodup ∧
    ∀ e ∈ ρ.ranges.flatten, ∃ m, ∃ t : Triple Id, e.2.1 = (encOf (Query.order q) t).1 ∧ (D m).idIn (Query.order q) t = some e.2.2 := by
  have conv : ∀ {κ : Type} (o : EdgeOrder) (cls : Triple Id → κ) (xs : List κ) (bnd : κ → Bound (TKey Id) × Bound (TKey Id))
      (_ : ∀ x t, Bound.contains (bnd x) (encOf o t) = true ↔ cls t = x) (_ : xs.Nodup)
      (_ : ranges q = xs.map (fun x => (o, boundBytes (bnd x)))) (_ : Query.order q = o),
      (ρ.ranges.flatten.map (fun e => e.2.1)).Nodup ∧
      ∀ e ∈ ρ.ranges.flatten, ∃ m, ∃ t : Triple Id, e.2.1 = (encOf (Query.order q) t).1 ∧ (D m).idIn (Query.order q) t = some e.2.2 := by
    intro κ o cls xs bnd hb hx hrg ho
    have hrs := ha.ranges
    rw [hrg, List.forall₂_map_left_iff] at hrs
    obtain ⟨h1, h2, -⟩ := asked_ranges cls bnd hb (fun m => hk m o) hx hrs
    refine ⟨h1, fun e he => ?_⟩
    obtain ⟨m, m', t, -, -, i3, -, i5⟩ := h2 e he
    rw [ho]
    refine ⟨m, t, i3, ?_⟩
    rw [i3] at i5
    exact i5
  have none : ranges q = [] → (ρ.ranges.flatten.map (fun e => e.2.1)).Nodup ∧
      ∀ e ∈ ρ.ranges.flatten, ∃ m, ∃ t : Triple Id, e.2.1 = (encOf (Query.order q) t).1 ∧ (D m).idIn (Query.order q) t = some e.2.2 := by
    intro h
    have := ha.ranges
    rw [h] at this
    have : ρ.ranges = [] := by
      cases e : ρ.ranges with
      | nil => rfl
      | cons a l => rw [e] at this; cases this
    rw [this]
    simp
  cases q with
  | NodeProps ids => exact none rfl
  | SPO xs => exact none rfl
  | S xs => exact conv .SPO (fun t => t.sub) xs (fun x => keyBounds1 x) (fun x t => LawfulId.kb1_spo x t) (List.Nodup.of_map _ hq) rfl rfl
  | P xs => exact conv .POS (fun t => t.pred) xs (fun x => keyBounds1 x) (fun x t => LawfulId.kb1_pos x t) (List.Nodup.of_map _ hq) rfl rfl
  | O xs => exact conv .OSP (fun t => t.obj) xs (fun x => keyBounds1 x) (fun x t => LawfulId.kb1_osp x t) (List.Nodup.of_map _ hq) rfl rfl
  | SP xs =>
    exact conv .SPO (fun t => (t.sub, t.pred)) xs (fun x => keyBounds2 x.1 x.2)
      (fun x t => by rw [Prod.ext_iff]; exact LawfulId.kb2_spo x.1 x.2 t) (List.Nodup.of_map _ hq) rfl rfl
  | PO xs =>
    exact conv .POS (fun t => (t.pred, t.obj)) xs (fun x => keyBounds2 x.1 x.2)
      (fun x t => by rw [Prod.ext_iff]; exact LawfulId.kb2_pos x.1 x.2 t) (List.Nodup.of_map _ hq) rfl rfl
  | SO xs =>
    exact conv .OSP (fun t => (t.sub, t.obj)) xs (fun x => keyBounds2 x.2 x.1)
      (fun x t => by rw [Prod.ext_iff]; exact (LawfulId.kb2_osp x.2 x.1 t).trans and_comm) (List.Nodup.of_map _ hq) rfl rfl

omit [LinearOrder Id] [ConcreteId Id] [LaidOutId Id] in
theorem choose_map {α β γ : Type} {L : List α} {f : α → γ} {h : β → γ} {P : β → Prop} (hL : ∀ a ∈ L, ∃ b, f a = h b ∧ P b) :
    ∃ l : List β, L.map f = l.map h ∧ ∀ b ∈ l, P b := by
  induction L with
  | nil => exact ⟨[], rfl, by simp⟩
  | cons a L ih =>
    obtain ⟨l, h1, h2⟩ := ih (fun x hx => hL x (List.mem_cons_of_mem _ hx))
    obtain ⟨b, h3, h4⟩ := hL a List.mem_cons_self
    refine ⟨b :: l, by simp [h1, h3], fun x hx => ?_⟩
    rcases List.mem_cons.1 hx with rfl | hx
    · exact h4
    · exact h2 x hx

/-- a query reads at most the edges there were at the start, and those which are written meanwhile -/
theorem asked_bound (hc : c.RoundTrip) {d0 : Db} (h0 : d0.Inv Id c) {threads : List (List (Call E Id NP EP))} (hi : DistinctIds d0 threads)
    (hw : ScansOf d0 threads) {D : Nat → Db} (hm : Moments c mN mE d0 threads D) {q : Query Id} (hq : Spec.Query.Nodup q) {ρ : Reads}
    (ha : Asked D q ρ) : (ρ.ranges.map List.length).sum ≤ d0.spo.entries.length + (allWrites threads).length := by
  obtain ⟨h1, h2⟩ := asked_keys (fun m o => (keys_moments hc h0 hi hw hm m).keys o) hq ha
  obtain ⟨ts, e, hts⟩ := choose_map (f := fun e : Db × Bytes × Bytes => e.2.1) (h := fun t : Triple Id => (encOf (Query.order q) t).1)
    (P := fun t => t ∈ (allWrites threads).map Prod.snd ∨ d0.idIn .SPO t ≠ none) (fun e he => by
      obtain ⟨m, t, i1, i2⟩ := h2 e he
      refine ⟨t, i1, ?_⟩
      rcases (keys_moments hc h0 hi hw hm m).refs _ t _ i2 with h | h
      · exact .inl (List.mem_map.2 ⟨_, h, rfl⟩)
      · exact .inr (by rw [h]; simp))
  rw [e] at h1
  have hnd : ts.Nodup := List.Nodup.of_map _ h1
  have e2 : (ρ.ranges.map List.length).sum = ts.length := by
    rw [← List.length_flatten, ← List.length_map (f := fun e : Db × Bytes × Bytes => e.2.1), e, List.length_map]
  rw [e2]
  classical
  have hA : (ts.filter (fun t => t ∈ (allWrites threads).map Prod.snd)).length ≤ (allWrites threads).length := by
    have := (List.Nodup.subperm (hnd.filter (fun t => decide (t ∈ (allWrites threads).map Prod.snd)))
      (l₂ := (allWrites threads).map Prod.snd) (fun t ht => of_decide_eq_true (List.mem_filter.1 ht).2)).length_le
    simpa using this
  have hB : (ts.filter (fun t => ¬ t ∈ (allWrites threads).map Prod.snd)).length ≤ d0.spo.entries.length := by
    have hn : ((ts.filter (fun t => ¬ t ∈ (allWrites threads).map Prod.snd)).map (fun t => (encOf .SPO t).1)).Nodup := by
      refine List.Nodup.map (fun a b h => (encOf_inj .SPO).1 h) (hnd.filter _)
    have := (List.Nodup.subperm hn (l₂ := d0.spo.entries.map Prod.fst) (fun k hk => by
      obtain ⟨t, ht, rfl⟩ := List.mem_map.1 hk
      obtain ⟨ht1, ht2⟩ := List.mem_filter.1 ht
      rcases hts t ht1 with h | h
      · exact absurd h (by simpa using ht2)
      · obtain ⟨v, hv⟩ := Option.ne_none_iff_exists'.1 h
        exact List.mem_map.2 ⟨(_, v), BMap.mem_entries.2 hv, rfl⟩)).length_le
    simpa using this
  have hs := List.length_eq_length_filter_add (l := ts) (fun t => decide (t ∈ (allWrites threads).map Prod.snd))
  simp only [decide_not] at hB
  omega

end ReadExact

namespace Props

open ReadExact Verif.Db

variable {Id NP EP E : Type} [LinearOrder Id] [ConcreteId Id] [LaidOutId Id]
variable {c : Codecs NP EP} {mN : NP → NP → NP} {mE : EP → EP → EP}
variable {n m : Nat} {s : SledStore Id} {G : Graph Id NP EP} {threads : List (List (Call E Id NP EP))}

theorem decodable_reach (hc : c.RoundTrip) (hs : SledStore.Reach E c mN mE n m s) : Decodable c s.db := by
  have hwf := WellFormed.reach hc hs
  refine ⟨fun k b h => ?_, fun k b h => ?_⟩
  · obtain ⟨-, p, hp⟩ := hwf.nodes k b h
    rw [hc.1 p b hp]; rfl
  · obtain ⟨p, hp⟩ := hwf.recs k b h
    rw [hc.2 p b hp]; rfl

theorem idIn_of_edge (hc : c.RoundTrip) (hs : SledStore.Reach E c mN mE n m s) (hG : Shows (s.obs c) G) {t : Triple Id}
    (hp : (G.edges t).isSome) : s.db.idIn .SPO t ≠ none := by
  rw [← hs.graph_of_shows hc hG] at hp
  intro e
  simp [Db.graph, Db.view, e] at hp

theorem scans_of_whole (hw : ∀ th ∈ threads, ∀ x ∈ th, x.ReadsAll) (d : Db) : ScansOf d threads :=
  fun th hth _ _ _ h => (hw th hth _ h).elim

/-- The first call of a thread that touches the edge otherwise than by `insert_edge`. -/
theorem first_touch {t : Triple Id} (h : ¬ OnlyInserted threads t) : ∃ pre A1 x A2 post, threads = pre ++ (A1 ++ x :: A2) :: post ∧
    x.TouchesEdge t ∧ (¬ ∃ i p, x = .insertEdge i t p) ∧ ∀ y ∈ A1, y.TouchesEdge t → ∃ i p, y = .insertEdge i t p := by
  simp only [OnlyInserted, not_forall] at h
  obtain ⟨th, hth, x, hx, h1, h2⟩ := h
  obtain ⟨A1, y, A2, rfl, ⟨hy1, hy2⟩, hA⟩ := first_of (P := fun x : Call E Id NP EP => x.TouchesEdge t ∧ ¬ ∃ i p, x = .insertEdge i t p)
    ⟨x, hx, h1, h2⟩
  obtain ⟨pre, post, rfl⟩ := List.append_of_mem hth
  exact ⟨pre, A1, y, A2, post, rfl, hy1, hy2, fun z hz h => by
    by_contra hne
    exact hA z hz ⟨h, hne⟩⟩

/-- Whatever the store and the threads: if one of them touches an edge of the store otherwise than by `insert_edge`, there is a schedule in
which an iteration by any ordering finds the edge in the ordering, and returns `MissingPropertyData` for it. -/
theorem C55_every_touch (hc : c.RoundTrip) (ht : c.Total) (hs : SledStore.Reach E c mN mE n m s) (hG : Shows (s.obs c) G)
    (hi : DistinctIds s.db threads) (hw : ∀ th ∈ threads, ∀ x ∈ th, x.ReadsAll) {t : Triple Id} (hp : (G.edges t).isSome)
    (hx : ¬ OnlyInserted threads t) (o : EdgeOrder) :
    ∃ D l, Moments c mN mE s.db threads D ∧ Reading D o whole l ∧ ∃ x ∈ l, x.key = (encOf o t).1 ∧
      itemOf Id c D o x = .error .missing := by
  obtain ⟨pre, A1, x, A2, post, e, h1, h2, h3⟩ := first_touch hx
  obtain ⟨d1, d2, v, i1, i2, i3, -⟩ := miss hc ht (hs.ok hc).inv (decodable_reach hc hs) hi hw (idIn_of_edge hc hs hG hp) e h1 h2 h3
  refine ⟨_, _, i1, reading_first _ o (fun _ => 1), ⟨0, 1, (encOf o t).1, v⟩, ?_, rfl, ?_⟩
  · have : ((encOf o t).1, v) ∈ (d1.tree o).entries := BMap.mem_entries.2 (i2 o)
    obtain ⟨j, hj, e⟩ := List.mem_iff_getElem.1 this
    exact List.mem_mapIdx.2 ⟨j, hj, by simp only [if_pos, e]⟩
  · show edgeItem Id c d2 o ((encOf o t).1, v) = _
    rw [edgeItem_enc, i3]

/-- An edge of the store is sure to be returned by iterations, if and only if no thread touches it otherwise than by `insert_edge`. -/
theorem C55_exact (hc : c.RoundTrip) (ht : c.Total) (hs : SledStore.Reach E c mN mE n m s) (hG : Shows (s.obs c) G)
    (hi : DistinctIds s.db threads) (hw : ∀ th ∈ threads, ∀ x ∈ th, x.ReadsAll) {t : Triple Id} (hp : (G.edges t).isSome) (o : EdgeOrder) :
    (∀ D l, Moments c mN mE s.db threads D → Reading D o whole l → ∃ p, .ok (t, p) ∈ l.map (itemOf Id c D o)) ↔
      OnlyInserted threads t := by
  constructor
  · intro h
    by_contra hx
    obtain ⟨D, l, h1, h2, x, hx, h3, h4⟩ := C55_every_touch hc ht hs hG hi hw hp hx o
    obtain ⟨p, hp⟩ := h D l h1 h2
    obtain ⟨y, hy, e⟩ := List.mem_map.1 hp
    have hy2 := (h2.mem hy).2
    obtain ⟨u, hu⟩ := (keys_moments hc (hs.ok hc).inv hi (scans_of_whole hw _) h1 y.scan).keys o _ _ hy2
    have e' : itemOf Id c D o y = edgeItem Id c (D y.look) o ((encOf o u).1, y.id) := by rw [← hu]
    have hut : u = t := by
      rw [e', edgeItem_enc] at e
      cases h5 : (D y.look).edgeProps.get y.id with
      | none => rw [h5] at e; cases e
      | some b =>
        cases h6 : c.e.de b with
        | none => simp [h5, h6] at e
        | some q =>
          simp [h5, h6] at e
          exact e.1
    have : y = x := h2.once hy hx (by rw [hu, h3, hut])
    rw [this, h4] at e
    cases e
  · intro h D l h1 h2
    obtain ⟨x, hx, ⟨p, hp, -⟩, -⟩ := C55_kept hc hs hG hi (scans_of_whole hw _) h1 h2 (contains_all _) h (Option.isSome_iff_exists.1 hp)
    exact ⟨p, List.mem_map.2 ⟨x, hx, hp⟩⟩

/-- In particular: every `merge_edge` into an edge of the store, before which its own thread does nothing but insert the edge again.  The
edge is there before and after the call, and there is no moment in between. -/
theorem C55_every_merge (hc : c.RoundTrip) (ht : c.Total) (hs : SledStore.Reach E c mN mE n m s) (hG : Shows (s.obs c) G)
    {pre post : List (List (Call E Id NP EP))} {A1 A2 : List (Call E Id NP EP)} {i : Id} {t : Triple Id} {p : EP}
    (hi : DistinctIds s.db (pre ++ (A1 ++ .mergeEdge i t p :: A2) :: post))
    (hw : ∀ th ∈ pre ++ (A1 ++ .mergeEdge i t p :: A2) :: post, ∀ x ∈ th, x.ReadsAll) (hp : (G.edges t).isSome)
    (hA : ∀ y ∈ A1, y.TouchesEdge t → ∃ i p, y = .insertEdge i t p) (o : EdgeOrder) :
    ∃ D l, Moments c mN mE s.db (pre ++ (A1 ++ .mergeEdge i t p :: A2) :: post) D ∧
      (∀ m o, ∃ p, .ok (t, p) ∈ iterEdges Id c (D m) o) ∧
      Reading D o whole l ∧ ∃ x ∈ l, x.key = (encOf o t).1 ∧ itemOf Id c D o x = .error .missing := by
  obtain ⟨d1, d2, v, i1, i2, i3, i4, i5, i6, i7, i8, p1, i9⟩ := miss hc ht (hs.ok hc).inv (decodable_reach hc hs) hi hw
    (idIn_of_edge hc hs hG hp) rfl rfl (by rintro ⟨i, p, h⟩; cases h) hA
  refine ⟨_, _, i1, ?_, reading_first _ o (fun _ => 1), ⟨0, 1, (encOf o t).1, v⟩, ?_, rfl, ?_⟩
  · intro m o
    have hk := (keys_moments hc (hs.ok hc).inv hi (scans_of_whole hw _) i1 m).keys o
    cases m with
    | zero => exact ⟨p1, (mem_iterEdges hk t p1).2 (i9 o)⟩
    | succ m =>
      obtain ⟨b, e⟩ := mergeEdge_eq (mE := mE) ht i5 i t p
      have hd2 : Decodable c d2 := by
        rw [i4]
        exact RaceExact.decodable_run (enters_call (o := .SPO) (U := fun _ => False) (mN := mN) (mE := mE) hc ht (.mergeEdge i t p)
          (fun _ h => h.elim) trivial) i5
      have e2 : d2 = { d1.setEdge t (be i) with edgeProps := mergedProps d1 t (be i) b } := by
        rw [i4, ← e, Call.prog, Prog.run_bind]
        rfl
      have hb : d2.edgeProps.get (be i) = some b := by
        rw [e2]
        unfold mergedProps
        simp only
        cases hg : d1.spo.get (encodeSpo t).1 <;> simp
      obtain ⟨p2, hp2⟩ := Option.isSome_iff_exists.1 (hd2.2 _ _ hb)
      refine ⟨p2, (mem_iterEdges hk t p2).2 ?_⟩
      show d2.view c o t = some p2
      have : d2.idIn o t = some (be i) := by
        rw [e2]
        have := setEdge_idIn d1 t (be i) o t
        rw [if_pos rfl] at this
        exact this
      simp [Db.view, this, hb, hp2]
  · have : ((encOf o t).1, v) ∈ (d1.tree o).entries := BMap.mem_entries.2 (i2 o)
    obtain ⟨j, hj, e⟩ := List.mem_iff_getElem.1 this
    exact List.mem_mapIdx.2 ⟨j, hj, by simp only [if_pos, e]⟩
  · show edgeItem Id c d2 o ((encOf o t).1, v) = _
    rw [edgeItem_enc, i3]

/-- how many edges a query may come across: those it names, or those of the store and those that the threads write -/
def readBound (d : Db) (threads : List (List (Call E Id NP EP))) : Query Id → Nat
  | .SPO ts => ts.length
  | .NodeProps _ => 0
  | _ => d.spo.entries.length + (allWrites threads).length

theorem size_le (hc : c.RoundTrip) (hs : SledStore.Reach E c mN mE n m s) (hi : DistinctIds s.db threads) (hw : ScansOf s.db threads)
    {D : Nat → Db} (hm : Moments c mN mE s.db threads D) {q : Query Id} (hq : Spec.Query.Nodup q) {ρ : Reads} (ha : Asked D q ρ)
    (hp : (∀ ts, q ≠ .SPO ts) → ρ.points = []) : ρ.size ≤ readBound s.db threads q := by
  have hb := asked_bound hc (hs.ok hc).inv hi hw hm hq ha
  have none : ranges q = [] → ρ.ranges = [] := by
    intro h
    have := ha.ranges
    rw [h] at this
    cases e : ρ.ranges with
    | nil => rfl
    | cons a l => rw [e] at this; cases this
  cases q with
  | SPO ts => simp [Reads.size, none rfl, readBound, ha.pointsLen ts rfl]
  | NodeProps ids => simp [Reads.size, none rfl, readBound, hp (by simp)]
  | _ => simpa [Reads.size, readBound, hp (by simp)] using hb

/-- A query comes across no more than that many edges, whatever the threads do meanwhile.  (`ρ'`: the same without look-ups that the
query does not make.) -/
theorem C56_reads (hc : c.RoundTrip) (hs : SledStore.Reach E c mN mE n m s) (hi : DistinctIds s.db threads) (hw : ScansOf s.db threads)
    {D : Nat → Db} (hm : Moments c mN mE s.db threads D) {q : Query Id} (hq : Spec.Query.Nodup q) {ρ : Reads} (ha : Asked D q ρ) :
    ∃ ρ', Asked D q ρ' ∧ (∀ g, runLazy c g ρ' q = runLazy c g ρ q) ∧ ρ'.size ≤ readBound s.db threads q := by
  cases q with
  | SPO ts => exact ⟨ρ, ha, fun _ => rfl, size_le hc hs hi hw hm hq ha (fun h => absurd rfl (h ts))⟩
  | _ =>
    have ha' : Asked D _ { ρ with points := [] } := ⟨ha.nodes, ha.nodesLen, by simp, (by intro ts h; cases h), ha.ranges⟩
    exact ⟨{ ρ with points := [] }, ha', fun _ => rfl, size_le hc hs hi hw hm hq ha' (fun _ => rfl)⟩

/-- `C56_answer`, with a number of ids that can be told in advance. -/
theorem C56_answer_bounded (hc : c.RoundTrip) (hs : SledStore.Reach E c mN mE n m s) (hG : Shows (s.obs c) G) (hi : DistinctIds s.db threads)
    (hw : ScansOf s.db threads) {q : Query Id} (hq : Spec.Query.Nodup q) {k : Nat} {g : Gen Id}
    (hg : Fresh (k + readBound s.db threads q) g) {D : Nat → Db} (hm : Moments c mN mE s.db threads D) {ρ : Reads} (ha : Asked D q ρ) :
    ∃ r H, runLazy c g ρ q = .ok r ∧ Shows r.obs H ∧
      (∀ t p, H.edges t = some p → Query.Hits t q ∧ ∃ m, .ok (t, p) ∈ iterEdges Id c (D m) (Query.order q)) ∧
      (∀ i p, H.nodes i = some p → Query.Asks i q ∧ ∃ m, .ok (i, p) ∈ iterVertices Id c (D m)) ∧
      (∀ t, Query.Hits t q → OnlyInserted threads t → (G.edges t).isSome → (H.edges t).isSome) ∧
      ∀ i, Query.Asks i q → NodeKept threads i → (G.nodes i).isSome → (H.nodes i).isSome := by
  obtain ⟨ρ', h1, h2, h3⟩ := C56_reads hc hs hi hw hm hq ha
  rw [← h2]
  exact C56_answer hc hs hG hi hw hm hq h1 (k := k) (fun i hi j hj e => hg i (by omega) j (by omega) e)

/-- Whatever the store and the threads: if one of them touches an edge of the store otherwise than by `insert_edge`, there is a schedule in
which a query that asks for the edge leaves it out, without an error. -/
theorem C56_every_touch (hc : c.RoundTrip) (ht : c.Total) (hs : SledStore.Reach E c mN mE n m s) (hG : Shows (s.obs c) G)
    (hi : DistinctIds s.db threads) (hw : ∀ th ∈ threads, ∀ x ∈ th, x.ReadsAll) {q : Query Id} (hq : Spec.Query.Nodup q) {g : Gen Id}
    (hg : Fresh (readBound s.db threads q) g) {t : Triple Id} (hp : (G.edges t).isSome) (hx : ¬ OnlyInserted threads t) :
    ∃ D ρ r H, Moments c mN mE s.db threads D ∧ Asked D q ρ ∧ runLazy c g ρ q = .ok r ∧ Shows r.obs H ∧ H.edges t = none := by
  obtain ⟨pre, A1, x, A2, post, e, h1, h2, h3⟩ := first_touch hx
  obtain ⟨d1, d2, v, i1, i2, i3, i4, i5, i6, i7, i8, -⟩ :=
    miss hc ht (hs.ok hc).inv (decodable_reach hc hs) hi hw (idIn_of_edge hc hs hG hp) e h1 h2 h3
  have hd2 : Decodable c d2 := by
    rw [i4]
    have hsc : x.Scans := by
      have := hw (A1 ++ x :: A2) (by rw [e]; simp) x (by simp)
      cases x <;> trivial
    exact RaceExact.decodable_run (enters_call (o := .SPO) (U := fun _ => False) (mN := mN) (mE := mE) hc ht x (fun _ h => h.elim) hsc) i5
  obtain ⟨ρ, a1, a2, ρ', a3, a4, a5⟩ := asked_two (c := c) d1 d2 q g
  have b1 := size_le hc hs hi (scans_of_whole hw _) i1 hq a1 a5
  have tree : ∀ o, ({ d1 with edgeProps := d2.edgeProps } : Db).tree o = d1.tree o := by intro o; cases o <;> rfl
  have ok : MomentsOk (Id := Id) c (fun _ => { d1 with edgeProps := d2.edgeProps }) (fun _ => False) := by
    refine ⟨fun m o k v h => ?_, fun m => i8, fun {m m'} _ {o k v} h => ?_⟩
    · rw [tree] at h
      exact i7 o k v h
    · rw [tree] at h
      obtain ⟨u, hu⟩ := i7 o k v h
      have hid : ({ d1 with edgeProps := d2.edgeProps } : Db).idIn o u = some v := by
        rw [hu] at h
        cases o <;> exact h
      refine ⟨u, hu, hid, ?_⟩
      cases hv : d2.edgeProps.get v with
      | none => exact .inl ⟨rfl, fun h => h⟩
      | some b =>
        obtain ⟨p, hp⟩ := Option.isSome_iff_exists.1 (hd2.2 _ _ hv)
        exact .inr ⟨b, p, rfl, hp, by simp [Db.view, hid, hv, hp]⟩
  obtain ⟨r, H, j1, j2, j3⟩ := lazy_run_of ok hq a3 (n := 0) (g := g) (fun i hi j hj e => hg i (by omega) j (by omega) e)
  refine ⟨_, ρ, r, H, i1, a1, ?_, j2.shows, ?_⟩
  · rw [a2, ← (C56_still _ g q).2 ρ' a3]
    exact j1
  · cases hH : H.edges t with
    | none => rfl
    | some p =>
      obtain ⟨-, -, h⟩ := j3.edges t p hH
      have hid : ({ d1 with edgeProps := d2.edgeProps } : Db).idIn (Query.order q) t = some v := by
        have := i2 (Query.order q)
        generalize Query.order q = o at this ⊢
        cases o <;> exact this
      simp [Db.view, hid, i3] at h

/-- An edge of the store is sure to be in the result of a query that asks for it, if and only if no thread touches it otherwise than by
`insert_edge`. -/
theorem C56_exact (hc : c.RoundTrip) (ht : c.Total) (hs : SledStore.Reach E c mN mE n m s) (hG : Shows (s.obs c) G)
    (hi : DistinctIds s.db threads) (hw : ∀ th ∈ threads, ∀ x ∈ th, x.ReadsAll) {q : Query Id} (hq : Spec.Query.Nodup q) {g : Gen Id}
    (hg : Fresh (readBound s.db threads q) g) {t : Triple Id} (hh : Query.Hits t q) (hp : (G.edges t).isSome) :
    (∀ D ρ, Moments c mN mE s.db threads D → Asked D q ρ →
      ∃ r H, runLazy c g ρ q = .ok r ∧ Shows r.obs H ∧ (H.edges t).isSome) ↔ OnlyInserted threads t := by
  constructor
  · intro h
    by_contra hx
    obtain ⟨D, ρ, r, H, h1, h2, h3, h4, h5⟩ := C56_every_touch hc ht hs hG hi hw hq hg hp hx
    obtain ⟨r', H', k1, k2, k3⟩ := h D ρ h1 h2
    rw [h3] at k1
    cases k1
    rw [shows_unique k2 h4, h5] at k3
    cases k3
  · intro h D ρ h1 h2
    obtain ⟨r, H, k1, k2, -, -, k3, -⟩ := C56_answer_bounded hc hs hG hi (scans_of_whole hw _) hq (k := 0)
      (fun i hi j hj e => hg i (by omega) j (by omega) e) h1 h2
    exact ⟨r, H, k1, k2, k3 t hh h hp⟩

/-! ## nodes -/

/-- A node which some thread removes: there are moments at all of which it is gone. -/
theorem node_gone (hc : c.RoundTrip) (ht : c.Total) (hs : SledStore.Reach E c mN mE n m s)
    (hi : DistinctIds s.db threads) (hw : ∀ th ∈ threads, ∀ x ∈ th, x.ReadsAll) {k : Id} (hk : ¬ NodeKept threads k) :
    ∃ d : Db, Moments c mN mE s.db threads (fun _ => d) ∧ d.nodeProps.get (toBeBytes k).1 = none := by
  have : ∃ th ∈ threads, Call.removeNode k ∈ th := by
    simp only [NodeKept, not_forall, not_and_or, not_not] at hk
    obtain ⟨th, hth, x, hx, rfl | ⟨f, b, h⟩⟩ := hk
    · exact ⟨th, hth, hx⟩
    · subst h
      exact (hw th hth _ hx).elim
  obtain ⟨th, hth, hx⟩ := this
  obtain ⟨A1, A2, rfl⟩ := List.append_of_mem hx
  obtain ⟨pre, post, rfl⟩ := List.append_of_mem hth
  obtain ⟨d1, hd1, hs1⟩ := callsOne (mN := mN) (mE := mE) hc ht (decodable_reach hc hs) A1 (fun y hy => hw _ hth y (by simp [hy]))
  let P : List (List (Call E Id NP EP)) → List (List (Prog Db Unit)) := List.map (List.map (Call.prog c mN mE))
  have s1 := hs1 (P pre) (P post) ((.removeNode k :: A2).map (Call.prog c mN mE))
  have s2 := runOne (pre := P pre) (post := P post) ((Call.removeNode k : Call E Id NP EP).prog c mN mE) d1 (A2.map (Call.prog c mN mE))
  have h1 : Moments c mN mE s.db (pre ++ (A1 ++ .removeNode k :: A2) :: post) (fun _ => d1) := by
    refine ⟨fun _ => (d1, P pre ++ ((.removeNode k :: A2).map (Call.prog c mN mE)) :: P post), ?_, fun _ => .refl _, fun _ => rfl⟩
    simpa [start, P] using s1.steps
  have hneat := keys_moments hc (hs.ok hc).inv hi (scans_of_whole hw _) h1 0
  refine ⟨(((Call.removeNode k : Call E Id NP EP).prog c mN mE).run d1).1, ?_, ?_⟩
  · refine ⟨fun _ => (_, P pre ++ A2.map (Call.prog c mN mE) :: P post), ?_, fun _ => .refl _, fun _ => rfl⟩
    have := RaceExact.trans s1 s2
    simpa [start, P] using this.steps
  · obtain ⟨F, hF, -⟩ := rangeArr_enc (hneat.keys .SPO) (keyBounds1 k)
    obtain ⟨B, hB, -⟩ := rangeArr_enc (hneat.keys .OSP) (keyBounds1 k)
    have e1 := (congrArg (forwardBatch Id ⟨[], [], [], []⟩) hF).trans (forwardBatch_enc F _)
    have e2 := (congrArg (backwardBatch Id ⟨[], [], [], []⟩) hB).trans (backwardBatch_enc B _)
    simp only [Db.tree] at e1 e2
    rw [Call.prog, Prog.run_bind]
    unfold removeNode
    simp only [Prog.run, id]
    rw [e1]
    simp only [Prog.run, id]
    rw [e2]
    exact BMap.get_erase_self _ _

/-- A node of the store is sure to be returned by `iter_vertices`, if and only if no thread removes it. -/
theorem C55_nodes_exact (hc : c.RoundTrip) (ht : c.Total) (hs : SledStore.Reach E c mN mE n m s) (hG : Shows (s.obs c) G)
    (hi : DistinctIds s.db threads) (hw : ∀ th ∈ threads, ∀ x ∈ th, x.ReadsAll) {k : Id} (hp : (G.nodes k).isSome) :
    (∀ D l, Moments c mN mE s.db threads D → Scan (fun m => (D m).nodeProps) whole 0 none l →
      ∃ p, .ok (k, p) ∈ l.map (fun e => vertexItem Id c e.2)) ↔ NodeKept threads k := by
  constructor
  · intro h
    by_contra hk
    obtain ⟨d, h1, h2⟩ := node_gone hc ht hs hi hw hk
    obtain ⟨p, hp⟩ := h _ _ h1 (scan_at (fun _ => d.nodeProps) whole 0)
    obtain ⟨ns, i1, -, i2, -⟩ := C55_nodes hc hs hG hi (scans_of_whole hw _) h1 (scan_at (fun _ => d.nodeProps) whole 0)
    rw [i1] at hp
    obtain ⟨x, hx, e⟩ := List.mem_map.1 hp
    cases e
    obtain ⟨e, -, hv⟩ := forall₂_left i2 hx
    rw [mem_iterVertices (keys_moments hc (hs.ok hc).inv hi (scans_of_whole hw _) h1 0).nodes] at hv
    simp [Db.graph, h2] at hv
  · intro h D l h1 h2
    obtain ⟨ns, i1, -, -, i2⟩ := C55_nodes hc hs hG hi (scans_of_whole hw _) h1 h2
    obtain ⟨p, hp⟩ := i2 k h (Option.isSome_iff_exists.1 hp)
    exact ⟨p, by rw [i1]; exact List.mem_map.2 ⟨_, hp, rfl⟩⟩

/-- A node of the store is sure to be in the result of a query that asks for it, if and only if no thread removes it. -/
theorem C56_nodes_exact (hc : c.RoundTrip) (ht : c.Total) (hs : SledStore.Reach E c mN mE n m s) (hG : Shows (s.obs c) G)
    (hi : DistinctIds s.db threads) (hw : ∀ th ∈ threads, ∀ x ∈ th, x.ReadsAll) {q : Query Id} (hq : Spec.Query.Nodup q) {g : Gen Id}
    (hg : Fresh (readBound s.db threads q) g) {k : Id} (hh : Query.Asks k q) (hp : (G.nodes k).isSome) :
    (∀ D ρ, Moments c mN mE s.db threads D → Asked D q ρ →
      ∃ r H, runLazy c g ρ q = .ok r ∧ Shows r.obs H ∧ (H.nodes k).isSome) ↔ NodeKept threads k := by
  constructor
  · intro h
    by_contra hk
    obtain ⟨d, h1, h2⟩ := node_gone hc ht hs hi hw hk
    obtain ⟨ρ, h3⟩ := asked_first (fun _ => d) q
    obtain ⟨r, H, i1, i2, i3⟩ := h _ ρ h1 h3
    obtain ⟨r', H', j1, j2, -, j3, -⟩ := C56_answer_bounded hc hs hG hi (scans_of_whole hw _) hq (k := 0)
      (fun i hi j hj e => hg i (by omega) j (by omega) e) h1 h3
    rw [i1] at j1
    cases j1
    obtain rfl := shows_unique i2 j2
    obtain ⟨p, hp⟩ := Option.isSome_iff_exists.1 i3
    obtain ⟨-, m, hv⟩ := j3 k p hp
    rw [mem_iterVertices (keys_moments hc (hs.ok hc).inv hi (scans_of_whole hw _) h1 0).nodes] at hv
    simp [Db.graph, h2] at hv
  · intro h D ρ h1 h2
    obtain ⟨r, H, k1, k2, -, -, -, k3⟩ := C56_answer_bounded hc hs hG hi (scans_of_whole hw _) hq (k := 0)
      (fun i hi j hj e => hg i (by omega) j (by omega) e) h1 h2
    exact ⟨r, H, k1, k2, k3 k hh h hp⟩

/-! ## samples: the four threads of `extCalm` remove, extend, merge, insert -/

theorem extCalm_ids : DistinctIds db0 extCalm := ⟨by decide +kernel, by decide +kernel⟩

theorem extCalm_whole : ∀ th ∈ extCalm, ∀ x ∈ th, x.ReadsAll := by simp [extCalm, Call.ReadsAll, onlyEdge, fails]

example : ∃ D l, Moments Sample.uc Sample.mN Sample.mE db0 extCalm D ∧ Reading D .OSP whole l ∧
    ∃ x ∈ l, x.key = (encOf .OSP (⟨2, 5, 9⟩ : Triple U64)).1 ∧ itemOf U64 Sample.uc D .OSP x = .error .missing :=
  C55_every_touch Sample.uc_rt Sample.uc_total db0_reach db0_shows extCalm_ids extCalm_whole (by decide +kernel)
    (by simp [OnlyInserted, extCalm, Call.TouchesEdge, onlyEdge]) .OSP

/-- a merge by another handle, and threads that do other things -/
def merging : List (List (Call String U64 Nat Nat)) :=
  [[.removeNode 1], [.insertEdge 101 ⟨2, 5, 9⟩ 6, .insertNode 8 1, .mergeEdge 100 ⟨2, 5, 9⟩ 7], [.removeEdge ⟨2, 5, 9⟩]]

example : ∃ D l, Moments Sample.uc Sample.mN Sample.mE db0 merging D ∧
    (∀ m o, ∃ p, .ok (⟨2, 5, 9⟩, p) ∈ iterEdges U64 Sample.uc (D m) o) ∧ Reading D .POS whole l ∧
    ∃ x ∈ l, x.key = (encOf .POS (⟨2, 5, 9⟩ : Triple U64)).1 ∧ itemOf U64 Sample.uc D .POS x = .error .missing :=
  C55_every_merge (s := Sample.sstore) (pre := [[.removeNode 1]]) (A1 := [.insertEdge 101 ⟨2, 5, 9⟩ 6, .insertNode 8 1]) (A2 := [])
    (post := [[.removeEdge ⟨2, 5, 9⟩]]) (i := 100) (t := ⟨2, 5, 9⟩) (p := (7 : Nat)) (E := String) Sample.uc_rt Sample.uc_total db0_reach db0_shows ⟨by decide +kernel, by decide +kernel⟩
    (by simp [Call.ReadsAll]) (by decide +kernel) (by simp [Call.TouchesEdge]) .POS

-- both sides of the equivalences occur
example : ¬ (∀ D l, Moments Sample.uc Sample.mN Sample.mE db0 extCalm D → Reading D .SPO whole l →
    ∃ p, .ok (⟨1, 5, 2⟩, p) ∈ l.map (itemOf U64 Sample.uc D .SPO)) :=
  (C55_exact (s := Sample.sstore) Sample.uc_rt Sample.uc_total db0_reach db0_shows extCalm_ids extCalm_whole (by decide +kernel) .SPO).not.2
    (by simp [OnlyInserted, extCalm, Call.TouchesEdge, onlyEdge])

theorem writers_whole : ∀ th ∈ writers, ∀ x ∈ th, x.ReadsAll := by simp [writers, extRace, Call.ReadsAll, onlyEdge, fails]

example : ∀ D l, Moments Sample.uc Sample.mN Sample.mE db0 writers D → Reading D .SPO whole l →
    ∃ p, .ok (⟨2, 5, 9⟩, p) ∈ l.map (itemOf U64 Sample.uc D .SPO) :=
  (C55_exact (s := Sample.sstore) Sample.uc_rt Sample.uc_total db0_reach db0_shows writers_ids writers_whole (by decide +kernel) .SPO).2
    writers_kept

theorem bound_fresh (q : Query U64) (hq : readBound db0 writers q ≤ 1000) : Fresh (readBound db0 writers q) (Sample.cg 200) :=
  Sample.cg_fresh _ _ (by omega)

-- the query comes across six edges at most: three of the store, and three writes
example : readBound db0 writers (.S [(1 : U64), 2]) = 6 := by decide +kernel

example : ∀ D ρ, Moments Sample.uc Sample.mN Sample.mE db0 writers D → Asked D (.S [(1 : U64), 2]) ρ →
    ∃ r H, runLazy Sample.uc (Sample.cg 200) ρ (.S [1, 2]) = .ok r ∧ Shows r.obs H ∧ (H.edges ⟨2, 5, 9⟩).isSome :=
  (C56_exact (s := Sample.sstore) Sample.uc_rt Sample.uc_total db0_reach db0_shows writers_ids writers_whole
    (by simp [Spec.Query.Nodup, Spec.Query.items]) (bound_fresh _ (by decide +kernel)) (by simp [Query.Hits]) (by decide +kernel)).2 writers_kept

-- the edge that two threads extend the store by
example : ∃ D ρ r H, Moments Sample.uc Sample.mN Sample.mE db0 writers D ∧ Asked D (.SPO [((1 : U64), 5, 2)]) ρ ∧
    runLazy Sample.uc (Sample.cg 200) ρ (.SPO [(1, 5, 2)]) = .ok r ∧ Shows r.obs H ∧ H.edges ⟨1, 5, 2⟩ = none :=
  C56_every_touch (s := Sample.sstore) Sample.uc_rt Sample.uc_total db0_reach db0_shows writers_ids writers_whole
    (by simp [Spec.Query.Nodup, Spec.Query.items]) (bound_fresh _ (by decide +kernel)) (by decide +kernel)
    (by simp [OnlyInserted, writers, extRace, Call.TouchesEdge, onlyEdge])

-- nodes
example : (∀ D l, Moments Sample.uc Sample.mN Sample.mE db0 extCalm D → Scan (fun m => (D m).nodeProps) whole 0 none l →
    ∃ p, .ok ((2 : U64), p) ∈ l.map (fun e => vertexItem U64 Sample.uc e.2)) :=
  (C55_nodes_exact (s := Sample.sstore) Sample.uc_rt Sample.uc_total db0_reach db0_shows extCalm_ids extCalm_whole (by decide +kernel)).2
    (by simp [NodeKept, extCalm])

def removing : List (List (Call String U64 Nat Nat)) := [[.mergeNode 2 5], [.removeNode 2]]

example : ¬ (∀ D ρ, Moments Sample.uc Sample.mN Sample.mE db0 removing D → Asked D (.NodeProps [(2 : U64), 1]) ρ →
    ∃ r H, runLazy Sample.uc (Sample.cg 200) ρ (.NodeProps [2, 1]) = .ok r ∧ Shows r.obs H ∧ (H.nodes 2).isSome) :=
  (C56_nodes_exact (threads := removing) (s := Sample.sstore) Sample.uc_rt Sample.uc_total db0_reach db0_shows ⟨by decide +kernel, by decide +kernel⟩
    (by simp [removing, Call.ReadsAll]) (by simp [Spec.Query.Nodup, Spec.Query.items]) (Sample.cg_fresh _ _ (by decide +kernel)) (by simp [Query.Asks])
    (by decide +kernel)).not.2 (by simp [NodeKept, removing])

end Props

end Verif
