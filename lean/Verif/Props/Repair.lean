import Verif.Proof.Repair
import Verif.Props.SledRace

/-!
# C73: calls on a database in disorder put the edges they are about in order
-/

set_option maxRecDepth 100000

namespace Verif.Props

open Spec Verif.Sled ConcreteId

variable {Id NP EP E : Type} [LinearOrder Id] [ConcreteId Id] [LawfulId Id]
variable {c : Codecs NP EP} {mN : NP → NP → NP} {mE : EP → EP → EP}

/-- a stored edge is listed with its properties in all orders, an absent edge in none; whatever else is in the database -/
theorem C73_shows (d : Db) (t : Triple Id) :
    (∀ p, Stored c d t p → ∀ o q, .ok (t, q) ∈ iterEdges Id c d o ↔ q = p) ∧
    (Absent d t → ∀ o q, .ok (t, q) ∉ iterEdges Id c d o) := by
  refine ⟨fun p ⟨v, h1, b, h2, h3⟩ o q => ?_, fun h o q hq => ?_⟩
  · rw [mem_iterEdges_any]
    constructor
    · rintro ⟨v', b', i1, i2, i3⟩
      rw [h1] at i1; cases i1
      rw [h2] at i2; cases i2
      rw [h3] at i3; cases i3
      rfl
    · rintro rfl
      exact ⟨v, b, h1 o, h2, h3⟩
  · obtain ⟨v, b, h1, -⟩ := mem_iterEdges_any.1 hq
    rw [h o] at h1; cases h1

/-- `insert_edge` stores its edge; other edges stay as they are. -/
theorem C73_insertEdge (hc : c.RoundTrip) {d : Db} {i : Id} {t : Triple Id} {p : EP} (h : ((insertEdge c i t p).run d).2 = .ok ()) :
    let d' := ((insertEdge c i t p).run d).1
    Stored c d' t p ∧ (∀ u ≠ t, ∀ o, d'.idIn o u = d.idIn o u) ∧
      ∀ u ≠ t, ∀ q, Stored c d u q → Alone d u → d.idIn .SPO u ≠ some (be i) → Stored c d' u q := by
  have hw := insertEdge_wrote h
  refine ⟨?_, fun u hu o => (hw.ids o u).trans (if_neg hu), fun u hu q ⟨v, h1, b, h2, h3⟩ ha hn => ?_⟩
  · obtain ⟨b, h1, h2⟩ := hw.record
    exact ⟨be i, fun o => (hw.ids o t).trans (if_pos rfl), b, h2, hc.2 p b h1⟩
  · refine ⟨v, fun o => ((hw.ids o u).trans (if_neg hu)).trans (h1 o), b, (hw.others v ?_ ?_).trans h2, h3⟩
    · rintro rfl; exact hn (h1 .SPO)
    · exact ha .SPO .SPO t (Ne.symm hu) v (h1 .SPO)

/-- `merge_edge` stores its edge, merged with the record that SPO leads to if there is one; other edges stay as they are. -/
theorem C73_mergeEdge (hc : c.RoundTrip) {d : Db} {i : Id} {t : Triple Id} {p : EP} (h : ((mergeEdge c mE i t p).run d).2 = .ok ()) :
    let d' := ((mergeEdge c mE i t p).run d).1
    (∃ q, Stored c d' t q ∧ ((d.idIn .SPO t).bind d.edgeProps.get = none ∧ q = p ∨
       ∃ b old, (d.idIn .SPO t).bind d.edgeProps.get = some b ∧ c.e.de b = some old ∧ q = mE old p)) ∧
      (∀ u ≠ t, ∀ o, d'.idIn o u = d.idIn o u) ∧
      ∀ u ≠ t, ∀ q, Stored c d u q → Alone d u → d.idIn .SPO u ≠ some (be i) → Stored c d' u q := by
  obtain ⟨q, hw, hq⟩ := mergeEdge_wrote h
  refine ⟨⟨q, ?_, hq⟩, fun u hu o => (hw.ids o u).trans (if_neg hu), fun u hu q ⟨v, h1, b, h2, h3⟩ ha hn => ?_⟩
  · obtain ⟨b, h1, h2⟩ := hw.record
    exact ⟨be i, fun o => (hw.ids o t).trans (if_pos rfl), b, h2, hc.2 q b h1⟩
  · refine ⟨v, fun o => ((hw.ids o u).trans (if_neg hu)).trans (h1 o), b, (hw.others v ?_ ?_).trans h2, h3⟩
    · rintro rfl; exact hn (h1 .SPO)
    · exact ha .SPO .SPO t (Ne.symm hu) v (h1 .SPO)

/-- `remove_edge` always succeeds and removes its edge from all orderings; other edges stay as they are. -/
theorem C73_removeEdge (d : Db) (t : Triple Id) :
    let d' := ((removeEdge t).run d).1
    ((removeEdge t).run d).2 = .ok () ∧ Absent d' t ∧ (∀ u ≠ t, ∀ o, d'.idIn o u = d.idIn o u) ∧
      ∀ u ≠ t, ∀ q, Stored c d u q → Alone d u → Stored c d' u q := by
  obtain ⟨h1, h2, h3⟩ := removeEdge_any d t
  refine ⟨h1, fun o => (h2 o t).trans (if_pos rfl), fun u hu o => (h2 o u).trans (if_neg hu), fun u hu q ⟨v, i1, b, i2, i3⟩ ha => ?_⟩
  exact ⟨v, fun o => ((h2 o u).trans (if_neg hu)).trans (i1 o), b, (h3 v (ha .SPO .SPO t (Ne.symm hu) v (i1 .SPO))).trans i2, i3⟩

/-- `remove_node` removes from all orderings exactly the edges that it finds in SPO under their subject or in OSP under their object.
It fails only when it meets a key that is none, and then changes nothing. -/
theorem C73_removeNode (n : Id) (d : Db) :
    let r := (removeNode n).run d
    (r.2 = .ok () ∧ (∀ o t, r.1.idIn o t =
        if (t.sub = n ∧ d.idIn .SPO t ≠ none) ∨ (t.obj = n ∧ d.idIn .OSP t ≠ none) then none else d.idIn o t) ∧
      (∀ m, r.1.nodeProps.get (be m) = if m = n then none else d.nodeProps.get (be m)) ∧
      ∀ u q, u.sub ≠ n → u.obj ≠ n → Stored c d u q → Alone d u → Stored c r.1 u q) ∨
    ((∃ e, r = (d, .error e)) ∧ ∃ k v, (d.spo.get k = some v ∨ d.osp.get k = some v) ∧ k.length ≠ tripleLen (Id := Id)) := by
  intro r
  rcases removeNode_any n d with ⟨e, he, x, hx, hl⟩ | ⟨F, B, he, hF, hB⟩
  · right
    refine ⟨⟨e, he⟩, x.1, x.2, ?_, hl⟩
    rcases List.mem_append.1 hx with hx | hx
    · exact .inl (mem_rangeArr_bytes hx).1
    · exact .inr (mem_rangeArr_bytes hx).1
  · left
    have hid : ∀ o t, (dropped n F B d).idIn o t =
        if (t.sub = n ∧ d.idIn .SPO t ≠ none) ∨ (t.obj = n ∧ d.idIn .OSP t ≠ none) then none else d.idIn o t := by
      intro o t
      rw [dropped_idIn]
      have : t ∈ (F ++ B).map Prod.fst ↔ ((t.sub = n ∧ d.idIn .SPO t ≠ none) ∨ (t.obj = n ∧ d.idIn .OSP t ≠ none)) := by
        rw [List.map_append, List.mem_append]
        refine or_congr ?_ ?_
        · constructor
          · intro h
            obtain ⟨⟨t, v⟩, hx, rfl⟩ := List.mem_map.1 h
            obtain ⟨h1, h2⟩ := (scanned_spo hF).1 hx
            exact ⟨h2, by rw [h1]; exact fun h => nomatch h⟩
          · rintro ⟨h2, h1⟩
            obtain ⟨v, hv⟩ := Option.ne_none_iff_exists'.1 h1
            exact List.mem_map.2 ⟨(t, v), (scanned_spo hF).2 ⟨hv, h2⟩, rfl⟩
        · constructor
          · intro h
            obtain ⟨⟨t, v⟩, hx, rfl⟩ := List.mem_map.1 h
            obtain ⟨h1, h2⟩ := (scanned_osp hB).1 hx
            exact ⟨h2, by rw [h1]; exact fun h => nomatch h⟩
          · rintro ⟨h2, h1⟩
            obtain ⟨v, hv⟩ := Option.ne_none_iff_exists'.1 h1
            exact List.mem_map.2 ⟨(t, v), (scanned_osp hB).2 ⟨hv, h2⟩, rfl⟩
      by_cases hm : t ∈ (F ++ B).map Prod.fst
      · rw [if_pos hm, if_pos (this.1 hm)]
      · rw [if_neg hm, if_neg (fun h => hm (this.2 h))]
    have hr : r = (dropped n F B d, .ok ()) := he
    rw [hr]
    refine ⟨rfl, hid, fun m => ?_, fun u q h1 h2 ⟨v, i1, b, i2, i3⟩ ha => ?_⟩
    · show (d.nodeProps.erase (be n)).get (be m) = _
      rw [BMap.get_erase]
      by_cases hm : m = n
      · rw [if_pos hm, if_pos (by rw [hm])]
      · rw [if_neg hm, if_neg (fun (e : be m = be n) => hm (toBe_inj.1 e))]
    · refine ⟨v, fun o => ?_, b, ?_, i3⟩
      · rw [hid, if_neg (by rintro (⟨h, -⟩ | ⟨h, -⟩) <;> contradiction)]; exact i1 o
      · show (applyBatch (applyBatch d.edgeProps (F.map Prod.snd)) (B.map Prod.snd)).get v = some b
        rw [applyBatch_get, applyBatch_get, if_neg, if_neg]
        · exact i2
        · intro hm
          obtain ⟨⟨t, w⟩, hx, rfl⟩ := List.mem_map.1 hm
          obtain ⟨j1, j2⟩ := (scanned_spo hF).1 hx
          exact ha .SPO .SPO t (by rintro rfl; exact h1 j2) _ (i1 .SPO) j1
        · intro hm
          obtain ⟨⟨t, w⟩, hx, rfl⟩ := List.mem_map.1 hm
          obtain ⟨j1, j2⟩ := (scanned_osp hB).1 hx
          exact ha .SPO .OSP t (by rintro rfl; exact h2 j2) _ (i1 .SPO) j1

/-- `extend` stores every edge of its source with the properties given last; other edges stay as they are. -/
theorem C73_extend (hc : c.RoundTrip) {d : Db} {u : Gen Ulid} {src : Source E Id NP EP} (hu : Unused d (Call.drawnFor u src.edges))
    (h : ((extend c u src).run d).2.2 = .ok ()) :
    let d' := ((extend c u src).run d).1
    (∀ l1 t p l2, oks src.edges = l1 ++ (t, p) :: l2 → (∀ x ∈ l2, x.1 ≠ t) → Stored c d' t p) ∧
    ∀ t, (∀ x ∈ oks src.edges, x.1 ≠ t) →
      (∀ o, d'.idIn o t = d.idIn o t) ∧ ∀ q, Stored c d t q → Alone d t → Stored c d' t q := by
  obtain ⟨L, d1, h1, h2, h3, h4, h5⟩ := extend_wrote hu h
  have hu1 : Unused d1 (L.map (fun x => (x.1, x.2.1))) := by rw [h4]; exact unused_congr h3 hu
  refine ⟨fun l1 t p l2 he ht => ?_, fun t ht => ?_⟩
  · rw [← h5] at he
    obtain ⟨L1, L2', rfl, rfl, e2⟩ := List.map_eq_append_iff.1 he
    obtain ⟨⟨i, t', p'⟩, L2, rfl, e3, rfl⟩ := List.map_eq_cons_iff.1 e2
    cases e3
    exact h1.stored hc hu1 (fun x hx => ht x.2 (List.mem_map_of_mem hx))
  · have hn : ∀ x ∈ L, x.2.1 ≠ t := fun x hx => ht x.2 (by rw [← h5]; exact List.mem_map_of_mem hx)
    refine ⟨fun o => (h1.rest hn o).trans (h3 o t), fun q ⟨v, i1, b, i2, i3⟩ ha => h1.keeps hu1 hn ?_ ?_⟩
    · intro o o' w hw v' hv'
      rw [h3] at hv' ⊢
      exact ha o o' w hw v' hv'
    · exact ⟨v, fun o => (h3 o t).trans (i1 o), b, by rw [h2]; exact i2, i3⟩

/-- `merge` stores every edge of its source; other edges stay as they are. -/
theorem C73_merge (hc : c.RoundTrip) {d : Db} {g : Gen Id} {src : Source E Id NP EP} (hu : Unused d (Call.drawnFor g src.edges))
    (h : ((merge c mN mE g src).run d).2.2 = .ok ()) :
    let d' := ((merge c mN mE g src).run d).1
    (∀ x ∈ oks src.edges, ∃ q, Stored c d' x.1 q) ∧
    ∀ t, (∀ x ∈ oks src.edges, x.1 ≠ t) →
      (∀ o, d'.idIn o t = d.idIn o t) ∧ ∀ q, Stored c d t q → Alone d t → Stored c d' t q := by
  obtain ⟨L, d1, h1, h2, h3, h4, h5⟩ := merge_wrote h
  have hu1 : Unused d1 (L.map (fun x => (x.1, x.2.1))) := by rw [h4]; exact unused_congr h3 hu
  refine ⟨fun x hx => ?_, fun t ht => ?_⟩
  · have hm : x.1 ∈ L.map (fun y => y.2.1) := by rw [h5]; exact List.mem_map_of_mem hx
    obtain ⟨L1, i, p, L2, hL, hn⟩ : ∃ L1 i p L2, L = L1 ++ (i, x.1, p) :: L2 ∧ ∀ y ∈ L2, y.2.1 ≠ x.1 := by
      clear h1 h4 h5 hu1
      induction L with
      | nil => cases hm
      | cons y L ih =>
        by_cases hy : x.1 ∈ L.map (fun y => y.2.1)
        · obtain ⟨L1, i, p, L2, e, hn⟩ := ih hy
          exact ⟨y :: L1, i, p, L2, by rw [e]; rfl, hn⟩
        · have e : x.1 = y.2.1 := (List.mem_cons.1 hm).resolve_right hy
          exact ⟨[], y.1, y.2.2, L, by rw [e]; rfl, fun z hz e' => hy (by rw [← e']; exact List.mem_map_of_mem hz)⟩
    subst hL
    exact ⟨p, h1.stored hc hu1 hn⟩
  · have hn : ∀ x ∈ L, x.2.1 ≠ t := fun x hx => by
      have : x.2.1 ∈ (oks src.edges).map Prod.fst := by rw [← h5]; exact List.mem_map_of_mem hx
      obtain ⟨y, hy, e⟩ := List.mem_map.1 this
      rw [← e]; exact ht y hy
    refine ⟨fun o => (h1.rest hn o).trans (h3 o t), fun q ⟨v, i1, b, i2, i3⟩ ha => h1.keeps hu1 hn ?_ ?_⟩
    · intro o o' w hw v' hv'
      rw [h3] at hv' ⊢
      exact ha o o' w hw v' hv'
    · exact ⟨v, fun o => (h3 o t).trans (i1 o), b, by rw [h2]; exact i2, i3⟩

/-- Ids that neither the database at the start nor any of the calls had are unused at any moment. -/
theorem C73_unused {d0 d : Db} {threads : List (List (Call E Id NP EP))} (hd : Moment c mN mE d0 threads d)
    {l : List (Bytes × Triple Id)} (h0 : Unused d0 l) (hw : ∀ x ∈ l, x.1 ∉ (allWrites threads).map Prod.fst) : Unused d l :=
  ⟨h0.1, fun x hx t e => (ids_moment hd .SPO t x.1 e).elim (h0.2 x hx t) (fun h => hw x hx (List.mem_map.2 ⟨_, h, rfl⟩))⟩

/-- When a process dies at any moment of any calls of any threads, a following `extend` with new ids succeeds, if its source does, and
stores all its edges. -/
theorem C73_redo_extend (hc : c.RoundTrip) (ht : c.Total) {d0 d : Db} {threads : List (List (Call E Id NP EP))}
    (hd : Moment c mN mE d0 threads d) {u : Gen Ulid} {src : Source E Id NP EP} (h1 : ¬ fails src.nodes) (h2 : ¬ fails src.edges)
    (h0 : Unused d0 (Call.drawnFor u src.edges)) (hw : ∀ x ∈ Call.drawnFor u src.edges, x.1 ∉ (allWrites threads).map Prod.fst) :
    let r := (extend c u src).run d
    r.2.2 = .ok () ∧ ∀ l1 t p l2, oks src.edges = l1 ++ (t, p) :: l2 → (∀ x ∈ l2, x.1 ≠ t) → Stored c r.1 t p :=
  have h := extend_ok ht u src d h1 h2
  ⟨h, (C73_extend hc (C73_unused hd h0 hw) h).1⟩

/-- likewise for `merge`, if it meets no record that it cannot decode -/
theorem C73_redo_merge (hc : c.RoundTrip) {d0 d : Db} {threads : List (List (Call E Id NP EP))}
    (hd : Moment c mN mE d0 threads d) {g : Gen Id} {src : Source E Id NP EP}
    (h0 : Unused d0 (Call.drawnFor g src.edges)) (hw : ∀ x ∈ Call.drawnFor g src.edges, x.1 ∉ (allWrites threads).map Prod.fst)
    (h : ((merge c mN mE g src).run d).2.2 = .ok ()) : ∀ x ∈ oks src.edges, ∃ q, Stored c ((merge c mN mE g src).run d).1 x.1 q :=
  (C73_merge hc (C73_unused hd h0 hw) h).1

/-! ## examples: the database left by two `extend`s that race on the edge (1,5,2); its orderings disagree, two of them lead to no record -/

def mess : Db := leads extRace extTurns

theorem mess_moment : Moment Sample.uc Sample.mN Sample.mE db0 extRace mess := leads_moment ..

def e152 : Triple U64 := ⟨1, 5, 2⟩

example : mess.idIn .SPO e152 ≠ mess.idIn .POS e152 ∧ iterEdges U64 Sample.uc mess .POS = [.ok (⟨2, 2, 2⟩, 3), .error .missing, .ok (⟨2, 5, 9⟩, 8)] := by
  decide +kernel

theorem stored_of {d : Db} {t : Triple U64} {p : Nat} (v : Bytes) (b : Bytes) (h : (d.idIn .SPO t = some v ∧ d.idIn .POS t = some v ∧ d.idIn .OSP t = some v) ∧
    d.edgeProps.get v = some b ∧ Sample.uc.e.de b = some p) : Stored Sample.uc d t p :=
  ⟨v, fun o => by cases o <;> simp only [h.1], b, h.2⟩

theorem mess_222 : Stored Sample.uc mess (⟨2, 2, 2⟩ : Triple U64) 3 := by
  obtain ⟨v, hv⟩ : ∃ v, mess.idIn .SPO (⟨2, 2, 2⟩ : Triple U64) = some v := Option.isSome_iff_exists.1 (by decide +kernel)
  obtain ⟨b, hb⟩ : ∃ b, mess.edgeProps.get v = some b := Option.isSome_iff_exists.1 (by
    have : (mess.idIn .SPO (⟨2, 2, 2⟩ : Triple U64)).bind mess.edgeProps.get |>.isSome := by decide +kernel
    rwa [hv] at this)
  have e1 : mess.idIn .POS (⟨2, 2, 2⟩ : Triple U64) = mess.idIn .SPO (⟨2, 2, 2⟩ : Triple U64) := by decide +kernel
  have e2 : mess.idIn .OSP (⟨2, 2, 2⟩ : Triple U64) = mess.idIn .SPO (⟨2, 2, 2⟩ : Triple U64) := by decide +kernel
  have e3 : ((mess.idIn .SPO (⟨2, 2, 2⟩ : Triple U64)).bind mess.edgeProps.get).bind Sample.uc.e.de = some 3 := by decide +kernel
  refine stored_of v b ⟨⟨hv, e1.trans hv, e2.trans hv⟩, hb, ?_⟩
  rw [hv] at e3
  simpa [hb] using e3

example : (∀ o q, .ok ((⟨2, 2, 2⟩ : Triple U64), q) ∈ iterEdges U64 Sample.uc mess o ↔ q = 3) := (C73_shows mess _).1 3 mess_222

example : Stored Sample.uc ((insertEdge Sample.uc (500 : U64) e152 70).run mess).1 e152 70 :=
  (C73_insertEdge Sample.uc_rt (by decide +kernel)).1

example : iterEdges U64 Sample.uc ((insertEdge Sample.uc (500 : U64) e152 70).run mess).1 .POS =
    [.ok (⟨2, 2, 2⟩, 3), .ok (⟨1, 5, 2⟩, 70), .ok (⟨2, 5, 9⟩, 8)] := by decide +kernel

example : ∃ q, Stored Sample.uc ((mergeEdge Sample.uc Sample.mE (500 : U64) e152 70).run mess).1 e152 q :=
  let ⟨q, h, _⟩ := (C73_mergeEdge (c := Sample.uc) (mE := Sample.mE) (i := (500 : U64)) (t := e152) (p := 70) (d := mess) Sample.uc_rt (by decide +kernel)).1
  ⟨q, h⟩

example : Absent ((removeEdge e152).run mess).1 e152 := (C73_removeEdge (c := Sample.uc) mess e152).2.1

example : ((removeNode (1 : U64)).run mess).2 = .ok () := by decide +kernel

/-- the same source again -/
example : ∀ t p, (t, p) = (e152, 60) → Stored Sample.uc ((extend Sample.uc (Sample.ul 600) (onlyEdge 60)).run mess).1 t p := by
  rintro t p ⟨⟩
  refine (C73_redo_extend (Id := U64) (E := String) Sample.uc_rt Sample.uc_total mess_moment (src := onlyEdge 60) (u := Sample.ul 600) (by decide) (by decide)
    ⟨by decide +kernel, fun x hx t e => ?_⟩ (by decide +kernel)).2 [] e152 60 [] rfl (fun _ h => nomatch h)
  have h1 : ∀ e ∈ db0.spo.entries, ∀ x ∈ Call.drawnFor (Sample.ul 600) (onlyEdge 60).edges, e.2 ≠ x.1 := by decide +kernel
  exact h1 ((encodeSpo t).1, x.1) (BMap.mem_entries.2 e) x hx rfl

/-! ## what `remove_node` does not put in order -/

def newEdge : Source String U64 Nat Nat := { nodes := [.ok (3, 30)], edges := [.ok (⟨1, 7, 3⟩, 5)] }

def half : List (List (Call String U64 Nat Nat)) := [[.extend (Sample.ul 300) newEdge]]

/-- A process dies in the middle of `extend`, having written an edge into the orderings SPO and POS.  `remove_node` of its object then
succeeds, and leaves the edge where it is. -/
theorem C73_removeNode_leaves :
    ∃ d, Moment Sample.uc Sample.mN Sample.mE db0 half d ∧ ((removeNode (3 : U64)).run d).2 = .ok () ∧
      .ok (⟨1, 7, 3⟩, 5) ∈ iterEdges U64 Sample.uc ((removeNode (3 : U64)).run d).1 .SPO ∧
      .ok (⟨1, 7, 3⟩, 5) ∈ iterEdges U64 Sample.uc ((removeNode (3 : U64)).run d).1 .POS :=
  ⟨leads half [0, 0, 0, 0], leads_moment .., by decide +kernel, by decide +kernel, by decide +kernel⟩

end Verif.Props
