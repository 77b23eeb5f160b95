import Verif.Proof.SledExtend
import Verif.Props.SledSample

/-!
# C29, C47, C48: crashes in the middle of the bulk operations of the sled back-end

`Op.step (.extend src) G`: what extend makes of the graph `G`.  `Source.CutOff src' src`: `src` cut off somewhere.
-/

set_option linter.unusedSectionVars false
set_option maxRecDepth 100000

namespace Verif.Props

open Verif Spec ConcreteId

variable {Id NP EP E : Type} [LinearOrder Id] [ConcreteId Id] [LawfulId Id]
variable {mN : NP → NP → NP} {mE : EP → EP → EP} {c : Codecs NP EP}

/-! ## C29 Sled extend is crash-safe per edge in SPO order -/

/-- At every crash point of extend, iteration yields no error, and each ordering shows the old graph with a part of the
source written into it: either `src1`, or `src2`, which has at most one edge more.  The orderings are updated in the
order SPO, POS, OSP: `late o` tells that `o` has the last edge. -/
theorem C29_crash {n m : Nat} {s : SledStore Id} {G : Graph Id NP EP} (hc : c.RoundTrip) (src : Source E Id NP EP)
    (hs : SledStore.Reach E c mN mE n (m + src.edges.length) s) (hG : Shows (s.obs c) G) {d : Db}
    (hd : d ∈ s.crashStates c mN mE (.extend src)) :
    ∃ (src1 src2 : Source E Id NP EP) (late : EdgeOrder → Bool), Source.CutOff src1 src ∧ Source.CutOff src2 src ∧
      (src2 = src1 ∨ ∃ a, src2 = { src1 with edges := src1.edges ++ [.ok a] }) ∧
      (late .OSP = true → late .POS = true) ∧ (late .POS = true → late .SPO = true) ∧
      (∃ l, Sled.iterVertices Id c d = l.map .ok ∧
        Lists (· < ·) ((Op.extend src1).step c.okN c.okE mN mE G).1.nodes l) ∧
      ∀ o, ∃ l, Sled.iterEdges Id c d o = l.map .ok ∧
        Lists (edgeLT o) ((Op.extend (if late o then src2 else src1)).step c.okN c.okE mN mE G).1.edges l := by
  have hk := hs.ok_of_shows hc hG
  have hw := hk.inv.weak (fun _ => False)
  have hsh : ∀ o, Sled.shown c s.db o = G := by
    intro o
    rw [← hk.graph]
    exact Graph.ext' (fun _ => rfl) (fun t => hk.inv.toAgree.view_eq o t)
  have hu : Sled.NewUlids Id src.edges.length s.ulid s.db := by
    refine ⟨fun i hi j hj => hk.fresh.2.1 i (by omega) j (by omega), fun j hj o t => ?_⟩
    rw [hk.inv.same o t]
    exact hk.uUnused j (by omega) t
  obtain ⟨src1, src2, S, h1, h2, h3, s1, s2, w, v⟩ := Sled.extend_states_weak hc src hw hu hd
  obtain ⟨⟨l, hl1, hl2⟩, he⟩ := Sled.weak_shows w
  refine ⟨src1, src2, S, h1, h2, h3, s1, s2, ⟨l, hl1, ?_⟩, fun o => ?_⟩
  · have := hl2 .OSP
    rw [v, hsh] at this
    refine ⟨this.1, fun n p => (this.2 n p).trans ?_⟩
    show _ ↔ (extended c.okN c.okE src1 G).nodes n = some p
    rw [both_store, both_store]
    cases S .OSP with
    | false => rfl
    | true =>
      rcases h3 with rfl | ⟨a, rfl⟩
      · rfl
      · rfl
  · obtain ⟨l, hl1, hl2⟩ := he o
    rw [v, hsh] at hl2
    exact ⟨l, hl1, hl2⟩

/-- In particular the SPO ordering shows the old graph with a part of the source written into it. -/
theorem C29_spo {n m : Nat} {s : SledStore Id} {G : Graph Id NP EP} (hc : c.RoundTrip) (src : Source E Id NP EP)
    (hs : SledStore.Reach E c mN mE n (m + src.edges.length) s) (hG : Shows (s.obs c) G) {d : Db}
    (hd : d ∈ s.crashStates c mN mE (.extend src)) :
    ∃ src', Source.CutOff src' src ∧
      (∃ l, Sled.iterVertices Id c d = l.map .ok ∧
        Lists (· < ·) ((Op.extend src').step c.okN c.okE mN mE G).1.nodes l) ∧
      ∃ l, Sled.iterEdges Id c d .SPO = l.map .ok ∧
        Lists (edgeLT .SPO) ((Op.extend src').step c.okN c.okE mN mE G).1.edges l := by
  obtain ⟨src1, src2, S, h1, h2, h3, -, -, ⟨l, hl, hl'⟩, he⟩ := C29_crash hc src hs hG hd
  refine ⟨if S .SPO then src2 else src1, by split <;> assumption, ⟨l, hl, ?_⟩, he .SPO⟩
  refine ⟨hl'.1, fun n p => (hl'.2 n p).trans ?_⟩
  show (extended c.okN c.okE src1 G).nodes n = some p ↔ (extended c.okN c.okE _ G).nodes n = some p
  rw [both_store, both_store]
  cases S .SPO with
  | false => rfl
  | true => rcases h3 with rfl | ⟨a, rfl⟩ <;> rfl

/-- source of the examples: overwrites an edge and adds one -/
def crashSrc : Source String U64 Nat Nat :=
  ⟨[.ok (1, 77), .ok (8, 8)], [.ok (⟨1, 5, 2⟩, 100), .ok (⟨8, 8, 8⟩, 101), .error "cut", .ok (⟨8, 8, 9⟩, 102)]⟩

/-- The orderings can disagree on the edge in flight: the properties of `(1, 5, 2)` in the three orderings, at the crash
points. -/
theorem C29_disagree_witness :
    (Sample.sstore.crashStates Sample.uc Sample.mN Sample.mE (.extend crashSrc)).map (fun d =>
      [EdgeOrder.SPO, .POS, .OSP].map (fun o => d.view (Id := U64) Sample.uc o ⟨1, 5, 2⟩)) =
    List.replicate 4 [some 4, some 4, some 4] ++
      [[some 100, some 4, some 4], [some 100, some 100, some 4]] ++
      List.replicate 6 [some 100, some 100, some 100] := by decide +kernel

example (d : Db) (hd : d ∈ Sample.sstore.crashStates Sample.uc Sample.mN Sample.mE (.extend crashSrc)) :
    ∃ src', Source.CutOff src' crashSrc ∧
      (∃ l, Sled.iterVertices U64 Sample.uc d = l.map .ok ∧ Lists (· < ·) ((Op.extend src').step Sample.uc.okN
        Sample.uc.okE Sample.mN Sample.mE (Sample.sstore.db.graph Sample.uc)).1.nodes l) ∧
      ∃ l, Sled.iterEdges U64 Sample.uc d .SPO = l.map .ok ∧ Lists (edgeLT .SPO) ((Op.extend src').step Sample.uc.okN
        Sample.uc.okE Sample.mN Sample.mE (Sample.sstore.db.graph Sample.uc)).1.edges l :=
  C29_spo (n := 0) (m := 0) Sample.uc_rt _ (Sample.sstore_reach _ _ (by decide) (by decide))
    ((Sample.sstore_reach 0 0 (by decide) (by decide)).shows Sample.uc_rt) hd

/-! ## C47 Repeating an interrupted extend completes it -/

/-- However often extend with the same source was begun and interrupted by crashes, a complete extend with that source
leaves all orderings agreeing, and shows what extend without any crash would have shown.  A store created on the result
works as specified. -/
theorem C47_repeat {n m : Nat} {s : SledStore Id} {G : Graph Id NP EP} (hc : c.RoundTrip) (src : Source E Id NP EP)
    (hs : SledStore.Reach E c mN mE n m s) (hG : Shows (s.obs c) G) {d : Db}
    (hd : SledStore.Interrupted c src s.db d) {g : Gen Id} {u : Gen Ulid} (hu : Fresh src.edges.length u)
    (hn : SledStore.UnusedUlids src.edges.length u d) :
    Shows (((SledStore.new d g u).apply c mN mE (.extend src)).obs c) ((Op.extend src).step c.okN c.okE mN mE G).1 := by
  have hk := hs.ok_of_shows hc hG
  obtain ⟨h1, h2⟩ := hd.heal hc hk.inv hu hn
  have := Sled.shows h1
  rw [h2, hk.graph] at this
  exact this

theorem C47_then {n m : Nat} {s : SledStore Id} {G : Graph Id NP EP} (hc : c.RoundTrip) (src : Source E Id NP EP)
    (hs : SledStore.Reach E c mN mE n m s) (hG : Shows (s.obs c) G) {d : Db}
    (hd : SledStore.Interrupted c src s.db d) {g : Gen Id} {u : Gen Ulid} (hu : Fresh src.edges.length u)
    (hn : SledStore.UnusedUlids src.edges.length u d) (h : List (Op E Id NP EP)) {g' : Gen Id} {u' : Gen Ulid}
    (hf : FreshIds (genDraws h) (ulidDraws h) g' u')
    (hn' : SledStore.Unused (genDraws h) (ulidDraws h) g' u' ((SledStore.new d g u).apply c mN mE (.extend src)).db) :
    Shows (((SledStore.new ((SledStore.new d g u).apply c mN mE (.extend src)).db g' u').applyAll c mN mE h).obs c)
      (stepAll c.okN c.okE mN mE G (.extend src :: h)) := by
  have hk := hs.ok_of_shows hc hG
  obtain ⟨h1, h2⟩ := hd.heal hc hk.inv hu hn
  have h0 : SledStore.Ok c (0 + genDraws h) (0 + ulidDraws h) (fun _ => False)
      (SledStore.new ((SledStore.new d g u).apply c mN mE (.extend src)).db g' u') _ :=
    SledStore.ok_open (n := 0 + genDraws h) (m := 0 + ulidDraws h) h1
      (by rw [Nat.zero_add, Nat.zero_add]; exact hf) (by rw [Nat.zero_add, Nat.zero_add]; exact hn')
  have := (SledStore.ok_applyAll (F := fun _ => False) hc mN mE h _ _ h0).shows
  rw [h2, hk.graph] at this
  exact this

/-- The result of the repeated call is that of a call on the original database. -/
theorem C47_result {n m : Nat} {s : SledStore Id} {G : Graph Id NP EP} (hc : c.RoundTrip) (src : Source E Id NP EP)
    (hs : SledStore.Reach E c mN mE n m s) (hG : Shows (s.obs c) G) {d : Db}
    (hd : SledStore.Interrupted c src s.db d) {g : Gen Id} {u : Gen Ulid} (hu : Fresh src.edges.length u)
    (hn : SledStore.UnusedUlids src.edges.length u d) :
    ((SledStore.new d g u).call c mN mE (.extend src)).2 = ((Op.extend src).step c.okN c.okE mN mE G).2.result := by
  have hk := hs.ok_of_shows hc hG
  obtain ⟨-, -, h3⟩ := Sled.extend_run_weak hc src (hd.weak hc hk.inv).1 (SledStore.newUlids hu hn)
  refine Eq.trans h3 ?_
  exact (both_outcome c.okN c.okE src G).symm

/-- the database of the sample store after two interrupted attempts: the first stopped between the orderings, the second
while writing the nodes -/
def halfway1 : Db := (Sled.extend Sample.uc (Sample.ul 100) crashSrc).states Sample.sstore.db |>.getD 4 Db.empty
def halfway2 : Db := (Sled.extend Sample.uc (Sample.ul 200) crashSrc).states halfway1 |>.getD 1 Db.empty

theorem getD_mem {α : Type} {l : List α} {i : Nat} {a : α} (h : i < l.length) : l.getD i a ∈ l := by
  rw [List.getD_eq_getElem?_getD, List.getElem?_eq_getElem h]; exact List.getElem_mem h

theorem halfway : SledStore.Interrupted Sample.uc crashSrc Sample.sstore.db halfway2 :=
  .crash (.crash .start (Sample.ul_fresh _ _ (by decide))
    (by intro o; cases o <;> decide +kernel) (getD_mem (by decide +kernel)))
    (Sample.ul_fresh _ _ (by decide)) (by intro o; cases o <;> decide +kernel) (getD_mem (by decide +kernel))

/-- orderings still disagree -/
example : halfway2.view (Id := U64) Sample.uc .SPO ⟨1, 5, 2⟩ = some 100 ∧
    halfway2.view (Id := U64) Sample.uc .POS ⟨1, 5, 2⟩ = some 4 := by decide +kernel

example : Shows (((SledStore.new halfway2 (Sample.cg 100) (Sample.ul 300)).apply Sample.uc Sample.mN Sample.mE
      (.extend crashSrc)).obs Sample.uc)
    ((Op.extend crashSrc).step Sample.uc.okN Sample.uc.okE Sample.mN Sample.mE (Sample.sstore.db.graph Sample.uc)).1 :=
  C47_repeat (n := 0) (m := 0) Sample.uc_rt _ (Sample.sstore_reach _ _ (by decide) (by decide))
    ((Sample.sstore_reach 0 0 (by decide) (by decide)).shows Sample.uc_rt) halfway (Sample.ul_fresh _ _ (by decide))
    (by intro o; cases o <;> decide +kernel)

example : ((SledStore.new halfway2 (Sample.cg 100) (Sample.ul 300)).call Sample.uc Sample.mN Sample.mE
      (.extend crashSrc)).2 = .error (.right "cut") := by
  rw [C47_result (n := 0) (m := 0) Sample.uc_rt _ (Sample.sstore_reach _ _ (by decide) (by decide))
    ((Sample.sstore_reach 0 0 (by decide) (by decide)).shows Sample.uc_rt) halfway (Sample.ul_fresh _ _ (by decide))
    (by intro o; cases o <;> decide +kernel)]
  rfl

example : Shows (((SledStore.new ((SledStore.new halfway2 (Sample.cg 100) (Sample.ul 300)).apply Sample.uc Sample.mN
      Sample.mE (.extend crashSrc)).db (Sample.cg 200) (Sample.ul 400)).applyAll Sample.uc Sample.mN Sample.mE
        ([.removeNode 8, .insertEdge ⟨1, 5, 2⟩ 3] : List (Op String U64 Nat Nat))).obs Sample.uc)
    (stepAll Sample.uc.okN Sample.uc.okE Sample.mN Sample.mE (Sample.sstore.db.graph Sample.uc)
      [.extend crashSrc, .removeNode 8, .insertEdge ⟨1, 5, 2⟩ 3]) :=
  C47_then (n := 0) (m := 0) Sample.uc_rt _ (Sample.sstore_reach _ _ (by decide) (by decide))
    ((Sample.sstore_reach 0 0 (by decide) (by decide)).shows Sample.uc_rt) halfway (Sample.ul_fresh _ _ (by decide))
    (by intro o; cases o <;> decide +kernel) _ (Sample.cu_fresh _ _ _ _ (by decide) (by decide))
    (by unfold SledStore.Unused; decide +kernel)

/-! ## C48 Sled merge is crash-safe per item -/

/-- At every crash point of merge the database shows the old graph with a part of the source merged into it, in all
orderings. -/
theorem C48_crash {n m : Nat} {s : SledStore Id} {G : Graph Id NP EP} (hc : c.RoundTrip) (src : Source E Id NP EP)
    (hs : SledStore.Reach E c mN mE (n + src.edges.length) m s) (hG : Shows (s.obs c) G) {d : Db}
    (hd : d ∈ s.crashStates c mN mE (.merge src)) :
    ∃ src', Source.CutOff src' src ∧ Shows (Sled.obs c d) ((Op.merge src').step c.okN c.okE mN mE G).1 := by
  obtain ⟨src', h1, h2, h3⟩ := SledStore.merge_states hc mN mE src (hs.ok_of_shows hc hG) hd
  refine ⟨src', h1, ?_⟩
  have := Sled.shows h2
  rw [h3] at this
  exact this

/-- merge goes through several graphs -/
example : (Sample.sstore.crashStates Sample.uc Sample.mN Sample.mE (.merge crashSrc)).map (fun d =>
      (d.view (Id := U64) Sample.uc .SPO ⟨1, 5, 2⟩, d.view (Id := U64) Sample.uc .OSP ⟨8, 8, 8⟩)) =
    [(some 4, none), (some 4, none), (some 4, none), (some 140, none), (some 140, some 101)] := by decide +kernel

example (d : Db) (hd : d ∈ Sample.sstore.crashStates Sample.uc Sample.mN Sample.mE (.merge crashSrc)) :
    ∃ src', Source.CutOff src' crashSrc ∧ Shows (Sled.obs Sample.uc d) ((Op.merge src').step Sample.uc.okN
      Sample.uc.okE Sample.mN Sample.mE (Sample.sstore.db.graph Sample.uc)).1 :=
  C48_crash (n := 0) (m := 0) Sample.uc_rt _ (Sample.sstore_reach _ _ (by decide) (by decide))
    ((Sample.sstore_reach 0 0 (by decide) (by decide)).shows Sample.uc_rt) hd

end Verif.Props
