import Verif.Proof.SledSelf
import Verif.Proof.Represents
import Verif.Props.SledWell
import Verif.Props.Sled

/-!
# C66: `extend` and `merge` with another store on the same database

The loops write to the trees they are traversing, and what the iterators have read ahead when is up to sled.
-/

namespace Verif.Props

open Verif Spec Sled ConcreteId

variable {Id NP EP : Type} [LinearOrder Id] [ConcreteId Id] [LawfulId Id] {c : Codecs NP EP} {mN : NP → NP → NP}
  {mE : EP → EP → EP} {n m : Nat} {s : SledStore Id} {G : Graph Id NP EP}

/-- what the other store would yield if nobody wrote -/
abbrev Self (c : Codecs NP EP) (s : SledStore Id) : Source SErr Id NP EP := intoIterNodes c s.db .SPO

theorem self_edges (c : Codecs NP EP) (s : SledStore Id) : (Self c s).edges.length = s.db.spo.entries.length := by
  rw [Self, intoIterNodes_spo, List.length_map]

theorem self_represents (hc : c.RoundTrip) {E : Type} (hs : SledStore.Reach E c mN mE n m s) (hG : Shows (s.obs c) G) :
    Represents (Self c s) G := by
  have e : Self c s = iterNodes c s.db .SPO := (C23_sled c s.db .SPO).1
  have : RepresentsSorted (Self c s) G := by
    rw [e]
    exact ⟨hG.1, hG.2 .SPO⟩
  exact this.represents

/-- Whatever the iterators have read ahead, `extend` does what it would do with a store of its own having the same contents. -/
theorem C66_extend {E : Type} (hc : c.RoundTrip) (hs : SledStore.Reach E c mN mE n (m + (Self c s).edges.length) s)
    (out : SledStore Id × Except (LR SErr SErr) Unit) : ExtendSelf c s out ↔ out = s.extend c (Self c s) := by
  rw [self_edges] at hs
  exact extendSelf_iff hc (hs.ok hc)

/-- So does `merge`. -/
theorem C66_merge {E : Type} (hc : c.RoundTrip) (hs : SledStore.Reach E c mN mE (n + (Self c s).edges.length) m s)
    (out : SledStore Id × Except (LR SErr SErr) Unit) : MergeSelf c mN mE s out ↔ out = s.merge c mN mE (Self c s) := by
  rw [self_edges] at hs
  exact mergeSelf_iff hc mN mE (hs.ok hc)

/-- `extend` succeeds, the graph remains the same, and so it goes on. -/
theorem C66_extend_same (hc : c.RoundTrip) (hs : SledStore.Reach SErr c mN mE n (m + (Self c s).edges.length) s)
    (hG : Shows (s.obs c) G) {out : SledStore Id × Except (LR SErr SErr) Unit} (h : ExtendSelf c s out) :
    out.2 = .ok () ∧ Shows (out.1.obs c) G ∧ SledStore.Reach SErr c mN mE n m out.1 := by
  rw [C66_extend hc hs] at h
  subst h
  have hw := WellFormed.reach hc hs
  have hg := hs.graph_of_shows hc hG
  have hN : ∀ x p, G.nodes x = some p → c.okN p := by
    intro x p h
    rw [← hg] at h
    obtain ⟨b, hb, hd⟩ := Option.bind_eq_some_iff.1 h
    obtain ⟨-, q, hq⟩ := hw.nodes _ _ hb
    rw [hc.1 _ _ hq] at hd
    cases hd
    simp [Codecs.okN, hq]
  have hE : ∀ t p, G.edges t = some p → c.okE p := by
    intro t p h
    rw [← hg] at h
    obtain ⟨v, hv, h⟩ := Option.bind_eq_some_iff.1 h
    obtain ⟨b, hb, hd⟩ := Option.bind_eq_some_iff.1 h
    obtain ⟨q, hq⟩ := hw.recs _ _ hb
    rw [hc.2 _ _ hq] at hd
    cases hd
    simp [Codecs.okE, hq]
  have hstep := (self_represents hc hs hG).extend_same hN hE mN mE
  have h := SledStore.good_call (n := n) (m := m) hc mN mE (.extend (Self c s)) (hs.ok_of_shows hc hG)
  rw [hstep] at h
  exact ⟨h.2, h.1.shows, SledStore.Reach.op (.extend (Self c s)) hs⟩

/-- `merge`, all values being serializable, succeeds and merges every value with itself. -/
theorem C66_merge_twice (hc : c.RoundTrip) (ht : c.Total) (hs : SledStore.Reach SErr c mN mE (n + (Self c s).edges.length) m s)
    (hG : Shows (s.obs c) G) {out : SledStore Id × Except (LR SErr SErr) Unit} (h : MergeSelf c mN mE s out) :
    out.2 = .ok () ∧ Shows (out.1.obs c) (G.mergeWith mN mE G) ∧ SledStore.Reach SErr c mN mE n m out.1 := by
  rw [C66_merge hc hs] at h
  subst h
  have hstep := (self_represents hc hs hG).merge_done ht mN mE G
  have h := SledStore.good_call (n := n) (m := m) hc mN mE (.merge (Self c s)) (hs.ok_of_shows hc hG)
  rw [hstep] at h
  exact ⟨h.2, h.1.shows, SledStore.Reach.op (.merge (Self c s)) hs⟩

/-! ## examples -/

/-- two nodes and two edges -/
def selfHist : List (Op SErr U64 Nat Nat) :=
  [.insertNode 1 10, .insertNode 2 20, .insertEdge ⟨1, 5, 2⟩ 7, .insertEdge ⟨2, 5, 2⟩ 8]

def selfStore : SledStore U64 := (SledStore.new Db.empty (Sample.cg 0) (Sample.ul 0)).applyAll Sample.uc Sample.mN Sample.mE selfHist

theorem selfStore_reach (n m : Nat) (hn : n ≤ 900) (hm : m ≤ 900) :
    SledStore.Reach SErr Sample.uc Sample.mN Sample.mE n m selfStore := by
  refine SledStore.reach_applyAll selfHist (.new (Sample.cu_fresh _ _ _ _ ?_ ?_))
  · have : genDraws selfHist = 2 := by decide
    omega
  · have : ulidDraws selfHist = 0 := by decide
    omega

theorem selfStore_len : (Self Sample.uc selfStore : Source SErr U64 Nat Nat).edges.length = 2 := by decide +kernel

/-- there is a way it goes -/
example : ∃ out, ExtendSelf Sample.uc selfStore out :=
  ⟨_, (C66_extend (n := 0) (m := 0) (E := SErr) Sample.uc_rt
    (selfStore_reach _ _ (by decide) (by rw [selfStore_len]; decide)) _).2 rfl⟩

example {out : SledStore U64 × Except (LR SErr SErr) Unit} (h : MergeSelf Sample.uc Sample.mN Sample.mE selfStore out) :
    iterEdges U64 Sample.uc out.1.db .SPO = [.ok (⟨1, 5, 2⟩, 77), .ok (⟨2, 5, 2⟩, 88)] ∧ out.2 = .ok () := by
  rw [C66_merge (n := 0) (m := 0) (E := SErr) Sample.uc_rt (selfStore_reach _ _ (by rw [selfStore_len]; decide) (by decide))] at h
  subst h
  decide +kernel

example {out : SledStore U64 × Except (LR SErr SErr) Unit} (h : ExtendSelf Sample.uc selfStore out) :
    iterEdges U64 Sample.uc out.1.db .SPO = [.ok (⟨1, 5, 2⟩, 7), .ok (⟨2, 5, 2⟩, 8)] ∧ out.2 = .ok () ∧
      out.1.db.spo.entries ≠ selfStore.db.spo.entries := by
  rw [C66_extend (n := 0) (m := 0) (E := SErr) Sample.uc_rt (selfStore_reach _ _ (by decide) (by rw [selfStore_len]; decide))] at h
  subst h
  decide +kernel

end Verif.Props
