import Verif.Proof.Conformance
import Verif.Proof.SledHist

/-! # The two back-ends are lawful; the tests of the set operations pass -/

namespace Verif.Conformance

open Spec

variable {NP EP : Type} (mN : NP → NP → NP) (mE : EP → EP → EP)

/-- folding `merge` over the entries of an error-free source -/
theorem merge_apply {X : Type} {src : Source X Ulid NP EP} {H : Graph Ulid NP EP} (hr : Represents src H) (G : Graph Ulid NP EP) :
    (Op.merge src : Op X Ulid NP EP).apply mN mE G = G.mergeWith mN mE H := by
  obtain ⟨⟨ln, hln, hnn, hmn⟩, ⟨le, hle, hne, hme⟩⟩ := hr
  simp only [Op.apply, Source.edgePrefix, Source.nodePrefix, hln, hle, Mem.firstErr_map_ok, Mem.okPrefix_map_ok]
  rw [foldl_mergeNode mN hnn, foldl_mergeEdge mE hne]
  refine Graph.ext' (fun m => ?_) (fun t => ?_)
  · simp [Graph.mergeWith, alGet_eq_of_lists hnn hmn]
  · simp [Graph.mergeWith, alGet_eq_of_lists hne hme]

theorem extend_apply {X : Type} {src : Source X Ulid NP EP} {H : Graph Ulid NP EP} (hr : Represents src H) (G : Graph Ulid NP EP) :
    (Op.extend src : Op X Ulid NP EP).apply mN mE G = G.overlay H := by
  obtain ⟨⟨ln, hln, hnn, hmn⟩, ⟨le, hle, hne, hme⟩⟩ := hr
  simp only [Op.apply, Source.edgePrefix, Source.nodePrefix, hln, hle, Mem.firstErr_map_ok, Mem.okPrefix_map_ok]
  rw [foldl_insertNode hnn, foldl_insertEdge hne]
  refine Graph.ext' (fun m => ?_) (fun t => ?_)
  · simp [Graph.overlay, alGet_eq_of_lists hnn hmn]
  · simp [Graph.overlay, alGet_eq_of_lists hne hme]

theorem firstErr_none {X : Type} {src : Source X Ulid NP EP} {H : Graph Ulid NP EP} (hr : Represents src H) :
    Source.firstErr src = none := by
  obtain ⟨⟨ln, hln, -, -⟩, ⟨le, hle, -, -⟩⟩ := hr
  rw [Source.firstErr, hln, hle, Mem.firstErr_map_ok, Mem.firstErr_map_ok]; rfl

theorem mem_law : Law (mem mN mE) mN mE () () (fun n _ => Mem.Ok n) Mem.Ok where
  store _ := Mem.law mN mE
  query := Mem.law mN mE
  run _ := Mem.runLaw mN mE
  extend h hr := Mem.extend_ok h hr
  merge {n m s G H src} h hr := by
    constructor
    · show (s.merge mN mE src).2 = _
      rw [Mem.merge_eq, firstErr_none hr]
    · rw [← merge_apply mN mE hr G]
      exact Mem.ok_apply mN mE n s G (.merge src) h

theorem sled_law {c : Codecs NP EP} (hc : c.RoundTrip) (ht : c.Total) :
    Law (sled c mN mE) mN mE .serialization () (fun n m => SledStore.Ok c n m (fun _ => False)) Mem.Ok where
  store m := by
    have h1 : c.okN = fun _ => true := funext ht.1
    have h2 : c.okE = fun _ => true := funext ht.2
    have := SledStore.law (m := m) hc mN mE
    rw [h1, h2] at this
    exact this
  query := Mem.law mN mE
  run _ := SledStore.runLaw hc mN mE
  extend {n m s G H src} h hr := by
    obtain ⟨h1, h2⟩ := SledStore.good_call (n := n) hc mN mE (.extend src) (h.mono (Nat.le_add_right _ _) le_rfl)
    refine ⟨h2.trans ?_, ?_⟩
    · rw [Op.step, both_total (gN := fun G x => G.insertNode x.1 x.2) (gE := fun G x => G.insertEdge x.1 x.2)
        (fun G x => by simp [storeNode, Codecs.okN, ht.1]) (fun G x => by simp [storeEdge, Codecs.okE, ht.2]), firstErr_none hr]
      rfl
    · rw [step_total (okN := c.okN) (okE := c.okE) ht.1 ht.2, extend_apply mN mE hr] at h1
      exact h1
  merge {n m s G H src} h hr := by
    obtain ⟨h1, h2⟩ := SledStore.good_call (n := n) (m := m) hc mN mE (.merge src) h
    refine ⟨h2.trans ?_, ?_⟩
    · rw [Op.step, both_total (fun G x => storeMergedNode_total (okN := c.okN) ht.1 mN G x.1 x.2)
        (fun G x => storeMergedEdge_total (okE := c.okE) ht.2 mE G x.1 x.2), firstErr_none hr]
      rfl
    · rw [step_total (okN := c.okN) (okE := c.okE) ht.1 ht.2, merge_apply mN mE hr] at h1
      exact h1

/-! ## src/conformance/set.rs -/

/-- the graphs of the two operands -/
def leftGraph (c : SConfig NP EP) : Graph Ulid NP EP :=
  [c.eL1L2, c.eL1M1, c.eM1M2, c.eM2L2].foldl (fun G x => G.insertEdge x.1 x.2)
    ([c.l1, c.l2, c.m1, c.m2].foldl (fun G x => G.insertNode x.1 x.2) Graph.empty)

def rightGraph (c : SConfig NP EP) : Graph Ulid NP EP :=
  [c.eR1R2, c.eM1R1, c.eM1M2, c.eR2M2].foldl (fun G x => G.insertEdge x.1 x.2)
    ([c.r1, c.r2, c.m1, c.m2].foldl (fun G x => G.insertNode x.1 x.2) Graph.empty)

variable {c : SConfig NP EP} {mN mE}

section
variable (hc : c.Increasing)
include hc

theorem left_nodes (x : Ulid) (p : NP) : (leftGraph c).nodes x = some p ↔ (x, p) ∈ [c.l1, c.l2, c.m1, c.m2] := by
  obtain ⟨h1, h2, h3, h4, h5, -, -⟩ := hc
  rcases c with ⟨⟨l1, l1p⟩, ⟨l2, l2p⟩, ⟨m1, m1p⟩, ⟨m2, m2p⟩, ⟨r1, r1p⟩, ⟨r2, r2p⟩, p7, p8, p9, gp, hp, ip, jp, kp, lp, mp⟩
  simp only at h1 h2 h3 h4 h5
  simp only [leftGraph, List.foldl, Graph.insertEdge, Graph.insertNode, Graph.empty]
  grind

theorem right_nodes (x : Ulid) (p : NP) : (rightGraph c).nodes x = some p ↔ (x, p) ∈ [c.m1, c.m2, c.r1, c.r2] := by
  obtain ⟨h1, h2, h3, h4, h5, -, -⟩ := hc
  rcases c with ⟨⟨l1, l1p⟩, ⟨l2, l2p⟩, ⟨m1, m1p⟩, ⟨m2, m2p⟩, ⟨r1, r1p⟩, ⟨r2, r2p⟩, p7, p8, p9, gp, hp, ip, jp, kp, lp, mp⟩
  simp only at h1 h2 h3 h4 h5
  simp only [rightGraph, List.foldl, Graph.insertEdge, Graph.insertNode, Graph.empty]
  grind

theorem left_edges (t : Triple Ulid) (p : EP) :
    (leftGraph c).edges t = some p ↔ (t, p) ∈ [c.eL1L2, c.eL1M1, c.eM1M2, c.eM2L2] := by
  obtain ⟨h1, h2, h3, h4, h5, -, -⟩ := hc
  rcases c with ⟨⟨l1, l1p⟩, ⟨l2, l2p⟩, ⟨m1, m1p⟩, ⟨m2, m2p⟩, ⟨r1, r1p⟩, ⟨r2, r2p⟩, p7, p8, p9, gp, hp, ip, jp, kp, lp, mp⟩
  simp only at h1 h2 h3 h4 h5
  simp only [leftGraph, List.foldl, Graph.insertEdge, Graph.insertNode, Graph.empty, SConfig.eL1L2, SConfig.eL1M1, SConfig.eM1M2,
    SConfig.eM2L2]
  grind

theorem right_edges (t : Triple Ulid) (p : EP) :
    (rightGraph c).edges t = some p ↔ (t, p) ∈ [c.eM1M2, c.eM1R1, c.eR1R2, c.eR2M2] := by
  obtain ⟨h1, h2, h3, h4, h5, -, -⟩ := hc
  rcases c with ⟨⟨l1, l1p⟩, ⟨l2, l2p⟩, ⟨m1, m1p⟩, ⟨m2, m2p⟩, ⟨r1, r1p⟩, ⟨r2, r2p⟩, p7, p8, p9, gp, hp, ip, jp, kp, lp, mp⟩
  simp only at h1 h2 h3 h4 h5
  simp only [rightGraph, List.foldl, Graph.insertEdge, Graph.insertNode, Graph.empty, SConfig.eR1R2, SConfig.eM1R1, SConfig.eM1M2,
    SConfig.eR2M2]
  grind

end

theorem setup_left {n : Nat} {s : Mem Ulid NP EP} (h : Mem.Ok (n + 4) s Graph.empty) :
    Passes (setupLeft (mem mN mE) c s) (fun s => Mem.Ok n s (leftGraph c)) :=
  ((mem_law mN mE).insertNodes (m := 0) h _).bind fun _ h => (mem_law mN mE).insertEdges (m := 0) _ h

theorem setup_right {n : Nat} {s : Mem Ulid NP EP} (h : Mem.Ok (n + 4) s Graph.empty) :
    Passes (setupRight (mem mN mE) c s) (fun s => Mem.Ok n s (rightGraph c)) :=
  ((mem_law mN mE).insertNodes (m := 0) h _).bind fun _ h => (mem_law mN mE).insertEdges (m := 0) _ h

theorem left_nodup (hc : c.Increasing) : [c.eL1L2, c.eL1M1, c.eM1M2, c.eM2L2].Nodup := by
  obtain ⟨h1, h2, h3, h4, h5, -, -⟩ := hc
  simp [SConfig.eL1L2, SConfig.eL1M1, SConfig.eM1M2, SConfig.eM2L2]
  grind

theorem right_nodup (hc : c.Increasing) : [c.eM1M2, c.eM1R1, c.eR1R2, c.eR2M2].Nodup := by
  obtain ⟨h1, h2, h3, h4, h5, -, -⟩ := hc
  simp [SConfig.eR1R2, SConfig.eM1R1, SConfig.eM1M2, SConfig.eR2M2]
  grind

/-- the tests, for an operation that computes the graph `D` -/
theorem set_test [DecidableEq NP] [DecidableEq EP] {l r : Mem Ulid NP EP} (hl : Mem.Ok 4 l Graph.empty) (hr : Mem.Ok 4 r Graph.empty)
    {g : Gen Ulid} {op : Mem Ulid NP EP → Gen Ulid → Source Unit Ulid NP EP → Except (SetErr Unit Unit Unit) (Mem Ulid NP EP)}
    {nodes : List (Ulid × NP)} {edges : List (Triple Ulid × EP)} (hc : c.Increasing) (hop : ∀ s src, Mem.Ok 0 s (leftGraph c) →
      RepresentsSorted src (rightGraph c) → s.edgeCount = 4 → src.edges.length = 4 →
      ∃ r D, op s g src = .ok r ∧ Mem.Ok 0 r D ∧ Lists (· < ·) D.nodes nodes ∧ Lists (edgeLT .SPO) D.edges edges) :
    testSet (mem mN mE) c g l r op nodes edges = some () := by
  refine Passes.done (P := fun _ => True) ?_
  refine (setup_left (n := 0) hl).bind fun l hl => ?_
  refine (setup_right (n := 0) hr).bind fun r hr => ?_
  have h4 : ((mem mN mE).st.intoIterNodes r .SPO).edges.length = 4 :=
    count_edges (m := 0) (mem_law mN mE) hr (right_nodup hc) (right_edges hc)
  have h4' : l.edgeCount = 4 := count_edges (m := 0) (mem_law mN mE) hl (left_nodup hc) (left_edges hc)
  obtain ⟨res, D, e, hres, hn, he⟩ := hop l _ hl (into_source ((mem_law mN mE).store 0) hr) h4' h4
  rw [e]
  refine Passes.bind (P := (· = res)) ⟨res, rfl, rfl⟩ fun _ e => ?_
  subst e
  obtain ⟨⟨ln, e1, hn'⟩, ⟨le, e2, he'⟩⟩ := into_source ((mem_law mN mE).store 0) hres
  refine Passes.bind (P := (· = ln)) ⟨ln, (congrArg expectAll e1).trans (expectAll_map ln), rfl⟩ fun _ e => ?_
  subst e
  refine (passes_assert (lists_unique_nodes hn' hn)).bind fun _ _ => ?_
  refine Passes.bind (P := (· = le)) ⟨le, (congrArg expectAll e2).trans (expectAll_map le), rfl⟩ fun _ e => ?_
  subst e
  exact passes_assert (lists_unique_edges he' he)

theorem isSome_iff_mem {K V : Type} {f : K → Option V} {l : List (K × V)} (h : ∀ k v, f k = some v ↔ (k, v) ∈ l) (k : K) :
    (f k).isSome ↔ k ∈ l.map Prod.fst := by
  rw [Option.isSome_iff_exists, List.mem_map]
  exact ⟨fun ⟨v, hv⟩ => ⟨(k, v), (h _ _).1 hv, rfl⟩, fun ⟨x, hx, e⟩ => ⟨x.2, (h _ _).2 (e ▸ hx)⟩⟩

theorem union_test [DecidableEq NP] [DecidableEq EP] (hc : c.Increasing) {l r : Mem Ulid NP EP} (hl : Mem.Ok 4 l Graph.empty)
    (hr : Mem.Ok 4 r Graph.empty) {g : Gen Ulid} (hg : Fresh 8 g) : testUnion (mem mN mE) c g l r = some () := by
  refine set_test hl hr hc fun s src hs hsrc h4 h4' => ?_
  obtain ⟨r', h1', h2'⟩ := Mem.union_spec hs.inv.toAgree hsrc.represents 0 (g := g) (by rw [h4, h4']; exact hg)
  refine ⟨r', _, h1', h2', ⟨?_, fun x p => ?_⟩, ⟨?_, fun t p => ?_⟩⟩
  · obtain ⟨h1, h2, h3, h4, h5, -, -⟩ := hc
    simp; grind
  · rw [hs.graph]
    obtain ⟨h1, h2, h3, h4, h5, -, -⟩ := hc
    clear h2' h1' hs hsrc hg hl hr
    rcases c with ⟨⟨l1, l1p⟩, ⟨l2, l2p⟩, ⟨m1, m1p⟩, ⟨m2, m2p⟩, ⟨r1, r1p⟩, ⟨r2, r2p⟩, p7, p8, p9, gp, hp, ip, jp, kp, lp, mp⟩
    simp only at h1 h2 h3 h4 h5
    simp only [leftGraph, rightGraph, List.foldl, Graph.insertEdge, Graph.insertNode, Graph.empty, SConfig.eL1L2, SConfig.eL1M1, SConfig.eM1M2, SConfig.eM2L2, SConfig.eR1R2, SConfig.eM1R1, SConfig.eR2M2, Graph.overlay]
    repeat' split
    all_goals try simp only [Option.some_or, Option.none_or]
    all_goals grind
  · obtain ⟨h1, h2, h3, h4, h5, h6, h7⟩ := hc
    simp [edgeLT, lex3, SConfig.eL1L2, SConfig.eL1M1, SConfig.eM1M2, SConfig.eM2L2, SConfig.eR1R2, SConfig.eM1R1, SConfig.eM1M2, SConfig.eR2M2]
    grind
  · rw [hs.graph]
    have hno : ∀ t ∈ [c.eL1L2, c.eL1M1, c.eM2L2], (rightGraph c).edges t.1 = none := by
      intro t ht
      have := isSome_iff_mem (right_edges hc) t.1
      rw [← Option.not_isSome_iff_eq_none, this]
      clear this h2' h1'
      obtain ⟨h1, h2, h3, h4, h5, -, -⟩ := hc
      simp only [List.mem_cons, List.not_mem_nil, or_false] at ht
      rcases ht with rfl | rfl | rfl <;>
        simp [SConfig.eL1L2, SConfig.eL1M1, SConfig.eM2L2, SConfig.eR1R2, SConfig.eM1R1, SConfig.eM1M2, SConfig.eR2M2] <;> grind
    simp only [Graph.overlay, Option.or_eq_some_iff, left_edges hc, right_edges hc]
    constructor
    · intro hm
      by_cases h : (t, p) ∈ [c.eM1M2, c.eM1R1, c.eR1R2, c.eR2M2]
      · exact .inl h
      · have hm' : (t, p) ∈ [c.eL1L2, c.eL1M1, c.eM2L2] := by
          simp only [List.mem_cons, List.not_mem_nil, or_false] at hm h ⊢; tauto
        refine .inr ⟨hno _ hm', ?_⟩
        simp only [List.mem_cons, List.not_mem_nil, or_false] at hm' ⊢; tauto
    · simp only [List.mem_cons, List.not_mem_nil, or_false]; tauto

theorem intersection_test [DecidableEq NP] [DecidableEq EP] (hc : c.Increasing) {l r : Mem Ulid NP EP} (hl : Mem.Ok 4 l Graph.empty)
    (hr : Mem.Ok 4 r Graph.empty) {g : Gen Ulid} (hg : Fresh 4 g) : testIntersection (mem mN mE) c g l r = some () := by
  refine set_test hl hr hc fun s src hs hsrc h4 h4' => ?_
  obtain ⟨r', h1', h2'⟩ := Mem.intersection_spec hs.inv.toAgree hsrc 0 (g := g) (by rw [h4]; exact hg)
  refine ⟨r', _, h1', h2', ⟨?_, fun x p => ?_⟩, ⟨?_, fun t p => ?_⟩⟩
  · obtain ⟨h1, h2, h3, h4, h5, -, -⟩ := hc
    simp; grind
  · rw [hs.graph]
    obtain ⟨h1, h2, h3, h4, h5, -, -⟩ := hc
    clear h2' h1' hs hsrc hg hl hr
    rcases c with ⟨⟨l1, l1p⟩, ⟨l2, l2p⟩, ⟨m1, m1p⟩, ⟨m2, m2p⟩, ⟨r1, r1p⟩, ⟨r2, r2p⟩, p7, p8, p9, gp, hp, ip, jp, kp, lp, mp⟩
    simp only at h1 h2 h3 h4 h5
    simp only [leftGraph, rightGraph, List.foldl, Graph.insertEdge, Graph.insertNode, Graph.empty, SConfig.eL1L2, SConfig.eL1M1, SConfig.eM1M2, SConfig.eM2L2, SConfig.eR1R2, SConfig.eM1R1, SConfig.eR2M2, Graph.inter]
    grind
  · simp
  · rw [hs.graph]
    obtain ⟨h1, h2, h3, h4, h5, -, -⟩ := hc
    clear h2' h1' hs hsrc hg hl hr
    rcases c with ⟨⟨l1, l1p⟩, ⟨l2, l2p⟩, ⟨m1, m1p⟩, ⟨m2, m2p⟩, ⟨r1, r1p⟩, ⟨r2, r2p⟩, p7, p8, p9, gp, hp, ip, jp, kp, lp, mp⟩
    simp only at h1 h2 h3 h4 h5
    simp only [leftGraph, rightGraph, List.foldl, Graph.insertEdge, Graph.insertNode, Graph.empty, SConfig.eL1L2, SConfig.eL1M1, SConfig.eM1M2, SConfig.eM2L2, SConfig.eR1R2, SConfig.eM1R1, SConfig.eR2M2, Graph.inter]
    grind

theorem difference_test [DecidableEq NP] [DecidableEq EP] (hc : c.Increasing) {l r : Mem Ulid NP EP} (hl : Mem.Ok 4 l Graph.empty)
    (hr : Mem.Ok 4 r Graph.empty) {g : Gen Ulid} (hg : Fresh 4 g) : testDifference (mem mN mE) c g l r = some () := by
  refine set_test hl hr hc fun s src hs hsrc h4 h4' => ?_
  obtain ⟨r', D, h1', hD, h2'⟩ := Mem.difference_spec hs.inv.toAgree hsrc 0 (g := g) (by rw [h4]; exact hg)
  rw [hs.graph] at hD
  refine ⟨r', _, h1', h2', ⟨?_, fun x p => ?_⟩, ⟨?_, fun t p => ?_⟩⟩
  · obtain ⟨h1, h2, h3, h4, h5, -, -⟩ := hc
    simp; grind
  · rw [hD.nodes]
    obtain ⟨h1, h2, h3, h4, h5, -, -⟩ := hc
    clear h1' h2' hD hs hsrc hg hl hr
    rcases c with ⟨⟨l1, l1p⟩, ⟨l2, l2p⟩, ⟨m1, m1p⟩, ⟨m2, m2p⟩, ⟨r1, r1p⟩, ⟨r2, r2p⟩, p7, p8, p9, gp, hp, ip, jp, kp, lp, mp⟩
    simp only at h1 h2 h3 h4 h5
    simp only [leftGraph, rightGraph, List.foldl, Graph.insertEdge, Graph.insertNode, Graph.empty]
    grind
  · simp
  · rw [hD.edges]
    have hm1 : ((rightGraph c).nodes c.m1.1).isSome := (isSome_iff_mem (right_nodes hc) _).2 (by simp)
    have hm2 : ((rightGraph c).nodes c.m2.1).isSome := (isSome_iff_mem (right_nodes hc) _).2 (by simp)
    have gm1 : ((leftGraph c).nodes c.m1.1).isSome := (isSome_iff_mem (left_nodes hc) _).2 (by simp)
    have gm2 : ((leftGraph c).nodes c.m2.1).isSome := (isSome_iff_mem (left_nodes hc) _).2 (by simp)
    have hlast : ((rightGraph c).edges c.eR2M2.1).isSome := (isSome_iff_mem (right_edges hc) _).2 (by simp)
    have nl1 := isSome_iff_mem (right_nodes hc) c.l1.1
    have nl2 := isSome_iff_mem (right_nodes hc) c.l2.1
    have hno : (rightGraph c).edges c.eL1L2.1 = none := by
      have := isSome_iff_mem (right_edges hc) c.eL1L2.1
      obtain ⟨h1, h2, h3, h4, h5, -, -⟩ := hc
      rw [← Option.not_isSome_iff_eq_none, this]
      simp [SConfig.eL1L2, SConfig.eR1R2, SConfig.eM1R1, SConfig.eM1M2, SConfig.eR2M2]
      grind
    rw [left_edges hc]
    symm
    constructor
    · rintro ⟨hmem, hn, h⟩
      simp only [List.mem_cons, List.not_mem_nil, or_false] at hmem ⊢
      have hbelow : ∀ t ∈ [c.eL1M1, c.eM2L2], ¬ edgeLT .SPO c.eR2M2.1 t.1 := by
        obtain ⟨h1, h2, h3, h4, h5, -, -⟩ := hc
        simp [edgeLT, lex3, SConfig.eL1M1, SConfig.eM2L2, SConfig.eR2M2]
        grind
      rcases hmem with e | e | e | e
      · exact e
      · cases e
        rcases h with h | h
        · exact absurd (h _ hlast) (hbelow c.eL1M1 (by simp))
        · exact absurd ⟨hm1, _, gm1, le_rfl⟩ (h c.m1.1 (.inr rfl))
      · cases e
        have := (isSome_iff_mem (right_edges hc) c.eM1M2.1).2 (by simp)
        have hn' : (rightGraph c).edges c.eM1M2.1 = none := hn
        rw [hn'] at this; cases this
      · cases e
        rcases h with h | h
        · exact absurd (h _ hlast) (hbelow c.eM2L2 (by simp))
        · exact absurd ⟨hm2, _, gm2, le_rfl⟩ (h c.m2.1 (.inl rfl))
    · intro hmem
      simp only [List.mem_cons, List.not_mem_nil, or_false] at hmem
      cases hmem
      refine ⟨List.mem_cons_self, hno, .inr fun n hn ⟨h, _⟩ => ?_⟩
      obtain ⟨h1, h2, h3, h4, h5, -, -⟩ := hc
      rcases hn with rfl | rfl
      · have := nl1.1 h
        simp at this; grind
      · have := nl2.1 h
        simp at this; grind

end Verif.Conformance
