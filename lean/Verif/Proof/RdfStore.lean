import Verif.Spec.Rdf
import Verif.Proof.SledReach
import Verif.Proof.SledRead
import Verif.Proof.SledQuery
import Verif.Proof.MemReach
import Verif.Proof.SledProps
import Verif.Props.Sled

/-! # The two back-ends are triple stores in the sense of the RDF layer -/

namespace Verif

open Spec ConcreteId

variable {NP EP : Type}

theorem Mem.law (mN : NP → NP → NP) (mE : EP → EP → EP) :
    StoreLaw (Mem.impl (Id := Ulid) mN mE) (fun _ => true) (fun _ => true) () mN mE Mem.Ok where
  insertNode h x p := ⟨rfl, Mem.ok_insertNode _ _ _ x p h⟩
  insertEdge h t p := ⟨rfl, Mem.ok_insertEdge _ _ _ t p h⟩
  removeNode h x := ⟨rfl, Mem.ok_removeNode _ _ _ x h⟩
  removeEdge h t := ⟨rfl, Mem.ok_removeEdge _ _ _ t h⟩
  mergeNode h x p := by
    rw [storeMergedNode_total (fun _ => rfl)]
    exact ⟨rfl, Mem.ok_mergeNode mN _ _ _ x p h⟩
  mergeEdge h t p := by
    rw [storeMergedEdge_total (fun _ => rfl)]
    exact ⟨rfl, Mem.ok_mergeEdge mE _ _ _ t p h⟩
  fewer h := h.mono (Nat.le_succ _)
  shows {n s G} h := by
    have := Mem.shows h.inv.toAgree
    rw [h.graph] at this
    exact this
  vertices {n s G} h := ⟨_, rfl, by
    simp only [impl, iterVertices, Mem.vertices, List.map_map]
    rfl⟩
  iterNodes h o := rfl
  intoIterNodes {n s G} h o := Mem.intoIterNodes_eq s o
  intoIterVertices h := rfl
  intoIterEdges h o := by cases o <;> rfl
  props {n s G} h o := by
    have hs := Mem.fullList_spec h.inv.toAgree o
    rw [h.graph] at hs
    show ShowsProps (s.iterEdgesWithProps o) G
    rw [Mem.iterEdgesWithProps_eq]
    refine ⟨?_, fun x => ?_, fun _ e he => ?_⟩
    · rw [List.pairwise_map]
      refine hs.1.imp (fun {a b} hab x y hx hy he => ?_)
      cases hx; cases hy
      rw [he] at hab
      exact edgeLT_irrefl o _ hab
    · rw [← hs.2 x]; simp
    · obtain ⟨_, _, h⟩ := List.mem_map.1 he; cases h
  propsSorted {n s G} h o := by
    have hs := Mem.fullList_spec h.inv.toAgree o
    show (s.iterEdgesWithProps o).Pairwise _
    rw [Mem.iterEdgesWithProps_eq, List.pairwise_map]
    refine hs.1.imp (fun {a b} hab x y hx hy => ?_)
    cases hx; cases hy
    exact hab
  intoProps h o := by cases o <;> rfl

theorem Mem.runLaw (mN : NP → NP → NP) (mE : EP → EP → EP) :
    RunLaw (Mem.impl (Id := Ulid) mN mE) Mem.runImpl Mem.Ok Mem.Ok := by
  intro n m s G g q h hq hg
  refine ⟨_, rfl, ?_⟩
  rw [← h.graph]
  exact Mem.run_spec h.inv m hg q hq

namespace SledStore

variable {c : Codecs NP EP} {n : Nat} {s : SledStore Ulid} {G : Graph Ulid NP EP}

theorem did_one {m : Nat} {F : Bytes → Prop} {r : SledStore Ulid × Except SErr Unit} {o : Option (Graph Ulid NP EP)}
    (h : Good (E := Unit) c n m F (r.1, tag r.2) (one G o)) :
    Did (fun s G => Ok c n m F s G) SErr.serialization G o r := by
  obtain ⟨h1, h2⟩ := h
  obtain ⟨s', res⟩ := r
  cases o with
  | none =>
    refine ⟨?_, h1⟩
    cases res with
    | ok u => cases h2
    | error e => cases h2; rfl
  | some G' =>
    refine ⟨?_, h1⟩
    cases res with
    | ok u => rfl
    | error e => cases h2

theorem vertices_of_iter {d : Db} {l : List (Ulid × NP)} (h : Sled.iterVertices Ulid c d = l.map .ok) :
    Sled.vertices Ulid d = .ok (l.map Prod.fst) := by
  rw [Sled.vertices_ok]
  unfold Sled.iterVertices at h
  generalize d.nodeProps.entries = es at h
  induction es generalizing l with
  | nil => cases l with
    | nil => rfl
    | cons => cases h
  | cons e es ih =>
    cases l with
    | nil => cases h
    | cons x l =>
      simp only [List.map_cons, List.cons.injEq] at h ⊢
      refine ⟨?_, ih h.2⟩
      have h := h.1
      cases hd : Sled.decodeId (Id := Ulid) e.1 with
      | error y => rw [hd] at h; cases h
      | ok k =>
        rw [hd] at h
        dsimp only at h
        cases hv : Sled.deser c.n e.2 with
        | error y => rw [hv] at h; cases h
        | ok v =>
          rw [hv] at h
          cases h
          unfold Sled.decodeId at hd
          rcases Sled.node_cases (Id := Ulid) e.1 with ⟨m, hm⟩ | ⟨-, hn⟩
          · rw [hm, LawfulId.try_toBe] at hd; cases hd; exact hm
          · rw [hn] at hd; cases hd

theorem propsItem_ok (x : Triple Ulid × EP) (y : PropsTriple Ulid NP EP) (hy : propsItem G x = .ok y) :
    y.toTriple = x.1 ∧ y.pred.2 = x.2 ∧ G.nodes x.1.sub = some y.sub.2 ∧ G.nodes x.1.obj = some y.obj.2 := by
  unfold propsItem at hy
  cases ha : G.nodes x.1.sub with
  | none => rw [ha] at hy; cases hy
  | some a =>
    rw [ha] at hy
    cases hb : G.nodes x.1.obj with
    | none => rw [hb] at hy; cases hy
    | some b => rw [hb] at hy; cases hy; exact ⟨rfl, rfl, rfl, rfl⟩

/-- `F` are ids kept for others -/
theorem lawF {m : Nat} (F : Bytes → Prop) (hc : c.RoundTrip) (mN : NP → NP → NP) (mE : EP → EP → EP) :
    StoreLaw (impl (Id := Ulid) c mN mE) c.okN c.okE .serialization mN mE
      (fun n s G => Ok c n m F s G) where
  insertNode h x p := did_one (good_insertNode hc h x p)
  insertEdge h t p := did_one (good_insertEdge hc h t p)
  removeNode h x := did_one (good_removeNode h x)
  removeEdge h t := did_one (good_removeEdge h t)
  mergeNode h x p := did_one (good_mergeNode hc h mN x p)
  mergeEdge h t p := did_one (good_mergeEdge hc h mE t p)
  fewer h := h.mono (Nat.le_succ _) (Nat.le_refl _)
  shows h := h.shows
  vertices {n s G} h := by
    obtain ⟨l, h1, -⟩ := Sled.iterVertices_lists h.inv.nodes
    have h1' : (impl (Id := Ulid) c mN mE).iterVertices s = l.map .ok := h1
    exact ⟨l.map Prod.fst, vertices_of_iter h1, by rw [h1', List.map_map, List.map_map]; rfl⟩
  iterNodes h o := rfl
  intoIterNodes {n s G} h o := (Props.C23_sled c s.db o).1
  intoIterVertices h := rfl
  intoIterEdges {n s G} h o := (Props.C23_sled c s.db o).2.2.1
  props {n s G} h o := by
    obtain ⟨l, -, h2, h3⟩ := Sled.iterEdgesWithProps_map h.inv o
    rw [h.graph] at h2 h3
    show ShowsProps (Sled.iterEdgesWithProps Ulid c s.db o) G
    rw [h3]
    have key := propsItem_ok (G := G)
    refine ⟨?_, fun x => ?_, fun hno e he => ?_⟩
    · rw [List.pairwise_map]
      refine h2.1.imp (fun {a b} hab x y hx hy he => ?_)
      rw [(key _ _ hx).1, (key _ _ hy).1] at he
      rw [he] at hab
      exact edgeLT_irrefl o _ hab
    · rw [List.mem_map]
      constructor
      · rintro ⟨a, ha, hx⟩
        obtain ⟨k1, k2, k3, k4⟩ := key _ _ hx
        have := (h2.2 a.1 a.2).1 ha
        rw [k1, k2, this]
        rw [← k1] at k3 k4
        exact ⟨k3, rfl, k4⟩
      · rintro ⟨h1, h4, h5⟩
        refine ⟨(x.toTriple, x.pred.2), (h2.2 _ _).2 h4, ?_⟩
        unfold propsItem
        simp only [PropsTriple.toTriple, h1, h5]
    · obtain ⟨a, ha, hx⟩ := List.mem_map.1 he
      have := hno a.1 a.2 ((h2.2 a.1 a.2).1 ha)
      unfold propsItem at hx
      obtain ⟨y, hy⟩ := Option.isSome_iff_exists.1 this.1
      obtain ⟨z, hz⟩ := Option.isSome_iff_exists.1 this.2
      rw [hy, hz] at hx
      cases hx
  propsSorted {n s G} h o := by
    obtain ⟨l, -, h2, h3⟩ := Sled.iterEdgesWithProps_map h.inv o
    rw [h.graph] at h2 h3
    show (Sled.iterEdgesWithProps Ulid c s.db o).Pairwise _
    rw [h3, List.pairwise_map]
    refine h2.1.imp (fun {a b} hab x y hx hy => ?_)
    rw [(propsItem_ok _ _ hx).1, (propsItem_ok _ _ hy).1]
    exact hab
  intoProps {n s G} h o := (Props.C23_sled c s.db o).2.2.2.1

theorem law {m : Nat} (hc : c.RoundTrip) (mN : NP → NP → NP) (mE : EP → EP → EP) :
    StoreLaw (impl (Id := Ulid) c mN mE) c.okN c.okE .serialization mN mE
      (fun n s G => Ok c n m (fun _ => False) s G) := lawF _ hc mN mE

theorem runLawF {k : Nat} (F : Bytes → Prop) (hc : c.RoundTrip) (mN : NP → NP → NP) (mE : EP → EP → EP) :
    RunLaw (impl (Id := Ulid) c mN mE) (runImpl c) (fun n s G => Ok c n k F s G) Mem.Ok := by
  intro n m s G g q h hq hg
  obtain ⟨r, h1, h2⟩ := Sled.run_spec (g := g) h.inv m (by
    rw [← Sled.edgeCount_eq (Id := Ulid) c]; exact hg) q hq
  refine ⟨r, h1, ?_⟩
  rw [← h.graph]
  exact h2

theorem runLaw {k : Nat} (hc : c.RoundTrip) (mN : NP → NP → NP) (mE : EP → EP → EP) :
    RunLaw (impl (Id := Ulid) c mN mE) (runImpl c) (fun n s G => Ok c n k (fun _ => False) s G) Mem.Ok :=
  runLawF _ hc mN mE

end SledStore

end Verif
