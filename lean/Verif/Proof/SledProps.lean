import Verif.Spec.SledLeak
import Verif.Proof.SledReach

/-! # iter_edges_with_props on a consistent sled database -/

set_option linter.unusedSectionVars false

namespace Verif

open Spec ConcreteId

variable {Id NP EP : Type} [LinearOrder Id] [ConcreteId Id] [LawfulId Id]

namespace Sled

open Db

theorem getNode_ok {c : Codecs NP EP} {d : Db} (h : d.NodesOk Id c) (n : Id) :
    getData c.n d.nodeProps (toBeBytes n).1 = .ok ((d.graph (Id := Id) c).nodes n) := by
  cases hn : d.nodeProps.get (toBeBytes n).1 with
  | none => rw [getData_none hn]; simp [graph, hn]
  | some b =>
    obtain ⟨_, p, hp⟩ := h _ b hn
    rw [getData_some hn hp]; simp [graph, hn, hp]

theorem iterEdgesWithProps_map {c : Codecs NP EP} {d : Db} (h : d.Inv Id c) (o : EdgeOrder) :
    ∃ l : List (Triple Id × EP), iterEdges Id c d o = l.map .ok ∧ Lists (edgeLT o) (d.graph (Id := Id) c).edges l ∧
      iterEdgesWithProps Id c d o = l.map (propsItem (d.graph c)) := by
  obtain ⟨l, h1, h2⟩ := iterEdges_lists (h.keys o) (h.recsAll o)
  refine ⟨l, h1, ⟨h2.1, fun t p => by rw [h2.2, h.toAgree.view_eq]; rfl⟩, ?_⟩
  have key : ∀ e ∈ (d.tree o).entries, ∃ x : Triple Id × EP,
      (match decodeEntry (Id := Id) (decOf o) e with
        | .error x => .error x
        | .ok (t, v) =>
          match getData c.e d.edgeProps v with
          | .error x => .error x
          | .ok (some p) => .ok (t, p)
          | .ok none => .error .missing) = (.ok x : Except SErr (Triple Id × EP)) ∧
      (match decodeEntry (Id := Id) (decOf o) e with
        | .error e => .error e
        | .ok (t, v) => iterImpl c d t v) = propsItem (d.graph c) x := by
    rintro ⟨k, v⟩ he
    rw [BMap.mem_entries] at he
    obtain ⟨t, rfl⟩ := h.keys o k v he
    obtain ⟨b, p, hb, hp⟩ := h.recsAll o _ v he
    refine ⟨(t, p), ?_, ?_⟩
    · rw [decodeEntry_enc]; simp only [getData_some hb hp]
    · rw [decodeEntry_enc]
      simp only [iterImpl, getNode_ok h.nodes, getData_some hb hp, propsItem]
      cases (d.graph (Id := Id) c).nodes t.sub <;> cases (d.graph (Id := Id) c).nodes t.obj <;> rfl
  unfold iterEdges at h1
  unfold iterEdgesWithProps
  rw [orderedEdges_eq, List.map_map] at h1 ⊢
  generalize (d.tree o).entries = es at key h1
  clear h2
  induction es generalizing l with
  | nil =>
    cases l with
    | nil => rfl
    | cons a l => cases h1
  | cons e es ih =>
    cases l with
    | nil => cases h1
    | cons a l =>
      rw [List.map_cons, List.map_cons, List.cons.injEq] at h1
      obtain ⟨x, hx1, hx2⟩ := key e (by simp)
      have ha : (.ok x : Except SErr (Triple Id × EP)) = .ok a := hx1.symm.trans h1.1
      cases ha
      rw [List.map_cons, List.map_cons, ih l (fun e he => key e (List.mem_cons_of_mem _ he)) h1.2]
      congr 1

end Sled

/-- the consuming iterators yield what the borrowing ones do -/
theorem Sled.intoIterNodes_eq (c : Codecs NP EP) (d : Db) (o : EdgeOrder) :
    Sled.intoIterNodes (Id := Id) c d o = Sled.iterNodes c d o := by
  have key : ∀ l : List (Except SErr (Triple Id × Bytes)), (l.map (fun
      | .error e => .error e
      | .ok (t, v) =>
        match d.edgeProps.get v with
        | none => .error .missing
        | some b =>
          match Sled.deser c.e b with
          | .error e => .error e
          | .ok p => .ok (t, p))) = (l.map (fun
      | .error e => .error e
      | .ok (t, v) =>
        match Sled.getData c.e d.edgeProps v with
        | .error e => .error e
        | .ok (some p) => .ok (t, p)
        | .ok none => .error .missing) : List (Except SErr (Triple Id × EP))) := by
    intro l
    refine List.map_congr_left (fun x _ => ?_)
    rcases x with e | ⟨t, v⟩
    · rfl
    · simp only [Sled.getData, Sled.deser]
      cases d.edgeProps.get v with
      | none => rfl
      | some b =>
        simp only
        cases c.e.de b <;> rfl
  unfold Sled.intoIterNodes Sled.iterNodes
  congr 1
  cases o <;> exact key _

end Verif
