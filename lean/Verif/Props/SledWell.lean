import Verif.Proof.SledWell
import Verif.Proof.SledReading
import Verif.Props.SledLazy

/-!
# C57: what is stored is always well-formed

No matter what is called concurrently, where calls crash, and whether ids are drawn twice.
-/

namespace Verif.Props

open Verif Spec Sled ConcreteId

variable {Id NP EP E : Type} [LinearOrder Id] [ConcreteId Id] [LawfulId Id] {c : Codecs NP EP} {mN : NP → NP → NP}
  {mE : EP → EP → EP}

omit [LawfulId Id] in
/-- At every moment of every execution of any threads the contents are well-formed: no assumption on ids, nor on what the scans of
`remove_node` have read. -/
theorem C57_moments (hc : c.RoundTrip) {d0 d : Db} {threads : List (List (Call E Id NP EP))} (h0 : WellFormed Id c d0)
    (h : Moment c mN mE d0 threads d) : WellFormed Id c d := by
  obtain ⟨rest, h⟩ := h
  refine (steps_framed (J := WellFormed Id c) (loc := fun _ => ()) (R := fun _ _ => True) (threads := threads) h0
    (left_start _ _ (fun th _ x _ => ?_)) h).1
  rw [Call.prog_eq]
  exact (Call.result_framed hc mN mE x).bind (fun _ _ => trivial)

omit [LawfulId Id] in
/-- Whatever a call returns in such an execution is success, an error of its source, or `SerializationError` because some value cannot
be serialized: there is no `KeySizeError`, no `MissingPropertyData`, and nothing stored fails to be deserialized. -/
theorem C57_results (hc : c.RoundTrip) {d0 d : Db} {threads : List (List (Call E Id NP EP))} (h0 : WellFormed Id c d0)
    (hs : ScansSized threads) {pre post : List (List (Prog Db (Except (LR SErr E) Unit)))} {r : Except (LR SErr E) Unit}
    {q : List (Prog Db (Except (LR SErr E) Unit))}
    (h : Steps (d0, threads.map (List.map (Call.result c mN mE))) (d, pre ++ (.ret r :: q) :: post)) :
    ∃ th x later, threads[pre.length]? = some th ∧ x :: later <:+ th ∧ later.length = q.length ∧ x.Returns c r := by
  refine left_ret (J := WellFormed Id c) (loc := fun _ => ()) (steps_framed h0 (left_start _ _ (fun th hth x hx => ?_)) h).2
  exact Call.result_keeps hc mN mE x (fun n fwd bwd e => hs th hth n fwd bwd (e ▸ hx))

omit [LawfulId Id] in
/-- A crash, or a storage error, anywhere in any call leaves the contents well-formed. -/
theorem C57_crash (hc : c.RoundTrip) {s : SledStore Id} (h : WellFormed Id c s.db) (op : Op E Id NP EP) :
    ∀ d ∈ s.crashStates c mN mE op, WellFormed Id c d := h.crash hc op

omit [LawfulId Id] in
/-- A store created on an empty database, after any history of calls, whatever the generator returns. -/
theorem C57_history (hc : c.RoundTrip) (g : Gen Id) (u : Gen Ulid) (h : List (Op E Id NP EP)) :
    WellFormed Id c ((SledStore.new Db.empty g u).applyAll c mN mE h).db := WellFormed.empty.applyAll hc h

/-- Reading well-formed contents: `vertices` and `iter_vertices` succeed, the only error of the edge iterators is
`MissingPropertyData`, and every query succeeds. -/
theorem C57_reads (hc : c.RoundTrip) {d : Db} (h : WellFormed Id c d) :
    (∃ ns : List Id, vertices Id d = .ok ns) ∧ (∃ l : List (Id × NP), iterVertices Id c d = l.map .ok) ∧
      (∀ o e, .error e ∈ iterEdges Id c d o → e = .missing) ∧
      (∀ o e, .error e ∈ iterEdgesWithProps Id c d o → e = .missing) ∧
      ∀ (g : Gen Id) (q : Query Id), ∃ r, runQuery c d g q = .ok r :=
  ⟨(h.vertices hc).2, (h.vertices hc).1, fun o _ => h.edges hc o, fun o _ => h.edgesWithProps hc o, h.query hc⟩

/-- The same while others write: what is read at different moments. -/
theorem C57_lazy (hc : c.RoundTrip) {d0 : Db} {threads : List (List (Call E Id NP EP))} {D : Nat → Db} (h0 : WellFormed Id c d0)
    (hm : Moments c mN mE d0 threads D) :
    (∀ o b l, Reading D o b l → ∀ x ∈ l, ∀ e, edgeItem Id c (D x.look) o (x.key, x.id) = .error e → e = .missing) ∧
      (∀ o b l, Reading D o b l → ∀ x ∈ l, ∀ ms mo e,
        propsItem Id c (D ms) (D x.look) (D mo) o (x.key, x.id) = .error e → e = .missing) ∧
      (∀ m, ∀ x ∈ (D m).nodeProps.entries, ∃ y, vertexItem Id c x = .ok y) ∧
      ∀ (g : Gen Id) (q : Query Id) ρ, Asked D q ρ → ∃ r, runLazy c g ρ q = .ok r := by
  have hD : ∀ m, WellFormed Id c (D m) := fun m => C57_moments hc h0 (moments_moment hm m)
  exact ⟨fun o b l hl x hx e he => lazy_edge hc hD hl hx he, fun o b l hl x hx ms mo e he => lazy_props hc hD hl hx he,
    fun m x hx => lazy_vertex hc (hD m) hx, fun g q ρ h => lazy_query hc hD h g⟩

/-! ## examples -/

theorem db0_well : WellFormed U64 Sample.uc db0 := WellFormed.reach Sample.uc_rt db0_reach

/-- both handles draw the id 0, for different edges, and one of them is also removing nodes: ids collide, extends race -/
def clash : List (List (Call String U64 Nat Nat)) :=
  extRace ++ [[.insertEdge 0 ⟨9, 9, 9⟩ 7], [.insertEdge 0 ⟨8, 8, 8⟩ 6, .removeNode 2, .mergeEdge 0 ⟨9, 9, 9⟩ 3]]

example (turns : List Nat) : WellFormed U64 Sample.uc (leads clash turns) :=
  C57_moments Sample.uc_rt db0_well (leads_moment clash turns)

/-- the ids of `clash` are not distinct -/
example : ¬ DistinctIds db0 clash := fun h => by
  have := h.1
  revert this
  decide +kernel

/-- a call of a run and its result -/
example {d : Db} {r : Except (LR SErr String) Unit} {pre post : List (List (Prog Db (Except (LR SErr String) Unit)))}
    (h : Steps (db0, clash.map (List.map (Call.result Sample.uc Sample.mN Sample.mE))) (d, pre ++ [.ret r] :: post)) :
    r = .ok () := by
  obtain ⟨th, x, later, h1, h2, -, h4⟩ := C57_results Sample.uc_rt db0_well
    (by simp [ScansSized, clash, extRace]) h
  have hx : x ∈ th := h2.subset (by simp)
  have hth := List.mem_of_getElem? h1
  cases h4 with
  | ok => rfl
  | source hy =>
    simp [clash, extRace] at hth
    rcases hth with rfl | rfl | rfl | rfl <;> simp at hx
    · subst hx; simp [Call.Yields, onlyEdge] at hy
    · subst hx; simp [Call.Yields, onlyEdge] at hy
    · subst hx; simp [Call.Yields] at hy
    · rcases hx with rfl | rfl | rfl <;> simp [Call.Yields] at hy
  | unserializable _ hp => rcases hp with ⟨p, hp⟩ | ⟨p, hp⟩ <;> cases hp

example : ∀ d ∈ Sample.sstore.crashStates Sample.uc Sample.mN Sample.mE (.extend Sample.goodSrc : Op String U64 Nat Nat),
    WellFormed U64 Sample.uc d := C57_crash (s := Sample.sstore) Sample.uc_rt db0_well _

/-- a generator that returns the same id over and over -/
example : WellFormed U64 Sample.uc
    ((SledStore.new Db.empty (fun _ => 7) (fun _ => 7)).applyAll Sample.uc Sample.mN Sample.mE Sample.shist).db :=
  C57_history Sample.uc_rt _ _ _

/-- where an extend race leaves an id without a record, the edge iterators do report `MissingPropertyData`, but queries succeed -/
example : (.error .missing ∈ iterEdges U64 Sample.uc (leads extRace extTurns) .POS) ∧
    ∃ r, runQuery Sample.uc (leads extRace extTurns) (Sample.cg 0) (.S {2}) = .ok r :=
  ⟨by decide +kernel, (C57_reads Sample.uc_rt (C57_moments Sample.uc_rt db0_well (leads_moment _ _))).2.2.2.2 _ _⟩

example (m : Nat) : ∀ x ∈ (leads clash (raceTurns.take m)).nodeProps.entries, ∃ y, vertexItem U64 Sample.uc x = .ok y :=
  (C57_lazy Sample.uc_rt db0_well (leads_moments clash raceTurns)).2.2.1 m

end Verif.Props
