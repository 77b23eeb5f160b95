import Verif.Proof.SledTxCalls
import Verif.Props.SledConc
import Verif.Props.RdfSledConc
import Verif.Props.SledRemove

/-!
# C86: transactions run by sled as it likes are single steps
-/

set_option linter.unusedSectionVars false
set_option maxRecDepth 100000

namespace Verif.Props

open Verif Spec ConcreteId Sled

/-! ## C86 Transactions that are run again and again -/

section
variable {Id NP EP E α : Type} [LinearOrder Id] [ConcreteId Id]
variable {mN : NP → NP → NP} {mE : EP → EP → EP} {c : Codecs NP EP}

/-- Every step of every call on a triple store is an `insert`, a `remove` or a read on one tree, or a transaction with one of the closures
of src/sled. -/
theorem C86_steps (x : PieceCall E Id NP EP) : (x.prog c mN mE).MadeOf (Closure (Id := Id) c mN mE) ∧
    (x.1.prog c mN mE).MadeOf (Closure (Id := Id) c mN mE) :=
  ⟨madeOf_pieceCall x, madeOf_call x.1⟩

/-- And each of the closures, transcribed call by call, does what the function's step does. -/
theorem C86_closures (n i : Id) (t : Triple Id) (p : NP) (q : EP) :
    (∀ b, c.e.ser q = some b → ∃ f k, insertEdge c i t q = .call f k ∧ Tx.Performs (insertEdgeClosure i t b) .ret f k) ∧
    (∃ f k, mergeNode c mN n p = .call f k ∧ Tx.Performs (mergeNodeClosure c.n mN n p) .ret f k) ∧
    (∃ f k, mergeEdge c mE i t q = .call f k ∧ Tx.Performs (mergeEdgeClosure c.e mE i t q) .ret f k) ∧
    (∃ f rest, removeEdge t = .call f (fun _ => rest) ∧ Tx.Performs (removeEdgeClosure t) (fun _ => rest) f (fun _ => rest)) := by
  refine ⟨fun b hb => ?_, performs_mergeNode n p, performs_mergeEdge i t q, performs_removeEdge t⟩
  unfold insertEdge
  rw [hb]
  exact performs_transaction (fun d => rfl)

/-- The transaction of `remove_node`; the keys of the batches can come in any order, and more than once. -/
theorem C86_batches (n : Id) {fwd bwd fwd' bwd' : Batch} (hf : ∀ k, (k ∈ fwd.spo ↔ k ∈ fwd'.spo) ∧ (k ∈ fwd.pos ↔ k ∈ fwd'.pos) ∧
      (k ∈ fwd.osp ↔ k ∈ fwd'.osp) ∧ (k ∈ fwd.edge ↔ k ∈ fwd'.edge))
    (hb : ∀ k, (k ∈ bwd.spo ↔ k ∈ bwd'.spo) ∧ (k ∈ bwd.pos ↔ k ∈ bwd'.pos) ∧ (k ∈ bwd.osp ↔ k ∈ bwd'.osp) ∧
      (k ∈ bwd.edge ↔ k ∈ bwd'.edge)) :
    ∃ f k, removeNodeTx n fwd bwd = .call f k ∧ Tx.Performs (removeNodeClosure n fwd' bwd') .ret f k := by
  refine ⟨_, _, rfl, fun d => ?_⟩
  rw [atomic_removeNodeClosure]
  refine ⟨?_, rfl⟩
  beta_reduce
  rw [applyBatch_same (fun k => (hf k).1), applyBatch_same (fun k => (hf k).2.1), applyBatch_same (fun k => (hf k).2.2.1),
    applyBatch_same (fun k => (hf k).2.2.2), applyBatch_same (fun k => (hb k).1), applyBatch_same (fun k => (hb k).2.1),
    applyBatch_same (fun k => (hb k).2.2.1), applyBatch_same (fun k => (hb k).2.2.2)]

/-- Whatever functions are executed: in a course of events in which closures run on overlays, are disturbed and run again, the threads and
the database are at each moment what they are at some moment of a course in which each transaction is one step.  Both courses go through
these moments in the same order. -/
theorem C86_course {closures : Tx DbTree SErr → Prop} {part : Bool} {d0 : Db} {progs : List (List (Prog Db α))}
    {y : Nat → Db × List (Tx.Thread Db DbTree SErr α)} {N : Nat} (hC : Tx.Course closures part y N) (h0 : y 0 = (d0, progs.map Tx.idle)) :
    ∃ (x : Nat → Db × List (List (Prog Db α))) (M : Nat) (φ : Nat → Nat), Course part x M ∧ x 0 = (d0, progs) ∧ φ 0 = 0 ∧ φ N = M ∧
      (∀ k < N, φ k ≤ φ (k + 1) ∧ φ (k + 1) ≤ φ k + 1) ∧ ∀ k ≤ N, φ k ≤ M ∧ x (φ k) = ((y k).1, (y k).2.map Prod.snd) := by
  obtain ⟨_, x, M, φ, h1, h2, h3, h4, h5⟩ := Tx.fine_course hC (by rw [h0]; exact Tx.good_idle progs)
  refine ⟨x, M, φ, h1, ?_, h2, h3, h4, h5⟩
  have := (h5 0 (by omega)).2
  rw [h2, h0] at this
  exact this.trans (Tx.coarse_idle d0 progs)

/-- The databases that there can be at some moment are the same. -/
theorem C86_moment {d0 d : Db} {threads : List (List (PieceCall E Id NP EP))} :
    Tx.Moment (Closure (Id := Id) c mN mE) d0 (threads.map (List.map (PieceCall.prog c mN mE))) d ↔ MomentP c mN mE d0 threads d := by
  refine Tx.moment_iff (fun th hth p hp => ?_)
  obtain ⟨l, _, rfl⟩ := List.mem_map.1 hth
  obtain ⟨x, _, rfl⟩ := List.mem_map.1 hp
  exact madeOf_pieceCall x

/-- So are those at the end. -/
theorem C86_final {d0 d : Db} {threads : List (List (PieceCall E Id NP EP))} :
    Tx.Final (Closure (Id := Id) c mN mE) d0 (threads.map (List.map (PieceCall.prog c mN mE))) d ↔ FinalP c mN mE d0 threads d := by
  refine Tx.final_iff (fun th hth p hp => ?_)
  obtain ⟨l, _, rfl⟩ := List.mem_map.1 hth
  obtain ⟨x, _, rfl⟩ := List.mem_map.1 hp
  exact madeOf_pieceCall x

/-- A closure has to be run again only if a tree has changed: a step that leaves the trees as they are does not make invalid what any
thread has read. -/
theorem C86_conflict {closures : Tx DbTree SErr → Prop} {calm : Bool} {x y : Db × List (Tx.Thread Db DbTree SErr α)}
    (h : Tx.Fine closures calm x y) (he : y.1 = x.1) (hx : Tx.AllValid x) : Tx.AllValid y :=
  Tx.allValid_step h he hx

end

section
variable {NP EP E α : Type}
variable {mN : NP → NP → NP} {mE : EP → EP → EP} {cl : Codec String} {cr : Codec Ulid} {c : Codecs NP EP}

/-- The same of RDF stores, whose name index has a transaction of its own. -/
theorem C86_rdf_steps (x : RdfSled.PieceCall E NP EP) : (x.prog cl cr c mN mE).MadeOf (RdfSled.Closure cl cr c mN mE) ∧
    (x.1.prog cl cr c mN mE).MadeOf (RdfSled.Closure cl cr c mN mE) :=
  ⟨RdfSled.madeOf_pieceCall x, RdfSled.madeOf_call x.1⟩

/-- The transaction of `set`. -/
theorem C86_set {L R : Type} {cl : Codec L} {cr : Codec R} (l : L) (r : R) {lb rb : Bytes} (hl : cl.ser l = some lb)
    (hr : cr.ser r = some rb) :
    ∃ f k, SledIndex.setProg cl cr l r = .call f k ∧ Tx.Performs (SledIndex.setClosure cl cr l r lb rb) .ret f k :=
  SledIndex.performs_set l r hl hr

theorem C86_rdf_course {closures : Tx (IndexTree ⊕ DbTree) (SledIndexErr String Ulid ⊕ SErr) → Prop} {part : Bool} {d0 : RdfDb}
    {progs : List (List (Prog RdfDb α))} {y : Nat → RdfDb × List (Tx.Thread RdfDb _ _ α)} {N : Nat}
    (hC : Tx.Course closures part y N) (h0 : y 0 = (d0, progs.map Tx.idle)) :
    ∃ (x : Nat → RdfDb × List (List (Prog RdfDb α))) (M : Nat) (φ : Nat → Nat), Course part x M ∧ x 0 = (d0, progs) ∧ φ 0 = 0 ∧ φ N = M ∧
      (∀ k < N, φ k ≤ φ (k + 1) ∧ φ (k + 1) ≤ φ k + 1) ∧ ∀ k ≤ N, φ k ≤ M ∧ x (φ k) = ((y k).1, (y k).2.map Prod.snd) := by
  obtain ⟨_, x, M, φ, h1, h2, h3, h4, h5⟩ := Tx.fine_course hC (by rw [h0]; exact Tx.good_idle progs)
  refine ⟨x, M, φ, h1, ?_, h2, h3, h4, h5⟩
  have := (h5 0 (by omega)).2
  rw [h2, h0] at this
  exact this.trans (Tx.coarse_idle d0 progs)

/-- `Leads`: what is there at some moment if the process crashes, otherwise in the end. -/
theorem C86_rdf {d d' : RdfDb} (s : RdfSled.Session E NP EP) :
    (match s.crash with
      | true => Tx.Moment (RdfSled.Closure cl cr c mN mE) d (s.threads.map (List.map (RdfSled.PieceCall.prog cl cr c mN mE))) d'
      | false => Tx.Final (RdfSled.Closure cl cr c mN mE) d (s.threads.map (List.map (RdfSled.PieceCall.prog cl cr c mN mE))) d') ↔
      s.Leads cl cr c mN mE d d' := by
  have hm : ∀ th ∈ s.threads.map (List.map (RdfSled.PieceCall.prog cl cr c mN mE)), ∀ p ∈ th,
      p.MadeOf (RdfSled.Closure cl cr c mN mE) := by
    intro th hth p hp
    obtain ⟨l, _, rfl⟩ := List.mem_map.1 hth
    obtain ⟨x, _, rfl⟩ := List.mem_map.1 hp
    exact RdfSled.madeOf_pieceCall x
  unfold RdfSled.Session.Leads
  cases s.crash with
  | true => exact Tx.moment_iff hm
  | false => exact Tx.final_iff hm

end

/-! ### examples -/

/-- `merge_node` has run its closure to the end, reading what the node had -/
theorem closure_ran {d : Db} {n : U64} {p : Nat} {v b : Bytes} {old : Nat} (h1 : d.nodeProps.get (toBeBytes n).1 = some v)
    (h2 : Sample.uc.n.de v = some old) (h3 : Sample.uc.n.ser (Sample.mN old p) = some b) (q : List (Prog Db Unit))
    (pre post : List (Tx.Thread Db DbTree SErr Unit)) :
    ∃ (y : Tx.Busy Db DbTree SErr Unit), y.now = .done ∧ y.over.reads .nodeProps (toBeBytes n).1 = some (some v) ∧
      y.over = { writes := Tx.Overlay.upd (fun _ _ => none) .nodeProps (toBeBytes n).1 (some b),
                 reads := Tx.Overlay.upd (fun _ _ => none) .nodeProps (toBeBytes n).1 (some v) } ∧
      Tx.FineSteps (Closure (Id := U64) Sample.uc Sample.mN Sample.mE) true
        (d, pre ++ (none, (Call.mergeNode n p : Call String U64 Nat Nat).prog Sample.uc Sample.mN Sample.mE :: q) :: post)
        (d, pre ++ (some y, (Call.mergeNode n p : Call String U64 Nat Nat).prog Sample.uc Sample.mN Sample.mE :: q) :: post) := by
  obtain ⟨f, k', e, hP⟩ := performs_mergeNode (c := Sample.uc) (mN := Sample.mN) n p
  have hP := hP.bind (fun _ => (.ret () : Prog Db Unit))
  have e : (Call.mergeNode n p : Call String U64 Nat Nat).prog Sample.uc Sample.mN Sample.mE =
      .call f (fun s => (k' s).bind (fun _ => .ret ())) := by
    show (mergeNode Sample.uc Sample.mN n p).bind _ = _
    rw [e]; rfl
  generalize (fun s => (k' s).bind (fun _ => (.ret () : Prog Db Unit))) = k at hP e
  generalize hback : (fun r => (Prog.ret r).bind (fun _ => (.ret () : Prog Db Unit))) = back at hP
  rw [e]
  obtain ⟨next, hn, hv⟩ : ∃ next, mergeNodeClosure Sample.uc.n Sample.mN n p = .get .nodeProps (toBeBytes n).1 next ∧
      next (some v) = .write .nodeProps (toBeBytes n).1 (some b) (fun _ => .done) := by
    refine ⟨_, rfl, ?_⟩
    simp only [h2, h3]
    rfl
  have hcl := Closure.mergeNode (mE := Sample.mE) (c := Sample.uc) (mN := Sample.mN) n p
  rw [hn] at hP hcl
  have g : (Tx.Overlay.new : Tx.Overlay DbTree).get d .nodeProps (toBeBytes n).1 =
      (some v, { writes := fun _ _ => none, reads := Tx.Overlay.upd (fun _ _ => none) .nodeProps (toBeBytes n).1 (some v) }) := by
    show (d.nodeProps.get (toBeBytes n).1, _) = _
    rw [show Trees.look d DbTree.nodeProps (toBeBytes n).1 = some v from h1, h1]
    rfl
  have s1 := Tx.fineOne (calm := true) (.tx _ _ (.begin d pre post f k q _ _ hcl hP))
  have s2 := Tx.fineOne (closures := Closure (Id := U64) Sample.uc Sample.mN Sample.mE) (calm := true)
    (.tx _ _ (.get d pre post (.call f k :: q) (.get .nodeProps (toBeBytes n).1 next) back .nodeProps (toBeBytes n).1 next .new))
  rw [g] at s2
  simp only [hv] at s2
  have s3 := Tx.fineOne (closures := Closure (Id := U64) Sample.uc Sample.mN Sample.mE) (calm := true)
    (.tx _ _ (.write d pre post (.call f k :: q) (.get .nodeProps (toBeBytes n).1 next) back .nodeProps
      (toBeBytes n).1 (some b) (fun _ => .done)
      { writes := fun _ _ => none, reads := Tx.Overlay.upd (fun _ _ => none) .nodeProps (toBeBytes n).1 (some v) }))
  refine ⟨_, rfl, ?_, ?_, (s1.trans s2).trans s3⟩
  · simp [Tx.Overlay.write, Tx.Overlay.get, Tx.Overlay.upd]
  · simp [Tx.Overlay.write, Tx.Overlay.get, Tx.Overlay.upd]

/-- Two threads merge properties into node 1.  The first has run its closure to the end when the second one does so, and commits: now what
the first has read holds no longer, and it must run its closure again. -/
theorem outdated : ∃ (d : Db) (y : Tx.Busy Db DbTree SErr Unit) (q : List (Prog Db Unit)) (rest : List (Tx.Thread Db DbTree SErr Unit)),
    Tx.FineSteps (Closure (Id := U64) Sample.uc Sample.mN Sample.mE) true
      (db0, ([[.mergeNode 1 5], [.mergeNode 1 6]] : List (List (Call String U64 Nat Nat))).map
        (fun th => Tx.idle (th.map (Call.prog Sample.uc Sample.mN Sample.mE)))) (d, (some y, q) :: rest) ∧
    y.now = .done ∧ ¬ y.over.Valid d := by
  obtain ⟨v, h1, old, h2, b5, h5, b6, h6, h7⟩ : ∃ v, db0.nodeProps.get (toBeBytes (1 : U64)).1 = some v ∧
      ∃ old, Sample.uc.n.de v = some old ∧ ∃ b5, Sample.uc.n.ser (Sample.mN old 5) = some b5 ∧
      ∃ b6, Sample.uc.n.ser (Sample.mN old 6) = some b6 ∧ b6 ≠ v :=
    ⟨_, rfl, _, rfl, _, rfl, _, rfl, by decide +kernel⟩
  obtain ⟨y, y1, y2, -, ys⟩ := closure_ran h1 h2 h5 [] [] [Tx.idle [(Call.mergeNode 1 6 : Call String U64 Nat Nat).prog Sample.uc Sample.mN Sample.mE]]
  obtain ⟨z, z1, -, z3, zs⟩ := closure_ran h1 h2 h6 []
    [(some y, [(Call.mergeNode 1 5 : Call String U64 Nat Nat).prog Sample.uc Sample.mN Sample.mE])] []
  have s := ys.trans zs
  obtain ⟨zb, zk, zn, zo⟩ := z
  simp only at z1 z3
  subst z1 z3
  have hl : Trees.look (Trees.put db0 DbTree.nodeProps (toBeBytes (1 : U64)).1 (some b6)) DbTree.nodeProps (toBeBytes (1 : U64)).1 = some b6 :=
    BMap.get_insert_self _ _ _
  have s4 := Tx.fineOne (closures := Closure (Id := U64) Sample.uc Sample.mN Sample.mE) (calm := true)
    (.tx _ _ (.commit db0 (Trees.put db0 DbTree.nodeProps (toBeBytes (1 : U64)).1 (some b6))
      [(some y, [(Call.mergeNode 1 5 : Call String U64 Nat Nat).prog Sample.uc Sample.mN Sample.mE])] []
      ((Call.mergeNode 1 6 : Call String U64 Nat Nat).prog Sample.uc Sample.mN Sample.mE) [] zb zk
      { writes := Tx.Overlay.upd (fun _ _ => none) .nodeProps (toBeBytes (1 : U64)).1 (some b6),
        reads := Tx.Overlay.upd (fun _ _ => none) .nodeProps (toBeBytes (1 : U64)).1 (some v) }
      (by
        intro t k w hw
        simp only [Tx.Overlay.upd] at hw
        split at hw
        · rename_i h
          obtain ⟨rfl, rfl⟩ := h
          obtain rfl := Option.some.inj hw
          exact h1
        · cases hw)
      (by
        intro t k
        simp only [Tx.Overlay.upd]
        rw [LawfulTrees.look_put]
        split <;> rfl)))
  exact ⟨_, y, _, _, s.trans s4, y1, fun hv => h7 (Option.some.inj (hl.symm.trans (hv _ _ _ y2)))⟩

/-- Three threads remove a node and edges and add one, each transaction run on overlays: `cleared` is what can be left. -/
example : Tx.Final (Closure (Id := U64) Sample.uc Sample.mN Sample.mE) db0 (clear.map (List.map (PieceCall.prog Sample.uc Sample.mN Sample.mE)))
    cleared :=
  C86_final.2 clear_final

/-- `remove_node` deletes the entries of a self-loop twice; once is enough -/
example (k : Bytes) : ∃ f k', removeNodeTx (1 : U64) ⟨[k], [k], [k], [k]⟩ ⟨[k], [k], [k], [k]⟩ = .call f k' ∧
    Tx.Performs (removeNodeClosure (1 : U64) ⟨[k, k], [k], [k], [k]⟩ ⟨[k], [k, k, k], [k], [k]⟩) .ret f k' :=
  C86_batches 1 (by simp) (by simp)

end Verif.Props
