import Verif.Proof.EndsCalls
import Verif.Props.SledTx
import Verif.Props.RdfHistory

/-!
# C89: calls come to an end
-/

namespace Verif.Props

open Verif Verif.Spec Verif.Sled ConcreteId

section
variable {Id NP EP E : Type} [LinearOrder Id] [ConcreteId Id] [LawfulId Id]
variable {mN : NP → NP → NP} {mE : EP → EP → EP} {c : Codecs NP EP}

/-- Whatever it finds in the database, and whatever others make of it in the meantime, a call makes at most `cost` calls of sled. -/
theorem C89_calls (x : PieceCall E Id NP EP) : (x.prog c mN mE).AtMost x.cost := most_pieceCall x

/-- So threads of calls come to an end after so many steps, whoever's turn it is, and whether calls fail or not. -/
theorem C89_steps {part : Bool} {d : Db} {threads : List (List (PieceCall E Id NP EP))} {x : Nat → Db × List (List (Prog Db Unit))}
    {N : Nat} (hC : Course part x N) (h0 : x 0 = (d, threads.map (List.map (PieceCall.prog c mN mE)))) :
    N ≤ work PieceCall.cost threads := by
  obtain ⟨m, hm, _⟩ := course_ends hC (n := work PieceCall.cost threads)
    (by rw [h0]; exact allLeft_of_cost (prog := PieceCall.prog c mN mE) C89_calls threads)
  omega

/-- In particular a thread needs no more steps of its own than its own calls do, whatever the others do. -/
theorem C89_own {part : Bool} {d : Db} {threads : List (List (PieceCall E Id NP EP))} {x : Nat → Db × List (List (Prog Db Unit))}
    {N : Nat} (hC : Course part x N) (h0 : x 0 = (d, threads.map (List.map (PieceCall.prog c mN mE)))) {i : Nat}
    {th : List (PieceCall E Id NP EP)} (hi : threads[i]? = some th) (ks : Finset Nat)
    (hk : ∀ k ∈ ks, k < N ∧ (x (k + 1)).2[i]? ≠ (x k).2[i]?) : ks.card ≤ (th.map (fun y => y.cost + 1)).sum := by
  obtain ⟨m, l, hm, _⟩ := course_own hC i (l := th.map (PieceCall.prog c mN mE)) (by rw [h0]; simp [hi])
    (left_of_cost (prog := PieceCall.prog c mN mE) C89_calls th) ks hk
  omega

/-- Nor can they do with much less: `remove_edge` makes at least four calls; the transactions are called once, unless a property cannot
be serialized. -/
theorem C89_least (n i : Id) (t : Triple Id) (p : NP) (q : EP) :
    (removeEdge t).AtLeast 4 ∧ (mergeNode c mN n p).AtLeast 1 ∧ (mergeEdge c mE i t q).AtLeast 1 ∧
    ((c.n.ser p).isSome → (insertNode c n p).AtLeast 1) ∧ ((c.e.ser q).isSome → (insertEdge c i t q).AtLeast 1) := by
  refine ⟨fun _ _ _ _ => trivial, fun _ => trivial, fun _ => trivial, fun h => ?_, fun h => ?_⟩
  · obtain ⟨b, hb⟩ := Option.isSome_iff_exists.1 h
    unfold insertNode
    rw [hb]
    exact fun _ => trivial
  · obtain ⟨b, hb⟩ := Option.isSome_iff_exists.1 h
    unfold insertEdge
    rw [hb]
    exact fun _ => trivial

/-- sled runs the closure of a transaction again if something it has read has been changed.  This happens no more often than there are
steps that may have changed it, for each thread. -/
theorem C89_reruns {closures : Tx DbTree SErr → Prop} {part : Bool} {d : Db} {threads : List (List (PieceCall E Id NP EP))}
    {y : Nat → Db × List (Tx.Thread Db DbTree SErr Unit)} {N : Nat} (hC : Tx.Course closures part y N)
    (h0 : y 0 = (d, (threads.map (List.map (PieceCall.prog c mN mE))).map Tx.idle)) (ks : Finset Nat)
    (hk : ∀ k ∈ ks, k < N ∧ Tx.Conflict (y k) (y (k + 1))) : ks.card ≤ threads.length * work PieceCall.cost threads := by
  have := Tx.reruns_idle hC h0 (allLeft_of_cost (prog := PieceCall.prog c mN mE) C89_calls threads) ks hk
  rwa [List.length_map] at this

/-- So if sled runs closures again for no other reason, there is no way to go on for ever. -/
theorem C89_no_livelock {closures : Tx DbTree SErr → Prop} {calm : Bool} {d : Db} {threads : List (List (PieceCall E Id NP EP))}
    {y : Nat → Db × List (Tx.Thread Db DbTree SErr Unit)} (h0 : y 0 = (d, (threads.map (List.map (PieceCall.prog c mN mE))).map Tx.idle)) :
    ∃ k, Tx.Fine closures calm (y k) (y (k + 1)) → Tx.Spurious (y k) (y (k + 1)) :=
  Tx.no_livelock_idle y h0 (allLeft_of_cost (prog := PieceCall.prog c mN mE) C89_calls threads)

/-- And no thread is ever blocked: as long as it has something to do, it can make a step, whatever the others are in the middle of. -/
theorem C89_goes_on {part : Bool} {d d' : Db} {threads : List (List (PieceCall E Id NP EP))}
    {y : Nat → Db × List (Tx.Thread Db DbTree SErr Unit)} {N : Nat} (hC : Tx.Course (Closure (Id := Id) c mN mE) part y N)
    (h0 : y 0 = (d, (threads.map (List.map (PieceCall.prog c mN mE))).map Tx.idle)) {pre post : List (Tx.Thread Db DbTree SErr Unit)}
    {th : Tx.Thread Db DbTree SErr Unit} (e : y N = (d', pre ++ th :: post)) (hne : th ≠ Tx.idle []) :
    ∃ s' th', Tx.Fine (Closure (Id := Id) c mN mE) true (y N) (s', pre ++ th' :: post) ∧ ¬ Tx.Spurious (y N) (s', pre ++ th' :: post) := by
  refine Tx.goes_on_idle (fun q hq p hp => ?_) hC h0 e hne
  obtain ⟨l, _, rfl⟩ := List.mem_map.1 hq
  obtain ⟨x, _, rfl⟩ := List.mem_map.1 hp
  exact madeOf_pieceCall x

end

/-- Each step is a step of one thread, and changes what that thread has still to do; when none can be made, nothing is left to do. -/
theorem C89_changes {S α : Type} {x : S × List (List (Prog S α))} :
    (∀ y, Step x y → ∃ i, i < x.2.length ∧ y.2.length = x.2.length ∧ y.2[i]? ≠ x.2[i]? ∧ ∀ j, j ≠ i → y.2[j]? = x.2[j]?) ∧
    ((∀ z, ¬ CalmStep x z) → ∀ th ∈ x.2, th = []) :=
  ⟨fun _ h => step_changes h, all_done⟩

section
variable {NP EP E : Type}
variable {mN : NP → NP → NP} {mE : EP → EP → EP} {cl : Codec String} {cr : Codec Ulid} {c : Codecs NP EP}

/-! The same of RDF stores. -/

theorem C89_rdf_calls (x : RdfSled.PieceCall E NP EP) : (x.prog cl cr c mN mE).AtMost x.cost := RdfSled.most_pieceCall x

theorem C89_rdf_steps {part : Bool} {d : RdfDb} {threads : List (List (RdfSled.PieceCall E NP EP))}
    {x : Nat → RdfDb × List (List (Prog RdfDb Unit))} {N : Nat} (hC : Course part x N)
    (h0 : x 0 = (d, threads.map (List.map (RdfSled.PieceCall.prog cl cr c mN mE)))) : N ≤ work RdfSled.PieceCall.cost threads := by
  obtain ⟨m, hm, _⟩ := course_ends hC (n := work RdfSled.PieceCall.cost threads)
    (by rw [h0]; exact allLeft_of_cost (prog := RdfSled.PieceCall.prog cl cr c mN mE) C89_rdf_calls threads)
  omega

theorem C89_rdf_own {part : Bool} {d : RdfDb} {threads : List (List (RdfSled.PieceCall E NP EP))}
    {x : Nat → RdfDb × List (List (Prog RdfDb Unit))} {N : Nat} (hC : Course part x N)
    (h0 : x 0 = (d, threads.map (List.map (RdfSled.PieceCall.prog cl cr c mN mE)))) {i : Nat} {th : List (RdfSled.PieceCall E NP EP)}
    (hi : threads[i]? = some th) (ks : Finset Nat) (hk : ∀ k ∈ ks, k < N ∧ (x (k + 1)).2[i]? ≠ (x k).2[i]?) :
    ks.card ≤ (th.map (fun y => y.cost + 1)).sum := by
  obtain ⟨m, l, hm, _⟩ := course_own hC i (l := th.map (RdfSled.PieceCall.prog cl cr c mN mE)) (by rw [h0]; simp [hi])
    (left_of_cost (prog := RdfSled.PieceCall.prog cl cr c mN mE) C89_rdf_calls th) ks hk
  omega

theorem C89_rdf_reruns {closures : Tx (IndexTree ⊕ DbTree) (SledIndexErr String Ulid ⊕ SErr) → Prop} {part : Bool} {d : RdfDb}
    {threads : List (List (RdfSled.PieceCall E NP EP))} {y : Nat → RdfDb × List (Tx.Thread RdfDb _ _ Unit)} {N : Nat}
    (hC : Tx.Course closures part y N)
    (h0 : y 0 = (d, (threads.map (List.map (RdfSled.PieceCall.prog cl cr c mN mE))).map Tx.idle)) (ks : Finset Nat)
    (hk : ∀ k ∈ ks, k < N ∧ Tx.Conflict (y k) (y (k + 1))) : ks.card ≤ threads.length * work RdfSled.PieceCall.cost threads := by
  have := Tx.reruns_idle hC h0 (allLeft_of_cost (prog := RdfSled.PieceCall.prog cl cr c mN mE) C89_rdf_calls threads) ks hk
  rwa [List.length_map] at this

theorem C89_rdf_no_livelock {closures : Tx (IndexTree ⊕ DbTree) (SledIndexErr String Ulid ⊕ SErr) → Prop} {calm : Bool} {d : RdfDb}
    {threads : List (List (RdfSled.PieceCall E NP EP))} {y : Nat → RdfDb × List (Tx.Thread RdfDb _ _ Unit)}
    (h0 : y 0 = (d, (threads.map (List.map (RdfSled.PieceCall.prog cl cr c mN mE))).map Tx.idle)) :
    ∃ k, Tx.Fine closures calm (y k) (y (k + 1)) → Tx.Spurious (y k) (y (k + 1)) :=
  Tx.no_livelock_idle y h0 (allLeft_of_cost (prog := RdfSled.PieceCall.prog cl cr c mN mE) C89_rdf_calls threads)

theorem C89_rdf_goes_on {part : Bool} {d d' : RdfDb} {threads : List (List (RdfSled.PieceCall E NP EP))}
    {y : Nat → RdfDb × List (Tx.Thread RdfDb _ _ Unit)} {N : Nat} (hC : Tx.Course (RdfSled.Closure cl cr c mN mE) part y N)
    (h0 : y 0 = (d, (threads.map (List.map (RdfSled.PieceCall.prog cl cr c mN mE))).map Tx.idle))
    {pre post : List (Tx.Thread RdfDb _ _ Unit)} {th : Tx.Thread RdfDb _ _ Unit} (e : y N = (d', pre ++ th :: post))
    (hne : th ≠ Tx.idle []) :
    ∃ s' th', Tx.Fine (RdfSled.Closure cl cr c mN mE) true (y N) (s', pre ++ th' :: post) ∧
      ¬ Tx.Spurious (y N) (s', pre ++ th' :: post) := by
  refine Tx.goes_on_idle (fun q hq p hp => ?_) hC h0 e hne
  obtain ⟨l, _, rfl⟩ := List.mem_map.1 hq
  obtain ⟨x, _, rfl⟩ := List.mem_map.1 hp
  exact RdfSled.madeOf_pieceCall x

end

/-! ### examples -/

/-- a finite run as a course -/
theorem course_of_fine {S T X α : Type} [DecidableEq T] [Trees S T] {closures : Tx T X → Prop} {x z : S × List (Tx.Thread S T X α)}
    (h : Tx.FineSteps closures true x z) : ∃ y N, Tx.Course closures false y N ∧ y 0 = x ∧ y N = z := by
  induction h with
  | refl => exact ⟨fun _ => x, 0, (fun k hk => absurd hk (Nat.not_lt_zero _)), rfl, rfl⟩
  | @tail z w _ hs ih =>
    obtain ⟨y, N, hC, h0, hN⟩ := ih
    refine ⟨fun k => if k ≤ N then y k else w, N + 1, fun k hk => ?_, by simp [h0], by simp⟩
    beta_reduce
    rw [if_pos (show k ≤ N by omega)]
    rcases Nat.lt_or_ge k N with hlt | hge
    · rw [if_pos (show k + 1 ≤ N by omega)]
      exact hC k hlt
    · obtain rfl : k = N := by omega
      rw [if_neg (show ¬ k + 1 ≤ k by omega), hN]
      exact hs

/-- Two threads merge properties into node 1; the first has to run its closure again. -/
example : ∃ (y : Nat → Db × List (Tx.Thread Db DbTree SErr Unit)) (N : Nat),
    Tx.Course (Closure (Id := U64) Sample.uc Sample.mN Sample.mE) false y (N + 1) ∧
    y 0 = (db0, (([[(.mergeNode 1 5, [], [])], [(.mergeNode 1 6, [], [])]] : List (List (PieceCall String U64 Nat Nat))).map
      (List.map (PieceCall.prog Sample.uc Sample.mN Sample.mE))).map Tx.idle) ∧
    Tx.Conflict (y N) (y (N + 1)) ∧ ({N} : Finset Nat).card ≤ 2 * 4 := by
  obtain ⟨d, z, q, rest, hs, _, hv⟩ := outdated
  obtain ⟨y, N, hC, h0, hN⟩ := course_of_fine hs
  have hC' : Tx.Course (Closure (Id := U64) Sample.uc Sample.mN Sample.mE) false (fun k => if k ≤ N then y k else (d, (none, q) :: rest))
      (N + 1) := by
    intro k hk
    beta_reduce
    rw [if_pos (show k ≤ N by omega)]
    rcases Nat.lt_or_ge k N with hlt | hge
    · rw [if_pos (show k + 1 ≤ N by omega)]
      exact hC k hlt
    · obtain rfl : k = N := by omega
      rw [if_neg (show ¬ k + 1 ≤ k by omega), hN]
      exact .tx _ _ (.again d [] rest q z)
  have hc : Tx.Conflict ((fun k => if k ≤ N then y k else (d, (none, q) :: rest)) N)
      ((fun k => if k ≤ N then y k else (d, (none, q) :: rest)) (N + 1)) := by
    beta_reduce
    rw [if_pos (Nat.le_refl _), if_neg (show ¬ N + 1 ≤ N by omega), hN]
    exact ⟨z.over, ⟨d, [], rest, q, z, rfl, rfl, rfl⟩, hv⟩
  refine ⟨_, N, hC', ?_, hc, ?_⟩
  · beta_reduce
    rw [if_pos (Nat.zero_le _), h0]
    rfl
  · exact C89_reruns (Id := U64) (E := String) (d := db0) (threads := [[(.mergeNode 1 5, [], [])], [(.mergeNode 1 6, [], [])]])
      (mN := Sample.mN) (mE := Sample.mE) (c := Sample.uc) hC' (by beta_reduce; rw [if_pos (Nat.zero_le _), h0]; rfl) {N} (by
        intro k hk
        obtain rfl := Finset.mem_singleton.1 hk
        exact ⟨by omega, hc⟩)

/-- If closures were run again for no reason, a call might go on for ever. -/
example : ∃ y : Nat → Db × List (Tx.Thread Db DbTree SErr Unit),
    y 0 = (db0, (([[(.mergeNode 1 5, [], [])]] : List (List (PieceCall String U64 Nat Nat))).map
      (List.map (PieceCall.prog Sample.uc Sample.mN Sample.mE))).map Tx.idle) ∧
    (∀ k, Tx.Fine (Closure (Id := U64) Sample.uc Sample.mN Sample.mE) true (y k) (y (k + 1))) ∧
    ∃ k, Tx.Spurious (y k) (y (k + 1)) := by
  obtain ⟨f, k', e, hP⟩ := performs_mergeNode (c := Sample.uc) (mN := Sample.mN) (1 : U64) 5
  have hP := hP.bind (fun _ => (.ret () : Prog Db Unit))
  have e : PieceCall.prog Sample.uc Sample.mN Sample.mE ((.mergeNode 1 5, [], []) : PieceCall String U64 Nat Nat) =
      .call f (fun s => (k' s).bind (fun _ => .ret ())) := by
    show (mergeNode Sample.uc Sample.mN 1 5).bind _ = _
    rw [e]; rfl
  have hb := Tx.TxStep.begin (closures := Closure (Id := U64) Sample.uc Sample.mN Sample.mE) db0 [] [] f _ [] _ _
    (.mergeNode (mE := Sample.mE) (c := Sample.uc) (mN := Sample.mN) (1 : U64) 5) hP
  have ha := fun z q => Tx.TxStep.again (α := Unit) (closures := Closure (Id := U64) Sample.uc Sample.mN Sample.mE) db0 [] [] q z
  simp only [List.map_cons, List.map_nil, e]
  generalize (fun s => (k' s).bind (fun _ => (Prog.ret () : Prog Db Unit))) = k at hb ⊢
  generalize hz : (⟨_, _, _, .new⟩ : Tx.Busy Db DbTree SErr Unit) = z at hb
  refine ⟨fun n => if n % 2 = 0 then (db0, [(none, [.call f k])]) else (db0, [(some z, [.call f k])]), rfl, fun k => ?_, ?_⟩
  · beta_reduce
    rcases Nat.mod_two_eq_zero_or_one k with h | h
    · rw [if_pos h, if_neg (show ¬ (k + 1) % 2 = 0 by omega)]
      exact .tx _ _ hb
    · rw [if_neg (show ¬ k % 2 = 0 by omega), if_pos (show (k + 1) % 2 = 0 by omega)]
      exact .tx _ _ (ha _ _)
  · exact ⟨1, z.over, ⟨db0, [], [], _, z, rfl, rfl, rfl⟩, by rw [← hz]; exact Tx.Overlay.new_valid db0⟩

/-- An edge is removed while another thread writes it again: then `remove_edge` makes all of its five calls. -/
def hardest : List (List (PieceCall String U64 Nat Nat)) :=
  [[(.removeEdge ⟨1, 2, 3⟩, [], [])], [(.insertEdge 77 ⟨1, 2, 3⟩ 4, [], []), (.removeNode 9, [1], [2, 3])]]

def hardestTurns : List Nat := [0, 1, 0, 0, 0, 0, 0, 1, 1, 1, 1, 1, 1, 1, 1]

set_option maxRecDepth 100000 in
theorem hardest_course : Course false
    (fun k => (hardestTurns.take k).foldl turn (db0, hardest.map (List.map (PieceCall.prog Sample.uc Sample.mN Sample.mE)))) 15 :=
  course_turns _ hardestTurns (by decide +kernel)

example : (15 : Nat) ≤ work PieceCall.cost hardest ∧ work PieceCall.cost hardest = 15 :=
  ⟨C89_steps hardest_course rfl, by decide +kernel⟩

theorem turn_changes {S α : Type} (x : S × List (List (Prog S α))) (i : Nat) (h : (x.2[i]?.getD []).isEmpty = false) :
    (turn x i).2[i]? ≠ x.2[i]? := by
  obtain ⟨j, _, _, h1, _⟩ := C89_changes.1 _ (Tx.calmStep_step (turn_step x i h))
  by_cases e : j = i
  · exact e ▸ h1
  · refine absurd ?_ h1
    unfold turn
    split
    · exact List.getElem?_set_ne (Ne.symm e)
    · exact List.getElem?_set_ne (Ne.symm e)
    · rfl

theorem turns_change {S α : Type} (x : S × List (List (Prog S α))) (l : List Nat) (h : moves x l = true) {k i : Nat}
    (hk : l[k]? = some i) : ((l.take (k + 1)).foldl turn x).2[i]? ≠ ((l.take k).foldl turn x).2[i]? := by
  induction l generalizing x k with
  | nil => simp at hk
  | cons a l ih =>
    simp only [moves, Bool.and_eq_true, Bool.not_eq_true'] at h
    cases k with
    | zero =>
      have hk : a = i := by simpa using hk
      subst hk
      exact turn_changes x a h.1
    | succ k => exact ih (turn x a) h.2 (by simpa using hk)

set_option maxRecDepth 100000 in
/-- five of the steps are calls of the first thread, one is its return -/
example : ({0, 2, 3, 4, 5, 6} : Finset Nat).card ≤ 6 := by
  refine C89_own hardest_course rfl (i := 0) (th := [(.removeEdge ⟨1, 2, 3⟩, [], [])]) rfl {0, 2, 3, 4, 5, 6} (fun k hk => ?_)
  have hk : hardestTurns[k]? = some 0 ∧ k < 15 := by
    simp only [Finset.mem_insert, Finset.mem_singleton] at hk
    rcases hk with rfl | rfl | rfl | rfl | rfl | rfl <;> exact ⟨rfl, by decide⟩
  exact ⟨hk.2, turns_change _ hardestTurns (by decide +kernel) hk.1⟩

set_option maxRecDepth 100000 in
/-- an edge between new names: three look-ups, three new entries, one edge, and the return -/
example : (8 : Nat) ≤ work RdfSled.PieceCall.cost
      [[calledWith 300 (.insertEdge ⟨.string "x", .string "y", .string "z"⟩ 4)]] ∧
    work RdfSled.PieceCall.cost [[calledWith 300 (.insertEdge ⟨.string "x", .string "y", .string "z"⟩ 4)]] = 8 :=
  ⟨C89_rdf_steps (course_turns (rdfDb0, [[calledWith 300 (.insertEdge ⟨.string "x", .string "y", .string "z"⟩ 4)]].map
      (List.map (RdfSled.PieceCall.prog Sample.names Sample.ids Sample.uc Sample.mN Sample.mE))) (List.replicate 8 0) (by decide +kernel)) rfl,
    by decide +kernel⟩

end Verif.Props
