import Verif.Proof.World
import Verif.Props.SledSample

/-!
# C67: programs with many stores

Whatever a client does with any number of in-memory stores and stores on any number of databases, each store shows the
graph it should, and each command has the outcome it should, provided the generators yield enough different ids.
-/

namespace Verif.Props

open Verif Spec Sled ConcreteId

section

variable {E Id NP EP : Type} [LinearOrder Id] [ConcreteId Id] [LawfulId Id] {c : Codecs NP EP} {mN : NP → NP → NP}
  {mE : EP → EP → EP}

theorem progCosts_append (W : World Id NP EP) (l l' : List (Cmd E Id NP EP)) :
    progCosts c mN mE W (l ++ l') =
      World.add (progCosts c mN mE (W.exec c mN mE l).1 l') (progCosts c mN mE W l) := by
  induction l generalizing W with
  | nil => simp [progCosts, World.exec, World.add]
  | cons x l ih =>
    simp only [List.cons_append, progCosts, World.exec, ih, World.add, Nat.add_assoc]

/-- At every moment of every program, every store shows the graph it should; and the outcomes so far are those they should
be. -/
theorem C67_programs (hc : c.RoundTrip) (ht : c.Total) (gens : Nat → Gen Id) (ulids : Gen Ulid) (l l₁ : List (Cmd E Id NP EP))
    (hl : l₁ <+: l) (hq : QueriesNodup l) (hA : Apart (Uses l) (progCosts c mN mE (World.start gens ulids) l) gens ulids) :
    Agrees c ((World.start gens ulids).exec c mN mE l₁).1 (Spec.World.start.exec mN mE l₁).1 ∧
      ((World.start gens ulids).exec c mN mE l₁).2 = (Spec.World.start.exec mN mE l₁).2 := by
  obtain ⟨l', rfl⟩ := hl
  rw [progCosts_append] at hA
  have h := World.Ok.exec (mN := mN) (mE := mE) hc ht l₁ (fun x hx => hq x (List.mem_append_left _ hx))
    (fun b k ⟨v, hv⟩ => ⟨v, List.mem_append_left _ hv⟩) (World.ok_start hA)
  exact ⟨h.1.agrees, h.2⟩

/-- In particular, nothing is amiss at the end: no command of a program which uses only the stores it has fails, unless it
takes from something which is not a store, and meets an error there. -/
theorem C67_errors (hc : c.RoundTrip) (ht : c.Total) (gens : Nat → Gen Id) (ulids : Gen Ulid) (l : List (Cmd E Id NP EP))
    (hq : QueriesNodup l) (hA : Apart (Uses l) (progCosts c mN mE (World.start gens ulids) l) gens ulids) :
    ∀ r ∈ ((World.start gens ulids).exec c mN mE l).2, r ≠ .failed := by
  rw [(C67_programs hc ht gens ulids l l (List.prefix_refl l) hq hA).2]
  clear hA hq
  generalize (Spec.World.start : Spec.World Id NP EP) = S
  induction l generalizing S with
  | nil => intro r hr; cases hr
  | cons x l ih =>
    intro r hr
    simp only [Spec.World.exec, List.mem_cons] at hr
    rcases hr with rfl | hr
    · cases x <;> simp only [Spec.World.step, Spec.World.feed, Spec.World.combine] <;> (repeat' split) <;> exact nofun
    · exact ih _ r hr

/-! ### Counters -/

/-- Stores whose generators are `U64IdGenerator`s and their clones: it suffices that all stores on one database count with
one counter, and that no counter comes round. -/
theorem C67_counters {c : Codecs NP EP} (hc : c.RoundTrip) (ht : c.Total) (first : Nat → Nat) (ulids : Gen Ulid)
    (l l₁ : List (Cmd E U64 NP EP)) (hl : l₁ <+: l) (hq : QueriesNodup l)
    (h1 : ∀ b k k', Uses l b k → Uses l b k' → k = k')
    (h2 : ∀ k, (progCosts c mN mE (World.start (fun k i => Fin.ofNat _ (first k + i)) ulids) l).1 k ≤ 2 ^ 64)
    (h3 : Fresh (progCosts c mN mE (World.start (fun k i => Fin.ofNat _ (first k + i)) ulids) l).2 ulids) :
    Agrees c ((World.start (fun k i => Fin.ofNat _ (first k + i)) ulids).exec c mN mE l₁).1 (Spec.World.start.exec mN mE l₁).1 ∧
      ((World.start (fun k i => Fin.ofNat _ (first k + i)) ulids).exec c mN mE l₁).2 = (Spec.World.start.exec mN mE l₁).2 := by
  refine C67_programs hc ht _ _ l l₁ hl hq ⟨fun k i hi j hj e => ?_, h3, fun b k k' hk hk' _ _ _ _ _ => h1 b k k' hk hk', ?_⟩
  · have h2 := h2 k
    have e := congrArg Fin.val e
    simp only [Fin.ofNat] at e
    omega
  · intro b k _ i _ j _ e
    have := congrArg List.length e
    have e1 := (toBeBytes (Fin.ofNat (2 ^ 64) (first k + i) : U64)).2
    have e2 := (toBeBytes (ulids j)).2
    rw [e1, e2] at this
    exact absurd this (by decide)

/-! ### Examples -/

namespace WorldSample

/-- the generator whose ids a command draws -/
def genOf (W : World Id NP EP) : Cmd E Id NP EP → Nat
  | .call v _ | .extend v _ | .merge v _ => match W.vars v with | some (.mem k _) => k | some (.sled k _) => k | none => 0
  | .run _ _ _ k | .union _ _ _ k | .intersection _ _ _ k | .difference _ _ _ k => k
  | _ => 0

/-- a bound on the ids drawn of each generator -/
def total (c : Codecs NP EP) (mN : NP → NP → NP) (mE : EP → EP → EP) : World Id NP EP → List (Cmd E Id NP EP) → Nat
  | _, [] => 0
  | W, x :: l => total c mN mE (W.step c mN mE x).1 l + (cmdCosts c W x).1 (genOf W x)

omit [LawfulId Id] in
theorem cmdCosts_le (W : World Id NP EP) (x : Cmd E Id NP EP) (k : Nat) : (cmdCosts c W x).1 k ≤ (cmdCosts c W x).1 (genOf W x) := by
  have hk (k k' n : Nat) : (costs k n).1 k' ≤ (costs k n).1 k := by simp only [costs]; split <;> simp
  cases x <;> simp only [cmdCosts, genOf, opCosts, feedCosts] <;> (repeat' split) <;> simp_all

omit [LawfulId Id] in
theorem progCosts_le (W : World Id NP EP) (l : List (Cmd E Id NP EP)) (k : Nat) :
    (progCosts c mN mE W l).1 k ≤ total c mN mE W l := by
  induction l generalizing W with
  | nil => exact Nat.le_refl 0
  | cons x l ih => exact Nat.add_le_add (ih _) (cmdCosts_le W x k)

end WorldSample

end

namespace WorldSample

open Sample

/-- An in-memory store is moved into a store on a database; another store on the same database sees and changes its edges;
a query is asked, and its answer goes on by itself and meets yet another store in set operations. -/
def prog : List (Cmd String U64 Nat Nat) :=
  [.newMem 0 0, .call 0 (.insertNode 1 10), .call 0 (.insertEdge ⟨1, 5, 2⟩ 7),
   .openSled 1 0 0, .extend 1 0,
   .openSled 2 0 0, .call 2 (.mergeEdge ⟨1, 5, 2⟩ 1), .call 1 (.insertEdge ⟨2, 5, 1⟩ 8),
   .run 1 (.S [1]) 3 0, .call 3 (.insertEdge ⟨9, 9, 9⟩ 9),
   .newMem 4 0, .call 4 (.insertEdge ⟨9, 9, 9⟩ 1), .call 4 (.merge badSrc),
   .union 3 2 5 0, .difference 5 4 6 0, .merge 1 6]

/-- the edges a variable shows -/
def edges (W : World U64 Nat Nat) (v : Nat) : Option (List (Triple U64 × Nat)) :=
  match W.vars v with
  | none => none
  | some (.mem _ s) => some ((s.iterEdges .SPO).filterMap fun r => match r with | .ok x => some x | .error _ => none)
  | some (.sled _ b) => some ((Sled.iterEdges U64 uc (W.dbs b) .SPO).filterMap fun r => match r with | .ok x => some x | .error _ => none)

abbrev w0 : World U64 Nat Nat := World.start (fun k i => Fin.ofNat _ (0 * k + i)) (ul 0)

-- the program meets the hypotheses of `C67_counters` …
example (l₁ : List (Cmd String U64 Nat Nat)) (hl : l₁ <+: prog) :
    Agrees uc (w0.exec uc Sample.mN Sample.mE l₁).1 (Spec.World.start.exec Sample.mN Sample.mE l₁).1 ∧
      (w0.exec uc Sample.mN Sample.mE l₁).2 = (Spec.World.start.exec Sample.mN Sample.mE l₁).2 := by
  refine C67_counters uc_rt uc_total (fun k => 0 * k) (ul 0) prog l₁ hl ?_ ?_ ?_ ?_
  · intro x hx v q r k e
    subst e
    simp only [prog, List.mem_cons, reduceCtorEq, Cmd.run.injEq, List.not_mem_nil, or_false, false_or] at hx
    obtain ⟨rfl, rfl, rfl, rfl⟩ := hx
    simp [Query.Nodup, Query.items]
  · have h0 : ∀ b k, Uses prog b k → k = 0 := by
      rintro b k ⟨v, hv⟩
      simp only [prog, List.mem_cons, reduceCtorEq, Cmd.openSled.injEq, List.not_mem_nil, or_false, false_or] at hv
      rcases hv with h | h <;> exact h.2.2
    intro b k k' hk hk'
    rw [h0 b k hk, h0 b k' hk']
  · intro k
    exact Nat.le_trans (progCosts_le _ _ _) (by decide +kernel)
  · exact ul_fresh _ 0 (by decide +kernel)

-- … and this is what it does
example : (w0.exec uc Sample.mN Sample.mE prog).2 =
    [.done, .done, .done, .done, .done, .done, .done, .done, .done, .done, .done, .done, .source "disk", .done, .done, .done] := by
  decide +kernel
example : edges (w0.exec uc Sample.mN Sample.mE prog).1 1 = some [(⟨1, 5, 2⟩, 781), (⟨2, 5, 1⟩, 88)] := by decide +kernel

/-- Two stores on one database with two generators which both start to count at the same number. -/
def twoProg : List (Cmd String U64 Nat Nat) :=
  [.openSled 0 0 0, .openSled 1 0 1, .call 0 (.insertEdge ⟨1, 5, 2⟩ 7), .call 1 (.insertEdge ⟨2, 5, 1⟩ 8)]

end WorldSample

open WorldSample in
/-- That the stores on one database have one counter is necessary: with two, that start at the same number, the edge inserted
by one store takes the property of the edge inserted by the other. -/
theorem C67_two_counters :
    edges (w0.exec Sample.uc Sample.mN Sample.mE twoProg).1 0 = some [(⟨1, 5, 2⟩, 8), (⟨2, 5, 1⟩, 8)] ∧
      ¬ Agrees Sample.uc (w0.exec Sample.uc Sample.mN Sample.mE twoProg).1 (Spec.World.start.exec Sample.mN Sample.mE twoProg).1 := by
  refine ⟨by decide +kernel, fun h => ?_⟩
  have h := (h.1 0).2 .SPO
  have e : (⟨1, 5, 2⟩, 8) ∈ (Sled.iterEdges U64 Sample.uc ((w0.exec Sample.uc Sample.mN Sample.mE twoProg).1.dbs 0) .SPO).filterMap
      (fun r => match r with | .ok x => some x | .error _ => none) := by decide +kernel
  obtain ⟨l, hl, hm⟩ := h
  change Sled.iterEdges U64 Sample.uc _ .SPO = _ at hl
  rw [hl, List.mem_filterMap] at e
  obtain ⟨r, hr, e⟩ := e
  obtain ⟨x, hx, rfl⟩ := List.mem_map.mp hr
  cases e
  have e7 := (hm.2 _ _).mp hx
  revert e7
  simp [twoProg, Spec.World.exec, Spec.World.step, Spec.World.setVar, Spec.World.setGraph, Spec.World.start, Spec.World.graph,
    Op.apply, Function.update, Graph.insertEdge, Graph.empty]

end Verif.Props
