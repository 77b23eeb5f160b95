import Verif.Proof.RdfProgram
import Verif.Props.RdfSample
import Verif.Props.RdfSledQuery

/-!
# C82, C83: programs with many RDF stores

Whatever a client does with any number of RDF stores in memory and on databases, each store shows the graph over entities
that it should, knows the names it should, and each command has the outcome it should.
-/

namespace Verif.Props

open Verif Spec RdfWorld

section

variable {E NP EP : Type} {cl : Codec String} {cr : Codec Ulid} {c : Codecs NP EP} {mN : NP → NP → NP} {mE : EP → EP → EP}

theorem rdfProgCosts_append (W : Verif.RdfWorld NP EP) (l l' : List (RdfCmd E NP EP)) :
    rdfProgCosts cl cr c mN mE W (l ++ l') =
      World.add (rdfProgCosts cl cr c mN mE (W.exec cl cr c mN mE l).1 l') (rdfProgCosts cl cr c mN mE W l) := by
  induction l generalizing W with
  | nil => simp [rdfProgCosts, Verif.RdfWorld.exec, World.add]
  | cons x l ih =>
    simp only [List.cons_append, rdfProgCosts, Verif.RdfWorld.exec, ih, World.add, Nat.add_assoc]

/-- a program up to some moment -/
theorem rdf_moment (hl : cl.RoundTrips) (hr : cr.RoundTrips) (tl : cl.Total) (tr : cr.Total) (hc : c.RoundTrip) (ht : c.Total)
    (gens : Nat → Gen Ulid) (names : Gen Ulid) (l₁ l' : List (RdfCmd E NP EP))
    (hA : RdfApart (RdfUses (l₁ ++ l')) ((l₁ ++ l').flatMap RdfCmd.ulids)
      (rdfProgCosts cl cr c mN mE (Verif.RdfWorld.start gens names) (l₁ ++ l')) gens names) :
    RdfWorld.Ok cl cr c (RdfUses (l₁ ++ l')) ((l₁ ++ l').flatMap RdfCmd.ulids)
        (rdfProgCosts cl cr c mN mE ((Verif.RdfWorld.start gens names).exec cl cr c mN mE l₁).1 l')
        ((Verif.RdfWorld.start gens names).exec cl cr c mN mE l₁).1 (Spec.RdfWorld.start.exec mN mE l₁).1 ∧
      ((Verif.RdfWorld.start gens names).exec cl cr c mN mE l₁).2 = (Spec.RdfWorld.start.exec mN mE l₁).2 := by
  refine RdfWorld.Ok.exec hl hr tl tr hc ht l₁
    (fun x hx u hu => List.mem_flatMap.2 ⟨x, List.mem_append_left _ hx, hu⟩)
    (fun b k ⟨v, hv⟩ => ⟨v, List.mem_append_left _ hv⟩) (RdfWorld.ok_start tl tr ?_)
  rw [← rdfProgCosts_append]
  exact hA

/-- At every moment of every program, every RDF store shows the graph over entities it should and knows the names it should;
and the outcomes so far are those they should be. -/
theorem C82_programs (hl : cl.RoundTrips) (hr : cr.RoundTrips) (tl : cl.Total) (tr : cr.Total) (hc : c.RoundTrip) (ht : c.Total)
    (gens : Nat → Gen Ulid) (names : Gen Ulid) (l l₁ : List (RdfCmd E NP EP)) (hp : l₁ <+: l)
    (hA : RdfApart (RdfUses l) (l.flatMap RdfCmd.ulids) (rdfProgCosts cl cr c mN mE (Verif.RdfWorld.start gens names) l) gens names) :
    RdfAgrees cl cr c mN mE ((Verif.RdfWorld.start gens names).exec cl cr c mN mE l₁).1 (Spec.RdfWorld.start.exec mN mE l₁).1 ∧
      ((Verif.RdfWorld.start gens names).exec cl cr c mN mE l₁).2 = (Spec.RdfWorld.start.exec mN mE l₁).2 := by
  obtain ⟨l', rfl⟩ := hp
  obtain ⟨h1, h2⟩ := rdf_moment hl hr tl tr hc ht gens names l₁ l' hA
  exact ⟨h1.agrees hc, h2⟩

theorem takeIn_writable {α : Type} {f : RdfState NP EP → α → RdfState NP EP × RdfOutcome E} (hf : ∀ x a, (f x a).2 ≠ .unserializable)
    (x : RdfState NP EP) (l : List (Except E α)) : (RdfState.takeIn f x l).2 ≠ .unserializable := by
  induction l generalizing x with
  | nil => exact nofun
  | cons a l ih =>
    rcases a with e | a
    · exact nofun
    · have := hf x a
      unfold RdfState.takeIn
      generalize f x a = y at this ⊢
      rcases y with ⟨x', _ | _ | s | e⟩
      · exact ih x'
      · exact this
      · exact nofun
      · exact nofun

theorem both_writable {fN : RdfState NP EP → Entity × NP → RdfState NP EP × RdfOutcome E}
    {fE : RdfState NP EP → Triple Entity × EP → RdfState NP EP × RdfOutcome E} (hN : ∀ x a, (fN x a).2 ≠ .unserializable)
    (hE : ∀ x a, (fE x a).2 ≠ .unserializable) (x : RdfState NP EP) (src : Source E Entity NP EP) :
    (x.both fN fE src).2 ≠ .unserializable := by
  have := takeIn_writable hN x src.nodes
  unfold RdfState.both
  generalize RdfState.takeIn fN x src.nodes = y at this ⊢
  rcases y with ⟨x', _ | _ | s | e⟩
  · exact takeIn_writable hE _ _
  · exact this
  · exact nofun
  · exact nofun

theorem step_writable (x : RdfState NP EP) (op : Op E Entity NP EP) :
    (x.step (fun _ => true) (fun _ => true) mN mE op).2 ≠ .unserializable := by
  cases op <;> simp only [RdfState.step]
  case removeNode => unfold RdfState.remove; split <;> exact nofun
  case removeEdge => unfold RdfState.remove; split <;> exact nofun
  case extend =>
    exact both_writable (fun _ _ h => by simp [RdfState.change, storeNode] at h)
      (fun _ _ h => by simp [RdfState.change, storeEdge] at h) _ _
  case merge =>
    exact both_writable (fun _ _ h => by simp [RdfState.change, storeMergedNode, storeNode] at h)
      (fun _ _ h => by simp [RdfState.change, storeMergedEdge, storeEdge] at h) _ _
  all_goals exact nofun

/-- In particular, nothing else than unknown names, names which occur twice in the answer to a query, and errors of sources
which are not stores makes a command fail. -/
theorem C82_errors (hl : cl.RoundTrips) (hr : cr.RoundTrips) (tl : cl.Total) (tr : cr.Total) (hc : c.RoundTrip) (ht : c.Total)
    (gens : Nat → Gen Ulid) (names : Gen Ulid) (l : List (RdfCmd E NP EP))
    (hA : RdfApart (RdfUses l) (l.flatMap RdfCmd.ulids) (rdfProgCosts cl cr c mN mE (Verif.RdfWorld.start gens names) l) gens names) :
    ∀ r ∈ ((Verif.RdfWorld.start gens names).exec cl cr c mN mE l).2, r ≠ .failed := by
  rw [(C82_programs hl hr tl tr hc ht gens names l l (List.prefix_refl l) hA).2]
  clear hA
  generalize (Spec.RdfWorld.start : Spec.RdfWorld NP EP) = S
  induction l generalizing S with
  | nil => intro r hr; cases hr
  | cons x l ih =>
    intro r hr
    simp only [Spec.RdfWorld.exec, List.mem_cons] at hr
    rcases hr with rfl | hr
    · cases x with
      | call v op =>
        simp only [Spec.RdfWorld.step]
        split
        · exact nofun
        · next p _ =>
          have := step_writable (mN := mN) (mE := mE) (S.state p) op
          show RdfOutcome.res _ ≠ _
          generalize ((S.state p).step (fun _ => true) (fun _ => true) mN mE op).2 = o at this ⊢
          cases o with
          | unserializable => exact absurd rfl this
          | _ => exact nofun
      | _ => simp only [Spec.RdfWorld.step, Spec.RdfWorld.feed, Spec.RdfWorld.query] <;> (repeat' split) <;> exact nofun
    · exact ih _ r hr

/-! ### Two stores on one database -/

/-- `v.extend(w)`, both on database `b`, reads lazily from the trees which it writes to.  There is just one result, as if the
contents had been read before: it succeeds, and the store shows the same graph and knows the same names as before. -/
theorem C83_extend (hl : cl.RoundTrips) (hr : cr.RoundTrips) (tl : cl.Total) (tr : cr.Total) (hc : c.RoundTrip) (ht : c.Total)
    (gens : Nat → Gen Ulid) (names : Gen Ulid) (l l₁ : List (RdfCmd E NP EP)) {v w k k' b : Nat} (hp : l₁ ++ [.extend v w] <+: l)
    (hA : RdfApart (RdfUses l) (l.flatMap RdfCmd.ulids) (rdfProgCosts cl cr c mN mE (Verif.RdfWorld.start gens names) l) gens names) :
    let W := ((Verif.RdfWorld.start gens names).exec cl cr c mN mE l₁).1
    let S := (Spec.RdfWorld.start.exec mN mE l₁).1
    W.vars v = some (.sled k b) → W.vars w = some (.sled k' b) →
    ∀ out, RdfSelf.Extend cl cr c mN mE (W.sledStore k b) out ↔
      out = (W.sledStore k b).extend (SledIndex.impl cl cr) (SledStore.impl c mN mE)
        ((W.sledStore k' b).intoIterNodes (SledIndex.impl cl cr) (SledStore.impl c mN mE) .SPO) ∧
      out.2 = .ok () ∧ RdfShows (SledIndex.impl cl cr) (SledStore.impl c mN mE) out.1 (S.dbs b) := by
  intro W S hv hw out
  obtain ⟨l', rfl⟩ := hp
  rw [List.append_assoc] at hA
  obtain ⟨f, G, h1, h2, h3, h4⟩ := (rdf_moment hl hr tl tr hc ht gens names l₁ _ hA).1.self hl hr tl tr hc ht hv hw .extend _
    (fun _ src x H hr => hr.rdf_extend mN mE x) (fun _ src => ⟨rfl, rfl, rfl⟩)
  rw [show W.sledStore k b = RdfSelf.on (W.dbs b).names W.names (W.sledStore k b).graph from rfl, RdfSelf.extend_iff h1 hc h2]
  have e : (S.dbs b).graph.overlay (S.dbs b).graph = (S.dbs b).graph := by
    simp only [Graph.overlay, Option.or_self]
  rw [e] at h3
  refine ⟨fun ho => ⟨ho, ?_⟩, fun ho => ho.1⟩
  subst ho
  exact ⟨h4, h3⟩

/-- So with `merge`: every property is merged with itself once. -/
theorem C83_merge (hl : cl.RoundTrips) (hr : cr.RoundTrips) (tl : cl.Total) (tr : cr.Total) (hc : c.RoundTrip) (ht : c.Total)
    (gens : Nat → Gen Ulid) (names : Gen Ulid) (l l₁ : List (RdfCmd E NP EP)) {v w k k' b : Nat} (hp : l₁ ++ [.merge v w] <+: l)
    (hA : RdfApart (RdfUses l) (l.flatMap RdfCmd.ulids) (rdfProgCosts cl cr c mN mE (Verif.RdfWorld.start gens names) l) gens names) :
    let W := ((Verif.RdfWorld.start gens names).exec cl cr c mN mE l₁).1
    let S := (Spec.RdfWorld.start.exec mN mE l₁).1
    W.vars v = some (.sled k b) → W.vars w = some (.sled k' b) →
    ∀ out, RdfSelf.Merge cl cr c mN mE (W.sledStore k b) out ↔
      out = (W.sledStore k b).merge (SledIndex.impl cl cr) (SledStore.impl c mN mE)
        ((W.sledStore k' b).intoIterNodes (SledIndex.impl cl cr) (SledStore.impl c mN mE) .SPO) ∧
      out.2 = .ok () ∧ RdfShows (SledIndex.impl cl cr) (SledStore.impl c mN mE) out.1
        { known := (S.dbs b).known
          graph := { nodes := fun x => ((S.dbs b).graph.nodes x).map fun p => mN p p
                     edges := fun t => ((S.dbs b).graph.edges t).map fun p => mE p p } } := by
  intro W S hv hw out
  obtain ⟨l', rfl⟩ := hp
  rw [List.append_assoc] at hA
  obtain ⟨f, G, h1, h2, h3, h4⟩ := (rdf_moment hl hr tl tr hc ht gens names l₁ _ hA).1.self hl hr tl tr hc ht hv hw .merge _
    (fun _ src x H hr => hr.rdf_merge mN mE x) (fun _ src => ⟨rfl, rfl, rfl⟩)
  rw [show W.sledStore k b = RdfSelf.on (W.dbs b).names W.names (W.sledStore k b).graph from rfl, RdfSelf.merge_iff h1 hc h2]
  have e : (S.dbs b).graph.mergeWith mN mE (S.dbs b).graph =
      { nodes := fun x => ((S.dbs b).graph.nodes x).map fun p => mN p p
        edges := fun t => ((S.dbs b).graph.edges t).map fun p => mE p p } := by
    simp only [Graph.mergeWith]
    congr 1
    · funext x; cases (S.dbs b).graph.nodes x <;> rfl
    · funext x; cases (S.dbs b).graph.edges x <;> rfl
  rw [e] at h3
  refine ⟨fun ho => ⟨ho, ?_⟩, fun ho => ho.1⟩
  subst ho
  exact ⟨h4, h3⟩

end

/-! ### Examples -/

namespace RdfWorldSample

set_option maxRecDepth 100000

section
variable {E NP EP : Type} {cl : Codec String} {cr : Codec Ulid} {c : Codecs NP EP} {mN : NP → NP → NP} {mE : EP → EP → EP}

/-- the generator whose ids a command draws -/
def drawn (W : Verif.RdfWorld NP EP) : RdfCmd E NP EP → Nat
  | .call v _ | .extend v _ | .merge v _ => match W.vars v with | some h => genOf h | none => 0
  | .run _ _ _ k => k
  | _ => 0

/-- a bound on the ids drawn of each generator -/
def total (cl : Codec String) (cr : Codec Ulid) (c : Codecs NP EP) (mN : NP → NP → NP) (mE : EP → EP → EP) :
    Verif.RdfWorld NP EP → List (RdfCmd E NP EP) → Nat
  | _, [] => 0
  | W, x :: l => total cl cr c mN mE (W.step cl cr c mN mE x).1 l + (rdfCmdCosts cl cr c mN mE W x).1 (drawn W x)

theorem cmdCosts_le (W : Verif.RdfWorld NP EP) (x : RdfCmd E NP EP) (k : Nat) :
    (rdfCmdCosts cl cr c mN mE W x).1 k ≤ (rdfCmdCosts cl cr c mN mE W x).1 (drawn W x) := by
  have hk (k k' n : Nat) : (costs k n).1 k' ≤ (costs k n).1 k := by simp only [costs]; split <;> simp
  cases x <;> simp only [rdfCmdCosts, drawn, rdfCosts, rdfFeedCosts] <;> (repeat' split) <;> simp_all

theorem progCosts_le (W : Verif.RdfWorld NP EP) (l : List (RdfCmd E NP EP)) (k : Nat) :
    (rdfProgCosts cl cr c mN mE W l).1 k ≤ total cl cr c mN mE W l := by
  induction l generalizing W with
  | nil => exact Nat.le_refl 0
  | cons x l ih => exact Nat.add_le_add (ih _) (cmdCosts_le W x k)

end

open Sample

/-- A store in memory is moved into one on a database, of which another store sees the names; a query is asked, the answer
goes on by itself, learns a name and is merged back; two stores on one database are merged. -/
def prog : List (RdfCmd String Nat Nat) :=
  [.newMem 0 0, .call 0 (.insertNode (.string "alice") 10), .call 0 (.insertEdge ⟨.string "alice", .string "knows", .ulid 5⟩ 7),
   .openSled 1 0 0, .extend 1 0, .openSled 2 0 0,
   .call 2 (.mergeEdge ⟨.string "alice", .string "knows", .ulid 5⟩ 1), .call 2 (.removeNode (.string "bob")),
   .run 1 (.SP [(.string "alice", .string "knows")]) 3 0, .run 1 (.S [.string "bob"]) 4 0,
   .call 3 (.insertNode (.string "bob") 20), .call 3 (.insertEdge ⟨.ulid 5, .string "knows", .string "bob"⟩ 8),
   .merge 1 3, .openSled 5 0 0, .merge 2 5, .extend 1 2,
   .run 1 (.SPO [⟨.string "alice", .string "knows", .string "alice"⟩]) 6 0]

/-- the edges a variable shows -/
def edges (W : Verif.RdfWorld Nat Nat) (v : Nat) : Option (List (Triple Entity × Nat)) :=
  match W.vars v with
  | none => none
  | some h => some (W.withSource names ids uc Sample.mN Sample.mE
      (fun src => src.edges.filterMap fun r => match r with | .ok x => some x | .error _ => none) h)

/-- the nodes a variable shows -/
def nodes (W : Verif.RdfWorld Nat Nat) (v : Nat) : Option (List (Entity × Nat)) :=
  match W.vars v with
  | none => none
  | some h => some (W.withSource names ids uc Sample.mN Sample.mE
      (fun src => src.nodes.filterMap fun r => match r with | .ok x => some x | .error _ => none) h)

abbrev w0 : Verif.RdfWorld Nat Nat := .start (fun k => eg (0 * k)) (ul 0)

theorem prog_costs : total names ids uc Sample.mN Sample.mE w0 prog ≤ 1000 := by decide +kernel

theorem prog_names : (rdfProgCosts names ids uc Sample.mN Sample.mE w0 prog).2 ≤ 1000 := by decide +kernel

theorem prog_ulids : ∀ u ∈ prog.flatMap RdfCmd.ulids, u = 5 := by
  have h : ((prog.flatMap RdfCmd.ulids).all fun u => decide (u = 5)) = true := by decide +kernel
  intro u hu
  exact of_decide_eq_true (List.all_eq_true.1 h u hu)

theorem prog_apart : RdfApart (RdfUses prog) (prog.flatMap RdfCmd.ulids) (rdfProgCosts names ids uc Sample.mN Sample.mE w0 prog)
    (fun k => eg (0 * k)) (ul 0) where
  gen k := eg_fresh _ _ (Nat.le_trans (progCosts_le _ _ _) prog_costs)
  name := ul_fresh _ _ prog_names
  cross := by
    have h0 : ∀ b k, RdfUses prog b k → k = 0 := by
      rintro b k ⟨v, hv⟩
      simp only [prog, List.mem_cons, reduceCtorEq, RdfCmd.openSled.injEq, List.not_mem_nil, or_false, false_or] at hv
      rcases hv with h | h | h <;> exact h.2.2
    intro b k k' hk hk' _ _ _ _ _
    rw [h0 b k hk, h0 b k' hk']
  explicit u hu j hj := ul_clean _ 0 prog_names u (by rw [prog_ulids u hu]; simp) j hj

-- the program meets the hypotheses of C82 …
example (l₁ : List (RdfCmd String Nat Nat)) (hp : l₁ <+: prog) :
    RdfAgrees names ids uc Sample.mN Sample.mE (w0.exec names ids uc Sample.mN Sample.mE l₁).1
        (Spec.RdfWorld.start.exec Sample.mN Sample.mE l₁).1 ∧
      (w0.exec names ids uc Sample.mN Sample.mE l₁).2 = (Spec.RdfWorld.start.exec Sample.mN Sample.mE l₁).2 :=
  C82_programs names_rt ids_rt names_total ids_total uc_rt uc_total _ _ prog l₁ hp prog_apart

-- … and this is what it does
example : (w0.exec names ids uc Sample.mN Sample.mE prog).2 =
    [.done, .done, .done, .done, .done, .done, .done, .unknown "bob", .done, .unknown "bob", .done, .done, .done, .done, .done, .done,
     .done] := by decide +kernel
example : nodes (w0.exec names ids uc Sample.mN Sample.mE prog).1 1 = some [(.string "alice", 20), (.string "bob", 40)] := by
  decide +kernel
example : edges (w0.exec names ids uc Sample.mN Sample.mE prog).1 1 =
    some [(⟨.ulid 5, .string "knows", .string "bob"⟩, 88), (⟨.string "alice", .string "knows", .ulid 5⟩, 8591)] := by
  decide +kernel

def isSled (W : Verif.RdfWorld Nat Nat) (v k b : Nat) : Bool :=
  match W.vars v with
  | some (.sled k' b') => k' == k && b' == b
  | _ => false

theorem isSled_eq {W : Verif.RdfWorld Nat Nat} {v k b : Nat} (h : isSled W v k b = true) : W.vars v = some (.sled k b) := by
  unfold isSled at h
  split at h
  · next e => simp only [Bool.and_eq_true, beq_iff_eq] at h; rw [e, h.1, h.2]
  · cases h

-- C83: the last `merge` and `extend` of the program are of two stores on one database
example (out : RdfSelf.Out) : RdfSelf.Merge names ids uc Sample.mN Sample.mE
      ((w0.exec names ids uc Sample.mN Sample.mE (prog.take 14)).1.sledStore 0 0) out → out.2 = .ok () := fun h =>
  ((C83_merge names_rt ids_rt names_total ids_total uc_rt uc_total (fun k => eg (0 * k)) (ul 0) prog (prog.take 14) (v := 2) (w := 5)
    (k := 0) (k' := 0) (b := 0) ⟨prog.drop 15, rfl⟩ prog_apart (isSled_eq (by decide +kernel)) (isSled_eq (by decide +kernel)) out).1
      h).2.1

example (out : RdfSelf.Out) : RdfSelf.Extend names ids uc Sample.mN Sample.mE
      ((w0.exec names ids uc Sample.mN Sample.mE (prog.take 15)).1.sledStore 0 0) out → out.2 = .ok () := fun h =>
  ((C83_extend names_rt ids_rt names_total ids_total uc_rt uc_total (fun k => eg (0 * k)) (ul 0) prog (prog.take 15) (v := 1) (w := 2)
    (k := 0) (k' := 0) (b := 0) ⟨prog.drop 16, rfl⟩ prog_apart (isSled_eq (by decide +kernel)) (isSled_eq (by decide +kernel)) out).1
      h).2.1

/-- One store holds a ULID explicitly which another store has given to a name. -/
def aliasProg : List (RdfCmd String Nat Nat) :=
  [.newMem 0 0, .call 0 (.insertNode (.ulid (ul 0 0)) 1), .newMem 1 0, .call 1 (.insertNode (.string "alice") 10), .extend 1 0]

end RdfWorldSample

open RdfWorldSample in
/-- That no name of any store gets a ULID which is given explicitly to any other is necessary: otherwise a node of one store
overwrites a node of another entity in the other when it is fed to it. -/
theorem C82_alias :
    nodes (w0.exec Sample.names Sample.ids Sample.uc Sample.mN Sample.mE aliasProg).1 1 = some [(.string "alice", 1)] ∧
      ¬ RdfAgrees Sample.names Sample.ids Sample.uc Sample.mN Sample.mE
        (w0.exec Sample.names Sample.ids Sample.uc Sample.mN Sample.mE aliasProg).1
        (Spec.RdfWorld.start.exec Sample.mN Sample.mE aliasProg).1 := by
  have hn : nodes (w0.exec Sample.names Sample.ids Sample.uc Sample.mN Sample.mE aliasProg).1 1 = some [(.string "alice", 1)] := by
    decide +kernel
  refine ⟨hn, fun h => ?_⟩
  have h := h.2 1
  have hS : (Spec.RdfWorld.start.exec (E := String) Sample.mN Sample.mE aliasProg).1.vars 1 = some (.own
      { known := RdfState.hear (fun s => s = "alice")
          ((Graph.empty : Graph Entity Nat Nat).insertNode (.ulid (Sample.ul 0 0)) 1)
        graph := (Graph.empty.insertNode (.string "alice") 10).overlay (Graph.empty.insertNode (.ulid (Sample.ul 0 0)) 1) }) := by
    simp [aliasProg, Spec.RdfWorld.exec, Spec.RdfWorld.step, Spec.RdfWorld.setVar, Spec.RdfWorld.setState, Spec.RdfWorld.start,
      Spec.RdfWorld.state, Spec.RdfWorld.feed, RdfState.step, RdfState.change, storeNode, RdfState.learn, RdfState.empty, Function.update]
  rw [hS] at h
  unfold nodes at hn
  generalize (w0.exec Sample.names Sample.ids Sample.uc Sample.mN Sample.mE aliasProg).1 = W at h hn
  generalize W.vars 1 = a at h hn
  rcases a with _ | ⟨k, i, s⟩ | ⟨k, b⟩
  · cases hn
  · have hN := (h.1.intoIterNodes .SPO).1
    simp only [Option.some.injEq] at hn
    obtain ⟨l, hl, hm⟩ := hN
    simp only [Verif.RdfWorld.withSource] at hn
    rw [hl] at hn
    have e : (Entity.string "alice", 1) ∈ [(Entity.string "alice", 1)] := List.mem_singleton.2 rfl
    rw [← hn] at e
    obtain ⟨r, hr, e⟩ := List.mem_filterMap.1 e
    obtain ⟨x, hx, rfl⟩ := List.mem_map.mp hr
    cases e
    have := (hm.2 _ _).1 hx
    simp [Graph.overlay, Graph.insertNode, Graph.empty] at this
  · exact h

end Verif.Props
