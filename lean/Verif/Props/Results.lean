import Verif.Proof.RdfResults
import Verif.Props.SledWell
import Verif.Props.NameRace
import Verif.Props.RdfSledLoose

/-!
# C84: what concurrent calls return

The other theorems about threads say what becomes of the database.  These say what the threads are told.
-/

set_option maxRecDepth 100000

namespace Verif.Props

open Verif Spec ConcreteId

section
open Sled
variable {Id NP EP E : Type} [LinearOrder Id] [ConcreteId Id] {c : Codecs NP EP} {mN : NP → NP → NP} {mE : EP → EP → EP}

/-- What a call on a triple store returns depends on its arguments only, whatever is called concurrently, in whatever schedule, and
whatever is stored: the first error in its source, `SerializationError` for the first property that cannot be serialized, or success. -/
theorem C84_results (hc : c.RoundTrip) (hn : Mixes c.n mN) (he : Mixes c.e mE) {d0 d : Db} {threads : List (List (Call E Id NP EP))}
    (h0 : WellFormed Id c d0) (hs : ScansSized threads) {pre post : List (List (Prog Db (Except (LR SErr E) Unit)))}
    {r : Except (LR SErr E) Unit} {q : List (Prog Db (Except (LR SErr E) Unit))}
    (h : Steps (d0, threads.map (List.map (Call.result c mN mE))) (d, pre ++ (.ret r :: q) :: post)) :
    ∃ th x later, threads[pre.length]? = some th ∧ x :: later <:+ th ∧ later.length = q.length ∧ r = x.expected c := by
  refine left_ret (J := WellFormed Id c) (loc := fun _ => ()) (steps_framed (R := fun x r => r = x.expected c) h0
    (left_start _ _ (fun th hth x hx => ?_)) h).2
  exact Call.result_expected hc hn he x (fun n fwd bwd e => hs th hth n fwd bwd (e ▸ hx))

end

section
open RdfSled
variable {NP EP E : Type} {cl : Codec String} {cr : Codec Ulid} {c : Codecs NP EP} {mN : NP → NP → NP} {mE : EP → EP → EP}
variable (hl : cl.RoundTrips) (hr : cr.RoundTrips) (tl : cl.Total) (tr : cr.Total) (hc : c.RoundTrip) (hn : Mixes c.n mN)
  (he : Mixes c.e mE) {threads : List (List (Call E NP EP))} {f0 : String → Option Ulid} {d0 d : RdfDb}
include hl hr tl tr hc hn he

/-- What a call on an RDF store returns, others being at work: what it has to return alone; except that a call which creates names can
fail because another thread has created one of them, unknown at the start, in between; and that a removal can fail because of a name
unknown at the start, and succeed although of a name unknown at the start if some call creates it. -/
theorem C84_rdf (hw : Sled.WellFormed Ulid c d0.data) (hf : (SledIndex.impl cl cr).Shows d0.names f0)
    (hd : (threads.flatten.flatMap Call.ulids).Nodup) (hu : ∀ u ∈ threads.flatten.flatMap Call.ulids, ∀ s, f0 s ≠ some u)
    {pre post : List (List (Prog RdfDb (Except (LR Err E) Unit)))} {r : Except (LR Err E) Unit}
    {q : List (Prog RdfDb (Except (LR Err E) Unit))}
    (h : Steps (d0, threads.map (List.map (Call.result cl cr c mN mE))) (d, pre ++ (.ret r :: q) :: post)) :
    ∃ th x later, threads[pre.length]? = some th ∧ x :: later <:+ th ∧ later.length = q.length ∧
      x.Gives c (fun s => (f0 s).isSome) (fun s u => (f0 s).isSome = false ∧ MadeElsewhere threads pre.length s u) (Made threads) r := by
  obtain ⟨th, x, later, h1, h2, h3, h4⟩ := Outcome.results hl hr tl tr hc hn he hd hw hf hu h
  exact ⟨th, x, later, h1, h2, h3, Outcome.gives_made h4 (fun s ⟨_, th, hth, x, hx, h⟩ => ⟨th, hth, x, hx, h.1⟩)⟩

/-- If no two threads create the same new name, every call which uses only names that are known or that it creates returns what it has
to return alone. -/
theorem C84_quiet (hw : Sled.WellFormed Ulid c d0.data) (hf : (SledIndex.impl cl cr).Shows d0.names f0)
    (hd : (threads.flatten.flatMap Call.ulids).Nodup) (hu : ∀ u ∈ threads.flatten.flatMap Call.ulids, ∀ s, f0 s ≠ some u)
    (hq : NoNameRace (fun s => (f0 s).isSome) threads)
    {pre post : List (List (Prog RdfDb (Except (LR Err E) Unit)))} {r : Except (LR Err E) Unit}
    {q : List (Prog RdfDb (Except (LR Err E) Unit))}
    (h : Steps (d0, threads.map (List.map (Call.result cl cr c mN mE))) (d, pre ++ (.ret r :: q) :: post)) :
    ∃ th x later, threads[pre.length]? = some th ∧ x :: later <:+ th ∧ later.length = q.length ∧
      ((∀ s, .string s ∈ x.op.entities → (f0 s).isSome = true ∨ x.Creates s) → r = x.expected c) := by
  obtain ⟨th, x, later, h1, h2, h3, h4⟩ := C84_rdf hl hr tl tr hc hn he hw hf hd hu h
  refine ⟨th, x, later, h1, h2, h3, Outcome.gives_alone h4 ?_⟩
  rintro s u hx ⟨hs, j, th', hj, h5, y, hy, hy', -⟩
  have hx' : x ∈ th := h2.subset List.mem_cons_self
  obtain ⟨b1, e1⟩ := List.getElem?_eq_some_iff.1 h1
  obtain ⟨b2, e2⟩ := List.getElem?_eq_some_iff.1 h5
  have hp := List.pairwise_iff_getElem.1 hq
  have : (f0 s).isSome = true := by
    rcases Nat.lt_or_gt_of_ne hj with h | h
    · exact hp _ _ b2 b1 h y (e2 ▸ hy) x (e1 ▸ hx') s hy' hx
    · exact hp _ _ b1 b2 h x (e1 ▸ hx') y (e2 ▸ hy) s hx hy'
  rw [hs] at this
  cases this

/-- A removal with a name which is unknown at the start, and which no call creates, is told so. -/
theorem C84_unknown (hw : Sled.WellFormed Ulid c d0.data) (hf : (SledIndex.impl cl cr).Shows d0.names f0)
    (hd : (threads.flatten.flatMap Call.ulids).Nodup) (hu : ∀ u ∈ threads.flatten.flatMap Call.ulids, ∀ s, f0 s ≠ some u)
    {pre post : List (List (Prog RdfDb (Except (LR Err E) Unit)))} {r : Except (LR Err E) Unit}
    {q : List (Prog RdfDb (Except (LR Err E) Unit))}
    (h : Steps (d0, threads.map (List.map (Call.result cl cr c mN mE))) (d, pre ++ (.ret r :: q) :: post)) :
    ∃ th x later, threads[pre.length]? = some th ∧ x :: later <:+ th ∧ later.length = q.length ∧
      ∀ s, .string s ∈ x.op.entities → f0 s = none → ¬ Made threads s →
        ∃ s', .string s' ∈ x.op.entities ∧ f0 s' = none ∧ r = .error (.left (.nameNotFound s')) := by
  obtain ⟨th, x, later, h1, h2, h3, h4⟩ := C84_rdf hl hr tl tr hc hn he hw hf hd hu h
  refine ⟨th, x, later, h1, h2, h3, fun s hs hk hm => ?_⟩
  have hx' : x ∈ th := h2.subset List.mem_cons_self
  obtain ⟨s', a1, a2, a3⟩ := Outcome.gives_unknown h4 hs (by rw [hk]; rfl) hm
    (fun h => hm ⟨th, List.mem_of_getElem? h1, x, hx', h⟩)
  exact ⟨s', a1, by simpa using a2, a3⟩

end

/-! ## examples -/

/-- what thread `i` is just told -/
def told {S α : Type} (x : S × List (List (Prog S α))) (i : Nat) : Option α :=
  match x.2[i]? with
  | some (.ret r :: _) => some r
  | _ => none

theorem Sample.uc_mixesN : Mixes Sample.uc.n Sample.mN := fun old p _ => (Sample.uc_total.1 _).trans (Sample.uc_total.1 p).symm

theorem Sample.uc_mixesE : Mixes Sample.uc.e Sample.mE := fun old p _ => (Sample.uc_total.2 _).trans (Sample.uc_total.2 p).symm

section
open Sled

/-- a codec that cannot serialize large numbers -/
def fussyCodec : Codec Nat := { ser := fun n => if n < 100 then Sample.uc.n.ser n else none, de := Sample.uc.n.de }

def fussy : Codecs Nat Nat := { n := fussyCodec, e := fussyCodec }

theorem fussy_rt : fussy.RoundTrip := by
  have h : fussyCodec.RoundTrips := by
    intro p b hb
    simp only [fussyCodec] at hb
    split at hb
    · exact Sample.uc_rt.1 p b hb
    · cases hb
  exact ⟨h, h⟩

/-- merging takes the new value -/
theorem fussy_mixes : Mixes fussyCodec (fun _ p => p) := fun _ _ _ => rfl

/-- several threads; the last item of the second source is too large, the source of the third fails before that -/
def tellers : List (List (Sled.Call String U64 Nat Nat)) :=
  [[.insertNode 3 7, .insertEdge 100 ⟨3, 3, 3⟩ 200],
    [.extend (Sample.ul 300) { nodes := [.ok (1, 1)], edges := [.ok (⟨3, 3, 3⟩, 6), .ok (⟨4, 4, 4⟩, 300)] }],
    [.merge (Sample.cg 500) { nodes := [.ok (3, 3), .error "disk", .ok (4, 400)], edges := [] }], [.removeNode 3, .removeEdge ⟨3, 3, 3⟩]]

/-- The calls return the same in every schedule. -/
example {d : Db} {r : Except (LR SErr String) Unit} {q : List (Prog Db (Except (LR SErr String) Unit))}
    {pre post : List (List (Prog Db (Except (LR SErr String) Unit)))}
    (h : Steps (Db.empty, tellers.map (List.map (Sled.Call.result fussy (fun _ p => p) (fun _ p => p)))) (d, pre ++ (.ret r :: q) :: post)) :
    (pre.length = 0 → q.length = 0 → r = .error (.left .serialization)) ∧ (pre.length = 1 → r = .error (.left .serialization)) ∧
      (pre.length = 2 → r = .error (.right "disk")) ∧ (pre.length = 3 → r = .ok ()) := by
  obtain ⟨th, x, later, h1, h2, h3, h4⟩ := C84_results fussy_rt fussy_mixes fussy_mixes
    (WellFormed.empty (Id := U64) (c := fussy)) (by simp [ScansSized, tellers]) h
  have hx : x ∈ th := h2.subset List.mem_cons_self
  refine ⟨fun e e' => ?_, fun e => ?_, fun e => ?_, fun e => ?_⟩ <;> rw [e] at h1 <;> simp [tellers] at h1 <;> subst h1
  · obtain rfl := List.length_eq_zero_iff.1 (h3.trans e')
    obtain ⟨l, hl⟩ := h2
    have : x = .insertEdge 100 ⟨3, 3, 3⟩ 200 := by
      have := congrArg List.getLast? hl
      simpa using this
    rw [h4, this]
    decide +kernel
  · obtain rfl := List.mem_singleton.1 hx
    rw [h4]
    decide +kernel
  · obtain rfl := List.mem_singleton.1 hx
    rw [h4]
    decide +kernel
  · simp at hx
    rcases hx with rfl | rfl <;> exact h4

/-- such a moment -/
example : told ([1, 1, 0, 1, 1, 3, 2, 1, 3].foldl turn
    ((Db.empty, tellers.map (List.map (Sled.Call.result fussy (fun _ p => p) (fun _ p => p)))))) 1 = some (.error (.left .serialization)) := by
  decide +kernel

end

section
open RdfSled

/-- the hypotheses of the theorems -/
theorem rdfDb0_told {threads : List (List RCall)} (h : DistinctIds Sample.names Sample.ids Sample.uc [5] rdfDb0 threads)
    {f : String → Option Ulid} (hf : (SledIndex.impl Sample.names Sample.ids).Shows rdfDb0.names f) :
    Sled.WellFormed Ulid Sample.uc rdfDb0.data ∧ (threads.flatten.flatMap Call.ulids).Nodup ∧
      ∀ u ∈ threads.flatten.flatMap Call.ulids, ∀ s, f s ≠ some u := by
  refine ⟨rdfDb0_life.well Sample.uc_rt, h.ulids, fun u hu s e => ?_⟩
  obtain ⟨o, h1, h2⟩ := hf.2 u
  rw [h.names u hu] at h1
  cases h1
  exact absurd ((h2 s).2 e) (by simp)

/-- Two threads create the name "eve": each succeeds, or is told that the name has just got an id of the other. -/
example {f : String → Option Ulid} (hf : (SledIndex.impl Sample.names Sample.ids).Shows rdfDb0.names f) {d : RdfDb}
    {r : Except (LR Err String) Unit} {q : List (Prog RdfDb (Except (LR Err String) Unit))}
    {pre post : List (List (Prog RdfDb (Except (LR Err String) Unit)))} (hp : pre.length = 0)
    (h : Steps (rdfDb0, nameRace.map (List.map (Call.result Sample.names Sample.ids Sample.uc Sample.mN Sample.mE)))
      (d, pre ++ (.ret r :: q) :: post)) :
    r = .ok () ∨ ∃ u ∈ [Sample.ul 200 0, Sample.ul 200 1, Sample.ul 200 2],
      r = .error (.left (.nameIndex (.duplicateRight "eve" u (Sample.ul 100 0)))) := by
  obtain ⟨h1, h2, h3⟩ := rdfDb0_told nameRace_distinct hf
  obtain ⟨th, x, later, a1, a2, -, a4⟩ := C84_rdf Sample.names_rt Sample.ids_rt Sample.names_total Sample.ids_total Sample.uc_rt
    Sample.uc_mixesN Sample.uc_mixesE h1 hf h2 h3 h
  have hx : x ∈ th := a2.subset List.mem_cons_self
  rw [hp] at a1 a4
  simp [nameRace] at a1
  subst a1
  obtain rfl := List.mem_singleton.1 hx
  obtain ⟨r', hr, rfl⟩ := a4
  rcases hr with rfl | ⟨s, u, v, b1, b2, b3, rfl⟩
  · exact .inl rfl
  · right
    simp at b1
    subst b1
    obtain ⟨-, j, th, hj, b2, y, hy, b4, b5⟩ := b2
    have hv : v = Sample.ul 100 0 := by simpa [Call.ulids, Op.creations] using b3
    subst hv
    have hth := List.mem_of_getElem? b2
    simp [nameRace] at hth
    rcases hth with rfl | rfl
    · rcases j with _ | _ | j
      · exact absurd rfl hj
      · simp [nameRace] at b2
      · simp [nameRace] at b2
    · obtain rfl := List.mem_singleton.1 hy
      exact ⟨u, by simpa [Call.ulids, Op.creations, List.range_succ] using b5, rfl⟩

/-- and is told so by some schedule -/
example : told (([0, 1, 1, 1, 1, 1, 1, 0] : List Nat).foldl turn
    (rdfDb0, nameRace.map (List.map (Call.result Sample.names Sample.ids Sample.uc Sample.mN Sample.mE)))) 0 =
      some (.error (.left (.nameIndex (.duplicateRight "eve" (Sample.ul 200 0) (Sample.ul 100 0))))) := by decide +kernel

/-- threads that create different names; one removes a node nobody creates -/
def politeThreads : List (List RCall) :=
  [[⟨.insertNode (.string "eve") 1, ⟨Sample.ul 100, Sample.eg 100⟩⟩, ⟨.removeNode (.string "alice"), ⟨Sample.ul 100, Sample.eg 100⟩⟩],
    [⟨.mergeEdge ⟨.string "bob", .string "knows", .string "alice"⟩ 2, ⟨Sample.ul 200, Sample.eg 200⟩⟩],
    [⟨.removeEdge ⟨.string "bob", .string "of", .string "zoe"⟩, ⟨Sample.ul 300, Sample.eg 300⟩⟩]]

theorem polite_distinct : DistinctIds Sample.names Sample.ids Sample.uc [5] rdfDb0 politeThreads := by
  have h1 : ((politeThreads.flatten.flatMap Call.ulids).map Fin.val).Nodup := by decide +kernel
  have h2 : ((politeThreads.flatten.flatMap Call.records).map Fin.val).Nodup := by decide +kernel
  have h3 : ∀ n ∈ (politeThreads.flatten.flatMap Call.ulids).map Fin.val,
      n ∉ [(Sample.ul 0 0).val, (Sample.ul 50 0).val, (Sample.ul 50 1).val, 5] := by decide +kernel
  have h4 : ∀ n ∈ (politeThreads.flatten.flatMap Call.records).map Fin.val, n ≠ (Sample.eg 50 0).val := by decide +kernel
  exact rdfDb0_distinct h1 h2 h3 h4

theorem polite_noNameRace {f : String → Option Ulid} (hf : (SledIndex.impl Sample.names Sample.ids).Shows rdfDb0.names f) :
    NoNameRace (fun s => (f s).isSome) politeThreads := by
  simp [NoNameRace, politeThreads, Call.Creates, Op.entities, RdfState.parts]

/-- the first two threads are told that all is well -/
example {f : String → Option Ulid} (hf : (SledIndex.impl Sample.names Sample.ids).Shows rdfDb0.names f) {d : RdfDb}
    {r : Except (LR Err String) Unit} {q : List (Prog RdfDb (Except (LR Err String) Unit))}
    {pre post : List (List (Prog RdfDb (Except (LR Err String) Unit)))} (hp : pre.length = 0 ∨ pre.length = 1)
    (h : Steps (rdfDb0, politeThreads.map (List.map (Call.result Sample.names Sample.ids Sample.uc Sample.mN Sample.mE)))
      (d, pre ++ (.ret r :: q) :: post)) : r = .ok () := by
  obtain ⟨h1, h2, h3⟩ := rdfDb0_told polite_distinct hf
  obtain ⟨th, x, later, a1, a2, -, a4⟩ := C84_quiet Sample.names_rt Sample.ids_rt Sample.names_total Sample.ids_total Sample.uc_rt
    Sample.uc_mixesN Sample.uc_mixesE h1 hf h2 h3 (polite_noNameRace hf) h
  have hx : x ∈ th := a2.subset List.mem_cons_self
  have f1 : f "alice" = some (Sample.ul 0 0) := by
    have e : (SledIndex.impl Sample.names Sample.ids).leftToRight rdfDb0.names "alice" = .ok (some (Sample.ul 0 0)) := by decide +kernel
    exact Except.ok.inj ((hf.1 _).symm.trans e)
  rcases hp with hp | hp <;> rw [hp] at a1 <;> simp [politeThreads] at a1 <;> subst a1 <;> simp at hx
  · rcases hx with rfl | rfl
    · exact a4 (by simp [Call.Creates, Op.entities])
    · exact a4 (by simp [Op.entities, f1])
  · subst hx
    exact a4 (by simp [Call.Creates, Op.entities, RdfState.parts])

/-- The third is told about a name that is not there: "zoe", or "bob" if that is not there yet. -/
example {f : String → Option Ulid} (hf : (SledIndex.impl Sample.names Sample.ids).Shows rdfDb0.names f) {d : RdfDb}
    {r : Except (LR Err String) Unit} {q : List (Prog RdfDb (Except (LR Err String) Unit))}
    {pre post : List (List (Prog RdfDb (Except (LR Err String) Unit)))} (hp : pre.length = 2)
    (h : Steps (rdfDb0, politeThreads.map (List.map (Call.result Sample.names Sample.ids Sample.uc Sample.mN Sample.mE)))
      (d, pre ++ (.ret r :: q) :: post)) : ∃ s ∈ ["bob", "of", "zoe"], r = .error (.left (.nameNotFound s)) := by
  obtain ⟨h1, h2, h3⟩ := rdfDb0_told polite_distinct hf
  obtain ⟨th, x, later, a1, a2, -, a4⟩ := C84_unknown Sample.names_rt Sample.ids_rt Sample.names_total Sample.ids_total Sample.uc_rt
    Sample.uc_mixesN Sample.uc_mixesE h1 hf h2 h3 h
  have hx : x ∈ th := a2.subset List.mem_cons_self
  have f1 : f "zoe" = none := by
    have e : (SledIndex.impl Sample.names Sample.ids).leftToRight rdfDb0.names "zoe" = .ok none := by decide +kernel
    exact Except.ok.inj ((hf.1 _).symm.trans e)
  rw [hp] at a1
  simp [politeThreads] at a1
  subst a1
  obtain rfl := List.mem_singleton.1 hx
  obtain ⟨s, b1, -, b2⟩ := a4 "zoe" (by simp [Op.entities, RdfState.parts]) f1
    (by simp [Made, politeThreads, Call.Creates, Op.entities, RdfState.parts])
  exact ⟨s, by simpa [Op.entities, RdfState.parts] using b1, b2⟩

/-- both happen -/
example : told (([2] : List Nat).foldl turn
      (rdfDb0, politeThreads.map (List.map (Call.result Sample.names Sample.ids Sample.uc Sample.mN Sample.mE)))) 2 =
        some (.error (.left (.nameNotFound "bob"))) ∧
    told (([1, 1, 2, 2, 2] : List Nat).foldl turn
      (rdfDb0, politeThreads.map (List.map (Call.result Sample.names Sample.ids Sample.uc Sample.mN Sample.mE)))) 2 =
        some (.error (.left (.nameNotFound "zoe"))) := by decide +kernel

end

end Verif.Props
