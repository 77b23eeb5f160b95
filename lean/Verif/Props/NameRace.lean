import Verif.Proof.NameRace
import Verif.Props.RdfSledConc

/-!
# C61: every race for a name can go wrong

`C61_final_partial` assumes that no two threads create the same name.  Here: whenever two calls of different threads create the same
name, one of them can fail.
-/

set_option maxRecDepth 100000

namespace Verif.RdfSled

open Spec ConcreteId

variable {NP EP E : Type} {cl : Codec String} {cr : Codec Ulid} {c : Codecs NP EP} {mN : NP → NP → NP} {mE : EP → EP → EP}
  {C : List Ulid} {s : String}

/-! ## names are not forgotten -/

theorem change_known {x : RdfState NP EP} (h : x.known s = true) (es : List Entity) (o : Option (Graph Entity NP EP)) :
    (x.change (E := E) es o).1.known s = true := by
  cases o <;> simp [RdfState.change, RdfState.learn, h]

theorem remove_known {x : RdfState NP EP} (h : x.known s = true) (es : List Entity) (H : Graph Entity NP EP) :
    (x.remove (E := E) es H).1.known s = true := by
  unfold RdfState.remove
  split <;> exact h

theorem takeIn_known {α : Type} {f : RdfState NP EP → α → RdfState NP EP × RdfOutcome E}
    (hf : ∀ x a, x.known s = true → (f x a).1.known s = true) (l : List (Except E α)) {x : RdfState NP EP} (h : x.known s = true) :
    (RdfState.takeIn f x l).1.known s = true := by
  induction l generalizing x with
  | nil => exact h
  | cons a l ih =>
    cases a with
    | error e => exact h
    | ok a =>
      have := hf x a h
      unfold RdfState.takeIn
      split
      · rename_i x' e
        rw [e] at this
        exact ih this
      · exact this

theorem both_known {fN : RdfState NP EP → Entity × NP → RdfState NP EP × RdfOutcome E}
    {fE : RdfState NP EP → Triple Entity × EP → RdfState NP EP × RdfOutcome E}
    (hN : ∀ x a, x.known s = true → (fN x a).1.known s = true) (hE : ∀ x a, x.known s = true → (fE x a).1.known s = true)
    (src : Source E Entity NP EP) {x : RdfState NP EP} (h : x.known s = true) : (x.both fN fE src).1.known s = true := by
  have := takeIn_known hN src.nodes h
  unfold RdfState.both
  split
  · rename_i x' e
    rw [e] at this
    exact takeIn_known hE src.edges this
  · exact this

theorem deed_known {okN : NP → Bool} {okE : EP → Bool} {x : RdfState NP EP} (h : x.known s = true) (o : RdfDeed E NP EP) :
    (x.deed okN okE mN mE o).known s = true := by
  cases o with
  | learn s' => simp [RdfState.deed, RdfState.learn, h]
  | op o =>
    cases o with
    | insertNode e p => exact change_known h _ _
    | insertEdge e p => exact change_known h _ _
    | mergeNode e p => exact change_known h _ _
    | mergeEdge e p => exact change_known h _ _
    | removeNode e => exact remove_known h _ _
    | removeEdge e => exact remove_known h _ _
    | extend src => exact both_known (fun _ _ h => change_known h _ _) (fun _ _ h => change_known h _ _) src h
    | merge src => exact both_known (fun _ _ h => change_known h _ _) (fun _ _ h => change_known h _ _) src h

theorem deeds_known {okN : NP → Bool} {okE : EP → Bool} (l : List (RdfDeed E NP EP)) {x : RdfState NP EP}
    (h : x.known s = true ∨ .learn s ∈ l) : (l.foldl (fun (x : RdfState NP EP) o => x.deed okN okE mN mE o) x).known s = true := by
  induction l generalizing x with
  | nil =>
    rcases h with h | h
    · exact h
    · cases h
  | cons o l ih =>
    refine ih ?_
    rcases h with h | h
    · exact .inl (deed_known h o)
    · rcases List.mem_cons.1 h with rfl | h
      · left; simp [RdfState.deed, RdfState.learn]
      · exact .inr h

/-! ## alone -/

/-- the label of a call that nobody disturbs -/
def freeLabel (y : Call E NP EP) : Label where
  ulids u := u ∈ y.ulids
  recs v := v ∈ y.records
  role := ⟨fun _ => True, fun _ => True, fun _ => True, fun _ => True⟩

/-- the label of a call that waits -/
def waitLabel (y : Call E NP EP) : Label where
  ulids u := u ∈ y.ulids
  recs v := v ∈ y.records
  role := ⟨fun _ => False, fun _ => False, fun _ => False, fun _ => False⟩

theorem fit_of_wait {y : Call E NP EP} {g : Ghost NP EP} (h : Fit c C (waitLabel y) g) : Fit c C (freeLabel y) g := ⟨h.1, h.2⟩

theorem new_ids {d0 : RdfDb} {threads : List (List (Call E NP EP))} (hf : Fair cl cr c C d0 threads) {th : List (Call E NP EP)}
    (hth : th ∈ threads) {y : Call E NP EP} (hy : y ∈ th) :
    NewIds cl cr c C (0 + y.op.draws) (0 + y.op.creations) y.ids.ulid y.ids.gen d0 := by
  have hm : y ∈ threads.flatten := List.mem_flatten.2 ⟨th, hth, hy⟩
  have hu : ∀ j < 0 + y.op.creations, y.ids.ulid j ∈ threads.flatten.flatMap Call.ulids := fun j hj =>
    List.mem_flatMap.2 ⟨y, hm, List.mem_map.2 ⟨j, List.mem_range.2 (by omega), rfl⟩⟩
  have hv : ∀ j < 0 + y.op.draws, y.ids.gen j ∈ threads.flatten.flatMap Call.records := fun j hj =>
    List.mem_flatMap.2 ⟨y, hm, List.mem_map.2 ⟨j, List.mem_range.2 (by omega), rfl⟩⟩
  refine ⟨?_, fun j hj => hf.ids.names _ (hu j hj), fun j hj => hf.ids.nodes _ (hu j hj), fun j hj => hf.ids.edges _ (hu j hj),
    fun v hv j hj e => hf.ids.explicit _ (hu j hj) (e ▸ hv), ?_, fun e he => ⟨fun i hi => hf.ids.unused _ (hv i hi) e he,
      fun j hj => absurd hj (Nat.not_lt_zero _)⟩⟩
  · rw [Nat.zero_add]; exact nodup_range ((List.nodup_flatMap.1 hf.ids.ulids).1 y hm)
  · rw [Nat.zero_add]; exact nodup_range ((List.nodup_flatMap.1 hf.ids.records).1 y hm)

theorem supply {d0 : RdfDb} {threads : List (List (Call E NP EP))} (hf : Fair cl cr c C d0 threads) {th : List (Call E NP EP)}
    (hth : th ∈ threads) {y : Call E NP EP} (hy : y ∈ th) : Supply y.op.creations y.op.draws y.ids (freeLabel y) := by
  have hm : y ∈ threads.flatten := List.mem_flatten.2 ⟨th, hth, hy⟩
  exact ⟨nodup_range ((List.nodup_flatMap.1 hf.ids.ulids).1 y hm), nodup_range ((List.nodup_flatMap.1 hf.ids.records).1 y hm),
    fun j hj => List.mem_map.2 ⟨j, List.mem_range.2 hj, rfl⟩, fun j hj => List.mem_map.2 ⟨j, List.mem_range.2 hj, rfl⟩⟩

end Verif.RdfSled

namespace Verif.Props

open Verif Spec ConcreteId RdfSled

variable {NP EP E : Type} {cl : Codec String} {cr : Codec Ulid} {c : Codecs NP EP} {mN : NP → NP → NP} {mE : EP → EP → EP}
  {C : List Ulid}

section
variable (hl : cl.RoundTrips) (hr : cr.RoundTrips) (tl : cl.Total) (tr : cr.Total) (hc : c.RoundTrip)
include hl hr tl tr hc

/-- Two calls make the same new name known, and are otherwise as good as `C61_final_partial` wants them.  Then the first fails if the
second one runs at a certain moment in its midst: it reports that the name exists, and does nothing more.  All that is done is what
the first did before it came to the name, and the second. -/
theorem C61_every_race {d0 : RdfDb} (h : Life cl cr c mN mE E C d0) {u g : Gen Ulid} {x : RdfState NP EP}
    (hx : (openOn d0 u g).HoldsState (SledIndex.impl cl cr) (SledStore.impl c mN mE) x) (ht : c.Total) {y z : RdfSled.Call E NP EP}
    (hf : Fair cl cr c C d0 [[y], [z]]) {s : String} (hs : x.known s = false) (hy : .learn s ∈ y.op.deeds)
    (hz : .learn s ∈ z.op.deeds) :
    ∃ k d i v w l, (prog cl cr c mN mE y.op y.ids).around k (prog cl cr c mN mE z.op z.ids) d0 =
        (d, i, .error (.left (.nameIndex (.duplicateRight s v w)))) ∧
      Final cl cr c mN mE d0 [[y], [z]] d ∧ l <+: y.op.deeds ∧ .learn s ∉ l ∧
      ∀ u g, (openOn d u g).HoldsState (SledIndex.impl cl cr) (SledStore.impl c mN mE)
        ((l ++ z.op.deeds).foldl (fun x o => x.deed c.okN c.okE mN mE o) x) := by
  obtain ⟨x', hx'⟩ := h.leaves hl hr tl tr hc
  obtain rfl := hx.unique (hx'.holds hc u g)
  have my : [y] ∈ [[y], [z]] := by simp
  have mz : [z] ∈ [[y], [z]] := by simp
  -- the first call gets to the point where it creates the name
  obtain ⟨k, h1, h2⟩ := trap_prog (mN := mN) (mE := mE) hl hr tl tr hc ht y.op (hf.explicit _ my y (by simp))
    (hx'.is (new_ids hf my (by simp))) hs hy
  change (SledIndex.impl cl cr).leftToRight (((prog cl cr c mN mE y.op y.ids).pause k d0).1).names s = .ok none at h1
  change ∀ d' u, (SledIndex.impl cl cr).leftToRight d'.names s = .ok (some u) →
      ∃ i v, ((prog cl cr c mN mE y.op y.ids).pause k d0).2.run d' = (d', (i, .error (.left (.nameIndex (.duplicateRight s u v))))) at h2
  obtain ⟨k', e1⟩ := Prog.pause_bind_left k (prog cl cr c mN mE y.op y.ids) (fun _ => Prog.ret ()) d0
  generalize e2 : (prog cl cr c mN mE y.op y.ids).pause k d0 = at1 at h1 h2 e1
  obtain ⟨d1, rest⟩ := at1
  dsimp only at h1 h2 e1
  -- what it has done
  obtain ⟨f, i1, i2, i3, i4⟩ := hx'
  have snd0 : Sound cl cr c C (fun _ => false) d0 { f := f, d := d0.data, x := x } := ⟨i1, rfl, i2, i3, i4, fun _ h => by cases h⟩
  have does : ∀ w ∈ [y, z], ∀ q, Acts E cl cr c mN mE C (fun _ => false) false (w.prog cl cr c mN mE) (freeLabel w) q w.op.deeds := by
    intro w hw q
    have hm : [w] ∈ [[y], [z]] := by
      simp only [List.mem_cons, List.not_mem_nil, or_false] at hw
      rcases hw with rfl | rfl <;> simp
    exact acts_prog hl hr tl tr hc (.inr ht) (hf.simple _ hm w (by simp)) (hf.explicit _ hm w (by simp))
      (fun _ _ => ⟨trivial, .inr (.inl trivial)⟩) (fun _ _ => trivial) (fun _ _ => trivial) rfl (supply hf hm (by simp))
  have fy : Fit c C (freeLabel y) { f := f, d := d0.data, x := x } :=
    ⟨(fit_start (b := true) (known := fun _ => false) i1 i2 hf.ids my (by simp)).1,
      (fit_start (b := true) (known := fun _ => false) (x0 := x) i1 i2 hf.ids my (by simp)).2⟩
  have fz : Fit c C (waitLabel z) { f := f, d := d0.data, x := x } :=
    ⟨(fit_start (b := true) (known := fun _ => false) i1 i2 hf.ids mz (by simp)).1,
      (fit_start (b := true) (known := fun _ => false) (x0 := x) i1 i2 hf.ids mz (by simp)).2⟩
  obtain ⟨g1, l, l', hl1, snd1, hg1, hw⟩ := RG.does_pause (rules cl cr c C (fun _ => false)) k' (does y (by simp) _) snd0 fy
  rw [show (y.prog cl cr c mN mE).pause k' d0 = (d1, rest.bind (fun _ => Prog.ret ())) from e1] at snd1
  change g1.x = l.foldl (fun (x : RdfState NP EP) o => x.deed c.okN c.okE mN mE o) x at hg1
  -- it has not created the name
  have hn1 : g1.f s = none := Except.ok.inj ((snd1.names.1 s).symm.trans h1)
  have hk1 : g1.x.known s = false := by rw [snd1.agree.known s, hn1]; rfl
  have hsl : .learn s ∉ l := fun hm => by
    have := deeds_known (okN := c.okN) (okE := c.okE) (mN := mN) (mE := mE) l (x := x) (.inr hm)
    rw [← hg1, hk1] at this
    cases this
  -- the second call
  have du := (List.nodup_append.1 (show (y.ulids ++ z.ulids).Nodup by simpa using hf.ids.ulids)).2.2
  have dr := (List.nodup_append.1 (show (y.records ++ z.records).Nodup by simpa using hf.ids.records)).2.2
  have fz1 := fit_of_wait (hw (waitLabel z) ⟨fun u hu hu' => du u hu u hu' rfl, fun u hu hu' => dr u hu u hu' rfl, fun _ h => h.elim,
    fun _ h => h.elim⟩ fz)
  obtain ⟨g2, snd2, hg2⟩ := RG.does_run (rules cl cr c C (fun _ => false)) (does z (by simp) _) snd1 fz1
  have ez : ((z.prog cl cr c mN mE).run d1).1 = ((prog cl cr c mN mE z.op z.ids).run d1).1 := by
    unfold Call.prog
    rw [Prog.run_bind']
    rfl
  rw [ez] at snd2
  generalize e3 : ((prog cl cr c mN mE z.op z.ids).run d1).1 = d2 at snd2 ez
  change g2.x = z.op.deeds.foldl (fun (x : RdfState NP EP) o => x.deed c.okN c.okE mN mE o) g1.x at hg2
  have hk2 : g2.x.known s = true := by rw [hg2]; exact deeds_known _ (.inr hz)
  -- it has created the name
  obtain ⟨v, hv⟩ : ∃ v, g2.f s = some v := by
    rw [snd2.agree.known s] at hk2
    exact Option.isSome_iff_exists.1 hk2
  obtain ⟨i, w, h3⟩ := h2 d2 v (by rw [snd2.names.1 s, hv])
  refine ⟨k, d2, i, v, w, l, ?_, ?_, hl1 ▸ List.prefix_append _ _, hsl, ?_⟩
  · unfold Prog.around
    rw [e2]
    dsimp only
    rw [e3]
    exact h3
  · refine ⟨[[], []], ?_, by simp⟩
    have s1 := Prog.pause_steps k' (y.prog cl cr c mN mE) d0 [] [[z.prog cl cr c mN mE]] []
    rw [show (y.prog cl cr c mN mE).pause k' d0 = (d1, rest.bind (fun _ => Prog.ret ())) from e1] at s1
    have s2 := Prog.run_steps (z.prog cl cr c mN mE) d1 [[rest.bind (fun _ => Prog.ret ())]] [] []
    rw [ez] at s2
    have s3 := Prog.run_steps (rest.bind (fun _ => Prog.ret ())) d2 [] [[]] []
    rw [Prog.run_bind', h3] at s3
    exact Prog.calm_trans s1 (Prog.calm_trans s2 s3)
  · have : g2.x = (l ++ z.op.deeds).foldl (fun (x : RdfState NP EP) o => x.deed c.okN c.okE mN mE o) x := by
      rw [hg2, hg1, List.foldl_append]
    rw [← this]
    exact snd2.leaves.holds hc

end

/-! ### examples -/

/-- the two threads of `C61_nameRace_violated`: the node is lost -/
example (x : RdfState Nat Nat) (hx : (openOn rdfDb0 (Sample.ul 0) (Sample.eg 0)).HoldsState (SledIndex.impl Sample.names Sample.ids)
      (SledStore.impl Sample.uc Sample.mN Sample.mE) x) : ∃ d,
    RdfSled.Final Sample.names Sample.ids Sample.uc Sample.mN Sample.mE rdfDb0 nameRace d ∧
    ∀ u g, (openOn d u g).HoldsState (SledIndex.impl Sample.names Sample.ids) (SledStore.impl Sample.uc Sample.mN Sample.mE)
      ((nameRace[1][0].op.deeds).foldl (fun x o => x.deed Sample.uc.okN Sample.uc.okE Sample.mN Sample.mE o) x) := by
  have hs : x.known "eve" = false := by
    have e : ¬ ∃ v, (openOn rdfDb0 (Sample.ul 0) (Sample.eg 0)).lookupEntity (SX := SErr) (SledIndex.impl Sample.names Sample.ids)
        (.string "eve") = .ok v := by
      have : (openOn rdfDb0 (Sample.ul 0) (Sample.eg 0)).lookupEntity (SX := SErr) (SledIndex.impl Sample.names Sample.ids)
        (.string "eve") = .error (.nameNotFound "eve") := by decide +kernel
      rw [this]
      rintro ⟨v, h⟩
      cases h
    rw [hx.2 "eve"] at e
    simpa using e
  obtain ⟨k, d, i, v, w, l, -, h2, h3, h4, h5⟩ := C61_every_race Sample.names_rt Sample.ids_rt Sample.names_total Sample.ids_total
    Sample.uc_rt rdfDb0_life hx Sample.uc_total (y := nameRace[0][0]) (z := nameRace[1][0]) nameRace_fair hs
    (by simp [nameRace, Op.deeds, RdfDeed.after, names]) (by simp [nameRace, Op.deeds, RdfDeed.after, RdfState.parts, names])
  have hl : l = [] := by
    cases l with
    | nil => rfl
    | cons a l =>
      obtain ⟨t, ht⟩ := h3
      have : a = .learn "eve" := (List.cons.inj ht).1
      exact absurd (this ▸ List.mem_cons_self) h4
  rw [hl] at h5
  exact ⟨d, h2, h5⟩

/-- what happens: the first thread looks the name up, the second runs, the first fails -/
example :
    ((prog (E := String) Sample.names Sample.ids Sample.uc Sample.mN Sample.mE nameRace[0][0].op nameRace[0][0].ids).around 1
      (prog (E := String) Sample.names Sample.ids Sample.uc Sample.mN Sample.mE nameRace[1][0].op nameRace[1][0].ids) rdfDb0).2.2 =
      .error (.left (.nameIndex (.duplicateRight "eve" (Sample.ul 200 0) (Sample.ul 100 0)))) := by decide +kernel

end Verif.Props
