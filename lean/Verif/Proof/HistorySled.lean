import Verif.Proof.History
import Verif.Proof.SledBulk
import Verif.Proof.RdfSledConc

/-! # One history for all moments: stores on sled -/

set_option linter.unusedSectionVars false

namespace Verif

open Spec ConcreteId

/-- what is done belongs to a call -/
theorem Spec.Explains.sub {S T O C : Type} {b : Bool} {prog : C → Prog S Unit} {ops : C → List O} {st : T → O → T} {shows : S → T → Prop}
    {t0 : T} {threads : List (List C)} {x : Nat → S × List (List (Prog S Unit))} {N : Nat} {h : List (Nat × Nat × O)} {cut : Nat → Nat}
    (he : Explains b prog ops st shows t0 threads x N h cut) : ∀ e ∈ h, ∃ th ∈ threads, ∃ y ∈ th, e.2.2 ∈ ops y := by
  intro e hm
  obtain ⟨th, y, h1, h2⟩ := he.mine e hm
  exact ⟨th, List.mem_of_getElem? h1, y, List.mem_of_getElem? h2,
    (he.parts _ th _ y h1 h2).subset (List.mem_map.2 ⟨e, List.mem_filter.2 ⟨hm, by simp⟩, rfl⟩)⟩

/-- one state of knowledge for another -/
theorem Spec.Explains.imp {S T T' O C : Type} {b : Bool} {prog : C → Prog S Unit} {ops : C → List O} {st : T → O → T} {st' : T' → O → T'}
    {shows : S → T → Prop} {shows' : S → T' → Prop} {t0 : T} {t0' : T'} {threads : List (List C)}
    {x : Nat → S × List (List (Prog S Unit))} {N : Nat} {h : List (Nat × Nat × O)} {cut : Nat → Nat}
    (he : Explains b prog ops st shows t0 threads x N h cut)
    (hi : ∀ k ≤ N, ∀ l : List O, (∀ o ∈ l, ∃ th ∈ threads, ∃ y ∈ th, o ∈ ops y) → shows (x k).1 (l.foldl st t0) → shows' (x k).1 (l.foldl st' t0')) :
    Explains b prog ops st' shows' t0' threads x N h cut :=
  { he with
    shows := fun k hk => hi k hk _ (fun o ho => by
      obtain ⟨e, hm, rfl⟩ := List.mem_map.1 ho
      exact he.sub e (List.mem_of_mem_take hm)) (he.shows k hk) }

namespace Sled

variable {Id NP EP E : Type} [LinearOrder Id] [ConcreteId Id] [LawfulId Id]
variable {mN : NP → NP → NP} {mE : EP → EP → EP} {c : Codecs NP EP} {b : Bool} {d0 : Db} {ths : Programs E Id NP EP}

theorem history_programs (h0 : d0.Inv Id c) (hf : ∀ th ∈ ths, ∀ e ∈ th, Fine c mN mE b e) (hd : DistinctIds d0 ths.calls)
    (hr : NoRace ths.calls) (hn : NoNodeRace ths.calls) {C : Type} {prog : C → Prog Db Unit} {ops : C → List (Op E Id NP EP)}
    {threads : List (List C)}
    (e : threads.map (List.map (fun y => (prog y, ops y))) = ths.map (List.map (fun e => (e.1, e.2.ops))))
    {x : Nat → Db × List (List (Prog Db Unit))} {N : Nat} (hx : Course b x N) (hx0 : x 0 = (d0, ths.start)) :
    ∃ h cut, Explains b prog ops (fun G op => (op.step c.okN c.okE mN mE G).1) (fun d G => Shows (Sled.obs c d) G) (d0.graph c) threads
      x N h cut := by
  have hp := par_programs hr hn
  have hi : ∀ k ≤ N, (x k).1.Inv Id c := fun k hk => inv_programs h0 hf hd hp (hx0 ▸ course_steps hx k hk)
  refine explains_of (Core := CoreR (Db.Inv Id c) (fun d => d.graph c)
      (fun (G : Graph Id NP EP) (op : Op E Id NP EP) => (op.step c.okN c.okE mN mE G).1) b
      (fun (a : Role Id) (x y : Db) => (agreeRG Id).rely a (x, ()) (y, ())) (agreeRG Id).par) hx
    (coreR_step relyTrans relyRefl hx hi) ?_ ?_
  · rintro k hk t q ⟨ats, h1, rfl, -, -, rfl⟩
    exact ⟨by rw [h1]; simp [Function.comp_def], Sled.shows (hi k hk)⟩
  · rw [e, hx0]
    refine ⟨ths.map (List.map (fun e => (e.1, roleN e.2, e.2.ops))), by simp [Programs.start, Function.comp_def],
      by simp [Function.comp_def], ?_, ?_, rfl⟩
    · intro q hq
      obtain ⟨th, hth, rfl⟩ := List.mem_map.1 hq
      have hf := hf th hth
      cases th with
      | nil => trivial
      | cons x th =>
        refine ⟨(hf x List.mem_cons_self).does _, fun e he y => ?_⟩
        obtain ⟨z, hz, rfl⟩ := List.mem_map.1 he
        exact (hf z (List.mem_cons_of_mem _ hz)).does y
    · rw [List.pairwise_map]
      refine hp.imp (fun {th th'} h => ?_)
      intro e he e' he'
      obtain ⟨x, hx, rfl⟩ := List.mem_map.1 he
      obtain ⟨x', hx', rfl⟩ := List.mem_map.1 he'
      exact h x hx x' hx'

theorem history_bulk {cs : List (List (Call E Id NP EP))} (ec : ths.calls = cs) (h0 : d0.Inv Id c) (hd : DistinctIds d0 cs)
    (hf : ∀ th ∈ ths, ∀ e ∈ th, FineX c mN mE b (owner d0 (allWrites cs)) (Extended cs) e) (hr : NoRace cs)
    (hn : NoNodeRace cs) {C : Type} {prog : C → Prog Db Unit} {ops : C → List (Op E Id NP EP)} {threads : List (List C)}
    (ho : ∀ y, ∃ z : Call E Id NP EP, ops y = z.items)
    (e : threads.map (List.map (fun y => (prog y, ops y))) = ths.map (List.map (fun e => (e.1, e.2.items))))
    {x : Nat → Db × List (List (Prog Db Unit))} {N : Nat} (hx : Course b x N) (hx0 : x 0 = (d0, ths.start)) :
    ∃ h cut, Explains b prog ops (fun G op => (op.step c.okN c.okE mN mE G).1)
      (fun d G => (∀ n p, .ok (n, p) ∈ iterVertices Id c d ↔ G.nodes n = some p) ∧
        ∀ o t p, ¬ Extended cs t → (.ok (t, p) ∈ iterEdges Id c d o ↔ G.edges t = some p)) (d0.graph c) threads x N h cut := by
  subst ec
  have hp := par_programs hr hn
  have hi : ∀ k ≤ N, InvX c (owner d0 (allWrites ths.calls)) (Extended ths.calls) (x k).1 := fun k hk =>
    have hy : Steps (d0, ths.start) (x k) := hx0 ▸ course_steps hx k hk
    ⟨neat_programs (neat_start h0 hd) hf hy, fun t ht => agreeAt_programs ht (fun o => h0.same o t) hf hr hy⟩
  have main : ∃ h cut, Explains b prog ops (fun G op => off (Extended ths.calls) (op.step c.okN c.okE mN mE G).1)
      (fun d G => off (Extended ths.calls) (d.graph c) = G) (off (Extended ths.calls) (d0.graph c)) threads x N h cut := by
    refine explains_of (Core := CoreR (InvX c (owner d0 (allWrites ths.calls)) (Extended ths.calls))
        (fun d => off (Extended ths.calls) (d.graph c))
        (fun (G : Graph Id NP EP) (op : Op E Id NP EP) => off (Extended ths.calls) (op.step c.okN c.okE mN mE G).1) b (relyX (Extended ths.calls)) (agreeRG Id).par) hx
      (coreR_step relyX_trans relyX_refl hx hi) ?_ ?_
    · rintro k hk t q ⟨ats, h1, rfl, -, -, rfl⟩
      exact ⟨by rw [h1]; simp [Function.comp_def], rfl⟩
    · rw [e, hx0]
      refine ⟨ths.map (List.map (fun e => (e.1, roleN e.2, e.2.items))), by simp [Programs.start, Function.comp_def],
        by simp [Function.comp_def], ?_, ?_, rfl⟩
      · intro q hq
        obtain ⟨th, hth, rfl⟩ := List.mem_map.1 hq
        have hf := hf th hth
        cases th with
        | nil => trivial
        | cons x th =>
          refine ⟨(hf x List.mem_cons_self).does _, fun e he y => ?_⟩
          obtain ⟨z, hz, rfl⟩ := List.mem_map.1 he
          exact (hf z (List.mem_cons_of_mem _ hz)).does y
      · rw [List.pairwise_map]
        refine hp.imp (fun {th th'} h => ?_)
        intro e he e' he'
        obtain ⟨x, hx, rfl⟩ := List.mem_map.1 he
        obtain ⟨x', hx', rfl⟩ := List.mem_map.1 he'
        exact h x hx x' hx'
  obtain ⟨h, cut, he⟩ := main
  refine ⟨h, cut, he.imp (fun k hk l hl hs => ?_)⟩
  have hsingle : ∀ op ∈ l, Single op := by
    intro op hop
    obtain ⟨th, -, y, -, hy⟩ := hl op hop
    obtain ⟨z, hz⟩ := ho y
    rw [hz] at hy
    exact items_single z op hy
  obtain ⟨h2, h3⟩ := off_lin hsingle hs
  have hi := hi k hk
  refine ⟨fun n p => ?_, fun o t p ht => ?_⟩
  · rw [mem_iterVertices hi.neat.nodes, h2]; rfl
  · rw [mem_iterEdges (hi.neat.keys o)]
    have h3 := h3 t ht
    unfold stepAll at h3
    rw [← h3]
    show (x k).1.view c o t = _ ↔ (x k).1.view c .SPO t = _
    unfold Db.view
    rw [hi.same t ht o]

end Sled

namespace RdfSled

variable {NP EP E : Type} {cl : Codec String} {cr : Codec Ulid} {c : Codecs NP EP} {mN : NP → NP → NP} {mE : EP → EP → EP}
  {C : List Ulid} {b : Bool}

theorem history_start (hl : cl.RoundTrips) (hr : cr.RoundTrips) (tl : cl.Total) (tr : cr.Total) (hc : c.RoundTrip)
    (hb : b = true ∨ c.Total) {d0 : RdfDb} {x0 : RdfState NP EP} (h0 : Leaves cl cr c C d0 x0)
    {threads : List (List (Call E NP EP))} (hf : Fair cl cr c C d0 threads) (hn : b = true ∨ NoNameRace x0.known threads)
    {x : Nat → RdfDb × List (List (Prog RdfDb Unit))} {N : Nat} (hx : Course b x N) (hx0 : x 0 = start cl cr c mN mE d0 threads) :
    ∃ h cut, Explains b (Call.prog cl cr c mN mE) (fun y => y.op.deeds) (fun X o => X.deed c.okN c.okE mN mE o)
      (fun d X => ∀ u g, (openOn d u g).HoldsState (SledIndex.impl cl cr) (SledStore.impl c mN mE) X) x0 threads x N h cut := by
  refine explains_of (Core := (rules cl cr c C x0.known).Core Ghost.x (fun (x : RdfState NP EP) o => x.deed c.okN c.okE mN mE o) b) hx
    ((rules cl cr c C x0.known).core_step hx) ?_ ?_
  · rintro k hk t q ⟨g, ats, h1, rfl, h2, -, -, rfl⟩
    exact ⟨by rw [h1]; simp [Function.comp_def], Leaves.holds hc (Sound.leaves h2)⟩
  · obtain ⟨g, h1, h2, h3, h4⟩ := jobs_start (b := b) (mN := mN) (mE := mE) hl hr tl tr hc hb h0 hf hn
    rw [hx0]
    refine ⟨g, threads.map (fun th => th.map (jobOf cl cr c mN mE b x0.known th)), by simp [start, jobOf, Function.comp_def],
      by simp [jobOf, Function.comp_def], h1, h2, h3, h4⟩

end RdfSled

end Verif
