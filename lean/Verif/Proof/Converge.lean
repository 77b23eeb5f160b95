import Verif.Spec.Converge
import Verif.Proof.World
import Verif.Proof.RdfProgram
import Verif.Proof.SledSessions

/-! # What stores have heard -/

set_option linter.unusedSectionVars false

namespace Verif

namespace Spec

section
variable {α : Type} {f : α → α → α} {S T : α → Prop}

theorem Lub.congr (h : ∀ a, S a ↔ T a) {v : Option α} (hv : Lub f S v) : Lub f T v := by
  rwa [show T = S from funext (fun a => propext (h a).symm)]

theorem lub_single (h : Joins f) (a : α) : Lub f (fun b => b = a) (some a) :=
  ⟨⟨a, rfl⟩, fun b hb => hb ▸ h.idem b, fun _ hw => hw a rfl⟩

theorem lub_option (h : Joins f) (v : Option α) : Lub f (fun a => v = some a) v := by
  cases v with
  | none => intro a ha; cases ha
  | some a => exact (lub_single h a).congr (fun b => ⟨fun e => e ▸ rfl, fun e => (Option.some.inj e).symm⟩)

theorem Lub.union (h : Joins f) {v w : Option α} (hv : Lub f S v) (hw : Lub f T w) : Lub f (fun a => S a ∨ T a) (Graph.mergeOpt f v w) := by
  cases v with
  | none =>
    simp only [Graph.mergeOpt]
    exact hw.congr (fun a => ⟨.inr, fun h => h.elim (fun h => absurd h (hv a)) id⟩)
  | some v =>
    cases w with
    | none =>
      simp only [Graph.mergeOpt]
      exact hv.congr (fun a => ⟨.inl, fun h => h.elim id (fun h => absurd h (hw a))⟩)
    | some w =>
      obtain ⟨⟨a, ha⟩, v1, v2⟩ := hv
      obtain ⟨-, w1, w2⟩ := hw
      refine ⟨⟨a, .inl ha⟩, fun b hb => ?_, fun z hz => ?_⟩
      · rcases hb with hb | hb
        · rw [← h.assoc, v1 b hb]
        · rw [h.comm v w, ← h.assoc, w1 b hb]
      · rw [h.assoc, w2 z (fun b hb => hz b (.inr hb)), v2 z (fun b hb => hz b (.inl hb))]

theorem Lub.unique (h : ∀ a b, f a b = f b a) {v w : Option α} (hv : Lub f S v) (hw : Lub f S w) : v = w := by
  cases v with
  | none =>
    cases w with
    | none => rfl
    | some w => obtain ⟨⟨a, ha⟩, -⟩ := hw; exact absurd ha (hv a)
  | some v =>
    cases w with
    | none => obtain ⟨⟨a, ha⟩, -⟩ := hv; exact absurd ha (hw a)
    | some w =>
      have h1 := hv.2.2 w hw.2.1
      have h2 := hw.2.2 v hv.2.1
      rw [← h1, h v w, h2]

end

section
variable {K NP EP E : Type} {mN : NP → NP → NP} {mE : EP → EP → EP} {F F' : Fact K NP EP → Prop} {G G' : Graph K NP EP}

theorem Sums.congr (h : ∀ x, F x ↔ F' x) (hG : Sums mN mE F G) : Sums mN mE F' G :=
  ⟨fun n => (hG.1 n).congr (fun _ => h _), fun t => (hG.2 t).congr (fun _ => h _)⟩

theorem Sums.unique (hN : ∀ a b, mN a b = mN b a) (hE : ∀ a b, mE a b = mE b a) (h : Sums mN mE F G) (h' : Sums mN mE F G') : G = G' := by
  have h1 : G.nodes = G'.nodes := funext (fun n => (h.1 n).unique hN (h'.1 n))
  have h2 : G.edges = G'.edges := funext (fun t => (h.2 t).unique hE (h'.2 t))
  cases G; cases G'; cases h1; cases h2; rfl

theorem sums_facts (hN : Joins mN) (hE : Joins mE) (G : Graph K NP EP) : Sums mN mE G.facts G :=
  ⟨fun n => lub_option hN (G.nodes n), fun t => lub_option hE (G.edges t)⟩

theorem sums_empty : Sums mN mE (fun _ => False) (Graph.empty : Graph K NP EP) := ⟨fun _ _ h => h, fun _ _ h => h⟩

theorem Sums.mergeWith (hN : Joins mN) (hE : Joins mE) (h : Sums mN mE F G) (h' : Sums mN mE F' G') :
    Sums mN mE (fun x => F x ∨ F' x) (G.mergeWith mN mE G') :=
  ⟨fun n => (h.1 n).union hN (h'.1 n), fun t => (h.2 t).union hE (h'.2 t)⟩

variable [DecidableEq K]

theorem Sums.mergeNode (hN : Joins mN) (h : Sums mN mE F G) (n : K) (p : NP) :
    Sums mN mE (fun x => F x ∨ x = .node n p) (G.mergeNode mN n p) := by
  refine ⟨fun m => ?_, fun t => (h.2 t).congr (fun q => by simp)⟩
  simp only [Graph.mergeNode]
  split
  · subst m
    have := (h.1 n).union hN (lub_single hN p)
    have e : Graph.mergeOpt mN (G.nodes n) (some p) = some (match G.nodes n with | some q => mN q p | none => p) := by
      cases G.nodes n <;> rfl
    rw [e] at this
    exact this.congr (fun q => by simp)
  · next hm => exact (h.1 m).congr (fun q => by simp [hm])

theorem Sums.mergeEdge (hE : Joins mE) (h : Sums mN mE F G) (t : Triple K) (p : EP) :
    Sums mN mE (fun x => F x ∨ x = .edge t p) (G.mergeEdge mE t p) := by
  refine ⟨fun n => (h.1 n).congr (fun q => by simp), fun u => ?_⟩
  simp only [Graph.mergeEdge]
  split
  · subst u
    have := (h.2 t).union hE (lub_single hE p)
    have e : Graph.mergeOpt mE (G.edges t) (some p) = some (match G.edges t with | some q => mE q p | none => p) := by
      cases G.edges t <;> rfl
    rw [e] at this
    exact this.congr (fun q => by simp)
  · next hm => exact (h.2 u).congr (fun q => by simp [hm])

theorem Sums.nodes (hN : Joins mN) (l : List (K × NP)) (h : Sums mN mE F G) :
    Sums mN mE (fun x => F x ∨ ∃ y ∈ l, x = .node y.1 y.2) (l.foldl (fun G x => G.mergeNode mN x.1 x.2) G) := by
  induction l generalizing F G with
  | nil => exact h.congr (fun x => by simp)
  | cons y l ih => exact (ih (h.mergeNode hN y.1 y.2)).congr (fun x => by simp [or_assoc])

theorem Sums.edges (hE : Joins mE) (l : List (Triple K × EP)) (h : Sums mN mE F G) :
    Sums mN mE (fun x => F x ∨ ∃ y ∈ l, x = .edge y.1 y.2) (l.foldl (fun G x => G.mergeEdge mE x.1 x.2) G) := by
  induction l generalizing F G with
  | nil => exact h.congr (fun x => by simp)
  | cons y l ih => exact (ih (h.mergeEdge hE y.1 y.2)).congr (fun x => by simp [or_assoc])

/-- an operation that merges -/
theorem Sums.apply (hN : Joins mN) (hE : Joins mE) (h : Sums mN mE F G) {op : Op E K NP EP} (ho : op.told = some F') :
    Sums mN mE (fun x => F x ∨ F' x) (op.apply mN mE G) := by
  cases op with
  | mergeNode n p => cases ho; exact h.mergeNode hN n p
  | mergeEdge t p => cases ho; exact h.mergeEdge hE t p
  | merge src =>
    cases ho
    refine ((h.nodes hN _).edges hE _).congr (fun x => ?_)
    rw [or_assoc]
    refine or_congr_right ?_
    cases x with
    | node n p =>
      simp only [Source.facts]
      constructor
      · rintro (⟨y, hy, e⟩ | ⟨y, hy, e⟩)
        · cases e; exact hy
        · cases e
      · exact fun h => .inl ⟨_, h, rfl⟩
    | edge t p =>
      simp only [Source.facts]
      constructor
      · rintro (⟨y, hy, e⟩ | ⟨y, hy, e⟩)
        · cases e
        · cases e; exact hy
      · exact fun h => .inr ⟨_, h, rfl⟩
  | _ => cases ho

end

/-! ## Programs -/

section
variable {E Id NP EP : Type} [LinearOrder Id] {mN : NP → NP → NP} {mE : EP → EP → EP}

inductive Tallies (mN : NP → NP → NP) (mE : EP → EP → EP) : Place Id NP EP → HeardPlace Id NP EP → Prop
  | own {G : Graph Id NP EP} {F : Fact Id NP EP → Prop} (h : Sums mN mE F G) : Tallies mN mE (.own G) (.own F)
  | on (b : Nat) : Tallies mN mE (.on b) (.on b)

/-- what everybody shows is what they have heard -/
structure Tally (mN : NP → NP → NP) (mE : EP → EP → EP) (S : World Id NP EP) (H : Hearsay Id NP EP) : Prop where
  dbs : ∀ b, Sums mN mE (H.dbs b) (S.dbs b)
  vars : ∀ v, Option.Rel (Tallies mN mE) (S.vars v) (H.vars v)

theorem tally_of (hN : Joins mN) (hE : Joins mE) (S : World Id NP EP) : Tally mN mE S (Hearsay.of S) := by
  refine ⟨fun b => sums_facts hN hE _, fun v => ?_⟩
  simp only [Hearsay.of]
  cases S.vars v with
  | none => exact .none
  | some p =>
    cases p with
    | own G => exact .some (.own (sums_facts hN hE G))
    | on b => exact .some (.on b)

namespace Tally

variable {S : World Id NP EP} {H : Hearsay Id NP EP}

theorem setVar (h : Tally mN mE S H) (v : Nat) {p : Option (Place Id NP EP)} {q : Option (HeardPlace Id NP EP)}
    (hp : Option.Rel (Tallies mN mE) p q) : Tally mN mE (S.setVar v p) (H.setVar v q) := by
  refine ⟨h.dbs, fun w => ?_⟩
  simp only [World.setVar, Hearsay.setVar, Function.update_apply]
  split
  · exact hp
  · exact h.vars w

theorem graph (h : Tally mN mE S H) {p : Place Id NP EP} {q : HeardPlace Id NP EP} (hp : Tallies mN mE p q) :
    Sums mN mE (H.heard q) (S.graph p) := by
  cases hp with
  | own hs => exact hs
  | on b => exact h.dbs b

theorem setGraph (h : Tally mN mE S H) {v : Nat} {p : Place Id NP EP} {q : HeardPlace Id NP EP} (hp : Tallies mN mE p q)
    {F : Fact Id NP EP → Prop} {G : Graph Id NP EP} (hG : Sums mN mE (fun x => H.heard q x ∨ F x) G) :
    Tally mN mE (S.setGraph v G p) (H.hear v F q) := by
  cases hp with
  | own hs => exact h.setVar v (.some (.own hG))
  | on b =>
    refine ⟨fun b' => ?_, h.vars⟩
    simp only [World.setGraph, Hearsay.hear, Function.update_apply]
    split
    · exact hG
    · exact h.dbs b'

theorem step (hN : Joins mN) (hE : Joins mE) (h : Tally mN mE S H) {x : Cmd E Id NP EP} {y : Talk Id NP EP} (hx : Cmd.talk x = some y) :
    Tally mN mE (S.step mN mE x).1 (H.step y) := by
  cases x with
  | newMem v k => cases hx; exact h.setVar v (.some (.own sums_empty))
  | openSled v b k => cases hx; exact h.setVar v (.some (.on b))
  | drop v => cases hx; exact h.setVar v .none
  | call v op =>
    obtain ⟨F, hF, rfl⟩ := Option.map_eq_some_iff.1 hx
    have hv := h.vars v
    simp only [World.step, Hearsay.step]
    cases hs : S.vars v with
    | none =>
      cases hh : H.vars v with
      | none => exact h
      | some q => rw [hs, hh] at hv; cases hv
    | some p =>
      rw [hs] at hv
      obtain ⟨q, hq, e⟩ : ∃ q, Tallies mN mE p q ∧ H.vars v = some q := by
        cases hh : H.vars v with
        | none => rw [hh] at hv; cases hv
        | some q => rw [hh] at hv; cases hv with | some hv => exact ⟨q, hv, rfl⟩
      rw [e]
      exact h.setGraph hq ((h.graph hq).apply hN hE hF)
  | merge v w =>
    cases hx
    have hv := h.vars v
    have hw := h.vars w
    simp only [World.step, World.feed, Hearsay.step]
    cases hs : S.vars w with
    | none =>
      cases hh : H.vars w with
      | none => exact h
      | some q => rw [hs, hh] at hw; cases hw
    | some q =>
      cases hh : H.vars w with
      | none => rw [hs, hh] at hw; cases hw
      | some q' =>
        rw [hs, hh] at hw
        cases hw with
        | some hw =>
          dsimp only
          split
          · exact h
          · cases hs' : S.vars v with
            | none =>
              cases hh' : H.vars v with
              | none => exact h.setVar w .none
              | some p => rw [hs', hh'] at hv; cases hv
            | some p =>
              cases hh' : H.vars v with
              | none => rw [hs', hh'] at hv; cases hv
              | some p' =>
                rw [hs', hh'] at hv
                cases hv with
                | some hv =>
                  have h1 := h.setVar w (p := none) (q := none) .none
                  refine h1.setGraph hv ?_
                  have := (h.graph hv).mergeWith hN hE (h.graph hw)
                  cases hv <;> exact this
  | _ => cases hx

theorem exec (hN : Joins mN) (hE : Joins mE) {l : List (Cmd E Id NP EP)} {ts : List (Talk Id NP EP)} (hl : l.map Cmd.talk = ts.map some)
    (h : Tally mN mE S H) : Tally mN mE (S.exec mN mE l).1 (ts.foldl Hearsay.step H) := by
  induction l generalizing S H ts with
  | nil => cases ts with
    | nil => exact h
    | cons => cases hl
  | cons x l ih => cases ts with
    | nil => cases hl
    | cons y ts =>
      simp only [List.map_cons, List.cons.injEq] at hl
      show Tally mN mE (((S.step mN mE x).1.exec mN mE l).1) (ts.foldl Hearsay.step (H.step y))
      exact ih hl.2 (h.step hN hE hl.1)

end Tally

theorem world_exec_append (S : World Id NP EP) (l l' : List (Cmd E Id NP EP)) :
    (S.exec mN mE (l ++ l')).1 = ((S.exec mN mE l).1.exec mN mE l').1 := by
  induction l generalizing S with
  | nil => rfl
  | cons x l ih => exact ih _

end

/-! ## Programs with RDF stores -/

section
variable {E NP EP : Type} {mN : NP → NP → NP} {mE : EP → EP → EP}

theorem takeIn_graph {α : Type} (f : RdfState NP EP → α → RdfState NP EP × RdfOutcome E) (g : Graph Entity NP EP → α → Graph Entity NP EP)
    (hf : ∀ x a, (f x a).1.graph = g x.graph a ∧ (f x a).2 = .done) (x : RdfState NP EP) (l : List (Except E α)) :
    (RdfState.takeIn f x l).1.graph = (okPrefix l).foldl g x.graph ∧
      (RdfState.takeIn f x l).2 = (match firstErr l with | none => .done | some e => .source e) := by
  induction l generalizing x with
  | nil => exact ⟨rfl, rfl⟩
  | cons a l ih =>
    cases a with
    | error e => exact ⟨rfl, rfl⟩
    | ok a =>
      obtain ⟨h1, h2⟩ := hf x a
      simp only [RdfState.takeIn, okPrefix, firstErr, List.foldl_cons]
      rw [← h1]
      generalize f x a = r at h2 ⊢
      obtain ⟨x', o⟩ := r
      dsimp only at h2
      subst h2
      exact ih x'

theorem step_told {op : Op E Entity NP EP} {F : Fact Entity NP EP → Prop} (ho : op.told = some F) (x : RdfState NP EP) :
    (x.step (fun _ => true) (fun _ => true) mN mE op).1.graph = op.apply mN mE x.graph := by
  have hn : ∀ (G : Graph Entity NP EP) e p, storeMergedNode (fun _ => true) mN G e p = some (G.mergeNode mN e p) := by
    intro G e p
    simp only [storeMergedNode, storeNode, if_true]; rfl
  have he : ∀ (G : Graph Entity NP EP) e p, storeMergedEdge (fun _ => true) mE G e p = some (G.mergeEdge mE e p) := by
    intro G e p
    simp only [storeMergedEdge, storeEdge, if_true]; rfl
  cases op with
  | mergeNode e p => simp only [RdfState.step, hn, RdfState.change, Op.apply]
  | mergeEdge t p => simp only [RdfState.step, he, RdfState.change, Op.apply]
  | merge src =>
    simp only [RdfState.step, hn, he, RdfState.both, Op.apply, RdfState.change]
    have h1 := takeIn_graph (E := E) (fun (x : RdfState NP EP) (i : Entity × NP) =>
        (({ (x.learn [i.1]) with graph := x.graph.mergeNode mN i.1 i.2 }, .done) : RdfState NP EP × RdfOutcome E))
      (fun G i => G.mergeNode mN i.1 i.2) (fun x a => ⟨rfl, rfl⟩) x src.nodes
    revert h1
    generalize RdfState.takeIn _ x src.nodes = r
    rintro ⟨h1, h2⟩
    obtain ⟨x', o⟩ := r
    dsimp only at h1 h2
    simp only [Source.nodePrefix, Source.edgePrefix]
    cases hq : firstErr src.nodes with
    | some e =>
      rw [hq] at h2
      dsimp only at h2
      subst h2
      exact h1
    | none =>
      rw [hq] at h2
      dsimp only at h2
      subst h2
      have h3 := takeIn_graph (E := E) (fun (x : RdfState NP EP) (i : Triple Entity × EP) =>
          (({ (x.learn (RdfState.parts i.1)) with graph := x.graph.mergeEdge mE i.1 i.2 }, .done) : RdfState NP EP × RdfOutcome E))
        (fun G i => G.mergeEdge mE i.1 i.2) (fun x a => ⟨rfl, rfl⟩) x' src.edges
      rw [← h1]
      exact h3.1
  | _ => cases ho

inductive RdfTallies (mN : NP → NP → NP) (mE : EP → EP → EP) : RdfPlace NP EP → HeardPlace Entity NP EP → Prop
  | own {x : RdfState NP EP} {F : Fact Entity NP EP → Prop} (h : Sums mN mE F x.graph) : RdfTallies mN mE (.own x) (.own F)
  | on (b : Nat) : RdfTallies mN mE (.on b) (.on b)

structure RdfTally (mN : NP → NP → NP) (mE : EP → EP → EP) (S : RdfWorld NP EP) (H : Hearsay Entity NP EP) : Prop where
  dbs : ∀ b, Sums mN mE (H.dbs b) (S.dbs b).graph
  vars : ∀ v, Option.Rel (RdfTallies mN mE) (S.vars v) (H.vars v)

theorem rdf_tally_of (hN : Joins mN) (hE : Joins mE) (S : RdfWorld NP EP) : RdfTally mN mE S (Hearsay.ofRdf S) := by
  refine ⟨fun b => sums_facts hN hE _, fun v => ?_⟩
  simp only [Hearsay.ofRdf]
  cases S.vars v with
  | none => exact .none
  | some p =>
    cases p with
    | own x => exact .some (.own (sums_facts hN hE x.graph))
    | on b => exact .some (.on b)

namespace RdfTally

variable {S : RdfWorld NP EP} {H : Hearsay Entity NP EP}

theorem setVar (h : RdfTally mN mE S H) (v : Nat) {p : Option (RdfPlace NP EP)} {q : Option (HeardPlace Entity NP EP)}
    (hp : Option.Rel (RdfTallies mN mE) p q) : RdfTally mN mE (S.setVar v p) (H.setVar v q) := by
  refine ⟨h.dbs, fun w => ?_⟩
  simp only [RdfWorld.setVar, Hearsay.setVar, Function.update_apply]
  split
  · exact hp
  · exact h.vars w

theorem graph (h : RdfTally mN mE S H) {p : RdfPlace NP EP} {q : HeardPlace Entity NP EP} (hp : RdfTallies mN mE p q) :
    Sums mN mE (H.heard q) (S.state p).graph := by
  cases hp with
  | own hs => exact hs
  | on b => exact h.dbs b

theorem setState (h : RdfTally mN mE S H) {v : Nat} {p : RdfPlace NP EP} {q : HeardPlace Entity NP EP} (hp : RdfTallies mN mE p q)
    {F : Fact Entity NP EP → Prop} {x : RdfState NP EP} (hG : Sums mN mE (fun y => H.heard q y ∨ F y) x.graph) :
    RdfTally mN mE (S.setState v x p) (H.hear v F q) := by
  cases hp with
  | own hs => exact h.setVar v (.some (.own hG))
  | on b =>
    refine ⟨fun b' => ?_, h.vars⟩
    simp only [RdfWorld.setState, Hearsay.hear, Function.update_apply]
    split
    · exact hG
    · exact h.dbs b'

theorem step (hN : Joins mN) (hE : Joins mE) (h : RdfTally mN mE S H) {x : RdfCmd E NP EP} {y : Talk Entity NP EP}
    (hx : RdfCmd.talk x = some y) : RdfTally mN mE (S.step mN mE x).1 (H.step y) := by
  cases x with
  | newMem v k => cases hx; exact h.setVar v (.some (.own sums_empty))
  | openSled v b k => cases hx; exact h.setVar v (.some (.on b))
  | drop v => cases hx; exact h.setVar v .none
  | call v op =>
    obtain ⟨F, hF, rfl⟩ := Option.map_eq_some_iff.1 hx
    have hv := h.vars v
    simp only [RdfWorld.step, Hearsay.step]
    cases hs : S.vars v with
    | none =>
      cases hh : H.vars v with
      | none => exact h
      | some q => rw [hs, hh] at hv; cases hv
    | some p =>
      rw [hs] at hv
      obtain ⟨q, hq, e⟩ : ∃ q, RdfTallies mN mE p q ∧ H.vars v = some q := by
        cases hh : H.vars v with
        | none => rw [hh] at hv; cases hv
        | some q => rw [hh] at hv; cases hv with | some hv => exact ⟨q, hv, rfl⟩
      rw [e]
      refine h.setState hq ?_
      rw [step_told hF]
      exact (h.graph hq).apply hN hE hF
  | merge v w =>
    cases hx
    have hv := h.vars v
    have hw := h.vars w
    simp only [RdfWorld.step, RdfWorld.feed, Hearsay.step]
    cases hs : S.vars w with
    | none =>
      cases hh : H.vars w with
      | none => exact h
      | some q => rw [hs, hh] at hw; cases hw
    | some q =>
      cases hh : H.vars w with
      | none => rw [hs, hh] at hw; cases hw
      | some q' =>
        rw [hs, hh] at hw
        cases hw with
        | some hw =>
          dsimp only
          split
          · exact h
          · cases hs' : S.vars v with
            | none =>
              cases hh' : H.vars v with
              | none => exact h.setVar w .none
              | some p => rw [hs', hh'] at hv; cases hv
            | some p =>
              cases hh' : H.vars v with
              | none => rw [hs', hh'] at hv; cases hv
              | some p' =>
                rw [hs', hh'] at hv
                cases hv with
                | some hv =>
                  have h1 := h.setVar w (p := none) (q := none) .none
                  refine h1.setState hv ?_
                  have := (h.graph hv).mergeWith hN hE (h.graph hw)
                  cases hv <;> exact this
  | _ => cases hx

theorem exec (hN : Joins mN) (hE : Joins mE) {l : List (RdfCmd E NP EP)} {ts : List (Talk Entity NP EP)}
    (hl : l.map RdfCmd.talk = ts.map some) (h : RdfTally mN mE S H) : RdfTally mN mE (S.exec mN mE l).1 (ts.foldl Hearsay.step H) := by
  induction l generalizing S H ts with
  | nil => cases ts with
    | nil => exact h
    | cons => cases hl
  | cons x l ih => cases ts with
    | nil => cases hl
    | cons y ts =>
      simp only [List.map_cons, List.cons.injEq] at hl
      show RdfTally mN mE (((S.step mN mE x).1.exec mN mE l).1) (ts.foldl Hearsay.step (H.step y))
      exact ih hl.2 (h.step hN hE hl.1)

end RdfTally

theorem rdf_exec_append (S : RdfWorld NP EP) (l l' : List (RdfCmd E NP EP)) :
    (S.exec mN mE (l ++ l')).1 = ((S.exec mN mE l).1.exec mN mE l').1 := by
  induction l generalizing S with
  | nil => rfl
  | cons x l ih => exact ih _

end

/-! ## Threads -/

section
variable {E Id NP EP : Type} [LinearOrder Id] [ConcreteId Id] {mN : NP → NP → NP} {mE : EP → EP → EP}

theorem shuffle_from {α : Type} {part : Bool} {ls : List (List α)} {h : List α} (hs : Shuffle part ls h) :
    (∀ a ∈ h, ∃ l ∈ ls, a ∈ l) ∧ (part = false → ∀ l ∈ ls, ∀ a ∈ l, a ∈ h) := by
  induction hs with
  | nil ls hl =>
    refine ⟨by simp, fun _ l h a ha => ?_⟩
    rw [hl l h] at ha
    exact ha
  | take pre post a l h _ ih =>
    constructor
    · intro b hb
      rcases List.mem_cons.1 hb with rfl | hb
      · exact ⟨b :: l, by simp, by simp⟩
      · obtain ⟨l', h1, h2⟩ := ih.1 b hb
        rcases List.mem_append.1 h1 with h1 | h1
        · exact ⟨l', List.mem_append_left _ h1, h2⟩
        · rcases List.mem_cons.1 h1 with rfl | h1
          · exact ⟨a :: l', by simp, List.mem_cons_of_mem _ h2⟩
          · exact ⟨l', by simp [h1], h2⟩
    · intro hp l' h1 b hb
      rcases List.mem_append.1 h1 with h1 | h1
      · exact List.mem_cons_of_mem _ (ih.2 hp l' (List.mem_append_left _ h1) b hb)
      · rcases List.mem_cons.1 h1 with rfl | h1
        · rcases List.mem_cons.1 hb with rfl | hb
          · exact List.mem_cons_self ..
          · exact List.mem_cons_of_mem _ (ih.2 hp l (by simp) b hb)
        · exact List.mem_cons_of_mem _ (ih.2 hp l' (by simp [h1]) b hb)
  | drop pre post a l h hp _ ih =>
    constructor
    · intro b hb
      obtain ⟨l', h1, h2⟩ := ih.1 b hb
      rcases List.mem_append.1 h1 with h1 | h1
      · exact ⟨l', List.mem_append_left _ h1, h2⟩
      · rcases List.mem_cons.1 h1 with rfl | h1
        · exact ⟨a :: l', by simp, List.mem_cons_of_mem _ h2⟩
        · exact ⟨l', by simp [h1], h2⟩
    · intro hf
      rw [hp] at hf
      cases hf

/-- operations that merge -/
theorem Sums.applyAll (hN : Joins mN) (hE : Joins mE) {F : Fact Id NP EP → Prop} {G : Graph Id NP EP} (h : Sums mN mE F G)
    {l : List (Op E Id NP EP)} (hl : ∀ op ∈ l, op.told ≠ none) :
    Sums mN mE (fun x => F x ∨ ∃ op ∈ l, ∃ F', op.told = some F' ∧ F' x) (applyAll mN mE G l) := by
  induction l generalizing F G with
  | nil => exact h.congr (fun x => by simp)
  | cons op l ih =>
    obtain ⟨F', hF⟩ := Option.ne_none_iff_exists'.1 (hl op List.mem_cons_self)
    have := ih (h.apply hN hE hF) (fun o ho => hl o (List.mem_cons_of_mem _ ho))
    refine this.congr (fun x => ?_)
    simp only [List.mem_cons, exists_eq_or_imp, hF, Option.some.injEq, exists_eq_left', or_assoc]

/-- the operations of a call tell what the call tells -/
theorem items_told {y : Sled.Call E Id NP EP} {F : Fact Id NP EP → Prop} (hy : y.told = some F) :
    (∀ op ∈ y.items, op.told ≠ none) ∧ ∀ x, F x ↔ ∃ op ∈ y.items, ∃ F', op.told = some F' ∧ F' x := by
  cases y with
  | mergeNode n p =>
    cases hy
    simp [Sled.Call.items, Sled.Call.ops, Op.told]
  | mergeEdge i t p =>
    cases hy
    simp [Sled.Call.items, Sled.Call.ops, Op.told]
  | merge g src =>
    cases hy
    have e : (Sled.Call.merge g src : Sled.Call E Id NP EP).items =
        (Source.nodePrefix src).map (fun x => .mergeNode x.1 x.2) ++ (Source.edgePrefix src).map (fun x => .mergeEdge x.1 x.2) := by
      simp only [Sled.Call.items, Sled.Call.ops, Source.nodePrefix, okPrefix_oks, edgePrefix_oks]
      split <;> simp
    rw [e]
    constructor
    · intro op ho
      rcases List.mem_append.1 ho with ho | ho <;> obtain ⟨z, -, rfl⟩ := List.mem_map.1 ho <;> simp [Op.told]
    · intro x
      constructor
      · intro hx
        cases x with
        | node n p => exact ⟨.mergeNode n p, List.mem_append_left _ (List.mem_map.2 ⟨_, hx, rfl⟩), _, rfl, rfl⟩
        | edge t p => exact ⟨.mergeEdge t p, List.mem_append_right _ (List.mem_map.2 ⟨_, hx, rfl⟩), _, rfl, rfl⟩
      · rintro ⟨op, ho, F', hF, hx⟩
        rcases List.mem_append.1 ho with ho | ho <;> obtain ⟨z, hz, rfl⟩ := List.mem_map.1 ho <;> cases hF <;> subst hx <;> exact hz
  | _ => cases hy

end

end Spec

end Verif
