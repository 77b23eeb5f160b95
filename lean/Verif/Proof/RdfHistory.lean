import Verif.Proof.HistoryLoose
import Verif.Proof.RdfSledLoose

/-! # One history for all moments of threads with RDF stores -/

set_option linter.unusedSectionVars false

namespace Verif

open Spec ConcreteId

/-! ## programs of one thread, labelled -/

namespace RG

section

variable {S T O G A : Type} {R : RG S G A} {abs : S → T} {st : T → O → T → Prop} {J : S → Prop}

/-- programs which are over have done what they had to do -/
theorem coreE_pops {s : S} {pre post : List (List (Prog S Unit × List O))} {QA rest : List (Prog S Unit × List O)} {t : T}
    (h : R.CoreE abs st J false (s, (pre ++ (QA ++ rest) :: post).map (List.map Prod.fst)) t (pre ++ (QA ++ rest) :: post))
    {A' : List (Prog S Unit)} (hp : Pops (QA.map Prod.fst) A') :
    ∃ QA', QA'.map Prod.fst = A' ∧ QA.flatMap Prod.snd = QA'.flatMap Prod.snd ∧
      R.CoreE abs st J false (s, (pre ++ (QA' ++ rest) :: post).map (List.map Prod.fst)) t (pre ++ (QA' ++ rest) :: post) := by
  obtain ⟨B, hB, hr⟩ := hp
  induction B generalizing QA with
  | nil => exact ⟨QA, hB, rfl, h⟩
  | cons p B ih =>
    obtain ⟨⟨p', l⟩, QA, rfl, rfl, hB'⟩ := List.map_eq_cons_iff.1 hB
    obtain ⟨h1, h2⟩ := coreE_drop h
    obtain rfl : l = [] := (h1 () (hr p' (by simp))).resolve_left (by simp)
    obtain ⟨QA', e1, e2, e3⟩ := ih h2 hB' (fun q hq => hr q (by simp [hq]))
    exact ⟨QA', e1, by rw [← e2]; rfl, e3⟩

/-- programs which perform at most one call -/
theorem coreE_solo {s s' : S} {pre post : List (List (Prog S Unit × List O))} {QA rest : List (Prog S Unit × List O)} {t : T}
    (h : R.CoreE abs st J false (s, (pre ++ (QA ++ rest) :: post).map (List.map Prod.fst)) t (pre ++ (QA ++ rest) :: post)) (hJ : J s)
    {A' : List (Prog S Unit)} (hp : Solo s (QA.map Prod.fst) s' A') :
    ∃ QA' e t', QA'.map Prod.fst = A' ∧ QA.flatMap Prod.snd = e ++ QA'.flatMap Prod.snd ∧ Spec.Runs st t e t' ∧
      R.CoreE abs st J false (s', (pre ++ (QA' ++ rest) :: post).map (List.map Prod.fst)) t' (pre ++ (QA' ++ rest) :: post) := by
  generalize hA : QA.map Prod.fst = A at hp
  cases hp with
  | idle hp =>
    obtain ⟨QA', e1, e2, e3⟩ := coreE_pops h (hA ▸ hp)
    exact ⟨QA', [], t, e1, e2, rfl, e3⟩
  | act hp hp' =>
    rename_i A1 f k
    obtain ⟨QA1, e1, e2, e3⟩ := coreE_pops h (hA ▸ hp)
    obtain ⟨⟨p, l⟩, QA2, rfl, rfl, rfl⟩ := List.map_eq_cons_iff.1 e1
    obtain ⟨e, l', t', rfl, h1, h2⟩ := coreE_act (q := QA2 ++ rest) e3 hJ
    obtain ⟨QA', k1, k2, k3⟩ := coreE_pops (QA := (k s, l') :: QA2) h2 hp'
    refine ⟨QA', e, t', k1, ?_, h1, k3⟩
    rw [e2, ← k2]
    simp

/-- programs are dropped -/
theorem coreE_drops {b : Bool} {s : S} {pre post : List (List (Prog S Unit × List O))} {QA rest : List (Prog S Unit × List O)} {t : T}
    (h : R.CoreE abs st J b (s, (pre ++ (QA ++ rest) :: post).map (List.map Prod.fst)) t (pre ++ (QA ++ rest) :: post)) :
    R.CoreE abs st J b (s, (pre ++ rest :: post).map (List.map Prod.fst)) t (pre ++ rest :: post) := by
  induction QA with
  | nil => exact h
  | cons p QA ih => exact ih (coreE_drop h).2

end

end RG

namespace RdfSled

variable {NP EP E : Type} {cl : Codec String} {cr : Codec Ulid} {c : Codecs NP EP} {mN : NP → NP → NP} {mE : EP → EP → EP}
variable {b : Bool} {f0 : Names}

/-! ## with hindsight -/

/-- What is left to do of a call: the programs of calls on the triple store it has begun, and those it is yet to begin. -/
abbrev Group (E NP EP : Type) := List (Prog Db Unit) × List (Sled.PieceCall E Ulid NP EP)

/-- the programs -/
def Group.progs (c : Codecs NP EP) (mN : NP → NP → NP) (mE : EP → EP → EP) (v : Group E NP EP) : List (Prog Db Unit) :=
  v.1 ++ v.2.map (Sled.PieceCall.prog c mN mE)

/-- A step of threads with RDF stores, told as a step of threads which use the triple store: for each call of a thread that has not
returned, what is left to do on the triple store. -/
inductive Goes (c : Codecs NP EP) (mN : NP → NP → NP) (mE : EP → EP → EP) (b : Bool) :
    RdfDb × List (List (Prog RdfDb Unit)) → List (List (Group E NP EP)) →
    RdfDb × List (List (Prog RdfDb Unit)) → List (List (Group E NP EP)) → Prop
  | call {d : RdfDb} {pre post : List (List (Prog RdfDb Unit))} {F : RdfDb → RdfDb} {k : RdfDb → Prog RdfDb Unit}
      {q : List (Prog RdfDb Unit)} {G1 G2 : List (List (Group E NP EP))} {A A' : List (Prog Db Unit)}
      {e T : List (Sled.PieceCall E Ulid NP EP)} {rest : List (Group E NP EP)} (hl : pre.length = G1.length)
      (h : Solo d.data (A ++ e.map (Sled.PieceCall.prog c mN mE)) (F d).data A') :
      Goes c mN mE b (d, pre ++ (.call F k :: q) :: post) (G1 ++ ((A, e ++ T) :: rest) :: G2)
        (F d, pre ++ (k d :: q) :: post) (G1 ++ ((A', T) :: rest) :: G2)
  | pop {d : RdfDb} {pre post : List (List (Prog RdfDb Unit))} {p : Prog RdfDb Unit}
      {q : List (Prog RdfDb Unit)} {G1 G2 : List (List (Group E NP EP))} {v : Group E NP EP}
      {rest : List (Group E NP EP)} (hl : pre.length = G1.length) (h : b = true ∨ Pops (v.progs c mN mE) []) :
      Goes c mN mE b (d, pre ++ (p :: q) :: post) (G1 ++ (v :: rest) :: G2) (d, pre ++ q :: post) (G1 ++ rest :: G2)

theorem Goes.steps {x x' : RdfDb × List (List (Prog RdfDb Unit))} {g g' : List (List (Group E NP EP))} (h : Goes c mN mE b x g x' g') :
    StepsB true (x.1.data, g.map (List.flatMap (Group.progs c mN mE))) (x'.1.data, g'.map (List.flatMap (Group.progs c mN mE))) := by
  cases h with
  | @call d pre post F k q G1 G2 A A' e T rest hl h =>
    have e1 : (G1 ++ ((A, e ++ T) :: rest) :: G2).map (List.flatMap (Group.progs c mN mE)) =
        G1.map (List.flatMap (Group.progs c mN mE)) ++ ((A ++ e.map (Sled.PieceCall.prog c mN mE)) ++
          (T.map (Sled.PieceCall.prog c mN mE) ++ rest.flatMap (Group.progs c mN mE))) :: G2.map (List.flatMap (Group.progs c mN mE)) := by
      simp [Group.progs]
    have e2 : (G1 ++ ((A', T) :: rest) :: G2).map (List.flatMap (Group.progs c mN mE)) =
        G1.map (List.flatMap (Group.progs c mN mE)) ++ (A' ++
          (T.map (Sled.PieceCall.prog c mN mE) ++ rest.flatMap (Group.progs c mN mE))) :: G2.map (List.flatMap (Group.progs c mN mE)) := by
      simp [Group.progs]
    rw [e1, e2]
    exact StepsB.after (h.steps true _ _) rfl _
  | @pop d pre post p q G1 G2 v rest hl h =>
    simp only [List.map_append, List.map_cons, List.flatMap_cons]
    exact drops_steps _ _ _ _ _

/-- what a thread has still to do on the triple store, `z` being the calls its calls make in the end -/
def Ahead (R : Rec E NP EP) (v : List (List (Sled.PieceCall E Ulid NP EP)) × List (Group E NP EP)) : Prop :=
  (R.q = [] ∧ R.zs = v.1 ∧ v.2 = []) ∨
    ∃ (p : Prog RdfDb Unit) (q : List (Prog RdfDb Unit)) (z1 : List (List (Sled.PieceCall E Ulid NP EP)))
      (zx e : List (Sled.PieceCall E Ulid NP EP)) (z3 : List (List (Sled.PieceCall E Ulid NP EP))),
      R.q = p :: q ∧ R.zs = z1 ++ zx :: q.map (fun _ => []) ∧ v.1 = z1 ++ (zx ++ e) :: z3 ∧ z3.length = q.length ∧
      v.2 = (R.r, e) :: z3.map (fun z => ([], z))

theorem TInv.ahead {f : Names} {R : Rec E NP EP} (h : TInv cl cr c mN mE b f0 f R) : ∃ g, Ahead R (R.zs, g) := by
  cases h with
  | @idle th1 th2 ps h hu =>
    cases th2 with
    | nil => exact ⟨[], .inl ⟨rfl, rfl, rfl⟩⟩
    | cons x th2 =>
      refine ⟨_, .inr ⟨_, _, ps.map Prod.snd, [], [], th2.map (fun _ => []), rfl, by simp [Function.comp_def], by simp, by simp, rfl⟩⟩
  | @now th1 th2 x ps zx w l K P r fx h hu h0 hf hB hw hz hs hK ha =>
    refine ⟨_, .inr ⟨P, _, ps.map Prod.snd, zx, [], th2.map (fun _ => []), rfl, by simp [Function.comp_def], by simp, by simp, rfl⟩⟩

theorem split_same {α : Type} {l1 l1' l2 l2' : List α} {x x' : α} (h : l1 ++ x :: l2 = l1' ++ x' :: l2') (hl : l2.length = l2'.length) :
    l1 = l1' ∧ x = x' ∧ l2 = l2' := by
  obtain ⟨h1, h2⟩ := List.append_inj' h (by simp [hl])
  cases h2
  exact ⟨h1, rfl, rfl⟩

/-- from what is to be done after a step to what is to be done before it -/
theorem Advance.back {d d' : RdfDb} {L L' : List (Rec E NP EP)} (h : Advance c mN mE b (d, L) (d', L'))
    {V' : List (List (List (Sled.PieceCall E Ulid NP EP)) × List (Group E NP EP))} (hV : List.Forall₂ Ahead L' V') :
    ∃ V : List (List (List (Sled.PieceCall E Ulid NP EP)) × List (Group E NP EP)), V.map Prod.fst = V'.map Prod.fst ∧
      List.Forall₂ Ahead L V ∧ Goes c mN mE b (d, L.map Rec.q) (V.map Prod.snd) (d', L'.map Rec.q) (V'.map Prod.snd) := by
  cases h with
  | @call d L1 L2 th F k q z1 zx e r r' fs fs' h =>
    obtain ⟨V1, ⟨z, g⟩, V2, rfl, h1, h2, h3⟩ := forall₂_split hV
    rcases h2 with ⟨h2, -⟩ | ⟨p, q', z1', zx', e', z3, a1, a2, a3, a4, a5⟩
    · cases h2
    cases a1
    obtain ⟨rfl, rfl, -⟩ := split_same a2 (by simp)
    dsimp only at a3 a5
    subst a3 a5
    refine ⟨V1 ++ (z1 ++ ((zx ++ e) ++ e') :: z3, (r, e ++ e') :: z3.map (fun z => ([], z))) :: V2, by simp,
      forall₂_join h1 (.inr ⟨_, q, z1, zx, e ++ e', z3, rfl, rfl, by simp, a4, by simp⟩) h3, ?_⟩
    simp only [List.map_append, List.map_cons]
    exact .call (by simpa using h1.length_eq) h
  | @ret d L1 L2 th q z1 zx e r fs fs' h =>
    obtain ⟨V1, ⟨z, g⟩, V2, rfl, h1, h2, h3⟩ := forall₂_split hV
    refine ⟨V1 ++ (z, (r, e) :: g) :: V2, by simp, forall₂_join h1 ?_ h3, ?_⟩
    · rcases h2 with ⟨h2, h4, h5⟩ | ⟨p, q', z1', zx', e', z3, a1, a2, a3, a4, a5⟩
      · dsimp only at h2 h4 h5
        subst h2 h4 h5
        exact .inr ⟨_, [], z1, zx, e, [], rfl, rfl, rfl, rfl, rfl⟩
      · dsimp only at a1 a2 a3 a5
        subst a1 a3 a5
        have a2 : (z1 ++ [zx ++ e]) ++ [] :: q'.map (fun _ => []) = z1' ++ zx' :: q'.map (fun _ => []) := by rw [← a2]; simp
        obtain ⟨rfl, rfl, -⟩ := split_same a2 rfl
        exact .inr ⟨_, p :: q', z1, zx, e, e' :: z3, rfl, rfl, by simp, by simp [a4], by simp⟩
    · simp only [List.map_append, List.map_cons]
      exact .pop (by simpa using h1.length_eq) (.inr h)
  | @fail d L1 L2 th p q z1 zx r fs fs' hb =>
    obtain ⟨V1, ⟨z, g⟩, V2, rfl, h1, h2, h3⟩ := forall₂_split hV
    refine ⟨V1 ++ (z, (r, []) :: g) :: V2, by simp, forall₂_join h1 ?_ h3, ?_⟩
    · rcases h2 with ⟨h2, h4, h5⟩ | ⟨p, q', z1', zx', e', z3, a1, a2, a3, a4, a5⟩
      · dsimp only at h2 h4 h5
        subst h2 h4 h5
        exact .inr ⟨_, [], z1, zx, [], [], rfl, rfl, by simp, rfl, by simp⟩
      · dsimp only at a1 a2 a3 a5
        subst a1 a3 a5
        have a2 : (z1 ++ [zx]) ++ [] :: q'.map (fun _ => []) = z1' ++ zx' :: q'.map (fun _ => []) := by rw [← a2]; simp
        obtain ⟨rfl, rfl, -⟩ := split_same a2 rfl
        exact .inr ⟨_, p :: q', z1, zx, [], e' :: z3, rfl, rfl, by simp, by simp [a4], by simp⟩
    · simp only [List.map_append, List.map_cons]
      exact .pop (by simpa using h1.length_eq) (.inl hb)

/-- what is to be done on the triple store at each moment -/
theorem exists_groups {x : Nat → RdfDb × List (List (Prog RdfDb Unit))} {L : Nat → List (Rec E NP EP)} {N : Nat}
    (hL : ∀ k ≤ N, (L k).map Rec.q = (x k).2) (hA : ∀ k < N, Advance c mN mE b ((x k).1, L k) ((x (k + 1)).1, L (k + 1)))
    {VN : List (List (List (Sled.PieceCall E Ulid NP EP)) × List (Group E NP EP))} (hV : List.Forall₂ Ahead (L N) VN) :
    ∃ V : Nat → List (List (List (Sled.PieceCall E Ulid NP EP)) × List (Group E NP EP)),
      (∀ k ≤ N, (V k).map Prod.fst = VN.map Prod.fst ∧ List.Forall₂ Ahead (L k) (V k)) ∧
      ∀ k < N, Goes c mN mE b (x k) ((V k).map Prod.snd) (x (k + 1)) ((V (k + 1)).map Prod.snd) := by
  induction N generalizing x L with
  | zero =>
    refine ⟨fun _ => VN, fun k hk => ?_, fun k hk => absurd hk (Nat.not_lt_zero k)⟩
    obtain rfl : k = 0 := by omega
    exact ⟨rfl, hV⟩
  | succ N ih =>
    obtain ⟨V, h1, h3⟩ := ih (x := fun k => x (k + 1)) (L := fun k => L (k + 1)) (fun k hk => hL (k + 1) (by omega))
      (fun k hk => hA (k + 1) (by omega)) hV
    obtain ⟨V0, k1, k2, k3⟩ := (hA 0 (by omega)).back (h1 0 (by omega)).2
    rw [hL 0 (by omega), hL (0 + 1) (by omega)] at k3
    refine ⟨fun k => match k with | 0 => V0 | k + 1 => V k, fun k hk => ?_, fun k hk => ?_⟩
    · cases k with
      | zero => exact ⟨k1.trans (h1 0 (by omega)).1, k2⟩
      | succ k => exact h1 k (by omega)
    · cases k with
      | zero => exact k3
      | succ k => exact h3 k (by omega)

theorem ahead_start {p : PieceCall E NP EP → Prog RdfDb Unit} {th : List (PieceCall E NP EP)}
    {v : List (List (Sled.PieceCall E Ulid NP EP)) × List (Group E NP EP)}
    (h : Ahead ⟨th, th.map p, th.map (fun _ => []), [], []⟩ v) : v.2 = v.1.map (fun z => ([], z)) := by
  obtain ⟨z, g⟩ := v
  rcases h with ⟨h1, h2, h3⟩ | ⟨p', q, z1, zx, e, z3, a1, a2, a3, a4, a5⟩
  · dsimp only at h1 h2 h3
    rw [List.map_eq_nil_iff] at h1
    subst h1 h2 h3
    rfl
  · dsimp only at a1 a2 a3 a5
    obtain ⟨y, th, rfl, rfl, rfl⟩ := List.map_eq_cons_iff.1 a1
    subst a3 a5
    have a2 : ([] : List (List (Sled.PieceCall E Ulid NP EP))) ++ [] :: th.map (fun _ => []) = z1 ++ zx :: (th.map p).map (fun _ => []) := a2
    obtain ⟨rfl, rfl, -⟩ := split_same a2 (by simp)
    simp

/-! ## the sequence of descriptions -/

section
variable (hl : cl.RoundTrips) (hr : cr.RoundTrips) (tl : cl.Total) (tr : cr.Total) (hc : c.RoundTrip) (ht : b = true ∨ c.Total)
include hl hr tl tr hc ht

omit hl hr tl tr hc ht in
theorem course_stepB {x : Nat → RdfDb × List (List (Prog RdfDb Unit))} {N : Nat} (hC : Course b x N) {k : Nat} (hk : k < N) :
    StepB b (x k) (x (k + 1)) := by
  rcases course_cases hC hk with ⟨s, pre, post, f, g, q, e1, e2⟩ | ⟨s, pre, post, p, q, e1, e2, hb⟩
  · rw [e1, e2]; exact .call ..
  · rw [e1, e2]
    rcases hb with hb | ⟨a, rfl⟩
    · exact .fail hb ..
    · exact .ret ..

theorem along {d0 : RdfDb} (hd0 : (SledIndex.impl cl cr).Shows d0.names f0) (hj0 : Sled.WellFormed Ulid c d0.data)
    {threads : List (List (PieceCall E NP EP))} (hn : b = true ∨ (threads.flatMap mine).Nodup) (hu : ∀ th ∈ threads, Unborn b f0 th)
    {x : Nat → RdfDb × List (List (Prog RdfDb Unit))} {N : Nat} (hC : Course b x N)
    (h0 : x 0 = (d0, threads.map (List.map (PieceCall.prog cl cr c mN mE)))) :
    ∃ (F : Nat → Names) (L : Nat → List (Rec E NP EP)), F 0 = f0 ∧
      L 0 = threads.map (fun th => ⟨th, th.map (PieceCall.prog cl cr c mN mE), th.map (fun _ => []), [], []⟩) ∧
      (∀ k ≤ N, Inv cl cr c mN mE b f0 d0.data (threads.map (fun _ => ([], []))) threads (x k).1 (x k).2 (F k) (L k)) ∧
      ∀ k < N, Keeps (F k) (F (k + 1)) ∧ Named (x k).2 (x (k + 1)).2 threads (F k) (F (k + 1)) ∧
        Advance c mN mE b ((x k).1, L k) ((x (k + 1)).1, L (k + 1)) ∧
        List.Forall₂ (fun R R' => Begun (F k) R.fs R'.fs) (L k) (L (k + 1)) := by
  induction N with
  | zero =>
    refine ⟨fun _ => f0, fun _ => _, rfl, rfl, fun k hk => ?_, fun k hk => absurd hk (Nat.not_lt_zero k)⟩
    obtain rfl : k = 0 := by omega
    rw [h0]
    exact inv_start hl hr tl tr hc ht hd0 hj0 hn hu
  | succ N ih =>
    obtain ⟨F, L, h1, h2, h3, h4⟩ := ih (fun k hk => hC k (by omega))
    obtain ⟨f', L', k1, k2⟩ := (h3 N (le_refl _)).next hl hr tl tr hc ht hn (course_stepB hC (show N < N + 1 by omega))
    refine ⟨fun k => if k ≤ N then F k else f', fun k => if k ≤ N then L k else L', ?_, ?_, fun k hk => ?_, fun k hk => ?_⟩
    · beta_reduce; rw [if_pos (Nat.zero_le _)]; exact h1
    · beta_reduce; rw [if_pos (Nat.zero_le _)]; exact h2
    · beta_reduce
      by_cases hk' : k ≤ N
      · rw [if_pos hk', if_pos hk']; exact h3 k hk'
      · obtain rfl : k = N + 1 := by omega
        rw [if_neg hk', if_neg hk']; exact k1
    · beta_reduce
      rw [if_pos (show k ≤ N by omega), if_pos (show k ≤ N by omega)]
      by_cases hk' : k + 1 ≤ N
      · rw [if_pos hk', if_pos hk']; exact h4 k (by omega)
      · obtain rfl : k = N := by omega
        rw [if_neg hk', if_neg hk']; exact k2

end

/-! ## the history -/

/-- the same, operations being known of the programs that have been begun -/
abbrev Labelled (O E NP EP : Type) := List (Prog Db Unit × List O) × List (Sled.PieceCall E Ulid NP EP)

/-- the programs and their operations -/
def Labelled.all {O : Type} (c : Codecs NP EP) (mN : NP → NP → NP) (mE : EP → EP → EP) (lab : Sled.PieceCall E Ulid NP EP → List O)
    (v : Labelled O E NP EP) : List (Prog Db Unit × List O) :=
  v.1 ++ v.2.map (fun z => (z.prog c mN mE, lab z))

/-- the state of the process as users of the triple store, with what is left to do of each call -/
def GroupCore {O T G A : Type} (c : Codecs NP EP) (mN : NP → NP → NP) (mE : EP → EP → EP) (lab : Sled.PieceCall E Ulid NP EP → List O)
    (R : RG Db G A) (abs : Db → T) (st : T → O → T → Prop) (J : Db → Prop)
    (x : RdfDb × List (List (Prog RdfDb Unit))) (g : List (List (Group E NP EP))) (t : T)
    (q : List (List (Prog RdfDb Unit × List O))) : Prop :=
  ∃ Q : List (List (Labelled O E NP EP)), Q.map (List.map (fun v => (v.1.map Prod.fst, v.2))) = g ∧ x.2 = q.map (List.map Prod.fst) ∧
    q.map (List.map Prod.snd) = Q.map (List.map (fun v => v.1.flatMap Prod.snd ++ v.2.flatMap lab)) ∧
    R.CoreE abs st J false (x.1.data, (Q.map (List.flatMap (Labelled.all c mN mE lab))).map (List.map Prod.fst)) t
      (Q.map (List.flatMap (Labelled.all c mN mE lab)))

theorem groupCore_step {O T G A : Type} {R : RG Db G A} {abs : Db → T} {st : T → O → T → Prop} {J : Db → Prop}
    {lab : Sled.PieceCall E Ulid NP EP → List O}
    {x x' : RdfDb × List (List (Prog RdfDb Unit))} {g g' : List (List (Group E NP EP))} (hg : Goes c mN mE b x g x' g') {t : T}
    {q : List (List (Prog RdfDb Unit × List O))} (h : GroupCore c mN mE lab R abs st J x g t q) (hJ : J x.1.data) :
    ∃ i e q' t', Move b q i e q' ∧ Runs st t e t' ∧ GroupCore c mN mE lab R abs st J x' g' t' q' := by
  obtain ⟨Q, h1, h2, h3, h4⟩ := h
  cases hg with
  | @call d pre post F k qs G1 G2 A A' e T rest hl hs =>
    obtain ⟨Q1, y, Q2, rfl, rfl, hy, rfl⟩ := RG.map_split h1.symm
    obtain ⟨⟨QA, eT⟩, QR, rfl, hy1, rfl⟩ := List.map_eq_cons_iff.1 hy.symm
    obtain ⟨rfl, rfl⟩ := Prod.mk.inj hy1
    obtain ⟨q1, z, q2, rfl, rfl, hz, rfl⟩ := RG.map_split h2
    obtain ⟨⟨p, l⟩, qr, rfl, hp, rfl⟩ := List.map_eq_cons_iff.1 hz.symm
    dsimp only at hp
    subst hp
    simp only [List.map_append, List.map_cons] at h3
    obtain ⟨b1, b2⟩ := List.append_inj h3 (by simpa using hl)
    simp only [List.cons.injEq] at b2
    obtain ⟨⟨b2, b3⟩, b4⟩ := b2
    have e1 : (Q1 ++ ((QA, e ++ T) :: QR) :: Q2).map (List.flatMap (Labelled.all c mN mE lab)) =
        Q1.map (List.flatMap (Labelled.all c mN mE lab)) ++ ((QA ++ e.map (fun z => (z.prog c mN mE, lab z))) ++
          (T.map (fun z => (z.prog c mN mE, lab z)) ++ QR.flatMap (Labelled.all c mN mE lab))) ::
          Q2.map (List.flatMap (Labelled.all c mN mE lab)) := by simp [Labelled.all]
    have e2 : ∀ QA : List (Prog Db Unit × List O), (Q1 ++ ((QA, T) :: QR) :: Q2).map (List.flatMap (Labelled.all c mN mE lab)) =
        Q1.map (List.flatMap (Labelled.all c mN mE lab)) ++ (QA ++
          (T.map (fun z => (z.prog c mN mE, lab z)) ++ QR.flatMap (Labelled.all c mN mE lab))) ::
          Q2.map (List.flatMap (Labelled.all c mN mE lab)) := by simp [Labelled.all]
    rw [e1] at h4
    have e3 : (QA ++ e.map (fun z => (z.prog c mN mE, lab z))).map Prod.fst = QA.map Prod.fst ++ e.map (Sled.PieceCall.prog c mN mE) := by
      simp [Function.comp_def]
    obtain ⟨QA', ev, t', c1, c2, c3, c4⟩ := RG.coreE_solo h4 hJ (e3 ▸ hs)
    have hlab : l = ev ++ (QA'.flatMap Prod.snd ++ T.flatMap lab) := by
      rw [← List.append_assoc, ← c2, b2]
      simp [List.flatMap_append, List.flatMap_map]
    subst hlab
    refine ⟨_, ev, _, t', .call q1 q2 F k d ev _ qr, c3, Q1 ++ ((QA', T) :: QR) :: Q2, ?_, by simp, ?_, ?_⟩
    · rw [← c1]; simp
    · simp only [List.map_append, List.map_cons, b1, b3, b4]
    · rw [e2]; exact c4
  | @pop d pre post p qs G1 G2 v rest hl hs =>
    obtain ⟨Q1, y, Q2, rfl, rfl, hy, rfl⟩ := RG.map_split h1.symm
    obtain ⟨QA, QR, rfl, rfl, rfl⟩ := List.map_eq_cons_iff.1 hy.symm
    obtain ⟨q1, z, q2, rfl, rfl, hz, rfl⟩ := RG.map_split h2
    obtain ⟨⟨p', l⟩, qr, rfl, hp, rfl⟩ := List.map_eq_cons_iff.1 hz.symm
    dsimp only at hp
    subst hp
    simp only [List.map_append, List.map_cons] at h3
    obtain ⟨b1, b2⟩ := List.append_inj h3 (by simpa using hl)
    simp only [List.cons.injEq] at b2
    obtain ⟨⟨b2, b3⟩, b4⟩ := b2
    have e : (Q1 ++ (QA :: QR) :: Q2).map (List.flatMap (Labelled.all c mN mE lab)) =
        Q1.map (List.flatMap (Labelled.all c mN mE lab)) ++ (QA.all c mN mE lab ++ QR.flatMap (Labelled.all c mN mE lab)) ::
          Q2.map (List.flatMap (Labelled.all c mN mE lab)) := by simp
    rw [e] at h4
    have hlab : b = true ∨ l = [] := by
      refine hs.imp id (fun hs => ?_)
      have e3 : (QA.all c mN mE lab).map Prod.fst = Group.progs c mN mE (QA.1.map Prod.fst, QA.2) := by
        simp [Labelled.all, Group.progs, Function.comp_def]
      obtain ⟨QA', c1, c2, -⟩ := RG.coreE_pops h4 (e3 ▸ hs)
      rw [List.map_eq_nil_iff] at c1
      subst c1
      rw [b2]
      simpa [Labelled.all, List.flatMap_append, List.flatMap_map] using c2
    refine ⟨_, [], _, t, .pop q1 q2 p' l qr hlab, rfl, Q1 ++ QR :: Q2, by simp, by simp, ?_, ?_⟩
    · simp only [List.map_append, List.map_cons, b1, b3, b4]
    · have e' : (Q1 ++ QR :: Q2).map (List.flatMap (Labelled.all c mN mE lab)) =
          Q1.map (List.flatMap (Labelled.all c mN mE lab)) ++ QR.flatMap (Labelled.all c mN mE lab) ::
            Q2.map (List.flatMap (Labelled.all c mN mE lab)) := by simp
      rw [e']
      exact RG.coreE_drops h4

theorem TInv.every {f : Names} {R : Rec E NP EP} (h : TInv cl cr c mN mE b f0 f R) :
    List.Forall₂ (CallDid true f0 f R.th) R.th R.zs := by
  have rest : ∀ th th2 : List (PieceCall E NP EP), List.Forall₂ (CallDid true f0 f th) th2 (th2.map (fun _ => [])) := fun th th2 => by
    rw [List.forall₂_map_right_iff, List.forall₂_same]
    exact fun y _ => ⟨List.nil_prefix, .inl rfl⟩
  cases h with
  | @idle th1 th2 ps h hu => exact List.rel_append ((Past.dids h).imp (fun _ _ h => ⟨h.1, .inl rfl⟩)) (rest _ _)
  | @now th1 th2 x ps zx w l K P r fx h hu h0 hf hB hw hz hs hK ha =>
    exact List.rel_append ((Past.dids h).imp (fun _ _ h => ⟨h.1, .inl rfl⟩)) (.cons ⟨did_prefix hw hz, .inl rfl⟩ (rest _ _))

theorem forall₂_get {α β : Type} {P : α → β → Prop} {l : List α} {l' : List β} (h : List.Forall₂ P l l') {j : Nat} {a : α} {a' : β}
    (h1 : l[j]? = some a) (h2 : l'[j]? = some a') : P a a' := by
  induction h generalizing j with
  | nil => cases h1
  | cons h _ ih =>
    cases j with
    | zero => cases h1; cases h2; exact h
    | succ j => exact ih h1 h2

theorem past_get {f : Names} {th th1 : List (PieceCall E NP EP)} {ps : List (Names × List (Sled.PieceCall E Ulid NP EP))}
    (h : List.Forall₂ (Past b f0 f th) th1 ps) {j : Nat} {y : PieceCall E NP EP} {l : List (Sled.PieceCall E Ulid NP EP)}
    (h1 : th1[j]? = some y) (h2 : (ps.map Prod.snd)[j]? = some l) :
    ∃ g, (ps.map Prod.fst)[j]? = some g ∧ CallDid b g f th y l := by
  rw [List.getElem?_map] at h2
  obtain ⟨p, hp, rfl⟩ := Option.map_eq_some_iff.1 h2
  exact ⟨p.1, by rw [List.getElem?_map, hp]; rfl, (forall₂_get h h1 hp).did⟩

/-- what a call that has returned has done -/
theorem TInv.past {f : Names} {R : Rec E NP EP} (h : TInv cl cr c mN mE b f0 f R) {j : Nat} {y : PieceCall E NP EP}
    {l : List (Sled.PieceCall E Ulid NP EP)} (h1 : R.th[j]? = some y) (h2 : R.zs[j]? = some l) (hj : j + R.q.length < R.th.length) :
    ∃ g, R.fs[j]? = some g ∧ CallDid b g f R.th y l := by
  cases h with
  | @idle th1 th2 ps h hu =>
    simp only [List.length_append, List.length_map] at hj
    have hps : (ps.map Prod.snd).length = th1.length := by rw [List.length_map, h.length_eq]
    rw [List.getElem?_append_left (by omega)] at h1
    rw [List.getElem?_append_left (by omega)] at h2
    exact past_get h h1 h2
  | @now th1 th2 x ps zx w l K P r fx h hu h0 hf hB hw hz hs hK ha =>
    simp only [List.length_append, List.length_cons, List.length_map] at hj
    have hps : (ps.map Prod.snd).length = th1.length := by rw [List.length_map, h.length_eq]
    rw [List.getElem?_append_left (by omega)] at h1
    rw [List.getElem?_append_left (by omega)] at h2
    obtain ⟨g, h3, h4⟩ := past_get h h1 h2
    refine ⟨g, ?_, h4⟩
    dsimp only
    rw [List.getElem?_append_left (List.getElem?_eq_some_iff.1 h3).1]
    exact h3

/-- a call has not begun -/
theorem TInv.unbegun {f : Names} {R : Rec E NP EP} (h : TInv cl cr c mN mE b f0 f R) {j : Nat} (hj : j < R.th.length)
    (hs : (R.th.drop j).map (PieceCall.prog cl cr c mN mE) <:+ R.q) : R.fs.length ≤ j := by
  have hlen := hs.length_le
  cases h with
  | @idle th1 th2 ps h hu =>
    simp only [List.length_append, List.length_map, List.length_drop] at hlen hj ⊢
    rw [← h.length_eq]
    omega
  | @now th1 th2 x ps zx w l K P r fx h hu h0 hf hB hw hz hs' hK ha =>
    simp only [List.length_append, List.length_map, List.length_drop, List.length_cons, List.length_nil] at hlen hj ⊢
    rw [← h.length_eq]
    refine Nat.lt_of_le_of_ne (show th1.length ≤ j by omega) (fun e => ?_)
    subst e
    simp only [List.drop_append_length, List.map_cons] at hs
    have e := hs.eq_of_length (by simp)
    cases e
    exact below_irrefl _ hB

theorem keeps_le {F : Nat → Names} {N : Nat} (h : ∀ k < N, Keeps (F k) (F (k + 1))) {k0 k : Nat} (hk : k0 ≤ k) (hN : k ≤ N) :
    Keeps (F k0) (F k) := by
  induction hk with
  | refl => exact Keeps.refl _
  | step _ ih => exact (ih (by omega)).trans (h _ (by omega))

/-- a call that has not begun at some moment begins with the names there are at that moment, or more -/
theorem begins_with {F : Nat → Names} {L : Nat → List (Rec E NP EP)} {N : Nat} (hF : ∀ k < N, Keeps (F k) (F (k + 1)))
    (hL : ∀ k < N, List.Forall₂ (fun R R' => Begun (F k) R.fs R'.fs) (L k) (L (k + 1))) {k0 k : Nat} (hk : k0 ≤ k) (hN : k ≤ N)
    {i j : Nat} {R0 R : Rec E NP EP} (h0 : (L k0)[i]? = some R0) (h1 : (L k)[i]? = some R) (hj : R0.fs.length ≤ j) {g : Names}
    (hg : R.fs[j]? = some g) : Keeps (F k0) g := by
  induction hk generalizing R with
  | refl =>
    rw [h0] at h1
    cases h1
    rw [List.getElem?_eq_none hj] at hg
    cases hg
  | @step k hk ih =>
    have hlen := (hL k (by omega)).length_eq
    have hi : i < (L (k + 1)).length := (List.getElem?_eq_some_iff.1 h1).1
    have h2 : (L k)[i]? = some ((L k)[i]'(by omega)) := List.getElem?_eq_getElem _
    have hb : Begun (F k) _ _ := forall₂_get (hL k (by omega)) h2 h1
    by_cases hjk : j < ((L k)[i]'(by omega)).fs.length
    · refine ih (by omega) h2 ?_
      rcases hb with e | e
      · rw [← e]; exact hg
      · rw [e, List.getElem?_append_left hjk] at hg; exact hg
    · rcases hb with e | e
      · rw [e, List.getElem?_eq_none (by omega)] at hg; cases hg
      · rw [e, List.getElem?_append_right (by omega), List.getElem?_singleton] at hg
        split at hg
        · cases hg; exact keeps_le hF hk (by omega)
        · cases hg

/-- What a call has done so far on the triple store belongs to the calls it has made so far. -/
theorem stands_made {O : Type} {lab : Sled.PieceCall E Ulid NP EP → List O} {R : Rec E NP EP}
    {v : List (List (Sled.PieceCall E Ulid NP EP)) × List (Group E NP EP)} (ha : Ahead R v) (hz : R.th.length = R.zs.length)
    {J r : List (Prog RdfDb Unit × List O)} {f : Nat → List O} (hs : Stands b J r f) (hJ : J.map Prod.snd = v.1.map (List.flatMap lab))
    (hr : R.q = r.map Prod.fst) {Q : List (Labelled O E NP EP)} (hQ : Q.map (fun v => (v.1.map Prod.fst, v.2)) = v.2)
    (hl : r.map Prod.snd = Q.map (fun v => v.1.flatMap Prod.snd ++ v.2.flatMap lab)) {j : Nat}
    {l m : List (Sled.PieceCall E Ulid NP EP)} (h1 : R.zs[j]? = some l) (h2 : v.1[j]? = some m) :
    l <+: m ∧ f j <+: l.flatMap lab ∧ (j + R.q.length < R.th.length → l = m) := by
  have hlen : J.length = v.1.length := by simpa using congrArg List.length hJ
  obtain ⟨n, hn, s1, s2, s3⟩ := hs
  have hrl : r.length + n = J.length := by
    rcases s3 with ⟨rfl, -⟩ | ⟨y, p, rest, e, rfl, -⟩
    · rw [List.length_drop]; omega
    · have := (List.getElem?_eq_some_iff.1 e).1
      rw [List.length_cons, List.length_drop]; omega
  have hq : R.q.length = r.length := by rw [hr, List.length_map]
  have atJ : ∀ {i : Nat} {m}, v.1[i]? = some m → ∃ y, J[i]? = some y ∧ y.2 = m.flatMap lab := by
    intro i m hm
    have : (J.map Prod.snd)[i]? = some (m.flatMap lab) := by rw [hJ, List.getElem?_map, hm]; rfl
    rw [List.getElem?_map] at this
    exact Option.map_eq_some_iff.1 this
  obtain ⟨yj, hyj, ej⟩ := atJ h2
  rcases ha with ⟨a1, a2, a3⟩ | ⟨p, q, z1, zx, e, z3, a1, a2, a3, a4, a5⟩
  · rw [a2, h2] at h1
    cases h1
    rw [a1, List.length_nil] at hq
    have : j < n := by have := (List.getElem?_eq_some_iff.1 h2).1; omega
    exact ⟨List.prefix_refl _, ej ▸ (s1 j this yj hyj).1, fun _ => rfl⟩
  · have l1 : R.zs.length = z1.length + (q.length + 1) := by rw [a2]; simp
    have l2 : v.1.length = z1.length + (z3.length + 1) := by rw [a3]; simp
    have l3 : R.q.length = q.length + 1 := by rw [a1]; simp
    have l4 : n = z1.length := by omega
    rw [a2] at h1
    rw [a3] at h2
    rcases Nat.lt_trichotomy j n with hj | rfl | hj
    · rw [List.getElem?_append_left (by omega)] at h1 h2
      rw [h1] at h2
      cases h2
      exact ⟨List.prefix_refl _, ej ▸ (s1 j hj yj hyj).1, fun _ => rfl⟩
    · rw [l4, List.getElem?_append_right (le_refl _), Nat.sub_self] at h1 h2
      cases h1
      cases h2
      refine ⟨List.prefix_append _ _, ?_, fun h => by omega⟩
      rcases s3 with ⟨-, h⟩ | ⟨y, p', rest, e1, rfl, e2, -⟩
      · rw [h]; exact List.nil_prefix
      · rw [hyj] at e1
        cases e1
        rw [a5] at hQ
        obtain ⟨⟨Qr, e'⟩, Q', rfl, hv, -⟩ := List.map_eq_cons_iff.1 hQ
        obtain ⟨-, rfl⟩ := Prod.mk.inj hv
        simp only [List.map_cons, List.cons.injEq] at hl
        rw [ej, hl.1, List.flatMap_append, ← List.append_assoc] at e2
        have := List.append_cancel_right e2
        exact ⟨_, this.symm⟩
    · rw [s2 j hj]
      rw [List.getElem?_append_right (by omega), List.getElem?_cons, if_neg (by omega), List.getElem?_map] at h1
      obtain ⟨_, _, rfl⟩ := Option.map_eq_some_iff.1 h1
      exact ⟨List.nil_prefix, List.nil_prefix, fun h => by omega⟩

/-- what happens to the triple store in the meantime: the calls `zs` are made on it -/
structure OnData (c : Codecs NP EP) (mN : NP → NP → NP) (mE : EP → EP → EP) (d0 : Db) (zs : List (List (Sled.PieceCall E Ulid NP EP)))
    (D : Nat → Db) (N : Nat) : Prop where
  distinct : Sled.DistinctIds d0 (Sled.calls zs)
  noScan : ∀ th ∈ zs, ∀ z ∈ th, ¬ z.1.IsScan
  agreed : ∀ k ≤ N, Sled.Agreed (Sled.ToRaced (Sled.calls zs)) (D k)
  steps : ∀ k k', k ≤ k' → k' ≤ N → ∃ r r', Steps (d0, zs.map (List.map (Sled.PieceCall.prog c mN mE))) (D k, r) ∧ Steps (D k, r) (D k', r')

section
variable (hl : cl.RoundTrips) (hr : cr.RoundTrips) (tl : cl.Total) (tr : cr.Total) (hc : c.RoundTrip) (ht : c.Total)
include hl hr tl tr hc ht

theorem rdf_history {d0 : RdfDb} {G : Graph Ulid NP EP} (hd0 : (SledIndex.impl cl cr).Shows d0.names f0)
    (hj0 : Sled.WellFormed Ulid c d0.data) (inv : d0.data.Inv Ulid c) (hG : Sled.SpoShows c d0.data G)
    {threads : List (List (PieceCall E NP EP))} (hi : NewIdsFor f0 d0.data (threads.flatten.map Prod.fst))
    {x : Nat → RdfDb × List (List (Prog RdfDb Unit))} {N : Nat} (hC : Course b x N)
    (h0 : x 0 = (d0, threads.map (List.map (PieceCall.prog cl cr c mN mE)))) :
    ∃ (F : Nat → Names) (ths : List (List (PieceCall E NP EP × List (Sled.PieceCall E Ulid NP EP))))
      (h : List (Nat × Nat × Op E Ulid NP EP)) (cut : Nat → Nat) (H : Nat → Graph Ulid NP EP),
      ths.map (List.map Prod.fst) = threads ∧ F 0 = f0 ∧
      (∀ k ≤ N, (SledIndex.impl cl cr).Shows (x k).1.names (F k)) ∧
      (∀ k < N, Keeps (F k) (F (k + 1)) ∧ Named (x k).2 (x (k + 1)).2 threads (F k) (F (k + 1))) ∧
      (∀ th ∈ ths, ∀ y ∈ th, CallDid true f0 (F N) (th.map Prod.fst) y.1 y.2) ∧
      (∀ k ≤ N, ∀ (i : Nat) th (j : Nat) y, ths[i]? = some th → th[j]? = some y → ∃ l, l <+: y.2 ∧
        CallDid true f0 (F k) (th.map Prod.fst) y.1 l ∧ doneBy i j (h.take (cut k)) <+: l.flatMap (fun z => z.1.acts)) ∧
      (∀ k' k, k' ≤ k → k ≤ N → ∀ (i : Nat) th q' q (j : Nat) y, ths[i]? = some th → (x k').2[i]? = some q' → (x k).2[i]? = some q →
        th[j]? = some y → (th.drop j).map (fun y => y.1.prog cl cr c mN mE) <:+ q' → j + q.length < th.length →
        CallDid b (F k') (F k) (th.map Prod.fst) y.1 y.2) ∧
      Tells b (fun y => y.1.prog cl cr c mN mE) (fun y => y.2.flatMap (fun z => z.1.acts))
        (LooseStep c.okN c.okE mN mE (Sled.FromRaced (Sled.calls (ths.map (List.flatMap Prod.snd))))
          (Sled.ToRaced (Sled.calls (ths.map (List.flatMap Prod.snd)))))
        (fun d G => Sled.ShowsBut c (Sled.ToRaced (Sled.calls (ths.map (List.flatMap Prod.snd)))) d.data G) G ths x N h cut H ∧
      OnData c mN mE d0.data (ths.map (List.flatMap Prod.snd)) (fun k => (x k).1.data) N := by
  have hu : ∀ th ∈ threads, Unborn b f0 th := fun th hth => .inr (fun u h1 =>
    hi.names u (by rw [← mine_eq]; exact List.mem_flatMap.2 ⟨th, hth, h1⟩))
  have hn : b = true ∨ (threads.flatMap mine).Nodup := .inr (by rw [mine_eq]; exact hi.ulids)
  obtain ⟨F, L, F0, L0, hI, hA⟩ := along (mN := mN) (mE := mE) hl hr tl tr hc (.inr ht) hd0 hj0 hn hu hC h0
  have hN := hI N (le_refl _)
  -- the calls made in the end
  have hlen : ∀ R ∈ L N, R.th.length = R.zs.length := fun R hR => (hN.each R hR).every.length_eq
  have ezip1 : ∀ R ∈ L N, (R.th.zip R.zs).map Prod.fst = R.th := fun R hR => List.map_fst_zip (by rw [hlen R hR])
  have ezip2 : ∀ R ∈ L N, (R.th.zip R.zs).map Prod.snd = R.zs := fun R hR => List.map_snd_zip (by rw [hlen R hR])
  have e1 : ((L N).map (fun R => R.th.zip R.zs)).map (List.map Prod.fst) = threads := by
    rw [← hN.ths, List.map_map]
    exact List.map_congr_left ezip1
  have e2 : ((L N).map (fun R => R.th.zip R.zs)).map (List.flatMap Prod.snd) = (L N).map Rec.calls := by
    rw [List.map_map]
    refine List.map_congr_left (fun R hR => ?_)
    show List.flatMap Prod.snd (R.th.zip R.zs) = R.zs.flatten
    rw [List.flatMap_def, ezip2 R hR]
  have hdid : List.Forall₂ (ThreadDid true f0 (F N)) threads ((L N).map Rec.calls) := by
    rw [← hN.ths, List.forall₂_map_left_iff, List.forall₂_map_right_iff, List.forall₂_same]
    exact fun R hR => ⟨R.zs, (hN.each R hR).every, rfl⟩
  have hle : Learns f0 (F N) threads := ⟨hN.keeps, hN.origin⟩
  have hD : Did f0 [⟨true, threads⟩] [(⟨true, (L N).map Rec.calls⟩ : Sled.Session E Ulid NP EP)] (F N) := ⟨F N, hle, rfl, hdid, rfl⟩
  have hdis := did_distinct (d := d0.data) (by simpa [everyCall] using hi) hD
  have e3 : Sled.everyCall [(⟨true, (L N).map Rec.calls⟩ : Sled.Session E Ulid NP EP)] = Sled.calls ((L N).map Rec.calls) := by
    simp [Sled.everyCall]
  rw [e3] at hdis
  have hsc : ∀ th ∈ (L N).map Rec.calls, ∀ z ∈ th, ¬ z.1.IsScan := (did_drawn hD).2 _ (List.mem_singleton.2 rfl)
  -- what is left to do at each moment
  have hVN : ∃ VN : List (List (List (Sled.PieceCall E Ulid NP EP)) × List (Group E NP EP)), VN.map Prod.fst = (L N).map Rec.zs ∧
      List.Forall₂ Ahead (L N) VN := by
    have := hN.each
    revert this
    generalize L N = l
    intro hl
    induction l with
    | nil => exact ⟨[], rfl, .nil⟩
    | cons R l ih =>
      obtain ⟨V, v1, v2⟩ := ih (fun R hR => hl R (by simp [hR]))
      obtain ⟨g, hg⟩ := (hl R (by simp)).ahead
      exact ⟨(R.zs, g) :: V, by simp [v1], .cons hg v2⟩
  obtain ⟨VN, v1, v2⟩ := hVN
  obtain ⟨V, w12, w3⟩ := exists_groups (fun k hk => (hI k hk).qs) (fun k hk => (hA k hk).2.2.1) v2
  have w4 : (V 0).map Prod.snd = (L N).map (fun R => R.zs.map (fun z => ([], z))) := by
    obtain ⟨w1, w2⟩ := w12 0 (Nat.zero_le _)
    have : (V 0).map Prod.snd = ((V 0).map Prod.fst).map (List.map (fun z => ([], z))) := by
      rw [L0, List.forall₂_map_left_iff] at w2
      rw [List.map_map]
      refine List.map_congr_left (fun v hv => ?_)
      obtain ⟨j, hj, rfl⟩ := List.mem_iff_getElem.1 hv
      have := (List.forall₂_iff_get.1 w2).2 j (by rw [w2.length_eq]; exact hj) hj
      exact ahead_start this
    rw [this, w1, v1, List.map_map]
    rfl
  -- programs on the triple store
  have ecalls : Sled.Programs.calls (((L N).map Rec.calls).map (List.map (fun x => (x.prog c mN mE, x.1)))) =
      Sled.calls ((L N).map Rec.calls) := by
    simp [Sled.Programs.calls, Sled.calls, Function.comp_def]
  have estart : Sled.Programs.start (((L N).map Rec.calls).map (List.map (fun x => (x.prog c mN mE, x.1)))) =
      ((V 0).map Prod.snd).map (List.flatMap (Group.progs c mN mE)) := by
    rw [w4]
    simp [Sled.Programs.start, Function.comp_def, Rec.calls, List.map_flatten, List.flatMap_map, Group.progs, List.flatMap_def]
  have steps : ∀ k ≤ N, StepsB true (d0.data, ((V 0).map Prod.snd).map (List.flatMap (Group.progs c mN mE)))
      ((x k).1.data, ((V k).map Prod.snd).map (List.flatMap (Group.progs c mN mE))) := by
    intro k
    induction k with
    | zero => intro _; rw [h0]
    | succ k ih => exact fun hk => (ih (by omega)).trans (w3 k (by omega)).steps
  have hJ : ∀ k ≤ N, Sled.Agreed (Sled.ToRaced (Sled.calls ((L N).map Rec.calls))) (x k).1.data := by
    intro k hk
    refine Sled.agreed_programs (ths := ((L N).map Rec.calls).map (List.map (fun x => (x.prog c mN mE, x.1)))) (c := c) (mN := mN)
      (mE := mE) (b := false) (d0 := d0.data) (Own := Sled.owner d0.data (Sled.allWrites (Sled.calls ((L N).map Rec.calls))))
      (fun t _ o => inv.same o t) (fun t h => ?_) ?_ _ (steps_of_stepsB (estart ▸ steps k hk))
    · rw [ecalls]
      exact ⟨fun h' => h (.inr (.inl h')), fun h' => h (.inr (.inr h'))⟩
    · rw [ecalls]
      exact Sled.fineX_pieces hc (.inr ht) inv hdis hsc
  obtain ⟨k1, k2, k3⟩ := Sled.loose_start (ths := ((L N).map Rec.calls).map (List.map (fun x => (x.prog c mN mE, x.1)))) (c := c) (mN := mN)
    (mE := mE) (b := false) (d0 := d0.data) (Own := Sled.owner d0.data (Sled.allWrites (Sled.calls ((L N).map Rec.calls))))
    (WS := Sled.FromRaced (Sled.calls ((L N).map Rec.calls))) (WO := Sled.ToRaced (Sled.calls ((L N).map Rec.calls)))
    (by rw [ecalls]; exact Sled.ready_start inv hdis rfl) (by rw [ecalls]; exact fun _ h => h)
    (by rw [ecalls]; exact fun _ h h' => h (.inl h')) (Sled.fineS_pieces hc (.inr ht) inv hdis hsc)
  have hG0 : d0.data.graph c = G := (spoShows_unique hG (Sled.spoOk_shows k1)).symm
  have main := tells_of (b := b) (prog := fun y : PieceCall E NP EP × List (Sled.PieceCall E Ulid NP EP) => y.1.prog cl cr c mN mE)
    (ops := fun y => y.2.flatMap (fun z => z.1.acts))
    (shows := fun (d : RdfDb) G => Sled.ShowsBut c (Sled.ToRaced (Sled.calls ((L N).map Rec.calls))) d.data G)
    (Core := fun k t q => GroupCore c mN mE (fun z => z.1.acts)
      (Sled.spoRG c (Sled.owner d0.data (Sled.allWrites (Sled.calls ((L N).map Rec.calls)))))
      (fun d => d.graph c) (LooseStep (E := E) c.okN c.okE mN mE (Sled.FromRaced (Sled.calls ((L N).map Rec.calls)))
        (Sled.ToRaced (Sled.calls ((L N).map Rec.calls)))) (Sled.Agreed (Sled.ToRaced (Sled.calls ((L N).map Rec.calls))))
      (x k) ((V k).map Prod.snd) t q) (t0 := G) (threads := (L N).map (fun R => R.th.zip R.zs)) hC
    (fun k hk t q h => groupCore_step (w3 k hk) h (hJ k (by omega)))
    (by
      rintro k hk t q ⟨Q, -, g2, -, X, ats, -, -, g3, -, -, rfl⟩
      exact ⟨g2, (Sled.spoOk_shows g3).but (hJ k hk)⟩)
    (by
      refine ⟨(L N).map (fun R => R.zs.map (fun z => ([], z))), ?_, ?_, ?_, ?_⟩
      · rw [w4]; simp [Function.comp_def]
      · rw [h0, ← e1]; simp [Function.comp_def]
      · rw [List.map_map, List.map_map, List.map_map]
        refine List.map_congr_left (fun R hR => ?_)
        simp only [Function.comp_def, List.map_map, List.flatMap_nil, List.nil_append]
        have := congrArg (List.map (fun l : List (Sled.PieceCall E Ulid NP EP) => l.flatMap (fun z => z.1.acts))) (ezip2 R hR)
        rw [List.map_map] at this
        exact this
      · rw [h0]
        refine ⟨_, _, ?_, ?_, k1, k2, k3, hG0⟩
        · simp [Function.comp_def, Rec.calls, List.map_flatten, List.flatMap_map, Labelled.all, List.flatMap_def]
        · simp [Function.comp_def, Rec.calls, List.map_flatten, List.flatMap_map, Labelled.all, List.flatMap_def])
  obtain ⟨h, cut, H, hT, hS⟩ := main
  have hData : OnData c mN mE d0.data ((L N).map Rec.calls) (fun k => (x k).1.data) N := by
    refine ⟨hdis, hsc, hJ, fun k k' hk hk' => ?_⟩
    have first := steps_of_stepsB (estart ▸ steps k (hk.trans hk'))
    have second : ∀ j, k + j ≤ N → StepsB true ((x k).1.data, ((V k).map Prod.snd).map (List.flatMap (Group.progs c mN mE)))
        ((x (k + j)).1.data, ((V (k + j)).map Prod.snd).map (List.flatMap (Group.progs c mN mE))) := by
      intro j
      induction j with
      | zero => exact fun _ => .refl
      | succ j ih => exact fun hj => (ih (by omega)).trans (w3 (k + j) (by omega)).steps
    have second := steps_of_stepsB (second (k' - k) (by omega))
    rw [show k + (k' - k) = k' by omega] at second
    refine ⟨_, _, ?_, second⟩
    have e : Sled.Programs.start (((L N).map Rec.calls).map (List.map (fun x => (x.prog c mN mE, x.1)))) =
        ((L N).map Rec.calls).map (List.map (Sled.PieceCall.prog c mN mE)) := by
      simp [Sled.Programs.start, Function.comp_def]
    rw [← e]
    exact first
  -- what has been made at each moment
  have made : ∀ k ≤ N, ∀ (i : Nat) th (j : Nat) y, ((L N).map (fun R => R.th.zip R.zs))[i]? = some th → th[j]? = some y →
      ∃ R ∈ L k, (L k)[i]? = some R ∧ R.th = th.map Prod.fst ∧ R.th[j]? = some y.1 ∧ ∃ l, R.zs[j]? = some l ∧ l <+: y.2 ∧
        doneBy i j (h.take (cut k)) <+: l.flatMap (fun z => z.1.acts) ∧ (j + R.q.length < R.th.length → l = y.2) := by
    intro k hk i th j y hi' hy
    rw [List.getElem?_map] at hi'
    obtain ⟨RN, hRN, rfl⟩ := Option.map_eq_some_iff.1 hi'
    have hmem := List.mem_of_getElem? hRN
    have hy1 : RN.th[j]? = some y.1 := by rw [← ezip1 RN hmem, List.getElem?_map, hy]; rfl
    have hy2 : RN.zs[j]? = some y.2 := by rw [← ezip2 RN hmem, List.getElem?_map, hy]; rfl
    have hth : ((L k).map Rec.th)[i]? = some RN.th := by
      rw [(hI k hk).ths, ← hN.ths, List.getElem?_map, hRN]; rfl
    rw [List.getElem?_map] at hth
    obtain ⟨R, hR, eR⟩ := Option.map_eq_some_iff.1 hth
    have hRm := List.mem_of_getElem? hR
    have hzl : R.th.length = R.zs.length := ((hI k hk).each R hRm).every.length_eq
    obtain ⟨wa, wb⟩ := w12 k hk
    have hVi : ((V k).map Prod.fst)[i]? = some RN.zs := by rw [wa, v1, List.getElem?_map, hRN]; rfl
    rw [List.getElem?_map] at hVi
    obtain ⟨v, hv, ev⟩ := Option.map_eq_some_iff.1 hVi
    have hah : Ahead R v := forall₂_get wb hR hv
    obtain ⟨q, ⟨Q, g1, g2, g3, -⟩, -, g4⟩ := hS k hk
    have hxq : ((x k).2)[i]? = some R.q := by rw [← (hI k hk).qs, List.getElem?_map, hR]; rfl
    rw [g2, List.getElem?_map] at hxq
    obtain ⟨r, hr', er⟩ := Option.map_eq_some_iff.1 hxq
    have hQi : (Q.map (List.map (fun v => (v.1.map Prod.fst, v.2))))[i]? = some v.2 := by rw [g1, List.getElem?_map, hv]; rfl
    rw [List.getElem?_map] at hQi
    obtain ⟨Qi, hQ, eQ⟩ := Option.map_eq_some_iff.1 hQi
    have hlab : some (r.map Prod.snd) = some (Qi.map (fun v => v.1.flatMap Prod.snd ++ v.2.flatMap (fun z => z.1.acts))) := by
      have := congrArg (fun l => l[i]?) g3
      simpa [List.getElem?_map, hr', hQ] using this
    obtain ⟨hlt, -⟩ := List.getElem?_eq_some_iff.1 hy1
    rw [← eR, hzl] at hlt
    have hstand := g4 i ((RN.th.zip RN.zs).map (fun y => (y.1.prog cl cr c mN mE, y.2.flatMap (fun z => z.1.acts)))) r
      (by rw [List.getElem?_map, List.getElem?_map, hRN]; rfl) hr'
    obtain ⟨s1, s2, s3⟩ := stands_made (lab := fun z => z.1.acts) hah hzl hstand
      (by
        rw [ev, List.map_map, ← ezip2 RN hmem, List.map_map]
        rw [ezip2 RN hmem]
        rfl) er.symm eQ (Option.some.inj hlab) (List.getElem?_eq_getElem hlt) (ev ▸ hy2)
    exact ⟨R, hRm, hR, by rw [ezip1 RN hmem, eR], by rw [eR]; exact hy1, _, List.getElem?_eq_getElem hlt, s1, s2, s3⟩
  refine ⟨F, (L N).map (fun R => R.th.zip R.zs), h, cut, H, e1, F0, fun k hk => (hI k hk).shows, fun k hk => ⟨(hA k hk).1, (hA k hk).2.1⟩,
    fun th hth y hy => ?_, fun k hk i th j y hi' hy => ?_, fun k' k hkk hk i th q' q j y hi' hq' hq hy hb hj => ?_, by rw [e2]; exact hT,
    by rw [e2]; exact hData⟩
  · obtain ⟨R, hR, rfl⟩ := List.mem_map.1 hth
    rw [ezip1 R hR]
    exact (List.forall₂_iff_zip.1 (hN.each R hR).every).2 hy
  · obtain ⟨R, hR, -, a1, a2, l, a3, a4, a5, -⟩ := made k hk i th j y hi' hy
    exact ⟨l, a4, a1 ▸ forall₂_get ((hI k hk).each R hR).every a2 a3, a5⟩
  · obtain ⟨R, hR, hRi, a1, a2, l, a3, a4, a5, a6⟩ := made k hk i th j y hi' hy
    obtain ⟨R', hR', hRi', a1', a2', -⟩ := made k' (by omega) i th j y hi' hy
    have eq : (x k).2[i]? = some R.q := by rw [← (hI k hk).qs, List.getElem?_map, hRi]; rfl
    have eq' : (x k').2[i]? = some R'.q := by rw [← (hI k' (by omega)).qs, List.getElem?_map, hRi']; rfl
    rw [eq] at hq
    rw [eq'] at hq'
    cases hq
    cases hq'
    have hj' : j + R.q.length < R.th.length := by rw [a1, List.length_map]; exact hj
    obtain rfl := a6 hj'
    obtain ⟨g, g1, g2⟩ := ((hI k hk).each R hR).past a2 a3 hj'
    have hun : R'.fs.length ≤ j := by
      refine ((hI k' (by omega)).each R' hR').unbegun (List.getElem?_eq_some_iff.1 a2').1 ?_
      rw [a1', ← List.map_drop, List.map_map]
      exact hb
    have := begins_with (fun k hk => (hA k hk).1) (fun k hk => (hA k hk).2.2.2) hkk hk hRi' hRi hun g1
    exact a1 ▸ g2.anti this

end

end RdfSled

end Verif
