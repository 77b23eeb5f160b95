import Verif.Proof.RdfSledDoes
import Verif.Proof.StepsB

/-! # Threads with RDF stores as users of the triple store -/

set_option linter.unusedSectionVars false

namespace Verif

open Spec ConcreteId

namespace RdfSled

variable {NP EP E α β : Type} {cl : Codec String} {cr : Codec Ulid} {c : Codecs NP EP} {mN : NP → NP → NP} {mE : EP → EP → EP}
variable {O : Ulid → Prop} {A : String → Ulid → Prop} {W : Names → Sled.PieceCall E Entity NP EP → Prop} {J : Db → Prop}
variable {b : Bool} {f0 : Names}

/-- The program is somewhere within a call on the triple store: `r` is what that call has still to do. -/
inductive Mid (cl : Codec String) (cr : Codec Ulid) (c : Codecs NP EP) (mN : NP → NP → NP) (mE : EP → EP → EP)
    (O : Ulid → Prop) (A : String → Ulid → Prop) (W : Names → Sled.PieceCall E Entity NP EP → Prop) (J : Db → Prop)
    (K : Names → Prop) (l : List (Sled.PieceCall E Entity NP EP)) : Prog RdfDb Unit → List (Prog Db Unit) → Prop
  | mk {α : Type} {g : Db → Db} {k : Db → Prog Db α} {kk : α → Prog RdfDb Unit} {Q : α → Prop}
      (hg : (Prog.call g k).Gives J Q) (hk : ∀ a, Q a → Follows cl cr c mN mE O A W J K l (kk a)) :
      Mid cl cr c mN mE O A W J K l ((Prog.call g k).onData.bind kk) [(Prog.call g k).bind (fun _ => .ret ())]

/-- The program is between calls on the triple store, or within one. -/
def At (cl : Codec String) (cr : Codec Ulid) (c : Codecs NP EP) (mN : NP → NP → NP) (mE : EP → EP → EP)
    (O : Ulid → Prop) (A : String → Ulid → Prop) (W : Names → Sled.PieceCall E Entity NP EP → Prop) (J : Db → Prop)
    (K : Names → Prop) (l : List (Sled.PieceCall E Entity NP EP)) (P : Prog RdfDb Unit) (r : List (Prog Db Unit)) : Prop :=
  (r = [] ∧ Follows cl cr c mN mE O A W J K l P) ∨ Mid cl cr c mN mE O A W J K l P r

/-- the same, its next call being on the names or within a call on the triple store -/
inductive Here (cl : Codec String) (cr : Codec Ulid) (c : Codecs NP EP) (mN : NP → NP → NP) (mE : EP → EP → EP)
    (O : Ulid → Prop) (A : String → Ulid → Prop) (W : Names → Sled.PieceCall E Entity NP EP → Prop) (J : Db → Prop)
    (K : Names → Prop) (l : List (Sled.PieceCall E Entity NP EP)) : Prog RdfDb Unit → List (Prog Db Unit) → Prop
  | ret (h : ∀ f, K f → l = [] ∨ ∃ y l', l = y :: l' ∧ W f y) : Here cl cr c mN mE O A W J K l (.ret ()) []
  | names {g : IndexDb → IndexDb} {k : RdfDb → Prog RdfDb Unit}
      (K' : RdfDb → Names → Prop) (hs : ∀ d, Stable O (K' d))
      (h : ∀ d f, (SledIndex.impl cl cr).Shows d.names f → K f → ∃ f', (SledIndex.impl cl cr).Shows (g d.names) f' ∧ Keeps f f' ∧
        (∀ s u, f' s = some u → f s = some u ∨ A s u) ∧ K' d f')
      (hk : ∀ d, Follows cl cr c mN mE O A W J (K' d) l (k d)) :
      Here cl cr c mN mE O A W J K l (.call (fun d => { d with names := g d.names }) k) []
  | mid {P : Prog RdfDb Unit} {r : List (Prog Db Unit)} (h : Mid cl cr c mN mE O A W J K l P r) : Here cl cr c mN mE O A W J K l P r

/-- calls on the triple store which are over at once -/
theorem settle {K : Names → Prop} {l : List (Sled.PieceCall E Entity NP EP)} {P : Prog RdfDb Unit}
    (h : Follows cl cr c mN mE O A W J K l P) :
      ∃ (w l' : List (Sled.PieceCall E Entity NP EP)) (zs : List (Sled.PieceCall E Ulid NP EP)) (r : List (Prog Db Unit)), l = w ++ l' ∧
      (∀ f, K f → w.map (pieceIn f) = zs.map some) ∧ Here cl cr c mN mE O A W J K l' P r ∧
      Pops (zs.map (Sled.PieceCall.prog c mN mE)) r := by
  induction h with
  | ret h => exact ⟨[], _, [], [], rfl, fun _ _ => rfl, .ret h, .refl _⟩
  | names K' hs h hk _ => exact ⟨[], _, [], [], rfl, fun _ _ => rfl, .names K' hs h hk, .refl _⟩
  | @data K l α p k Q y z h hp hg hk ih =>
    cases p with
    | ret a =>
      obtain ⟨w, l', zs, r, h1, h2, h3, h4⟩ := ih a hg
      refine ⟨y :: w, l', z :: zs, r, by rw [h1]; rfl, fun f hf => ?_, h3, ?_⟩
      · simp only [List.map_cons, h f hf, h2 f hf]
      · rw [List.map_cons, hp]
        exact h4.cons
    | call g k' =>
      refine ⟨[y], l, [z], [z.prog c mN mE], rfl, fun f hf => by simp [h f hf], ?_, .refl _⟩
      rw [hp]
      exact .mid (.mk hg hk)

theorem At.settle {K : Names → Prop} {l : List (Sled.PieceCall E Entity NP EP)} {P : Prog RdfDb Unit} {r : List (Prog Db Unit)}
    (h : At cl cr c mN mE O A W J K l P r) :
      ∃ (w l' : List (Sled.PieceCall E Entity NP EP)) (zs : List (Sled.PieceCall E Ulid NP EP)) (r' : List (Prog Db Unit)), l = w ++ l' ∧
      (∀ f, K f → w.map (pieceIn f) = zs.map some) ∧ Here cl cr c mN mE O A W J K l' P r' ∧
      Pops (r ++ zs.map (Sled.PieceCall.prog c mN mE)) r' := by
  rcases h with ⟨rfl, h⟩ | h
  · exact RdfSled.settle h
  · exact ⟨[], l, [], r, rfl, fun _ _ => rfl, .mid h, by rw [List.map_nil, List.append_nil]; exact .refl r⟩

/-- a step within a call on the triple store -/
theorem Mid.step {K : Names → Prop} {l : List (Sled.PieceCall E Entity NP EP)} {P : Prog RdfDb Unit} {r : List (Prog Db Unit)}
    (h : Mid cl cr c mN mE O A W J K l P r) : ∃ (g : Db → Db) (k : RdfDb → Prog RdfDb Unit), P = .call (fun d => { d with data := g d.data }) k ∧ (∀ d, J d → J (g d)) ∧
      ∀ d : RdfDb, J d.data → ∃ (f : Db → Db) (k' : Db → Prog Db Unit) (r' : List (Prog Db Unit)), r = [.call f k'] ∧ f d.data = g d.data ∧
        At cl cr c mN mE O A W J K l (k d) r' ∧ Pops [k' d.data] r' := by
  cases h with
  | @mk α g k kk Q hg hk =>
    refine ⟨g, _, rfl, fun d hd => (hg d hd).1, fun d hd => ?_⟩
    have h2 := (hg d.data hd).2
    dsimp only
    cases e : k d.data with
    | ret a =>
      rw [e] at h2
      exact ⟨g, _, [], rfl, rfl, .inl ⟨rfl, hk a h2⟩, by rw [e]; exact (Pops.refl []).cons⟩
    | call g' k' =>
      rw [e] at h2
      exact ⟨g, _, _, rfl, rfl, .inr (.mk h2 hk), by rw [e]; exact .refl _⟩

/-! ## one thread -/

/-- a thread: its calls, what is left of them, the calls on the triple store each of them has made, what is left of these, and the
names there were when its calls began -/
structure Rec (E NP EP : Type) where
  th : List (PieceCall E NP EP)
  q : List (Prog RdfDb Unit)
  zs : List (List (Sled.PieceCall E Ulid NP EP))
  r : List (Prog Db Unit)
  fs : List Names

/-- the calls it has made on the triple store -/
def Rec.calls (R : Rec E NP EP) : List (Sled.PieceCall E Ulid NP EP) := R.zs.flatten

/-- the ids of calls not yet begun name nothing -/
def Unborn (b : Bool) (f : Names) (th : List (PieceCall E NP EP)) : Prop := b = true ∨ ∀ u ∈ mine th, ∀ s, f s ≠ some u

/-- a call has returned: the names there were when it began, and the calls on the triple store it has made -/
structure Past (b : Bool) (f0 f : Names) (th : List (PieceCall E NP EP)) (x : PieceCall E NP EP)
    (p : Names × List (Sled.PieceCall E Ulid NP EP)) : Prop where
  did : CallDid b p.1 f th x p.2
  start : Keeps f0 p.1
  keeps : Keeps p.1 f

/-- where a thread is -/
inductive TInv (cl : Codec String) (cr : Codec Ulid) (c : Codecs NP EP) (mN : NP → NP → NP) (mE : EP → EP → EP) (b : Bool)
    (f0 f : Names) : Rec E NP EP → Prop
  | idle {th1 th2 : List (PieceCall E NP EP)} {ps : List (Names × List (Sled.PieceCall E Ulid NP EP))}
      (h : List.Forall₂ (Past b f0 f (th1 ++ th2)) th1 ps) (hu : Unborn b f th2) :
      TInv cl cr c mN mE b f0 f ⟨th1 ++ th2, th2.map (PieceCall.prog cl cr c mN mE), ps.map Prod.snd ++ th2.map (fun _ => []), [],
        ps.map Prod.fst⟩
  | now {th1 th2 : List (PieceCall E NP EP)} {x : PieceCall E NP EP} {ps : List (Names × List (Sled.PieceCall E Ulid NP EP))}
      {zx : List (Sled.PieceCall E Ulid NP EP)} {w l : List (Sled.PieceCall E Entity NP EP)} {K : Names → Prop}
      {P : Prog RdfDb Unit} {r : List (Prog Db Unit)} {fx : Names}
      (h : List.Forall₂ (Past b f0 f (th1 ++ x :: th2)) th1 ps) (hu : Unborn b f th2) (h0 : Keeps f0 fx) (hf : Keeps fx f)
      (hB : Below P (x.prog cl cr c mN mE))
      (hw : x.wants = w ++ l) (hz : w.map (pieceIn f) = zx.map some) (hs : Stable (Others b (th1 ++ x :: th2)) K) (hK : K f)
      (ha : At cl cr c mN mE (Others b (th1 ++ x :: th2)) (Allowed x) (Why b fx (th1 ++ x :: th2)) (Sled.WellFormed Ulid c) K l P r) :
      TInv cl cr c mN mE b f0 f ⟨th1 ++ x :: th2, P :: th2.map (PieceCall.prog cl cr c mN mE), ps.map Prod.snd ++ zx :: th2.map (fun _ => []),
        r, ps.map Prod.fst ++ [fx]⟩

theorem CallDid.mono {f f' : Names} (hk : Keeps f f') {th : List (PieceCall E NP EP)} {x : PieceCall E NP EP}
    {l : List (Sled.PieceCall E Ulid NP EP)} (h : CallDid b f0 f th x l) : CallDid b f0 f' th x l := by
  obtain ⟨h1, h2⟩ := h
  refine ⟨?_, h2.imp id (Or.imp id (fun ⟨y, h3, h4⟩ => ⟨y, h3, h4.mono hk⟩))⟩
  revert h1
  generalize x.wants = ws
  clear h2
  intro h1
  induction l generalizing ws with
  | nil => exact List.nil_prefix
  | cons z l ih =>
    cases ws with
    | nil =>
      have := h1.length_le
      simp at this
    | cons y ws =>
      rw [List.map_cons, List.map_cons, List.cons_prefix_cons] at h1 ⊢
      exact ⟨(pieceIn_mono hk h1.1.symm).symm, ih ws h1.2⟩

theorem Fails.anti {f0 fx f : Names} (h0 : Keeps f0 fx) {th : List (PieceCall E NP EP)} {y : Sled.Call E Entity NP EP}
    (h : Fails fx f th y) : Fails f0 f th y := by
  have none : ∀ {s}, fx s = none → f0 s = none := fun {s} hs => by
    cases e : f0 s with
    | none => rfl
    | some u => rw [h0 s u e] at hs; cases hs
  cases y with
  | removeNode e => obtain ⟨s, h1, h2⟩ := h; exact ⟨s, h1, none h2⟩
  | removeEdge t => obtain ⟨s, h1, h2⟩ := h; exact ⟨s, h1, none h2⟩
  | insertNode e p => obtain ⟨s, v, h1, h2, h3⟩ := h; exact ⟨s, v, h1, none h2, h3⟩
  | mergeNode e p => obtain ⟨s, v, h1, h2, h3⟩ := h; exact ⟨s, v, h1, none h2, h3⟩
  | insertEdge i t p => obtain ⟨s, v, h1, h2, h3⟩ := h; exact ⟨s, v, h1, none h2, h3⟩
  | mergeEdge i t p => obtain ⟨s, v, h1, h2, h3⟩ := h; exact ⟨s, v, h1, none h2, h3⟩
  | _ => exact h

/-- a call began later -/
theorem CallDid.anti {fx f : Names} (h0 : Keeps f0 fx) {th : List (PieceCall E NP EP)} {x : PieceCall E NP EP}
    {l : List (Sled.PieceCall E Ulid NP EP)} (h : CallDid b fx f th x l) : CallDid b f0 f th x l :=
  ⟨h.1, h.2.imp id (Or.imp id (fun ⟨y, h3, h4⟩ => ⟨y, h3, h4.anti h0⟩))⟩

theorem Past.mono {f f' : Names} (hk : Keeps f f') {th : List (PieceCall E NP EP)} {x : PieceCall E NP EP}
    {p : Names × List (Sled.PieceCall E Ulid NP EP)} (h : Past b f0 f th x p) : Past b f0 f' th x p :=
  ⟨h.did.mono hk, h.start, h.keeps.trans hk⟩

theorem Past.dids {f : Names} {th th1 : List (PieceCall E NP EP)} {ps : List (Names × List (Sled.PieceCall E Ulid NP EP))}
    (h : List.Forall₂ (Past b f0 f th) th1 ps) : List.Forall₂ (CallDid b f0 f th) th1 (ps.map Prod.snd) := by
  rw [List.forall₂_map_right_iff]
  exact h.imp (fun _ _ h => h.did.anti h.start)

theorem pieces_mono {f f' : Names} (hk : Keeps f f') {w : List (Sled.PieceCall E Entity NP EP)}
    {zs : List (Sled.PieceCall E Ulid NP EP)} (h : w.map (pieceIn f) = zs.map some) : w.map (pieceIn f') = zs.map some := by
  induction w generalizing zs with
  | nil => exact h
  | cons y w ih =>
    cases zs with
    | nil => cases h
    | cons z zs =>
      simp only [List.map_cons, List.cons.injEq] at h ⊢
      exact ⟨pieceIn_mono hk h.1, ih h.2⟩

theorem Unborn.mono {f f' : Names} {th1 th2 : List (PieceCall E NP EP)} (ho : ∀ s u, f' s = some u → f s = some u ∨ Others b (th1 ++ th2) u)
    (hu : Unborn b f th2) : Unborn b f' th2 := by
  cases b with
  | true => exact .inl rfl
  | false =>
    rcases hu with hu | hu
    · cases hu
    · refine .inr (fun u h1 s h2 => ?_)
      rcases ho s u h2 with h3 | h3 | h3
      · exact hu u h1 s h3
      · cases h3
      · refine h3 ?_
        simp only [mine, List.flatMap_append, List.mem_append]
        exact .inr h1

/-- others add names -/
theorem TInv.mono {f f' : Names} (hk : Keeps f f') {R : Rec E NP EP} (ho : ∀ s u, f' s = some u → f s = some u ∨ Others b R.th u)
    (h : TInv cl cr c mN mE b f0 f R) : TInv cl cr c mN mE b f0 f' R := by
  cases h with
  | idle h hu => exact .idle (h.imp (fun _ _ h => h.mono hk)) (hu.mono ho)
  | @now th1 th2 x ps zx w l K P r fx h hu h0 hf hB hw hz hs hK ha =>
    refine .now (h.imp (fun _ _ h => h.mono hk)) ?_ h0 (hf.trans hk) hB hw (pieces_mono hk hz) hs (hs f f' hK hk ho) ha
    exact hu.mono (th1 := th1 ++ [x]) (by simpa using ho)

section
variable (hl : cl.RoundTrips) (hr : cr.RoundTrips) (tl : cl.Total) (tr : cr.Total) (hc : c.RoundTrip) (ht : b = true ∨ c.Total)
include hl hr tl tr hc ht

/-- a thread with something to do is within a call, at its start or later -/
theorem TInv.within {f : Names} (hf : Keeps f0 f) {th : List (PieceCall E NP EP)} {P : Prog RdfDb Unit} {q : List (Prog RdfDb Unit)}
    {zs : List (List (Sled.PieceCall E Ulid NP EP))} {r : List (Prog Db Unit)} {fs : List Names}
    (h : TInv cl cr c mN mE b f0 f ⟨th, P :: q, zs, r, fs⟩) (hn : b = true ∨ (mine th).Nodup) :
    ∃ (th1 th2 : List (PieceCall E NP EP)) (x : PieceCall E NP EP) (ps : List (Names × List (Sled.PieceCall E Ulid NP EP)))
      (zx : List (Sled.PieceCall E Ulid NP EP)) (w l : List (Sled.PieceCall E Entity NP EP)) (K : Names → Prop) (fx : Names),
      th = th1 ++ x :: th2 ∧ q = th2.map (PieceCall.prog cl cr c mN mE) ∧ zs = ps.map Prod.snd ++ zx :: th2.map (fun _ => []) ∧
      (fs = ps.map Prod.fst ++ [fx] ∨ fs = ps.map Prod.fst ∧ fx = f) ∧
      List.Forall₂ (Past b f0 f (th1 ++ x :: th2)) th1 ps ∧ Unborn b f th2 ∧ Keeps f0 fx ∧ Keeps fx f ∧
      (P = x.prog cl cr c mN mE ∨ Below P (x.prog cl cr c mN mE)) ∧
      x.wants = w ++ l ∧ w.map (pieceIn f) = zx.map some ∧ Stable (Others b (th1 ++ x :: th2)) K ∧ K f ∧
      At cl cr c mN mE (Others b (th1 ++ x :: th2)) (Allowed x) (Why b fx (th1 ++ x :: th2)) (Sled.WellFormed Ulid c) K l P r := by
  generalize hR : (⟨th, P :: q, zs, r, fs⟩ : Rec E NP EP) = R at h
  cases h with
  | @now th1 th2 x ps zx w l K P r fx h hu h0 hf hB hw hz hs hK ha =>
    cases hR
    exact ⟨th1, th2, x, ps, zx, w, l, K, fx, rfl, rfl, rfl, .inl rfl, h, hu, h0, hf, .inr hB, hw, hz, hs, hK, ha⟩
  | @idle th1 th2 ps h hu =>
    cases th2 with
    | nil => cases hR
    | cons x th2 =>
    cases hR
    have hx : x ∈ th1 ++ x :: th2 := by simp
    have hnx : b = true ∨ x.1.ulids.Nodup := hn.imp id (fun hn => (List.nodup_flatMap.1 hn).1 x hx)
    have hF := prog_follows (mN := mN) (mE := mE) hl hr tl tr hc ht hx hnx f
    have hk : Know b (Keeps f) x.1.ids x.1.op.creations f := by
      refine ⟨Keeps.refl f, hu.imp id (fun hu j hj s hs => ?_)⟩
      refine hu _ ?_ s hs
      simp only [mine, List.flatMap_cons, List.mem_append]
      exact .inl (List.mem_map_of_mem (List.mem_range.2 hj))
    have hst : Stable (Others b (th1 ++ x :: th2)) (Know b (Keeps f) x.1.ids x.1.op.creations) := by
      intro g g' h1 h2 h3
      refine ⟨h1.1.trans h2, ?_⟩
      rcases h1.2 with h4 | h4
      · exact .inl h4
      by_cases hbt : b = true
      · exact .inl hbt
      refine .inr (fun j hj s hs => ?_)
      rcases h3 s _ hs with h5 | h5 | h5
      · exact h4 j hj s h5
      · exact hbt h5
      · refine h5 ?_
        simp only [mine, List.flatMap_append, List.flatMap_cons, List.mem_append]
        exact .inr (.inl (List.mem_map_of_mem (List.mem_range.2 hj)))
    exact ⟨th1, th2, x, ps, [], [], x.wants, _, f, rfl, rfl, rfl, .inr ⟨rfl, rfl⟩, h,
      hu.imp id (fun hu u h1 => hu u (by simp only [mine, List.flatMap_cons, List.mem_append]; exact .inr h1)), hf, Keeps.refl f,
      .inl rfl, rfl, rfl, hst, hk, .inl ⟨rfl, hF⟩⟩

omit hl hr tl tr hc ht in
theorem unborn_step {f f' : Names} {th1 th2 : List (PieceCall E NP EP)} {x : PieceCall E NP EP}
    (hn : b = true ∨ (mine (th1 ++ x :: th2)).Nodup) (hf : ∀ s u, f' s = some u → f s = some u ∨ Allowed x s u)
    (hu : Unborn b f th2) : Unborn b f' th2 := by
  rcases hn with hn | hn
  · exact .inl hn
  · refine hu.imp id (fun hu u h1 s h2 => ?_)
    rcases hf s u h2 with h3 | h3
    · exact hu u h1 s h3
    · simp only [mine, List.flatMap_append, List.flatMap_cons, List.nodup_append] at hn
      exact hn.2.1.2.2 u h3.2 u h1 rfl

/-- what a step adds to the names there were when calls began -/
def Begun (f : Names) (fs fs' : List Names) : Prop := fs' = fs ∨ fs' = fs ++ [f]

omit hl hr tl tr hc ht in
theorem begun_of {f fx : Names} {fs gs : List Names} (h : fs = gs ++ [fx] ∨ fs = gs ∧ fx = f) : Begun f fs (gs ++ [fx]) := by
  rcases h with h | ⟨rfl, rfl⟩
  · exact .inl h.symm
  · exact .inr rfl

omit hl hr tl tr hc ht in
theorem below_next {α : Type} {F : RdfDb → RdfDb} {k : RdfDb → Prog RdfDb α} {p : Prog RdfDb α}
    (h : .call F k = p ∨ Below (.call F k) p) (d : RdfDb) : Below (k d) p := by
  rcases h with rfl | h
  · exact below_one F k d
  · exact (below_one F k d).trans h

/-- a thread performs a call -/
theorem TInv.call {f : Names} (hf : Keeps f0 f) {th : List (PieceCall E NP EP)} {F : RdfDb → RdfDb} {k : RdfDb → Prog RdfDb Unit}
    {q : List (Prog RdfDb Unit)} {zs : List (List (Sled.PieceCall E Ulid NP EP))} {r : List (Prog Db Unit)} {fs : List Names}
    (h : TInv cl cr c mN mE b f0 f ⟨th, .call F k :: q, zs, r, fs⟩) {d : RdfDb} (hd : (SledIndex.impl cl cr).Shows d.names f)
    (hj : Sled.WellFormed Ulid c d.data) (hn : b = true ∨ (mine th).Nodup) :
    ∃ (f' : Names) (x : PieceCall E NP EP) (z1 : List (List (Sled.PieceCall E Ulid NP EP))) (zx e : List (Sled.PieceCall E Ulid NP EP))
        (r' : List (Prog Db Unit)) (fs' : List Names),
      th[th.length - (q.length + 1)]? = some x ∧ zs = z1 ++ zx :: q.map (fun _ => []) ∧
      (SledIndex.impl cl cr).Shows (F d).names f' ∧ Keeps f f' ∧ Sled.WellFormed Ulid c (F d).data ∧
      (∀ s u, f' s = some u → f s = some u ∨ Allowed x s u) ∧ Begun f fs fs' ∧
      TInv cl cr c mN mE b f0 f' ⟨th, k d :: q, z1 ++ (zx ++ e) :: q.map (fun _ => []), r', fs'⟩ ∧
      Solo d.data (r ++ e.map (Sled.PieceCall.prog c mN mE)) (F d).data r' := by
  obtain ⟨th1, th2, x, ps, zx, w, l, K, fx, rfl, rfl, rfl, hfs, hp, hu, h0, hfx, hB, hw, hz, hs, hK, ha⟩ :=
    h.within hl hr tl tr hc ht hf hn
  obtain ⟨w', l', zs', r1, e1, h2, h3, h4⟩ := ha.settle
  have hw' : x.wants = (w ++ w') ++ l' := by rw [hw, e1, List.append_assoc]
  have hz' : (w ++ w').map (pieceIn f) = (zx ++ zs').map some := by rw [List.map_append, List.map_append, hz, h2 f hK]
  have hx : (th1 ++ x :: th2)[(th1 ++ x :: th2).length - ((th2.map (PieceCall.prog cl cr c mN mE)).length + 1)]? = some x := by simp
  have em : (th2.map (PieceCall.prog cl cr c mN mE)).map (fun _ => ([] : List (Sled.PieceCall E Ulid NP EP))) = th2.map (fun _ => []) := by
    simp [Function.comp_def]
  rw [em]
  cases h3 with
  | @names g _ K' hs' hh hk =>
    obtain ⟨f', g1, g2, g3, g4⟩ := hh d f hd hK
    exact ⟨f', x, ps.map Prod.snd, zx, zs', [], _, hx, rfl, g1, g2, hj, g3, begun_of hfs, .now (hp.imp (fun _ _ h => h.mono g2)) (unborn_step hn g3 hu)
      h0 (hfx.trans g2) (below_next hB d) hw' (pieces_mono g2 hz') (hs' d) g4 (.inl ⟨rfl, hk d⟩), .idle h4⟩
  | mid hm =>
    obtain ⟨g, k', e2, g1, g2⟩ := hm.step
    cases e2
    obtain ⟨f2, k2, r', rfl, g3, g4, g5⟩ := g2 d hj
    refine ⟨f, x, ps.map Prod.snd, zx, zs', r', _, hx, rfl, hd, Keeps.refl f, g1 _ hj, fun s u h => .inl h, begun_of hfs,
      .now hp hu h0 hfx (below_next hB d) hw' hz' hs hK g4, ?_⟩
    have := Solo.act h4 g5
    rw [g3] at this
    exact this

omit hl hr tl tr hc ht in
theorem past_append {f : Names} {th : List (PieceCall E NP EP)} {th1 : List (PieceCall E NP EP)} {x : PieceCall E NP EP}
    {ps : List (Names × List (Sled.PieceCall E Ulid NP EP))} {p : Names × List (Sled.PieceCall E Ulid NP EP)}
    (h : List.Forall₂ (Past b f0 f th) th1 ps) (hx : Past b f0 f th x p) :
    List.Forall₂ (Past b f0 f th) (th1 ++ [x]) (ps ++ [p]) := by
  induction h with
  | nil => exact .cons hx .nil
  | cons h1 _ ih => exact .cons h1 ih

omit hl hr tl tr hc ht in
theorem did_prefix {f : Names} {x : PieceCall E NP EP} {w l : List (Sled.PieceCall E Entity NP EP)} (hw : x.wants = w ++ l)
    {zx : List (Sled.PieceCall E Ulid NP EP)} (hz : w.map (pieceIn f) = zx.map some) : zx.map some <+: x.wants.map (pieceIn f) := by
  rw [hw, List.map_append, ← hz]
  exact List.prefix_append _ _

omit hl hr tl tr hc ht in
/-- after a call -/
theorem TInv.over_one {f fx : Names} {th1 th2 : List (PieceCall E NP EP)} {x : PieceCall E NP EP}
    {ps : List (Names × List (Sled.PieceCall E Ulid NP EP))} {zx : List (Sled.PieceCall E Ulid NP EP)}
    (h : List.Forall₂ (Past b f0 f (th1 ++ x :: th2)) th1 ps) (hx : Past b f0 f (th1 ++ x :: th2) x (fx, zx)) (hu : Unborn b f th2) :
    TInv cl cr c mN mE b f0 f ⟨th1 ++ x :: th2, th2.map (PieceCall.prog cl cr c mN mE),
      ps.map Prod.snd ++ zx :: th2.map (fun _ => []), [], ps.map Prod.fst ++ [fx]⟩ := by
  have e3 : th1 ++ x :: th2 = (th1 ++ [x]) ++ th2 := by simp
  have h5 := past_append h hx
  rw [e3] at h5 ⊢
  have := TInv.idle (cl := cl) (cr := cr) (c := c) (mN := mN) (mE := mE) h5 hu
  simpa using this

/-- a thread leaves an API function -/
theorem TInv.ret {f : Names} (hf : Keeps f0 f) {th : List (PieceCall E NP EP)} {a : Unit}
    {q : List (Prog RdfDb Unit)} {zs : List (List (Sled.PieceCall E Ulid NP EP))} {r : List (Prog Db Unit)} {fs : List Names}
    (h : TInv cl cr c mN mE b f0 f ⟨th, .ret a :: q, zs, r, fs⟩) (hn : b = true ∨ (mine th).Nodup) :
    ∃ (z1 : List (List (Sled.PieceCall E Ulid NP EP))) (zx e : List (Sled.PieceCall E Ulid NP EP)) (fs' : List Names),
      zs = z1 ++ zx :: q.map (fun _ => []) ∧ Begun f fs fs' ∧
      TInv cl cr c mN mE b f0 f ⟨th, q, z1 ++ (zx ++ e) :: q.map (fun _ => []), [], fs'⟩ ∧
      Pops (r ++ e.map (Sled.PieceCall.prog c mN mE)) [] := by
  obtain ⟨th1, th2, x, ps, zx, w, l, K, fx, rfl, rfl, rfl, hfs, hp, hu, h0, hfx, hB, hw, hz, hs, hK, ha⟩ :=
    h.within hl hr tl tr hc ht hf hn
  obtain ⟨w', l', zs', r1, e1, h2, h3, h4⟩ := ha.settle
  have hw' : x.wants = (w ++ w') ++ l' := by rw [hw, e1, List.append_assoc]
  have hz' : (w ++ w').map (pieceIn f) = (zx ++ zs').map some := by rw [List.map_append, List.map_append, hz, h2 f hK]
  have hlen : (zx ++ zs').length = (w ++ w').length := by simpa using (congrArg List.length hz').symm
  cases h3 with
  | ret hh =>
    refine ⟨ps.map Prod.snd, zx, zs', _, by simp [Function.comp_def], begun_of hfs, ?_, h4⟩
    have hx : CallDid b fx f (th1 ++ x :: th2) x (zx ++ zs') := by
      refine ⟨did_prefix hw' hz', ?_⟩
      rcases hh f hK with e | ⟨y, l'', e, hy⟩
      · subst e
        rw [List.append_nil] at hw'
        exact .inr (.inl (by rw [hlen, hw']))
      · refine hy.imp id (fun hy => .inr ⟨y, ?_, hy⟩)
        rw [hw', hlen, e]
        simp
    have := TInv.over_one (cl := cl) (cr := cr) (c := c) (mN := mN) (mE := mE) hp ⟨hx, h0, hfx⟩ hu
    simpa [Function.comp_def] using this
  | mid hm => obtain ⟨g, k', e2, -⟩ := hm.step; cases e2

/-- a call fails -/
theorem TInv.fail {f : Names} (hf : Keeps f0 f) (hb : b = true) {th : List (PieceCall E NP EP)} {p : Prog RdfDb Unit}
    {q : List (Prog RdfDb Unit)} {zs : List (List (Sled.PieceCall E Ulid NP EP))} {r : List (Prog Db Unit)} {fs : List Names}
    (h : TInv cl cr c mN mE b f0 f ⟨th, p :: q, zs, r, fs⟩) :
    ∃ (z1 : List (List (Sled.PieceCall E Ulid NP EP))) (zx : List (Sled.PieceCall E Ulid NP EP)) (fs' : List Names),
      zs = z1 ++ zx :: q.map (fun _ => []) ∧ Begun f fs fs' ∧ TInv cl cr c mN mE b f0 f ⟨th, q, zs, [], fs'⟩ := by
  obtain ⟨th1, th2, x, ps, zx, w, l, K, fx, rfl, rfl, rfl, hfs, hp, hu, h0, hfx, hB, hw, hz, hs, hK, ha⟩ :=
    h.within hl hr tl tr hc ht hf (.inl hb)
  exact ⟨ps.map Prod.snd, zx, _, by simp [Function.comp_def], begun_of hfs, TInv.over_one hp ⟨⟨did_prefix hw hz, .inl hb⟩, h0, hfx⟩ hu⟩

/-! ## all threads -/

omit hl hr tl tr hc ht in
theorem split_map {γ δ : Type} {g : γ → δ} {L : List γ} {pre post : List δ} {v : δ} (h : L.map g = pre ++ v :: post) :
    ∃ L1 R L2, L = L1 ++ R :: L2 ∧ L1.map g = pre ∧ g R = v ∧ L2.map g = post := by
  obtain ⟨L1, L', rfl, h1, h2⟩ := List.map_eq_append_iff.1 h
  obtain ⟨R, L2, rfl, h3, h4⟩ := List.map_eq_cons_iff.1 h2
  exact ⟨L1, R, L2, rfl, h1, h3, h4⟩

/-- From `d1` on, where each thread had something left to do of the calls on the triple store it had made, as `B` says, the threads
have made the calls they now have made. -/
def Trace (c : Codecs NP EP) (mN : NP → NP → NP) (mE : EP → EP → EP) (b : Bool) (d1 : Db)
    (B : List (List (Prog Db Unit) × List (Sled.PieceCall E Ulid NP EP))) (d : Db) (L : List (Rec E NP EP)) : Prop :=
  ∃ W : List ((List (Prog Db Unit) × List (Sled.PieceCall E Ulid NP EP)) × List (Sled.PieceCall E Ulid NP EP)),
    W.map Prod.fst = B ∧ W.map (fun w => w.1.2 ++ w.2) = L.map Rec.calls ∧
      StepsB b (d1, W.map (fun w => w.1.1 ++ w.2.map (Sled.PieceCall.prog c mN mE))) (d, L.map Rec.r)

omit hl hr tl tr hc ht in
theorem Trace.refl (d : Db) (L : List (Rec E NP EP)) : Trace c mN mE b d (L.map (fun R => (R.r, R.calls))) d L :=
  ⟨L.map (fun R => ((R.r, R.calls), [])), by simp [Function.comp_def], by simp [Function.comp_def],
    by simpa [Function.comp_def] using Relation.ReflTransGen.refl⟩

omit hl hr tl tr hc ht in
theorem Trace.step {d1 d d' : Db} {B : List (List (Prog Db Unit) × List (Sled.PieceCall E Ulid NP EP))} {L1 L2 : List (Rec E NP EP)}
    {th : List (PieceCall E NP EP)} {q q' : List (Prog RdfDb Unit)} {zs zs' : List (List (Sled.PieceCall E Ulid NP EP))}
    {e : List (Sled.PieceCall E Ulid NP EP)} (he : zs'.flatten = zs.flatten ++ e)
    {r r' : List (Prog Db Unit)} {fs fs' : List Names} (h : Trace c mN mE b d1 B d (L1 ++ ⟨th, q, zs, r, fs⟩ :: L2))
    (hd : ∀ pre post, StepsB b (d, pre ++ (r ++ e.map (Sled.PieceCall.prog c mN mE)) :: post) (d', pre ++ r' :: post)) :
    Trace c mN mE b d1 B d' (L1 ++ ⟨th, q', zs', r', fs'⟩ :: L2) := by
  obtain ⟨W, h1, h2, h3⟩ := h
  simp only [List.map_append, List.map_cons] at h2
  obtain ⟨W1, w, W2, rfl, k1, k2, k3⟩ := split_map h2
  refine ⟨W1 ++ (w.1, w.2 ++ e) :: W2, ?_, ?_, ?_⟩
  · rw [← h1]; simp
  · simp only [Rec.calls] at k2
    simp only [List.map_append, List.map_cons, k1, k3, Rec.calls, he, ← k2, List.append_assoc]
  · have hlen : W1.length = L1.length := by simpa using congrArg List.length k1
    simp only [List.map_append, List.map_cons] at h3 ⊢
    have := (StepsB.after h3 (by simpa using hlen) (e.map (Sled.PieceCall.prog c mN mE))).trans (hd _ _)
    simpa only [List.append_assoc] using this

omit hl hr tl tr hc ht in
/-- the calls made up to `d`, the threads stopping at `d1` in between -/
theorem Trace.whole {d0 d1 d : Db} {B0 : List (List (Prog Db Unit) × List (Sled.PieceCall E Ulid NP EP))} {L1 L : List (Rec E NP EP)}
    (h0 : Trace c mN mE b d0 B0 d1 L1) (hB : ∀ x ∈ B0, x = ([], []))
    (h : Trace c mN mE b d1 (L1.map (fun R => (R.r, R.calls))) d L) :
    ∃ mid, StepsB b (d0, L.map (fun R => R.calls.map (Sled.PieceCall.prog c mN mE))) (d1, mid) ∧ StepsB b (d1, mid) (d, L.map Rec.r) := by
  obtain ⟨W0, a1, a2, a3⟩ := h0
  obtain ⟨W, b1, b2, b3⟩ := h
  refine ⟨_, ?_, b3⟩
  have hlen : W.length = L1.length := by simpa using congrArg List.length b1
  have hlen0 : W0.length = L1.length := by simpa using congrArg List.length a2
  have a3 : StepsB b (d0, L1.map (fun R => R.calls.map (Sled.PieceCall.prog c mN mE))) (d1, L1.map Rec.r) := by
    have e : W0.map (fun w => w.1.1 ++ w.2.map (Sled.PieceCall.prog c mN mE)) =
        L1.map (fun R => R.calls.map (Sled.PieceCall.prog c mN mE)) := by
      have : L1.map (fun R => R.calls.map (Sled.PieceCall.prog c mN mE)) = (L1.map Rec.calls).map (List.map (Sled.PieceCall.prog c mN mE)) := by
        simp [Function.comp_def]
      rw [this, ← a2, List.map_map]
      refine List.map_congr_left (fun w hw => ?_)
      have := hB w.1 (by rw [← a1]; exact List.mem_map_of_mem hw)
      simp [this]
    rw [e] at a3
    exact a3
  have h4 := StepsB.later a3 (W.map (fun w => w.2.map (Sled.PieceCall.prog c mN mE))) (by simp [hlen])
  have e1 : List.zipWith (· ++ ·) (L1.map (fun R => R.calls.map (Sled.PieceCall.prog c mN mE)))
      (W.map (fun w => w.2.map (Sled.PieceCall.prog c mN mE))) = L.map (fun R => R.calls.map (Sled.PieceCall.prog c mN mE)) := by
    have e : L.map (fun R => R.calls.map (Sled.PieceCall.prog c mN mE)) = (L.map Rec.calls).map (List.map (Sled.PieceCall.prog c mN mE)) := by
      simp [Function.comp_def]
    have e' : L1.map (fun R => R.calls.map (Sled.PieceCall.prog c mN mE)) = W.map (fun w => w.1.2.map (Sled.PieceCall.prog c mN mE)) := by
      have := congrArg (List.map (fun x : List (Prog Db Unit) × List (Sled.PieceCall E Ulid NP EP) =>
        x.2.map (Sled.PieceCall.prog c mN mE))) b1
      simpa [Function.comp_def] using this.symm
    rw [e, ← b2, e', List.zipWith_map, List.zipWith_self, List.map_map]
    exact List.map_congr_left (fun w _ => by simp)
  have e2 : List.zipWith (· ++ ·) (L1.map Rec.r) (W.map (fun w => w.2.map (Sled.PieceCall.prog c mN mE))) =
      W.map (fun w => w.1.1 ++ w.2.map (Sled.PieceCall.prog c mN mE)) := by
    have e' : L1.map Rec.r = W.map (fun w => w.1.1) := by
      have := congrArg (List.map (fun x : List (Prog Db Unit) × List (Sled.PieceCall E Ulid NP EP) => x.1)) b1
      simpa [Function.comp_def] using this.symm
    rw [e', List.zipWith_map, List.zipWith_self]
  dsimp only at h4
  rw [e1, e2] at h4
  exact h4

/-- the state of the process -/
structure Inv (cl : Codec String) (cr : Codec Ulid) (c : Codecs NP EP) (mN : NP → NP → NP) (mE : EP → EP → EP) (b : Bool)
    (f0 : Names) (d0 : Db) (B : List (List (Prog Db Unit) × List (Sled.PieceCall E Ulid NP EP)))
    (threads : List (List (PieceCall E NP EP))) (d : RdfDb) (qs : List (List (Prog RdfDb Unit)))
    (f : Names) (L : List (Rec E NP EP)) : Prop where
  ths : L.map Rec.th = threads
  qs : L.map Rec.q = qs
  shows : (SledIndex.impl cl cr).Shows d.names f
  keeps : Keeps f0 f
  well : Sled.WellFormed Ulid c d.data
  each : ∀ R ∈ L, TInv cl cr c mN mE b f0 f R
  trace : Trace c mN mE b d0 B d.data L
  origin : ∀ s u, f s = some u → f0 s = some u ∨ ∃ th ∈ threads, ∃ x ∈ th, Allowed x s u

omit hl hr tl tr hc ht in
/-- the ids of one thread are not those of another -/
theorem others_of {threads1 threads2 : List (List (PieceCall E NP EP))} {th th' : List (PieceCall E NP EP)}
    (hn : b = true ∨ ((threads1 ++ th :: threads2).flatMap mine).Nodup) (h' : th' ∈ threads1 ++ threads2) {u : Ulid}
    (hu : u ∈ mine th) : Others b th' u := by
  refine hn.imp id (fun hn h => ?_)
  simp only [List.flatMap_append, List.flatMap_cons, List.nodup_append, List.mem_append] at hn
  rcases List.mem_append.1 h' with h1 | h1
  · exact hn.2.2 u (List.mem_flatMap.2 ⟨th', h1, h⟩) u (.inl hu) rfl
  · exact hn.2.1.2.2 u hu u (List.mem_flatMap.2 ⟨th', h1, h⟩) rfl

omit hl hr tl tr hc ht in
/-- after a step of one thread -/
theorem Inv.step {d0 : Db} {B : List (List (Prog Db Unit) × List (Sled.PieceCall E Ulid NP EP))} {threads : List (List (PieceCall E NP EP))} (hn : b = true ∨ (threads.flatMap mine).Nodup) {d d' : RdfDb}
    {pre post : List (List (Prog RdfDb Unit))} {f f' : Names} {L1 L2 : List (Rec E NP EP)} {th : List (PieceCall E NP EP)}
    {q q' : List (Prog RdfDb Unit)} {zs zs' : List (List (Sled.PieceCall E Ulid NP EP))} {e : List (Sled.PieceCall E Ulid NP EP)}
    (he : zs'.flatten = zs.flatten ++ e) {r r' : List (Prog Db Unit)} {fs fs' : List Names}
    (h : Inv cl cr c mN mE b f0 d0 B threads d (pre ++ q :: post) f (L1 ++ ⟨th, q, zs, r, fs⟩ :: L2)) (h1 : L1.map Rec.q = pre)
    (h2 : L2.map Rec.q = post)
    (hsh : (SledIndex.impl cl cr).Shows d'.names f') (hk : Keeps f f') (hj : Sled.WellFormed Ulid c d'.data)
    (hs : ∀ s u, f' s = some u → f s = some u ∨ ∃ x ∈ th, Allowed x s u) (ht : TInv cl cr c mN mE b f0 f' ⟨th, q', zs', r', fs'⟩)
    (hd : ∀ pre post, StepsB b (d.data, pre ++ (r ++ e.map (Sled.PieceCall.prog c mN mE)) :: post) (d'.data, pre ++ r' :: post)) :
    Inv cl cr c mN mE b f0 d0 B threads d' (pre ++ q' :: post) f' (L1 ++ ⟨th, q', zs', r', fs'⟩ :: L2) := by
  have hth : threads = L1.map Rec.th ++ th :: L2.map Rec.th := by rw [← h.ths]; simp
  refine ⟨by rw [hth]; simp, by rw [← h1, ← h2]; simp, hsh, h.keeps.trans hk, hj, fun R hR => ?_, h.trace.step he hd, fun s u hu => ?_⟩
  · rw [List.mem_append, List.mem_cons] at hR
    have hother : R ∈ L1 ++ L2 → TInv cl cr c mN mE b f0 f' R := fun hR => by
      refine (h.each R ?_).mono hk (fun s u hu => (hs s u hu).imp id (fun ⟨x, hx, ha⟩ => ?_))
      · simp only [List.mem_append, List.mem_cons] at hR ⊢; tauto
      · rw [hth] at hn
        refine others_of hn ?_ (List.mem_flatMap.2 ⟨x, hx, ha.2⟩)
        rw [← List.map_append]
        exact List.mem_map_of_mem hR
    rcases hR with hR | rfl | hR
    · exact hother (by simp [hR])
    · exact ht
    · exact hother (by simp [hR])
  · rcases hs s u hu with h3 | ⟨x, hx, ha⟩
    · exact h.origin s u h3
    · exact .inr ⟨th, by rw [hth]; simp, x, hx, ha⟩

omit hl hr tl tr hc ht in
theorem flatten_step (z1 : List (List (Sled.PieceCall E Ulid NP EP))) (zx e : List (Sled.PieceCall E Ulid NP EP)) (q : List (Prog RdfDb Unit)) :
    (z1 ++ (zx ++ e) :: q.map (fun _ => [])).flatten = (z1 ++ zx :: q.map (fun _ => [])).flatten ++ e := by
  simp

/-- What a step of a process is: `Unit`-valued calls on the triple store are begun, performed and ended. -/
inductive Advance (c : Codecs NP EP) (mN : NP → NP → NP) (mE : EP → EP → EP) (b : Bool) :
    RdfDb × List (Rec E NP EP) → RdfDb × List (Rec E NP EP) → Prop
  | call {d : RdfDb} {L1 L2 : List (Rec E NP EP)} {th : List (PieceCall E NP EP)} {F : RdfDb → RdfDb} {k : RdfDb → Prog RdfDb Unit}
      {q : List (Prog RdfDb Unit)} {z1 : List (List (Sled.PieceCall E Ulid NP EP))} {zx e : List (Sled.PieceCall E Ulid NP EP)}
      {r r' : List (Prog Db Unit)} {fs fs' : List Names} (h : Solo d.data (r ++ e.map (Sled.PieceCall.prog c mN mE)) (F d).data r') :
      Advance c mN mE b (d, L1 ++ ⟨th, .call F k :: q, z1 ++ zx :: q.map (fun _ => []), r, fs⟩ :: L2)
        (F d, L1 ++ ⟨th, k d :: q, z1 ++ (zx ++ e) :: q.map (fun _ => []), r', fs'⟩ :: L2)
  | ret {d : RdfDb} {L1 L2 : List (Rec E NP EP)} {th : List (PieceCall E NP EP)}
      {q : List (Prog RdfDb Unit)} {z1 : List (List (Sled.PieceCall E Ulid NP EP))} {zx e : List (Sled.PieceCall E Ulid NP EP)}
      {r : List (Prog Db Unit)} {fs fs' : List Names} (h : Pops (r ++ e.map (Sled.PieceCall.prog c mN mE)) []) :
      Advance c mN mE b (d, L1 ++ ⟨th, .ret () :: q, z1 ++ zx :: q.map (fun _ => []), r, fs⟩ :: L2)
        (d, L1 ++ ⟨th, q, z1 ++ (zx ++ e) :: q.map (fun _ => []), [], fs'⟩ :: L2)
  | fail {d : RdfDb} {L1 L2 : List (Rec E NP EP)} {th : List (PieceCall E NP EP)} {p : Prog RdfDb Unit}
      {q : List (Prog RdfDb Unit)} {z1 : List (List (Sled.PieceCall E Ulid NP EP))} {zx : List (Sled.PieceCall E Ulid NP EP)}
      {r : List (Prog Db Unit)} {fs fs' : List Names} (hb : b = true) :
      Advance c mN mE b (d, L1 ++ ⟨th, p :: q, z1 ++ zx :: q.map (fun _ => []), r, fs⟩ :: L2)
        (d, L1 ++ ⟨th, q, z1 ++ zx :: q.map (fun _ => []), [], fs'⟩ :: L2)

omit hl hr tl tr hc ht in
theorem begun_one {f : Names} (L1 L2 : List (Rec E NP EP)) {R R' : Rec E NP EP} (h : Begun f R.fs R'.fs) :
    List.Forall₂ (fun R R' => Begun f R.fs R'.fs) (L1 ++ R :: L2) (L1 ++ R' :: L2) := by
  have same : ∀ L : List (Rec E NP EP), List.Forall₂ (fun R R' => Begun f R.fs R'.fs) L L := fun L =>
    List.forall₂_same.2 (fun _ _ => .inl rfl)
  exact List.rel_append (same L1) (.cons h (same L2))

/-- one step -/
theorem Inv.next {d0 : Db} {B : List (List (Prog Db Unit) × List (Sled.PieceCall E Ulid NP EP))}
    {threads : List (List (PieceCall E NP EP))} (hn : b = true ∨ (threads.flatMap mine).Nodup)
    {x y : RdfDb × List (List (Prog RdfDb Unit))} {f : Names} {L : List (Rec E NP EP)}
    (hI : Inv cl cr c mN mE b f0 d0 B threads x.1 x.2 f L) (h : StepB b x y) :
    ∃ f' L', Inv cl cr c mN mE b f0 d0 B threads y.1 y.2 f' L' ∧ Keeps f f' ∧ Named x.2 y.2 threads f f' ∧
      Advance c mN mE b (x.1, L) (y.1, L') ∧ List.Forall₂ (fun R R' => Begun f R.fs R'.fs) L L' := by
  cases h with
  | call d pre post F k q =>
    obtain ⟨L1, ⟨th, q0, zs, r, fs⟩, L2, rfl, h1, h2, h3⟩ := split_map hI.qs
    cases h2
    have hth : threads = L1.map Rec.th ++ th :: L2.map Rec.th := by rw [← hI.ths]; simp
    have hmem : th ∈ threads := by rw [hth]; simp
    obtain ⟨f', x, z1, zx, e, r', fs', e1, rfl, g1, g2, g3, g4, gb, g5, g6⟩ := TInv.call hl hr tl tr hc ht hI.keeps
      (hI.each _ (List.mem_append_right _ List.mem_cons_self)) hI.shows hI.well (hn.imp id (fun hn => (List.nodup_flatMap.1 hn).1 th hmem))
    have hx : x ∈ th := List.mem_of_getElem? e1
    refine ⟨f', _, hI.step hn (flatten_step z1 zx e q) h1 h3 g1 g2 g3 (fun s u hu => (g4 s u hu).imp id (fun h => ⟨x, hx, h⟩)) g5
      (fun pre post => g6.steps b pre post), g2, fun s u hu => (g4 s u hu).imp id (fun h => ?_), .call g6, begun_one L1 L2 gb⟩
    have hlen : pre.length = (L1.map Rec.th).length := by rw [← h1]; simp
    refine ⟨pre.length, th, .call F k :: q, k d :: q, x, ?_, ?_, ?_, rfl, by simp, e1, h⟩
    · rw [hth, hlen]; simp
    · simp
    · simp
  | ret d pre post a q =>
    obtain ⟨L1, ⟨th, q0, zs, r, fs⟩, L2, rfl, h1, h2, h3⟩ := split_map hI.qs
    cases h2
    have hth : threads = L1.map Rec.th ++ th :: L2.map Rec.th := by rw [← hI.ths]; simp
    have hmem : th ∈ threads := by rw [hth]; simp
    obtain ⟨z1, zx, e, fs', rfl, gb, g1, g2⟩ := TInv.ret hl hr tl tr hc ht hI.keeps (hI.each _ (List.mem_append_right _ List.mem_cons_self))
      (hn.imp id (fun hn => (List.nodup_flatMap.1 hn).1 th hmem))
    exact ⟨f, _, hI.step hn (flatten_step z1 zx e q) h1 h3 hI.shows (Keeps.refl f) hI.well (fun s u h => .inl h) g1
      (fun pre post => g2.steps b d.data pre post), Keeps.refl f, fun s u hu => .inl hu, .ret g2,
      begun_one L1 L2 gb⟩
  | fail hb d pre post p q =>
    obtain ⟨L1, ⟨th, q0, zs, r, fs⟩, L2, rfl, h1, h2, h3⟩ := split_map hI.qs
    cases h2
    obtain ⟨z1, zx, fs', rfl, gb, g1⟩ := TInv.fail hl hr tl tr hc ht hI.keeps hb (hI.each _ (List.mem_append_right _ List.mem_cons_self))
    refine ⟨f, _, hI.step (e := []) (r' := []) (d' := d) hn (List.append_nil _).symm h1 h3 hI.shows (Keeps.refl f) hI.well
      (fun s u h => .inl h) g1 (fun pre post => ?_), Keeps.refl f, fun s u hu => .inl hu, .fail hb, begun_one L1 L2 gb⟩
    subst hb
    simpa using drops_steps r d.data [] pre post

/-- every execution, from any state -/
theorem simulate_from {d0 : Db} {B : List (List (Prog Db Unit) × List (Sled.PieceCall E Ulid NP EP))}
    {threads : List (List (PieceCall E NP EP))} (hn : b = true ∨ (threads.flatMap mine).Nodup)
    {x s : RdfDb × List (List (Prog RdfDb Unit))} {f1 : Names} {L0 : List (Rec E NP EP)}
    (hx : Inv cl cr c mN mE b f0 d0 B threads x.1 x.2 f1 L0) (h : StepsB b x s) :
    ∃ f L, Inv cl cr c mN mE b f0 d0 B threads s.1 s.2 f L ∧ Keeps f1 f := by
  induction h with
  | refl => exact ⟨f1, L0, hx, Keeps.refl f1⟩
  | tail _ hstep ih =>
    obtain ⟨f, L, hI, hK⟩ := ih
    obtain ⟨f', L', hI', hK', -⟩ := hI.next hl hr tl tr hc ht hn hstep
    exact ⟨f', L', hI', hK.trans hK'⟩

/-- the start -/
theorem inv_start {d0 : RdfDb} (hd0 : (SledIndex.impl cl cr).Shows d0.names f0) (hj0 : Sled.WellFormed Ulid c d0.data)
    {threads : List (List (PieceCall E NP EP))} (hn : b = true ∨ (threads.flatMap mine).Nodup)
    (hu : ∀ th ∈ threads, Unborn b f0 th) :
    Inv cl cr c mN mE b f0 d0.data (threads.map (fun _ => ([], []))) threads d0 (threads.map (List.map (PieceCall.prog cl cr c mN mE))) f0
      (threads.map (fun th => ⟨th, th.map (PieceCall.prog cl cr c mN mE), th.map (fun _ => []), [], []⟩)) := by
  refine ⟨by simp [Function.comp_def], by simp [Function.comp_def], hd0, Keeps.refl f0, hj0, fun R hR => ?_, ?_, fun s u h => .inl h⟩
  · obtain ⟨th, hth, rfl⟩ := List.mem_map.1 hR
    exact TInv.idle (th1 := []) (ps := []) .nil (hu th hth)
  · have := Trace.refl (c := c) (mN := mN) (mE := mE) (b := b) d0.data
      (threads.map (fun th => (⟨th, th.map (PieceCall.prog cl cr c mN mE), th.map (fun _ => []), [], []⟩ : Rec E NP EP)))
    simpa [Function.comp_def, Rec.calls] using this

/-- every execution -/
theorem simulate {d0 : RdfDb} (hd0 : (SledIndex.impl cl cr).Shows d0.names f0) (hj0 : Sled.WellFormed Ulid c d0.data)
    {threads : List (List (PieceCall E NP EP))} (hn : b = true ∨ (threads.flatMap mine).Nodup)
    (hu : ∀ th ∈ threads, Unborn b f0 th) {s : RdfDb × List (List (Prog RdfDb Unit))}
    (h : StepsB b (d0, threads.map (List.map (PieceCall.prog cl cr c mN mE))) s) :
    ∃ f L, Inv cl cr c mN mE b f0 d0.data (threads.map (fun _ => ([], []))) threads s.1 s.2 f L := by
  obtain ⟨f, L, h, -⟩ := simulate_from hl hr tl tr hc ht hn (inv_start hl hr tl tr hc ht hd0 hj0 hn hu) h
  exact ⟨f, L, h⟩

omit hl hr tl tr hc ht in
/-- the calls on the triple store since the start -/
theorem Inv.data {d0 : Db} {threads : List (List (PieceCall E NP EP))} {d : RdfDb} {qs : List (List (Prog RdfDb Unit))} {f : Names}
    {L : List (Rec E NP EP)} (h : Inv cl cr c mN mE b f0 d0 (threads.map (fun _ => ([], []))) threads d qs f L) :
    StepsB b (d0, L.map (fun R => R.calls.map (Sled.PieceCall.prog c mN mE))) (d.data, L.map Rec.r) := by
  obtain ⟨mid, h1, h2⟩ := Trace.whole h.trace (by simp) (Trace.refl d.data L)
  exact h1.trans h2

omit hl hr tl tr hc ht in
/-- from now on -/
theorem Inv.rebase {d0 : Db} {B : List (List (Prog Db Unit) × List (Sled.PieceCall E Ulid NP EP))}
    {threads : List (List (PieceCall E NP EP))} {d : RdfDb} {qs : List (List (Prog RdfDb Unit))} {f : Names}
    {L : List (Rec E NP EP)} (h : Inv cl cr c mN mE b f0 d0 B threads d qs f L) :
    Inv cl cr c mN mE b f0 d.data (L.map (fun R => (R.r, R.calls))) threads d qs f L :=
  ⟨h.ths, h.qs, h.shows, h.keeps, h.well, h.each, Trace.refl d.data L, h.origin⟩

end

end RdfSled

end Verif
