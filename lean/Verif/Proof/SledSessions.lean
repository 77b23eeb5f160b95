import Verif.Proof.SledLooseRun
import Verif.Spec.SledSessions

/-! # One process after the other: what a process finds, and what it leaves -/

set_option linter.unusedSectionVars false

namespace Verif

open Spec ConcreteId

variable {Id NP EP E : Type} [LinearOrder Id] [ConcreteId Id] [LawfulId Id]

namespace Sled

open Db

variable {c : Codecs NP EP} {mN : NP → NP → NP} {mE : EP → EP → EP} {d d' : Db} {Own : Bytes → Triple Id → Prop}

theorem Ready.sub {W W' : List (Bytes × Triple Id)} (h : Ready c Own d W) (hs : W'.Sublist W) : Ready c Own d W' :=
  ⟨h.own, h.neat, h.recs, (hs.map _).nodup h.nodup, fun y hy => h.owned y (hs.subset hy), fun y hy => h.unused y (hs.subset hy)⟩

/-- the programs of the threads, and what they are to do -/
abbrev progs (c : Codecs NP EP) (mN : NP → NP → NP) (mE : EP → EP → EP) (threads : List (List (PieceCall E Id NP EP))) : Programs E Id NP EP :=
  threads.map (List.map (fun x => (x.prog c mN mE, x.1)))

theorem progs_calls (threads : List (List (PieceCall E Id NP EP))) : (progs c mN mE threads).calls = calls threads := by
  simp [progs, Programs.calls, calls, Function.comp_def]

theorem progs_start (threads : List (List (PieceCall E Id NP EP))) :
    (progs c mN mE threads).start = threads.map (List.map (PieceCall.prog c mN mE)) := by
  simp [progs, Programs.start, Function.comp_def]

theorem fineS_progs (hc : c.RoundTrip) {b : Bool} (hb : b = true ∨ c.Total) {threads : List (List (PieceCall E Id NP EP))}
    {WS WO : Triple Id → Prop} (hown : ∀ v t u, Own v t → Own v u → t = u) (ho : ∀ y ∈ allWrites (calls threads), Own y.1 y.2)
    (hx : ∀ th ∈ threads, ∀ x ∈ th, ¬ x.1.IsScan) :
    ∀ th ∈ progs c mN mE threads, ∀ e ∈ th, FineS c mN mE b Own WS WO e := by
  intro th hth e he
  obtain ⟨th, hth', rfl⟩ := List.mem_map.1 hth
  obtain ⟨x, hx', rfl⟩ := List.mem_map.1 he
  exact fun hn y => doesS_piece hc hb hown x (hx th hth' x hx') hn (fun y hy => ho y (List.mem_flatMap.2
    ⟨x.1, List.mem_flatten.2 ⟨_, List.mem_map_of_mem hth', List.mem_map_of_mem hx'⟩, hy⟩)) y

theorem fineX_progs (hc : c.RoundTrip) {b : Bool} (hb : b = true ∨ c.Total) {threads : List (List (PieceCall E Id NP EP))}
    (hown : ∀ v t u, Own v t → Own v u → t = u) (ho : ∀ y ∈ allWrites (calls threads), Own y.1 y.2)
    (hx : ∀ th ∈ threads, ∀ x ∈ th, ¬ x.1.IsScan) :
    ∀ th ∈ progs c mN mE threads, ∀ e ∈ th, FineX c mN mE b Own (Extended (calls threads)) e := by
  intro th hth e he
  obtain ⟨th, hth', rfl⟩ := List.mem_map.1 hth
  obtain ⟨x, hx', rfl⟩ := List.mem_map.1 he
  have hm : th.map Prod.fst ∈ calls threads := List.mem_map_of_mem hth'
  have hm' : x.1 ∈ th.map Prod.fst := List.mem_map_of_mem hx'
  exact fineX_piece hc hb hown x (hx th hth' x hx') (fun y hy => ho y (List.mem_flatMap.2 ⟨x.1, List.mem_flatten.2 ⟨_, hm, hm'⟩, hy⟩))
    (fun t h1 h2 => ⟨_, hm, _, hm', h1, h2⟩)

theorem leads_steps {s : Session E Id NP EP} (h : s.Leads c mN mE d d') :
    ∃ r, Steps (d, (progs c mN mE s.threads).start) (d', r) := by
  rw [progs_start]
  unfold Session.Leads at h
  split at h
  · exact h
  · obtain ⟨r, h, -⟩ := h
    exact ⟨r, h.steps⟩

/-- The ids in the orderings were there before or have been drawn. -/
theorem refs_after (hc : c.RoundTrip) {threads : List (List (PieceCall E Id NP EP))} (h0 : Ready c Own d (allWrites (calls threads)))
    (hx : ∀ th ∈ threads, ∀ x ∈ th, ¬ x.1.IsScan) {r : List (List (Prog Db Unit))}
    (hs : Steps (d, (progs c mN mE threads).start) (d', r)) {o : EdgeOrder} {t : Triple Id} {v : Bytes} (hv : d'.idIn o t = some v) :
    (∃ o, d.idIn o t = some v) ∨ (v, t) ∈ allWrites (calls threads) := by
  let Own' : Bytes → Triple Id → Prop := fun v t => (∃ o, d.idIn o t = some v) ∨ (v, t) ∈ allWrites (calls threads)
  have sub : ∀ v t, Own' v t → Own v t := by
    rintro v t (⟨o, h⟩ | h)
    · exact h0.neat.refs o t v h
    · exact h0.owned _ h
  have n0 : Neat c Own' d := ⟨h0.neat.keys, h0.neat.nodes, fun o u v h => .inl ⟨o, h⟩, fun v u b h => h0.neat.recs v u b (sub v u h)⟩
  have n1 := neat_programs n0 (fineX_progs (b := true) hc (.inl rfl) (fun v t u h h' => h0.own v t u (sub v t h) (sub v u h'))
    (fun y hy => .inr hy) hx) hs
  exact n1.refs o t v hv

theorem settled_ready {W : List (Bytes × Triple Id)} (h0 : Ready c Own d W) {t : Triple Id} (hA : AgreeAt t d) {F : List Bytes}
    (hF : ∀ v ∈ F, v ∈ W.map Prod.fst) : Settled c (edgePart Own t d) ((d.graph c).edges t) F := by
  refine ⟨fun o v hv h => ?_, ?_⟩
  · have h : d.idIn o t = some v := h
    obtain ⟨x, hx, rfl⟩ := List.mem_map.1 (hF v hv)
    exact h0.unused x hx o t h
  · cases h : d.idIn .SPO t with
    | none =>
      refine .inl ⟨fun o => (hA o).trans h, ?_⟩
      show d.view c .SPO t = none
      rw [Db.view, h]; rfl
    | some v =>
      have hv := h0.neat.refs _ _ _ h
      obtain ⟨b, hb⟩ := h0.recs t v h
      obtain ⟨p, hp⟩ := h0.neat.recs v t b hv hb
      refine .inr ⟨v, b, p, fun o => (hA o).trans h, (edgePart_rec hv).trans hb, hp, ?_⟩
      show d.view c .SPO t = some p
      rw [Db.view, h, Option.bind_some, hb, Option.bind_some, hp]

/-- Edges that one thread at most touches agree in the end, even if it extends the store by them. -/
theorem agree_alone (hc : c.RoundTrip) (htot : c.Total) {threads : List (List (PieceCall E Id NP EP))}
    (h0 : Ready c Own d (allWrites (calls threads))) (hx : ∀ th ∈ threads, ∀ x ∈ th, ¬ x.1.IsScan) {t : Triple Id} (hA : AgreeAt t d)
    (ht : Extended (calls threads) t) (hr : ¬ ExtendRaced (calls threads) t) (hd : FinalP c mN mE d threads d') : AgreeAt t d' := by
  obtain ⟨r, hs, he⟩ := hd
  obtain ⟨th, hth, x, hx', h1, h2⟩ := ht
  obtain ⟨pre, post, e⟩ := List.append_of_mem hth
  have ha := not_not.1 hr
  rw [e, List.pairwise_append, List.pairwise_cons] at ha
  obtain ⟨-, ⟨a1, -⟩, a2⟩ := ha
  have hsub := thread_writes (threads := calls threads) hth
  rw [← progs_start] at hs
  have h3 := alone_from (b := true) htot h0.neat (fineX_progs hc (.inl rfl) h0.own h0.owned hx) ((progs_calls threads).trans e) (t := t) (fun th' hth' y hy h3 => by
    rcases List.mem_append.1 hth' with h | h
    · exact a2 th' h th List.mem_cons_self y hy x hx' (.inr h1) ⟨h3, h2⟩
    · exact a1 th' h x hx' y hy (.inl h1) ⟨h2, h3⟩) (settled_ready h0 hA (fun v hv => hsub.subset hv)) (hsub.nodup h0.nodup) hs he
  intro o
  rcases h3.val with ⟨h, -⟩ | ⟨v, b, p, h, -⟩
  · exact (h o).trans (h .SPO).symm
  · exact (h o).trans (h .SPO).symm

/-- one process -/
theorem session_leads (hc : c.RoundTrip) (htot : c.Total) {s : Session E Id NP EP} {W : List (Bytes × Triple Id)} {B : Triple Id → Prop}
    (h0 : Ready c Own d (allWrites (calls s.threads) ++ W)) (hA : Agreed B d) (hx : ∀ th ∈ s.threads, ∀ x ∈ th, ¬ x.1.IsScan)
    (hd : s.Leads c mN mE d d') :
    Ready c Own d' W ∧ Agreed (fun t => B t ∨ s.Breaks t) d' ∧ (∃ X, SpoOk c Own d' X) ∧
      ∃ h, Shuffle s.crash ((calls s.threads).map (List.flatMap Call.items)) h ∧
        Runs (LooseStep c.okN c.okE mN mE (FromRaced (calls s.threads)) (fun t => B t ∨ ToRaced (calls s.threads) t))
          (d.graph c) h (d'.graph c) := by
  have h1 : Ready c Own d (allWrites (calls s.threads)) := h0.sub (List.sublist_append_left _ _)
  obtain ⟨r, hst⟩ := leads_steps hd
  have key : (∃ X, SpoOk c Own d' X) ∧ ∃ h, Shuffle s.crash ((calls s.threads).map (List.flatMap Call.items)) h ∧
      Runs (LooseStep c.okN c.okE mN mE (FromRaced (calls s.threads)) (fun t => B t ∨ ToRaced (calls s.threads) t))
        (d.graph c) h (d'.graph c) := by
    have hA' : Agreed (fun t => B t ∨ ToRaced (calls s.threads) t) d := fun t ht => hA t (fun h => ht (.inl h))
    have hO : ∀ t, ¬ (B t ∨ ToRaced (calls s.threads) t) → ¬ Raced (calls s.threads) t.obj t := fun t h h' => h (.inr (.inl h'))
    have hX : ∀ t, ¬ (B t ∨ ToRaced (calls s.threads) t) → ¬ Extended (calls s.threads) t ∧ ¬ EdgeRaced (calls s.threads) t :=
      fun t h => ⟨fun h' => h (.inr (.inr (.inl h'))), fun h' => h (.inr (.inr (.inr h')))⟩
    unfold Session.Leads at hd
    split at hd
    · rename_i e
      obtain ⟨l, k1, k2, k3⟩ := loose_part (progs_calls s.threads) h1 hA' (fun _ h => h) hO hX
        (fineS_progs hc (.inl rfl) h1.own h1.owned hx) (fineX_progs hc (.inl rfl) h1.own h1.owned hx) hst
      exact ⟨k3, l, e ▸ k1, k2⟩
    · rename_i e
      obtain ⟨r, hs, he⟩ := hd
      rw [← progs_start] at hs
      obtain ⟨l, k1, k2, k3⟩ := loose_full (progs_calls s.threads) h1 hA' (fun _ h => h) hO hX
        (fineS_progs hc (.inr htot) h1.own h1.owned hx) (fineX_progs hc (.inr htot) h1.own h1.owned hx) hs he
      exact ⟨k3, l, e ▸ k1, k2⟩
  refine ⟨?_, ?_, key⟩
  · obtain ⟨X, hX⟩ := key.1
    have hn := h0.nodup
    rw [List.map_append, List.nodup_append] at hn
    refine ⟨h0.own, hX.neat, hX.recs, hn.2.1, fun y hy => h0.owned y (List.mem_append_right _ hy), fun y hy o t hv => ?_⟩
    rcases refs_after hc h1 hx hst hv with ⟨o', h⟩ | h
    · exact h0.unused y (List.mem_append_right _ hy) o' t h
    · exact hn.2.2 _ (List.mem_map_of_mem h) _ (List.mem_map_of_mem hy) rfl
  · intro t ht
    have hB : ¬ B t := fun h => ht (.inl h)
    have hR : ¬ EdgeRaced (calls s.threads) t := fun h => ht (.inr (.inl h))
    have hE : ¬ (if s.crash then Extended (calls s.threads) t else ExtendRaced (calls s.threads) t) := fun h => ht (.inr (.inr h))
    by_cases hX : Extended (calls s.threads) t
    · unfold Session.Leads at hd
      split at hd
      · rename_i e
        rw [e] at hE
        exact absurd hX hE
      · rename_i e
        rw [e] at hE
        exact agree_alone hc htot h1 hx (fun o => hA t hB o) hX (by simpa using hE) hd
    · refine agreeAt_edge hX (fun o => hA t hB o) (fineX_progs (b := true) hc (.inl rfl) h1.own h1.owned hx) ?_ hst
      rw [progs_calls]
      exact not_not.1 hR

theorem allWrites_append (a b : List (List (Call E Id NP EP))) : allWrites (a ++ b) = allWrites a ++ allWrites b := by
  simp [allWrites]

/-- one after the other -/
theorem sessions_lead (hc : c.RoundTrip) (htot : c.Total) (ss : List (Session E Id NP EP)) {B : Triple Id → Prop}
    (h0 : Ready c Own d (allWrites (everyCall ss))) (hA : Agreed B d)
    (hx : ∀ s ∈ ss, ∀ th ∈ s.threads, ∀ x ∈ th, ¬ x.1.IsScan)
    (hd : Runs (fun d s d' => s.Leads c mN mE d d') d ss d') :
    LooseSessions c.okN c.okE mN mE B (d.graph c) ss (d'.graph c) ∧ (∃ X, SpoOk c Own d' X) ∧
      ∀ t, ¬ B t → (∀ s ∈ ss, ¬ s.Breaks t) → AgreeAt t d' := by
  induction ss generalizing d B with
  | nil =>
    have hd : d' = d := hd
    subst hd
    exact ⟨rfl, ⟨fun v => ∃ (o : EdgeOrder) (t : Triple Id), d'.idIn o t = some v, h0.neat, fun o t v hv => ⟨o, t, hv⟩, h0.recs⟩,
      fun t ht _ o => hA t ht o⟩
  | cons s ss ih =>
    obtain ⟨d1, h1, h2⟩ := hd
    rw [everyCall, List.flatMap_cons, allWrites_append] at h0
    obtain ⟨k1, k2, k3, h, k4, k5⟩ := session_leads hc htot h0 hA (hx s List.mem_cons_self) h1
    obtain ⟨j1, j2, j3⟩ := ih k1 k2 (fun s hs => hx s (List.mem_cons_of_mem _ hs)) h2
    exact ⟨⟨h, _, k4, k5, j1⟩, j2, fun t ht hb => j3 t (fun h => h.elim ht (hb s List.mem_cons_self)) (fun s hs => hb s (List.mem_cons_of_mem _ hs))⟩

theorem AgreeAt.view {t : Triple Id} (h : AgreeAt t d) (o : EdgeOrder) : d.view c o t = (d.graph (Id := Id) c).edges t := by
  show d.view c o t = d.view c .SPO t
  rw [Db.view, Db.view, h o]

end Sled

end Verif
