import Verif.Proof.RdfSledSim
import Verif.Proof.SledSessions

/-! # Processes with RDF stores which race and crash -/

set_option linter.unusedSectionVars false

namespace Verif

open Spec ConcreteId

namespace RdfSled

variable {NP EP E α β : Type} {cl : Codec String} {cr : Codec Ulid} {c : Codecs NP EP} {mN : NP → NP → NP} {mE : EP → EP → EP}
variable {b : Bool} {f0 : Names}

/-! ## every function leaves well-formed contents -/

/-- the contents of the triple store are well-formed -/
def WellData (c : Codecs NP EP) (d : RdfDb) : Prop := Sled.WellFormed Ulid c d.data

abbrev Good (c : Codecs NP EP) (p : Prog RdfDb α) : Prop := p.Gives (WellData c) (fun _ => True)

theorem good_ret (a : α) : Good c (.ret a) := True.intro

theorem good_onNames (p : Prog IndexDb α) : Good c p.onNames := by
  induction p with
  | ret a => trivial
  | call f k ih => exact fun s hs => ⟨hs, ih _⟩

theorem good_onData {p : Prog Db α} {R : α → Prop} (h : Sled.Keeps Ulid c p R) : Good c p.onData := by
  have h' := gives_of_framed h
  clear h
  induction p with
  | ret a => trivial
  | call f k ih => exact fun s hs => ⟨(h' _ hs).1, ih _ (h' _ hs).2⟩

theorem good_index (p : Prog IndexDb (Except (SledIndexErr String Ulid) α)) (i : Ids) : Good c (onIndex p i) :=
  (good_onNames p).bind (fun _ _ => trivial)

theorem good_graph {p : Prog Db (Except SErr Unit)} {R : Except SErr Unit → Prop} (h : Sled.Keeps Ulid c p R) (i : Ids) :
    Good c (onGraph p i) := (good_onData h).bind (fun _ _ => trivial)

theorem good_andThen {m : Task α} {f : α → Task β} (hm : ∀ i, Good c (m i)) (hf : ∀ a i, Good c (f a i)) (i : Ids) :
    Good c (m.andThen f i) := (hm i).bind (fun r _ => by
  obtain ⟨i', r⟩ := r
  cases r with
  | error e => trivial
  | ok a => exact hf a i')

theorem good_create (e : Entity) (i : Ids) : Good c (lookupOrCreateEntity cl cr e i) := by
  cases e with
  | ulid u => trivial
  | string s =>
    refine good_andThen (good_index _) (fun o i => ?_) i
    cases o with
    | some u => trivial
    | none => exact good_andThen (good_index _) (fun _ _ => good_ret _) _

theorem good_lookup (e : Entity) (i : Ids) : Good c (lookupEntity cl cr e i) := by
  cases e with
  | ulid u => trivial
  | string s =>
    refine good_andThen (good_index _) (fun o i => ?_) i
    cases o <;> trivial

theorem good_tryMap {f : Entity → Task Ulid} (h : ∀ e i, Good c (f e i)) (t : Triple Entity) (i : Ids) : Good c (tryMap f t i) :=
  good_andThen (h _) (fun _ => good_andThen (h _) (fun _ => good_andThen (h _) (fun _ _ => good_ret _))) i

theorem good_absorb {f : α → Task Unit} {k : Ids → Prog RdfDb (Ids × Except (LR Err E) Unit)} (hf : ∀ a i, Good c (f a i))
    (hk : ∀ i, Good c (k i)) (l : List (Except E α)) (i : Ids) : Good c (absorb f k l i) := by
  induction l generalizing i with
  | nil => exact hk i
  | cons x l ih =>
    cases x with
    | error e => trivial
    | ok a =>
      refine (hf a i).bind (fun r _ => ?_)
      obtain ⟨i', r⟩ := r
      cases r with
      | error e => trivial
      | ok u => exact ih i'

theorem good_prog (hc : c.RoundTrip) (op : Op E Entity NP EP) (i : Ids) : Good c (prog cl cr c mN mE op i) := by
  have iN : ∀ e p i, Good c (insertNode cl cr c e p i) := fun e p =>
    good_andThen (good_create e) (fun u => good_graph (Sled.insertNode_keeps u p))
  have mNd : ∀ e p i, Good c (mergeNode cl cr c mN e p i) := fun e p =>
    good_andThen (good_create e) (fun u => good_graph (Sled.mergeNode_keeps hc mN u p))
  have iE : ∀ t p i, Good c (insertEdge cl cr c t p i) := fun t p =>
    good_andThen (good_tryMap good_create t) (fun u i => good_graph (Sled.insertEdge_keeps _ u p) _)
  have mEd : ∀ t p i, Good c (mergeEdge cl cr c mE t p i) := fun t p =>
    good_andThen (good_tryMap good_create t) (fun u i => good_graph (Sled.mergeEdge_keeps hc mE _ u p) _)
  cases op with
  | insertNode e p => exact (iN e p i).bind (fun _ _ => trivial)
  | mergeNode e p => exact (mNd e p i).bind (fun _ _ => trivial)
  | insertEdge t p => exact (iE t p i).bind (fun _ _ => trivial)
  | mergeEdge t p => exact (mEd t p i).bind (fun _ _ => trivial)
  | removeNode e =>
    exact (good_andThen (good_lookup e) (fun u => good_graph (Sled.removeNode_keeps u)) i).bind (fun _ _ => trivial)
  | removeEdge t =>
    exact (good_andThen (good_tryMap good_lookup t) (fun u => good_graph (Sled.removeEdge_keeps u)) i).bind (fun _ _ => trivial)
  | extend src => exact good_absorb (fun x : Entity × NP => iN x.1 x.2) (good_absorb (fun x : Triple Entity × EP => iE x.1 x.2) (fun _ => good_ret _) _) _ i
  | merge src => exact good_absorb (fun x : Entity × NP => mNd x.1 x.2) (good_absorb (fun x : Triple Entity × EP => mEd x.1 x.2) (fun _ => good_ret _) _) _ i

theorem good_states {p : Prog RdfDb α} (h : Good c p) {d : RdfDb} (hd : WellData c d) : ∀ d' ∈ p.states d, WellData c d' := by
  induction p generalizing d with
  | ret a => intro d' h'; rw [List.mem_singleton.1 h']; exact hd
  | call f k ih =>
    intro d' h'
    rcases List.mem_cons.1 h' with rfl | h'
    · exact hd
    · exact ih d (h d hd).2 (h d hd).1 d' h'

theorem good_steps {x y : RdfDb × List (List (Prog RdfDb Unit))} (hs : Steps x y) (hd : WellData c x.1)
    (h : ∀ th ∈ x.2, ∀ p ∈ th, Good c p) : WellData c y.1 ∧ ∀ th ∈ y.2, ∀ p ∈ th, Good c p := by
  induction hs with
  | refl => exact ⟨hd, h⟩
  | tail _ hs ih =>
    obtain ⟨h1, h2⟩ := ih
    have keep : ∀ {pre post : List (List (Prog RdfDb Unit))} {q q' : List (Prog RdfDb Unit)},
        (∀ th ∈ pre ++ q :: post, ∀ p ∈ th, Good c p) → (∀ p ∈ q', Good c p) → ∀ th ∈ pre ++ q' :: post, ∀ p ∈ th, Good c p := by
      intro pre post q q' h1 h2 th hth
      simp only [List.mem_append, List.mem_cons] at hth h1
      rcases hth with h | rfl | h
      · exact h1 th (.inl h)
      · exact h2
      · exact h1 th (.inr (.inr h))
    cases hs with
    | call s pre post f k q =>
      have h3 := h2 _ (List.mem_append_right _ List.mem_cons_self)
      have h4 := h3 _ List.mem_cons_self s h1
      refine ⟨h4.1, keep h2 (fun p hp => ?_)⟩
      rcases List.mem_cons.1 hp with rfl | hp
      · exact h4.2
      · exact h3 p (List.mem_cons_of_mem _ hp)
    | ret s pre post a q =>
      exact ⟨h1, keep h2 (fun p hp => h2 _ (List.mem_append_right _ List.mem_cons_self) p (List.mem_cons_of_mem _ hp))⟩
    | fail s pre post p' q =>
      exact ⟨h1, keep h2 (fun p hp => h2 _ (List.mem_append_right _ List.mem_cons_self) p (List.mem_cons_of_mem _ hp))⟩

theorem Life.well (hc : c.RoundTrip) {C : List Ulid} {d : RdfDb} (h : Life cl cr c mN mE E C d) : Sled.WellFormed Ulid c d.data := by
  induction h with
  | new => exact .empty
  | call _ op _ _ hd ih => exact good_states (good_prog hc op _) ih _ hd
  | threads _ threads _ hm ih =>
    obtain ⟨rest, hm⟩ := hm
    refine (good_steps hm ih (fun th hth p hp => ?_)).1
    obtain ⟨th', _, rfl⟩ := List.mem_map.1 hth
    obtain ⟨x, _, rfl⟩ := List.mem_map.1 hp
    exact (good_prog hc x.op x.ids).bind (fun _ _ => trivial)

/-! ## what a process has done -/

theorem TInv.did {f : Names} {R : Rec E NP EP} (h : TInv cl cr c mN mE b f0 f R) (hb : b = true ∨ R.q = []) :
    ThreadDid b f0 f R.th R.calls := by
  cases h with
  | @idle th1 th2 ps h hu =>
    refine ⟨_, List.rel_append (Past.dids h) ?_, rfl⟩
    rw [List.forall₂_map_right_iff, List.forall₂_same]
    rintro y hy
    rcases hb with hb | hb
    · exact ⟨List.nil_prefix, .inl hb⟩
    · dsimp only at hb
      rw [List.map_eq_nil_iff] at hb
      subst hb
      cases hy
  | @now th1 th2 x ps zx w l K P r fx h hu h0 hf hB hw hz hs hK ha =>
    rcases hb with hb | hb
    · refine ⟨ps.map Prod.snd ++ zx :: th2.map (fun _ => []), ?_, ?_⟩
      · refine List.rel_append (Past.dids h) (.cons ⟨did_prefix hw hz, .inl hb⟩ ?_)
        rw [List.forall₂_map_right_iff, List.forall₂_same]
        exact fun y _ => ⟨List.nil_prefix, .inl hb⟩
      · rfl
    · cases hb

theorem TInv.over {f : Names} {R : Rec E NP EP} (h : TInv cl cr c mN mE b f0 f R) (hq : R.q = []) : R.r = [] := by
  cases h with
  | idle h => rfl
  | now => cases hq

theorem mine_eq (threads : List (List (PieceCall E NP EP))) :
    threads.flatMap mine = (threads.flatten.map Prod.fst).flatMap Call.ulids := by
  induction threads with
  | nil => rfl
  | cons th l ih => simp only [List.flatMap_cons, List.flatten_cons, List.map_append, List.flatMap_append, ih, mine, List.flatMap_map]

section
variable (hl : cl.RoundTrips) (hr : cr.RoundTrips) (tl : cl.Total) (tr : cr.Total) (hc : c.RoundTrip) (ht : c.Total)
include hl hr tl tr hc ht

theorem session_did {d d' : RdfDb} {f : Names} (hd : (SledIndex.impl cl cr).Shows d.names f) (hw : Sled.WellFormed Ulid c d.data)
    {s : Session E NP EP} (hn : (s.threads.flatMap mine).Nodup) (hu : ∀ u ∈ s.threads.flatMap mine, ∀ m, f m ≠ some u)
    (h : s.Leads cl cr c mN mE d d') :
    ∃ (f' : Names) (z : Sled.Session E Ulid NP EP), (SledIndex.impl cl cr).Shows d'.names f' ∧ Sled.WellFormed Ulid c d'.data ∧ Learns f f' s.threads ∧ z.crash = s.crash ∧
      List.Forall₂ (ThreadDid s.crash f f') s.threads z.threads ∧ z.Leads c mN mE d.data d'.data := by
  have hub : ∀ b, ∀ th ∈ s.threads, Unborn b f th := fun b th hth => .inr (fun u h1 => hu u (List.mem_flatMap.2 ⟨th, hth, h1⟩))
  have main : ∀ b rest, (b = true ∨ ∀ th ∈ rest, th = []) →
      StepsB b (d, s.threads.map (List.map (PieceCall.prog cl cr c mN mE))) (d', rest) →
      ∃ f' zss rs, (SledIndex.impl cl cr).Shows d'.names f' ∧ Sled.WellFormed Ulid c d'.data ∧ Learns f f' s.threads ∧
        List.Forall₂ (ThreadDid b f f') s.threads zss ∧ (b = true ∨ ∀ r ∈ rs, r = []) ∧
        StepsB b (d.data, zss.map (List.map (Sled.PieceCall.prog c mN mE))) (d'.data, rs) := by
    intro b rest hrest h
    obtain ⟨f', L, hI⟩ := simulate hl hr tl tr hc (.inr ht) hd hw (.inr hn) (hub b) h
    have hq : ∀ R ∈ L, b = true ∨ R.q = [] := fun R hR =>
      hrest.imp id (fun hrest => hrest _ ((show L.map Rec.q = rest from hI.qs) ▸ List.mem_map_of_mem hR))
    refine ⟨f', L.map Rec.calls, L.map Rec.r, hI.shows, hI.well, ⟨hI.keeps, hI.origin⟩, ?_, ?_, ?_⟩
    · rw [← hI.ths, List.forall₂_map_left_iff, List.forall₂_map_right_iff, List.forall₂_same]
      exact fun R hR => (hI.each R hR).did (hq R hR)
    · by_cases hb : b = true
      · exact .inl hb
      · refine .inr (fun r hr => ?_)
        obtain ⟨R, hR, rfl⟩ := List.mem_map.1 hr
        exact (hI.each R hR).over ((hq R hR).resolve_left hb)
    · rw [List.map_map]
      exact hI.data
  obtain ⟨crash, threads⟩ := s
  cases crash with
  | true =>
    obtain ⟨rest, h⟩ := h
    obtain ⟨f', zss, rs, h1, h2, h3, h4, -, h6⟩ := main true rest (.inl rfl) (stepsB_of_steps h)
    exact ⟨f', ⟨true, zss⟩, h1, h2, h3, rfl, h4, rs, steps_of_stepsB h6⟩
  | false =>
    obtain ⟨rest, h, hrest⟩ := h
    obtain ⟨f', zss, rs, h1, h2, h3, h4, h5, h6⟩ := main false rest (.inr hrest) (stepsB_of_calm h)
    exact ⟨f', ⟨false, zss⟩, h1, h2, h3, rfl, h4, rs, calm_of_stepsB h6, h5.resolve_left (by simp)⟩

omit hl hr tl tr hc ht in
theorem everyCall_ulids (s : Session E NP EP) (ss : List (Session E NP EP)) :
    (everyCall (s :: ss)).flatMap Call.ulids = s.threads.flatMap mine ++ (everyCall ss).flatMap Call.ulids := by
  rw [mine_eq]
  simp [everyCall]

theorem sessions_did (ss : List (Session E NP EP)) {d d' : RdfDb} {f : Names} (hd : (SledIndex.impl cl cr).Shows d.names f)
    (hw : Sled.WellFormed Ulid c d.data) (hn : ((everyCall ss).flatMap Call.ulids).Nodup)
    (hu : ∀ u ∈ (everyCall ss).flatMap Call.ulids, ∀ m, f m ≠ some u)
    (h : Runs (fun d s d' => Session.Leads cl cr c mN mE d s d') d ss d') :
    ∃ f' zs, Did f ss zs f' ∧ (SledIndex.impl cl cr).Shows d'.names f' ∧
      Runs (fun d s d' => Sled.Session.Leads c mN mE d s d') d.data zs d'.data := by
  induction ss generalizing d f with
  | nil => cases h; exact ⟨f, [], rfl, hd, rfl⟩
  | cons s ss ih =>
    obtain ⟨d1, h1, h2⟩ := h
    rw [everyCall_ulids] at hn hu
    rw [List.nodup_append] at hn
    obtain ⟨f1, z, g1, g2, g3, g4, g5, g6⟩ := session_did hl hr tl tr hc ht hd hw hn.1
      (fun u h m => hu u (List.mem_append_left _ h) m) h1
    have hu' : ∀ u ∈ (everyCall ss).flatMap Call.ulids, ∀ m, f1 m ≠ some u := by
      intro u h m hm
      rcases g3.2 m u hm with h3 | ⟨th, hth, x, hx, -, hxu⟩
      · exact hu u (List.mem_append_right _ h) m h3
      · exact hn.2.2 u (List.mem_flatMap.2 ⟨th, hth, List.mem_flatMap.2 ⟨x, hx, hxu⟩⟩) u h rfl
    obtain ⟨f', zs, k1, k2, k3⟩ := ih g1 g2 hn.2.1 hu' h2
    exact ⟨f', z :: zs, ⟨f1, g3, g4, g5, k1⟩, k2, d1.data, g6, k3⟩

end

/-! ## the ids drawn -/

/-- the id for the properties of an edge -/
def idBytes (v : Ulid) : Bytes := (toBeBytes v).1

/-- the ids for edge properties in a call -/
def drawn : Sled.Call E Entity NP EP → List Bytes
  | .insertEdge (.ulid v) _ _ => [idBytes v]
  | .mergeEdge (.ulid v) _ _ => [idBytes v]
  | _ => []

/-- calls as the RDF layer makes them -/
def Plain : Sled.Call E Entity NP EP → Prop
  | .insertEdge (.string _) _ _ => False
  | .mergeEdge (.string _) _ _ => False
  | _ => True

theorem drawn_callIn {f : Names} {y : Sled.Call E Entity NP EP} {z : Sled.Call E Ulid NP EP} (hy : Plain y) (h : callIn f y = some z) :
    z.writes.map Prod.fst = drawn y ∧ ¬ z.IsScan := by
  cases y with
  | insertNode e p => obtain ⟨u, _, rfl⟩ := Option.map_eq_some_iff.1 h; exact ⟨rfl, id⟩
  | mergeNode e p => obtain ⟨u, _, rfl⟩ := Option.map_eq_some_iff.1 h; exact ⟨rfl, id⟩
  | removeNode e => obtain ⟨u, _, rfl⟩ := Option.map_eq_some_iff.1 h; exact ⟨rfl, id⟩
  | removeEdge t => obtain ⟨u, _, rfl⟩ := Option.map_eq_some_iff.1 h; exact ⟨rfl, id⟩
  | insertEdge i t p =>
    obtain ⟨v, h0, h2⟩ := Option.bind_eq_some_iff.1 h
    obtain ⟨u, _, rfl⟩ := Option.map_eq_some_iff.1 h2
    cases i with
    | string s => exact hy.elim
    | ulid w => cases h0; exact ⟨rfl, id⟩
  | mergeEdge i t p =>
    obtain ⟨v, h0, h2⟩ := Option.bind_eq_some_iff.1 h
    obtain ⟨u, _, rfl⟩ := Option.map_eq_some_iff.1 h2
    cases i with
    | string s => exact hy.elim
    | ulid w => cases h0; exact ⟨rfl, id⟩
  | _ => cases h

theorem edgeCalls_drawn {mk : Entity → Triple Entity → EP → Sled.Call E Entity NP EP} (h : ∀ v t p, drawn (mk (.ulid v) t p) = [idBytes v])
    (g : Gen Ulid) (l : List (Triple Entity × EP)) :
    (edgeCalls mk g l).flatMap drawn = ((List.range l.length).map g).map idBytes := by
  induction l generalizing g with
  | nil => rfl
  | cons x l ih =>
    rw [edgeCalls, List.flatMap_cons, h, ih, List.length_cons, List.range_succ_eq_map]
    simp [Gen.fresh, Function.comp_def]

theorem oks_length (l : List (Except E α)) : (oks l).length ≤ l.length := by
  induction l with
  | nil => simp [oks]
  | cons x l ih => cases x <;> simp [oks, ih]

theorem edgeCalls_plain {mk : Entity → Triple Entity → EP → Sled.Call E Entity NP EP} (h : ∀ v t p, Plain (mk (.ulid v) t p))
    (g : Gen Ulid) (l : List (Triple Entity × EP)) : ∀ y ∈ edgeCalls mk g l, Plain y := by
  induction l generalizing g with
  | nil => intro y hy; cases hy
  | cons x l ih =>
    intro y hy
    rcases List.mem_cons.1 hy with rfl | hy
    · exact h _ _ _
    · exact ih _ y hy

theorem wants_plain (x : Call E NP EP) : ∀ y ∈ x.wants, Plain y := by
  obtain ⟨op, ids⟩ := x
  cases op with
  | extend src =>
    intro y hy
    rcases List.mem_append.1 hy with h | h
    · obtain ⟨a, _, rfl⟩ := List.mem_map.1 h; trivial
    · split at h
      · cases h
      · exact edgeCalls_plain (mk := .insertEdge) (fun _ _ _ => True.intro) _ _ y h
  | merge src =>
    intro y hy
    rcases List.mem_append.1 hy with h | h
    · obtain ⟨a, _, rfl⟩ := List.mem_map.1 h; trivial
    · split at h
      · cases h
      · exact edgeCalls_plain (mk := .mergeEdge) (fun _ _ _ => True.intro) _ _ y h
  | _ => intro y hy; rw [List.mem_singleton.1 hy]; trivial

theorem wants_drawn (x : Call E NP EP) : (x.wants.flatMap drawn).Sublist (x.records.map idBytes) := by
  obtain ⟨op, ids⟩ := x
  have key : ∀ (src : Source E Entity NP EP),
      (((List.range (oks src.edges).length).map ids.gen).map idBytes).Sublist (((List.range src.edges.length).map ids.gen).map idBytes) :=
    fun src => ((List.range_sublist.2 (oks_length _)).map _).map _
  have nil : ∀ {mk : Entity × NP → Sled.Call E Entity NP EP} (l : List (Entity × NP)), (∀ a, drawn (mk a) = []) →
      (l.map mk).flatMap drawn = [] := by
    intro mk l h
    simp [List.flatMap_map, h]
  cases op with
  | extend src =>
    show (List.flatMap drawn (_ ++ _)).Sublist _
    rw [List.flatMap_append, nil _ (fun _ => rfl), List.nil_append]
    split
    · exact List.nil_sublist _
    · rw [edgeCalls_drawn (fun _ _ _ => rfl)]
      exact key src
  | merge src =>
    show (List.flatMap drawn (_ ++ _)).Sublist _
    rw [List.flatMap_append, nil _ (fun _ => rfl), List.nil_append]
    split
    · exact List.nil_sublist _
    · rw [edgeCalls_drawn (fun _ _ _ => rfl)]
      exact key src
  | insertNode e p => exact List.nil_sublist _
  | mergeNode e p => exact List.nil_sublist _
  | removeNode e => exact List.nil_sublist _
  | removeEdge t => exact List.nil_sublist _
  | insertEdge t p => exact List.Sublist.refl _
  | mergeEdge t p => exact List.Sublist.refl _

theorem pieces_drawn {f : Names} {ws : List (Sled.PieceCall E Entity NP EP)} {l : List (Sled.PieceCall E Ulid NP EP)}
    (hp : ∀ y ∈ ws, Plain y.1) (h : l.map some <+: ws.map (pieceIn f)) :
    (l.flatMap (fun z => z.1.writes.map Prod.fst)).Sublist (ws.flatMap (fun y => drawn y.1)) ∧ ∀ z ∈ l, ¬ z.1.IsScan := by
  induction l generalizing ws with
  | nil => exact ⟨List.nil_sublist _, fun z hz => by cases hz⟩
  | cons z l ih =>
    cases ws with
    | nil =>
      have := h.length_le
      simp at this
    | cons y ws =>
      rw [List.map_cons, List.map_cons, List.cons_prefix_cons] at h
      obtain ⟨k1, k2⟩ := ih (fun y hy => hp y (List.mem_cons_of_mem _ hy)) h.2
      obtain ⟨u, h1, rfl⟩ := Option.map_eq_some_iff.1 h.1.symm
      obtain ⟨g1, g2⟩ := drawn_callIn (hp y List.mem_cons_self) h1
      refine ⟨?_, fun z' hz' => ?_⟩
      · rw [List.flatMap_cons, List.flatMap_cons]
        dsimp only
        rw [g1]
        exact k1.append_left _
      · rcases List.mem_cons.1 hz' with rfl | hz'
        · exact g2
        · exact k2 z' hz'

theorem call_drawn {f f' : Names} {th : List (PieceCall E NP EP)} {x : PieceCall E NP EP} {l : List (Sled.PieceCall E Ulid NP EP)}
    (h : CallDid b f f' th x l) :
    (l.flatMap (fun z => z.1.writes.map Prod.fst)).Sublist (x.1.records.map idBytes) ∧ ∀ z ∈ l, ¬ z.1.IsScan := by
  have hp : ∀ y ∈ x.wants, Plain y.1 := by
    intro y hy
    obtain ⟨y', hy', rfl⟩ := List.mem_map.1 hy
    exact wants_plain x.1 y' hy'
  obtain ⟨h1, h2⟩ := pieces_drawn hp h.1
  refine ⟨h1.trans ?_, h2⟩
  have : x.wants.flatMap (fun y => drawn y.1) = x.1.wants.flatMap drawn := by
    unfold PieceCall.wants
    rw [List.flatMap_map]
  rw [this]
  exact wants_drawn x.1

theorem calls_drawn {f f' : Names} {th xs : List (PieceCall E NP EP)} {ls : List (List (Sled.PieceCall E Ulid NP EP))}
    (h : List.Forall₂ (CallDid b f f' th) xs ls) :
    (ls.flatten.flatMap (fun z => z.1.writes.map Prod.fst)).Sublist (xs.flatMap (fun x => x.1.records.map idBytes)) ∧
      ∀ z ∈ ls.flatten, ¬ z.1.IsScan := by
  induction h with
  | nil => exact ⟨List.Sublist.refl _, fun z hz => by cases hz⟩
  | cons h _ ih =>
    rw [List.flatten_cons, List.flatMap_append, List.flatMap_cons]
    refine ⟨(call_drawn h).1.append ih.1, fun z hz => ?_⟩
    rcases List.mem_append.1 hz with hz | hz
    · exact (call_drawn h).2 z hz
    · exact ih.2 z hz

theorem threads_drawn {f f' : Names} {threads : List (List (PieceCall E NP EP))} {zss : List (List (Sled.PieceCall E Ulid NP EP))}
    (h : List.Forall₂ (ThreadDid b f f') threads zss) :
    (zss.flatten.flatMap (fun z => z.1.writes.map Prod.fst)).Sublist (threads.flatten.flatMap (fun x => x.1.records.map idBytes)) ∧
      ∀ th ∈ zss, ∀ z ∈ th, ¬ z.1.IsScan := by
  induction h with
  | nil => exact ⟨List.Sublist.refl _, fun z hz => by cases hz⟩
  | cons h _ ih =>
    obtain ⟨ls, h1, rfl⟩ := h
    rw [List.flatten_cons, List.flatMap_append, List.flatten_cons, List.flatMap_append]
    refine ⟨(calls_drawn h1).1.append ih.1, fun th hth => ?_⟩
    rcases List.mem_cons.1 hth with rfl | hth
    · exact (calls_drawn h1).2
    · exact ih.2 th hth

theorem everyWrites (z : Sled.Session E Ulid NP EP) (zs : List (Sled.Session E Ulid NP EP)) :
    (Sled.allWrites (Sled.everyCall (z :: zs))).map Prod.fst =
      z.threads.flatten.flatMap (fun z => z.1.writes.map Prod.fst) ++ (Sled.allWrites (Sled.everyCall zs)).map Prod.fst := by
  simp only [Sled.allWrites, Sled.everyCall, List.flatMap_cons, List.flatten_append, List.flatMap_append, List.map_append]
  congr 1
  rw [Sled.calls, ← List.map_flatten, List.flatMap_map, List.map_flatMap]

theorem did_drawn {ss : List (Session E NP EP)} {f f' : Names} {zs : List (Sled.Session E Ulid NP EP)} (h : Did f ss zs f') :
    ((Sled.allWrites (Sled.everyCall zs)).map Prod.fst).Sublist (((everyCall ss).flatMap Call.records).map idBytes) ∧
      ∀ s ∈ zs, ∀ th ∈ s.threads, ∀ x ∈ th, ¬ x.1.IsScan := by
  induction ss generalizing f zs with
  | nil =>
    cases zs with
    | nil => exact ⟨List.Sublist.refl _, fun s hs => by cases hs⟩
    | cons z zs => exact h.elim
  | cons s ss ih =>
    cases zs with
    | nil => exact h.elim
    | cons z zs =>
      obtain ⟨f1, -, -, h1, h2⟩ := h
      obtain ⟨k1, k2⟩ := ih h2
      obtain ⟨g1, g2⟩ := threads_drawn h1
      refine ⟨?_, fun s' hs' => ?_⟩
      · rw [everyWrites]
        have : ((everyCall (s :: ss)).flatMap Call.records).map idBytes =
            s.threads.flatten.flatMap (fun x => x.1.records.map idBytes) ++ ((everyCall ss).flatMap Call.records).map idBytes := by
          simp only [everyCall, List.flatMap_cons, List.map_append, List.flatMap_append, List.flatMap_map, List.map_flatMap]
        rw [this]
        exact g1.append k1
      · rcases List.mem_cons.1 hs' with rfl | hs'
        · exact g2
        · exact k2 s' hs'

theorem did_distinct {ss : List (Session E NP EP)} {f f' : Names} {zs : List (Sled.Session E Ulid NP EP)} {d : Db}
    (hi : NewIdsFor f d (everyCall ss)) (h : Did f ss zs f') : Sled.DistinctIds d (Sled.everyCall zs) := by
  have h1 := (did_drawn h).1
  refine ⟨h1.nodup (hi.records.map (fun a b e => ?_)), fun x hx => ?_⟩
  · have h1 := LawfulId.try_toBe a
    have e' : (toBeBytes a).1 = (toBeBytes b).1 := e
    rw [e', LawfulId.try_toBe b] at h1
    exact (Option.some.inj h1).symm
  · obtain ⟨v, hv, e⟩ := List.mem_map.1 (h1.subset (List.mem_map_of_mem hx))
    rw [← e]
    exact hi.unused v hv

/-! ## why a call stops -/

theorem mem_oks {l : List (Except E α)} {a : α} (h : a ∈ oks l) : .ok a ∈ l := by
  induction l with
  | nil => cases h
  | cons x l ih =>
    cases x with
    | error e => cases h
    | ok b =>
      rcases List.mem_cons.1 h with rfl | h
      · exact List.mem_cons_self
      · exact List.mem_cons_of_mem _ (ih h)

theorem mem_edgeCalls {mk : Entity → Triple Entity → EP → Sled.Call E Entity NP EP} {g : Gen Ulid} {l : List (Triple Entity × EP)}
    {y : Sled.Call E Entity NP EP} (h : y ∈ edgeCalls mk g l) : ∃ v, ∃ x ∈ l, y = mk (.ulid v) x.1 x.2 := by
  induction l generalizing g with
  | nil => cases h
  | cons x l ih =>
    rcases List.mem_cons.1 h with rfl | h
    · exact ⟨_, x, List.mem_cons_self, rfl⟩
    · obtain ⟨v, z, hz, e⟩ := ih h
      exact ⟨v, z, List.mem_cons_of_mem _ hz, e⟩

/-- A call which fails is a removal, or creates a name which another thread has created. -/
theorem wants_names (x : Call E NP EP) : ∀ y ∈ x.wants, (∃ e, x.op = .removeNode e ∧ y = .removeNode e) ∨
    (∃ t, x.op = .removeEdge t ∧ y = .removeEdge t) ∨
    ∀ (f f' : Names) th, Fails f f' th y → ∃ s v, x.Creates s ∧ f s = none ∧ f' s = some v ∧ v ∉ mine th := by
  obtain ⟨op, ids⟩ := x
  have one : ∀ (e : Entity) (src : List (Except E (Entity × NP))) p, (e, p) ∈ oks src → e ∈ itemEntities (fun x => [x.1]) src :=
    fun e src p h => mem_itemEntities (mem_oks h) List.mem_cons_self
  have three : ∀ (t : Triple Entity) (src : List (Except E (Triple Entity × EP))) p e, (t, p) ∈ oks src → e ∈ RdfState.parts t →
      e ∈ itemEntities (fun x => RdfState.parts x.1) src := fun t src p e h he => mem_itemEntities (mem_oks h) he
  intro y hy
  cases op with
  | removeNode e => exact .inl ⟨e, rfl, List.mem_singleton.1 hy⟩
  | removeEdge t => exact .inr (.inl ⟨t, rfl, List.mem_singleton.1 hy⟩)
  | insertNode e p =>
    obtain rfl := List.mem_singleton.1 hy
    refine .inr (.inr (fun f f' th h => ?_))
    obtain ⟨s, v, rfl, h⟩ := h
    exact ⟨s, v, by simp [Call.Creates, Op.entities], h⟩
  | mergeNode e p =>
    obtain rfl := List.mem_singleton.1 hy
    refine .inr (.inr (fun f f' th h => ?_))
    obtain ⟨s, v, rfl, h⟩ := h
    exact ⟨s, v, by simp [Call.Creates, Op.entities], h⟩
  | insertEdge t p =>
    obtain rfl := List.mem_singleton.1 hy
    refine .inr (.inr (fun f f' th h => ?_))
    obtain ⟨s, v, hs, h⟩ := h
    exact ⟨s, v, by simpa [Call.Creates, Op.entities] using hs, h⟩
  | mergeEdge t p =>
    obtain rfl := List.mem_singleton.1 hy
    refine .inr (.inr (fun f f' th h => ?_))
    obtain ⟨s, v, hs, h⟩ := h
    exact ⟨s, v, by simpa [Call.Creates, Op.entities] using hs, h⟩
  | extend src =>
    refine .inr (.inr (fun f f' th h => ?_))
    rcases List.mem_append.1 hy with hy | hy
    · obtain ⟨a, ha, rfl⟩ := List.mem_map.1 hy
      obtain ⟨s, v, e, h⟩ := h
      refine ⟨s, v, List.mem_append_left _ ?_, h⟩
      rw [← e]
      exact one _ _ _ ha
    · split at hy
      · cases hy
      · obtain ⟨w, a, ha, rfl⟩ := mem_edgeCalls hy
        obtain ⟨s, v, hs, h⟩ := h
        exact ⟨s, v, List.mem_append_right _ (three _ _ _ _ ha hs), h⟩
  | merge src =>
    refine .inr (.inr (fun f f' th h => ?_))
    rcases List.mem_append.1 hy with hy | hy
    · obtain ⟨a, ha, rfl⟩ := List.mem_map.1 hy
      obtain ⟨s, v, e, h⟩ := h
      refine ⟨s, v, List.mem_append_left _ ?_, h⟩
      rw [← e]
      exact one _ _ _ ha
    · split at hy
      · cases hy
      · obtain ⟨w, a, ha, rfl⟩ := mem_edgeCalls hy
        obtain ⟨s, v, hs, h⟩ := h
        exact ⟨s, v, List.mem_append_right _ (three _ _ _ _ ha hs), h⟩

/-! ## reading -/

theorem ref_fun {f : Names} {e : Entity} {u v : Ulid} (h1 : Ref f e u) (h2 : Ref f e v) : u = v := by
  cases h1 with
  | name h => cases h2 with | name h' => exact Option.some.inj (h.symm.trans h')
  | id h => cases h2 with | id h' => rfl

open Classical in
/-- the id of an entity -/
noncomputable def refId (f : Names) (e : Entity) : Option Ulid := if h : ∃ u, Ref f e u then some h.choose else none

theorem refId_of {f : Names} {e : Entity} {u : Ulid} (h : Ref f e u) : refId f e = some u := by
  have hex : ∃ u, Ref f e u := ⟨u, h⟩
  unfold refId
  rw [dif_pos hex, ref_fun hex.choose_spec h]

theorem refId_some {f : Names} {e : Entity} {u : Ulid} (h : refId f e = some u) : Ref f e u := by
  unfold refId at h
  split at h
  · rename_i hex
    rw [← Option.some.inj h]
    exact hex.choose_spec
  · cases h

/-- the graph over entities -/
theorem agree_exists (f : Names) (G : Graph Ulid NP EP) : ∃ x : RdfState NP EP, Agree f G x := by
  refine ⟨⟨fun s => (f s).isSome, ⟨fun e => (refId f e).bind G.nodes, fun t =>
    (refId f t.sub).bind (fun s => (refId f t.pred).bind (fun p => (refId f t.obj).bind (fun o => G.edges ⟨s, p, o⟩)))⟩⟩,
    fun s => rfl, fun e u h => ?_, fun te tu h1 h2 h3 => ?_, fun e p h => ?_, fun t p h => ?_⟩
  · dsimp only
    rw [refId_of h]
    rfl
  · dsimp only
    rw [refId_of h1, refId_of h2, refId_of h3]
    rfl
  · dsimp only at h
    obtain ⟨u, h1, -⟩ := Option.bind_eq_some_iff.1 h
    exact ⟨u, refId_some h1⟩
  · dsimp only at h
    obtain ⟨u, h1, h⟩ := Option.bind_eq_some_iff.1 h
    obtain ⟨v, h2, h⟩ := Option.bind_eq_some_iff.1 h
    obtain ⟨w, h3, -⟩ := Option.bind_eq_some_iff.1 h
    exact ⟨⟨u, refId_some h1⟩, ⟨v, refId_some h2⟩, w, refId_some h3⟩

theorem spo_reads {d : RdfDb} {f : Names} {G : Graph Ulid NP EP} {x : RdfState NP EP} (hn : (SledIndex.impl cl cr).Shows d.names f)
    (hs : Sled.SpoShows c d.data G) (ha : Agree f G x) (u g : Gen Ulid) :
    Represents (.mk ((openOn d u g).iterVertices (SledIndex.impl cl cr) (SledStore.impl c mN mE))
      ((openOn d u g).iterEdges (SledIndex.impl cl cr) (SledStore.impl c mN mE) .SPO)) x.graph := by
  obtain ⟨dec, h1, hd⟩ := Rdf.decoder (SX := SErr) (r := openOn d u g) hn
  have hi : Inj f := hn.inj
  constructor
  · obtain ⟨l, e, hl⟩ := hs.nodes
    refine ⟨l.map (fun a => (dec a.1, a.2)), ?_, ?_, ?_⟩
    · show (Sled.iterVertices Ulid c d.data).map _ = _
      simp only [e, List.map_map]
      exact List.map_congr_left (fun a _ => Rdf.vertexItem_ok h1 a)
    · rw [List.map_map, List.Nodup, List.pairwise_map]
      exact hl.1.imp (fun {a b} hab he => by
        have := Rdf.dec_inj hd he
        rw [this] at hab; exact lt_irrefl _ hab)
    · intro e p
      rw [Rdf.nodes_decode hi ha hd, List.mem_map]
      constructor
      · rintro ⟨a, ha, h⟩; cases h; exact ⟨a.1, rfl, (hl.2 _ _).1 ha⟩
      · rintro ⟨u, rfl, h⟩; exact ⟨(u, p), (hl.2 _ _).2 h, rfl⟩
  · obtain ⟨l, e, hl⟩ := hs.edges
    refine ⟨l.map (fun a => (a.1.map dec, a.2)), ?_, ?_, ?_⟩
    · show (Sled.iterEdges Ulid c d.data .SPO).map _ = _
      simp only [e, List.map_map]
      exact List.map_congr_left (fun a _ => Rdf.edgeItem_ok h1 a)
    · rw [List.map_map, List.Nodup, List.pairwise_map]
      exact hl.1.imp (fun {a b} hab he => by
        have := Rdf.tmap_inj hd he
        rw [this] at hab; exact edgeLT_irrefl _ _ hab)
    · intro e p
      rw [Rdf.edges_decode hi ha hd, List.mem_map]
      constructor
      · rintro ⟨a, ha, h⟩; cases h; exact ⟨a.1, rfl, (hl.2 _ _).1 ha⟩
      · rintro ⟨u, rfl, h⟩; exact ⟨(u, p), (hl.2 _ _).2 h, rfl⟩

theorem spoShows_unique {Id : Type} [LinearOrder Id] [ConcreteId Id] {d : Db} {G G' : Graph Id NP EP} (h : Sled.SpoShows c d G)
    (h' : Sled.SpoShows c d G') : G = G' := by
  have inj : ∀ {γ : Type} {l l' : List γ}, l.map (Except.ok (ε := SErr)) = l'.map .ok → l = l' :=
    fun e => List.map_injective_iff.2 (fun _ _ h => Except.ok.inj h) e
  obtain ⟨l, e, hl⟩ := h.nodes
  obtain ⟨l', e', hl'⟩ := h'.nodes
  obtain ⟨m, k, hm⟩ := h.edges
  obtain ⟨m', k', hm'⟩ := h'.edges
  obtain rfl := inj (e.symm.trans e')
  obtain rfl := inj (k.symm.trans k')
  obtain ⟨n1, e1⟩ := G
  obtain ⟨n2, e2⟩ := G'
  congr
  · funext n
    refine Option.ext (fun p => ?_)
    exact (hl.2 n p).symm.trans (hl'.2 n p)
  · funext n
    refine Option.ext (fun p => ?_)
    exact (hm.2 n p).symm.trans (hm'.2 n p)

end RdfSled

end Verif
