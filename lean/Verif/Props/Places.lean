import Verif.Proof.Places
import Verif.Props.HistoryLoose
import Verif.Props.SledScan
import Verif.Props.SledTx
import Verif.Props.Ends

/-!
# C91: what readers get has a place in the history

C87 says that one history explains what a database shows at all moments.  A reader, however, does not see a moment: it meets each entry at
another one, and its record later.  Here everything that readers get is explained by the same history: each edge, node, or gap has
its place in it, between the moments when the reader begins and ends, in the order of the iteration.
-/

set_option linter.unusedSectionVars false
set_option maxRecDepth 100000

namespace Verif.Props

open Verif Spec ConcreteId Sled

section
variable {Id NP EP E : Type} [LinearOrder Id] [ConcreteId Id] [LawfulId Id]
variable {mN : NP → NP → NP} {mE : EP → EP → EP} {c : Codecs NP EP}

/-- Whatever calls threads make, one history explains what the database shows at all moments, and what all readers get; `e` is the moment
when a reader ends. -/
theorem C91_store {part : Bool} {n m : Nat} {s : SledStore Id} {G : Graph Id NP EP} (hc : c.RoundTrip) (hb : part = true ∨ c.Total)
    (hs : SledStore.Reach E c mN mE n m s) (hG : Shows (s.obs c) G) {threads : List (List (PieceCall E Id NP EP))}
    (hx : ∀ th ∈ threads, ∀ x ∈ th, ¬ x.1.IsScan) (hi : DistinctIds s.db (calls threads))
    {x : Nat → Db × List (List (Prog Db Unit))} {N : Nat} (hC : Course part x N)
    (h0 : x 0 = (s.db, threads.map (List.map (PieceCall.prog c mN mE)))) :
    ∃ h cut H, Tells part (PieceCall.prog c mN mE) (fun y => y.1.acts)
        (LooseStep c.okN c.okE mN mE (FromRaced (calls threads)) (ToRaced (calls threads))) (ShowsBut c (ToRaced (calls threads)))
        G threads x N h cut H ∧
      ∀ e ≤ N, Readers c (calls threads) (ToRaced (calls threads)) x e (fun k => H (cut k)) := by
  have inv := (hs.ok hc).inv
  obtain ⟨h, cut, H, ht⟩ := C87_store hc hb hs hG hx hi hC h0
  refine ⟨h, cut, H, ht, fun e he => readers_of (fun a => course_momentsOk hc inv hx hi hC h0 (fun _ _ => min_mono)
    (fun _ => (Nat.min_le_right _ _).trans he)) (fun k hk => ?_)⟩
  replace hk := hk.trans he
  have hm := course_momentsOk hc inv hx hi hC h0 (φ := fun _ => k) (fun _ _ _ => le_rfl) (fun _ => hk)
  exact sight (ht.shows k hk) (agreed_course hc hb inv hx hi hC h0 hk) (hm.keys 0) (hm.nodes 0)

/-- Also if transactions are run on overlays, checked, and run again: there is a course `x` of transactions that are single steps, through
the same databases (`φ`), whose history explains what readers get. -/
theorem C91_fine {part : Bool} {n m : Nat} {s : SledStore Id} {G : Graph Id NP EP} (hc : c.RoundTrip) (hb : part = true ∨ c.Total)
    (hs : SledStore.Reach E c mN mE n m s) (hG : Shows (s.obs c) G) {threads : List (List (PieceCall E Id NP EP))}
    (hx : ∀ th ∈ threads, ∀ x ∈ th, ¬ x.1.IsScan) (hi : DistinctIds s.db (calls threads)) {closures : Tx DbTree SErr → Prop}
    {y : Nat → Db × List (Tx.Thread Db DbTree SErr Unit)} {N : Nat} (hC : Tx.Course closures part y N)
    (h0 : y 0 = (s.db, (threads.map (List.map (PieceCall.prog c mN mE))).map Tx.idle)) :
    ∃ (x : Nat → Db × List (List (Prog Db Unit))) (M : Nat) (φ : Nat → Nat) (h : List (Nat × Nat × Op E Id NP EP)) (cut : Nat → Nat)
      (H : Nat → Graph Id NP EP), Tells part (PieceCall.prog c mN mE) (fun y => y.1.acts)
        (LooseStep c.okN c.okE mN mE (FromRaced (calls threads)) (ToRaced (calls threads))) (ShowsBut c (ToRaced (calls threads)))
        G threads x M h cut H ∧
      (∀ k < N, φ k ≤ φ (k + 1)) ∧ (∀ k ≤ N, φ k ≤ M ∧ x (φ k) = ((y k).1, (y k).2.map Prod.snd)) ∧
      ∀ e ≤ N, Readers c (calls threads) (ToRaced (calls threads)) y e (fun k => H (cut (φ k))) := by
  have inv := (hs.ok hc).inv
  obtain ⟨x, M, φ, hx', hx0, _, _, hmono, hφ⟩ := C86_course hC h0
  obtain ⟨h, cut, H, ht⟩ := C87_store hc hb hs hG hx hi hx' hx0
  have mono : ∀ k' ≤ N, ∀ k ≤ k', φ k ≤ φ k' := by
    intro k'
    induction k' with
    | zero => intro _ k hk; rw [Nat.le_zero.1 hk]
    | succ k' ih =>
      intro h1 k hk
      rcases Nat.lt_or_ge k (k' + 1) with h2 | h2
      · exact (ih (by omega) k (by omega)).trans (hmono k' (by omega)).1
      · rw [show k = k' + 1 by omega]
  refine ⟨x, M, φ, h, cut, H, ht, fun k hk => (hmono k hk).1, hφ, fun e he => readers_of (fun a => ?_) (fun k hk => ?_)⟩
  · have hm : ∀ m, min (a + m) e ≤ N := fun m => (Nat.min_le_right _ _).trans he
    have := course_momentsOk hc inv hx hi hx' hx0 (φ := fun m => φ (min (a + m) e))
      (fun m m' h => mono _ (hm m') _ (min_mono h)) (fun m => (hφ _ (hm m)).1)
    refine cast ?_ this
    congr 1
    funext m
    rw [(hφ _ (hm m)).2]
    rfl
  · replace hk := hk.trans he
    have hm := course_momentsOk hc inv hx hi hx' hx0 (φ := fun _ => φ k) (fun _ _ _ => le_rfl) (fun _ => (hφ k hk).1)
    have e : (x (φ k)).1 = (y k).1 := by rw [(hφ k hk).2]
    have := sight (ht.shows _ (hφ k hk).1) (agreed_course hc hb inv hx hi hx' hx0 (hφ k hk).1) (hm.keys 0) (hm.nodes 0)
    rwa [e] at this

/-- The places of what is met later in an iteration are later in the history. -/
theorem C91_order {part : Bool} {S T O C κ ν : Type} {prog : C → Prog S Unit} {ops : C → List O} {st : T → O → T → Prop} {shows : S → T → Prop}
    {t0 : T} {threads : List (List C)} {x : Nat → S × List (List (Prog S Unit))} {N : Nat} {h : List (Nat × Nat × O)} {cut : Nat → Nat}
    {H : Nat → T} (ht : Tells part prog ops st shows t0 threads x N h cut H) {lt : κ → κ → Prop} {g : Nat → κ → Option ν} {a e : Nat}
    (he : e ≤ N) {within sure : κ → Prop} {l : List (κ × Option ν)} {place : κ → Nat} (hp : Placed lt g a e within sure l place) :
    l.Pairwise (fun y z => cut (place y.1) ≤ cut (place z.1)) ∧ ∀ k, cut a ≤ cut (place k) ∧ cut (place k) ≤ cut e := by
  have mono : ∀ k' ≤ N, ∀ k ≤ k', cut k ≤ cut k' := by
    intro k'
    induction k' with
    | zero => intro _ k hk; rw [Nat.le_zero.1 hk]
    | succ k' ih =>
      intro h1 k hk
      rcases Nat.lt_or_ge k (k' + 1) with h2 | h2
      · exact (ih (by omega) k (by omega)).trans (ht.mono k' (by omega))
      · rw [show k = k' + 1 by omega]
  refine ⟨hp.sorted.imp_of_mem (fun {y z} hy hz hlt => ?_), fun k =>
    ⟨mono _ ((hp.time k).2.trans he) _ (hp.time k).1, mono _ he _ (hp.time k).2⟩⟩
  exact mono _ ((hp.time z.1).2.trans he) _ (hp.order y.1 z.1 (hp.listed y.1 y.2 hy).1 (hp.listed z.1 z.2 hz).1 hlt (.inl ⟨y.2, hy⟩))

/-- A reading that begins after another one has ended has later places in the history. -/
theorem C91_later {part : Bool} {S T O C κ ν κ' ν' : Type} {prog : C → Prog S Unit} {ops : C → List O} {st : T → O → T → Prop}
    {shows : S → T → Prop} {t0 : T} {threads : List (List C)} {x : Nat → S × List (List (Prog S Unit))} {N : Nat} {h : List (Nat × Nat × O)}
    {cut : Nat → Nat} {H : Nat → T} (ht : Tells part prog ops st shows t0 threads x N h cut H)
    {lt : κ → κ → Prop} {g : Nat → κ → Option ν} {a e : Nat} {within sure : κ → Prop} {l : List (κ × Option ν)} {place : κ → Nat}
    (hp : Placed lt g a e within sure l place)
    {lt' : κ' → κ' → Prop} {g' : Nat → κ' → Option ν'} {a' e' : Nat} {within' sure' : κ' → Prop} {l' : List (κ' × Option ν')} {place' : κ' → Nat}
    (hp' : Placed lt' g' a' e' within' sure' l' place') (ha : e ≤ a') (he' : e' ≤ N) (k : κ) (k' : κ') :
    cut (place k) ≤ cut (place' k') := by
  have h1 := hp.time k
  have h2 := hp'.time k'
  -- the history up to one moment is a reading too
  have one : Placed (fun _ _ : Unit => False) (fun _ _ => (none : Option Unit)) (place k) (place' k') (fun _ => False) (fun _ => False) []
      (fun _ => place k) := ⟨fun _ => ⟨le_rfl, by omega⟩, .nil, by simp, by simp, by simp⟩
  exact ((C91_order ht (by omega) one).2 ()).2

end

/-! ## no moment of its own -/

/-- a thread inserts an edge at the beginning of the first ordering, and one at its end -/
def ends : List (List (PieceCall String U64 Nat Nat)) :=
  [[(.insertEdge 100 ⟨1, 1, 1⟩ 70, [], []), (.insertEdge 101 ⟨9, 9, 9⟩ 71, [], [])]]

theorem ends_noScan : ∀ th ∈ ends, ∀ x ∈ th, ¬ x.1.IsScan := by
  simp only [ends, List.mem_cons, List.not_mem_nil, or_false, forall_eq_or_imp, forall_eq]
  exact ⟨id, id⟩

theorem ends_distinct : DistinctIds db0 (calls ends) := ⟨by decide +kernel, by decide +kernel⟩

def endsStart : Db × List (List (Prog Db Unit)) := (db0, ends.map (List.map (PieceCall.prog Sample.uc Sample.mN Sample.mE)))

def endsCourse (k : Nat) : Db × List (List (Prog Db Unit)) := (([0, 0, 0, 0] : List Nat).take k).foldl turn endsStart

theorem endsCourse_course : Course false endsCourse 4 := course_turns _ [0, 0, 0, 0] (by decide +kernel)

/-- The reader meets the first edges before the thread begins, and the last one after the thread has inserted both. -/
def endsSeen : List Seen :=
  (db0.spo.entries.map (fun e => ⟨0, 4, e.1, e.2⟩)) ++ [⟨4, 4, (encodeSpo (⟨9, 9, 9⟩ : Triple U64)).1, (toBeBytes (101 : U64)).1⟩]

/-- all entries are read at one moment, and then one more -/
theorem scan_two (T : Nat → Tree) {m m' : Nat} (hm : m ≤ m') {k1 v1 : Bytes} (h1 : ∀ e ∈ (T m).entries, e.1 < k1)
    (h2 : (T m').get k1 = some v1) (h3 : ∀ e ∈ (T m').entries, e.1 ≤ k1) :
    Scan T whole m none ((T m).entries.map (fun e => (m, e)) ++ [(m', k1, v1)]) := by
  have key : ∀ (l : List (Bytes × Bytes)) (cur : Option Bytes), l.Pairwise (fun a b => a.1 < b.1) →
      (∀ e ∈ l, After cur e.1 ∧ (T m).get e.1 = some e.2) → After cur k1 →
      (∀ k v, After cur k → (T m).get k = some v → (k, v) ∈ l) →
      Scan T whole m cur (l.map (fun e => (m, e)) ++ [(m', k1, v1)]) := by
    intro l
    induction l with
    | nil =>
      intro cur _ _ hc h
      refine .next hm hc rfl h2 (fun k' hk' hlt _ => ⟨m, le_rfl, hm, ?_⟩) (.done (fun k hk _ => ⟨m', le_rfl, ?_⟩))
      · by_contra hne
        obtain ⟨v, hv⟩ := Option.ne_none_iff_exists'.1 hne
        exact absurd (h k' v hk' hv) (by simp)
      · by_contra hne
        obtain ⟨v, hv⟩ := Option.ne_none_iff_exists'.1 hne
        exact lt_irrefl _ (lt_of_lt_of_le hk (h3 (k, v) (BMap.mem_entries.2 hv)))
    | cons e l ih =>
      intro cur hp i1 hc i2
      obtain ⟨k, v⟩ := e
      obtain ⟨hlt, hp⟩ := List.pairwise_cons.1 hp
      obtain ⟨ha, hv⟩ := i1 _ List.mem_cons_self
      refine .next le_rfl ha rfl hv (fun k' hk' hlt' _ => ⟨m, le_rfl, le_rfl, ?_⟩) (ih (some k) hp (fun e he => ?_) ?_ ?_)
      · by_contra hne
        obtain ⟨v', hv'⟩ := Option.ne_none_iff_exists'.1 hne
        rcases List.mem_cons.1 (i2 k' v' hk' hv') with h | h
        · cases h
          exact lt_irrefl _ hlt'
        · exact lt_irrefl _ (lt_trans hlt' (hlt _ h))
      · exact ⟨hlt _ he, (i1 e (List.mem_cons_of_mem _ he)).2⟩
      · exact h1 (k, v) (BMap.mem_entries.2 hv)
      · intro k' v' hk' hv'
        rcases List.mem_cons.1 (i2 k' v' (ha.trans hk') hv') with h | h
        · cases h
          exact absurd hk' (lt_irrefl _)
        · exact h
  refine key _ none ?_ (fun e he => ⟨trivial, BMap.mem_entries.1 he⟩) trivial (fun k v _ hv => BMap.mem_entries.2 hv)
  have := (T m).range_sorted whole
  rwa [range_all] at this

theorem ends_reading : Reading (since endsCourse 0 4) .SPO whole endsSeen := by
  refine ⟨?_, ?_⟩
  · have := scan_two (fun m => (since endsCourse 0 4 m).tree .SPO) (m := 0) (m' := 4) (Nat.zero_le _)
      (k1 := (encodeSpo (⟨9, 9, 9⟩ : Triple U64)).1) (v1 := (toBeBytes (101 : U64)).1) (by decide +kernel) (by decide +kernel) (by decide +kernel)
    refine cast ?_ this
    congr 1
  · intro e he
    rcases List.mem_append.1 he with he | he
    · obtain ⟨e, -, rfl⟩ := List.mem_map.1 he
      exact Nat.zero_le _
    · rw [List.mem_singleton.1 he]

/-- What the iteration returns was there at no moment: the last edge was never there without the first one.  So the places differ. -/
theorem C91_moment_violated : DistinctIds db0 (calls ends) ∧ Course false endsCourse 4 ∧ endsCourse 0 = endsStart ∧
    Reading (since endsCourse 0 4) .SPO whole endsSeen ∧
    endsSeen.map (fun e => edgeItem U64 Sample.uc (since endsCourse 0 4 e.look) .SPO (e.key, e.id)) =
      [.ok (⟨1, 5, 2⟩, 4), .ok (⟨2, 2, 2⟩, 3), .ok (⟨2, 5, 9⟩, 8), .ok (⟨9, 9, 9⟩, 71)] ∧
    ∀ k ≤ 4, .ok (⟨9, 9, 9⟩, 71) ∈ iterEdges U64 Sample.uc (endsCourse k).1 .SPO →
      .ok (⟨1, 1, 1⟩, 70) ∈ iterEdges U64 Sample.uc (endsCourse k).1 .SPO := by
  refine ⟨ends_distinct, endsCourse_course, rfl, ends_reading, by decide +kernel, fun k hk => ?_⟩
  have : ∀ k ∈ List.range 5, .ok (⟨9, 9, 9⟩, 71) ∈ iterEdges U64 Sample.uc (endsCourse k).1 .SPO →
      .ok (⟨1, 1, 1⟩, 70) ∈ iterEdges U64 Sample.uc (endsCourse k).1 .SPO := by decide +kernel
  exact this k (List.mem_range.2 (by omega))

/-! ## examples -/

/-- In this history the first edge is missed at a moment before it is inserted, and the last one found after that. -/
example (G : Graph U64 Nat Nat) (hG : Shows (Sample.sstore.obs Sample.uc) G) :
    ∃ h cut H, Tells false (PieceCall.prog Sample.uc Sample.mN Sample.mE) (fun y => y.1.acts)
        (LooseStep Sample.uc.okN Sample.uc.okE Sample.mN Sample.mE (FromRaced (calls ends)) (ToRaced (calls ends)))
        (ShowsBut Sample.uc (ToRaced (calls ends))) G ends endsCourse 4 h cut H ∧
      ∃ k k', (H (cut k)).edges ⟨1, 1, 1⟩ = none ∧ (H (cut k')).edges ⟨9, 9, 9⟩ = some 71 ∧ cut k ≤ cut k' := by
  obtain ⟨h, cut, H, ht, hr⟩ := C91_store Sample.uc_rt (.inr Sample.uc_total) db0_reach hG ends_noScan ends_distinct endsCourse_course rfl
  obtain ⟨r, place, e1, -, -, hp⟩ := (hr 4 le_rfl).edges 0 (by omega) .SPO whole endsSeen ends_reading
  rw [C91_moment_violated.2.2.2.2.1] at e1
  have hr' : r = [(⟨1, 5, 2⟩, some 4), (⟨2, 2, 2⟩, some 3), (⟨2, 5, 9⟩, some 8), (⟨9, 9, 9⟩, some 71)] := by
    have back : ∀ {y : Triple U64 × Option Nat} {t p}, .ok (t, p) = itemFor y → y = (t, some p) := by
      rintro ⟨t', v⟩ t p h
      cases v with
      | none => cases h
      | some v => cases h; rfl
    clear hp
    have hl := congrArg List.length e1
    rw [List.length_map] at hl
    rcases r with _ | ⟨a, _ | ⟨b, _ | ⟨c, _ | ⟨d, _ | ⟨e, r⟩⟩⟩⟩⟩
    · cases hl
    · cases hl
    · cases hl
    · cases hl
    · simp only [List.map_cons, List.map_nil, List.cons.injEq] at e1
      rw [back e1.1, back e1.2.1, back e1.2.2.1, back e1.2.2.2.1]
    · simp at hl
  subst hr'
  refine ⟨h, cut, H, ht, place ⟨1, 1, 1⟩, place ⟨9, 9, 9⟩, hp.unlisted _ rfl (.inl rfl) (by simp), ?_, ?_⟩
  · obtain ⟨v, h1, h2⟩ := (hp.listed ⟨9, 9, 9⟩ (some 71) (by simp)).2 (.inl rfl)
    rcases h2 with h2 | h2
    · cases h2
    · rw [h1, h2]
  · have mono := (C91_order ht le_rfl (l := [(⟨1, 1, 1⟩, none), (⟨9, 9, 9⟩, some 71)]) (place := place) (lt := edgeLT .SPO)
      (g := fun k t => (H (cut k)).edges t) (a := 0) (within := fun t => t = ⟨1, 1, 1⟩ ∨ t = ⟨9, 9, 9⟩) (sure := fun _ => False) ?_).1
    · simpa using mono
    · refine ⟨hp.time, by simp [edgeLT, lex3], ?_, fun _ _ h => h.elim, ?_⟩
      · intro k r hk
        simp only [List.mem_cons, Prod.mk.injEq, List.not_mem_nil, or_false] at hk
        exact ⟨hk.imp And.left And.left, fun h => h.elim⟩
      · intro k k' hk hk' hlt _
        refine hp.order k k' rfl rfl hlt ?_
        rcases hk with rfl | rfl
        · rcases hk' with rfl | rfl
          · exact absurd hlt (edgeLT_irrefl _ _)
          · exact .inr ⟨some 71, by simp⟩
        · exact .inl ⟨some 71, by simp⟩

/-- any schedule of calls that race, and any readers -/
example (G : Graph U64 Nat Nat) (hG : Shows (Sample.sstore.obs Sample.uc) G) :
    ∃ h cut H, Tells false (PieceCall.prog Sample.uc Sample.mN Sample.mE) (fun y => y.1.acts)
        (LooseStep Sample.uc.okN Sample.uc.okE Sample.mN Sample.mE (FromRaced (calls bulk)) (ToRaced (calls bulk)))
        (ShowsBut Sample.uc (ToRaced (calls bulk))) G bulk (fun k => ((bulkTurns.take 13).take k).foldl turn bulkStart) 13 h cut H ∧
      ∀ e ≤ 13, Readers Sample.uc (calls bulk) (ToRaced (calls bulk)) (fun k => ((bulkTurns.take 13).take k).foldl turn bulkStart) e
        (fun k => H (cut k)) :=
  C91_store Sample.uc_rt (.inr Sample.uc_total) db0_reach hG bulk_noScan bulk_distinct
    (course_turns _ (bulkTurns.take 13) (by decide +kernel)) rfl

/-- An iteration that ends at the moment 5, and another one from there on: one history, and the second one has later places in it. -/
example (G : Graph U64 Nat Nat) (hG : Shows (Sample.sstore.obs Sample.uc) G) {o o' : EdgeOrder} {b b' : Bound Bytes × Bound Bytes}
    {l l' : List Seen} (x : Nat → Db × List (List (Prog Db Unit)))
    (hx : x = fun k => ((bulkTurns.take 13).take k).foldl turn bulkStart) (h1 : Reading (since x 0 5) o b l)
    (h2 : Reading (since x 5 13) o' b' l') :
    ∃ (r r' : List (Triple U64 × Option Nat)) (at1 at2 : Triple U64 → Nat),
      l.map (fun e => edgeItem U64 Sample.uc (since x 0 5 e.look) o (e.key, e.id)) = r.map itemFor ∧
      l'.map (fun e => edgeItem U64 Sample.uc (since x 5 13 e.look) o' (e.key, e.id)) = r'.map itemFor ∧ ∀ t t', at1 t ≤ at2 t' := by
  obtain ⟨h, cut, H, ht, hr⟩ := C91_store Sample.uc_rt (.inr Sample.uc_total) db0_reach hG bulk_noScan bulk_distinct
    (x := x) (N := 13) (hx ▸ course_turns bulkStart (bulkTurns.take 13) (by decide +kernel)) (by rw [hx]; rfl)
  obtain ⟨r, place, e1, -, -, e2⟩ := (hr 5 (by decide)).edges 0 (by omega) o b l h1
  obtain ⟨r', place', e3, -, -, e4⟩ := (hr 13 le_rfl).edges 5 (by omega) o' b' l' h2
  exact ⟨r, r', fun t => cut (place t), fun t => cut (place' t), e1, e3, fun t t' => C91_later ht e2 e4 le_rfl le_rfl t t'⟩

/-- transactions in parts -/
example (G : Graph U64 Nat Nat) (hG : Shows (Sample.sstore.obs Sample.uc) G) :
    ∃ (y : Nat → Db × List (Tx.Thread Db DbTree SErr Unit)) (N : Nat) (g : Nat → Graph U64 Nat Nat), (y N).1 = cleared ∧
      Tx.Course (Closure (Id := U64) Sample.uc Sample.mN Sample.mE) false y N ∧
      y 0 = (db0, (clear.map (List.map (PieceCall.prog Sample.uc Sample.mN Sample.mE))).map Tx.idle) ∧
      Readers Sample.uc (calls clear) (ToRaced (calls clear)) y N g := by
  obtain ⟨rest, h1, h2⟩ := C86_final.2 clear_final
  obtain ⟨y, N, hC, h0, hN⟩ := course_of_fine h1
  obtain ⟨x, M, φ, h, cut, H, ht, -, -, hr⟩ := C91_fine Sample.uc_rt (.inr Sample.uc_total) db0_reach hG
    (by
      simp only [clear, List.mem_cons, List.not_mem_nil, or_false, forall_eq_or_imp, forall_eq]
      exact ⟨⟨id, id, id⟩, id, id, id, id⟩)
    ⟨by decide +kernel, by decide +kernel⟩ hC h0
  exact ⟨y, N, _, by rw [hN], hC, h0, hr N le_rfl⟩

end Verif.Props
