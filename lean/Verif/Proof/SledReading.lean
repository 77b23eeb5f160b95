import Verif.Proof.SledScan
import Verif.Proof.SledRead

/-! # Traversals of a tree that changes -/

set_option linter.unusedSectionVars false

namespace Verif

open Spec ConcreteId

variable {Id NP EP E : Type} [LinearOrder Id] [ConcreteId Id] [LawfulId Id]

namespace Sled

open Db

/-! ## traversals -/

section

variable {T : Nat → Tree} {b : Bound Bytes × Bound Bytes} {m : Nat} {cur : Option Bytes} {l : List (Nat × Bytes × Bytes)}

theorem After.trans {k k' : Bytes} (h : After cur k) (h' : k < k') : After cur k' := by
  cases cur with
  | none => trivial
  | some k0 => exact lt_trans (show k0 < k from h) h'

theorem Scan.mem (h : Scan T b m cur l) : ∀ e ∈ l, m ≤ e.1 ∧ After cur e.2.1 ∧ Bound.contains b e.2.1 = true ∧
    (T e.1).get e.2.1 = some e.2.2 := by
  induction h with
  | done => simp
  | next hm hk hb hv h rest ih =>
    intro e he
    rcases List.mem_cons.1 he with rfl | he
    · exact ⟨hm, hk, hb, hv⟩
    · obtain ⟨h1, h2, h3⟩ := ih e he
      exact ⟨hm.trans h1, hk.trans h2, h3⟩

theorem Scan.sorted (h : Scan T b m cur l) : l.Pairwise (fun x y => x.2.1 < y.2.1) := by
  induction h with
  | done => exact .nil
  | next hm hk hb hv h rest ih => exact List.pairwise_cons.2 ⟨fun e he => (rest.mem e he).2.1, ih⟩

/-- one moment after another -/
theorem Scan.times (h : Scan T b m cur l) : l.Pairwise (fun x y => x.1 ≤ y.1) := by
  induction h with
  | done => exact .nil
  | next hm hk hb hv h rest ih => exact List.pairwise_cons.2 ⟨fun e he => (rest.mem e he).1, ih⟩

theorem Scan.complete (h : Scan T b m cur l) {k : Bytes} (hk : After cur k) (hb : Bound.contains b k = true)
    (hT : ∀ m', m ≤ m' → (T m').get k ≠ none) : ∃ e ∈ l, e.2.1 = k := by
  induction h with
  | done h =>
    obtain ⟨m', h1, h2⟩ := h k hk hb
    exact absurd h2 (hT m' h1)
  | @next m m' cur k' v l hm hk' hb' hv h rest ih =>
    rcases lt_trichotomy k k' with hlt | rfl | hlt
    · obtain ⟨m'', h1, h2, h3⟩ := h k hk hlt hb
      exact absurd h3 (hT m'' h1)
    · exact ⟨_, List.mem_cons_self, rfl⟩
    · obtain ⟨e, he, h⟩ := ih hlt (fun m'' h => hT m'' (hm.trans h))
      exact ⟨e, List.mem_cons_of_mem _ he, h⟩

/-- if nobody writes, this is the range -/
theorem Scan.still {t : Tree} (h : Scan (fun _ => t) b m cur l) (hc : cur = none) : l.map Prod.snd = t.range b := by
  refine sorted_ext ?_ (t.range_sorted b) (fun e => ?_)
  · rw [List.pairwise_map]
    exact h.sorted
  · obtain ⟨k, v⟩ := e
    rw [BMap.mem_range, List.mem_map]
    constructor
    · rintro ⟨⟨m', k', v'⟩, he, e⟩
      cases e
      exact ⟨(h.mem _ he).2.2.2, (h.mem _ he).2.2.1⟩
    · rintro ⟨h1, h2⟩
      obtain ⟨⟨m', k', v'⟩, he, e⟩ := h.complete (by rw [hc]; trivial) h2 (fun _ _ => by rw [h1]; simp)
      have e : k' = k := e
      subst e
      have h3 : t.get k' = some v' := (h.mem _ he).2.2.2
      rw [h1] at h3
      cases h3
      exact ⟨_, he, rfl⟩

/-- everything may be read at one moment -/
theorem scan_at (T : Nat → Tree) (b : Bound Bytes × Bound Bytes) (m : Nat) :
    Scan T b m none (((T m).range b).map (fun e => (m, e))) := by
  have key : ∀ (l : List (Bytes × Bytes)) (cur : Option Bytes), l.Pairwise (fun a b => a.1 < b.1) →
      (∀ e ∈ l, After cur e.1 ∧ Bound.contains b e.1 = true ∧ (T m).get e.1 = some e.2) →
      (∀ k v, After cur k → Bound.contains b k = true → (T m).get k = some v → (k, v) ∈ l) →
      Scan T b m cur (l.map (fun e => (m, e))) := by
    intro l
    induction l with
    | nil =>
      intro cur _ _ h
      refine .done (fun k hk hb => ⟨m, le_rfl, ?_⟩)
      by_contra hne
      obtain ⟨v, hv⟩ := Option.ne_none_iff_exists'.1 hne
      exact absurd (h k v hk hb hv) (by simp)
    | cons e l ih =>
      intro cur hp h1 h2
      obtain ⟨k, v⟩ := e
      obtain ⟨hlt, hp⟩ := List.pairwise_cons.1 hp
      obtain ⟨ha, hb, hv⟩ := h1 _ List.mem_cons_self
      refine .next le_rfl ha hb hv (fun k' hk' hlt' hb' => ⟨m, le_rfl, le_rfl, ?_⟩) (ih (some k) hp (fun e he => ?_) ?_)
      · by_contra hne
        obtain ⟨v', hv'⟩ := Option.ne_none_iff_exists'.1 hne
        rcases List.mem_cons.1 (h2 k' v' hk' hb' hv') with h | h
        · cases h
          exact lt_irrefl _ hlt'
        · exact lt_irrefl _ (lt_trans hlt' (hlt _ h))
      · exact ⟨hlt _ he, (h1 e (List.mem_cons_of_mem _ he)).2⟩
      · intro k' v' hk' hb' hv'
        rcases List.mem_cons.1 (h2 k' v' (ha.trans hk') hb' hv') with h | h
        · cases h
          exact absurd hk' (lt_irrefl _)
        · exact h
  exact key _ none ((T m).range_sorted b) (fun e he => ⟨trivial, (BMap.mem_range.1 he).2, (BMap.mem_range.1 he).1⟩)
    (fun k v _ hb hv => BMap.mem_range.2 ⟨hv, hb⟩)

theorem contains_all (k : Bytes) : Bound.contains (.unbounded, .unbounded) k = true := rfl

theorem contains_boundBytes {n : Nat} (b : Bound (ByteArr n) × Bound (ByteArr n)) (k : ByteArr n) :
    Bound.contains (boundBytes b) k.1 = Bound.contains b k := by
  obtain ⟨l, u⟩ := b
  cases l <;> cases u <;> rfl

theorem rangeArr_eq {n : Nat} (t : Tree) (b : Bound (ByteArr n) × Bound (ByteArr n)) : t.rangeArr b = t.range (boundBytes b) := rfl

theorem range_all (t : Tree) : t.range (.unbounded, .unbounded) = t.entries := by
  unfold BMap.range
  exact List.filter_eq_self.2 (fun _ _ => rfl)

end

/-! ## readings of an ordering -/

variable {c : Codecs NP EP}

theorem decoder_eq (o : EdgeOrder) : decoder (Id := Id) o = decOf o := by cases o <;> rfl

theorem edgeItem_enc (c : Codecs NP EP) (d : Db) (o : EdgeOrder) (t : Triple Id) (v : Bytes) :
    edgeItem Id c d o ((encOf o t).1, v) =
      match d.edgeProps.get v with
      | none => .error .missing
      | some b =>
        match c.e.de b with
        | none => .error .serialization
        | some p => .ok (t, p) := by
  unfold edgeItem
  rw [decoder_eq, decodeEntry_enc]
  dsimp only
  unfold getData
  cases d.edgeProps.get v with
  | none => rfl
  | some b =>
    dsimp only
    cases c.e.de b <;> rfl

theorem edgeItem_eq (c : Codecs NP EP) (d : Db) (o : EdgeOrder) :
    iterEdges Id c d o = (d.tree o).entries.map (edgeItem Id c d o) := by
  unfold iterEdges
  rw [orderedEdges_eq, List.map_map]
  refine List.map_congr_left (fun e _ => ?_)
  unfold edgeItem
  rw [decoder_eq]
  rfl

theorem vertexItem_eq (c : Codecs NP EP) (d : Db) : iterVertices Id c d = d.nodeProps.entries.map (vertexItem Id c) := by
  unfold iterVertices
  refine List.map_congr_left (fun e _ => ?_)
  unfold vertexItem
  rfl

variable {D : Nat → Db} {o : EdgeOrder} {b : Bound Bytes × Bound Bytes} {l : List Seen}

theorem Reading.mem (h : Reading D o b l) {x : Seen} (hx : x ∈ l) :
    Bound.contains b x.key = true ∧ ((D x.scan).tree o).get x.key = some x.id := by
  obtain ⟨-, -, h1, h2⟩ := h.scan.mem _ (List.mem_map.2 ⟨x, hx, rfl⟩)
  exact ⟨h1, h2⟩

theorem Reading.sorted (h : Reading D o b l) : l.Pairwise (fun x y => x.key < y.key) := by
  have := h.scan.sorted
  rw [List.pairwise_map] at this
  exact this

theorem Reading.once (h : Reading D o b l) {x y : Seen} (hx : x ∈ l) (hy : y ∈ l) (e : x.key = y.key) : x = y := by
  have hn : (l.map Seen.key).Nodup := by
    unfold List.Nodup
    rw [List.pairwise_map]
    exact h.sorted.imp (fun h => ne_of_lt h)
  exact List.inj_on_of_nodup_map hn hx hy e

theorem Reading.complete (h : Reading D o b l) {k : Bytes} (hb : Bound.contains b k = true)
    (hT : ∀ m, ((D m).tree o).get k ≠ none) : ∃ x ∈ l, x.key = k := by
  obtain ⟨e, he, hk⟩ := h.scan.complete (k := k) trivial hb (fun m _ => hT m)
  obtain ⟨x, hx, rfl⟩ := List.mem_map.1 he
  exact ⟨x, hx, hk⟩

variable {d0 : Db} {threads : List (List (Call E Id NP EP))} {mN : NP → NP → NP} {mE : EP → EP → EP}

/-- an entry in the database `d`, its record in a later one -/
theorem Later.entry {Own : Bytes → Triple Id → Prop} {K : Triple Id → Prop} {M : Id → Prop} {d d' : Db} {H H' : Bytes → Option Bytes}
    (hi : Hist c Own K d H) (hi' : Hist c Own K d' H') (hl : Later Own K M d d' H H') {k v : Bytes} (hk : (d.tree o).get k = some v) :
    ∃ t : Triple Id, k = (encOf o t).1 ∧ d.idIn o t = some v ∧
      (d'.edgeProps.get v = none ∧ ¬ K t ∨
      ∃ b p, d'.edgeProps.get v = some b ∧ c.e.de b = some p ∧ d.view c o t = some p) := by
  obtain ⟨t, ht⟩ := hi.neat.keys o _ _ hk
  have hid : d.idIn o t = some v := by
    unfold Db.idIn
    rw [← ht]
    exact hk
  refine ⟨t, ht, hid, ?_⟩
  cases hb : d'.edgeProps.get v with
  | none =>
    refine .inl ⟨rfl, fun hK => ?_⟩
    obtain ⟨b, hb'⟩ := hi.kept t hK o v hid
    have := hl.recs t hK v b (hi.neat.refs o t _ hid) hb'
    rw [hb] at this
    cases this
  | some b =>
    obtain ⟨p, hp⟩ := hi'.neat.recs _ t _ (hi.neat.refs o t _ hid) hb
    refine .inr ⟨b, p, rfl, hp, ?_⟩
    have : d.edgeProps.get v = some b := by
      cases e : d.edgeProps.get v with
      | none =>
        have := hl.gone v (hi.used o t _ hid) e
        rw [hb] at this
        cases this
      | some b' =>
        have h1 := hl.mono _ _ (hi.recs _ _ e)
        rw [hi'.recs _ _ hb] at h1
        exact h1.symm
    unfold view
    rw [hid]
    simp [this, hp]

/-- an entry read at one moment, its record at a later one -/
theorem entry_item (hc : c.RoundTrip) (h0 : d0.Inv Id c) (hd : DistinctIds d0 threads) (hs : ScansOf d0 threads)
    (hm : Moments c mN mE d0 threads D) {m m' : Nat} (hmm : m ≤ m') {k v : Bytes} (hk : ((D m).tree o).get k = some v) :
    ∃ t : Triple Id, k = (encOf o t).1 ∧ (D m).idIn o t = some v ∧
      ((D m').edgeProps.get v = none ∧ ¬ OnlyInserted threads t ∨
      ∃ b p, (D m').edgeProps.get v = some b ∧ c.e.de b = some p ∧ (D m).view c o t = some p) := by
  obtain ⟨H, H', hi, hi', hl⟩ := hist_moments hc h0 hd hs hm hmm
  exact hl.entry hi hi' hk

/-- one entry of a reading -/
theorem Reading.item (hc : c.RoundTrip) (h0 : d0.Inv Id c) (hd : DistinctIds d0 threads) (hs : ScansOf d0 threads)
    (hm : Moments c mN mE d0 threads D) (h : Reading D o b l) {x : Seen} (hx : x ∈ l) :
    ∃ t : Triple Id, x.key = (encOf o t).1 ∧ (D x.scan).idIn o t = some x.id ∧
      (edgeItem Id c (D x.look) o (x.key, x.id) = .error .missing ∧ ¬ OnlyInserted threads t ∨
      ∃ p, edgeItem Id c (D x.look) o (x.key, x.id) = .ok (t, p) ∧ (D x.scan).view c o t = some p) := by
  obtain ⟨t, ht, hid, h⟩ := entry_item hc h0 hd hs hm (h.later x hx) (h.mem hx).2
  refine ⟨t, ht, hid, ?_⟩
  rw [ht, edgeItem_enc]
  rcases h with ⟨h1, h2⟩ | ⟨b, p, h1, h2, h3⟩
  · exact .inl ⟨by simp [h1], h2⟩
  · exact .inr ⟨p, by simp [h1, h2], h3⟩

theorem keys_moments (hc : c.RoundTrip) (h0 : d0.Inv Id c) (hd : DistinctIds d0 threads) (hs : ScansOf d0 threads)
    (hm : Moments c mN mE d0 threads D) (m : Nat) : Neat c (owner d0 (allWrites threads)) (D m) := by
  obtain ⟨H, -, hi, -⟩ := hist_moments hc h0 hd hs hm (le_refl m)
  exact hi.neat

/-- an edge that is only inserted stays -/
theorem kept_moments (hc : c.RoundTrip) (h0 : d0.Inv Id c) (hd : DistinctIds d0 threads) (hs : ScansOf d0 threads)
    (hm : Moments c mN mE d0 threads D) {t : Triple Id} (ht : OnlyInserted threads t) (o : EdgeOrder)
    (h : (D 0).idIn o t ≠ none) (m : Nat) : (D m).idIn o t ≠ none := by
  obtain ⟨H, H', -, -, hl⟩ := hist_moments hc h0 hd hs hm (Nat.zero_le m)
  exact hl.ids t ht o h

theorem keptNode_moments (hc : c.RoundTrip) (h0 : d0.Inv Id c) (hd : DistinctIds d0 threads) (hs : ScansOf d0 threads)
    (hm : Moments c mN mE d0 threads D) {n : Id} (hn : NodeKept threads n)
    (h : (D 0).nodeProps.get (toBeBytes n).1 ≠ none) (m : Nat) : (D m).nodeProps.get (toBeBytes n).1 ≠ none := by
  obtain ⟨H, H', -, -, hl⟩ := hist_moments hc h0 hd hs hm (Nat.zero_le m)
  exact hl.nodes n hn h

theorem steps_trans {x y z : Db × List (List (Prog Db Unit))} (h1 : Steps x y) (h2 : Steps y z) : Steps x z := by
  induction h2 with
  | refl => exact h1
  | tail _ h ih => exact .tail ih h

theorem moments_moment (hm : Moments c mN mE d0 threads D) (m : Nat) : Moment c mN mE d0 threads (D m) := by
  obtain ⟨X, hX0, hX, hD⟩ := hm
  have : Steps (start c mN mE d0 threads) (X m) := by
    induction m with
    | zero => exact hX0
    | succ m ih => exact steps_trans ih (hX m)
  refine ⟨(X m).2, ?_⟩
  rw [hD]
  exact this

/-- the database before the threads start may be among the moments -/
theorem start_moments (hm : Moments c mN mE d0 threads D) : ∃ D' : Nat → Db, Moments c mN mE d0 threads D' ∧ D' 0 = d0 ∧ ∀ m, D' (m + 1) = D m := by
  obtain ⟨X, hX0, hX, hD⟩ := hm
  refine ⟨fun m => match m with | 0 => d0 | m + 1 => D m, ⟨fun m => match m with | 0 => start c mN mE d0 threads | m + 1 => X m,
    .refl _, fun m => ?_, fun m => ?_⟩, rfl, fun _ => rfl⟩
  · cases m with
    | zero => exact hX0
    | succ m => exact hX m
  · cases m with
    | zero => rfl
    | succ m => exact hD m

end Sled

end Verif
