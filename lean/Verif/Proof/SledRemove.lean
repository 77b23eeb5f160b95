import Verif.Proof.LinearRely
import Verif.Proof.SledReading
import Verif.Spec.SledRemove

/-! # Concurrent calls, `remove_node` among them, as one sequence of operations -/

set_option linter.unusedSectionVars false

namespace Verif

open Spec ConcreteId

variable {Id NP EP E : Type} [LinearOrder Id] [ConcreteId Id] [LawfulId Id]

namespace Sled

open Db

variable {c : Codecs NP EP} {mN : NP → NP → NP} {mE : EP → EP → EP} {b : Bool} {α : Type}

/-! ## scanning -/

theorem mem_rest {cur : Option Bytes} {l : List (Bytes × Bytes)} {e : Bytes × Bytes} :
    e ∈ rest cur l ↔ e ∈ l ∧ After cur e.1 := by
  cases cur <;> simp [rest, After]

theorem rest_sorted {cur : Option Bytes} {l : List (Bytes × Bytes)} (h : l.Pairwise (fun a b => a.1 < b.1)) :
    (rest cur l).Pairwise (fun a b => a.1 < b.1) := by
  cases cur with
  | none => exact h
  | some k => exact h.filter _

theorem rangeArr_sorted {n : Nat} (t : Tree) (b : Bound (ByteArr n) × Bound (ByteArr n)) :
    (t.rangeArr b).Pairwise (fun a b => a.1 < b.1) := BMap.range_sorted _ _

/-- What is not after the new cursor has been read. -/
theorem mem_take_of_cursor {cur : Option Bytes} {l : List (Bytes × Bytes)} (hl : l.Pairwise (fun a b => a.1 < b.1)) {s : Nat}
    {e : Bytes × Bytes} (he : e ∈ l) (ha : After cur e.1) (hn : ¬ After (cursor cur (l.take s)) e.1) : e ∈ l.take s := by
  rw [← List.take_append_drop s l] at he hl
  rcases List.mem_append.1 he with he | he
  · exact he
  · exfalso
    apply hn
    unfold cursor
    cases h : (l.take s).getLast? with
    | none => exact ha
    | some x => exact (List.pairwise_append.1 hl).2.2 x (List.mem_of_getLast? h) e he

variable (b c mN mE E)

/-- the program does the operations, relying on the role of the call -/
abbrev DoesR (a : Role Id) (p : Prog Db α) (x : Db) (l : List (Op E Id NP EP)) : Prop :=
  EmitsR (Inv Id c) (fun d => d.graph c) (fun G op => (op.step c.okN c.okE mN mE G).1) b
    (fun (a : Role Id) (x y : Db) => (agreeRG Id).rely a (x, ()) (y, ())) (agreeRG Id).par a p x l

variable {b c mN mE E}

theorem relyTrans (a : Role Id) (x y z : Db) (h : (agreeRG Id).rely a (x, ()) (y, ())) (h' : (agreeRG Id).rely a (y, ()) (z, ())) :
    (agreeRG Id).rely a (x, ()) (z, ()) := (agreeRG Id).rely_trans _ _ _ _ h h'

theorem relyRefl (a : Role Id) (x : Db) : (agreeRG Id).rely a (x, ()) (x, ()) := (agreeRG Id).rely_refl _ _

/-- A call that does not need to rely on anything for what it does. -/
theorem doesR_of_does {a : Role Id} {p : Prog Db α} {x : Db} {l : List (Op E Id NP EP)} (hs : (agreeRG Id).Safe p a (x, ()))
    (hd : Does E c mN mE b p l) : DoesR E c mN mE b a p x l := by
  induction p generalizing x l with
  | ret r => exact hd
  | call f k ih =>
    intro s hr hi hi'
    obtain ⟨a', u, ⟨rfl, -, -, h1, -⟩, h2⟩ := hs s () hr hi.toAgree trivial
    obtain ⟨e, l', rfl, h3, h4⟩ := hd s hi hi'
    exact ⟨fun b hb => (h1 b hb trivial).1, e, l', rfl, h3, ih s h2 h4⟩

theorem doesR_scan {a : Role Id} {n : Id} (o : EdgeOrder) {tree : Db → Tree} (htree : ∀ d, tree d = d.tree o)
    (cls : Triple Id → Id) (hb : ∀ t, Bound.contains (keyBounds1 n) (encOf o t) = true ↔ cls t = n)
    (ha : ∀ t, cls t = n → a.removes t) {k : List (Bytes × Bytes) → Prog Db α} {l : List (Op E Id NP EP)} {x0 : Db}
    (hk : ∀ x L, (agreeRG Id).rely a (x0, ()) (x, ()) → (∀ e ∈ L, ∃ t, e.1 = (encOf o t).1 ∧ cls t = n) →
      (∀ t, cls t = n → x.idIn .SPO t ≠ none → ∃ e ∈ L, e.1 = (encOf o t).1) → DoesR E c mN mE b a (k L) x l) :
    ∀ (ss : List Nat) (cur : Option Bytes) (acc : List (Bytes × Bytes)) (x : Db), (agreeRG Id).rely a (x0, ()) (x, ()) →
      (∀ e ∈ acc, ∃ t, e.1 = (encOf o t).1 ∧ cls t = n) →
      (∀ t, cls t = n → x.idIn .SPO t ≠ none → ¬ After cur (encOf o t).1 → ∃ e ∈ acc, e.1 = (encOf o t).1) →
      DoesR E c mN mE b a (scanPieces tree (keyBounds1 n) k ss cur acc) x l := by
  -- an entry of the range
  have entry : ∀ (s : Db), Inv Id c s → ∀ e ∈ (s.tree o).rangeArr (keyBounds1 n), ∃ t : Triple Id, e.1 = (encOf o t).1 ∧ cls t = n := by
    intro s hi e he
    obtain ⟨t, ht⟩ := hi.keys o e.1 e.2 (rangeArr_sub he)
    refine ⟨t, ht, (hb t).1 ?_⟩
    have he' : ((encOf o t).1, e.2) ∈ (s.tree o).rangeArr (keyBounds1 n) := by rw [← ht]; exact he
    exact (mem_rangeArr.1 he').2
  -- an edge in question
  have there : ∀ (s : Db), Inv Id c s → ∀ t, cls t = n → s.idIn .SPO t ≠ none →
      ∃ v, ((encOf o t).1, v) ∈ (s.tree o).rangeArr (keyBounds1 n) := by
    intro s hi t ht hs
    rw [← hi.same o] at hs
    obtain ⟨v, hv⟩ := Option.ne_none_iff_exists'.1 hs
    exact ⟨v, mem_rangeArr.2 ⟨hv, (hb t).2 ht⟩⟩
  intro ss
  induction ss with
  | nil =>
    intro cur acc x hx hg hc s hr hi _
    refine ⟨fun _ _ => relyRefl _ _, [], l, rfl, rfl, ?_⟩
    refine hk s _ (relyTrans _ _ _ _ hx hr) (fun e he => ?_) (fun t ht hs => ?_)
    · rcases List.mem_append.1 he with he | he
      · exact hg e he
      · rw [htree] at he
        exact entry s hi e (mem_rest.1 he).1
    · by_cases haf : After cur (encOf o t).1
      · obtain ⟨v, hv⟩ := there s hi t ht hs
        exact ⟨_, List.mem_append_right _ (mem_rest.2 ⟨by rw [htree]; exact hv, haf⟩), rfl⟩
      · obtain ⟨e, he, h⟩ := hc t ht (fun h => hs (hr t (ha t ht) h)) haf
        exact ⟨e, List.mem_append_left _ he, h⟩
  | cons p ss ih =>
    intro cur acc x hx hg hc s hr hi _
    refine ⟨fun _ _ => relyRefl _ _, [], l, rfl, rfl, ?_⟩
    refine ih _ _ s (relyTrans _ _ _ _ hx hr) (fun e he => ?_) (fun t ht hs hn => ?_)
    · rcases List.mem_append.1 he with he | he
      · exact hg e he
      · have := List.mem_of_mem_take he
        rw [htree] at this
        exact entry s hi e (mem_rest.1 this).1
    · by_cases haf : After cur (encOf o t).1
      · obtain ⟨v, hv⟩ := there s hi t ht hs
        rw [← htree] at hv
        exact ⟨_, List.mem_append_right _ (mem_take_of_cursor (rest_sorted (rangeArr_sorted _ _))
          (mem_rest.2 ⟨hv, haf⟩) haf hn), rfl⟩
      · obtain ⟨e, he, h⟩ := hc t ht (fun h => hs (hr t (ha t ht) h)) haf
        exact ⟨e, List.mem_append_left _ he, h⟩

/-- what the transaction of `remove_node` does -/
theorem dropped_graph {n : Id} {F B : List (Triple Id × Bytes)} {d : Db} (h' : Inv Id c (dropped n F B d))
    (hF : ∀ x ∈ F, x.1.sub = n) (hB : ∀ x ∈ B, x.1.obj = n)
    (hc : ∀ t : Triple Id, t.sub = n ∨ t.obj = n → d.idIn .SPO t ≠ none → t ∈ (F ++ B).map Prod.fst) :
    (dropped n F B d).graph c = (d.graph c).removeNode n := by
  refine Graph.ext' (fun m => ?_) (fun u => ?_)
  · show ((d.nodeProps.erase (toBeBytes n).1).get (toBeBytes m).1).bind c.n.de = if m = n then none else _
    rw [BMap.get_erase]
    by_cases e : m = n
    · rw [if_pos e, if_pos (by rw [e])]; rfl
    · rw [if_neg e, if_neg (fun h => e (toBe_inj.1 h))]; rfl
  · show view c _ .SPO u = if u.sub = n ∨ u.obj = n then none else view c d .SPO u
    have hid := dropped_idIn n F B d .SPO u
    by_cases e : u.sub = n ∨ u.obj = n
    · rw [if_pos e]
      have : (dropped n F B d).idIn .SPO u = none := by
        rw [hid]
        by_cases hu : d.idIn .SPO u = none
        · rw [hu, ite_self]
        · rw [if_pos (hc u e hu)]
      unfold view
      rw [this]
      rfl
    · rw [if_neg e]
      have hn : u ∉ (F ++ B).map Prod.fst := by
        intro hm
        obtain ⟨x, hx, rfl⟩ := List.mem_map.1 hm
        rcases List.mem_append.1 hx with hx | hx
        · exact e (.inl (hF x hx))
        · exact e (.inr (hB x hx))
      rw [if_neg hn] at hid
      unfold view
      rw [hid]
      cases hv : d.idIn .SPO u with
      | none => rfl
      | some v =>
        obtain ⟨w, p, hw, -⟩ := h'.recs _ v (hid.trans hv)
        have hw' : (applyBatch (applyBatch d.edgeProps (F.map Prod.snd)) (B.map Prod.snd)).get v = some w := hw
        simp only [Option.bind_some]
        rw [hw]
        rw [applyBatch_get, applyBatch_get] at hw'
        split at hw'
        · cases hw'
        · split at hw'
          · cases hw'
          · rw [hw']

theorem scanned_ok (n : Id) (F B : List (Triple Id × Bytes)) :
    removeNodeScanned n (F.map (fun x => ((encodeSpo x.1).1, x.2))) (B.map (fun x => ((encodeOsp x.1).1, x.2))) =
      transaction (fun d => .ok (dropped n F B d)) := by
  unfold removeNodeScanned
  rw [forwardBatch_enc, backwardBatch_enc]
  simp only [List.nil_append]
  rfl

theorem doesR_scanned {a : Role Id} {n : Id} {fwd bwd : List (Bytes × Bytes)} {x : Db}
    {k : Except SErr Unit → Prog Db α} {l : List (Op E Id NP EP)} (ha : ∀ t : Triple Id, t.sub = n ∨ t.obj = n → a.removes t)
    (hf : ∀ e ∈ fwd, ∃ t : Triple Id, e.1 = (encodeSpo t).1 ∧ t.sub = n) (hb : ∀ e ∈ bwd, ∃ t : Triple Id, e.1 = (encodeOsp t).1 ∧ t.obj = n)
    (hfc : ∀ t : Triple Id, t.sub = n → x.idIn .SPO t ≠ none → ∃ e ∈ fwd, e.1 = (encodeSpo t).1)
    (hbc : ∀ t : Triple Id, t.obj = n → x.idIn .SPO t ≠ none → ∃ e ∈ bwd, e.1 = (encodeOsp t).1)
    (hk : ∀ r y, DoesR E c mN mE b a (k r) y l) :
    DoesR E c mN mE b a ((removeNodeScanned n fwd bwd).bind k) x (.removeNode n :: l) := by
  obtain ⟨F, rfl⟩ := exists_map_of (fun x : Triple Id × Bytes => ((encodeSpo x.1).1, x.2)) (l := fwd) (fun e he => by
    obtain ⟨t, ht, -⟩ := hf e he
    exact ⟨(t, e.2), Prod.ext ht rfl⟩)
  obtain ⟨B, rfl⟩ := exists_map_of (fun x : Triple Id × Bytes => ((encodeOsp x.1).1, x.2)) (l := bwd) (fun e he => by
    obtain ⟨t, ht, -⟩ := hb e he
    exact ⟨(t, e.2), Prod.ext ht rfl⟩)
  rw [scanned_ok, tx_bind]
  intro s hr hi hi'
  refine ⟨fun b _ t _ hn => ?_, [.removeNode n], l, rfl, ?_, hk _ _⟩
  · show (dropped n F B s).idIn .SPO t = none
    rw [dropped_idIn]
    have hn : s.idIn .SPO t = none := hn
    rw [hn, ite_self]
  · refine dropped_graph hi' (fun y hy => ?_) (fun y hy => ?_) (fun t ht hs => ?_)
    · obtain ⟨t, h1, h2⟩ := hf _ (List.mem_map_of_mem hy)
      rw [(encOf_inj .SPO).1 h1]; exact h2
    · obtain ⟨t, h1, h2⟩ := hb _ (List.mem_map_of_mem hy)
      rw [(encOf_inj .OSP).1 h1]; exact h2
    · have hx : x.idIn .SPO t ≠ none := fun h => hs (hr t (ha t ht) h)
      rw [List.map_append, List.mem_append]
      rcases ht with ht | ht
      · obtain ⟨e, he, h⟩ := hfc t ht hx
        obtain ⟨y, hy, rfl⟩ := List.mem_map.1 he
        rw [← (encOf_inj .SPO).1 h]
        exact .inl (List.mem_map_of_mem hy)
      · obtain ⟨e, he, h⟩ := hbc t ht hx
        obtain ⟨y, hy, rfl⟩ := List.mem_map.1 he
        rw [← (encOf_inj .OSP).1 h]
        exact .inr (List.mem_map_of_mem hy)

theorem scan_bind {β : Type} (tree : Db → Tree) {n : Nat} (bd : Bound (ByteArr n) × Bound (ByteArr n))
    (k : List (Bytes × Bytes) → Prog Db α) (f : α → Prog Db β) (ss : List Nat) (cur : Option Bytes) (acc : List (Bytes × Bytes)) :
    (scanPieces tree bd k ss cur acc).bind f = scanPieces tree bd (fun L => (k L).bind f) ss cur acc := by
  induction ss generalizing cur acc with
  | nil => rfl
  | cons s ss ih =>
    show Prog.call id _ = Prog.call id _
    congr 1
    funext d
    exact ih _ _

theorem doesR_pieces {a : Role Id} {n : Id} (fs bs : List Nat) {k : Except SErr Unit → Prog Db α} {l : List (Op E Id NP EP)}
    (ha : ∀ t : Triple Id, t.sub = n ∨ t.obj = n → a.removes t) (hk : ∀ r y, DoesR E c mN mE b a (k r) y l) (x : Db) :
    DoesR E c mN mE b a ((removeNodePieces fs bs n).bind k) x (.removeNode n :: l) := by
  unfold removeNodePieces
  rw [scan_bind]
  refine doesR_scan .SPO (fun _ => rfl) (fun t => t.sub) (fun t => LawfulId.kb1_spo n t) (fun t ht => ha t (.inl ht))
    (x0 := x) (fun x1 fwd _ hf hfc => ?_) fs none [] x (relyRefl _ _) (by simp) (fun t _ _ h => absurd trivial h)
  rw [scan_bind]
  refine doesR_scan .OSP (fun _ => rfl) (fun t => t.obj) (fun t => LawfulId.kb1_osp n t) (fun t ht => ha t (.inr ht))
    (x0 := x1) (fun x2 bwd h2 hb hbc => ?_) bs none [] x1 (relyRefl _ _) (by simp) (fun t _ _ h => absurd trivial h)
  exact doesR_scanned ha hf hb (fun t ht h => hfc t ht (fun h' => h (h2 t (ha t (.inl ht)) h'))) hbc hk

/-! ## the invariant -/

theorem safe_pieces {a : Role Id} {n : Id} (fs bs : List Nat) {k : Except SErr Unit → Prog Db α}
    (hk : ∀ r x, (agreeRG Id).Safe (k r) a x) (x : Db × Unit) :
    (agreeRG Id).Safe ((removeNodePieces fs bs n).bind k) a x := by
  have scan : ∀ (tree : Db → Tree) (bd : Bound (TKey Id) × Bound (TKey Id)) (j : List (Bytes × Bytes) → Prog Db α),
      (∀ L x, (agreeRG Id).Safe (j L) a x) → ∀ ss cur acc x, (agreeRG Id).Safe (scanPieces tree bd j ss cur acc) a x := by
    intro tree bd j hj ss
    induction ss with
    | nil => exact fun cur acc x => safe_call (fun d h => eff_same h (fun _ => rfl)) (fun d x => hj _ _) x
    | cons s ss ih => exact fun cur acc x => safe_call (fun d h => eff_same h (fun _ => rfl)) (fun d x => ih _ _ _) x
  unfold removeNodePieces
  rw [scan_bind]
  refine scan _ _ _ (fun fwd x => ?_) _ _ _ _
  rw [scan_bind]
  exact scan _ _ _ (fun bwd x => safe_removeNodeScanned hk x) _ _ _ _

theorem safe2_pieces {Own : Bytes → Triple Id → Prop} (hown : ∀ v t u, Own v t → Own v u → t = u) {L : List Bytes} {n : Id}
    (fs bs : List Nat) {k : Except SErr Unit → Prog Db α} (hk : ∀ r x, (soundRG c Own).Safe (k r) L x) (x : Db × (Bytes → Prop)) :
    (soundRG c Own).Safe ((removeNodePieces fs bs n).bind k) L x := by
  have scan : ∀ (o : EdgeOrder) (tree : Db → Tree) (_ : ∀ d, tree d = d.tree o) (bd : Bound (TKey Id) × Bound (TKey Id))
      (j : List (Bytes × Bytes) → Prog Db α),
      (∀ l x, (∀ (t : Triple Id) v, ((encOf o t).1, v) ∈ l → Own v t) → (soundRG c Own).Safe (j l) L x) →
      ∀ ss cur acc x, (∀ (t : Triple Id) v, ((encOf o t).1, v) ∈ acc → Own v t) →
        (soundRG c Own).Safe (scanPieces tree bd j ss cur acc) L x := by
    intro o tree ht bd j hj ss
    induction ss with
    | nil =>
      intro cur acc x ha d X _ hi hL
      refine ⟨L, X, allowed_drop hL hi (fun _ _ _ => id), hj _ _ (fun t v hm => ?_)⟩
      rcases List.mem_append.1 hm with hm | hm
      · exact ha t v hm
      · rw [ht] at hm
        exact (hi.refs o t v (rangeArr_sub (mem_rest.1 hm).1)).2.1
    | cons s ss ih =>
      intro cur acc x ha d X _ hi hL
      refine ⟨L, X, allowed_drop hL hi (fun _ _ _ => id), ih _ _ _ (fun t v hm => ?_)⟩
      rcases List.mem_append.1 hm with hm | hm
      · exact ha t v hm
      · have hm := List.mem_of_mem_take hm
        rw [ht] at hm
        exact (hi.refs o t v (rangeArr_sub (mem_rest.1 hm).1)).2.1
  unfold removeNodePieces
  rw [scan_bind]
  refine scan .SPO _ (fun _ => rfl) _ _ (fun fwd x hf => ?_) _ _ _ _ (by simp)
  rw [scan_bind]
  exact scan .OSP _ (fun _ => rfl) _ _ (fun bwd x hb => safe2_scanned hown hf hb hk x) _ _ _ _ (by simp)

/-- which edges a call writes, and which nobody else may add while it runs -/
def roleN (x : Call E Id NP EP) : Role Id where
  writes t := ∃ v, (v, t) ∈ x.writes
  removes t := x.Removes t ∨ ∃ n, x = .removeNode n ∧ (t.sub = n ∨ t.obj = n)

/-- programs, each with the call it is of -/
abbrev Programs (E Id NP EP : Type) := List (List (Prog Db Unit × Call E Id NP EP))

def Programs.start (ths : Programs E Id NP EP) : List (List (Prog Db Unit)) := ths.map (List.map Prod.fst)

theorem agree_programs {ths : Programs E Id NP EP} {d0 : Db} (h0 : Agree Id d0)
    (safe : ∀ th ∈ ths, ∀ e ∈ th, ∀ y, (agreeRG Id).Safe e.1 (roleN e.2) y)
    (hp : ths.Pairwise (fun th th' => ∀ e ∈ th, ∀ e' ∈ th', (agreeRG Id).par (roleN e.2) (roleN e'.2) ∧
      (agreeRG Id).par (roleN e'.2) (roleN e.2)))
    {y : Db × List (List (Prog Db Unit))} (hs : Steps (d0, ths.start) y) : Agree Id y.1 := by
  have h := (agreeRG Id).good_steps (x := (d0, ths.start)) ⟨(), ths.map (List.map (fun e => (e.1, roleN e.2))), ?_, h0, ?_, ?_⟩ hs
  · obtain ⟨_, _, _, h, _⟩ := h
    exact h
  · simp [Programs.start, Function.comp_def]
  · intro q hq
    obtain ⟨th, hth, rfl⟩ := List.mem_map.1 hq
    have safe := safe th hth
    clear hq hth
    cases th with
    | nil => trivial
    | cons x th =>
      refine ⟨safe x (by simp) _, ?_, List.pairwise_of_forall (fun _ _ => trivial), fun _ _ => trivial⟩
      intro e he y
      obtain ⟨z, hz, rfl⟩ := List.mem_map.1 he
      exact safe z (List.mem_cons_of_mem _ hz) y
  · rw [List.pairwise_map]
    refine hp.imp (fun {th th'} h => ?_)
    intro e he e' he'
    obtain ⟨x, hx, rfl⟩ := List.mem_map.1 he
    obtain ⟨x', hx', rfl⟩ := List.mem_map.1 he'
    exact h x hx x' hx'

/-- the calls of the programs -/
def Programs.calls (ths : Programs E Id NP EP) : List (List (Call E Id NP EP)) := ths.map (List.map Prod.snd)

theorem sound_programs {ths : Programs E Id NP EP} {d0 : Db} (h0 : d0.Inv Id c) (hd : DistinctIds d0 ths.calls)
    (safe : ∀ th ∈ ths, ∀ e ∈ th, ∀ y, (e.2.writes.map Prod.fst).Nodup → (∀ z ∈ e.2.writes, owner d0 (allWrites ths.calls) z.1 z.2) →
      (soundRG c (owner d0 (allWrites ths.calls))).Safe e.1 (e.2.writes.map Prod.fst) y)
    {y : Db × List (List (Prog Db Unit))} (hs : Steps (d0, ths.start) y) :
    ∃ X, Sound c (owner d0 (allWrites ths.calls)) y.1 X := by
  have h := (soundRG c (owner d0 (allWrites ths.calls))).good_steps (x := (d0, ths.start))
    ⟨_, ths.map (List.map (fun e => (e.1, e.2.writes.map Prod.fst))), ?_, start_sound h0, ?_, ?_⟩ hs
  · obtain ⟨X, _, _, h, _⟩ := h
    exact ⟨X, h⟩
  · simp [Programs.start, Function.comp_def]
  · have nd : ∀ th ∈ ths, th.Pairwise (fun x y => ∀ v ∈ x.2.writes.map Prod.fst, v ∉ y.2.writes.map Prod.fst) ∧
        ∀ x ∈ th, (x.2.writes.map Prod.fst).Nodup := by
      intro th hth
      have h1 := hd.1
      unfold allWrites at h1
      rw [List.map_flatMap, List.nodup_flatMap] at h1
      have hth' : th.map Prod.snd ∈ ths.calls := List.mem_map_of_mem hth
      refine ⟨?_, fun x hx => h1.1 x.2 (List.mem_flatten.2 ⟨_, hth', List.mem_map_of_mem hx⟩)⟩
      have h2 := (List.pairwise_flatten.1 h1.2).1 _ hth'
      rw [List.pairwise_map] at h2
      exact h2.imp (fun {a b} hab => fun v hv hv' => hab hv hv')
    have sub : ∀ th ∈ ths, ∀ x ∈ th, ∀ y ∈ x.2.writes, y ∈ allWrites ths.calls := fun th hth x hx y hy =>
      List.mem_flatMap.2 ⟨x.2, List.mem_flatten.2 ⟨_, List.mem_map_of_mem hth, List.mem_map_of_mem hx⟩, hy⟩
    intro q hq
    obtain ⟨th, hth, rfl⟩ := List.mem_map.1 hq
    have safe' : ∀ x ∈ th, ∀ y, (soundRG c (owner d0 (allWrites ths.calls))).Safe x.1 (x.2.writes.map Prod.fst) y := fun x hx y =>
      safe th hth x hx y ((nd th hth).2 x hx) (fun z hz => .inl (sub th hth x hx z hz))
    have unused : ∀ x ∈ th, ∀ v ∈ x.2.writes.map Prod.fst, ¬ ∃ t : Triple Id, d0.idIn .SPO t = some v := by
      rintro x hx v hv ⟨t, ht⟩
      obtain ⟨y, hy, rfl⟩ := List.mem_map.1 hv
      obtain ⟨b, p, hb, -⟩ := h0.recs _ _ ht
      rw [hd.2 y (sub th hth x hx y hy)] at hb
      cases hb
    have np := (nd th hth).1
    clear hq hth safe
    cases th with
    | nil => trivial
    | cons x th =>
      refine ⟨safe' x (by simp) _, ?_, ?_, ?_⟩
      · intro e he y
        obtain ⟨z, hz, rfl⟩ := List.mem_map.1 he
        exact safe' z (List.mem_cons_of_mem _ hz) y
      · rw [← List.map_cons (f := fun e : Prog Db Unit × Call E Id NP EP => (e.1, e.2.writes.map Prod.fst)), List.pairwise_map]
        exact np
      · intro e he
        rw [← List.map_cons (f := fun e : Prog Db Unit × Call E Id NP EP => (e.1, e.2.writes.map Prod.fst))] at he
        obtain ⟨z, hz, rfl⟩ := List.mem_map.1 he
        exact unused z hz
  · rw [List.pairwise_map]
    have h1 := hd.1
    unfold allWrites at h1
    rw [List.map_flatMap, List.nodup_flatMap] at h1
    have h2 := (List.pairwise_flatten.1 h1.2).2
    rw [Programs.calls, List.pairwise_map] at h2
    refine h2.imp (fun {th th'} h => ?_)
    intro e he e' he'
    obtain ⟨x, hx, rfl⟩ := List.mem_map.1 he
    obtain ⟨x', hx', rfl⟩ := List.mem_map.1 he'
    have h := h x.2 (List.mem_map_of_mem hx) x'.2 (List.mem_map_of_mem hx')
    exact ⟨fun v hv hv' => h hv hv', fun v hv hv' => h hv' hv⟩

/-- programs which do what their calls are to do -/
structure Fine (c : Codecs NP EP) (mN : NP → NP → NP) (mE : EP → EP → EP) (b : Bool) (e : Prog Db Unit × Call E Id NP EP) : Prop where
  agree : ∀ y, (agreeRG Id).Safe e.1 (roleN e.2) y
  sound : ∀ (Own : Bytes → Triple Id → Prop), (∀ v t u, Own v t → Own v u → t = u) → (e.2.writes.map Prod.fst).Nodup →
    (∀ z ∈ e.2.writes, Own z.1 z.2) → ∀ y, (soundRG c Own).Safe e.1 (e.2.writes.map Prod.fst) y
  does : ∀ y, DoesR E c mN mE b (roleN e.2) e.1 y e.2.ops

theorem inv_programs {ths : Programs E Id NP EP} {d0 : Db} (h0 : d0.Inv Id c) (hf : ∀ th ∈ ths, ∀ e ∈ th, Fine c mN mE b e)
    (hd : DistinctIds d0 ths.calls)
    (hp : ths.Pairwise (fun th th' => ∀ e ∈ th, ∀ e' ∈ th', (agreeRG Id).par (roleN e.2) (roleN e'.2) ∧
      (agreeRG Id).par (roleN e'.2) (roleN e.2)))
    {y : Db × List (List (Prog Db Unit))} (hs : Steps (d0, ths.start) y) : y.1.Inv Id c := by
  have hown := owner_fun h0 hd.1 hd.2
  obtain ⟨X, h⟩ := sound_programs h0 hd (fun th hth e he y hn ho => (hf th hth e he).sound _ hown hn ho y) hs
  exact { agree_programs h0.toAgree (fun th hth e he => (hf th hth e he).agree) hp hs with
    nodes := h.nodes, recs := h.recsOk _,
    inj := fun t u v ht hu => hown v t u (h.refs _ _ _ ht).2.1 (h.refs _ _ _ hu).2.1 }

theorem lin_programs {ths : Programs E Id NP EP} {d0 : Db} (hf : ∀ th ∈ ths, ∀ e ∈ th, Fine c mN mE b e)
    (hp : ths.Pairwise (fun th th' => ∀ e ∈ th, ∀ e' ∈ th', (agreeRG Id).par (roleN e.2) (roleN e'.2) ∧
      (agreeRG Id).par (roleN e'.2) (roleN e.2))) :
    LinR (Inv Id c) (fun d => d.graph c) (fun G op => (op.step c.okN c.okE mN mE G).1) b
      (fun (a : Role Id) (x y : Db) => (agreeRG Id).rely a (x, ()) (y, ())) (agreeRG Id).par (d0.graph c)
      (ths.calls.map (List.flatMap Call.ops)) (d0, ths.start) := by
  refine ⟨[], ths.map (List.map (fun e => (e.1, roleN e.2, e.2.ops))), by simp [Programs.start, Function.comp_def], ?_, ?_, ?_, rfl⟩
  · intro q hq
    obtain ⟨th, hth, rfl⟩ := List.mem_map.1 hq
    have hf := hf th hth
    cases th with
    | nil => trivial
    | cons x th =>
      refine ⟨(hf x List.mem_cons_self).does _, fun e he y => ?_⟩
      obtain ⟨z, hz, rfl⟩ := List.mem_map.1 he
      exact (hf z (List.mem_cons_of_mem _ hz)).does y
  · rw [List.pairwise_map]
    refine hp.imp (fun {th th'} h => ?_)
    intro e he e' he'
    obtain ⟨x, hx, rfl⟩ := List.mem_map.1 he
    obtain ⟨x', hx', rfl⟩ := List.mem_map.1 he'
    exact h x hx x' hx'
  · have : (ths.map (List.map (fun e => (e.1, roleN e.2, e.2.ops)))).map (List.flatMap (fun e => e.2.2)) =
        ths.calls.map (List.flatMap Call.ops) := by
      simp [Programs.calls, Function.comp_def, List.flatMap_map]
    rw [this]
    exact .refl

/-! ## the calls -/

theorem par_programs {ths : Programs E Id NP EP} (hr : NoRace ths.calls) (hn : NoNodeRace ths.calls) :
    ths.Pairwise (fun th th' => ∀ e ∈ th, ∀ e' ∈ th', (agreeRG Id).par (roleN e.2) (roleN e'.2) ∧
      (agreeRG Id).par (roleN e'.2) (roleN e.2)) := by
  unfold NoRace Programs.calls at hr
  unfold NoNodeRace Programs.calls at hn
  rw [List.pairwise_map] at hr hn
  refine (hr.and hn).imp ?_
  rintro th th' ⟨h1, h2⟩ e he e' he'
  have h1 := h1 _ (List.mem_map_of_mem he) _ (List.mem_map_of_mem he')
  have h2 := h2 _ (List.mem_map_of_mem he) _ (List.mem_map_of_mem he')
  constructor
  · rintro t (ht | ⟨n, hn, ht⟩) ⟨v, hv⟩
    · exact (h1 t).2 ht v hv
    · exact (h2 n t ht).2 hn v hv
  · rintro t (ht | ⟨n, hn, ht⟩) ⟨v, hv⟩
    · exact (h1 t).1 ht v hv
    · exact (h2 n t ht).1 hn v hv

theorem fine_simple (hc : c.RoundTrip) (hb : b = true ∨ c.Total) (x : Call E Id NP EP) (hx : x.Simple) :
    Fine c mN mE b (x.prog c mN mE, x) := by
  have hs : ∀ y, (agreeRG Id).Safe (x.prog c mN mE) (roleN x) y :=
    safe_prog c mN mE (roleN x) x (fun y hy => ⟨y.1, hy⟩) (fun t ht => .inl ht) (simple_extend hx)
  refine ⟨hs, fun Own hown hn ho y => ?_, fun y => doesR_of_does (hs _) (does_prog hc hb x hx)⟩
  refine safe2_prog hc hown mN mE x hn ho (simple_extend hx) ?_ y
  rintro n fwd bwd rfl
  exact hx.elim

theorem fine_pieces (n : Id) (fs bs : List Nat) :
    Fine (E := E) c mN mE b ((removeNodePieces fs bs n).bind (fun _ => .ret ()), .removeNode n) where
  agree y := safe_pieces fs bs (fun _ _ => safe_ret) y
  sound Own hown hn ho y := safe2_pieces hown fs bs (fun _ _ => safe2_ret) y
  does y := doesR_pieces (a := roleN (.removeNode n)) (k := fun _ => .ret ()) (l := []) fs bs (fun t ht => Or.inr ⟨n, rfl, ht⟩)
    (fun _ _ => Or.inr rfl) y

theorem doesR_removeNode {a : Role Id} {n : Id} {k : Except SErr Unit → Prog Db α} {l : List (Op E Id NP EP)}
    (ha : ∀ t : Triple Id, t.sub = n ∨ t.obj = n → a.removes t) (hk : ∀ r y, DoesR E c mN mE b a (k r) y l) (x : Db) :
    DoesR E c mN mE b a ((removeNode n).bind k) x (.removeNode n :: l) := by
  rw [removeNode_eq]
  intro s hr hi hi'
  refine ⟨fun _ _ => relyRefl _ _, [], _, rfl, rfl, ?_⟩
  obtain ⟨F, hF, hF'⟩ := rangeArr_enc (hi.keys .SPO) (keyBounds1 n)
  have hF : s.spo.rangeArr (keyBounds1 n) = F.map (fun x => ((encodeSpo x.1).1, x.2)) := hF
  have hm : ∀ t v, (t, v) ∈ F ↔ s.idIn .SPO t = some v ∧ t.sub = n := fun t v =>
    (hF' t v).trans (and_congr Iff.rfl (LawfulId.kb1_spo n t))
  dsimp only
  rw [hF, forwardBatch_enc]
  dsimp only
  exact doesR_scan .OSP (tree := fun d => d.osp) (fun _ => rfl) (fun t => t.obj) (fun t => LawfulId.kb1_osp n t)
    (fun t ht => ha t (.inr ht)) (x0 := s)
    (k := fun bwd => (removeNodeScanned n (F.map (fun x => ((encodeSpo x.1).1, x.2))) bwd).bind k) (fun x2 bwd h2 hb hbc => by
      refine doesR_scanned ha (fun e he => ?_) hb (fun t ht h => ?_) hbc hk
      · obtain ⟨y, hy, rfl⟩ := List.mem_map.1 he
        exact ⟨y.1, rfl, ((hm y.1 y.2).1 hy).2⟩
      · have hs : s.idIn .SPO t ≠ none := fun h' => h (h2 t (ha t (.inl ht)) h')
        obtain ⟨v, hv⟩ := Option.ne_none_iff_exists'.1 hs
        exact ⟨_, List.mem_map_of_mem ((hm t v).2 ⟨hv, ht⟩), rfl⟩) [] none [] s (relyRefl _ _) (by simp)
    (fun t _ _ h => absurd trivial h)

theorem fine_removeNode (n : Id) : Fine (E := E) c mN mE b ((Call.removeNode n : Call E Id NP EP).prog c mN mE, .removeNode n) where
  agree y := safe_removeNode (fun _ _ => safe_ret) y
  sound Own hown hn ho y := safe2_removeNode hown (fun _ _ => safe2_ret) y
  does y := doesR_removeNode (a := roleN (.removeNode n)) (k := fun _ => .ret ()) (l := []) (fun t ht => Or.inr ⟨n, rfl, ht⟩)
    (fun _ _ => Or.inr rfl) y

theorem lin_programs_moment {ths : Programs E Id NP EP} {d0 d : Db} (h0 : d0.Inv Id c)
    (hf : ∀ th ∈ ths, ∀ e ∈ th, Fine c mN mE true e) (hd : DistinctIds d0 ths.calls) (hr : NoRace ths.calls)
    (hn : NoNodeRace ths.calls) {r : List (List (Prog Db Unit))} (hs : Steps (d0, ths.start) (d, r)) :
    ∃ l, Shuffle true (ths.calls.map (List.flatMap Call.ops)) l ∧ d.Inv Id c ∧
      d.graph c = stepAll c.okN c.okE mN mE (d0.graph c) l := by
  have hp := par_programs hr hn
  have hi : ∀ y, Steps (d0, ths.start) y → y.1.Inv Id c := fun y hy => inv_programs h0 hf hd hp hy
  obtain ⟨l, h1, h2⟩ := (linR_steps relyTrans relyRefl hi (lin_programs hf hp) hs).part
  exact ⟨l, h1, hi _ hs, h2⟩

theorem lin_programs_final {ths : Programs E Id NP EP} {d0 d : Db} (h0 : d0.Inv Id c)
    (hf : ∀ th ∈ ths, ∀ e ∈ th, Fine c mN mE b e) (hd : DistinctIds d0 ths.calls) (hr : NoRace ths.calls)
    (hn : NoNodeRace ths.calls) {r : List (List (Prog Db Unit))} (hs : CalmSteps (d0, ths.start) (d, r))
    (he : ∀ th ∈ r, th = []) :
    ∃ l, Shuffle b (ths.calls.map (List.flatMap Call.ops)) l ∧ d.Inv Id c ∧
      d.graph c = stepAll c.okN c.okE mN mE (d0.graph c) l := by
  have hp := par_programs hr hn
  have hi : ∀ y, Steps (d0, ths.start) y → y.1.Inv Id c := fun y hy => inv_programs h0 hf hd hp hy
  obtain ⟨l, h1, h2⟩ := (linR_calm relyTrans relyRefl hi (lin_programs hf hp) hs).full he
  exact ⟨l, h1, hi _ hs.steps, h2⟩

theorem fine_whole (hc : c.RoundTrip) (hb : b = true ∨ c.Total) (x : Call E Id NP EP) (hx : x.Whole) :
    Fine c mN mE b (x.prog c mN mE, x) := by
  cases x with
  | removeNode n => exact fine_removeNode n
  | removeNodeScan n fwd bwd => exact hx.elim
  | extend u src => exact hx.elim
  | insertNode n p => exact fine_simple hc hb _ trivial
  | insertEdge i t p => exact fine_simple hc hb _ trivial
  | removeEdge t => exact fine_simple hc hb _ trivial
  | mergeNode n p => exact fine_simple hc hb _ trivial
  | mergeEdge i t p => exact fine_simple hc hb _ trivial
  | merge g src => exact fine_simple hc hb _ trivial

theorem fine_piece (hc : c.RoundTrip) (hb : b = true ∨ c.Total) (x : PieceCall E Id NP EP) (hx : x.1.Whole) :
    Fine c mN mE b (x.prog c mN mE, x.1) := by
  obtain ⟨x, fs, bs⟩ := x
  cases x with
  | removeNode n => exact fine_pieces n fs bs
  | removeNodeScan n fwd bwd => exact hx.elim
  | extend u src => exact hx.elim
  | insertNode n p => exact fine_simple hc hb (.insertNode n p) trivial
  | insertEdge i t p => exact fine_simple hc hb (.insertEdge i t p) trivial
  | removeEdge t => exact fine_simple hc hb (.removeEdge t) trivial
  | mergeNode n p => exact fine_simple hc hb (.mergeNode n p) trivial
  | mergeEdge i t p => exact fine_simple hc hb (.mergeEdge i t p) trivial
  | merge g src => exact fine_simple hc hb (.merge g src) trivial

/-! ## while nobody writes -/

theorem rest_cursor {l : List (Bytes × Bytes)} (hl : l.Pairwise (fun a b => a.1 < b.1)) (cur : Option Bytes) (s : Nat) :
    (rest cur l).take s ++ rest (cursor cur ((rest cur l).take s)) l = rest cur l := by
  have hr := rest_sorted (cur := cur) hl
  conv_rhs => rw [← List.take_append_drop s (rest cur l)]
  congr 1
  refine List.Perm.eq_of_pairwise (le := fun a b => a.1 < b.1) (fun a b _ _ h h' => absurd h (lt_asymm h')) (rest_sorted hl) (hr.drop) ?_
  have nd : ∀ {m : List (Bytes × Bytes)}, m.Pairwise (fun a b => a.1 < b.1) → m.Nodup := fun h =>
    h.imp (fun h e => absurd h (by rw [e]; exact lt_irrefl _))
  refine (List.perm_ext_iff_of_nodup (nd (rest_sorted hl)) (nd hr.drop)).2 (fun e => ?_)
  have hta := hr
  rw [← List.take_append_drop s (rest cur l)] at hta
  have hlt := (List.pairwise_append.1 hta).2.2
  have htk := (List.pairwise_append.1 hta).1
  constructor
  · intro he
    obtain ⟨h1, h2⟩ := mem_rest.1 he
    have haf : After cur e.1 := by
      unfold cursor at h2
      cases h : ((rest cur l).take s).getLast? with
      | none => rw [h] at h2; exact h2
      | some x =>
        rw [h] at h2
        have hx := (mem_rest.1 (List.mem_of_mem_take (List.mem_of_getLast? h))).2
        cases cur with
        | none => trivial
        | some k => exact lt_trans hx h2
    have hm : e ∈ rest cur l := mem_rest.2 ⟨h1, haf⟩
    rw [← List.take_append_drop s (rest cur l)] at hm
    rcases List.mem_append.1 hm with hm | hm
    · exfalso
      unfold cursor at h2
      cases h : ((rest cur l).take s).getLast? with
      | none => rw [List.getLast?_eq_none_iff] at h; rw [h] at hm; cases hm
      | some x =>
        rw [h] at h2
        have h2 : x.1 < e.1 := h2
        obtain ⟨ini, hini⟩ := List.getLast?_eq_some_iff.1 h
        rw [hini] at hm htk
        rcases List.mem_append.1 hm with hm | hm
        · exact lt_asymm h2 ((List.pairwise_append.1 htk).2.2 e hm x (by simp))
        · rw [List.mem_singleton] at hm
          rw [hm] at h2
          exact lt_irrefl _ h2
    · exact hm
  · intro he
    obtain ⟨h1, h2⟩ := mem_rest.1 (List.mem_of_mem_drop he)
    refine mem_rest.2 ⟨h1, ?_⟩
    unfold cursor
    cases h : ((rest cur l).take s).getLast? with
    | none => exact h2
    | some x => exact hlt x (List.mem_of_getLast? h) e he

theorem scan_run (tree : Db → Tree) {n : Nat} (bd : Bound (ByteArr n) × Bound (ByteArr n)) (k : List (Bytes × Bytes) → Prog Db α)
    (d : Db) (ss : List Nat) (cur : Option Bytes) (acc : List (Bytes × Bytes)) :
    (scanPieces tree bd k ss cur acc).run d = (k (acc ++ rest cur ((tree d).rangeArr bd))).run d := by
  induction ss generalizing cur acc with
  | nil => rfl
  | cons s ss ih =>
    show (scanPieces tree bd k ss _ _).run d = _
    rw [ih, List.append_assoc, rest_cursor (rangeArr_sorted _ _)]

theorem pieces_run (fs bs : List Nat) (n : Id) (d : Db) : (removeNodePieces fs bs n).run d = (removeNode n).run d := by
  unfold removeNodePieces
  rw [scan_run, scan_run, removeNode_eq]
  show (removeNodeScanned n (d.spo.rangeArr (keyBounds1 n)) (d.osp.rangeArr (keyBounds1 n))).run d = Prog.run (match
    forwardBatch Id ⟨[], [], [], []⟩ (d.spo.rangeArr (keyBounds1 n)) with
    | .error e => .ret (.error e)
    | .ok _ => .call id (fun d2 =>
        removeNodeScanned n (d.spo.rangeArr (keyBounds1 n)) (d2.osp.rangeArr (keyBounds1 n)))) d
  unfold removeNodeScanned
  cases h : forwardBatch Id ⟨[], [], [], []⟩ (d.spo.rangeArr (keyBounds1 n)) with
  | error e => rfl
  | ok fb => rfl

end Sled

end Verif
