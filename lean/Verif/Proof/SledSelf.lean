import Verif.Model.SledSelf
import Verif.Proof.SledWell

/-! # `extend` and `merge` with another store on the same database -/

set_option linter.unusedSectionVars false

namespace Verif

open Spec ConcreteId

namespace Sled

/-- `for e in l { body(e)?; }` -/
def foldTurns {S X : Type} (body : S → Bytes × Bytes → S × Except X Unit) : S → List (Bytes × Bytes) → S × Except X Unit
  | s, [] => (s, .ok ())
  | s, e :: l =>
    match body s e with
    | (s', .ok ()) => foldTurns body s' l
    | (s', .error x) => (s', .error x)

section loop

variable {S X : Type} {tree : S → Tree} {body : S → Bytes × Bytes → S × Except X Unit} {P : List (Bytes × Bytes) → S → Prop}

/-- The body overwrites the entry it is given and leaves the keys and the other entries of the tree alone. -/
def Overwrites (tree : S → Tree) (body : S → Bytes × Bytes → S × Except X Unit) (P : List (Bytes × Bytes) → S → Prop) : Prop :=
  ∀ e l s s', P (e :: l) s → (tree s).get e.1 = some e.2 → body s e = (s', .ok ()) →
    P l s' ∧ (∀ k, k ≠ e.1 → (tree s').get k = (tree s).get k) ∧ ((tree s').get e.1).isSome

/-- what is still to come -/
structure Todo (tree : S → Tree) (s : S) (last : Option Bytes) (ahead todo : List (Bytes × Bytes)) : Prop where
  sorted : (ahead ++ todo).Pairwise (fun a b => a.1 < b.1)
  get : ∀ e ∈ ahead ++ todo, (tree s).get e.1 = some e.2
  before : ∀ e ∈ todo, Cursor.Before last e.1
  all : ∀ k v, Cursor.Before last k → (tree s).get k = some v → (k, v) ∈ todo
  past : ∀ e ∈ ahead, ¬ Cursor.Before last e.1

theorem Todo.start (s : S) : Todo tree s none [] (tree s).entries where
  sorted := (tree s).sorted
  get e he := BMap.mem_entries.1 he
  before _ _ := trivial
  all _ _ _ h := BMap.mem_entries.2 h
  past _ h := by cases h

theorem Todo.read {s : S} {last : Option Bytes} {ahead l : List (Bytes × Bytes)} {e : Bytes × Bytes}
    (h : Todo tree s last ahead (e :: l)) : Todo tree s (some e.1) (ahead ++ [e]) l where
  sorted := by simpa using h.sorted
  get x hx := h.get x (by simpa using hx)
  before x hx := by
    have := (List.pairwise_append.1 h.sorted).2.1
    exact (List.pairwise_cons.1 this).1 x hx
  all k v hk hv := by
    have hb : Cursor.Before last k := by
      have := h.before e (by simp)
      cases last with
      | none => trivial
      | some k0 => exact lt_trans this hk
    rcases List.mem_cons.1 (h.all k v hb hv) with rfl | h
    · exact absurd hk (lt_irrefl k)
    · exact h
  past x hx := by
    rw [List.mem_append, List.mem_singleton] at hx
    rcases hx with hx | rfl
    · have := (List.pairwise_append.1 h.sorted).2.2 x hx e (by simp)
      exact not_lt.2 this.le
    · exact lt_irrefl x.1

theorem Todo.step {s s' : S} {last : Option Bytes} {ahead todo : List (Bytes × Bytes)} {e : Bytes × Bytes}
    (h : Todo tree s last (e :: ahead) todo) (h1 : ∀ k, k ≠ e.1 → (tree s').get k = (tree s).get k) :
    Todo tree s' last ahead todo where
  sorted := (List.pairwise_cons.1 h.sorted).2
  get x hx := by
    rw [h1 _ (ne_of_gt ((List.pairwise_cons.1 h.sorted).1 x hx))]
    exact h.get x (List.mem_cons_of_mem _ hx)
  before := h.before
  all k v hk hv := by
    refine h.all k v hk ?_
    rw [← h1 k (fun he => h.past e (by simp) (he ▸ hk)), hv]
  past x hx := h.past x (List.mem_cons_of_mem _ hx)

theorem Loop.eq (ho : Overwrites tree body P) {s : S} {cur : Cursor} {out : S × Except X Unit} (h : Loop tree body s cur out)
    {todo : List (Bytes × Bytes)} (ht : Todo tree s cur.last cur.ahead todo) (hp : P (cur.ahead ++ todo) s) :
    out = foldTurns body s (cur.ahead ++ todo) := by
  induction h generalizing todo with
  | @read s ahead last k v out hk hv first rest ih =>
    have hm := ht.all k v hk hv
    cases todo with
    | nil => cases hm
    | cons e l =>
      have h1 : k ≤ e.1 := first e.1 e.2 (ht.before e (by simp)) (ht.get e (by simp))
      have he : e = (k, v) := by
        rcases List.mem_cons.1 hm with rfl | hm
        · rfl
        · have := (List.pairwise_cons.1 (List.pairwise_append.1 ht.sorted).2.1).1 _ hm
          exact absurd this (not_lt.2 h1)
      subst he
      have := ih ht.read (by simpa using hp)
      simpa using this
  | @step s s' e ahead last out hb rest ih =>
    obtain ⟨h1, h2, -⟩ := ho e (ahead ++ todo) s s' hp (ht.get e (by simp)) hb
    have := ih (ht.step h2) h1
    simp only [List.cons_append, foldTurns, hb]
    exact this
  | @fail s s' e ahead last x hb => simp only [List.cons_append, foldTurns, hb]
  | @done s last hd =>
    cases todo with
    | nil => rfl
    | cons e l =>
      have := hd e.1 (ht.before e (by simp))
      rw [ht.get e (by simp)] at this
      cases this

theorem Loop.exists_of_ahead (ho : Overwrites tree body P) {s : S} {last : Option Bytes} {ahead : List (Bytes × Bytes)}
    (ht : Todo tree s last ahead []) (hp : P ahead s) :
    Loop tree body s ⟨ahead, last⟩ (foldTurns body s ahead) := by
  induction ahead generalizing s with
  | nil =>
    refine .done fun k hk => ?_
    cases hv : (tree s).get k with
    | none => rfl
    | some v => cases ht.all k v hk hv
  | cons e l ih =>
    rcases hb : body s e with ⟨s', r⟩
    cases r with
    | error x => simp only [foldTurns, hb]; exact .fail hb
    | ok u =>
      obtain ⟨h1, h2, -⟩ := ho e l s s' hp (ht.get e (by simp)) hb
      simp only [foldTurns, hb]
      exact .step hb (ih (ht.step h2) h1)

theorem Loop.exists_of (ho : Overwrites tree body P) {s : S} {last : Option Bytes} {ahead todo : List (Bytes × Bytes)}
    (ht : Todo tree s last ahead todo) (hp : P (ahead ++ todo) s) :
    Loop tree body s ⟨ahead, last⟩ (foldTurns body s (ahead ++ todo)) := by
  induction todo generalizing ahead last with
  | nil => rw [List.append_nil] at hp ⊢; exact Loop.exists_of_ahead ho ht hp
  | cons e l ih =>
    have h := ih ht.read (by simpa using hp)
    refine .read (k := e.1) (v := e.2) (ht.before e (by simp)) (ht.get e (by simp)) (fun k' v' hk hv => ?_) (by simpa using h)
    rcases List.mem_cons.1 (ht.all k' v' hk hv) with rfl | hm
    · exact le_rfl
    · exact ((List.pairwise_cons.1 (List.pairwise_append.1 ht.sorted).2.1).1 _ hm).le

/-- Whatever is read ahead, the body is applied to the entries the tree had in the beginning. -/
theorem loop_iff (ho : Overwrites tree body P) {s : S} (hp : P (tree s).entries s) {out : S × Except X Unit} :
    Loop tree body s ⟨[], none⟩ out ↔ out = foldTurns body s (tree s).entries := by
  constructor
  · intro h; exact Loop.eq ho h (Todo.start s) hp
  · rintro rfl; exact Loop.exists_of ho (Todo.start s) hp

end loop

section bulk

variable {Id NP EP : Type} [LinearOrder Id] [ConcreteId Id]

/-- `r?; k` -/
def andThen {S X : Type} (r : S × Except X Unit) (k : S → S × Except X Unit) : S × Except X Unit :=
  match r with
  | (s, .ok ()) => k s
  | (s, .error e) => (s, .error e)

theorem foldTurns_cons {S X : Type} (body : S → Bytes × Bytes → S × Except X Unit) (s : S) (e : Bytes × Bytes)
    (l : List (Bytes × Bytes)) : foldTurns body s (e :: l) = andThen (body s e) (fun s' => foldTurns body s' l) := by
  rw [foldTurns, andThen.eq_def]

/-- What `extend` and `merge` have in common.  `K k s G`: the store holds `G`, and there are ids for `k` more edges. -/
structure Bulk (c : Codecs NP EP) (K : Nat → SledStore Id → Graph Id NP EP → Prop)
    (f : SledStore Id → Source SErr Id NP EP → SledStore Id × Except (LR SErr SErr) Unit) : Prop where
  nil : ∀ s, f s ⟨[], []⟩ = (s, .ok ())
  consN : ∀ s x xs ys, f s ⟨x :: xs, ys⟩ = andThen (f s ⟨[x], []⟩) (fun s' => f s' ⟨xs, ys⟩)
  consE : ∀ s y ys, f s ⟨[], y :: ys⟩ = andThen (f s ⟨[], [y]⟩) (fun s' => f s' ⟨[], ys⟩)
  errN : ∀ s e, f s ⟨[.error e], []⟩ = (s, .error (.right e))
  inv : ∀ {k s G}, K k s G → s.db.Inv Id c ∧ s.db.graph c = G
  stepN : ∀ {k s G s' x p}, K k s G → f s ⟨[.ok (x, p)], []⟩ = (s', .ok ()) →
    (∃ G', K k s' G') ∧ ∃ b, s'.db = { s.db with nodeProps := s.db.nodeProps.insert (toBeBytes x).1 b }
  stepE : ∀ {k s G s' t p}, K (k + 1) s G → f s ⟨[], [.ok (t, p)]⟩ = (s', .ok ()) →
    ∃ G', K k s' G' ∧ (∀ u, u ≠ t → G'.edges u = G.edges u) ∧ ∃ v, s'.db.spo = s.db.spo.insert (encodeSpo t).1 v

variable {c : Codecs NP EP} {K : Nat → SledStore Id → Graph Id NP EP → Prop}
  {f : SledStore Id → Source SErr Id NP EP → SledStore Id × Except (LR SErr SErr) Unit}

theorem Bulk.split (hf : Bulk c K f) (s : SledStore Id) (xs : List (Except SErr (Id × NP))) (ys : List (Except SErr (Triple Id × EP))) :
    f s ⟨xs, ys⟩ = andThen (f s ⟨xs, []⟩) (fun s' => f s' ⟨[], ys⟩) := by
  induction xs generalizing s with
  | nil => rw [hf.nil]; rfl
  | cons x xs ih =>
    rw [hf.consN s x xs ys, hf.consN s x xs []]
    rcases f s ⟨[x], []⟩ with ⟨s', r⟩
    cases r with
    | error e => rfl
    | ok u => exact ih s'

theorem Bulk.foldN (hf : Bulk c K f) (s : SledStore Id) (l : List (Bytes × Bytes)) :
    foldTurns (fun s e => f s ⟨[vertexItem Id c e], []⟩) s l = f s ⟨l.map (vertexItem Id c), []⟩ := by
  induction l generalizing s with
  | nil => exact (hf.nil s).symm
  | cons e l ih =>
    rw [List.map_cons, hf.consN, foldTurns_cons]
    congr 1
    funext s'
    exact ih s'

/-- The node loop leaves the edges alone. -/
def SameEdges (d d' : Db) : Prop := d'.spo = d.spo ∧ d'.edgeProps = d.edgeProps

variable [LawfulId Id]

theorem vertexItem_ok {e : Bytes × Bytes} {x : Id} {p : NP} (h : vertexItem Id c e = .ok (x, p)) : e.1 = (toBeBytes x).1 := by
  unfold vertexItem decodeId at h
  cases hd : (tryFromBeBytes e.1 : Option Id) with
  | none => rw [hd] at h; cases h
  | some k =>
    rw [hd] at h
    simp only [] at h
    cases hp : deser c.n e.2 with
    | error y => rw [hp] at h; cases h
    | ok v =>
      rw [hp] at h
      cases h
      exact LawfulId.toBe_try _ _ hd

theorem Bulk.overN (hf : Bulk c K f) (k : Nat) (d : Db) :
    Overwrites (fun s => s.db.nodeProps) (fun s e => f s ⟨[vertexItem Id c e], []⟩)
      (fun _ s => (∃ G, K k s G) ∧ SameEdges d s.db) := by
  rintro e l s s' ⟨⟨G, hK⟩, hd⟩ he hb
  cases hv : vertexItem Id c e with
  | error y => simp only [hv, hf.errN] at hb; cases hb
  | ok x =>
    obtain ⟨x, p⟩ := x
    simp only [hv] at hb
    obtain ⟨h1, b, h2⟩ := hf.stepN hK hb
    have hx := vertexItem_ok hv
    refine ⟨⟨h1, by rw [h2]; exact hd⟩, fun k hk => ?_, ?_⟩
    · simp only [h2]
      rw [BMap.get_insert, if_neg (by rw [← hx]; exact hk)]
    · simp only [h2]
      rw [BMap.get_insert, if_pos hx]
      rfl

theorem Bulk.afterN (hf : Bulk c K f) {k : Nat} {d : Db} (l : List (Bytes × Bytes)) {s s' : SledStore Id}
    (h : (∃ G, K k s G) ∧ SameEdges d s.db) (hr : f s ⟨l.map (vertexItem Id c), []⟩ = (s', .ok ())) :
    (∃ G, K k s' G) ∧ SameEdges d s'.db := by
  induction l generalizing s with
  | nil =>
    rw [List.map_nil, hf.nil] at hr
    cases hr; exact h
  | cons e l ih =>
    rw [List.map_cons, hf.consN] at hr
    rcases hb : f s ⟨[vertexItem Id c e], []⟩ with ⟨s1, r⟩
    rw [hb] at hr
    cases r with
    | error y => cases hr
    | ok u =>
      cases hv : vertexItem Id c e with
      | error y => rw [hv, hf.errN] at hb; cases hb
      | ok x =>
        obtain ⟨⟨G, hK⟩, hd⟩ := h
        rw [hv] at hb
        obtain ⟨h1, b, h2⟩ := hf.stepN hK hb
        exact ih ⟨h1, by rw [h2]; exact hd⟩ hr

theorem intoEdgeItem_of {d : Db} {t : Triple Id} {v : Bytes} {p : EP} (h : d.idIn .SPO t = some v)
    (hp : ((d.graph c : Graph Id NP EP)).edges t = some p) : intoEdgeItem Id c d ((encodeSpo t).1, v) = .ok (t, p) := by
  have h0 : decodeEntry (Id := Id) decodeSpo ((encodeSpo t).1, v) = .ok (t, v) := decodeEntry_enc .SPO t v
  unfold intoEdgeItem
  rw [h0]
  simp only [Db.graph, Db.view, h, Option.bind_some] at hp
  obtain ⟨b, hb, hq⟩ := Option.bind_eq_some_iff.1 hp
  simp only [hb, deser, hq]

/-- what the rest of the edge loop relies on, `d` being the database it began with -/
def EdgesLeft (c : Codecs NP EP) (K : Nat → SledStore Id → Graph Id NP EP → Prop) (d : Db) (l : List (Bytes × Bytes))
    (s : SledStore Id) : Prop :=
  l.Pairwise (fun a b => a.1 < b.1) ∧ ∃ G, K l.length s G ∧ ∀ e ∈ l, ∃ (t : Triple Id) (p : EP), e.1 = (encodeSpo t).1 ∧
    s.db.idIn .SPO t = some e.2 ∧ G.edges t = some p ∧ intoEdgeItem Id c d e = .ok (t, p)

theorem EdgesLeft.item (hf : Bulk c K f) {d : Db} {e : Bytes × Bytes} {l : List (Bytes × Bytes)} {s : SledStore Id}
    (h : EdgesLeft c K d (e :: l) s) : intoEdgeItem Id c s.db e = intoEdgeItem Id c d e := by
  obtain ⟨-, G, hK, hl⟩ := h
  obtain ⟨t, p, h1, h2, h3, h4⟩ := hl e (by simp)
  rw [h4]
  have := intoEdgeItem_of (c := c) h2 (by rw [(hf.inv hK).2]; exact h3)
  rw [← h1] at this
  exact this

theorem EdgesLeft.step (hf : Bulk c K f) {d : Db} {e : Bytes × Bytes} {l : List (Bytes × Bytes)} {s s' : SledStore Id}
    (h : EdgesLeft c K d (e :: l) s) (hb : f s ⟨[], [intoEdgeItem Id c d e]⟩ = (s', .ok ())) :
    EdgesLeft c K d l s' ∧ ∃ v, s'.db.spo = s.db.spo.insert e.1 v := by
  obtain ⟨h0, G, hK, hl⟩ := h
  obtain ⟨t, p, h1, h2, h3, h4⟩ := hl e (by simp)
  rw [h4] at hb
  obtain ⟨G', hK', hG, v, hv⟩ := hf.stepE hK hb
  have h0' := List.pairwise_cons.1 h0
  refine ⟨⟨h0'.2, G', hK', fun e' he' => ?_⟩, v, by rw [hv, h1]⟩
  obtain ⟨t', p', g1, g2, g3, g4⟩ := hl e' (List.mem_cons_of_mem _ he')
  have hne : t' ≠ t := by
    rintro rfl
    have := h0'.1 e' he'
    rw [h1, g1] at this
    exact lt_irrefl _ this
  refine ⟨t', p', g1, ?_, by rw [hG _ hne]; exact g3, g4⟩
  show s'.db.spo.get _ = _
  rw [hv, BMap.get_insert, if_neg]
  · exact g2
  · intro hh
    exact hne ((encOf_inj (o := .SPO)).1 (by exact hh))

theorem Bulk.overE (hf : Bulk c K f) (d : Db) :
    Overwrites (fun s => s.db.spo) (fun s e => f s ⟨[], [intoEdgeItem Id c s.db e]⟩) (EdgesLeft c K d) := by
  intro e l s s' h he hb
  simp only [h.item hf] at hb
  obtain ⟨h1, v, h2⟩ := h.step hf hb
  refine ⟨h1, fun k hk => ?_, ?_⟩
  · simp only [h2]; rw [BMap.get_insert, if_neg hk]
  · simp only [h2]; rw [BMap.get_insert, if_pos rfl]; rfl

theorem Bulk.foldE (hf : Bulk c K f) {d : Db} (l : List (Bytes × Bytes)) {s : SledStore Id} (h : EdgesLeft c K d l s) :
    foldTurns (fun s e => f s ⟨[], [intoEdgeItem Id c s.db e]⟩) s l = f s ⟨[], l.map (intoEdgeItem Id c d)⟩ := by
  induction l generalizing s with
  | nil => exact (hf.nil s).symm
  | cons e l ih =>
    rw [List.map_cons, hf.consE, foldTurns_cons, h.item hf]
    rcases hb : f s ⟨[], [intoEdgeItem Id c d e]⟩ with ⟨s', r⟩
    cases r with
    | error y => rfl
    | ok u => exact ih (h.step hf hb).1

theorem edgesLeft_start (hf : Bulk c K f) {s : SledStore Id} {G : Graph Id NP EP} (hK : K s.db.spo.entries.length s G) :
    EdgesLeft c K s.db s.db.spo.entries s := by
  obtain ⟨hi, hG⟩ := hf.inv hK
  refine ⟨s.db.spo.sorted, G, hK, fun e he => ?_⟩
  have he' := BMap.mem_entries.1 he
  obtain ⟨t, ht⟩ := hi.keys .SPO e.1 e.2 he'
  obtain ⟨b, p, hb, hp⟩ := hi.recs e.1 e.2 he'
  have h2 : s.db.idIn .SPO t = some e.2 := by
    show s.db.spo.get _ = _
    rw [← he', ht]
  have h3 : G.edges t = some p := by
    rw [← hG]
    simp only [Db.graph, Db.view, h2, Option.bind_some, hb, hp]
  refine ⟨t, p, ht, h2, h3, ?_⟩
  have := intoEdgeItem_of (c := c) h2 (by rw [hG]; exact h3)
  have ht' : e = ((encodeSpo t).1, e.2) := Prod.ext ht rfl
  rw [ht']; exact this

theorem intoIterNodes_spo (d : Db) :
    (intoIterNodes c d .SPO : Source SErr Id NP EP) =
      ⟨d.nodeProps.entries.map (vertexItem Id c), d.spo.entries.map (intoEdgeItem Id c d)⟩ := by
  unfold intoIterNodes
  simp only [List.map_map]
  rfl

theorem Bulk.self (hf : Bulk c K f) {s : SledStore Id} {G : Graph Id NP EP} (hK : K s.db.spo.entries.length s G)
    {out : SledStore Id × Except (LR SErr SErr) Unit} :
    Both (fun s => Loop (fun s => s.db.nodeProps) (fun s e => f s ⟨[vertexItem Id c e], []⟩) s ⟨[], none⟩)
      (fun s => Loop (fun s => s.db.spo) (fun s e => f s ⟨[], [intoEdgeItem Id c s.db e]⟩) s ⟨[], none⟩) s out ↔
    out = f s (intoIterNodes c s.db .SPO) := by
  have hN : ∀ o, Loop (fun s => s.db.nodeProps) (fun s e => f s ⟨[vertexItem Id c e], []⟩) s ⟨[], none⟩ o ↔
      o = f s ⟨s.db.nodeProps.entries.map (vertexItem Id c), []⟩ := by
    intro o
    rw [loop_iff (hf.overN s.db.spo.entries.length s.db) ⟨⟨G, hK⟩, rfl, rfl⟩, hf.foldN]
  unfold Both
  simp only [hN]
  rw [intoIterNodes_spo, hf.split s _ (s.db.spo.entries.map _)]
  rcases hr : f s ⟨s.db.nodeProps.entries.map (vertexItem Id c), []⟩ with ⟨s1, r⟩
  cases r with
  | error e =>
    simp only [andThen]
    constructor
    · rintro (⟨s', h, -⟩ | ⟨s', e', h, rfl⟩)
      · cases h
      · exact h
    · rintro rfl
      exact Or.inr ⟨s1, e, rfl, rfl⟩
  | ok u =>
    obtain ⟨⟨G1, hK1⟩, hs, hp⟩ := hf.afterN (d := s.db) _ ⟨⟨G, hK⟩, rfl, rfl⟩ hr
    rw [← hs] at hK1
    have hl := edgesLeft_start hf hK1
    have hE := loop_iff (hf.overE s1.db) hl (out := out)
    rw [hf.foldE _ hl] at hE
    have hi : s1.db.spo.entries.map (intoEdgeItem Id c s1.db) = s.db.spo.entries.map (intoEdgeItem Id c s.db) := by
      rw [hs]
      refine List.map_congr_left fun e _ => ?_
      unfold intoEdgeItem
      rw [hp]
    rw [hi] at hE
    simp only [andThen]
    rw [← hE]
    constructor
    · rintro (⟨s', h, h'⟩ | ⟨s', e', h, rfl⟩)
      · cases h; exact h'
      · cases h
    · intro h
      exact Or.inl ⟨s1, rfl, h⟩

section instances

open SledStore Db

variable {n m : Nat} {F : Bytes → Prop}

theorem extendBulk (hc : c.RoundTrip) :
    Bulk c (fun k s G => Ok c n (m + k) F s G) (fun (s : SledStore Id) src => s.extend c src) where
  nil s := rfl
  consN s x xs ys := by
    cases x with
    | error e => rfl
    | ok x =>
      simp only [SledStore.extend, Sled.extend, extendNodes]
      cases hb : c.n.ser x.2 with
      | none => rfl
      | some b => rfl
  consE s y ys := by
    cases y with
    | error e => rfl
    | ok x =>
      cases hb : c.e.ser x.2 with
      | none => simp only [SledStore.extend, Sled.extend, extendNodes, extendEdges, hb]; rfl
      | some b =>
        simp only [SledStore.extend, Sled.extend, extendNodes, extendEdges_cons hb]
        rfl
  errN s e := rfl
  inv h := ⟨h.inv, h.graph⟩
  stepN {k s G s' x p} h hr := by
    obtain ⟨h1, -⟩ := good_extend (m := m + k) hc ⟨[.ok (x, p)], []⟩ (by exact h)
    rw [hr] at h1
    refine ⟨⟨_, h1⟩, ?_⟩
    cases hb : c.n.ser p with
    | none => simp only [SledStore.extend, Sled.extend, extendNodes, hb, Prog.run] at hr; cases hr
    | some b => simp only [SledStore.extend, Sled.extend, extendNodes, hb, Prog.run] at hr; cases hr; exact ⟨b, rfl⟩
  stepE {k s G s' t p} h hr := by
    obtain ⟨h1, -⟩ := good_extend (m := m + k) hc ⟨[], [.ok (t, p)]⟩ (by exact h)
    rw [hr] at h1
    refine ⟨_, h1, ?_⟩
    cases hb : c.e.ser p with
    | none => simp only [SledStore.extend, Sled.extend, extendNodes, extendEdges, hb, Prog.run] at hr; cases hr
    | some b =>
      refine ⟨fun u hu => ?_, ?_⟩
      · simp [both, takeIn, storeEdge, Codecs.okE, hb, Graph.insertEdge, hu]
      · simp only [SledStore.extend, Sled.extend, extendNodes] at hr
        rw [extendEdges_cons (x := (t, p)) hb] at hr
        cases hr
        exact ⟨_, rfl⟩

theorem mergeBulk (hc : c.RoundTrip) (mN : NP → NP → NP) (mE : EP → EP → EP) :
    Bulk c (fun k s G => Ok c (n + k) m F s G) (fun (s : SledStore Id) src => s.merge c mN mE src) where
  nil s := rfl
  consN s x xs ys := by
    cases x with
    | error e => rfl
    | ok x =>
      simp only [SledStore.merge, Sled.merge, mergeNodes, Prog.run_bind]
      rcases (mergeNode c mN x.1 x.2).run s.db with ⟨d, r⟩
      cases r <;> rfl
  consE s y ys := by
    cases y with
    | error e => rfl
    | ok x =>
      simp only [SledStore.merge, Sled.merge, mergeNodes, mergeEdges, Prog.run_bind]
      rcases (mergeEdge c mE (Gen.fresh s.gen).1 x.1 x.2).run s.db with ⟨d, r⟩
      cases r <;> rfl
  errN s e := rfl
  inv h := ⟨h.inv, h.graph⟩
  stepN {k s G s' x p} h hr := by
    obtain ⟨h1, -⟩ := good_merge (n := n + k) hc mN mE ⟨[.ok (x, p)], []⟩ (by exact h)
    rw [hr] at h1
    refine ⟨⟨_, h1⟩, ?_⟩
    simp only [SledStore.merge, Sled.merge, mergeNodes, Prog.run_bind] at hr
    rcases mergeNode_run h.inv mN x p with ⟨-, h2⟩ | ⟨b, -, h2⟩
    · rw [h2] at hr; cases hr
    · rw [h2] at hr; cases hr; exact ⟨b, rfl⟩
  stepE {k s G s' t p} h hr := by
    obtain ⟨h1, -⟩ := good_merge (n := n + k) hc mN mE ⟨[], [.ok (t, p)]⟩ (by exact h)
    rw [hr] at h1
    refine ⟨_, h1, ?_⟩
    simp only [SledStore.merge, Sled.merge, mergeNodes, mergeEdges, Prog.run_bind] at hr
    rcases mergeEdge_run h.inv mE (Gen.fresh s.gen).1 t p with ⟨-, h2⟩ | ⟨b, hb, h2⟩
    · rw [h2] at hr; cases hr
    · rw [h2] at hr
      cases hr
      rw [h.graph] at hb
      refine ⟨fun u hu => ?_, _, rfl⟩
      simp [both, takeIn, storeMergedEdge, storeEdge, Codecs.okE, hb, Graph.insertEdge, hu]

theorem extendSelf_iff (hc : c.RoundTrip) {s : SledStore Id} {G : Graph Id NP EP} (h : Ok c n (m + s.db.spo.entries.length) F s G)
    {out : SledStore Id × Except (LR SErr SErr) Unit} :
    ExtendSelf c s out ↔ out = s.extend c (intoIterNodes c s.db .SPO) :=
  (extendBulk (n := n) (m := m) (F := F) hc).self h

theorem mergeSelf_iff (hc : c.RoundTrip) (mN : NP → NP → NP) (mE : EP → EP → EP) {s : SledStore Id} {G : Graph Id NP EP}
    (h : Ok c (n + s.db.spo.entries.length) m F s G) {out : SledStore Id × Except (LR SErr SErr) Unit} :
    MergeSelf c mN mE s out ↔ out = s.merge c mN mE (intoIterNodes c s.db .SPO) :=
  (mergeBulk (n := n) (m := m) (F := F) hc mN mE).self h

end instances

end bulk

end Sled

end Verif
