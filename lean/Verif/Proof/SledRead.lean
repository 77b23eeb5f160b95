import Verif.Proof.SledQuery

/-! # Reading arbitrary database contents -/

set_option linter.unusedSectionVars false

namespace Verif

open Spec ConcreteId

theorem forall₂_map_self {α β : Type} {R : α → β → Prop} {f : α → β} {l : List α} (h : ∀ a ∈ l, R a (f a)) :
    List.Forall₂ R l (l.map f) := by
  induction l with
  | nil => exact .nil
  | cons a l ih => exact .cons (h a (by simp)) (ih (fun b hb => h b (List.mem_cons_of_mem _ hb)))

variable {Id NP EP E : Type} [LinearOrder Id] [ConcreteId Id] [LawfulId Id]

namespace Sled

open Db

variable {c : Codecs NP EP}

/-- a key is an encoded triple or of the wrong size -/
theorem key_cases (o : EdgeOrder) (k : Bytes) :
    (∃ t : Triple Id, k = (encOf o t).1) ∨
      k.length ≠ tripleLen (Id := Id) ∧ ByteArr.tryFrom (tripleLen (Id := Id)) k = none := by
  by_cases h : k.length = tripleLen (Id := Id)
  · exact .inl ⟨decOf o ⟨k, h⟩, by rw [encOf_dec]⟩
  · exact .inr ⟨h, by unfold ByteArr.tryFrom; rw [dif_neg h]⟩

theorem node_cases (k : Bytes) :
    (∃ n : Id, k = (toBeBytes n).1) ∨
      k.length ≠ idLen (Id := Id) ∧ (tryFromBeBytes k : Option Id) = none := by
  cases h : (tryFromBeBytes k : Option Id) with
  | none => exact .inr ⟨LawfulId.try_none k h, rfl⟩
  | some n => exact .inl ⟨n, LawfulId.toBe_try k n h⟩

theorem iterVertices_items (c : Codecs NP EP) (d : Db) :
    List.Forall₂ (VertexItem (Id := Id) c) d.nodeProps.entries (iterVertices Id c d) := by
  refine forall₂_map_self (fun e _ => ?_)
  obtain ⟨k, v⟩ := e
  rcases node_cases (Id := Id) k with ⟨n, rfl⟩ | ⟨h, hn⟩
  · simp only [decodeId, LawfulId.try_toBe, deser]
    cases hv : c.n.de v with
    | none => exact .undecodable hv
    | some p => exact .good hv
  · simp only [decodeId, hn]
    exact .badKey h

theorem iterEdges_items (c : Codecs NP EP) (d : Db) (o : EdgeOrder) :
    List.Forall₂ (EdgeItem (Id := Id) c d o) (d.tree o).entries (iterEdges Id c d o) := by
  unfold iterEdges
  rw [orderedEdges_eq, List.map_map]
  refine forall₂_map_self (fun e _ => ?_)
  obtain ⟨k, v⟩ := e
  rcases key_cases (Id := Id) o k with ⟨t, rfl⟩ | ⟨h, hn⟩
  · simp only [Function.comp, decodeEntry_enc, getData]
    cases hv : d.edgeProps.get v with
    | none => exact .missing hv
    | some b =>
      simp only
      cases hb : c.e.de b with
      | none => exact .undecodable hv hb
      | some p => exact .good hv hb
  · simp only [Function.comp, decodeEntry, hn]
    exact .badKey h

theorem getData_cases {P : Type} (c : Codec P) (t : Tree) (k : Bytes) :
    (getData c t k = .ok none ∧ t.get k = none ∧ ¬ Undecodable c t k) ∨
    (getData c t k = .error .serialization ∧ Undecodable c t k) ∨
    (∃ p, getData c t k = .ok (some p) ∧ Reads c t k p ∧ ¬ Undecodable c t k) := by
  unfold getData
  cases h : t.get k with
  | none => exact .inl ⟨rfl, rfl, fun ⟨b, hb, _⟩ => by simp [h] at hb⟩
  | some b =>
    simp only
    cases hb : c.de b with
    | none => exact .inr (.inl ⟨rfl, b, h, hb⟩)
    | some p =>
      refine .inr (.inr ⟨p, rfl, ⟨b, h, hb⟩, fun ⟨b', h', hb'⟩ => ?_⟩)
      rw [h] at h'; cases h'; rw [hb] at hb'; cases hb'

theorem iterEdgesWithProps_items (c : Codecs NP EP) (d : Db) (o : EdgeOrder) :
    List.Forall₂ (PropsItem (Id := Id) c d o) (d.tree o).entries (iterEdgesWithProps Id c d o) := by
  unfold iterEdgesWithProps
  rw [orderedEdges_eq, List.map_map]
  refine forall₂_map_self (fun e _ => ?_)
  obtain ⟨k, v⟩ := e
  rcases key_cases (Id := Id) o k with ⟨t, rfl⟩ | ⟨h, hn⟩
  · simp only [Function.comp, decodeEntry_enc, iterImpl]
    rcases getData_cases c.n d.nodeProps (toBeBytes t.sub).1 with ⟨h1, n1, u1⟩ | ⟨h1, u1⟩ | ⟨p1, h1, r1, u1⟩
    · rcases getData_cases c.e d.edgeProps v with ⟨h2, n2, u2⟩ | ⟨h2, u2⟩ | ⟨p2, h2, r2, u2⟩
      · rcases getData_cases c.n d.nodeProps (toBeBytes t.obj).1 with ⟨h3, n3, u3⟩ | ⟨h3, u3⟩ | ⟨p3, h3, r3, u3⟩
        · simp only [h1, h2, h3]; exact .missing u1 u2 u3 (.inl n1)
        · simp only [h1, h2, h3]; exact .undecodable (.inr (.inr u3))
        · simp only [h1, h2, h3]; exact .missing u1 u2 u3 (.inl n1)
      · simp only [h1, h2]; exact .undecodable (.inr (.inl u2))
      · rcases getData_cases c.n d.nodeProps (toBeBytes t.obj).1 with ⟨h3, n3, u3⟩ | ⟨h3, u3⟩ | ⟨p3, h3, r3, u3⟩
        · simp only [h1, h2, h3]; exact .missing u1 u2 u3 (.inl n1)
        · simp only [h1, h2, h3]; exact .undecodable (.inr (.inr u3))
        · simp only [h1, h2, h3]; exact .missing u1 u2 u3 (.inl n1)
    · simp only [h1]; exact .undecodable (.inl u1)
    · rcases getData_cases c.e d.edgeProps v with ⟨h2, n2, u2⟩ | ⟨h2, u2⟩ | ⟨p2, h2, r2, u2⟩
      · rcases getData_cases c.n d.nodeProps (toBeBytes t.obj).1 with ⟨h3, n3, u3⟩ | ⟨h3, u3⟩ | ⟨p3, h3, r3, u3⟩
        · simp only [h1, h2, h3]; exact .missing u1 u2 u3 (.inr (.inl n2))
        · simp only [h1, h2, h3]; exact .undecodable (.inr (.inr u3))
        · simp only [h1, h2, h3]; exact .missing u1 u2 u3 (.inr (.inl n2))
      · simp only [h1, h2]; exact .undecodable (.inr (.inl u2))
      · rcases getData_cases c.n d.nodeProps (toBeBytes t.obj).1 with ⟨h3, n3, u3⟩ | ⟨h3, u3⟩ | ⟨p3, h3, r3, u3⟩
        · simp only [h1, h2, h3]; exact .missing u1 u2 u3 (.inr (.inr n3))
        · simp only [h1, h2, h3]; exact .undecodable (.inr (.inr u3))
        · simp only [h1, h2, h3]; exact .good r1 r2 r3
  · simp only [Function.comp, decodeEntry, hn]
    exact .badKey h

theorem iterEdges_mem {d : Db} {o : EdgeOrder} {t : Triple Id} {p : EP} :
    .ok (t, p) ∈ iterEdges Id c d o ↔ d.view c o t = some p := by
  unfold iterEdges
  rw [orderedEdges_eq, List.map_map, List.mem_map]
  simp only [Function.comp, view, Option.bind_eq_some_iff]
  constructor
  · rintro ⟨⟨k, v⟩, he, h⟩
    rw [BMap.mem_entries] at he
    rcases key_cases (Id := Id) o k with ⟨t', rfl⟩ | ⟨_, hn⟩
    · simp only [decodeEntry_enc, getData] at h
      cases hv : d.edgeProps.get v with
      | none => simp [hv] at h
      | some b =>
        cases hb : c.e.de b with
        | none => simp [hv, hb] at h
        | some q =>
          simp only [hv, hb, Except.ok.injEq, Prod.mk.injEq] at h
          obtain ⟨rfl, rfl⟩ := h
          exact ⟨v, he, b, hv, hb⟩
    · simp [decodeEntry, hn] at h
  · rintro ⟨v, hv, b, hb, hp⟩
    refine ⟨((encOf o t).1, v), BMap.mem_entries.2 hv, ?_⟩
    simp only [decodeEntry_enc, getData_some hb hp]

/-! ## vertices -/

theorem collect_ok {X α : Type} {l : List (Except X α)} {as : List α} : collect l = .ok as ↔ l = as.map .ok := by
  induction l generalizing as with
  | nil => cases as <;> simp [collect]
  | cons a l ih =>
    cases a with
    | error e => cases as <;> simp [collect]
    | ok a =>
      rw [collect]
      cases hc : collect l with
      | error e =>
        cases as with
        | nil => simp
        | cons b bs =>
          simp only [List.map_cons, List.cons.injEq, Except.ok.injEq, reduceCtorEq, false_iff, not_and]
          intro _ h
          rw [ih.2 h] at hc
          cases hc
      | ok cs =>
        cases as with
        | nil => simp
        | cons b bs =>
          simp only [Except.ok.injEq, List.cons.injEq, List.map_cons]
          rw [← ih, hc, Except.ok.injEq]

theorem collect_err {X α : Type} {l : List (Except X α)} {e : X} (h : collect l = .error e) : .error e ∈ l := by
  induction l with
  | nil => cases h
  | cons a l ih =>
    cases a with
    | error e' => simp [collect] at h; simp [h]
    | ok a =>
      rw [collect] at h
      cases hc : collect l with
      | error e' => simp [hc] at h; subst h; exact List.mem_cons_of_mem _ (ih hc)
      | ok cs => simp [hc] at h

theorem vertices_ok {d : Db} {ns : List Id} :
    vertices Id d = .ok ns ↔ d.nodeProps.entries.map Prod.fst = ns.map (fun n => (toBeBytes n).1) := by
  unfold vertices
  rw [collect_ok]
  generalize d.nodeProps.entries = l
  induction l generalizing ns with
  | nil => cases ns <;> simp
  | cons e l ih =>
    cases ns with
    | nil => simp
    | cons n ns =>
      simp only [List.map_cons, List.cons.injEq, ih]
      refine and_congr_left (fun _ => ?_)
      unfold decodeId
      rcases node_cases (Id := Id) e.1 with ⟨m, hm⟩ | ⟨h, hn⟩
      · rw [hm, LawfulId.try_toBe, toBe_inj]; simp
      · rw [hn]
        simp only [reduceCtorEq, false_iff]
        intro h'; rw [h'] at h; exact h (toBeBytes n).2

theorem vertices_err {d : Db} {e : SErr} (h : vertices Id d = .error e) :
    e = .keySize ∧ ∃ x ∈ d.nodeProps.entries, x.1.length ≠ idLen (Id := Id) := by
  obtain ⟨x, hx, he⟩ := List.mem_map.1 (collect_err h)
  unfold decodeId at he
  rcases node_cases (Id := Id) x.1 with ⟨m, hm⟩ | ⟨h', hn⟩
  · rw [hm, LawfulId.try_toBe] at he; cases he
  · rw [hn] at he; cases he; exact ⟨rfl, x, hx, h'⟩

/-! ## queries -/

theorem tryFold_append {X σ α : Type} (f : σ → α → Except X σ) (s : σ) (l l' : List α) :
    tryFold f s (l ++ l') = match tryFold f s l with | .error e => .error e | .ok s => tryFold f s l' := by
  induction l generalizing s with
  | nil => rfl
  | cons a l ih =>
    rw [List.cons_append, tryFold, tryFold]
    cases f s a with
    | error e => rfl
    | ok s' => exact ih s'

theorem tryFold_flatMap {X σ α κ : Type} (f : σ → α → Except X σ) (L : κ → List α) (s : σ) (xs : List κ) :
    tryFold (fun s x => tryFold f s (L x)) s xs = tryFold f s (xs.flatMap L) := by
  induction xs generalizing s with
  | nil => rfl
  | cons x xs ih =>
    rw [List.flatMap_cons, tryFold_append, tryFold]
    cases tryFold f s (L x) with
    | error e => rfl
    | ok s' => exact ih s'

/-- a step that takes in what `item` gives for the element -/
def stepItem {X σ α β : Type} (add : σ → β → σ) (item : α → Except X (Option β)) (s : σ) (a : α) : Except X σ :=
  match item a with
  | .error e => .error e
  | .ok none => .ok s
  | .ok (some b) => .ok (add s b)

def okItem {X β : Type} : Except X (Option β) → Option β
  | .ok y => y
  | .error _ => none

theorem tryFold_item {X σ α β : Type} (add : σ → β → σ) (item : α → Except X (Option β)) (s : σ) (l : List α) :
    (∃ e, tryFold (stepItem add item) s l = .error e ∧ ∃ a ∈ l, item a = .error e) ∨
      (tryFold (stepItem add item) s l = .ok ((l.filterMap (fun a => okItem (item a))).foldl add s) ∧
        ∀ a ∈ l, ∃ y, item a = .ok y) := by
  induction l generalizing s with
  | nil => exact .inr ⟨rfl, by simp⟩
  | cons a l ih =>
    rw [tryFold, stepItem]
    cases ha : item a with
    | error e => exact .inl ⟨e, rfl, a, by simp, ha⟩
    | ok y =>
      cases y with
      | none =>
        rcases ih s with ⟨e, h1, b, hb, h2⟩ | ⟨h1, h2⟩
        · exact .inl ⟨e, h1, b, List.mem_cons_of_mem _ hb, h2⟩
        · refine .inr ⟨?_, ?_⟩
          · rw [List.filterMap_cons, ha]; exact h1
          · intro b hb
            rcases List.mem_cons.1 hb with rfl | hb
            · exact ⟨_, ha⟩
            · exact h2 b hb
      | some y =>
        rcases ih (add s y) with ⟨e, h1, b, hb, h2⟩ | ⟨h1, h2⟩
        · exact .inl ⟨e, h1, b, List.mem_cons_of_mem _ hb, h2⟩
        · refine .inr ⟨?_, ?_⟩
          · rw [List.filterMap_cons, ha]; exact h1
          · intro b hb
            rcases List.mem_cons.1 hb with rfl | hb
            · exact ⟨_, ha⟩
            · exact h2 b hb

/-- what a range query makes of an entry -/
def rangeItem (c : Codecs NP EP) (d : Db) (dec : TKey Id → Triple Id) (e : Bytes × Bytes) :
    Except SErr (Option (Triple Id × EP)) :=
  match d.edgeProps.get e.2 with
  | none => .ok none
  | some b =>
    match ByteArr.tryFrom (tripleLen (Id := Id)) e.1 with
    | none => .error .keySize
    | some k =>
      match c.e.de b with
      | none => .error .serialization
      | some p => .ok (some (dec k, p))

theorem addRange_eq (d : Db) (dec : TKey Id → Triple Id) (r : Mem Id NP EP) (l : List (Bytes × Bytes)) :
    addRange c d dec r l = tryFold (stepItem add (rangeItem c d dec)) r l := by
  unfold addRange
  congr 1
  funext r e
  unfold stepItem rangeItem
  cases h1 : d.edgeProps.get e.2 with
  | none => rfl
  | some b =>
    cases h2 : ByteArr.tryFrom (tripleLen (Id := Id)) e.1 with
    | none => rfl
    | some k => cases h3 : c.e.de b <;> simp [h3, add]

/-- the triple of an entry with a right-sized key -/
def entryOf (o : EdgeOrder) (e : Bytes × Bytes) : Option (Triple Id × Bytes) :=
  (ByteArr.tryFrom (tripleLen (Id := Id)) e.1).map (fun k => (decOf o k, e.2))

theorem entryOf_eq {o : EdgeOrder} {e : Bytes × Bytes} {t : Triple Id} {v : Bytes} :
    entryOf o e = some (t, v) ↔ e = ((encOf o t).1, v) := by
  obtain ⟨k, w⟩ := e
  unfold entryOf
  rcases key_cases (Id := Id) o k with ⟨u, rfl⟩ | ⟨h, hn⟩
  · simp [tryFrom_arr, decOf_enc, encOf_inj]
  · simp only [hn, Option.map_none, reduceCtorEq, false_iff, Prod.mk.injEq, not_and]
    intro h'; rw [h'] at h; exact absurd (encOf o t).2 h

theorem rangeItem_enc {d : Db} {o : EdgeOrder} {t : Triple Id} {v : Bytes} :
    rangeItem c d (decOf o) ((encOf o t).1, v) =
      match d.edgeProps.get v with
      | none => .ok none
      | some b =>
        match c.e.de b with
        | none => .error .serialization
        | some p => .ok (some (t, p)) := by
  unfold rangeItem
  simp only [tryFrom_arr, decOf_enc]

theorem okItem_eq {d : Db} {o : EdgeOrder} {e : Bytes × Bytes} :
    okItem (rangeItem c d (decOf o) e) = (entryOf (Id := Id) o e).bind (edgeOf c d) := by
  obtain ⟨k, v⟩ := e
  rcases key_cases (Id := Id) o k with ⟨t, rfl⟩ | ⟨h, hn⟩
  · rw [rangeItem_enc, (entryOf_eq (o := o) (t := t) (v := v)).2 rfl]
    simp only [Option.bind_some, edgeOf]
    cases d.edgeProps.get v with
    | none => rfl
    | some b =>
      simp only [Option.bind_some]
      cases c.e.de b <;> rfl
  · simp only [rangeItem, hn, entryOf]
    cases d.edgeProps.get v <;> rfl

/-- What one may expect of a query that found an entry it could not read. -/
def Blame (c : Codecs NP EP) (d : Db) (q : Query Id) : SErr → Prop
  | .keySize => ∃ e ∈ (d.tree (Query.order q)).entries, e.1.length ≠ tripleLen (Id := Id)
  | .serialization =>
    (∃ t v, Query.Hits t q ∧ d.idIn (Query.order q) t = some v ∧ Undecodable c.e d.edgeProps v) ∨
      ∃ n, Query.Asks n q ∧ Undecodable c.n d.nodeProps (toBeBytes n).1
  | _ => False

theorem range_any {κ : Type} [DecidableEq κ] (d : Db) (o : EdgeOrder) (cls : Triple Id → κ)
    (bnd : κ → Bound (TKey Id) × Bound (TKey Id))
    (hb : ∀ x t, Bound.contains (bnd x) (encOf o t) = true ↔ cls t = x) {xs : List κ} (hx : xs.Nodup) (n : Nat)
    {g : Gen Id} (hg : Fresh (n + (d.tree o).entries.length) g) :
    (∃ e, tryFold (fun r x => addRange c d (decOf o) r ((d.tree o).rangeArr (bnd x))) (Mem.new g) xs = .error e ∧
      match e with
      | .keySize => ∃ e ∈ (d.tree o).entries, e.1.length ≠ tripleLen (Id := Id)
      | .serialization => ∃ t v, cls t ∈ xs ∧ d.idIn o t = some v ∧ Undecodable c.e d.edgeProps v
      | _ => False) ∨
    ∃ r, tryFold (fun r x => addRange c d (decOf o) r ((d.tree o).rangeArr (bnd x))) (Mem.new g) xs = .ok r ∧
      Mem.Ok n r { nodes := fun _ => none, edges := fun t => if cls t ∈ xs then d.view c o t else none } ∧
      ∀ t v, cls t ∈ xs → d.idIn o t = some v → ¬ Undecodable c.e d.edgeProps v := by
  simp only [addRange_eq, tryFold_flatMap]
  rcases tryFold_item add (rangeItem c d (decOf o)) (Mem.new g) (xs.flatMap fun x => (d.tree o).rangeArr (bnd x)) with
    ⟨e, h1, a, ha, h2⟩ | ⟨h1, h2⟩
  · refine .inl ⟨e, h1, ?_⟩
    obtain ⟨x, hx, ha⟩ := List.mem_flatMap.1 ha
    obtain ⟨k, v⟩ := a
    have hm := rangeArr_sub ha
    rcases key_cases (Id := Id) o k with ⟨t, rfl⟩ | ⟨h, hn⟩
    · rw [rangeItem_enc] at h2
      cases hv : d.edgeProps.get v with
      | none => simp [hv] at h2
      | some b =>
        cases hd : c.e.de b with
        | some p => simp [hv, hd] at h2
        | none =>
          simp only [hv, hd, Except.error.injEq] at h2
          subst h2
          have := (hb x t).1 (mem_rangeArr.1 ha).2
          exact ⟨t, v, this ▸ hx, hm, b, hv, hd⟩
    · simp only [rangeItem, hn] at h2
      cases hv : d.edgeProps.get v with
      | none => simp [hv] at h2
      | some b =>
        simp only [hv, Except.error.injEq] at h2
        subst h2
        exact ⟨(k, v), BMap.mem_entries.2 hm, h⟩
  · refine .inr ⟨_, h1, ?_, ?_⟩
    · have e : (xs.flatMap fun x => (d.tree o).rangeArr (bnd x)).filterMap
          (fun a => okItem (rangeItem (Id := Id) c d (decOf o) a)) =
        (xs.flatMap fun x => ((d.tree o).rangeArr (bnd x)).filterMap (entryOf (Id := Id) o)).filterMap (edgeOf c d) := by
        simp only [okItem_eq, ← List.filterMap_filterMap]
        rw [List.filterMap_flatMap]
      rw [e]
      refine (fill_core (fun L h1 h2 => keys_le (o := o) h1 h2) cls _ (fun x t v => ?_) (fun x => ?_) hx n hg).1
      · simp only [List.mem_filterMap, entryOf_eq]
        rw [exists_eq_right, mem_rangeArr, hb]; rfl
      · have := rangeArr_nodup (d.tree o) (bnd x)
        refine List.Nodup.of_map (fun t => (encOf o t).1) (List.Nodup.sublist ?_ this)
        generalize (d.tree o).rangeArr (bnd x) = l
        induction l with
        | nil => exact List.Sublist.refl _
        | cons a l ih =>
          rw [List.filterMap_cons]
          cases ha : entryOf (Id := Id) o a with
          | none => exact ih.cons _
          | some y =>
            simp only [List.map_cons, entryOf_eq.1 ha]
            exact ih.cons_cons _
    · rintro t v ht hv ⟨b, hb1, hb2⟩
      obtain ⟨y, hy⟩ := h2 ((encOf o t).1, v) (List.mem_flatMap.2 ⟨cls t, ht, mem_rangeArr.2 ⟨hv, (hb _ _).2 rfl⟩⟩)
      rw [rangeItem_enc] at hy
      simp [hb1, hb2] at hy

/-- what a query for nodes makes of an id -/
def nodeItem (c : Codecs NP EP) (d : Db) (n : Id) : Except SErr (Option (Id × NP)) :=
  match d.nodeProps.get (toBeBytes n).1 with
  | none => .ok none
  | some b =>
    match c.n.de b with
    | none => .error .serialization
    | some p => .ok (some (n, p))

theorem fill_nodes {n : Nat} {r : Mem Id NP EP} {G : Graph Id NP EP} (hr : Mem.Ok n r G) (d : Db) (ids : List Id) :
    Mem.Ok n ((ids.filterMap (fun a => okItem (nodeItem c d a))).foldl (fun r x => r.insertNode x.1 x.2) r)
      { G with nodes := fun m => if m ∈ ids then ((d.graph (Id := Id) c).nodes m).or (G.nodes m) else G.nodes m } := by
  induction ids generalizing r G with
  | nil => simpa using hr
  | cons a l ih =>
    have key : okItem (nodeItem c d a) = ((d.graph (Id := Id) c).nodes a).map (fun p => (a, p)) := by
      unfold nodeItem graph
      cases h1 : d.nodeProps.get (toBeBytes a).1 with
      | none => simp [h1, okItem]
      | some b => cases h2 : c.n.de b <;> simp [h1, h2, okItem]
    rw [List.filterMap_cons, key]
    cases ha : (d.graph (Id := Id) c).nodes a with
    | none =>
      refine (ih hr).congr (Graph.ext' (fun m => ?_) (fun _ => rfl))
      by_cases hm : m = a
      · subst hm; simp [ha]
      · simp [hm]
    | some p =>
      simp only [Option.map_some, List.foldl_cons]
      refine (ih (Mem.ok_insertNode _ _ _ a p hr)).congr (Graph.ext' (fun m => ?_) (fun _ => rfl))
      by_cases hm : m = a
      · subst hm; simp [ha, Graph.insertNode]
      · simp [hm, Graph.insertNode]

/-- The part of a database that a query can see: nodes, and the edges of the ordering used. -/
def shown (c : Codecs NP EP) (d : Db) (o : EdgeOrder) : Graph Id NP EP :=
  { nodes := (d.graph c).nodes, edges := d.view c o }

theorem shown_readable (d : Db) (o : EdgeOrder) : Readable c d o (shown c d o : Graph Id NP EP) where
  nodes n p := by simp [shown, graph, Reads, Option.bind_eq_some_iff]
  edges t p := by simp [shown, view, Reads, Option.bind_eq_some_iff]

theorem Readable.unique {d : Db} {o : EdgeOrder} {G G' : Graph Id NP EP} (h : Readable c d o G) (h' : Readable c d o G') :
    G = G' :=
  Graph.ext' (fun n => Option.ext (fun p => by rw [h.nodes, h'.nodes]))
    (fun t => Option.ext (fun p => by rw [h.edges, h'.edges]))

/-- A query on arbitrary database contents. -/
theorem run_any (d : Db) (n : Nat) {g : Gen Id} (q : Query Id)
    (hg : Fresh (n + (d.tree (Query.order q)).entries.length) g) (hq : Spec.Query.Nodup q) :
    (∃ e, runQuery c d g q = .error (.left e) ∧ Blame c d q e) ∨
    ∃ r, runQuery c d g q = .ok r ∧ Mem.Ok n r (select (shown c d (Query.order q)) q) ∧
      (∀ t v, Query.Hits t q → d.idIn (Query.order q) t = some v → ¬ Undecodable c.e d.edgeProps v) ∧
      ∀ n, Query.Asks n q → ¬ Undecodable c.n d.nodeProps (toBeBytes n).1 := by
  suffices hs : (∃ e, runQ c d g q = .error e ∧ Blame c d q e) ∨
    ∃ r, runQ c d g q = .ok r ∧ Mem.Ok n r (select (shown c d (Query.order q)) q) ∧
      (∀ t v, Query.Hits t q → d.idIn (Query.order q) t = some v → ¬ Undecodable c.e d.edgeProps v) ∧
      ∀ n, Query.Asks n q → ¬ Undecodable c.n d.nodeProps (toBeBytes n).1 by
    unfold runQuery
    rcases hs with ⟨e, h1, h2⟩ | ⟨r, h1, h2⟩
    · exact .inl ⟨e, by rw [h1], h2⟩
    · exact .inr ⟨r, by rw [h1], h2⟩
  have conv : ∀ {κ : Type} [DecidableEq κ] (o : EdgeOrder) (cls : Triple Id → κ) (xs : List κ)
      (bnd : κ → Bound (TKey Id) × Bound (TKey Id))
      (_ : ∀ x t, Bound.contains (bnd x) (encOf o t) = true ↔ cls t = x) (_ : xs.Nodup)
      (_ : Fresh (n + (d.tree o).entries.length) g) (q : Query Id)
      (_ : runQ c d g q = tryFold (fun r x => addRange c d (decOf o) r ((d.tree o).rangeArr (bnd x))) (Mem.new g) xs)
      (_ : Query.order q = o) (_ : ∀ t, Query.Hits t q ↔ cls t ∈ xs) (_ : ∀ n, ¬ Query.Asks n q)
      (_ : (select (shown c d o) q : Graph Id NP EP) =
        { nodes := fun _ => none, edges := fun t => if cls t ∈ xs then d.view c o t else none }),
      (∃ e, runQ c d g q = .error e ∧ Blame c d q e) ∨
      ∃ r, runQ c d g q = .ok r ∧ Mem.Ok n r (select (shown c d (Query.order q)) q) ∧
        (∀ t v, Query.Hits t q → d.idIn (Query.order q) t = some v → ¬ Undecodable c.e d.edgeProps v) ∧
        ∀ n, Query.Asks n q → ¬ Undecodable c.n d.nodeProps (toBeBytes n).1 := by
    intro κ _ o cls xs bnd hb hx hg q hr ho hh ha hsel
    subst ho
    rw [hr]
    rcases range_any (c := c) d (Query.order q) cls bnd hb hx n hg with ⟨e, h1, h2⟩ | ⟨r, h1, h2, h3⟩
    · refine .inl ⟨e, h1, ?_⟩
      cases e with
      | keySize => exact h2
      | serialization =>
        obtain ⟨t, v, h4, h5⟩ := h2
        exact .inl ⟨t, v, (hh t).2 h4, h5⟩
      | sled => exact h2
      | missing => exact h2
    · exact .inr ⟨r, h1, hsel ▸ h2, fun t v ht => h3 t v ((hh t).1 ht), fun n hn => absurd hn (ha n)⟩
  cases q with
  | NodeProps ids =>
    have e : runQ c d g (.NodeProps ids) =
        tryFold (stepItem (fun (r : Mem Id NP EP) (x : Id × NP) => r.insertNode x.1 x.2) (nodeItem c d)) (Mem.new g) ids := by
      show tryFold _ _ ids = _
      congr 1
      funext r a
      unfold stepItem nodeItem
      cases h1 : d.nodeProps.get (toBeBytes a).1 with
      | none => rfl
      | some b => cases h2 : c.n.de b <;> simp [h2]
    rw [e]
    have item : ∀ a : Id, Undecodable c.n d.nodeProps (toBeBytes a).1 ↔ nodeItem c d a = .error .serialization := by
      intro a
      unfold Undecodable nodeItem
      cases h1 : d.nodeProps.get (toBeBytes a).1 with
      | none => simp
      | some b => cases h2 : c.n.de b <;> simp [h2]
    rcases tryFold_item (fun (r : Mem Id NP EP) (x : Id × NP) => r.insertNode x.1 x.2) (nodeItem c d) (Mem.new g) ids with
      ⟨e, h1, a, ha, h2⟩ | ⟨h1, h2⟩
    · refine .inl ⟨e, h1, ?_⟩
      have : e = .serialization := by
        unfold nodeItem at h2
        cases h1 : d.nodeProps.get (toBeBytes a).1 with
        | none => simp [h1] at h2
        | some b => cases h3 : c.n.de b <;> simp_all
      subst this
      exact .inr ⟨a, ha, (item a).2 h2⟩
    · refine .inr ⟨_, h1, ?_, fun t v h => h.elim, fun m hm hu => ?_⟩
      · refine (fill_nodes ((Mem.ok_new hg).mono (by omega)) d ids).congr (Graph.ext' (fun m => ?_) (fun _ => rfl))
        simp [Graph.empty, select, shown]
      · obtain ⟨y, hy⟩ := h2 m hm
        rw [(item m).1 hu] at hy; cases hy
  | SPO xs =>
    let item : Id × Id × Id → Except SErr (Option (Triple Id × EP)) := fun x =>
      match d.spo.get (encodeSpo ⟨x.1, x.2.1, x.2.2⟩).1 with
      | none => .ok none
      | some i => rangeItem c d (decOf .SPO) ((encOf .SPO ⟨x.1, x.2.1, x.2.2⟩).1, i)
    have e : runQ c d g (.SPO xs) = tryFold (stepItem add item) (Mem.new g) xs := by
      show tryFold _ _ xs = _
      congr 1
      funext r x
      simp only [stepItem, item, rangeItem_enc]
      cases h1 : d.spo.get (encodeSpo ⟨x.1, x.2.1, x.2.2⟩).1 with
      | none => rfl
      | some i =>
        cases h2 : d.edgeProps.get i with
        | none => simp [h2]
        | some b => cases h3 : c.e.de b <;> simp [h2, h3, add]
    rw [e]
    rcases tryFold_item add item (Mem.new g) xs with ⟨e, h1, x, hx, h2⟩ | ⟨h1, h2⟩
    · refine .inl ⟨e, h1, ?_⟩
      simp only [item, rangeItem_enc] at h2
      cases h3 : d.spo.get (encodeSpo ⟨x.1, x.2.1, x.2.2⟩).1 with
      | none => simp [h3] at h2
      | some i =>
        cases h4 : d.edgeProps.get i with
        | none => simp [h3, h4] at h2
        | some b =>
          cases h5 : c.e.de b with
          | some p => simp [h3, h4, h5] at h2
          | none =>
            simp only [h3, h4, h5, Except.error.injEq] at h2
            subst h2
            exact .inl ⟨⟨x.1, x.2.1, x.2.2⟩, i, hx, h3, b, h4, h5⟩
    · refine .inr ⟨_, h1, ?_, ?_, fun _ h => h.elim⟩
      · have e : xs.filterMap (fun a => okItem (item a)) = (xs.flatMap
            (fun x : Id × Id × Id => (d.spo.get (encodeSpo ⟨x.1, x.2.1, x.2.2⟩)).toList.map
              (fun i => ((⟨x.1, x.2.1, x.2.2⟩ : Triple Id), i)))).filterMap (edgeOf c d) := by
          clear hq hg h1 h2 e
          induction xs with
          | nil => rfl
          | cons x xs ih =>
            rw [List.flatMap_cons, List.filterMap_append, ← ih, List.filterMap_cons]
            simp only [item]
            cases h3 : d.spo.get (encodeSpo ⟨x.1, x.2.1, x.2.2⟩).1 with
            | none => simp [okItem]
            | some i =>
              simp only [okItem_eq, (entryOf_eq (o := .SPO) (t := ⟨x.1, x.2.1, x.2.2⟩) (v := i)).2 rfl, Option.bind_some,
                Option.toList_some, List.map_cons, List.map_nil, List.filterMap_cons, List.filterMap_nil]
              cases edgeOf c d (⟨x.1, x.2.1, x.2.2⟩, i) <;> simp
        rw [e]
        refine (fill_core (c := c) (fun L h1 h2 => keys_le (o := .SPO) h1 h2) (fun t => (t.sub, t.pred, t.obj)) _ (fun x t v => ?_)
          (fun x => ?_) (List.Nodup.of_map _ hq) n hg).1.congr (Graph.ext' (fun _ => rfl) (fun t => by simp [select, shown, Query.order]))
        · obtain ⟨a, b, e⟩ := x
          simp only [List.mem_map, Option.mem_toList, Prod.mk.injEq]
          constructor
          · rintro ⟨j, hj, rfl, rfl⟩
            exact ⟨hj, rfl, rfl, rfl⟩
          · rintro ⟨h1, rfl, rfl, rfl⟩
            exact ⟨v, h1, rfl, rfl⟩
        · cases d.spo.get (encodeSpo ⟨x.1, x.2.1, x.2.2⟩).1 <;> simp
      · rintro t v ht hv ⟨b, hb1, hb2⟩
        obtain ⟨y, hy⟩ := h2 (t.sub, t.pred, t.obj) ht
        have hv' : d.spo.get (encodeSpo ⟨t.sub, t.pred, t.obj⟩).1 = some v := hv
        simp only [item, hv', rangeItem_enc, hb1, hb2] at hy
        cases hy
  | S xs =>
    exact conv .SPO (fun t => t.sub) xs (fun x => keyBounds1 x) (fun x t => LawfulId.kb1_spo x t) (List.Nodup.of_map _ hq) hg
      _ rfl rfl (fun _ => Iff.rfl) (fun _ h => h) rfl
  | P xs =>
    exact conv .POS (fun t => t.pred) xs (fun x => keyBounds1 x) (fun x t => LawfulId.kb1_pos x t) (List.Nodup.of_map _ hq) hg
      _ rfl rfl (fun _ => Iff.rfl) (fun _ h => h) rfl
  | O xs =>
    exact conv .OSP (fun t => t.obj) xs (fun x => keyBounds1 x) (fun x t => LawfulId.kb1_osp x t) (List.Nodup.of_map _ hq) hg
      _ rfl rfl (fun _ => Iff.rfl) (fun _ h => h) rfl
  | SP xs =>
    exact conv .SPO (fun t => (t.sub, t.pred)) xs (fun x => keyBounds2 x.1 x.2)
      (fun x t => by rw [Prod.ext_iff]; exact LawfulId.kb2_spo x.1 x.2 t) (List.Nodup.of_map _ hq) hg
      _ rfl rfl (fun _ => Iff.rfl) (fun _ h => h) (Graph.ext' (fun _ => rfl) (fun t => by simp [select, shown]))
  | PO xs =>
    exact conv .POS (fun t => (t.pred, t.obj)) xs (fun x => keyBounds2 x.1 x.2)
      (fun x t => by rw [Prod.ext_iff]; exact LawfulId.kb2_pos x.1 x.2 t) (List.Nodup.of_map _ hq) hg
      _ rfl rfl (fun _ => Iff.rfl) (fun _ h => h) (Graph.ext' (fun _ => rfl) (fun t => by simp [select, shown]))
  | SO xs =>
    exact conv .OSP (fun t => (t.sub, t.obj)) xs (fun x => keyBounds2 x.2 x.1)
      (fun x t => by rw [Prod.ext_iff]; exact (LawfulId.kb2_osp x.2 x.1 t).trans and_comm) (List.Nodup.of_map _ hq) hg
      _ rfl rfl (fun _ => Iff.rfl) (fun _ h => h) (Graph.ext' (fun _ => rfl) (fun t => by simp [select, shown]))

end Sled

end Verif
