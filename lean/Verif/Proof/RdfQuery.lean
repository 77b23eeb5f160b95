import Verif.Proof.Rdf
import Verif.Proof.SledRead
import Verif.Props.Query

/-! # Queries on the RDF layer -/

set_option linter.unusedSectionVars false

namespace Verif

open Spec

variable {I S Q IX SX QX X NP EP E : Type}

namespace Rdf

variable {ix : BidirIndex I IX String Ulid} {st : StoreImpl S SX Ulid NP EP}
  {okN : NP → Bool} {okE : EP → Bool} {bad : SX} {mN : NP → NP → NP} {mE : EP → EP → EP}
  {Ok : Nat → S → Graph Ulid NP EP → Prop} {C : List Ulid}
variable {n k : Nat} {r : Rdf I S} {f : String → Option Ulid} {G : Graph Ulid NP EP} {x : RdfState NP EP}

/-! ## recording the names of ids -/

/-- `m` holds the names of the ids in `D` -/
structure Holds (f : String → Option Ulid) (D : List Ulid) (m : MemIndex String Ulid) : Prop where
  left : ∀ s u, m.leftToRight s = some u ↔ f s = some u ∧ u ∈ D
  right : ∀ s u, m.rightToLeft u = some s ↔ f s = some u ∧ u ∈ D

/-- no named id is recorded twice -/
def NoRep (f : String → Option Ulid) (D L : List Ulid) : Prop :=
  L.Pairwise (fun a b => a = b → ∀ s, f s ≠ some a) ∧ ∀ u ∈ L, u ∈ D → ∀ s, f s ≠ some u

theorem holds_new : Holds f [] MemIndex.new := ⟨by simp [MemIndex.new], by simp [MemIndex.new]⟩

theorem record_fold (hn : ix.Shows r.nameIndex f) (L : List Ulid) {D : List Ulid} {m : MemIndex String Ulid}
    (hm : Holds f D m) :
    (NoRep f D L ∧ ∃ m', Sled.tryFold (record (SX := SX) (QX := QX) ix r) m L = .ok m' ∧ Holds f (D ++ L) m') ∨
    (¬ NoRep f D L ∧ ∃ s u, f s = some u ∧ Sled.tryFold (record (SX := SX) (QX := QX) ix r) m L =
      .error (.right (.nameIndex (.duplicateRight s u u)))) := by
  have hi : Inj f := hn.inj
  induction L generalizing D m with
  | nil => exact .inl ⟨⟨List.Pairwise.nil, by simp⟩, m, rfl, by rw [List.append_nil]; exact hm⟩
  | cons u L ih =>
    have noRep_cons : NoRep f D (u :: L) ↔ (∀ s, f s = some u → u ∉ D) ∧ NoRep f (D ++ [u]) L := by
      unfold NoRep
      rw [List.pairwise_cons]
      constructor
      · rintro ⟨⟨h1, h2⟩, h3⟩
        refine ⟨fun s hs hu => h3 u (by simp) hu s hs, h2, fun v hv hD s hs => ?_⟩
        rcases List.mem_append.1 hD with hD | hD
        · exact h3 v (by simp [hv]) hD s hs
        · rw [List.mem_singleton] at hD
          subst hD
          exact h1 _ hv rfl s hs
      · rintro ⟨h1, h2, h3⟩
        refine ⟨⟨fun v hv he s hs => ?_, h2⟩, fun v hv hD s hs => ?_⟩
        · exact h3 v hv (by simp [he]) s (he ▸ hs)
        · rcases List.mem_cons.1 hv with rfl | hv
          · exact h1 s hs hD
          · exact h3 v hv (by simp [hD]) s hs
    rw [noRep_cons, Sled.tryFold]
    obtain ⟨e, h1, hr⟩ := hn.lookupId (SX := SX) u
    unfold record
    rw [h1]
    cases hr with
    | id hu =>
      dsimp only
      have hm' : Holds f (D ++ [u]) m := by
        constructor
        · intro s v
          rw [hm.left]
          simp only [List.mem_append, List.mem_singleton]
          refine and_congr_right (fun hs => ⟨.inl, ?_⟩)
          rintro (h | rfl)
          · exact h
          · exact absurd hs (hu s)
        · intro s v
          rw [hm.right]
          simp only [List.mem_append, List.mem_singleton]
          refine and_congr_right (fun hs => ⟨.inl, ?_⟩)
          rintro (h | rfl)
          · exact h
          · exact absurd hs (hu s)
      rcases ih hm' with ⟨a, m', b, c⟩ | ⟨a, b⟩
      · refine .inl ⟨⟨fun s hs => absurd hs (hu s), a⟩, m', b, ?_⟩
        rw [List.append_assoc] at c; exact c
      · exact .inr ⟨fun h => a h.2, b⟩
    | @name s _ hs =>
      dsimp only
      rw [MemIndex.set_eq]
      by_cases hD : u ∈ D
      · rw [(hm.left s u).2 ⟨hs, hD⟩]
        exact .inr ⟨fun h => h.1 s hs hD, s, u, hs, rfl⟩
      · have l1 : m.leftToRight s = none := by
          cases hc : m.leftToRight s with
          | none => rfl
          | some v =>
            obtain ⟨a, b⟩ := (hm.left s v).1 hc
            rw [hs] at a; cases a; exact absurd b hD
        have l2 : m.rightToLeft u = none := by
          cases hc : m.rightToLeft u with
          | none => rfl
          | some v => exact absurd ((hm.right v u).1 hc).2 hD
        rw [l1, l2]
        dsimp only
        have hm' : Holds f (D ++ [u]) ⟨m.leftToRight.insert s u, m.rightToLeft.insert u s⟩ := by
          constructor
          · intro a v
            simp only [HMap.insert, List.mem_append, List.mem_singleton]
            by_cases ha : a = s
            · subst ha
              simp only [if_true, Option.some.injEq, hs]
              constructor
              · rintro rfl; exact ⟨rfl, .inr rfl⟩
              · exact fun h => h.1
            · simp only [ha, if_false, hm.left]
              refine and_congr_right (fun h => ⟨.inl, ?_⟩)
              rintro (h' | rfl)
              · exact h'
              · exact absurd (hi h hs) ha
          · intro a v
            simp only [HMap.insert, List.mem_append, List.mem_singleton]
            by_cases hv : v = u
            · subst hv
              simp only [if_true, Option.some.injEq, or_true, and_true]
              constructor
              · rintro rfl; exact hs
              · intro h; exact hi hs h
            · simp only [hv, if_false, hm.right, or_false]
        rcases ih hm' with ⟨a, m', b, c⟩ | ⟨a, b⟩
        · refine .inl ⟨⟨fun s' _ => hD, a⟩, m', b, ?_⟩
          rw [List.append_assoc] at c; exact c
        · exact .inr ⟨fun h => a h.2, b⟩

def idParts (t : Triple Ulid) : List Ulid := [t.sub, t.pred, t.obj]

theorem recordEdges_eq (m : MemIndex String Ulid) (l : List (Triple Ulid × EP)) :
    recordEdges (SX := SX) (QX := QX) ix r m (l.map .ok) =
      Sled.tryFold (record (SX := SX) (QX := QX) ix r) m (l.flatMap (fun x => idParts x.1)) := by
  induction l generalizing m with
  | nil => rfl
  | cons a l ih =>
    rw [List.map_cons, recordEdges, List.flatMap_cons, Sled.tryFold_append]
    change (match Sled.tryFold (record (SX := SX) (QX := QX) ix r) m (idParts a.1) with
      | Except.error e => Except.error e | Except.ok m => recordEdges (SX := SX) (QX := QX) ix r m (l.map Except.ok)) = _
    cases Sled.tryFold (record (SX := SX) (QX := QX) ix r) m (idParts a.1) with
    | error e => rfl
    | ok m' => exact ih m'

/-! ## the part of the graph asked for -/

theorem agree_select (hi : Inj f) (ha : Agree f G x) (q : Query Entity) (enc : Entity → Ulid)
    (hq : ∀ e ∈ queryEntities q, Ref f e (enc e)) :
    Agree f (select G (q.map enc)) { x with graph := select x.graph q } := by
  have key1 : ∀ (l : List Entity), (∀ e ∈ l, Ref f e (enc e)) → ∀ e u, Ref f e u →
      (u ∈ HSet.collect (l.map enc) ↔ e ∈ l) := by
    intro l hl e u hr
    rw [HSet.mem_collect, List.mem_map]
    constructor
    · rintro ⟨e', he', rfl⟩; rw [hr.snd hi (hl e' he')]; exact he'
    · intro he; exact ⟨e, he, (hl e he).fst hr⟩
  have key2 : ∀ (l : List (Entity × Entity)), (∀ e ∈ l, Ref f e.1 (enc e.1) ∧ Ref f e.2 (enc e.2)) → ∀ a b u v, Ref f a u →
      Ref f b v → ((u, v) ∈ HSet.collect (l.map (fun (a, b) => (enc a, enc b))) ↔ (a, b) ∈ l) := by
    intro l hl a b u v h1 h2
    rw [HSet.mem_collect, List.mem_map]
    constructor
    · rintro ⟨e', he', h⟩
      cases h
      rw [h1.snd hi (hl e' he').1, h2.snd hi (hl e' he').2]; exact he'
    · intro he; exact ⟨(a, b), he, by simp only [(hl _ he).1.fst h1, (hl _ he).2.fst h2]⟩
  have key3 : ∀ (l : List (Entity × Entity × Entity)),
      (∀ e ∈ l, Ref f e.1 (enc e.1) ∧ Ref f e.2.1 (enc e.2.1) ∧ Ref f e.2.2 (enc e.2.2)) → ∀ a b c u v w, Ref f a u →
      Ref f b v → Ref f c w →
      ((u, v, w) ∈ HSet.collect (l.map (fun (a, b, c) => (enc a, enc b, enc c))) ↔ (a, b, c) ∈ l) := by
    intro l hl a b c u v w h1 h2 h3
    rw [HSet.mem_collect, List.mem_map]
    constructor
    · rintro ⟨e', he', h⟩
      cases h
      rw [h1.snd hi (hl e' he').1, h2.snd hi (hl e' he').2.1, h3.snd hi (hl e' he').2.2]; exact he'
    · intro he
      exact ⟨(a, b, c), he, by simp only [(hl _ he).1.fst h1, (hl _ he).2.1.fst h2, (hl _ he).2.2.fst h3]⟩
  have ite_some : ∀ {α : Type} {c : Prop} [Decidable c] {o : Option α} {p : α}, (if c then o else none) = some p →
      o = some p := by
    intro α c _ o p h; split at h
    · exact h
    · cases h
  refine ⟨ha.known, ?_, ?_, ?_, ?_⟩
  · intro e u hr
    cases q with
    | NodeProps l =>
      have hl : ∀ e ∈ l, Ref f e (enc e) := fun e he => hq e (by simp [queryEntities, Query.items, he])
      simp only [select, Verif.Query.map, key1 l hl e u hr, ha.nodes e u hr]
    | SPO | S | P | O | SP | SO | PO => rfl
  · intro te tu h1 h2 h3
    have he := ha.edges te tu h1 h2 h3
    cases q with
    | NodeProps l => rfl
    | S l =>
      have hl : ∀ e ∈ l, Ref f e (enc e) := fun e he => hq e (by simp [queryEntities, Query.items, he])
      simp only [select, Verif.Query.map, key1 l hl _ _ h1, he]
    | P l =>
      have hl : ∀ e ∈ l, Ref f e (enc e) := fun e he => hq e (by simp [queryEntities, Query.items, he])
      simp only [select, Verif.Query.map, key1 l hl _ _ h2, he]
    | O l =>
      have hl : ∀ e ∈ l, Ref f e (enc e) := fun e he => hq e (by simp [queryEntities, Query.items, he])
      simp only [select, Verif.Query.map, key1 l hl _ _ h3, he]
    | SP l =>
      have hl : ∀ e ∈ l, Ref f e.1 (enc e.1) ∧ Ref f e.2 (enc e.2) := fun e he =>
        ⟨hq e.1 (List.mem_flatten.2 ⟨[e.1, e.2], List.mem_map.2 ⟨e, he, rfl⟩, by simp⟩),
          hq e.2 (List.mem_flatten.2 ⟨[e.1, e.2], List.mem_map.2 ⟨e, he, rfl⟩, by simp⟩)⟩
      simp only [select, Verif.Query.map, key2 l hl _ _ _ _ h1 h2, he]
    | SO l =>
      have hl : ∀ e ∈ l, Ref f e.1 (enc e.1) ∧ Ref f e.2 (enc e.2) := fun e he =>
        ⟨hq e.1 (List.mem_flatten.2 ⟨[e.1, e.2], List.mem_map.2 ⟨e, he, rfl⟩, by simp⟩),
          hq e.2 (List.mem_flatten.2 ⟨[e.1, e.2], List.mem_map.2 ⟨e, he, rfl⟩, by simp⟩)⟩
      simp only [select, Verif.Query.map, key2 l hl _ _ _ _ h1 h3, he]
    | PO l =>
      have hl : ∀ e ∈ l, Ref f e.1 (enc e.1) ∧ Ref f e.2 (enc e.2) := fun e he =>
        ⟨hq e.1 (List.mem_flatten.2 ⟨[e.1, e.2], List.mem_map.2 ⟨e, he, rfl⟩, by simp⟩),
          hq e.2 (List.mem_flatten.2 ⟨[e.1, e.2], List.mem_map.2 ⟨e, he, rfl⟩, by simp⟩)⟩
      simp only [select, Verif.Query.map, key2 l hl _ _ _ _ h2 h3, he]
    | SPO l =>
      have hl : ∀ e ∈ l, Ref f e.1 (enc e.1) ∧ Ref f e.2.1 (enc e.2.1) ∧ Ref f e.2.2 (enc e.2.2) := fun e he =>
        ⟨hq e.1 (List.mem_flatten.2 ⟨[e.1, e.2.1, e.2.2], List.mem_map.2 ⟨e, he, rfl⟩, by simp⟩),
          hq e.2.1 (List.mem_flatten.2 ⟨[e.1, e.2.1, e.2.2], List.mem_map.2 ⟨e, he, rfl⟩, by simp⟩),
          hq e.2.2 (List.mem_flatten.2 ⟨[e.1, e.2.1, e.2.2], List.mem_map.2 ⟨e, he, rfl⟩, by simp⟩)⟩
      simp only [select, Verif.Query.map, key3 l hl _ _ _ _ _ _ h1 h2 h3, he]
  · intro e p hp
    cases q with
    | NodeProps l => exact ha.noNode e p (ite_some hp)
    | SPO | S | P | O | SP | SO | PO => cases hp
  · intro t p hp
    cases q with
    | NodeProps l => cases hp
    | SPO | S | P | O | SP | SO | PO => exact ha.noEdge t p (ite_some hp)

/-- The names left in the index of a result are enough to read it. -/
theorem agree_restrict {R : Graph Ulid NP EP} {y : RdfState NP EP} (ha : Agree f R y) {f' : String → Option Ulid}
    {L : List Ulid} (hf : ∀ s u, f' s = some u ↔ f s = some u ∧ u ∈ L) (hN : ∀ u p, R.nodes u = some p → u ∈ L)
    (hE : ∀ t p, R.edges t = some p → t.sub ∈ L ∧ t.pred ∈ L ∧ t.obj ∈ L) :
    Agree f' R { known := fun s => (f' s).isSome, graph := y.graph } := by
  -- an id that occurs is read as before
  have down : ∀ e u, u ∈ L → Ref f' e u → Ref f e u := by
    intro e u hu hr
    cases hr with
    | name hs => exact .name ((hf _ _).1 hs).1
    | id hn => exact .id (fun s hs => hn s ((hf _ _).2 ⟨hs, hu⟩))
  have up : ∀ e u, u ∈ L → Ref f e u → Ref f' e u := by
    intro e u hu hr
    cases hr with
    | name hs => exact .name ((hf _ _).2 ⟨hs, hu⟩)
    | id hn => exact .id (fun s hs => hn s ((hf _ _).1 hs).1)
  -- an entity that occurs denotes an id that occurs
  have inN : ∀ e p, y.graph.nodes e = some p → ∃ u ∈ L, Ref f e u := by
    intro e p hp
    obtain ⟨u, hu⟩ := ha.noNode e p hp
    exact ⟨u, hN u p (by rw [← ha.nodes e u hu, hp]), hu⟩
  have inE : ∀ t p, y.graph.edges t = some p → ∃ u : Triple Ulid, RefT f t u ∧ u.sub ∈ L ∧ u.pred ∈ L ∧ u.obj ∈ L := by
    intro t p hp
    obtain ⟨⟨a, h1⟩, ⟨b, h2⟩, ⟨c, h3⟩⟩ := ha.noEdge t p hp
    exact ⟨⟨a, b, c⟩, ⟨h1, h2, h3⟩, hE ⟨a, b, c⟩ p (by rw [← ha.edges t ⟨a, b, c⟩ h1 h2 h3, hp])⟩
  have same : ∀ e u v, u ∈ L → Ref f e u → Ref f' e v → v = u := fun e u v hu h h' => h'.fst (up e u hu h)
  refine ⟨fun s => rfl, ?_, ?_, ?_, ?_⟩
  · intro e u hr
    by_cases hu : u ∈ L
    · exact ha.nodes e u (down e u hu hr)
    · have h1 : R.nodes u = none := by
        cases hc : R.nodes u with
        | none => rfl
        | some p => exact absurd (hN u p hc) hu
      rw [h1]
      cases hc : y.graph.nodes e with
      | none => rfl
      | some p =>
        obtain ⟨v, hv, hr'⟩ := inN e p hc
        exact absurd (same e v u hv hr' hr ▸ hv) hu
  · intro te tu h1 h2 h3
    by_cases hu : tu.sub ∈ L ∧ tu.pred ∈ L ∧ tu.obj ∈ L
    · exact ha.edges te tu (down _ _ hu.1 h1) (down _ _ hu.2.1 h2) (down _ _ hu.2.2 h3)
    · have e1 : R.edges tu = none := by
        cases hc : R.edges tu with
        | none => rfl
        | some p => exact absurd (hE tu p hc) hu
      rw [e1]
      cases hc : y.graph.edges te with
      | none => rfl
      | some p =>
        obtain ⟨v, hr, hv⟩ := inE te p hc
        refine absurd ?_ hu
        rw [same _ _ _ hv.1 hr.1 h1, same _ _ _ hv.2.1 hr.2.1 h2, same _ _ _ hv.2.2 hr.2.2 h3]
        exact hv
  · intro e p hp
    obtain ⟨u, hu, hr⟩ := inN e p hp
    exact ⟨u, up e u hu hr⟩
  · intro t p hp
    obtain ⟨u, hr, hu⟩ := inE t p hp
    exact ⟨⟨_, up _ _ hu.1 hr.1⟩, ⟨_, up _ _ hu.2.1 hr.2.1⟩, ⟨_, up _ _ hu.2.2 hr.2.2⟩⟩

/-- Recording the ids of the edges fails iff a name occurs twice. -/
theorem noRep_iff (hi : Inj f) (hd : ∀ u, ∃ e, Ref f e u) (ha : Agree f G x) {l : List (Triple Ulid × EP)} (hl : Lists (edgeLT .SPO) G.edges l) :
    NoRep f [] (l.flatMap (fun x => idParts x.1)) ↔ NamesOnce x.graph := by
  unfold NoRep
  rw [List.pairwise_flatMap]
  simp only [List.not_mem_nil, false_imp_iff, implies_true, and_true]
  have edge : ∀ t p, x.graph.edges t = some p → ∃ u : Triple Ulid, RefT f t u ∧ (u, p) ∈ l := by
    intro t p hp
    obtain ⟨⟨a, h1⟩, ⟨b, h2⟩, ⟨c, h3⟩⟩ := ha.noEdge t p hp
    exact ⟨⟨a, b, c⟩, ⟨h1, h2, h3⟩, (hl.2 _ _).2 (by rw [← ha.edges t ⟨a, b, c⟩ h1 h2 h3, hp])⟩
  have mem : ∀ {t : Triple Entity} {u : Triple Ulid}, RefT f t u → ∀ s, .string s ∈ RdfState.parts t →
      ∃ v ∈ idParts u, f s = some v := by
    intro t u hr s hs
    simp only [RdfState.parts, List.mem_cons, List.not_mem_nil, or_false] at hs
    rcases hs with hs | hs | hs
    · have := hr.1; rw [← hs] at this; cases this with | name h => exact ⟨_, by simp [idParts], h⟩
    · have := hr.2.1; rw [← hs] at this; cases this with | name h => exact ⟨_, by simp [idParts], h⟩
    · have := hr.2.2; rw [← hs] at this; cases this with | name h => exact ⟨_, by simp [idParts], h⟩
  have mem' : ∀ {t : Triple Entity} {u : Triple Ulid}, RefT f t u → ∀ s v, f s = some v → v ∈ idParts u →
      .string s ∈ RdfState.parts t := by
    intro t u hr s v hs hv
    simp only [idParts, List.mem_cons, List.not_mem_nil, or_false] at hv
    rcases hv with rfl | rfl | rfl
    · simp [RdfState.parts, (Ref.name hs).snd hi hr.1]
    · simp [RdfState.parts, (Ref.name hs).snd hi hr.2.1]
    · simp [RdfState.parts, (Ref.name hs).snd hi hr.2.2]
  have pw : ∀ {t : Triple Entity} {u : Triple Ulid}, RefT f t u →
      ((idParts u).Pairwise (fun a b => a = b → ∀ s, f s ≠ some a) ↔
        (RdfState.parts t).Pairwise (fun a b => a = b → ∀ s, a ≠ .string s)) := by
    intro t u hr
    have one : ∀ {e e' : Entity} {v v' : Ulid}, Ref f e v → Ref f e' v' →
        ((v = v' → ∀ s, f s ≠ some v) ↔ (e = e' → ∀ s, e ≠ .string s)) := by
      intro e e' v v' h h'
      rw [h.eq_iff hi h']
      refine imp_congr_right (fun _ => forall_congr' (fun s => not_congr ⟨fun hs => ?_, fun hs => ?_⟩))
      · exact h.snd hi (.name hs)
      · subst hs; cases h with | name h => exact h
    unfold idParts RdfState.parts
    simp only [List.pairwise_cons, List.mem_cons, List.not_mem_nil, or_false, forall_eq_or_imp, forall_eq,
      List.Pairwise.nil, and_true, false_imp_iff, implies_true]
    rw [one hr.1 hr.2.1, one hr.1 hr.2.2, one hr.2.1 hr.2.2]
  -- each id has an entity only if it is listed; get the entities of a listed edge
  constructor
  · rintro ⟨h1, h2⟩
    constructor
    · intro t p hp
      obtain ⟨u, hr, hm⟩ := edge t p hp
      exact (pw hr).1 (h1 _ hm)
    · intro t t' p p' hp hp' hne s hs hs'
      obtain ⟨u, hr, hm⟩ := edge t p hp
      obtain ⟨u', hr', hm'⟩ := edge t' p' hp'
      obtain ⟨v, hv, hsv⟩ := mem hr s hs
      obtain ⟨v', hv', hsv'⟩ := mem hr' s hs'
      rw [hsv] at hsv'
      cases hsv'
      have hne' : (u, p) ≠ (u', p') := fun h => hne ((hr.eq_iff hi hr').2 (congrArg Prod.fst h))
      have hsym : ∀ a b : Triple Ulid × EP, (∀ x ∈ idParts a.1, ∀ y ∈ idParts b.1, x = y → ∀ s, f s ≠ some x) →
          ∀ x ∈ idParts b.1, ∀ y ∈ idParts a.1, x = y → ∀ s, f s ≠ some x := by
        intro a b h x hx y hy e s; subst e; exact h x hy x hx rfl s
      haveI : Std.Symm (fun a b : Triple Ulid × EP =>
          ∀ x ∈ idParts a.1, ∀ y ∈ idParts b.1, x = y → ∀ s, f s ≠ some x) := ⟨fun a b h => hsym a b h⟩
      exact (h2.forall hm hm' hne') v hv v hv' rfl s hsv
  · rintro ⟨h1, h2⟩
    have dec : ∀ (a : Triple Ulid × EP), a ∈ l → ∃ t, RefT f t a.1 ∧ x.graph.edges t = some a.2 := by
      intro a ha'
      obtain ⟨s, hs⟩ := hd a.1.sub
      obtain ⟨p, hp⟩ := hd a.1.pred
      obtain ⟨o, ho⟩ := hd a.1.obj
      exact ⟨⟨s, p, o⟩, ⟨hs, hp, ho⟩, by rw [ha.edges ⟨s, p, o⟩ a.1 hs hp ho, (hl.2 _ _).1 ha']⟩
    constructor
    · intro a hal
      obtain ⟨t, hr, ht⟩ := dec a hal
      exact (pw hr).2 (h1 t a.2 ht)
    · refine (List.Pairwise.and_mem.1 hl.1).imp (fun {a b} hab v hv v' hv' e s hs => ?_)
      obtain ⟨ha1, hb1, hlt⟩ := hab
      subst e
      obtain ⟨t, hr, ht⟩ := dec a ha1
      obtain ⟨t', hr', ht'⟩ := dec b hb1
      refine h2 t t' _ _ ht ht' (fun e => ?_) s (mem' hr s v hs hv) (mem' hr' s v hs hv')
      have := (hr.eq_iff hi hr').1 e
      rw [this] at hlt
      exact edgeLT_irrefl _ _ hlt

/-! ## run -/

/-- a query asks for nodes or for edges -/
theorem select_nodes_or_edges (G : Graph Ulid NP EP) (q : Query Ulid) :
    (∀ u, (select G q).nodes u = none) ∨ ∀ t, (select G q).edges t = none := by
  cases q with
  | NodeProps => exact .inr (fun _ => rfl)
  | SPO | S | P | O | SP | SO | PO => exact .inl (fun _ => rfl)

variable {runS : RunImpl S SX Q QX Ulid} {qst : StoreImpl Q QX Ulid NP EP} {QOk : Nat → Q → Graph Ulid NP EP → Prop}
  {okN' : NP → Bool} {okE' : EP → Bool} {qbad : QX} {mN' : NP → NP → NP} {mE' : EP → EP → EP}

/-- what `run` returns when the query on the triple store returned a store showing `R`, read as `y` -/
theorem run_core (qlaw : StoreLaw qst okN' okE' qbad mN' mE' QOk) (hn : ix.Shows r.nameIndex f) {R : Graph Ulid NP EP}
    {y : RdfState NP EP} (hA : Agree f R y) (h0 : (∀ u, R.nodes u = none) ∨ ∀ t, R.edges t = none) {q : Query Entity} {q' : Query Ulid}
    (hmap : q.tryMap (fun e => r.lookupEntity (SX := SX) ix e) = .ok q') {g : Gen Ulid} {res : Q}
    (h1 : runS r.graph g q' = .ok res) {m : Nat} (h2 : QOk m res R) (u : Gen Ulid) :
    (NamesOnce y.graph ∧ ∃ rr f', run ix runS qst r g u q = .ok rr ∧ rr.ulid = u ∧ rr.graph = res ∧
      MemIndex.impl.Shows rr.nameIndex f' ∧ Agree f' R { known := fun s => (f' s).isSome, graph := y.graph } ∧
      (∀ s v, f' s = some v → f s = some v) ∧
      ∀ s v, f' s = some v → (R.nodes v).isSome ∨ ∃ t, (R.edges t).isSome ∧ v ∈ idParts t) ∨
    (¬ NamesOnce y.graph ∧ ∃ s v, f s = some v ∧
      run ix runS qst r g u q = .error (.right (.nameIndex (.duplicateRight s v v)))) := by
  have hi : Inj f := hn.inj
  have hd : ∀ u, ∃ e, Ref f e u := fun u => (hn.lookupId (SX := Unit) u).imp (fun _ h => h.2)
  -- what the result lists
  obtain ⟨vs, v1, v2⟩ := qlaw.vertices h2
  obtain ⟨⟨lN, e1, hlN⟩, hE⟩ := qlaw.shows h2
  obtain ⟨lE, e2, hlE⟩ := hE .SPO
  dsimp only at e1 e2
  have hvs : vs = lN.map Prod.fst := by
    rw [e1, List.map_map] at v2
    have := congrArg (Sled.collect (X := QX)) v2
    rw [collect_ok', show lN.map (Except.map Prod.fst ∘ Except.ok) = (lN.map Prod.fst).map (Except.ok (ε := QX)) by
      rw [List.map_map]; rfl, collect_ok'] at this
    exact (Except.ok.inj this).symm
  have hvnd : vs.Nodup := by
    rw [hvs, List.Nodup, List.pairwise_map]
    exact hlN.1.imp (fun {a b} hab he => by rw [he] at hab; exact lt_irrefl _ hab)
  have hrunv : ∀ (y : Except (RunErr IX SX QX) (MemIndex String Ulid)),
      Sled.tryFold (record (SX := SX) (QX := QX) ix r) .new vs = y →
      run ix runS qst r g u q = match y with
        | .error e => .error e
        | .ok m =>
          match Sled.tryFold (record (SX := SX) (QX := QX) ix r) m (lE.flatMap (fun x => idParts x.1)) with
          | .error e => .error e
          | .ok m => .ok (new m res u) := by
    intro y hy
    unfold run
    rw [hmap]; dsimp only
    rw [h1]; dsimp only
    rw [v1]; dsimp only
    rw [hy]
    cases y with
    | error e => rfl
    | ok m =>
      dsimp only
      rw [e2, recordEdges_eq]
      cases Sled.tryFold (record (SX := SX) (QX := QX) ix r) m (lE.flatMap (fun x => idParts x.1)) <;> rfl
  have hvok : NoRep f [] vs := ⟨hvnd.imp (fun {a b} hne he => absurd he hne), by simp⟩
  rcases record_fold (SX := SX) (QX := QX) hn vs (holds_new (f := f)) with ⟨-, m1, hm1, hold1⟩ | ⟨hno, -⟩
  · rw [List.nil_append] at hold1
    have hrun := hrunv _ hm1
    dsimp only at hrun
    have hOnce : NoRep f vs (lE.flatMap (fun x => idParts x.1)) ↔ NamesOnce y.graph := by
      rw [← noRep_iff hi hd hA hlE]
      rcases h0 with h0 | h0
      · have : lN = [] := by
          rcases lN with _ | ⟨a, l⟩
          · rfl
          · have := (hlN.2 a.1 a.2).1 (by simp); rw [h0] at this; cases this
        rw [hvs, this]; rfl
      · have : lE = [] := by
          rcases lE with _ | ⟨a, l⟩
          · rfl
          · have := (hlE.2 a.1 a.2).1 (by simp); rw [h0] at this; cases this
        rw [this]
        exact ⟨fun _ => ⟨List.Pairwise.nil, by simp⟩, fun _ => ⟨List.Pairwise.nil, by simp⟩⟩
    rcases record_fold (SX := SX) (QX := QX) hn (lE.flatMap (fun x => idParts x.1)) hold1 with
      ⟨hok, m2, hm2, hold2⟩ | ⟨hno, s, v, hs, herr⟩
    · rw [hm2] at hrun
      refine .inl ⟨hOnce.1 hok, new m2 res u, m2.leftToRight, hrun, rfl, rfl, ⟨fun a => rfl, fun b => ?_⟩, ?_,
        fun s v h => ((hold2.left s v).1 h).1, fun s v h => ?_⟩
      · exact ⟨m2.rightToLeft b, rfl, fun a => by rw [hold2.left, hold2.right]⟩
      · refine agree_restrict hA hold2.left (fun v p hp => ?_) (fun t p hp => ?_)
        · refine List.mem_append_left _ ?_
          rw [hvs]; exact List.mem_map.2 ⟨_, (hlN.2 v p).2 hp, rfl⟩
        · have hm := (hlE.2 t p).2 hp
          refine ⟨?_, ?_, ?_⟩ <;>
            exact List.mem_append_right _ (List.mem_flatMap.2 ⟨_, hm, by simp [idParts]⟩)
      · rcases List.mem_append.1 ((hold2.left s v).1 h).2 with hv | hv
        · rw [hvs] at hv
          obtain ⟨a, ha, rfl⟩ := List.mem_map.1 hv
          exact .inl (Option.isSome_iff_exists.2 ⟨_, (hlN.2 a.1 a.2).1 ha⟩)
        · obtain ⟨a, ha, hv⟩ := List.mem_flatMap.1 hv
          exact .inr ⟨a.1, Option.isSome_iff_exists.2 ⟨_, (hlE.2 a.1 a.2).1 ha⟩, hv⟩
    · rw [herr] at hrun
      exact .inr ⟨fun h => hno (hOnce.2 h), s, v, hs, hrun⟩
  · exact absurd hvok hno

theorem run_spec (rlaw : RunLaw st runS Ok QOk) (qlaw : StoreLaw qst okN' okE' qbad mN' mE' QOk)
    (hn : ix.Shows r.nameIndex f) (hg : Ok n r.graph G) (ha : Agree f G x) (q : Query Entity)
    (hq : ∀ e ∈ queryEntities q, ∃ u, r.lookupEntity (SX := SX) ix e = .ok u ∧ Ref f e u) (m : Nat) (g u : Gen Ulid)
    (hf : Fresh (m + (st.iterEdges r.graph .SPO).length) g) :
    (NamesOnce (select x.graph q) ∧ ∃ res f' R, run ix runS qst r g u q = .ok res ∧ res.ulid = u ∧
      MemIndex.impl.Shows res.nameIndex f' ∧ QOk m res.graph R ∧
      Agree f' R { known := fun s => (f' s).isSome, graph := select x.graph q } ∧
      (∀ s v, f' s = some v → f s = some v) ∧ (∀ v p, R.nodes v = some p → G.nodes v = some p) ∧
      (∀ t p, R.edges t = some p → G.edges t = some p) ∧
      (∀ s v, f' s = some v → (R.nodes v).isSome ∨ ∃ t, (R.edges t).isSome ∧ v ∈ idParts t) ∧
      ∃ q', Spec.Query.Nodup q' ∧ runS r.graph g q' = .ok res.graph) ∨
    (¬ NamesOnce (select x.graph q) ∧ ∃ s v, f s = some v ∧
      run ix runS qst r g u q = .error (.right (.nameIndex (.duplicateRight s v v)))) := by
  have hi : Inj f := hn.inj
  -- the ids of the entities asked about
  let enc : Entity → Ulid := fun e => match r.lookupEntity (SX := SX) ix e with | .ok u => u | .error _ => 0
  have henc : ∀ e ∈ queryEntities q, r.lookupEntity (SX := SX) ix e = .ok (enc e) ∧ Ref f e (enc e) := by
    intro e he
    obtain ⟨v, h1, h2⟩ := hq e he
    have : enc e = v := by simp only [enc, h1]
    rw [this]; exact ⟨h1, h2⟩
  have hmap : q.tryMap (fun e => r.lookupEntity (SX := SX) ix e) = .ok (q.map enc) :=
    Props.C42_tryMap_ok _ enc q (fun y hy a hy' => (henc a (List.mem_flatten.2 ⟨y, hy, hy'⟩)).1)
  obtain ⟨res, h1, h2⟩ := rlaw n m r.graph G g (q.map enc) hg (Props.C42_map enc q).2.1 hf
  have hA := agree_select hi ha q enc (fun e he => (henc e he).2)
  have hsub : (∀ v p, (select G (q.map enc)).nodes v = some p → G.nodes v = some p) ∧
      ∀ t p, (select G (q.map enc)).edges t = some p → G.edges t = some p := by
    have ite_some : ∀ {α : Type} {c : Prop} [Decidable c] {o : Option α} {p : α}, (if c then o else none) = some p →
        o = some p := by
      intro α c _ o p h; split at h
      · exact h
      · cases h
    cases q with
    | NodeProps l => exact ⟨fun v p h => ite_some h, fun t p h => by cases h⟩
    | SPO | S | P | O | SP | SO | PO => exact ⟨fun v p h => (by cases h), fun t p h => ite_some h⟩
  rcases run_core (SX := SX) (QX := QX) qlaw hn hA (select_nodes_or_edges G (q.map enc)) hmap h1 h2 u with
    ⟨k1, rr, f', k2, k3, k4, k5, k6, k7, k8⟩ | h
  · exact .inl ⟨k1, rr, f', _, k2, k3, k5, k4 ▸ h2, k6, k7, hsub.1, hsub.2, k8, _, (Props.C42_map enc q).2.1, k4 ▸ h1⟩
  · exact .inr h

end Rdf

end Verif
