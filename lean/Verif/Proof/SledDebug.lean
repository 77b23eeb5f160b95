import Mathlib.Data.List.Induction
import Verif.Spec.SledDebug
import Verif.Proof.SledWell
import Verif.Proof.SledReach

/-! # `Debug` of the sled back-end -/

namespace Verif

open Spec ConcreteId

variable {Id NP EP E : Type} [LinearOrder Id] [ConcreteId Id] [LawfulId Id] {c : Codecs NP EP}

namespace Sled

theorem debugNodes_ok (F : SledFmt Id) {l : List (Bytes × Bytes)} (h : ∀ e ∈ l, e.1.length = idLen (Id := Id)) :
    ∃ ns : List Id, l.map Prod.fst = ns.map (fun n => (toBeBytes n).1) ∧
      debugNodes F l = .ok (ns.map (fun n => "  " ++ F.showId n ++ " -> " ++ F.showUnit ++ "\n")) := by
  induction l with
  | nil => exact ⟨[], rfl, rfl⟩
  | cons e l ih =>
    obtain ⟨k, v⟩ := e
    obtain ⟨ns, h1, h2⟩ := ih (fun e he => h e (List.mem_cons_of_mem _ he))
    rcases node_cases (Id := Id) k with ⟨n, rfl⟩ | ⟨h', -⟩
    · refine ⟨n :: ns, by rw [List.map_cons, h1]; rfl, ?_⟩
      simp only [debugNodes, LawfulId.try_toBe, h2, List.map_cons]
    · exact absurd (h (k, v) (by simp)) h'

theorem debugNodes_err (F : SledFmt Id) {l : List (Bytes × Bytes)} (h : ∃ e ∈ l, e.1.length ≠ idLen (Id := Id)) :
    debugNodes F l = .error () := by
  induction l with
  | nil => obtain ⟨e, he, -⟩ := h; cases he
  | cons e l ih =>
    obtain ⟨k, v⟩ := e
    rcases node_cases (Id := Id) k with ⟨n, rfl⟩ | ⟨h', hn⟩
    · have : debugNodes F l = .error () := by
        obtain ⟨e, he, hl⟩ := h
        rcases List.mem_cons.1 he with rfl | he
        · exact absurd (toBeBytes n).2 hl
        · exact ih ⟨e, he, hl⟩
      simp only [debugNodes, LawfulId.try_toBe, this]
    · simp only [debugNodes, hn]

/-- one line of an edge section -/
def edgeLine (F : SledFmt Id) (hashes : BMap Bytes Nat) (x : Triple Id × Bytes) : String :=
  "  (" ++ F.showId x.1.sub ++ ", " ++ F.showId x.1.pred ++ ", " ++ F.showId x.1.obj ++ ") -> " ++
    (match hashes.get x.2 with
     | some h => F.hex h ++ "\n"
     | none => "_\n")

theorem debugEdges_ok (F : SledFmt Id) (hashes : BMap Bytes Nat) (o : EdgeOrder) {l : List (Bytes × Bytes)}
    (h : ∀ e ∈ l, e.1.length = tripleLen (Id := Id)) :
    ∃ ts : List (Triple Id × Bytes), l = ts.map (fun x => ((encOf o x.1).1, x.2)) ∧
      debugEdges F hashes (decOf o) l = .ok (ts.map (edgeLine F hashes)) := by
  induction l with
  | nil => exact ⟨[], rfl, rfl⟩
  | cons e l ih =>
    obtain ⟨k, v⟩ := e
    obtain ⟨ts, h1, h2⟩ := ih (fun e he => h e (List.mem_cons_of_mem _ he))
    rcases key_cases (Id := Id) o k with ⟨t, rfl⟩ | ⟨h', -⟩
    · refine ⟨(t, v) :: ts, by rw [List.map_cons, ← h1], ?_⟩
      simp only [debugEdges, tryFrom_arr, decOf_enc, h2, List.map_cons]
      rfl
    · exact absurd (h (k, v) (by simp)) h'

theorem debugEdges_err (F : SledFmt Id) (hashes : BMap Bytes Nat) (o : EdgeOrder) {l : List (Bytes × Bytes)}
    (h : ∃ e ∈ l, e.1.length ≠ tripleLen (Id := Id)) : debugEdges F hashes (decOf o) l = .error () := by
  induction l with
  | nil => obtain ⟨e, he, -⟩ := h; cases he
  | cons e l ih =>
    obtain ⟨k, v⟩ := e
    rcases key_cases (Id := Id) o k with ⟨t, rfl⟩ | ⟨h', hn⟩
    · have : debugEdges F hashes (decOf o) l = .error () := by
        obtain ⟨e, he, hl⟩ := h
        rcases List.mem_cons.1 he with rfl | he
        · exact absurd (encOf o t).2 hl
        · exact ih ⟨e, he, hl⟩
      simp only [debugEdges, tryFrom_arr, this]
    · simp only [debugEdges, hn]

/-- the lists read have keys of the right sizes -/
structure Sized (Id : Type) [LinearOrder Id] [ConcreteId Id] (nodes spo pos osp : List (Bytes × Bytes)) : Prop where
  nodes : ∀ e ∈ nodes, e.1.length = idLen (Id := Id)
  spo : ∀ e ∈ spo, e.1.length = tripleLen (Id := Id)
  pos : ∀ e ∈ pos, e.1.length = tripleLen (Id := Id)
  osp : ∀ e ∈ osp, e.1.length = tripleLen (Id := Id)

theorem debugOf_ok (F : SledFmt Id) {nodes spo recs spo' pos osp : List (Bytes × Bytes)} (h : Sized Id nodes spo' pos osp) :
    ∃ (ns : List Id) (ts tp tq : List (Triple Id × Bytes)), nodes.map Prod.fst = ns.map (fun n => (toBeBytes n).1) ∧
      spo' = ts.map (fun x => ((encOf .SPO x.1).1, x.2)) ∧ pos = tp.map (fun x => ((encOf .POS x.1).1, x.2)) ∧
      osp = tq.map (fun x => ((encOf .OSP x.1).1, x.2)) ∧
      debugOf F nodes spo recs spo' pos osp = .ok (["SledTripleStore:\n", " Node Properties:\n"] ++
        ns.map (fun n => "  " ++ F.showId n ++ " -> " ++ F.showUnit ++ "\n") ++ [" Edge Properties:\n"] ++
        debugProps F (debugRecords (debugHashes F spo) recs) ++ [" Edges (SPO):\n"] ++
        ts.map (edgeLine F (debugHashes F spo)) ++ [" Edges (POS):\n"] ++
        tp.map (edgeLine F (debugHashes F spo)) ++ [" Edges (OSP):\n"] ++ tq.map (edgeLine F (debugHashes F spo))) := by
  obtain ⟨ns, n1, n2⟩ := debugNodes_ok F h.nodes
  obtain ⟨ts, s1, s2⟩ := debugEdges_ok F (debugHashes F spo) .SPO h.spo
  obtain ⟨tp, p1, p2⟩ := debugEdges_ok F (debugHashes F spo) .POS h.pos
  obtain ⟨tq, o1, o2⟩ := debugEdges_ok F (debugHashes F spo) .OSP h.osp
  refine ⟨ns, ts, tp, tq, n1, s1, p1, o1, ?_⟩
  have s2 : debugEdges F (debugHashes F spo) decodeSpo spo' = _ := s2
  have p2 : debugEdges F (debugHashes F spo) decodePos pos = _ := p2
  have o2 : debugEdges F (debugHashes F spo) decodeOsp osp = _ := o2
  unfold debugOf
  simp only [n2, s2, p2, o2]

theorem debugOf_err (F : SledFmt Id) {nodes spo recs spo' pos osp : List (Bytes × Bytes)} (h : ¬ Sized Id nodes spo' pos osp) :
    debugOf F nodes spo recs spo' pos osp = .error () := by
  by_cases hn : ∀ e ∈ nodes, e.1.length = idLen (Id := Id)
  · by_cases hs : ∀ e ∈ spo', e.1.length = tripleLen (Id := Id)
    · obtain ⟨ns, -, n2⟩ := debugNodes_ok F hn
      obtain ⟨ts, -, s2⟩ := debugEdges_ok F (debugHashes F spo) .SPO hs
      have s2 : debugEdges F (debugHashes F spo) decodeSpo spo' = _ := s2
      by_cases hp : ∀ e ∈ pos, e.1.length = tripleLen (Id := Id)
      · obtain ⟨tp, -, p2⟩ := debugEdges_ok F (debugHashes F spo) .POS hp
        have p2 : debugEdges F (debugHashes F spo) decodePos pos = _ := p2
        have o2 : debugEdges F (debugHashes F spo) decodeOsp osp = _ :=
          debugEdges_err F (debugHashes F spo) .OSP (l := osp) (by
            by_contra ho; push Not at ho; exact h ⟨hn, hs, hp, ho⟩)
        simp only [debugOf, n2, s2, p2, o2]
      · have p2 : debugEdges F (debugHashes F spo) decodePos pos = _ :=
          debugEdges_err F (debugHashes F spo) .POS (l := pos) (by push Not at hp; exact hp)
        simp only [debugOf, n2, s2, p2]
    · obtain ⟨ns, -, n2⟩ := debugNodes_ok F hn
      have s2 : debugEdges F (debugHashes F spo) decodeSpo spo' = _ :=
        debugEdges_err F (debugHashes F spo) .SPO (l := spo') (by push Not at hs; exact hs)
      simp only [debugOf, n2, s2]
  · simp only [debugOf, debugNodes_err F (l := nodes) (by push Not at hn; exact hn)]

/-! ## the property section -/

theorem foldl_insert_last {K V α : Type} [LinearOrder K] (κ : α → K) (ν : α → V) (l : List α) (k : K) :
    (l.foldl (fun m e => m.insert (κ e) (ν e)) BMap.empty).get k =
      ((l.filter (fun e => decide (κ e = k))).getLast?).map ν := by
  induction l using List.reverseRecOn with
  | nil => rfl
  | append_singleton l a ih =>
    rw [List.foldl_append, List.foldl_cons, List.foldl_nil, BMap.get_insert, ih, List.filter_append]
    by_cases h : κ a = k
    · simp [h]
    · have h' : ¬ k = κ a := fun e => h e.symm
      simp [h, h']

theorem bot_split {V : Type} {l : List (WithBot Nat × V)} (h : l.Pairwise (fun a b => a.1 < b.1)) :
    ∃ (first : Option V) (rest : List (Nat × V)),
      l = first.toList.map (fun v => ((⊥ : WithBot Nat), v)) ++ rest.map (fun x => ((x.1 : WithBot Nat), x.2)) := by
  have key : ∀ l : List (WithBot Nat × V), (∀ e ∈ l, e.1 ≠ ⊥) → ∃ rest : List (Nat × V), l = rest.map (fun x => ((x.1 : WithBot Nat), x.2)) := by
    intro l hl
    induction l with
    | nil => exact ⟨[], rfl⟩
    | cons a l ih =>
      obtain ⟨rest, hr⟩ := ih (fun e he => hl e (List.mem_cons_of_mem _ he))
      obtain ⟨k, v⟩ := a
      obtain ⟨n, rfl⟩ := WithBot.ne_bot_iff_exists.1 (hl (k, v) (by simp))
      exact ⟨(n, v) :: rest, by rw [List.map_cons, hr]⟩
  cases l with
  | nil => exact ⟨none, [], rfl⟩
  | cons a l =>
    obtain ⟨rest, hr⟩ := key l (fun e he => ne_bot_of_gt ((List.pairwise_cons.1 h).1 e he))
    obtain ⟨k, v⟩ := a
    by_cases hk : k = ⊥
    · subst hk
      exact ⟨some v, rest, by rw [hr]; rfl⟩
    · obtain ⟨n, rfl⟩ := WithBot.ne_bot_iff_exists.1 hk
      exact ⟨none, (n, v) :: rest, by rw [hr]; rfl⟩

omit [LawfulId Id] in
theorem debugHashes_get (F : SledFmt Id) {d : Db} (h : d.Inv Id c) {t : Triple Id} {v : Bytes} (hv : d.idIn .SPO t = some v) :
    (debugHashes F d.spo.entries).get v = some (F.hash (encodeSpo t).1) := by
  unfold debugHashes
  rw [Mem.foldl_insert_get_iff (fun e : Bytes × Bytes => e.2) (fun e => F.hash e.1)]
  · exact ⟨((encodeSpo t).1, v), BMap.mem_entries.2 hv, rfl, rfl⟩
  · refine List.Pairwise.imp_of_mem (R := fun a b => a.1 < b.1) ?_ d.spo.sorted
    rintro ⟨k, x⟩ ⟨k', y⟩ hk hk' hlt (e : x = y)
    subst e
    obtain ⟨t, rfl⟩ := h.keys .SPO _ _ (BMap.mem_entries.1 hk)
    obtain ⟨u, rfl⟩ := h.keys .SPO _ _ (BMap.mem_entries.1 hk')
    have := h.inj t u x (BMap.mem_entries.1 hk) (BMap.mem_entries.1 hk')
    subst this
    exact lt_irrefl _ hlt

omit [LinearOrder Id] [ConcreteId Id] [LawfulId Id] in
theorem debugHashes_none (F : SledFmt Id) {d : Db} {v : Bytes} :
    (debugHashes F d.spo.entries).get v = none ↔ Unreferenced d v := by
  unfold debugHashes
  rw [foldl_insert_last (fun e : Bytes × Bytes => e.2) (fun e => F.hash e.1), Option.map_eq_none_iff, List.getLast?_eq_none_iff,
    List.filter_eq_nil_iff]
  simp [Unreferenced]

theorem last_filter {α : Type} {P : α → Bool} {R : α → α → Prop} {l : List α} (hR : l.Pairwise R) {a : α} :
    (l.filter P).getLast? = some a → a ∈ l ∧ P a = true ∧ ∀ b ∈ l, P b = true → b = a ∨ R b a := by
  intro h
  obtain ⟨pre, hp⟩ := List.getLast?_eq_some_iff.1 h
  have ha : a ∈ l.filter P := by rw [hp]; simp
  have hs := hR.sublist (List.filter_sublist (p := P))
  rw [hp, List.pairwise_append] at hs
  refine ⟨(List.mem_filter.1 ha).1, (List.mem_filter.1 ha).2, fun b hb hP => ?_⟩
  have : b ∈ pre ++ [a] := by rw [← hp]; exact List.mem_filter.2 ⟨hb, hP⟩
  rcases List.mem_append.1 this with hb | hb
  · exact .inr (hs.2.2 b hb a (by simp))
  · exact .inl (by simpa using hb)

/-- what a map collected from the entries of another holds: the last of those with the key -/
theorem foldl_insert_max {K : Type} [LinearOrder K] (κ : Bytes → K) (m : BMap Bytes Bytes) (k : K) (b : Bytes) :
    (m.entries.foldl (fun m e => m.insert (κ e.1) e.2) BMap.empty).get k = some b ↔
      ∃ v, m.get v = some b ∧ κ v = k ∧ ∀ v', (m.get v').isSome → κ v' = k → v' ≤ v := by
  rw [foldl_insert_last (fun e : Bytes × Bytes => κ e.1) (fun e => e.2), Option.map_eq_some_iff]
  constructor
  · rintro ⟨⟨v, b'⟩, h, rfl⟩
    obtain ⟨h1, h2, h3⟩ := last_filter m.sorted h
    refine ⟨v, BMap.mem_entries.1 h1, by simpa using h2, fun v' hv' hk => ?_⟩
    obtain ⟨b'', hb''⟩ := Option.isSome_iff_exists.1 hv'
    rcases h3 (v', b'') (BMap.mem_entries.2 hb'') (by simpa using hk) with e | e
    · cases e; exact le_refl _
    · exact le_of_lt e
  · rintro ⟨v, hv, hk, hmax⟩
    have hm : (v, b) ∈ m.entries.filter (fun e : Bytes × Bytes => decide (κ e.1 = k)) :=
      List.mem_filter.2 ⟨BMap.mem_entries.2 hv, by simpa using hk⟩
    have hl := List.getLast?_eq_getLast_of_ne_nil (List.ne_nil_of_mem hm)
    obtain ⟨h1, h2, h3⟩ := last_filter m.sorted hl
    refine ⟨_, hl, ?_⟩
    generalize List.getLast _ _ = x at h1 h2 h3
    obtain ⟨v', b'⟩ := x
    rcases h3 (v, b) (BMap.mem_entries.2 hv) (by simpa using hk) with e | e
    · cases e; rfl
    · exact absurd (hmax v' (by rw [BMap.mem_entries.1 h1]; rfl) (by simpa using h2)) (not_le.2 e)

theorem foldl_insert_some {K : Type} [LinearOrder K] (κ : Bytes → K) (m : BMap Bytes Bytes) {v b : Bytes} (h : m.get v = some b) :
    ∃ b', (m.entries.foldl (fun m e => m.insert (κ e.1) e.2) BMap.empty).get (κ v) = some b' := by
  rw [foldl_insert_last (fun e : Bytes × Bytes => κ e.1) (fun e => e.2)]
  have hm : (v, b) ∈ m.entries.filter (fun e : Bytes × Bytes => decide (κ e.1 = κ v)) :=
    List.mem_filter.2 ⟨BMap.mem_entries.2 h, by simp⟩
  rw [List.getLast?_eq_getLast_of_ne_nil (List.ne_nil_of_mem hm)]
  exact ⟨_, rfl⟩

/-- the key of a record in `hash_to_edge_data` -/
def hashKey (hashes : BMap Bytes Nat) (v : Bytes) : WithBot Nat := (hashes.get v : Option Nat)

theorem debugRecords_get (hashes : BMap Bytes Nat) (m : BMap Bytes Bytes) (k : WithBot Nat) (b : Bytes) :
    (debugRecords hashes m.entries).get k = some b ↔
      ∃ v, m.get v = some b ∧ hashKey hashes v = k ∧ ∀ v', (m.get v').isSome → hashKey hashes v' = k → v' ≤ v :=
  foldl_insert_max (hashKey hashes) m k b

omit [LawfulId Id] in
theorem Sized.of_inv {d : Db} (h : d.Inv Id c) :
    Sized Id d.nodeProps.entries d.spo.entries d.pos.entries d.osp.entries := by
  have ho : ∀ o, ∀ e ∈ (d.tree o).entries, e.1.length = tripleLen (Id := Id) := by
    rintro o ⟨k, v⟩ he
    obtain ⟨t, rfl⟩ := h.keys o k v (BMap.mem_entries.1 he)
    exact (encOf o t).2
  refine ⟨?_, ho .SPO, ho .POS, ho .OSP⟩
  rintro ⟨k, b⟩ he
  obtain ⟨⟨n, rfl⟩, -⟩ := h.nodes k b (BMap.mem_entries.1 he)
  exact (toBeBytes n).2

/-- the triples printed for one ordering -/
theorem printed_triples {d : Db} (h : d.Inv Id c) (F : SledFmt Id) (o : EdgeOrder) {ts : List (Triple Id × Bytes)}
    (hts : (d.tree o).entries = ts.map (fun x => ((encOf o x.1).1, x.2))) :
    (ts.map Prod.fst).Pairwise (edgeLT o) ∧ (∀ t, t ∈ ts.map Prod.fst ↔ ((d.graph (Id := Id) c).edges t).isSome) ∧
      ts.map (edgeLine F (debugHashes F d.spo.entries)) = (ts.map Prod.fst).map (fun t =>
        "  (" ++ F.showId t.sub ++ ", " ++ F.showId t.pred ++ ", " ++ F.showId t.obj ++ ") -> " ++
          (F.hex (F.hash (encodeSpo t).1) ++ "\n")) := by
  have hmem : ∀ t v, (t, v) ∈ ts ↔ d.idIn o t = some v := by
    intro t v
    rw [Db.idIn, ← BMap.mem_entries, hts, List.mem_map]
    constructor
    · exact fun h => ⟨_, h, rfl⟩
    · rintro ⟨⟨u, w⟩, hu, e⟩
      obtain ⟨e1, e2⟩ := Prod.mk.inj e
      obtain rfl := (encOf_inj o).1 e1
      obtain rfl : w = v := e2
      exact hu
  refine ⟨?_, fun t => ?_, ?_⟩
  · have := (d.tree o).sorted
    rw [hts, List.pairwise_map] at this
    rw [List.pairwise_map]
    exact this.imp (fun h => (encOf_lt o).1 h)
  · rw [List.mem_map]
    constructor
    · rintro ⟨⟨u, v⟩, hu, rfl⟩
      have h1 := (hmem _ _).1 hu
      obtain ⟨b, p, hb, hp⟩ := h.recsAll o _ v h1
      rw [h.same] at h1
      simp [Db.graph, Db.view, h1, hb, hp]
    · intro ht
      obtain ⟨p, hp⟩ := Option.isSome_iff_exists.1 ht
      obtain ⟨v, hv, -⟩ := Option.bind_eq_some_iff.1 hp
      exact ⟨(t, v), (hmem _ _).2 ((h.same o t).trans hv), rfl⟩
  · rw [List.map_map]
    refine List.map_congr_left (fun x hx => ?_)
    obtain ⟨t, v⟩ := x
    have h1 := (hmem _ _).1 hx
    rw [h.same] at h1
    simp only [edgeLine, Function.comp, debugHashes_get F h h1]

theorem debug_output (F : SledFmt Id) (hc : c.RoundTrip) {d : Db} (h : d.Inv Id c) (hw : WellFormed Id c d) :
    ∃ ns leaked recs es, debug F d = .ok (sledText F ns leaked recs es) ∧
      (ns.Pairwise (· < ·) ∧ ∀ n, n ∈ ns ↔ ((d.graph (Id := Id) c).nodes n).isSome) ∧
      (∀ b, leaked = some b ↔ ∃ k, d.edgeProps.get k = some b ∧ Unreferenced d k ∧
        ∀ k', (d.edgeProps.get k').isSome → Unreferenced d k' → k' ≤ k) ∧
      (recs.Pairwise (fun a b => a.1 < b.1) ∧
        (∀ x ∈ recs, ∃ t p, (d.graph (Id := Id) c).edges t = some p ∧ F.hash (encodeSpo t).1 = x.1 ∧ c.e.ser p = some x.2) ∧
        ∀ t, ((d.graph (Id := Id) c).edges t).isSome → ∃ b, (F.hash (encodeSpo t).1, b) ∈ recs) ∧
      ∀ o, (es o).Pairwise (edgeLT o) ∧ ∀ t, t ∈ es o ↔ ((d.graph (Id := Id) c).edges t).isSome := by
  obtain ⟨ns, ts, tp, tq, h1, h2, h3, h4, h5⟩ := debugOf_ok F (spo := d.spo.entries) (recs := d.edgeProps.entries) (Sized.of_inv h)
  obtain ⟨s1, s2, s3⟩ := printed_triples h F .SPO h2
  obtain ⟨p1, p2, p3⟩ := printed_triples h F .POS h3
  obtain ⟨o1, o2, o3⟩ := printed_triples h F .OSP h4
  set m := debugRecords (debugHashes F d.spo.entries) d.edgeProps.entries with hm
  obtain ⟨leaked, recs, hl⟩ := bot_split m.sorted
  refine ⟨ns, leaked, recs, fun o => match o with
    | .SPO => ts.map Prod.fst
    | .POS => tp.map Prod.fst
    | .OSP => tq.map Prod.fst, ?_, ⟨?_, fun n => ?_⟩, fun b => ?_, ⟨?_, ?_, ?_⟩, ?_⟩
  · unfold debug
    rw [h5, s3, p3, o3]
    have : debugProps F m = leaked.toList.map (fun b => "  _ -> " ++ F.showBytes b ++ "\n") ++
        recs.map (fun x => "  " ++ F.hex x.1 ++ " -> " ++ F.showBytes x.2 ++ "\n") := by
      unfold debugProps
      rw [hl, List.map_append, List.map_map, List.map_map]
      rfl
    rw [this]
    simp only [sledText, List.append_assoc]
  · have := d.nodeProps.sorted
    have : (d.nodeProps.entries.map Prod.fst).Pairwise (· < ·) := by rw [List.pairwise_map]; exact this
    rw [h1, List.pairwise_map] at this
    exact this.imp (fun h => (LawfulId.toBe_lt _ _).1 h)
  · have e : (toBeBytes n).1 ∈ d.nodeProps.entries.map Prod.fst ↔ n ∈ ns := by
      rw [h1, List.mem_map]
      constructor
      · rintro ⟨n', hn', e⟩
        exact toBe_inj.1 e ▸ hn'
      · exact fun h => ⟨n, h, rfl⟩
    rw [← e, List.mem_map]
    constructor
    · rintro ⟨⟨k, b⟩, he, rfl⟩
      have hb := BMap.mem_entries.1 he
      obtain ⟨-, p, hp⟩ := h.nodes _ b hb
      simp [Db.graph, hb, hp]
    · intro hn
      obtain ⟨p, hp⟩ := Option.isSome_iff_exists.1 hn
      obtain ⟨b, hb, -⟩ := Option.bind_eq_some_iff.1 hp
      exact ⟨(_, b), BMap.mem_entries.2 hb, rfl⟩
  · have e : leaked = some b ↔ m.get ⊥ = some b := by
      rw [← BMap.mem_entries, hl, List.mem_append]
      constructor
      · rintro rfl
        exact .inl (by simp)
      · rintro (h | h)
        · obtain ⟨y, hy, hy'⟩ := List.mem_map.1 h
          cases hy'
          exact Option.mem_toList.1 hy
        · obtain ⟨y, -, hy'⟩ := List.mem_map.1 h
          cases hy'
    rw [e, hm, debugRecords_get]
    constructor
    · rintro ⟨v, hv, hk, hmax⟩
      exact ⟨v, hv, (debugHashes_none F).1 hk, fun v' hv' hu => hmax v' hv' ((debugHashes_none F).2 hu)⟩
    · rintro ⟨v, hv, hk, hmax⟩
      exact ⟨v, hv, (debugHashes_none F).2 hk, fun v' hv' hu => hmax v' hv' ((debugHashes_none F).1 hu)⟩
  · have := m.sorted
    rw [hl, List.pairwise_append, List.pairwise_map] at this
    have := this.2.1
    rw [List.pairwise_map] at this
    exact this.imp (fun h => WithBot.coe_lt_coe.1 h)
  · rintro ⟨x, b⟩ hx
    have hg : m.get (x : WithBot Nat) = some b := by
      rw [← BMap.mem_entries, hl]
      exact List.mem_append_right _ (List.mem_map.2 ⟨_, hx, rfl⟩)
    obtain ⟨v, hv, hk, -⟩ := (debugRecords_get _ _ _ _).1 hg
    have hk : (debugHashes F d.spo.entries).get v = some x := hk
    have hu : ¬ Unreferenced d v := fun hu => by rw [(debugHashes_none F).2 hu] at hk; cases hk
    unfold Unreferenced at hu
    push Not at hu
    obtain ⟨⟨k, v'⟩, he, rfl⟩ := hu
    obtain ⟨t, rfl⟩ := h.keys .SPO k v' (BMap.mem_entries.1 he)
    have ht : d.idIn .SPO t = some v' := BMap.mem_entries.1 he
    rw [debugHashes_get F h ht] at hk
    obtain ⟨p, hp⟩ := hw.recs v' b hv
    exact ⟨t, p, by simp [Db.graph, Db.view, ht, hv, hc.2 p b hp], Option.some.inj hk, hp⟩
  · intro t ht
    obtain ⟨p, hp⟩ := Option.isSome_iff_exists.1 ht
    obtain ⟨v, hv, hb⟩ := Option.bind_eq_some_iff.1 hp
    obtain ⟨b, hb, -⟩ := Option.bind_eq_some_iff.1 hb
    have hk := debugHashes_get F h hv
    have := foldl_insert_some (hashKey (debugHashes F d.spo.entries)) d.edgeProps hb
    rw [hashKey, hk] at this
    obtain ⟨b', hb'⟩ := this
    have hb' : m.get ((F.hash (encodeSpo t).1 : Nat) : WithBot Nat) = some b' := hb'
    rw [← BMap.mem_entries, hl] at hb'
    rcases List.mem_append.1 hb' with hx | hx
    · obtain ⟨y, -, hy⟩ := List.mem_map.1 hx
      cases hy
    · obtain ⟨y, hy, hy'⟩ := List.mem_map.1 hx
      obtain ⟨e1, e2⟩ := Prod.mk.inj hy'
      exact ⟨b', by rw [← WithBot.coe_inj.1 e1, ← e2]; exact hy⟩
  · intro o
    cases o
    · exact ⟨s1, s2⟩
    · exact ⟨p1, p2⟩
    · exact ⟨o1, o2⟩

end Sled

end Verif
