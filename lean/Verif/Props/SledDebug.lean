import Verif.Proof.SledDebug
import Verif.Props.SledWell
import Verif.Props.SledRecords

/-! # C58: `Debug` of a sled store -/

namespace Verif.Props

open Verif Spec Sled ConcreteId

variable {Id NP EP E : Type} [LinearOrder Id] [ConcreteId Id] [LawfulId Id] {c : Codecs NP EP} {mN : NP → NP → NP}
  {mE : EP → EP → EP}

/-- On any contents whatsoever, formatting fails exactly if a key of the node tree or of an ordering has the wrong length. -/
theorem C58_fails (F : SledFmt Id) (d : Db) :
    debug F d = .error () ↔ (∃ k, (d.nodeProps.get k).isSome ∧ k.length ≠ idLen (Id := Id)) ∨
      ∃ o k, ((d.tree o).get k).isSome ∧ k.length ≠ tripleLen (Id := Id) := by
  have hk : ∀ (m : Tree) (P : Bytes → Prop), (∀ e ∈ m.entries, P e.1) ↔ ∀ k, (m.get k).isSome → P k := by
    intro m P
    constructor
    · intro h k hk
      obtain ⟨v, hv⟩ := Option.isSome_iff_exists.1 hk
      exact h (k, v) (BMap.mem_entries.2 hv)
    · rintro h ⟨k, v⟩ he
      exact h k (by rw [BMap.mem_entries.1 he]; rfl)
  have e : Sized Id d.nodeProps.entries d.spo.entries d.pos.entries d.osp.entries ↔
      ¬ ((∃ k, (d.nodeProps.get k).isSome ∧ k.length ≠ idLen (Id := Id)) ∨
        ∃ o k, ((d.tree o).get k).isSome ∧ k.length ≠ tripleLen (Id := Id)) := by
    constructor
    · rintro ⟨h1, h2, h3, h4⟩ (⟨k, hs, hl⟩ | ⟨o, k, hs, hl⟩)
      · exact hl ((hk d.nodeProps (fun k => k.length = idLen (Id := Id))).1 h1 k hs)
      · cases o
        · exact hl ((hk d.spo (fun k => k.length = tripleLen (Id := Id))).1 h2 k hs)
        · exact hl ((hk d.pos (fun k => k.length = tripleLen (Id := Id))).1 h3 k hs)
        · exact hl ((hk d.osp (fun k => k.length = tripleLen (Id := Id))).1 h4 k hs)
    · intro h
      push Not at h
      exact ⟨(hk _ _).2 h.1, (hk _ _).2 (h.2 .SPO), (hk _ _).2 (h.2 .POS), (hk _ _).2 (h.2 .OSP)⟩
  by_cases h : Sized Id d.nodeProps.entries d.spo.entries d.pos.entries d.osp.entries
  · obtain ⟨ns, ts, tp, tq, -, -, -, -, h5⟩ := debugOf_ok F (spo := d.spo.entries) (recs := d.edgeProps.entries) h
    rw [debug, h5]
    exact ⟨fun h' => (nomatch h'), fun h' => absurd h' (e.1 h)⟩
  · exact ⟨fun _ => not_not.1 (mt e.2 h), fun _ => debugOf_err F h⟩

/-- So it never fails on what this library has written: not even while others write, where its six traversals see entries of
different moments. -/
theorem C58_moments (F : SledFmt Id) (hc : c.RoundTrip) {d0 : Db} {threads : List (List (Call E Id NP EP))} {D : Nat → Db}
    (h0 : WellFormed Id c d0) (hm : Moments c mN mE d0 threads D) {nodes spo recs spo' pos osp : List (Bytes × Bytes)}
    (hn : ∀ e ∈ nodes, ∃ m, (D m).nodeProps.get e.1 = some e.2) (hs : ∀ e ∈ spo', ∃ m, (D m).spo.get e.1 = some e.2)
    (hp : ∀ e ∈ pos, ∃ m, (D m).pos.get e.1 = some e.2) (ho : ∀ e ∈ osp, ∃ m, (D m).osp.get e.1 = some e.2) :
    ∃ out, debugOf F nodes spo recs spo' pos osp = .ok out := by
  have hD : ∀ m, WellFormed Id c (D m) := fun m => C57_moments hc h0 (moments_moment hm m)
  obtain ⟨ns, ts, tp, tq, -, -, -, -, h5⟩ := debugOf_ok F (spo := spo) (recs := recs)
    (nodes := nodes) (spo' := spo') (pos := pos) (osp := osp)
    ⟨fun e he => by obtain ⟨m, h⟩ := hn e he; exact ((hD m).nodes _ _ h).1,
     fun e he => by obtain ⟨m, h⟩ := hs e he; exact (hD m).keys .SPO _ _ h,
     fun e he => by obtain ⟨m, h⟩ := hp e he; exact (hD m).keys .POS _ _ h,
     fun e he => by obtain ⟨m, h⟩ := ho e he; exact (hD m).keys .OSP _ _ h⟩
  exact ⟨_, h5⟩

/-- What is printed for a store holding `G`: its nodes in order, each with `()` in place of its properties; if there are unreferenced
records, only the one with the greatest id; for each hash, the serialized properties of one edge with that hash; and the edges, in each
of the three orders. -/
theorem C58_output (F : SledFmt Id) (hc : c.RoundTrip) {n m : Nat} {s : SledStore Id} {G : Graph Id NP EP}
    (hs : SledStore.Reach E c mN mE n m s) (hG : Shows (s.obs c) G) :
    ∃ ns leaked recs es, debug F s.db = .ok (sledText F ns leaked recs es) ∧
      (ns.Pairwise (· < ·) ∧ ∀ n, n ∈ ns ↔ (G.nodes n).isSome) ∧
      (∀ b, leaked = some b ↔ ∃ k, s.db.edgeProps.get k = some b ∧ Unreferenced s.db k ∧
        ∀ k', (s.db.edgeProps.get k').isSome → Unreferenced s.db k' → k' ≤ k) ∧
      (recs.Pairwise (fun a b => a.1 < b.1) ∧
        (∀ x ∈ recs, ∃ t p, G.edges t = some p ∧ F.hash (encodeSpo t).1 = x.1 ∧ c.e.ser p = some x.2) ∧
        ∀ t, (G.edges t).isSome → ∃ b, (F.hash (encodeSpo t).1, b) ∈ recs) ∧
      ∀ o, (es o).Pairwise (edgeLT o) ∧ ∀ t, t ∈ es o ↔ (G.edges t).isSome := by
  rw [← hs.graph_of_shows hc hG]
  exact debug_output F hc (hs.ok hc).inv (WellFormed.reach hc hs)

/-- Two stores with the same graph print the same, but for the line of an unreferenced record, provided no two of their edges have the
same hash. -/
theorem C58_sameGraph (F : SledFmt Id) (hc : c.RoundTrip) {n m n' m' : Nat} {a b : SledStore Id} {G : Graph Id NP EP}
    (ha : SledStore.Reach E c mN mE n m a) (hb : SledStore.Reach E c mN mE n' m' b) (hG : Shows (a.obs c) G) (hG' : Shows (b.obs c) G)
    (hh : ∀ t u, (G.edges t).isSome → (G.edges u).isSome → F.hash (encodeSpo t).1 = F.hash (encodeSpo u).1 → t = u) :
    ∃ ns recs es la lb, debug F a.db = .ok (sledText F ns la recs es) ∧ debug F b.db = .ok (sledText F ns lb recs es) ∧
      (la.isSome → ∃ k, (a.db.edgeProps.get k).isSome ∧ Unreferenced a.db k) ∧
      (lb.isSome → ∃ k, (b.db.edgeProps.get k).isSome ∧ Unreferenced b.db k) := by
  obtain ⟨ns, la, recs, es, h1, ⟨h2, h3⟩, h4, ⟨h5, h6, h7⟩, h8⟩ := C58_output F hc ha hG
  obtain ⟨ns', lb, recs', es', h1', ⟨h2', h3'⟩, h4', ⟨h5', h6', h7'⟩, h8'⟩ := C58_output F hc hb hG'
  have en : ns' = ns := pairwise_ext (fun _ => lt_irrefl _) (fun _ _ _ => lt_trans) h2' h2 (fun n => (h3' n).trans (h3 n).symm)
  have ee : es' = es := by
    funext o
    exact pairwise_ext (edgeLT_irrefl o) (fun _ _ _ => edgeLT_trans o) (h8' o).1 (h8 o).1 (fun t => ((h8' o).2 t).trans ((h8 o).2 t).symm)
  have key : ∀ {recs : List (Nat × Bytes)},
      (∀ x ∈ recs, ∃ t p, G.edges t = some p ∧ F.hash (encodeSpo t).1 = x.1 ∧ c.e.ser p = some x.2) →
      (∀ t, (G.edges t).isSome → ∃ b, (F.hash (encodeSpo t).1, b) ∈ recs) →
      ∀ x, x ∈ recs ↔ ∃ t p, G.edges t = some p ∧ F.hash (encodeSpo t).1 = x.1 ∧ c.e.ser p = some x.2 := by
    intro recs k6 k7 x
    refine ⟨k6 x, ?_⟩
    rintro ⟨t, p, ht, hx, hp⟩
    obtain ⟨b, hb⟩ := k7 t (by rw [ht]; rfl)
    obtain ⟨u, q, hu, hxu, hq⟩ := k6 _ hb
    obtain rfl := hh u t (by rw [hu]; rfl) (by rw [ht]; rfl) hxu
    rw [ht] at hu; cases hu
    rw [hp] at hq
    obtain ⟨x1, x2⟩ := x
    cases hq
    cases hx
    exact hb
  have er : recs' = recs := pairwise_ext (r := fun a b => a.1 < b.1) (fun _ => lt_irrefl _) (fun _ _ _ => lt_trans) h5' h5
    (fun x => (key h6' h7' x).trans (key h6 h7 x).symm)
  subst en ee er
  refine ⟨_, _, _, _, _, h1, h1', fun h => ?_, fun h => ?_⟩
  · obtain ⟨b, hb⟩ := Option.isSome_iff_exists.1 h
    obtain ⟨k, hk, hu, -⟩ := (h4 b).1 hb
    exact ⟨k, by rw [hk]; rfl, hu⟩
  · obtain ⟨b, hb⟩ := Option.isSome_iff_exists.1 h
    obtain ⟨k, hk, hu, -⟩ := (h4' b).1 hb
    exact ⟨k, by rw [hk]; rfl, hu⟩

/-- If neither holds an unreferenced record they print the same.  Missing: reachable stores may hold such records
(`C58_violated`). -/
theorem C58_sameGraph_partial (F : SledFmt Id) (hc : c.RoundTrip) {n m n' m' : Nat} {a b : SledStore Id} {G : Graph Id NP EP}
    (ha : SledStore.Reach E c mN mE n m a) (hb : SledStore.Reach E c mN mE n' m' b) (hG : Shows (a.obs c) G) (hG' : Shows (b.obs c) G)
    (hh : ∀ t u, (G.edges t).isSome → (G.edges u).isSome → F.hash (encodeSpo t).1 = F.hash (encodeSpo u).1 → t = u)
    (la : ∀ k, (a.db.edgeProps.get k).isSome → ¬ Unreferenced a.db k) (lb : ∀ k, (b.db.edgeProps.get k).isSome → ¬ Unreferenced b.db k) :
    debug F a.db = debug F b.db := by
  obtain ⟨ns, recs, es, l, l', h1, h2, h3, h4⟩ := C58_sameGraph F hc ha hb hG hG' hh
  have e : ∀ {x : Option Bytes} {d : Db}, (∀ k, (d.edgeProps.get k).isSome → ¬ Unreferenced d k) →
      (x.isSome → ∃ k, (d.edgeProps.get k).isSome ∧ Unreferenced d k) → x = none := by
    intro x d hl hx
    cases x with
    | none => rfl
    | some _ => obtain ⟨k, hk, hu⟩ := hx rfl; exact absurd hu (hl k hk)
  rw [h1, h2, e la h3, e lb h4]

omit [LawfulId Id] in
/-- The values of the node tree are never looked at. -/
theorem C58_blind (F : SledFmt Id) {d d' : Db} (hn : d.nodeProps.entries.map Prod.fst = d'.nodeProps.entries.map Prod.fst)
    (he : d.edgeProps = d'.edgeProps) (ho : ∀ o, d.tree o = d'.tree o) : debug F d = debug F d' := by
  have h : ∀ l l' : List (Bytes × Bytes), l.map Prod.fst = l'.map Prod.fst → debugNodes F l = debugNodes F l' := by
    intro l
    induction l with
    | nil => intro l' h; cases l' with
      | nil => rfl
      | cons _ _ => cases h
    | cons e l ih =>
      intro l' h
      cases l' with
      | nil => cases h
      | cons e' l' =>
        obtain ⟨k, v⟩ := e
        obtain ⟨k', v'⟩ := e'
        obtain ⟨h1, h2⟩ := List.cons.inj h
        obtain rfl : k = k' := h1
        simp only [debugNodes, ih l' h2]
  have h1 : d.spo = d'.spo := ho .SPO
  have h2 : d.pos = d'.pos := ho .POS
  have h3 : d.osp = d'.osp := ho .OSP
  unfold debug debugOf
  rw [h _ _ hn, h1, h2, h3, he]

/-! ## witnesses and examples -/

/-- formatting functions for the examples; the hash reads the key as a number -/
def Sample.sfmt : SledFmt U64 where
  showId x := toString x.val
  showUnit := "()"
  showBytes b := toString b.length
  hash k := k.foldl (fun n b => n * 256 + b.val) 0
  hex := toString

def Sample.after (h : List (Op String U64 Nat Nat)) : SledStore U64 :=
  (SledStore.new Db.empty (Sample.cg 0) (Sample.ul 0)).applyAll Sample.uc Sample.mN Sample.mE h

theorem Sample.after_reach (h : List (Op String U64 Nat Nat)) (hg : genDraws h ≤ 900) (hu : ulidDraws h ≤ 900) :
    SledStore.Reach String Sample.uc Sample.mN Sample.mE 0 0 (Sample.after h) :=
  SledStore.reach_applyAll h (.new (Sample.cu_fresh _ _ _ _ (by omega) (by omega)))

/-- two histories with the same outcome, the second of which overwrites an edge and so leaves an unreferenced record -/
def Sample.once : List (Op String U64 Nat Nat) := [.insertNode 1 3, .insertEdge ⟨1, 5, 2⟩ 7]
def Sample.twice : List (Op String U64 Nat Nat) := [.insertNode 1 3, .insertEdge ⟨1, 5, 2⟩ 4, .insertEdge ⟨1, 5, 2⟩ 7]

theorem Sample.once_edge (t : Triple U64) (ht : (((Sample.after Sample.once).db.graph (Id := U64) Sample.uc).edges t).isSome) :
    t = ⟨1, 5, 2⟩ := by
  obtain ⟨p, hp⟩ := Option.isSome_iff_exists.1 ht
  obtain ⟨l, h1, h2⟩ := ((Sample.after_reach Sample.once (by decide) (by decide)).shows Sample.uc_rt).2 .SPO
  have hm : (.ok (t, p) : Except SErr (Triple U64 × Nat)) ∈ iterEdges U64 Sample.uc (Sample.after Sample.once).db .SPO := by
    have h1 : iterEdges U64 Sample.uc (Sample.after Sample.once).db .SPO = l.map .ok := h1
    rw [h1]
    exact List.mem_map.2 ⟨_, (h2.2 t p).2 hp, rfl⟩
  have hl : iterEdges U64 Sample.uc (Sample.after Sample.once).db .SPO = [.ok (⟨1, 5, 2⟩, 7)] := by decide +kernel
  rw [hl] at hm
  cases List.mem_singleton.1 hm
  rfl

/-- "Stores with the same graph print the same" is false for sled stores: ids without edges are printed. -/
theorem C58_violated : ∃ (a b : SledStore U64) (G : Graph U64 Nat Nat),
    SledStore.Reach String Sample.uc Sample.mN Sample.mE 0 0 a ∧ SledStore.Reach String Sample.uc Sample.mN Sample.mE 0 0 b ∧
    Shows (a.obs Sample.uc) G ∧ Shows (b.obs Sample.uc) G ∧
    (∀ t u, (G.edges t).isSome → (G.edges u).isSome → Sample.sfmt.hash (encodeSpo t).1 = Sample.sfmt.hash (encodeSpo u).1 → t = u) ∧
    debug Sample.sfmt a.db ≠ debug Sample.sfmt b.db := by
  have ha := Sample.after_reach Sample.once (by decide) (by decide)
  have hb := Sample.after_reach Sample.twice (by decide) (by decide)
  have hG := ha.shows Sample.uc_rt
  have e : (Sample.after Sample.once).obs Sample.uc = (Sample.after Sample.twice).obs Sample.uc := by
    have h1 : iterVertices U64 Sample.uc (Sample.after Sample.once).db = iterVertices U64 Sample.uc (Sample.after Sample.twice).db := by
      decide +kernel
    have h2 : ∀ o, iterEdges U64 Sample.uc (Sample.after Sample.once).db o = iterEdges U64 Sample.uc (Sample.after Sample.twice).db o := by
      intro o; cases o <;> decide +kernel
    exact congrArg₂ Obs.mk h1 (funext h2)
  refine ⟨_, _, _, ha, hb, hG, e ▸ hG, ?_, fun h => ?_⟩
  · exact fun t u ht hu _ => by rw [Sample.once_edge t ht, Sample.once_edge u hu]
  · have : (debug Sample.sfmt (Sample.after Sample.once).db).toOption.map List.length =
        (debug Sample.sfmt (Sample.after Sample.twice).db).toOption.map List.length := by rw [h]
    revert this
    decide +kernel

/-- And "stores with different graphs print differently" is false, whatever the rendering: node properties are not printed. -/
theorem C58_nodesBlind (F : SledFmt U64) : ∃ (a b : SledStore U64),
    SledStore.Reach String Sample.uc Sample.mN Sample.mE 0 0 a ∧ SledStore.Reach String Sample.uc Sample.mN Sample.mE 0 0 b ∧
    debug F a.db = debug F b.db ∧
    (.ok (1, 3) ∈ iterVertices U64 Sample.uc a.db ∧ .ok (1, 4) ∈ iterVertices U64 Sample.uc b.db) :=
  ⟨_, _, Sample.after_reach [.insertNode 1 3] (by decide) (by decide), Sample.after_reach [.insertNode 1 4] (by decide) (by decide),
    C58_blind F (by decide +kernel) (by rfl) (fun o => by cases o <;> rfl), by decide +kernel, by decide +kernel⟩

/-- a foreign key of one byte in an otherwise sound database -/
example : debug Sample.sfmt { db0 with pos := db0.pos.insert [9] [1] } = .error () :=
  (C58_fails _ _).2 (.inr ⟨.POS, [9], by decide +kernel, by decide +kernel⟩)

/-- the whole text for the second history -/
example : (debug Sample.sfmt (Sample.after Sample.twice).db).toOption = some (
    sledText Sample.sfmt [1] (some (List.replicate 4 0)) [((1 * 2 ^ 64 + 5) * 2 ^ 64 + 2, List.replicate 7 0)]
      (fun _ => [⟨1, 5, 2⟩])) := by
  decide +kernel

example : ∃ ns leaked recs es, debug Sample.sfmt db0 = .ok (sledText Sample.sfmt ns leaked recs es) ∧
    (∀ n, n ∈ ns ↔ (G0.nodes n).isSome) := by
  obtain ⟨ns, leaked, recs, es, h1, ⟨-, h2⟩, -⟩ := C58_output Sample.sfmt Sample.uc_rt db0_reach db0_shows
  exact ⟨ns, leaked, recs, es, h1, h2⟩

/-- the same edge, under another id -/
def Sample.late : List (Op String U64 Nat Nat) :=
  [.insertEdge ⟨8, 8, 8⟩ 1, .removeEdge ⟨8, 8, 8⟩, .insertEdge ⟨1, 5, 2⟩ 7, .insertNode 1 3]

theorem Sample.tidyOnce : ∀ k, ((Sample.after Sample.once).db.edgeProps.get k).isSome → ¬ Unreferenced (Sample.after Sample.once).db k := by
  intro k hk
  obtain ⟨b, hb⟩ := Option.isSome_iff_exists.1 hk
  have : ∀ e ∈ (Sample.after Sample.once).db.edgeProps.entries, ∃ x ∈ (Sample.after Sample.once).db.spo.entries, x.2 = e.1 := by
    decide +kernel
  obtain ⟨x, hx, e⟩ := this _ (BMap.mem_entries.2 hb)
  exact fun h => h x hx e

theorem Sample.tidyLate : ∀ k, ((Sample.after Sample.late).db.edgeProps.get k).isSome → ¬ Unreferenced (Sample.after Sample.late).db k := by
  intro k hk
  obtain ⟨b, hb⟩ := Option.isSome_iff_exists.1 hk
  have : ∀ e ∈ (Sample.after Sample.late).db.edgeProps.entries, ∃ x ∈ (Sample.after Sample.late).db.spo.entries, x.2 = e.1 := by
    decide +kernel
  obtain ⟨x, hx, e⟩ := this _ (BMap.mem_entries.2 hb)
  exact fun h => h x hx e

example : debug Sample.sfmt (Sample.after Sample.once).db = debug Sample.sfmt (Sample.after Sample.late).db := by
  have ha := Sample.after_reach Sample.once (by decide) (by decide)
  have hb := Sample.after_reach Sample.late (by decide) (by decide)
  have hG := ha.shows Sample.uc_rt
  have e : (Sample.after Sample.once).obs Sample.uc = (Sample.after Sample.late).obs Sample.uc := by
    have h1 : iterVertices U64 Sample.uc (Sample.after Sample.once).db = iterVertices U64 Sample.uc (Sample.after Sample.late).db := by
      decide +kernel
    have h2 : ∀ o, iterEdges U64 Sample.uc (Sample.after Sample.once).db o = iterEdges U64 Sample.uc (Sample.after Sample.late).db o := by
      intro o; cases o <;> decide +kernel
    exact congrArg₂ Obs.mk h1 (funext h2)
  exact C58_sameGraph_partial Sample.sfmt Sample.uc_rt ha hb hG (e ▸ hG)
    (fun t u ht hu _ => by rw [Sample.once_edge t ht, Sample.once_edge u hu]) Sample.tidyOnce Sample.tidyLate

/-- entries read at different moments of racing extends, with ids drawn twice -/
example (i j k : Nat) : ∃ out, debugOf Sample.sfmt (leads clash (extTurns.take i)).nodeProps.entries [] []
    (leads clash (extTurns.take j)).spo.entries (leads clash (extTurns.take k)).pos.entries [] = .ok out :=
  C58_moments Sample.sfmt Sample.uc_rt db0_well (leads_moments clash extTurns)
    (fun e he => ⟨i, BMap.mem_entries.1 he⟩) (fun e he => ⟨j, BMap.mem_entries.1 he⟩) (fun e he => ⟨k, BMap.mem_entries.1 he⟩)
    (fun e he => by cases he)

end Verif.Props
