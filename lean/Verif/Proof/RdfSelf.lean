import Verif.Model.RdfSelf
import Verif.Proof.SledSelf
import Verif.Proof.Rdf

/-! # `extend` and `merge` with another RDF store on the same database -/

set_option linter.unusedSectionVars false

namespace Verif

open Spec ConcreteId

namespace Sled

/-! ## loops on part of the state -/

section

variable {S S' X X' : Type} {tree : S → Tree} {tree' : S' → Tree} {body : S → Bytes × Bytes → S × Except X Unit}
  {body' : S' → Bytes × Bytes → S' × Except X' Unit} {g : S → S'} {h : X → X'}

/-- the outcome in the larger state -/
def lifted (g : S → S') (h : X → X') (o : S × Except X Unit) : S' × Except X' Unit := (g o.1, o.2.mapError h)

theorem Loop.down (ht : ∀ s, tree' (g s) = tree s) (hb : ∀ s e, body' (g s) e = lifted g h (body s e)) {s' : S'} {cur : Cursor}
    {out' : S' × Except X' Unit} (hl : Loop tree' body' s' cur out') {s : S} (hs : s' = g s) :
    ∃ out, Loop tree body s cur out ∧ out' = lifted g h out := by
  induction hl generalizing s with
  | read hk hv first rest ih =>
    obtain ⟨out, h1, h2⟩ := ih hs
    subst hs
    rw [ht] at hv
    simp only [ht] at first
    exact ⟨out, .read hk hv first h1, h2⟩
  | @step s0 s1 e ahead last out hbe rest ih =>
    subst hs
    rw [hb] at hbe
    rcases hr : body s e with ⟨s2, x | u⟩
    · rw [hr] at hbe; cases hbe
    · rw [hr] at hbe
      obtain ⟨out, h1, h2⟩ := ih (s := s2) (by cases hbe; rfl)
      exact ⟨out, .step hr h1, h2⟩
  | @fail s0 s1 e ahead last x hbe =>
    subst hs
    rw [hb] at hbe
    rcases hr : body s e with ⟨s2, y | u⟩
    · rw [hr] at hbe
      exact ⟨_, .fail hr, hbe.symm⟩
    · rw [hr] at hbe; cases hbe
  | done hd =>
    subst hs
    simp only [ht] at hd
    exact ⟨_, .done hd, rfl⟩

theorem Loop.up (ht : ∀ s, tree' (g s) = tree s) (hb : ∀ s e, body' (g s) e = lifted g h (body s e)) {s : S} {cur : Cursor}
    {out : S × Except X Unit} (hl : Loop tree body s cur out) : Loop tree' body' (g s) cur (lifted g h out) := by
  induction hl with
  | read hk hv first rest ih => exact .read hk (by rw [ht]; exact hv) (by simp only [ht]; exact first) ih
  | step hbe rest ih => exact .step (by rw [hb, hbe]; rfl) ih
  | fail hbe => exact .fail (by rw [hb, hbe]; rfl)
  | done hd => exact .done (by simp only [ht]; exact hd)

theorem loop_lifted (ht : ∀ s, tree' (g s) = tree s) (hb : ∀ s e, body' (g s) e = lifted g h (body s e)) {s : S} {cur : Cursor}
    {out' : S' × Except X' Unit} : Loop tree' body' (g s) cur out' ↔ ∃ out, Loop tree body s cur out ∧ out' = lifted g h out :=
  ⟨fun hl => hl.down ht hb rfl, fun ⟨_, h1, h2⟩ => h2 ▸ h1.up ht hb⟩

theorem both_lifted {A B : S → S × Except X Unit → Prop} {A' B' : S' → S' × Except X' Unit → Prop}
    (hA : ∀ s o, A' (g s) o ↔ ∃ out, A s out ∧ o = lifted g h out) (hB : ∀ s o, B' (g s) o ↔ ∃ out, B s out ∧ o = lifted g h out) (s : S)
    (o : S' × Except X' Unit) : Both A' B' (g s) o ↔ ∃ out, Both A B s out ∧ o = lifted g h out := by
  unfold Both
  constructor
  · rintro (⟨s1, h1, h2⟩ | ⟨s1, e, h1, rfl⟩)
    · obtain ⟨⟨s2, x | u⟩, h3, h4⟩ := (hA _ _).1 h1
      · cases h4
      · obtain rfl : s1 = g s2 := congrArg Prod.fst h4
        obtain ⟨out, h5, h6⟩ := (hB _ _).1 h2
        exact ⟨out, .inl ⟨s2, h3, h5⟩, h6⟩
    · obtain ⟨⟨s2, x | u⟩, h3, h4⟩ := (hA _ _).1 h1
      · exact ⟨_, .inr ⟨s2, x, h3, rfl⟩, h4⟩
      · cases h4
  · rintro ⟨out, ⟨s1, h1, h2⟩ | ⟨s1, e, h1, rfl⟩, rfl⟩
    · exact .inl ⟨g s1, (hA _ _).2 ⟨_, h1, rfl⟩, (hB _ _).2 ⟨_, h2, rfl⟩⟩
    · exact .inr ⟨g s1, h e, (hA _ _).2 ⟨_, h1, rfl⟩, rfl⟩

end

/-! ## the loops on the triple store -/

section

variable {NP EP : Type} {c : Codecs NP EP} {n m : Nat} {F : Bytes → Prop}

/-- the loops of `extend` and `merge` of an RDF store, on the triple store -/
def takeAll (fN : SledStore Ulid → Ulid × NP → SledStore Ulid × Except SErr Unit)
    (fE : SledStore Ulid → Triple Ulid × EP → SledStore Ulid × Except SErr Unit) (s : SledStore Ulid) (src : Source SErr Ulid NP EP) :
    SledStore Ulid × Except (LR SErr SErr) Unit :=
  andThen (Rdf.absorb fN s src.nodes) (fun s => Rdf.absorb fE s src.edges)

theorem takeAllBulk {fN : SledStore Ulid → Ulid × NP → SledStore Ulid × Except SErr Unit}
    {fE : SledStore Ulid → Triple Ulid × EP → SledStore Ulid × Except SErr Unit}
    {K : Nat → SledStore Ulid → Graph Ulid NP EP → Prop} (inv : ∀ {k s G}, K k s G → s.db.Inv Ulid c ∧ s.db.graph c = G)
    (stepN : ∀ {k s G s' x p}, K k s G → fN s (x, p) = (s', .ok ()) →
      (∃ G', K k s' G') ∧ ∃ b, s'.db = { s.db with nodeProps := s.db.nodeProps.insert (toBeBytes x).1 b })
    (stepE : ∀ {k s G s' t p}, K (k + 1) s G → fE s (t, p) = (s', .ok ()) →
      ∃ G', K k s' G' ∧ (∀ u, u ≠ t → G'.edges u = G.edges u) ∧ ∃ v, s'.db.spo = s.db.spo.insert (encodeSpo t).1 v) :
    Bulk c K (takeAll fN fE) where
  nil s := rfl
  consN s x xs ys := by
    cases x with
    | error e => rfl
    | ok x =>
      simp only [takeAll, Rdf.absorb]
      rcases fN s x with ⟨s', e | u⟩ <;> rfl
  consE s y ys := by
    cases y with
    | error e => rfl
    | ok x =>
      simp only [takeAll, Rdf.absorb, andThen]
      rcases fE s x with ⟨s', e | u⟩ <;> rfl
  errN s e := rfl
  inv := inv
  stepN {k s G s' x p} hK hr := by
    simp only [takeAll, Rdf.absorb] at hr
    rcases hx : fN s (x, p) with ⟨s1, e | u⟩
    · rw [hx] at hr; cases hr
    · rw [hx] at hr
      obtain rfl : s1 = s' := congrArg Prod.fst hr
      exact stepN hK hx
  stepE {k s G s' t p} hK hr := by
    simp only [takeAll, Rdf.absorb, andThen] at hr
    rcases hx : fE s (t, p) with ⟨s1, e | u⟩
    · rw [hx] at hr; cases hr
    · rw [hx] at hr
      obtain rfl : s1 = s' := congrArg Prod.fst hr
      exact stepE hK hx

open SledStore Db

theorem insertBulk (hc : c.RoundTrip) : Bulk c (fun k s G => Ok c (n + k) m F s G)
    (takeAll (fun s x => s.insertNode c x.1 x.2) (fun s x => s.insertEdge c x.1 x.2)) :=
  takeAllBulk (fun h => ⟨h.inv, h.graph⟩)
    (fun {k s G s' x p} h hr => by
      obtain ⟨h1, -⟩ := good_insertNode (E := Unit) hc h x p
      rw [hr] at h1
      refine ⟨⟨_, h1⟩, ?_⟩
      cases hb : c.n.ser p with
      | none => simp only [SledStore.insertNode, insertNode_err hb] at hr; cases hr
      | some b => simp only [SledStore.insertNode, insertNode_run hb] at hr; cases hr; exact ⟨b, rfl⟩)
    (fun {k s G s' t p} h hr => by
      obtain ⟨h1, -⟩ := good_insertEdge (E := Unit) (n := n + k) hc h t p
      rw [hr] at h1
      refine ⟨_, h1, ?_⟩
      cases hb : c.e.ser p with
      | none => simp only [SledStore.insertEdge, insertEdge_err hb] at hr; cases hr
      | some b =>
        refine ⟨fun u hu => ?_, ?_⟩
        · simp [one, storeEdge, Codecs.okE, hb, Graph.insertEdge, hu]
        · simp only [SledStore.insertEdge, insertEdge_run hb] at hr
          cases hr
          exact ⟨_, rfl⟩)

theorem mergedBulk (hc : c.RoundTrip) (mN : NP → NP → NP) (mE : EP → EP → EP) : Bulk c (fun k s G => Ok c (n + k) m F s G)
    (takeAll (fun s x => s.mergeNode c mN x.1 x.2) (fun s x => s.mergeEdge c mE x.1 x.2)) :=
  takeAllBulk (fun h => ⟨h.inv, h.graph⟩)
    (fun {k s G s' x p} h hr => by
      obtain ⟨h1, -⟩ := good_mergeNode (E := Unit) hc h mN x p
      rw [hr] at h1
      refine ⟨⟨_, h1⟩, ?_⟩
      simp only [SledStore.mergeNode] at hr
      rcases mergeNode_run h.inv mN x p with ⟨-, h2⟩ | ⟨b, -, h2⟩
      · rw [h2] at hr; cases hr
      · rw [h2] at hr; cases hr; exact ⟨b, rfl⟩)
    (fun {k s G s' t p} h hr => by
      obtain ⟨h1, -⟩ := good_mergeEdge (E := Unit) (n := n + k) hc h mE t p
      rw [hr] at h1
      refine ⟨_, h1, ?_⟩
      simp only [SledStore.mergeEdge] at hr
      rcases mergeEdge_run h.inv mE (Gen.fresh s.gen).1 t p with ⟨-, h2⟩ | ⟨b, hb, h2⟩
      · rw [h2] at hr; cases hr
      · rw [h2] at hr
        cases hr
        rw [h.graph] at hb
        refine ⟨fun u hu => ?_, _, rfl⟩
        simp [one, storeMergedEdge, storeEdge, Codecs.okE, hb, Graph.insertEdge, hu])

end

end Sled

/-! ## names -/

namespace RdfSelf

variable {NP EP : Type} {cl : Codec String} {cr : Codec Ulid} {c : Codecs NP EP} {mN : NP → NP → NP} {mE : EP → EP → EP}
  {i : IndexDb} {f : String → Option Ulid} {u : Gen Ulid}

/-- the RDF store on the triple store -/
def on (i : IndexDb) (u : Gen Ulid) (s : SledStore Ulid) : Store := { nameIndex := i, graph := s, ulid := u }

def err : LR SErr SErr → LR Err Err
  | .left e => .left (.graph e)
  | .right e => .right (.graph e)

theorem create_known (hn : (SledIndex.impl cl cr).Shows i f) {e : Entity} {v : Ulid} (hr : Ref f e v) (s : SledStore Ulid) :
    (on i u s).lookupOrCreateEntity (SX := SErr) (SledIndex.impl cl cr) e = (on i u s, .ok v) := by
  cases hr with
  | name h =>
    unfold Rdf.lookupOrCreateEntity
    dsimp only [on]
    rw [hn.1, h]
  | id h => rfl

theorem createTriple_known (hn : (SledIndex.impl cl cr).Shows i f) {t : Triple Entity} {v : Triple Ulid} (hr : RefT f t v)
    (s : SledStore Ulid) : (on i u s).createTriple (SX := SErr) (SledIndex.impl cl cr) t = (on i u s, .ok v) := by
  unfold Rdf.createTriple
  rw [create_known hn hr.1]
  dsimp only
  rw [create_known hn hr.2.1]
  dsimp only
  rw [create_known hn hr.2.2]

/-- what a function on the triple store becomes -/
abbrev lift1 (i : IndexDb) (u : Gen Ulid) (o : SledStore Ulid × Except SErr Unit) : Store × Except Err Unit :=
  (on i u o.1, o.2.mapError .graph)

theorem onGraph_lift (s : SledStore Ulid) (o : SledStore Ulid × Except SErr Unit) :
    (on i u s).onGraph (IX := SledIndexErr String Ulid) o = lift1 i u o := by
  rcases o with ⟨s', e | x⟩ <;> rfl

/-- a loop over items whose names are known -/
theorem absorb_lift {α β : Type} {FN : Store → α → Store × Except Err Unit} {fN : SledStore Ulid → β → SledStore Ulid × Except SErr Unit}
    {R : α → β → Prop} {item : Except SErr β → Except Err α} (hitem : (∀ e, item (.error e) = .error (.graph e)) ∧
      ∀ b, ∃ a, item (.ok b) = .ok a ∧ R a b) (hF : ∀ s a b, R a b → FN (on i u s) a = lift1 i u (fN s b)) (l : List (Except SErr β))
    (s : SledStore Ulid) : Rdf.absorb FN (on i u s) (l.map item) = Sled.lifted (on i u) err (Rdf.absorb fN s l) := by
  induction l generalizing s with
  | nil => rfl
  | cons b l ih =>
    cases b with
    | error e => rw [List.map_cons, hitem.1]; rfl
    | ok b =>
      obtain ⟨a, h1, h2⟩ := hitem.2 b
      rw [List.map_cons, h1, Rdf.absorb, Rdf.absorb, hF s a b h2]
      rcases fN s b with ⟨s', e | x⟩
      · rfl
      · exact ih s'

theorem vertexItem_known (hn : (SledIndex.impl cl cr).Shows i f) :
    (∀ e, Rdf.vertexItem (NP := NP) (SX := SErr) (SledIndex.impl cl cr) i (.error e) = .error (.graph e)) ∧
    ∀ b : Ulid × NP, ∃ a : Entity × NP, Rdf.vertexItem (SX := SErr) (SledIndex.impl cl cr) i (.ok b) = .ok a ∧
      (Ref f a.1 b.1 ∧ a.2 = b.2) := by
  refine ⟨fun e => rfl, fun b => ?_⟩
  obtain ⟨e, h1, h2⟩ := hn.lookupId (SX := SErr) b.1
  exact ⟨(e, b.2), by simp only [Rdf.vertexItem, h1], h2, rfl⟩

theorem edgeItem_known (hn : (SledIndex.impl cl cr).Shows i f) :
    (∀ e, Rdf.edgeItem (EP := EP) (SX := SErr) (SledIndex.impl cl cr) i (.error e) = .error (.graph e)) ∧
    ∀ b : Triple Ulid × EP, ∃ a : Triple Entity × EP, Rdf.edgeItem (SX := SErr) (SledIndex.impl cl cr) i (.ok b) = .ok a ∧
      (RefT f a.1 b.1 ∧ a.2 = b.2) := by
  refine ⟨fun e => rfl, fun b => ?_⟩
  obtain ⟨x, h1, h2⟩ := hn.lookupId (SX := SErr) b.1.sub
  obtain ⟨y, h3, h4⟩ := hn.lookupId (SX := SErr) b.1.pred
  obtain ⟨z, h5, h6⟩ := hn.lookupId (SX := SErr) b.1.obj
  exact ⟨(⟨x, y, z⟩, b.2), by simp only [Rdf.edgeItem, Triple.tryMap, h1, h3, h5], ⟨h2, h4, h6⟩, rfl⟩

section

variable (hn : (SledIndex.impl cl cr).Shows i f)
include hn

theorem insertNode_lift (s : SledStore Ulid) (a : Entity × NP) (b : Ulid × NP) (h : Ref f a.1 b.1 ∧ a.2 = b.2) :
    (on i u s).insertNode (SledIndex.impl cl cr) (SledStore.impl c mN mE) a.1 a.2 = lift1 i u (s.insertNode c b.1 b.2) := by
  unfold Rdf.insertNode
  rw [create_known hn h.1, h.2]
  exact onGraph_lift s _

theorem mergeNode_lift (s : SledStore Ulid) (a : Entity × NP) (b : Ulid × NP) (h : Ref f a.1 b.1 ∧ a.2 = b.2) :
    (on i u s).mergeNode (SledIndex.impl cl cr) (SledStore.impl c mN mE) a.1 a.2 = lift1 i u (s.mergeNode c mN b.1 b.2) := by
  unfold Rdf.mergeNode
  rw [create_known hn h.1, h.2]
  exact onGraph_lift s _

theorem insertEdge_lift (s : SledStore Ulid) (a : Triple Entity × EP) (b : Triple Ulid × EP) (h : RefT f a.1 b.1 ∧ a.2 = b.2) :
    (on i u s).insertEdge (SledIndex.impl cl cr) (SledStore.impl c mN mE) a.1 a.2 = lift1 i u (s.insertEdge c b.1 b.2) := by
  unfold Rdf.insertEdge
  rw [createTriple_known hn h.1, h.2]
  exact onGraph_lift s _

theorem mergeEdge_lift (s : SledStore Ulid) (a : Triple Entity × EP) (b : Triple Ulid × EP) (h : RefT f a.1 b.1 ∧ a.2 = b.2) :
    (on i u s).mergeEdge (SledIndex.impl cl cr) (SledStore.impl c mN mE) a.1 a.2 = lift1 i u (s.mergeEdge c mE b.1 b.2) := by
  unfold Rdf.mergeEdge
  rw [createTriple_known hn h.1, h.2]
  exact onGraph_lift s _

/-- both loops -/
theorem both_lift {FN : Store → Entity × NP → Store × Except Err Unit} {FE : Store → Triple Entity × EP → Store × Except Err Unit}
    {fN : SledStore Ulid → Ulid × NP → SledStore Ulid × Except SErr Unit}
    {fE : SledStore Ulid → Triple Ulid × EP → SledStore Ulid × Except SErr Unit}
    (hN : ∀ s a b, (Ref f a.1 b.1 ∧ a.2 = b.2) → FN (on i u s) a = lift1 i u (fN s b))
    (hE : ∀ s a b, (RefT f a.1 b.1 ∧ a.2 = b.2) → FE (on i u s) a = lift1 i u (fE s b)) (s : SledStore Ulid)
    (src : Source SErr Ulid NP EP) :
    Sled.andThen (Rdf.absorb FN (on i u s) (src.nodes.map (Rdf.vertexItem (SledIndex.impl cl cr) i)))
      (fun r => Rdf.absorb FE r (src.edges.map (Rdf.edgeItem (SledIndex.impl cl cr) i))) =
      Sled.lifted (on i u) err (Sled.takeAll fN fE s src) := by
  rw [absorb_lift (vertexItem_known hn) hN]
  unfold Sled.takeAll
  rcases Rdf.absorb fN s src.nodes with ⟨s', e | x⟩
  · rfl
  · exact absorb_lift (edgeItem_known hn) hE _ _

theorem extend_lift (s : SledStore Ulid) (src : Source SErr Ulid NP EP) :
    (on i u s).extend (SledIndex.impl cl cr) (SledStore.impl c mN mE)
      ⟨src.nodes.map (Rdf.vertexItem (SledIndex.impl cl cr) i), src.edges.map (Rdf.edgeItem (SledIndex.impl cl cr) i)⟩ =
      Sled.lifted (on i u) err
        (Sled.takeAll (fun s x => s.insertNode c x.1 x.2) (fun s x => s.insertEdge c x.1 x.2) s src) := by
  rw [← both_lift hn (FN := fun r x => r.insertNode (SledIndex.impl cl cr) (SledStore.impl c mN mE) x.1 x.2)
    (FE := fun r x => r.insertEdge (SledIndex.impl cl cr) (SledStore.impl c mN mE) x.1 x.2) (insertNode_lift hn) (insertEdge_lift hn) s src]
  unfold Rdf.extend Sled.andThen
  dsimp only
  rcases Rdf.absorb _ (on i u s) (src.nodes.map _) with ⟨r, e | x⟩ <;> rfl

theorem merge_lift (s : SledStore Ulid) (src : Source SErr Ulid NP EP) :
    (on i u s).merge (SledIndex.impl cl cr) (SledStore.impl c mN mE)
      ⟨src.nodes.map (Rdf.vertexItem (SledIndex.impl cl cr) i), src.edges.map (Rdf.edgeItem (SledIndex.impl cl cr) i)⟩ =
      Sled.lifted (on i u) err
        (Sled.takeAll (fun s x => s.mergeNode c mN x.1 x.2) (fun s x => s.mergeEdge c mE x.1 x.2) s src) := by
  rw [← both_lift hn (FN := fun r x => r.mergeNode (SledIndex.impl cl cr) (SledStore.impl c mN mE) x.1 x.2)
    (FE := fun r x => r.mergeEdge (SledIndex.impl cl cr) (SledStore.impl c mN mE) x.1 x.2) (mergeNode_lift hn) (mergeEdge_lift hn) s src]
  unfold Rdf.merge Sled.andThen
  dsimp only
  rcases Rdf.absorb _ (on i u s) (src.nodes.map _) with ⟨r, e | x⟩ <;> rfl

/-- Both loops write only what is read; so it is as if the contents were those of the beginning. -/
theorem extend_iff (hc : c.RoundTrip) {n m : Nat} {F : Bytes → Prop} {s : SledStore Ulid} {G : Graph Ulid NP EP}
    (h : SledStore.Ok c (n + s.db.spo.entries.length) m F s G) {out : Out} :
    Extend cl cr c mN mE (on i u s) out ↔ out = (on i u s).extend (SledIndex.impl cl cr) (SledStore.impl c mN mE)
      ((on i u s).intoIterNodes (SledIndex.impl cl cr) (SledStore.impl c mN mE) .SPO) := by
  unfold Extend
  rw [Sled.both_lifted (g := on i u) (h := err)
    (A := fun s => Sled.Loop (fun s => s.db.nodeProps) (fun s e => Sled.takeAll (fun s x => s.insertNode c x.1 x.2) (fun s x => s.insertEdge c x.1 x.2) s
      ⟨[Sled.vertexItem Ulid c e], []⟩) s ⟨[], none⟩)
    (B := fun s => Sled.Loop (fun s => s.db.spo) (fun s e => Sled.takeAll (fun s x => s.insertNode c x.1 x.2) (fun s x => s.insertEdge c x.1 x.2) s
      ⟨[], [Sled.intoEdgeItem Ulid c s.db e]⟩) s ⟨[], none⟩)
    (fun s o => Sled.loop_lifted (fun _ => rfl) (fun s e => extend_lift hn s ⟨[Sled.vertexItem Ulid c e], []⟩))
    (fun s o => Sled.loop_lifted (fun _ => rfl) (fun s e => extend_lift hn s ⟨[], [Sled.intoEdgeItem Ulid c s.db e]⟩))]
  simp only [(Sled.insertBulk (n := n) (m := m) (F := F) hc).self h]
  rw [show (on i u s).extend (SledIndex.impl cl cr) (SledStore.impl c mN mE)
      ((on i u s).intoIterNodes (SledIndex.impl cl cr) (SledStore.impl c mN mE) .SPO) = _ from
    extend_lift hn s (Sled.intoIterNodes c s.db .SPO)]
  exact ⟨fun ⟨_, h1, h2⟩ => h1 ▸ h2, fun h => ⟨_, rfl, h⟩⟩

theorem merge_iff (hc : c.RoundTrip) {n m : Nat} {F : Bytes → Prop} {s : SledStore Ulid} {G : Graph Ulid NP EP}
    (h : SledStore.Ok c (n + s.db.spo.entries.length) m F s G) {out : Out} :
    Merge cl cr c mN mE (on i u s) out ↔ out = (on i u s).merge (SledIndex.impl cl cr) (SledStore.impl c mN mE)
      ((on i u s).intoIterNodes (SledIndex.impl cl cr) (SledStore.impl c mN mE) .SPO) := by
  unfold Merge
  rw [Sled.both_lifted (g := on i u) (h := err)
    (A := fun s => Sled.Loop (fun s => s.db.nodeProps) (fun s e => Sled.takeAll (fun s x => s.mergeNode c mN x.1 x.2) (fun s x => s.mergeEdge c mE x.1 x.2) s
      ⟨[Sled.vertexItem Ulid c e], []⟩) s ⟨[], none⟩)
    (B := fun s => Sled.Loop (fun s => s.db.spo) (fun s e => Sled.takeAll (fun s x => s.mergeNode c mN x.1 x.2) (fun s x => s.mergeEdge c mE x.1 x.2) s
      ⟨[], [Sled.intoEdgeItem Ulid c s.db e]⟩) s ⟨[], none⟩)
    (fun s o => Sled.loop_lifted (fun _ => rfl) (fun s e => merge_lift hn s ⟨[Sled.vertexItem Ulid c e], []⟩))
    (fun s o => Sled.loop_lifted (fun _ => rfl) (fun s e => merge_lift hn s ⟨[], [Sled.intoEdgeItem Ulid c s.db e]⟩))]
  simp only [(Sled.mergedBulk (n := n) (m := m) (F := F) hc mN mE).self h]
  rw [show (on i u s).merge (SledIndex.impl cl cr) (SledStore.impl c mN mE)
      ((on i u s).intoIterNodes (SledIndex.impl cl cr) (SledStore.impl c mN mE) .SPO) = _ from
    merge_lift hn s (Sled.intoIterNodes c s.db .SPO)]
  exact ⟨fun ⟨_, h1, h2⟩ => h1 ▸ h2, fun h => ⟨_, rfl, h⟩⟩

end

end RdfSelf

end Verif
