import Verif.Spec.RdfSled
import Verif.Proof.Rdf
import Verif.Proof.RdfStore
import Verif.Proof.SledExtend

/-! # Crash points and reachable states of RDF stores on sled -/

set_option linter.unusedSectionVars false

namespace Verif

open Spec ConcreteId

variable {NP EP E α β : Type}

namespace Prog

theorem run_mem_states {S : Type} (p : Prog S α) (s : S) : (p.run s).1 ∈ p.states s := by
  induction p generalizing s with
  | ret a => exact List.mem_singleton.2 rfl
  | call f k ih => exact List.mem_cons_of_mem _ (ih s (f s))

theorem run_bind' {S : Type} (p : Prog S α) (g : α → Prog S β) (s : S) :
    (p.bind g).run s = (g (p.run s).2).run (p.run s).1 := by
  induction p generalizing s with
  | ret a => rfl
  | call f k ih => exact ih s (f s)

theorem onNames_run (p : Prog IndexDb α) (d : RdfDb) :
    p.onNames.run d = ({ d with names := (p.run d.names).1 }, (p.run d.names).2) := by
  induction p generalizing d with
  | ret a => rfl
  | call f k ih => exact ih d.names { d with names := f d.names }

theorem onNames_states (p : Prog IndexDb α) (d : RdfDb) :
    p.onNames.states d = (p.states d.names).map (fun i => { d with names := i }) := by
  induction p generalizing d with
  | ret a => rfl
  | call f k ih => exact congrArg (d :: ·) (ih d.names { d with names := f d.names })

theorem onData_run (p : Prog Db α) (d : RdfDb) :
    p.onData.run d = ({ d with data := (p.run d.data).1 }, (p.run d.data).2) := by
  induction p generalizing d with
  | ret a => rfl
  | call f k ih => exact ih d.data { d with data := f d.data }

theorem onData_states (p : Prog Db α) (d : RdfDb) :
    p.onData.states d = (p.states d.data).map (fun i => { d with data := i }) := by
  induction p generalizing d with
  | ret a => rfl
  | call f k ih => exact congrArg (d :: ·) (ih d.data { d with data := f d.data })

end Prog

namespace RdfSled

variable {cl : Codec String} {cr : Codec Ulid} {c : Codecs NP EP} {mN : NP → NP → NP} {mE : EP → EP → EP}

abbrev Handle := Rdf IndexDb (SledStore Ulid)

/-! ## run alone, the programs do what the functions do -/

/-- `m` is the program of `F` -/
def Matches (m : Task α) (F : Handle → Handle × Except Err α) : Prop :=
  ∀ r, (m (idsOf r)).run (dbOf r) = (dbOf (F r).1, (idsOf (F r).1, (F r).2))

theorem matches_andThen {m : Task α} {f : α → Task β} {F : Handle → Handle × Except Err α}
    {K : α → Handle → Handle × Except Err β} (hm : Matches m F) (hf : ∀ a, Matches (f a) (K a)) :
    Matches (m.andThen f) (fun r => match F r with
      | (r, .error e) => (r, .error e)
      | (r, .ok a) => K a r) := by
  intro r
  unfold Task.andThen
  rw [Prog.run_bind', hm r]
  dsimp only
  rcases F r with ⟨r', e | a⟩
  · rfl
  · exact hf a r'

theorem states_andThen {m : Task α} {f : α → Task β} {F : Handle → Handle × Except Err α}
    (hm : Matches m F) {r : Handle} {d : RdfDb} (hd : d ∈ (m.andThen f (idsOf r)).states (dbOf r)) :
    d ∈ (m (idsOf r)).states (dbOf r) ∨
    ∃ a, (F r).2 = .ok a ∧ d ∈ (f a (idsOf (F r).1)).states (dbOf (F r).1) := by
  rcases Prog.mem_states_bind hd with h | h
  · exact .inl h
  · have hr := hm r
    rw [hr] at h
    dsimp only at h
    cases ha : (F r).2 with
    | error e =>
      rw [ha] at h
      have := Prog.run_mem_states (m (idsOf r)) (dbOf r)
      rw [hr] at this
      rw [List.mem_singleton.1 h]
      exact .inl this
    | ok a =>
      rw [ha] at h
      exact .inr ⟨a, rfl, h⟩

theorem matches_done (a : α) : Matches (done a) (fun r => (r, .ok a)) := fun _ => rfl

theorem leftToRight_run (l : String) (d : IndexDb) :
    (SledIndex.leftToRightProg cl cr l).run d = (d, (SledIndex.impl cl cr).leftToRight d l) := by
  cases h : cl.ser l with
  | none => simp only [SledIndex.leftToRightProg, SledIndex.impl, SledIndex.lookup, h, Prog.run]
  | some b => simp only [SledIndex.leftToRightProg, SledIndex.impl, SledIndex.lookup, h, Prog.run, id]

theorem leftToRight_states (l : String) (d : IndexDb) {x : IndexDb}
    (hx : x ∈ (SledIndex.leftToRightProg cl cr l).states d) : x = d := by
  unfold SledIndex.leftToRightProg at hx
  cases h : cl.ser l with
  | none => rw [h] at hx; exact List.mem_singleton.1 hx
  | some b =>
    rw [h] at hx
    simp only [Prog.states, id, List.mem_cons, List.not_mem_nil, or_false, or_self] at hx
    exact hx

theorem set_states (l : String) (v : Ulid) (d : IndexDb) {x : IndexDb}
    (hx : x ∈ (SledIndex.setProg cl cr l v).states d) :
    x = d ∨ x = ((SledIndex.setProg cl cr l v).run d).1 := by
  unfold SledIndex.setProg at hx ⊢
  cases h : cl.ser l with
  | none => rw [h] at hx; exact .inl (List.mem_singleton.1 hx)
  | some b =>
    rw [h] at hx
    cases h' : cr.ser v with
    | none => rw [h'] at hx; exact .inl (List.mem_singleton.1 hx)
    | some b' =>
      rw [h'] at hx
      dsimp only at hx ⊢
      simp only [Prog.states, List.mem_cons, List.not_mem_nil, or_false] at hx
      exact hx

theorem onIndex_run (p : Prog IndexDb (Except (SledIndexErr String Ulid) α)) (i : Ids) (d : RdfDb) :
    (onIndex p i).run d = ({ d with names := (p.run d.names).1 }, i,
      match (p.run d.names).2 with | .ok a => .ok a | .error e => .error (.nameIndex e)) := by
  unfold onIndex
  rw [Prog.run_bind', Prog.onNames_run]
  rfl

theorem onIndex_states (p : Prog IndexDb (Except (SledIndexErr String Ulid) α)) (i : Ids) (d : RdfDb) {x : RdfDb}
    (hx : x ∈ (onIndex p i).states d) : ∃ j ∈ p.states d.names, x = { d with names := j } := by
  unfold onIndex at hx
  rcases Prog.mem_states_bind hx with h | h
  · rw [Prog.onNames_states] at h
    obtain ⟨j, hj, rfl⟩ := List.mem_map.1 h
    exact ⟨j, hj, rfl⟩
  · rw [Prog.onNames_run] at h
    exact ⟨_, Prog.run_mem_states p d.names, List.mem_singleton.1 h⟩

theorem onGraph_run (p : Prog Db (Except SErr Unit)) (i : Ids) (d : RdfDb) :
    (onGraph p i).run d = ({ d with data := (p.run d.data).1 }, i,
      match (p.run d.data).2 with | .ok a => .ok a | .error e => .error (.graph e)) := by
  unfold onGraph
  rw [Prog.run_bind', Prog.onData_run]
  rfl

theorem onGraph_states {p : Prog Db (Except SErr Unit)} (hp : p.Atomic) (i : Ids) (d : RdfDb) {x : RdfDb}
    (hx : x ∈ (onGraph p i).states d) : x = d ∨ x = ((onGraph p i).run d).1 := by
  rw [onGraph_run]
  unfold onGraph at hx
  rcases Prog.mem_states_bind hx with h | h
  · rw [Prog.onData_states] at h
    obtain ⟨j, hj, rfl⟩ := List.mem_map.1 h
    rcases hp _ _ hj with rfl | rfl
    · exact .inl rfl
    · exact .inr rfl
  · rw [Prog.onData_run] at h
    exact .inr (List.mem_singleton.1 h)

/-- a call on the store in `Rdf` -/
theorem graph_run (r : Handle) (p : Prog Db (Except SErr Unit)) (g : Gen Ulid) :
    (onGraph p { ulid := r.ulid, gen := g }).run (dbOf r) =
      (dbOf (r.onGraph (IX := SledIndexErr String Ulid)
          ({ r.graph with db := (p.run r.graph.db).1, gen := g }, (p.run r.graph.db).2)).1,
        idsOf (r.onGraph (IX := SledIndexErr String Ulid)
          ({ r.graph with db := (p.run r.graph.db).1, gen := g }, (p.run r.graph.db).2)).1,
        (r.onGraph ({ r.graph with db := (p.run r.graph.db).1, gen := g }, (p.run r.graph.db).2)).2) := by
  rw [onGraph_run]
  unfold Rdf.onGraph
  show (RdfDb.mk r.nameIndex (p.run r.graph.db).1, _, (match (p.run r.graph.db).2 with | .ok a => _ | .error e => _)) = _
  generalize p.run r.graph.db = res
  rcases res with ⟨d, e | a⟩ <;> rfl

local notation "ix" => SledIndex.impl cl cr
local notation "st" => SledStore.impl (Id := Ulid) c mN mE

theorem matches_lookupOrCreate (e : Entity) :
    Matches (lookupOrCreateEntity cl cr e) (fun r => r.lookupOrCreateEntity ix e) := by
  intro r
  cases e with
  | ulid v => rfl
  | string s =>
    unfold lookupOrCreateEntity Rdf.lookupOrCreateEntity Task.andThen
    rw [Prog.run_bind', onIndex_run, leftToRight_run, show (dbOf r).names = r.nameIndex from rfl]
    cases hl : (ix).leftToRight r.nameIndex s with
    | error e => simp only [hl]; rfl
    | ok o =>
      cases o with
      | some v => simp only [hl]; rfl
      | none =>
        simp only [hl]
        rw [Prog.run_bind', onIndex_run, show (SledIndex.setProg cl cr s (Gen.fresh (idsOf r).ulid).1).run r.nameIndex =
          (ix).set r.nameIndex s (Gen.fresh r.ulid).1 from rfl]
        rcases (ix).set r.nameIndex s (Gen.fresh r.ulid).1 with ⟨i, e | a⟩ <;> rfl

theorem matches_lookup (e : Entity) : Matches (lookupEntity cl cr e) (fun r => (r, r.lookupEntity ix e)) := by
  intro r
  cases e with
  | ulid v => rfl
  | string s =>
    unfold lookupEntity Rdf.lookupEntity Task.andThen
    rw [Prog.run_bind', onIndex_run, leftToRight_run, show (dbOf r).names = r.nameIndex from rfl]
    cases hl : (ix).leftToRight r.nameIndex s with
    | error e => simp only [hl]; rfl
    | ok o => cases o <;> (simp only [hl]; rfl)

theorem matches_createTriple (t : Triple Entity) :
    Matches (tryMap (lookupOrCreateEntity cl cr) t) (fun r => r.createTriple ix t) := by
  intro r
  have m := fun e => matches_lookupOrCreate (cl := cl) (cr := cr) e
  have := matches_andThen (m t.sub) (fun s => matches_andThen (m t.pred) (fun p =>
    matches_andThen (m t.obj) (fun o => matches_done (Triple.mk s p o)))) r
  unfold tryMap Rdf.createTriple
  rw [this]
  dsimp only
  rcases r.lookupOrCreateEntity (SX := SErr) ix t.sub with ⟨r, e | s⟩
  · rfl
  · dsimp only
    rcases r.lookupOrCreateEntity (SX := SErr) ix t.pred with ⟨r, e | p⟩
    · rfl
    · dsimp only
      rcases r.lookupOrCreateEntity (SX := SErr) ix t.obj with ⟨r, e | o⟩ <;> rfl

theorem matches_lookupTriple (t : Triple Entity) :
    Matches (tryMap (lookupEntity cl cr) t) (fun r => (r, t.tryMap (fun e => r.lookupEntity ix e))) := by
  intro r
  have m := fun e => matches_lookup (cl := cl) (cr := cr) e
  have := matches_andThen (m t.sub) (fun s => matches_andThen (m t.pred) (fun p =>
    matches_andThen (m t.obj) (fun o => matches_done (Triple.mk s p o)))) r
  unfold tryMap
  rw [this]
  unfold Triple.tryMap
  dsimp only
  cases r.lookupEntity (SX := SErr) ix t.sub with
  | error e => rfl
  | ok a =>
    dsimp only
    cases r.lookupEntity (SX := SErr) ix t.pred with
    | error e => rfl
    | ok b =>
      dsimp only
      cases r.lookupEntity (SX := SErr) ix t.obj <;> rfl

theorem matches_insertNode (e : Entity) (p : NP) :
    Matches (insertNode cl cr c e p) (fun r => r.insertNode ix st e p) := by
  intro r
  have := matches_andThen (matches_lookupOrCreate (cl := cl) (cr := cr) e)
    (f := fun id => onGraph (Sled.insertNode c id p)) (K := fun v r => r.onGraph ((st).insertNode r.graph v p)) (fun _ r => graph_run r _ _) r
  unfold insertNode Rdf.insertNode
  rw [this]
  dsimp only
  rcases r.lookupOrCreateEntity (SX := SErr) ix e with ⟨r, e | v⟩ <;> rfl

theorem matches_mergeNode (e : Entity) (p : NP) :
    Matches (mergeNode cl cr c mN e p) (fun r => r.mergeNode ix st e p) := by
  intro r
  have := matches_andThen (matches_lookupOrCreate (cl := cl) (cr := cr) e)
    (f := fun id => onGraph (Sled.mergeNode c mN id p)) (K := fun v r => r.onGraph ((st).mergeNode r.graph v p)) (fun _ r => graph_run r _ _) r
  unfold mergeNode Rdf.mergeNode
  rw [this]
  dsimp only
  rcases r.lookupOrCreateEntity (SX := SErr) ix e with ⟨r, e | v⟩ <;> rfl

theorem matches_insertEdge (t : Triple Entity) (p : EP) :
    Matches (insertEdge cl cr c t p) (fun r => r.insertEdge ix st t p) := by
  intro r
  have := matches_andThen (matches_createTriple (cl := cl) (cr := cr) t)
    (f := fun t i => onGraph (Sled.insertEdge c (Gen.fresh i.gen).1 t p) { i with gen := (Gen.fresh i.gen).2 }) (K := fun v r => r.onGraph ((st).insertEdge r.graph v p)) (fun _ r => graph_run r _ _) r
  unfold insertEdge Rdf.insertEdge
  rw [this]
  dsimp only
  rcases r.createTriple (SX := SErr) ix t with ⟨r, e | v⟩ <;> rfl

theorem matches_mergeEdge (t : Triple Entity) (p : EP) :
    Matches (mergeEdge cl cr c mE t p) (fun r => r.mergeEdge ix st t p) := by
  intro r
  have := matches_andThen (matches_createTriple (cl := cl) (cr := cr) t)
    (f := fun t i => onGraph (Sled.mergeEdge c mE (Gen.fresh i.gen).1 t p) { i with gen := (Gen.fresh i.gen).2 }) (K := fun v r => r.onGraph ((st).mergeEdge r.graph v p)) (fun _ r => graph_run r _ _) r
  unfold mergeEdge Rdf.mergeEdge
  rw [this]
  dsimp only
  rcases r.createTriple (SX := SErr) ix t with ⟨r, e | v⟩ <;> rfl

theorem matches_removeNode (e : Entity) : Matches (removeNode cl cr e) (fun r => r.removeNode ix st e) := by
  intro r
  have := matches_andThen (matches_lookup (cl := cl) (cr := cr) e) (f := fun id => onGraph (Sled.removeNode id))
    (K := fun v r => r.onGraph ((st).removeNode r.graph v)) (fun _ r => graph_run r _ _) r
  unfold removeNode Rdf.removeNode
  rw [this]
  dsimp only
  cases r.lookupEntity (SX := SErr) ix e <;> rfl

theorem matches_removeEdge (t : Triple Entity) : Matches (removeEdge cl cr t) (fun r => r.removeEdge ix st t) := by
  intro r
  have := matches_andThen (matches_lookupTriple (cl := cl) (cr := cr) t) (f := fun t => onGraph (Sled.removeEdge t))
    (K := fun v r => r.onGraph ((st).removeEdge r.graph v)) (fun _ r => graph_run r _ _) r
  unfold removeEdge Rdf.removeEdge
  rw [this]
  dsimp only
  cases t.tryMap (fun e => r.lookupEntity (SX := SErr) ix e) <;> rfl

/-- the same for a function that may take in a source -/
def MatchesAll (m : Ids → Prog RdfDb (Ids × Except (LR Err E) Unit)) (F : Handle → Handle × Except (LR Err E) Unit) : Prop :=
  ∀ r, (m (idsOf r)).run (dbOf r) = (dbOf (F r).1, (idsOf (F r).1, (F r).2))

theorem matches_absorb {f : α → Task Unit} {F : Handle → α → Handle × Except Err Unit} (hf : ∀ a, Matches (f a) (fun r => F r a))
    {k : Ids → Prog RdfDb (Ids × Except (LR Err E) Unit)} {K : Handle → Handle × Except (LR Err E) Unit}
    (hk : MatchesAll k K) (l : List (Except E α)) :
    MatchesAll (absorb f k l) (fun r => match Rdf.absorb F r l with
      | (r, .error e) => (r, .error e)
      | (r, .ok ()) => K r) := by
  induction l with
  | nil => exact fun r => hk r
  | cons a l ih =>
    cases a with
    | error e => exact fun r => rfl
    | ok a =>
      intro r
      rw [absorb, Prog.run_bind', hf a r]
      unfold Rdf.absorb
      dsimp only
      rcases F r a with ⟨r', e | ⟨⟩⟩
      · rfl
      · exact ih r'

theorem matches_single {m : Task Unit} {F : Handle → Handle × Except Err Unit} (h : Matches m F) :
    MatchesAll (E := E) (single m) (fun r => ((F r).1, Rdf.tag (F r).2)) := by
  intro r
  unfold single
  rw [Prog.run_bind', h r]
  rfl

theorem matches_ok : MatchesAll (E := E) (fun i => .ret (i, .ok ())) (fun r => (r, .ok ())) := fun _ => rfl

theorem matches_both {fN : Entity × NP → Task Unit} {FN : Handle → Entity × NP → Handle × Except Err Unit}
    (hN : ∀ a, Matches (fN a) (fun r => FN r a)) {fE : Triple Entity × EP → Task Unit}
    {FE : Handle → Triple Entity × EP → Handle × Except Err Unit} (hE : ∀ a, Matches (fE a) (fun r => FE r a))
    (src : Source E Entity NP EP) {B : Handle → Handle × Except (LR Err E) Unit}
    (h1 : ∀ r r' e, Rdf.absorb FN r src.nodes = (r', .error e) → B r = (r', .error e))
    (h2 : ∀ r r', Rdf.absorb FN r src.nodes = (r', .ok ()) → B r = Rdf.absorb FE r' src.edges) :
    MatchesAll (absorb fN (absorb fE (fun i => .ret (i, .ok ())) src.edges) src.nodes) B := by
  intro r
  refine (matches_absorb hN (matches_absorb hE matches_ok src.edges) src.nodes r).trans ?_
  dsimp only
  rcases h : Rdf.absorb FN r src.nodes with ⟨r', e | ⟨⟩⟩
  · rw [h1 _ _ _ h]
  · rw [h2 _ _ h]
    dsimp only
    rcases Rdf.absorb FE r' src.edges with ⟨r'', e | ⟨⟩⟩ <;> rfl

theorem matches_call (op : Op E Entity NP EP) : MatchesAll (prog cl cr c mN mE op) (fun r => r.call ix st op) := by
  cases op with
  | insertNode e p => exact matches_single (matches_insertNode e p)
  | insertEdge t p => exact matches_single (matches_insertEdge t p)
  | removeNode e => exact matches_single (matches_removeNode e)
  | removeEdge t => exact matches_single (matches_removeEdge t)
  | mergeNode e p => exact matches_single (matches_mergeNode e p)
  | mergeEdge t p => exact matches_single (matches_mergeEdge t p)
  | extend src =>
    refine matches_both (fun x => matches_insertNode (cl := cl) (cr := cr) (c := c) (mN := mN) (mE := mE) x.1 x.2)
      (fun x => matches_insertEdge (cl := cl) (cr := cr) (c := c) (mN := mN) (mE := mE) x.1 x.2) src (fun r r' e h => ?_)
      (fun r r' h => ?_)
    · show r.extend ix st src = _
      unfold Rdf.extend
      rw [h]
    · show r.extend ix st src = _
      unfold Rdf.extend
      rw [h]
  | merge src =>
    refine matches_both (fun x => matches_mergeNode (cl := cl) (cr := cr) (c := c) (mN := mN) (mE := mE) x.1 x.2)
      (fun x => matches_mergeEdge (cl := cl) (cr := cr) (c := c) (mN := mN) (mE := mE) x.1 x.2) src (fun r r' e h => ?_)
      (fun r r' h => ?_)
    · show r.merge ix st src = _
      unfold Rdf.merge
      rw [h]
    · show r.merge ix st src = _
      unfold Rdf.merge
      rw [h]

/-! ## the states gone through -/

theorem create_states {r : Handle} (e : Entity) {d : RdfDb} (hd : d ∈ (lookupOrCreateEntity cl cr e (idsOf r)).states (dbOf r)) :
    d = dbOf r ∨ d = dbOf (r.lookupOrCreateEntity (SX := SErr) ix e).1 := by
  cases e with
  | ulid v => exact .inl (List.mem_singleton.1 hd)
  | string s =>
    have hr := matches_lookupOrCreate (cl := cl) (cr := cr) (.string s) r
    unfold lookupOrCreateEntity Task.andThen at hd hr
    rcases Prog.mem_states_bind hd with h | h
    · obtain ⟨j, hj, rfl⟩ := onIndex_states _ _ _ h
      rw [leftToRight_states _ _ hj]
      exact .inl rfl
    · rw [Prog.run_bind'] at hr
      rw [onIndex_run, leftToRight_run, show (dbOf r).names = r.nameIndex from rfl] at h hr
      cases hl : (ix).leftToRight r.nameIndex s with
      | error e => rw [hl] at h; exact .inl (List.mem_singleton.1 h)
      | ok o =>
        rw [hl] at h hr
        cases o with
        | some v => exact .inl (List.mem_singleton.1 h)
        | none =>
          dsimp only at h hr
          rcases Prog.mem_states_bind h with h | h
          · obtain ⟨j, hj, rfl⟩ := onIndex_states _ _ _ h
            rcases set_states _ _ _ hj with rfl | rfl
            · exact .inl rfl
            · refine .inr ?_
              rw [Prog.run_bind', onIndex_run] at hr
              refine Eq.trans ?_ (congrArg Prod.fst hr)
              dsimp only
              generalize (SledIndex.setProg cl cr s (Gen.fresh (idsOf r).ulid).1).run r.nameIndex = q
              rcases q with ⟨j, e | a⟩ <;> rfl
          · refine .inr ?_
            rw [Prog.run_bind', onIndex_run] at hr
            rw [onIndex_run] at h
            refine Eq.trans ?_ (congrArg Prod.fst hr)
            dsimp only at h ⊢
            generalize (SledIndex.setProg cl cr s (Gen.fresh (idsOf r).ulid).1).run r.nameIndex = q at h ⊢
            rcases q with ⟨j, e | a⟩ <;> exact List.mem_singleton.1 h

theorem lookup_states {r : Handle} (e : Entity) {d : RdfDb} (hd : d ∈ (lookupEntity cl cr e (idsOf r)).states (dbOf r)) :
    d = dbOf r := by
  cases e with
  | ulid v => exact List.mem_singleton.1 hd
  | string s =>
    unfold lookupEntity Task.andThen at hd
    rcases Prog.mem_states_bind hd with h | h
    · obtain ⟨j, hj, rfl⟩ := onIndex_states _ _ _ h
      rw [leftToRight_states _ _ hj]
    · rw [onIndex_run, leftToRight_run, show (dbOf r).names = r.nameIndex from rfl] at h
      cases hl : (ix).leftToRight r.nameIndex s with
      | error e => rw [hl] at h; exact List.mem_singleton.1 h
      | ok o =>
        rw [hl] at h
        cases o <;> exact List.mem_singleton.1 h

theorem lookupTriple_states {r : Handle} (t : Triple Entity) {d : RdfDb}
    (hd : d ∈ (tryMap (lookupEntity cl cr) t (idsOf r)).states (dbOf r)) : d = dbOf r := by
  rcases states_andThen (matches_lookup t.sub) hd with h | ⟨a, -, h⟩
  · exact lookup_states _ h
  · rcases states_andThen (matches_lookup t.pred) h with h | ⟨a, -, h⟩
    · exact lookup_states _ h
    · rcases states_andThen (matches_lookup t.obj) h with h | ⟨a, -, h⟩
      · exact lookup_states _ h
      · exact List.mem_singleton.1 h

/-! ## what is in the database -/

/-- the database holds `x` -/
def Leaves (cl : Codec String) (cr : Codec Ulid) (c : Codecs NP EP) (C : List Ulid) (d : RdfDb) (x : RdfState NP EP) : Prop :=
  ∃ f, (SledIndex.impl cl cr).Shows d.names f ∧ d.data.Inv Ulid c ∧ Agree f (d.data.graph c) x ∧ ∀ v ∈ C, ∀ s, f s ≠ some v

variable {C : List Ulid} {n k : Nat} {r : Handle} {x : RdfState NP EP}

/-- the store holds `x` -/
def Is (cl : Codec String) (cr : Codec Ulid) (c : Codecs NP EP) (C : List Ulid) (n k : Nat) (r : Handle) (x : RdfState NP EP) : Prop :=
  ∃ f G, Rdf.Inv (SledIndex.impl cl cr) (fun n s G => SledStore.Ok c n 0 (fun _ => False) s G) C n k r f G x

theorem Is.leaves (h : Is cl cr c C n k r x) : Leaves cl cr c C (dbOf r) x := by
  obtain ⟨f, G, h⟩ := h
  refine ⟨f, h.names, h.graph.inv, ?_, fun v hv => (h.clean v hv).1⟩
  show Agree f (r.graph.db.graph c) x
  rw [h.graph.graph]
  exact h.agree

theorem learn_nil (x : RdfState NP EP) : x.learn [] = x := by
  simp [RdfState.learn]

theorem learn_learn (x : RdfState NP EP) (a b : List Entity) : (x.learn a).learn b = x.learn (a ++ b) := by
  simp only [RdfState.learn, List.mem_append, Bool.decide_or, Bool.or_assoc]

section
variable (hl : cl.RoundTrips) (hr : cr.RoundTrips) (tl : cl.Total) (tr : cr.Total)
include hl hr tl tr

theorem create_leaves (h : Is cl cr c C n (k + 1) r x) {e : Entity} (he : Rdf.In C e) {d : RdfDb}
    (hd : d ∈ (lookupOrCreateEntity cl cr e (idsOf r)).states (dbOf r)) :
    ∃ es, es <+: [e] ∧ Leaves cl cr c C d (x.learn es) := by
  rcases create_states e hd with rfl | rfl
  · exact ⟨[], List.nil_prefix, by rw [learn_nil]; exact h.leaves⟩
  · obtain ⟨f, G, h⟩ := h
    obtain ⟨r', f', u, e1, i1, -⟩ := Rdf.create_entity (SX := SErr) (SledIndex.lawful hl hr tl tr) h he
    rw [e1]
    exact ⟨[e], List.prefix_refl _, Is.leaves ⟨f', G, i1⟩⟩

theorem createTriple_leaves (h : Is cl cr c C n (k + 3) r x) {t : Triple Entity} (ht : Rdf.InT C t) {d : RdfDb}
    (hd : d ∈ (tryMap (lookupOrCreateEntity cl cr) t (idsOf r)).states (dbOf r)) :
    ∃ es, es <+: RdfState.parts t ∧ Leaves cl cr c C d (x.learn es) := by
  have hix := SledIndex.lawful hl hr tl tr
  rcases states_andThen (matches_lookupOrCreate t.sub) hd with hd | ⟨a, -, hd⟩
  · obtain ⟨es, h1, h2⟩ := create_leaves hl hr tl tr h ht.1 hd
    exact ⟨es, h1.trans (List.prefix_append [t.sub] [t.pred, t.obj]), h2⟩
  · obtain ⟨f, G, h⟩ := h
    obtain ⟨r1, f1, u1, e1, i1, -⟩ := Rdf.create_entity (SX := SErr) hix h ht.1
    rw [e1] at hd
    rcases states_andThen (matches_lookupOrCreate t.pred) hd with hd | ⟨b, -, hd⟩
    · obtain ⟨es, h1, h2⟩ := create_leaves hl hr tl tr ⟨f1, G, i1⟩ ht.2.1 hd
      rw [learn_learn] at h2
      exact ⟨_, ((List.prefix_append_right_inj [t.sub]).2 h1).trans (List.prefix_append [t.sub, t.pred] [t.obj]), h2⟩
    · obtain ⟨r2, f2, u2, e2, i2, -⟩ := Rdf.create_entity (SX := SErr) hix i1 ht.2.1
      rw [e2] at hd
      rcases states_andThen (matches_lookupOrCreate t.obj) hd with hd | ⟨o, -, hd⟩
      · obtain ⟨es, h1, h2⟩ := create_leaves hl hr tl tr ⟨f2, G, i2⟩ ht.2.2 hd
        rw [learn_learn, learn_learn] at h2
        exact ⟨_, (List.prefix_append_right_inj [t.sub, t.pred]).2 h1, h2⟩
      · obtain ⟨r3, f3, u3, e3, i3, -⟩ := Rdf.create_entity (SX := SErr) hix i2 ht.2.2
        rw [e3] at hd
        rw [List.mem_singleton.1 hd]
        have := Is.leaves ⟨f3, G, i3⟩
        rw [learn_learn, learn_learn] at this
        exact ⟨_, List.prefix_refl _, this⟩

end

/-- the last step of a function: a call on the store, which is atomic -/
theorem graph_leaves {m : Task α} {f : α → Task Unit} {F : Handle → Handle × Except Err α} {K : Handle → Handle × Except Err Unit}
    (hm : Matches m F) (hk : Matches (m.andThen f) K)
    (ha : ∀ a i d, ∀ y ∈ (f a i).states d, y = d ∨ y = ((f a i).run d).1) {d : RdfDb}
    (hd : d ∈ (m.andThen f (idsOf r)).states (dbOf r)) :
    d ∈ (m (idsOf r)).states (dbOf r) ∨ d = dbOf (K r).1 := by
  have hr := hk r
  rcases states_andThen hm hd with h | ⟨a, h1, h2⟩
  · exact .inl h
  · rcases ha _ _ _ _ h2 with rfl | rfl
    · have := Prog.run_mem_states (m (idsOf r)) (dbOf r)
      rw [hm r] at this
      exact .inl this
    · refine .inr ?_
      unfold Task.andThen at hr
      rw [Prog.run_bind', hm r] at hr
      dsimp only at hr
      rw [h1] at hr
      exact congrArg Prod.fst hr

/-- What is left by a crash in a function that uses the names `es` and ends up in `y`. -/
def Partly (cl : Codec String) (cr : Codec Ulid) (c : Codecs NP EP) (C : List Ulid) (x y : RdfState NP EP) (es : List Entity)
    (d : RdfDb) : Prop :=
  Leaves cl cr c C d y ∨ ∃ es', es' <+: es ∧ Leaves cl cr c C d (x.learn es')

theorem single_leaves {m : Task Unit} {d : RdfDb}
    (hd : d ∈ (single (E := E) m (idsOf r)).states (dbOf r)) : d ∈ (m (idsOf r)).states (dbOf r) := by
  rcases Prog.mem_states_bind hd with h | h
  · exact h
  · have := Prog.run_mem_states (m (idsOf r)) (dbOf r)
    rw [List.mem_singleton.1 h]
    exact this

/-! ## the single functions -/

section
variable (hl : cl.RoundTrips) (hr : cr.RoundTrips) (tl : cl.Total) (tr : cr.Total) (hc : c.RoundTrip) (mN : NP → NP → NP) (mE : EP → EP → EP)
include hl hr tl tr hc

theorem insertNode_leaves (h : Is cl cr c C n (k + 1) r x) {e : Entity} (he : Rdf.In C e) (p : NP) {d : RdfDb}
    (hd : d ∈ (insertNode cl cr c e p (idsOf r)).states (dbOf r)) :
    Partly cl cr c C x (x.change (E := Unit) [e] (storeNode c.okN x.graph e p)).1 [e] d := by
  rcases graph_leaves (matches_lookupOrCreate e) (matches_insertNode (mN := fun a _ => a) (mE := fun a _ => a) e p)
    (fun a i d y hy => onGraph_states (Sled.insertNode_atomic a p) i d hy) hd with hd | rfl
  · exact .inr (create_leaves hl hr tl tr h he hd)
  · obtain ⟨f, G, h⟩ := h
    exact .inl (Is.leaves (Rdf.done_insertNode (E := Unit) (SledIndex.lawful hl hr tl tr) (SledStore.law (m := 0) hc _ _) h he p).1)

theorem mergeNode_leaves (h : Is cl cr c C n (k + 1) r x) {e : Entity} (he : Rdf.In C e) (p : NP) {d : RdfDb}
    (hd : d ∈ (mergeNode cl cr c mN e p (idsOf r)).states (dbOf r)) :
    Partly cl cr c C x (x.change (E := Unit) [e] (storeMergedNode c.okN mN x.graph e p)).1 [e] d := by
  rcases graph_leaves (matches_lookupOrCreate e) (matches_mergeNode (mE := fun a _ => a) e p)
    (fun a i d y hy => onGraph_states (Sled.mergeNode_atomic mN a p) i d hy) hd with hd | rfl
  · exact .inr (create_leaves hl hr tl tr h he hd)
  · obtain ⟨f, G, h⟩ := h
    exact .inl (Is.leaves (Rdf.done_mergeNode (E := Unit) (SledIndex.lawful hl hr tl tr) (SledStore.law (m := 0) hc _ _) h he p).1)

theorem insertEdge_leaves (h : Is cl cr c C (n + 1) (k + 3) r x) {t : Triple Entity} (ht : Rdf.InT C t) (p : EP) {d : RdfDb}
    (hd : d ∈ (insertEdge cl cr c t p (idsOf r)).states (dbOf r)) :
    Partly cl cr c C x (x.change (E := Unit) (RdfState.parts t) (storeEdge c.okE x.graph t p)).1 (RdfState.parts t) d := by
  rcases graph_leaves (matches_createTriple t) (matches_insertEdge (mN := fun a _ => a) (mE := fun a _ => a) t p)
    (fun a i d y hy => onGraph_states (Sled.insertEdge_atomic _ a p) _ d hy) hd with hd | rfl
  · exact .inr (createTriple_leaves hl hr tl tr h ht hd)
  · obtain ⟨f, G, h⟩ := h
    exact .inl (Is.leaves (Rdf.done_insertEdge (E := Unit) (SledIndex.lawful hl hr tl tr) (SledStore.law (m := 0) hc _ _) h ht p).1)

theorem mergeEdge_leaves (h : Is cl cr c C (n + 1) (k + 3) r x) {t : Triple Entity} (ht : Rdf.InT C t) (p : EP) {d : RdfDb}
    (hd : d ∈ (mergeEdge cl cr c mE t p (idsOf r)).states (dbOf r)) :
    Partly cl cr c C x (x.change (E := Unit) (RdfState.parts t) (storeMergedEdge c.okE mE x.graph t p)).1 (RdfState.parts t) d := by
  rcases graph_leaves (matches_createTriple t) (matches_mergeEdge (mN := fun a _ => a) t p)
    (fun a i d y hy => onGraph_states (Sled.mergeEdge_atomic mE _ a p) _ d hy) hd with hd | rfl
  · exact .inr (createTriple_leaves hl hr tl tr h ht hd)
  · obtain ⟨f, G, h⟩ := h
    exact .inl (Is.leaves (Rdf.done_mergeEdge (E := Unit) (SledIndex.lawful hl hr tl tr) (SledStore.law (m := 0) hc _ _) h ht p).1)

omit hl hr tl tr in
theorem removeNode_leaves (h : Is cl cr c C n k r x) {e : Entity} (he : Rdf.In C e) {d : RdfDb}
    (hd : d ∈ (removeNode cl cr e (idsOf r)).states (dbOf r)) :
    Leaves cl cr c C d (x.remove (E := Unit) [e] (x.graph.removeNode e)).1 ∨ Leaves cl cr c C d x := by
  rcases graph_leaves (matches_lookup e) (matches_removeNode (c := c) (mN := fun a _ => a) (mE := fun a _ => a) e)
    (fun a i d y hy => onGraph_states (Sled.removeNode_atomic a) _ d hy) hd with hd | rfl
  · rw [lookup_states _ hd]
    exact .inr h.leaves
  · obtain ⟨f, G, h⟩ := h
    exact .inl (Is.leaves (Rdf.done_removeNode (E := Unit) (SledStore.law (m := 0) hc _ _) h he).1)

omit hl hr tl tr in
theorem removeEdge_leaves (h : Is cl cr c C n k r x) {t : Triple Entity} (ht : Rdf.InT C t) {d : RdfDb}
    (hd : d ∈ (removeEdge cl cr t (idsOf r)).states (dbOf r)) :
    Leaves cl cr c C d (x.remove (E := Unit) (RdfState.parts t) (x.graph.removeEdge t)).1 ∨ Leaves cl cr c C d x := by
  rcases graph_leaves (matches_lookupTriple t) (matches_removeEdge (c := c) (mN := fun a _ => a) (mE := fun a _ => a) t)
    (fun a i d y hy => onGraph_states (Sled.removeEdge_atomic a) _ d hy) hd with hd | rfl
  · rw [lookupTriple_states _ hd]
    exact .inr h.leaves
  · obtain ⟨f, G, h⟩ := h
    exact .inl (Is.leaves (Rdf.done_removeEdge (E := Unit) (SledStore.law (m := 0) hc _ _) h ht).1)

end

theorem change_fst (x : RdfState NP EP) (es : List Entity) (o : Option (Graph Entity NP EP)) :
    (x.change (E := E) es o).1 = (x.change (E := Unit) es o).1 := by cases o <;> rfl

theorem remove_fst (x : RdfState NP EP) (es : List Entity) (H : Graph Entity NP EP) :
    (x.remove (E := E) es H).1 = (x.remove (E := Unit) es H).1 := by
  unfold RdfState.remove; split <;> rfl

/-! ## the loops -/

theorem takeIn_ok {Y : RdfState NP EP → α → RdfState NP EP × RdfOutcome E} {x : RdfState NP EP} {a : α}
    (h : (Y x a).2 = .done) (l : List (Except E α)) :
    RdfState.takeIn Y x (.ok a :: l) = RdfState.takeIn Y (Y x a).1 l := by
  rw [RdfState.takeIn]
  generalize Y x a = q at h
  obtain ⟨x', o⟩ := q
  cases h
  rfl

theorem takeIn_stop {Y : RdfState NP EP → α → RdfState NP EP × RdfOutcome E} {x : RdfState NP EP} {a : α}
    (h : (Y x a).2 ≠ .done) (l : List (Except E α)) : RdfState.takeIn Y x (.ok a :: l) = Y x a := by
  rw [RdfState.takeIn]
  generalize Y x a = q at h
  obtain ⟨x', o⟩ := q
  cases o with
  | done => exact absurd rfl h
  | unserializable => rfl
  | unknown s => rfl
  | source e => rfl

/-- What is left by a crash in a loop: the final state; or the state after some of the items, with some of the names in the
next; or a state in what follows the loop. -/
theorem absorb_leaves {dn dk : Nat} {f : α → Task Unit} {F : Handle → α → Handle × Except Err Unit}
    {Y : RdfState NP EP → α → RdfState NP EP × RdfOutcome E} {N : α → List Entity} {good : α → Prop}
    (hM : ∀ a, Matches (f a) (fun r => F r a))
    (hF : ∀ {n k r x}, Is cl cr c C (n + dn) (k + dk) r x → ∀ a, good a →
      Is cl cr c C n k (F r a).1 (Y x a).1 ∧ Rdf.tag (F r a).2 = (Y x a).2.result .serialization)
    (hP : ∀ {n k r x}, Is cl cr c C (n + dn) (k + dk) r x → ∀ a, good a → ∀ {d}, d ∈ (f a (idsOf r)).states (dbOf r) →
      Partly cl cr c C x (Y x a).1 (N a) d)
    {kk : Ids → Prog RdfDb (Ids × Except (LR Err E) Unit)} (l : List (Except E α)) (hg : ∀ a, .ok a ∈ l → good a) {n k : Nat}
    {r : Handle} {x : RdfState NP EP} (h : Is cl cr c C (n + dn * l.length) (k + dk * l.length) r x) {d : RdfDb}
    (hd : d ∈ (absorb f kk l (idsOf r)).states (dbOf r)) :
    Leaves cl cr c C d (RdfState.takeIn Y x l).1 ∧ (RdfState.takeIn Y x l).2 ≠ .done ∨
    (∃ pre es, pre <+: l ∧ (es = [] ∨ ∃ a, pre ++ [.ok a] <+: l ∧ es <+: N a) ∧ (RdfState.takeIn Y x pre).2 = .done ∧
      Leaves cl cr c C d ((RdfState.takeIn Y x pre).1.learn es)) ∨
    ∃ r', (RdfState.takeIn Y x l).2 = .done ∧ Is cl cr c C n k r' (RdfState.takeIn Y x l).1 ∧
      d ∈ (kk (idsOf r')).states (dbOf r') := by
  induction l generalizing r x with
  | nil => exact .inr (.inr ⟨r, rfl, h, hd⟩)
  | cons b l ih =>
    cases b with
    | error e =>
      have : d = dbOf r := List.mem_singleton.1 hd
      subst this
      exact .inl ⟨h.leaves, fun e => by cases e⟩
    | ok a =>
      rw [List.length_cons, Nat.mul_succ, Nat.mul_succ, ← Nat.add_assoc, ← Nat.add_assoc] at h
      have hga := hg a (by simp)
      obtain ⟨h1, h2⟩ := hF h a hga
      have first : d ∈ (f a (idsOf r)).states (dbOf r) →
          Leaves cl cr c C d (RdfState.takeIn Y x (.ok a :: l)).1 ∧ (RdfState.takeIn Y x (.ok a :: l)).2 ≠ .done ∨
          (∃ pre es, pre <+: .ok a :: l ∧ (es = [] ∨ ∃ b, pre ++ [.ok b] <+: .ok a :: l ∧ es <+: N b) ∧
            (RdfState.takeIn Y x pre).2 = .done ∧ Leaves cl cr c C d ((RdfState.takeIn Y x pre).1.learn es)) := by
        intro hd
        rcases hP h a hga hd with hd | ⟨es, h3, h4⟩
        · by_cases hy : (Y x a).2 = .done
          · refine .inr ⟨[.ok a], [], List.cons_prefix_cons.2 ⟨rfl, List.nil_prefix⟩, .inl rfl, ?_, ?_⟩
            · rw [takeIn_ok hy]; rfl
            · rw [takeIn_ok hy, learn_nil]; exact hd
          · rw [takeIn_stop hy]
            exact .inl ⟨hd, hy⟩
        · exact .inr ⟨[], es, List.nil_prefix, .inr ⟨a, List.cons_prefix_cons.2 ⟨rfl, List.nil_prefix⟩, h3⟩, rfl, h4⟩
      have hsplit : d ∈ (f a (idsOf r)).states (dbOf r) ∨
          (Y x a).2 = .done ∧ d ∈ (absorb f kk l (idsOf (F r a).1)).states (dbOf (F r a).1) := by
        rw [absorb] at hd
        rcases Prog.mem_states_bind hd with hd | hd
        · exact .inl hd
        · have hrun := hM a r
          have hmem := Prog.run_mem_states (f a (idsOf r)) (dbOf r)
          rw [hrun] at hd hmem
          dsimp only at hd hmem
          cases hf : (F r a).2 with
          | error e =>
            rw [hf] at hd
            rw [List.mem_singleton.1 hd]
            exact .inl hmem
          | ok u =>
            rw [hf] at hd h2
            cases hy : (Y x a).2 with
            | done => exact .inr ⟨rfl, hd⟩
            | unserializable => rw [hy] at h2; cases h2
            | unknown s => rw [hy] at h2; cases h2
            | source e => rw [hy] at h2; cases h2
      rcases hsplit with hd | ⟨hy, hd⟩
      · rcases first hd with h | h
        · exact .inl h
        · exact .inr (.inl h)
      · rw [takeIn_ok hy]
        rcases ih (fun b hb => hg b (List.mem_cons_of_mem _ hb)) h1 hd with h | ⟨pre, es, p1, p2, p3, p4⟩ | h
        · exact .inl h
        · refine .inr (.inl ⟨.ok a :: pre, es, List.cons_prefix_cons.2 ⟨rfl, p1⟩, ?_, ?_, ?_⟩)
          · rcases p2 with rfl | ⟨b, p2, p5⟩
            · exact .inl rfl
            · exact .inr ⟨b, List.cons_prefix_cons.2 ⟨rfl, p2⟩, p5⟩
          · rw [takeIn_ok hy]; exact p3
          · rw [takeIn_ok hy]; exact p4
        · exact .inr (.inr h)

/-- nodes, then edges -/
theorem both_leaves {fN : Entity × NP → Task Unit} {FN : Handle → Entity × NP → Handle × Except Err Unit}
    {YN : RdfState NP EP → Entity × NP → RdfState NP EP × RdfOutcome E} {fE : Triple Entity × EP → Task Unit}
    {FE : Handle → Triple Entity × EP → Handle × Except Err Unit}
    {YE : RdfState NP EP → Triple Entity × EP → RdfState NP EP × RdfOutcome E}
    (mN : ∀ a, Matches (fN a) (fun r => FN r a)) (mE : ∀ a, Matches (fE a) (fun r => FE r a))
    (hN : ∀ {n k r x}, Is cl cr c C (n + 0) (k + 1) r x → ∀ a, Rdf.In C a.1 →
      Is cl cr c C n k (FN r a).1 (YN x a).1 ∧ Rdf.tag (FN r a).2 = (YN x a).2.result .serialization)
    (hE : ∀ {n k r x}, Is cl cr c C (n + 1) (k + 3) r x → ∀ a, Rdf.InT C a.1 →
      Is cl cr c C n k (FE r a).1 (YE x a).1 ∧ Rdf.tag (FE r a).2 = (YE x a).2.result .serialization)
    (pN : ∀ {n k r x}, Is cl cr c C (n + 0) (k + 1) r x → ∀ a, Rdf.In C a.1 → ∀ {d}, d ∈ (fN a (idsOf r)).states (dbOf r) →
      Partly cl cr c C x (YN x a).1 [a.1] d)
    (pE : ∀ {n k r x}, Is cl cr c C (n + 1) (k + 3) r x → ∀ a, Rdf.InT C a.1 → ∀ {d}, d ∈ (fE a (idsOf r)).states (dbOf r) →
      Partly cl cr c C x (YE x a).1 (RdfState.parts a.1) d)
    (src : Source E Entity NP EP) (hsN : ∀ a, .ok a ∈ src.nodes → Rdf.In C a.1) (hsE : ∀ a, .ok a ∈ src.edges → Rdf.InT C a.1)
    (h : Is cl cr c C (n + src.edges.length) (k + (src.nodes.length + 3 * src.edges.length)) r x) {d : RdfDb}
    (hd : d ∈ (absorb fN (absorb fE (fun i => .ret (i, .ok ())) src.edges) src.nodes (idsOf r)).states (dbOf r)) :
    Leaves cl cr c C d (x.both YN YE src).1 ∨
    ∃ src' es, Source.CutOff src' src ∧ NextNames src' src es ∧ (x.both YN YE src').2 = .done ∧
      Leaves cl cr c C d ((x.both YN YE src').1.learn es) := by
  have h' : Is cl cr c C (n + src.edges.length + 0 * src.nodes.length)
      (k + 3 * src.edges.length + 1 * src.nodes.length) r x := by
    rw [Nat.zero_mul, Nat.add_zero, Nat.one_mul, show k + 3 * src.edges.length + src.nodes.length =
      k + (src.nodes.length + 3 * src.edges.length) by omega]
    exact h
  have hdone : ∀ s : Source E Entity NP EP, (RdfState.takeIn YN x s.nodes).2 = .done →
      x.both YN YE s = RdfState.takeIn YE (RdfState.takeIn YN x s.nodes).1 s.edges := by
    intro s hs
    unfold RdfState.both
    generalize RdfState.takeIn YN x s.nodes = q at hs
    obtain ⟨x', o⟩ := q
    cases hs
    rfl
  rcases absorb_leaves mN hN pN src.nodes hsN h' hd with ⟨h1, h2⟩ | ⟨pre, es, p1, p2, p3, p4⟩ | ⟨r1, q1, q2, q3⟩
  · refine .inl ?_
    have : x.both YN YE src = RdfState.takeIn YN x src.nodes := by
      unfold RdfState.both
      generalize RdfState.takeIn YN x src.nodes = q at h2
      obtain ⟨x', o⟩ := q
      cases o with
      | done => exact absurd rfl h2
      | unserializable => rfl
      | unknown s => rfl
      | source e => rfl
    rw [this]
    exact h1
  · refine .inr ⟨⟨pre, []⟩, es, ⟨p1, List.nil_prefix, .inr rfl⟩, ?_, ?_, ?_⟩
    · rcases p2 with rfl | ⟨a, p2, p5⟩
      · exact .inl rfl
      · exact .inr (.inl ⟨a, p2, rfl, p5⟩)
    · rw [hdone _ p3]; rfl
    · rw [hdone _ p3]; exact p4
  · rw [hdone _ q1]
    have q2' : Is cl cr c C (n + 1 * src.edges.length) (k + 3 * src.edges.length) r1 (RdfState.takeIn YN x src.nodes).1 := by
      rw [Nat.one_mul]; exact q2
    rcases absorb_leaves mE hE pE src.edges hsE q2' q3 with ⟨h1, h2⟩ | ⟨pre, es, p1, p2, p3, p4⟩ | ⟨r2, s1, s2, s3⟩
    · exact .inl h1
    · refine .inr ⟨⟨src.nodes, pre⟩, es, ⟨List.prefix_refl _, p1, .inl rfl⟩, ?_, ?_, ?_⟩
      · rcases p2 with rfl | ⟨a, p2, p5⟩
        · exact .inl rfl
        · exact .inr (.inr ⟨a, rfl, p2, p5⟩)
      · rw [hdone ⟨src.nodes, pre⟩ q1]; exact p3
      · rw [hdone ⟨src.nodes, pre⟩ q1]; exact p4
    · rw [List.mem_singleton.1 s3]
      exact .inl s2.leaves

section
variable (hl : cl.RoundTrips) (hr : cr.RoundTrips) (tl : cl.Total) (tr : cr.Total) (hc : c.RoundTrip)
include hl hr tl tr hc

theorem done_is (op : Op E Entity NP EP) (hC : ∀ v ∈ ulids op.entities, v ∈ C)
    (h : Is cl cr c C (n + op.draws) (k + op.creations) r x) :
    Is cl cr c C n k (r.call ix st op).1 (x.step c.okN c.okE mN mE op).1 ∧
    (r.call ix st op).2 = (x.step c.okN c.okE mN mE op).2.result .serialization := by
  obtain ⟨f, G, h⟩ := h
  exact Rdf.done_call (SledIndex.lawful hl hr tl tr) (SledStore.law (m := 0) hc mN mE) op hC h

theorem crash_leaves (op : Op E Entity NP EP) (hC : ∀ v ∈ ulids op.entities, v ∈ C)
    (h : Is cl cr c C (n + op.draws) (k + op.creations) r x) {d : RdfDb} (hd : d ∈ crashStates cl cr c mN mE r op) :
    ∃ x', RdfState.Cut c.okN c.okE mN mE x x' op ∧ Leaves cl cr c C d x' := by
  unfold crashStates at hd
  cases op with
  | insertNode e p =>
    rcases insertNode_leaves hl hr tl tr hc h (Rdf.in_of_ulids hC (by simp [Op.entities])) p (single_leaves hd) with h1 | ⟨es, h1, h2⟩
    · exact ⟨_, .inl rfl, by rw [← change_fst] at h1; exact h1⟩
    · exact ⟨_, .inr ⟨es, h1, rfl⟩, h2⟩
  | mergeNode e p =>
    rcases mergeNode_leaves hl hr tl tr hc mN h (Rdf.in_of_ulids hC (by simp [Op.entities])) p (single_leaves hd) with h1 | ⟨es, h1, h2⟩
    · exact ⟨_, .inl rfl, by rw [← change_fst] at h1; exact h1⟩
    · exact ⟨_, .inr ⟨es, h1, rfl⟩, h2⟩
  | insertEdge t p =>
    rcases insertEdge_leaves hl hr tl tr hc h (Rdf.inT_of_ulids hC (by simp [Op.entities])) p (single_leaves hd) with h1 | ⟨es, h1, h2⟩
    · exact ⟨_, .inl rfl, by rw [← change_fst] at h1; exact h1⟩
    · exact ⟨_, .inr ⟨es, h1, rfl⟩, h2⟩
  | mergeEdge t p =>
    rcases mergeEdge_leaves hl hr tl tr hc mE h (Rdf.inT_of_ulids hC (by simp [Op.entities])) p (single_leaves hd) with h1 | ⟨es, h1, h2⟩
    · exact ⟨_, .inl rfl, by rw [← change_fst] at h1; exact h1⟩
    · exact ⟨_, .inr ⟨es, h1, rfl⟩, h2⟩
  | removeNode e =>
    rcases removeNode_leaves hc h (Rdf.in_of_ulids hC (by simp [Op.entities])) (single_leaves hd) with h1 | h1
    · exact ⟨_, .inl rfl, by rw [← remove_fst] at h1; exact h1⟩
    · exact ⟨_, .inr rfl, h1⟩
  | removeEdge t =>
    rcases removeEdge_leaves hc h (Rdf.inT_of_ulids hC (by simp [Op.entities])) (single_leaves hd) with h1 | h1
    · exact ⟨_, .inl rfl, by rw [← remove_fst] at h1; exact h1⟩
    · exact ⟨_, .inr rfl, h1⟩
  | extend src =>
    have key := both_leaves (E := E) (cl := cl) (cr := cr) (C := C) (c := c) (n := n) (k := k) (r := r) (x := x)
      (fun a => matches_insertNode (cl := cl) (cr := cr) (c := c) (mN := mN) (mE := mE) a.1 a.2)
      (fun a => matches_insertEdge (cl := cl) (cr := cr) (c := c) (mN := mN) (mE := mE) a.1 a.2)
      (YN := fun x i => x.change [i.1] (storeNode c.okN x.graph i.1 i.2))
      (YE := fun x i => x.change (RdfState.parts i.1) (storeEdge c.okE x.graph i.1 i.2))
      (fun h a ha => by
        obtain ⟨f, G, h⟩ := h
        exact Rdf.done_insertNode (SledIndex.lawful hl hr tl tr) (SledStore.law (m := 0) hc mN mE) h ha a.2)
      (fun h a ha => by
        obtain ⟨f, G, h⟩ := h
        exact Rdf.done_insertEdge (SledIndex.lawful hl hr tl tr) (SledStore.law (m := 0) hc mN mE) h ha a.2)
      (fun h a ha d hd => by
        rw [change_fst]
        exact insertNode_leaves hl hr tl tr hc h ha a.2 hd)
      (fun h a ha d hd => by
        rw [change_fst]
        exact insertEdge_leaves hl hr tl tr hc h ha a.2 hd) src
      (fun a ha => Rdf.in_of_ulids hC (List.mem_append_left _ (Rdf.mem_itemEntities ha (by simp))))
      (fun a ha => Rdf.inT_of_ulids hC (fun e he => List.mem_append_right _ (Rdf.mem_itemEntities ha he))) h hd
    rcases key with h1 | ⟨src', es, h1, h2, h3, h4⟩
    · exact ⟨_, .inl rfl, h1⟩
    · exact ⟨_, .inr ⟨src', es, h1, h2, h3, rfl⟩, h4⟩
  | merge src =>
    have key := both_leaves (E := E) (cl := cl) (cr := cr) (C := C) (c := c) (n := n) (k := k) (r := r) (x := x)
      (fun a => matches_mergeNode (cl := cl) (cr := cr) (c := c) (mN := mN) (mE := mE) a.1 a.2)
      (fun a => matches_mergeEdge (cl := cl) (cr := cr) (c := c) (mN := mN) (mE := mE) a.1 a.2)
      (YN := fun x i => x.change [i.1] (storeMergedNode c.okN mN x.graph i.1 i.2))
      (YE := fun x i => x.change (RdfState.parts i.1) (storeMergedEdge c.okE mE x.graph i.1 i.2))
      (fun h a ha => by
        obtain ⟨f, G, h⟩ := h
        exact Rdf.done_mergeNode (SledIndex.lawful hl hr tl tr) (SledStore.law (m := 0) hc mN mE) h ha a.2)
      (fun h a ha => by
        obtain ⟨f, G, h⟩ := h
        exact Rdf.done_mergeEdge (SledIndex.lawful hl hr tl tr) (SledStore.law (m := 0) hc mN mE) h ha a.2)
      (fun h a ha d hd => by
        rw [change_fst]
        exact mergeNode_leaves hl hr tl tr hc mN h ha a.2 hd)
      (fun h a ha d hd => by
        rw [change_fst]
        exact mergeEdge_leaves hl hr tl tr hc mE h ha a.2 hd) src
      (fun a ha => Rdf.in_of_ulids hC (List.mem_append_left _ (Rdf.mem_itemEntities ha (by simp))))
      (fun a ha => Rdf.inT_of_ulids hC (fun e he => List.mem_append_right _ (Rdf.mem_itemEntities ha he))) h hd
    rcases key with h1 | ⟨src', es, h1, h2, h3, h4⟩
    · exact ⟨_, .inl rfl, h1⟩
    · exact ⟨_, .inr ⟨src', es, h1, h2, h3, rfl⟩, h4⟩

/-! ## opening the database again -/

omit hl hr tl tr hc in
theorem Leaves.is {d : RdfDb} (h : Leaves cl cr c C d x) {u g : Gen Ulid} (hi : NewIds cl cr c C n k u g d) :
    Is cl cr c C n k (openOn d u g) x := by
  obtain ⟨f, h1, h2, h3, h4⟩ := h
  obtain ⟨⟨lv, v1, v2⟩, he⟩ := Sled.shows h2
  obtain ⟨le, e1, e2⟩ := he .SPO
  refine ⟨f, d.data.graph c, h1, SledStore.ok_open h2 ⟨hi.gens, fun _ h => by omega, fun _ _ _ h => by omega⟩ hi.records, h3, ?_,
    fun v hv => ⟨h4 v hv, hi.explicit v hv⟩⟩
  refine ⟨hi.ulids, fun j hj s hs => ?_, fun j hj => ?_, fun j hj t ht => ?_⟩
  · obtain ⟨o, o1, o2⟩ := h1.2 (u j)
    rw [hi.names j hj] at o1
    cases o1
    cases (o2 s).2 hs
  · rw [Option.eq_none_iff_forall_not_mem]
    intro p hp
    refine hi.nodes j hj p ?_
    show _ ∈ (Sled.obs c d.data).vertices
    rw [v1]
    exact List.mem_map.2 ⟨_, (v2.2 _ _).2 hp, rfl⟩
  · rw [Option.eq_none_iff_forall_not_mem]
    intro p hp
    have : .ok (t, p) ∈ Sled.iterEdges Ulid c d.data .SPO := by
      show _ ∈ (Sled.obs c d.data).edges .SPO
      rw [e1]
      exact List.mem_map.2 ⟨_, (e2.2 _ _).2 hp, rfl⟩
    obtain ⟨a1, a2, a3⟩ := hi.edges j hj t p this
    rcases ht with ht | ht | ht
    · exact a1 ht
    · exact a2 ht
    · exact a3 ht

theorem Reach.is (h : Reach cl cr c mN mE E C n k r) : ∃ x, Is cl cr c C n k r x := by
  induction h with
  | new h =>
    refine ⟨RdfState.empty, Leaves.is ?_ h⟩
    refine ⟨_, SledIndex.shows_empty tl tr, Db.inv_empty c, ?_, fun _ _ _ e => by cases e⟩
    rw [Db.graph_empty c]
    exact ⟨fun _ => rfl, fun _ _ _ => rfl, fun _ _ _ _ _ => rfl, fun _ _ h => (by cases h), fun _ _ h => (by cases h)⟩
  | op op hC h ih =>
    obtain ⟨x, ih⟩ := ih
    exact ⟨_, (done_is hl hr tl tr hc op hC ih).1⟩
  | reopen h hi ih =>
    obtain ⟨x, ih⟩ := ih
    exact ⟨x, ih.leaves.is hi⟩
  | crash op hC h hd hi ih =>
    obtain ⟨x, ih⟩ := ih
    obtain ⟨x', -, h2⟩ := crash_leaves hl hr tl tr hc op hC ih hd
    exact ⟨x', h2.is hi⟩

omit hl hr tl tr in
/-- what a client sees -/
theorem Is.holds (h : Is cl cr c C n k r x) : r.HoldsState ix st x := by
  obtain ⟨f, G, h⟩ := h
  refine ⟨Rdf.shows_of (SledStore.law (m := 0) hc mN mE) h.names h.graph h.agree, fun s => ?_⟩
  rw [h.agree.known s, Rdf.lookupEntity_eq h.names]
  dsimp only
  cases f s <;> simp

end

end RdfSled

theorem represents_unique [DecidableEq α] {src : Source E α NP EP} {H H' : Graph α NP EP} (h : Represents src H) (h' : Represents src H') :
    H = H' := by
  obtain ⟨⟨l, e1, -, m1⟩, ⟨k, e2, -, m2⟩⟩ := h
  obtain ⟨⟨l', e1', -, m1'⟩, ⟨k', e2', -, m2'⟩⟩ := h'
  have i1 : l = l' := (List.map_injective_iff.2 (fun _ _ h => Except.ok.inj h)) (e1.symm.trans e1')
  have i2 : k = k' := (List.map_injective_iff.2 (fun _ _ h => Except.ok.inj h)) (e2.symm.trans e2')
  subst i1 i2
  refine Graph.ext' (fun n => ?_) (fun t => ?_)
  · exact Option.ext fun p => (m1 n p).symm.trans (m1' n p)
  · exact Option.ext fun p => (m2 t p).symm.trans (m2' t p)

theorem Rdf.HoldsState.unique {I S IX SX : Type} {ix : BidirIndex I IX String Ulid} {st : StoreImpl S SX Ulid NP EP} {r : Rdf I S}
    {x y : RdfState NP EP} (h : r.HoldsState ix st x) (h' : r.HoldsState ix st y) : x = y := by
  obtain ⟨kx, gx⟩ := x
  obtain ⟨ky, gy⟩ := y
  have e1 : gx = gy := represents_unique (h.1.iterNodes .SPO) (h'.1.iterNodes .SPO)
  have e2 : kx = ky := by
    funext s
    have := (h.2 s).symm.trans (h'.2 s)
    exact Bool.eq_iff_iff.2 this
  rw [e1, e2]

/-! ## repeating what a crash interrupted -/

section
variable {K V : Type}

/-- the names used by the items up to the first error or unserializable item -/
def triedNames (N : K × V → List Entity) (ok : V → Bool) : List (Except E (K × V)) → List Entity
  | [] => []
  | .error _ :: _ => []
  | .ok a :: l => if ok a.2 then N a ++ triedNames N ok l else N a

def Spec.Outcome.toRdf : Outcome E → RdfOutcome E
  | .done => .done
  | .unserializable => .unserializable
  | .source e => .source e

theorem triedNames_prefix (N : K × V → List Entity) (ok : V → Bool) {l' l : List (Except E (K × V))} (h : l' <+: l) :
    triedNames N ok l' <+: triedNames N ok l := by
  induction l generalizing l' with
  | nil => rw [List.prefix_nil.1 h]; exact List.prefix_refl _
  | cons a l ih =>
    cases l' with
    | nil => exact List.nil_prefix
    | cons b l' =>
      obtain ⟨rfl, h'⟩ := List.cons_prefix_cons.1 h
      cases b with
      | error e => exact List.prefix_refl _
      | ok b =>
        simp only [triedNames]
        split
        · exact (List.prefix_append_right_inj _).2 (ih h')
        · exact List.prefix_refl _

theorem triedNames_next (N : K × V → List Entity) (ok : V → Bool) {l : List (Except E (K × V))} (h : outc ok l = .done) (a : K × V) :
    ∀ e ∈ N a, e ∈ triedNames N ok (l ++ [.ok a]) := by
  intro e he
  induction l with
  | nil =>
    simp only [List.nil_append, triedNames]
    split
    · exact List.mem_append_left _ he
    · exact he
  | cons b l ih =>
    cases b with
    | error e => cases h
    | ok b =>
      rw [outc] at h
      by_cases hb : ok b.2 = true
      · rw [if_pos hb] at h
        simp only [List.cons_append, triedNames, hb, if_true]
        exact List.mem_append_right _ (ih h)
      · rw [if_neg hb] at h; cases h

theorem rdfTakeIn_eq (N : K × V → List Entity) (ok : V → Bool) (ins : Graph Entity NP EP → K → V → Graph Entity NP EP)
    (x : RdfState NP EP) (l : List (Except E (K × V))) :
    RdfState.takeIn (fun x i => x.change (N i) (if ok i.2 then some (ins x.graph i.1 i.2) else none)) x l =
      ({ (x.learn (triedNames N ok l)) with graph := (taken ok l).foldl (fun G x => ins G x.1 x.2) x.graph },
        (outc ok l).toRdf) := by
  induction l generalizing x with
  | nil =>
    rw [RdfState.takeIn, triedNames, RdfSled.learn_nil]
    rfl
  | cons a l ih =>
    cases a with
    | error e =>
      rw [RdfState.takeIn, triedNames, RdfSled.learn_nil]
      rfl
    | ok a =>
      rw [RdfState.takeIn, taken, outc, triedNames]
      by_cases h : ok a.2 = true
      · rw [if_pos h, if_pos h, if_pos h, if_pos h]
        dsimp only [RdfState.change]
        refine (ih _).trans ?_
        dsimp only
        rw [← RdfSled.learn_learn]
        rfl
      · simp only [h]; rfl

end

section
variable (okN : NP → Bool) (okE : EP → Bool)

def extendNames (src : Source E Entity NP EP) : List Entity :=
  triedNames (fun a => [a.1]) okN src.nodes ++
    match outc okN src.nodes with
    | .done => triedNames (fun a => RdfState.parts a.1) okE src.edges
    | _ => []

def extendOutcome (src : Source E Entity NP EP) : RdfOutcome E :=
  match outc okN src.nodes with
  | .done => (outc okE src.edges).toRdf
  | o => o.toRdf

theorem extend_step (mN : NP → NP → NP) (mE : EP → EP → EP) (x : RdfState NP EP) (src : Source E Entity NP EP) :
    x.step okN okE mN mE (.extend src) =
      ({ (x.learn (extendNames okN okE src)) with graph := extended okN okE src x.graph }, extendOutcome okN okE src) := by
  rw [both_store]
  unfold RdfState.step RdfState.both extendNames extendOutcome takenEdges storeNode storeEdge
  dsimp only
  rw [rdfTakeIn_eq (fun a => [a.1]) okN (fun (G : Graph Entity NP EP) n p => G.insertNode n p)]
  cases h : outc okN src.nodes with
  | done =>
    simp only [Outcome.toRdf,
      rdfTakeIn_eq (fun a : Triple Entity × EP => RdfState.parts a.1) okE (fun (G : Graph Entity NP EP) n p => G.insertEdge n p),
      foldl_insertNode_last, foldl_insertEdge_last, ← RdfSled.learn_learn]
    rfl
  | unserializable => simp only [foldl_insertNode_last, Outcome.toRdf, List.append_nil]; rfl
  | source e => simp only [foldl_insertNode_last, Outcome.toRdf, List.append_nil]; rfl

theorem extendNames_cutOff {src' src : Source E Entity NP EP} (h : Source.CutOff src' src)
    (hdone : extendOutcome okN okE src' = .done) {es : List Entity} (he : NextNames src' src es) :
    (∀ e ∈ extendNames okN okE src', e ∈ extendNames okN okE src) ∧ ∀ e ∈ es, e ∈ extendNames okN okE src := by
  obtain ⟨h1, h2, h3⟩ := h
  unfold extendOutcome at hdone
  have hn : outc okN src'.nodes = .done := by
    cases h : outc okN src'.nodes with
    | done => rfl
    | unserializable => rw [h] at hdone; cases hdone
    | source e => rw [h] at hdone; cases hdone
  rw [hn] at hdone
  have hed : outc okE src'.edges = .done := by
    dsimp only at hdone
    cases h : outc okE src'.edges with
    | done => rfl
    | unserializable => rw [h] at hdone; cases hdone
    | source e => rw [h] at hdone; cases hdone
  constructor
  · intro e he
    unfold extendNames at he ⊢
    rw [hn] at he
    rcases List.mem_append.1 he with he | he
    · exact List.mem_append_left _ ((triedNames_prefix _ _ h1).subset he)
    · rcases h3 with h3 | h3
      · rw [← h3, hn]
        exact List.mem_append_right _ ((triedNames_prefix _ _ h2).subset he)
      · rw [h3] at he; cases he
  · intro e hee
    unfold extendNames
    rcases he with rfl | ⟨a, e1, -, e3⟩ | ⟨a, e1, e2, e3⟩
    · cases hee
    · exact List.mem_append_left _ ((triedNames_prefix _ _ e1).subset (triedNames_next _ _ hn a e (e3.subset hee)))
    · refine List.mem_append_right _ ?_
      rw [← e1, hn]
      exact (triedNames_prefix _ _ e2).subset (triedNames_next (fun a => RdfState.parts a.1) _ hed a e (e3.subset hee))

theorem learn_absorb (x : RdfState NP EP) {a b : List Entity} (h : ∀ e ∈ a, e ∈ b) : (x.learn a).learn b = x.learn b := by
  unfold RdfState.learn
  dsimp only
  congr 1
  funext s
  by_cases hs : Entity.string s ∈ a
  · simp [hs, h _ hs]
  · simp [hs]

theorem change_learn (x : RdfState NP EP) {es fs : List Entity} (h : ∀ e ∈ fs, e ∈ es) (o : Option (Graph Entity NP EP)) :
    (x.learn fs).change (E := E) es o = x.change es o := by
  cases o with
  | none => simp only [RdfState.change, learn_absorb x h]
  | some H => simp only [RdfState.change, learn_absorb x h]

/-- Except for merges, an operation can be repeated after a crash in it. -/
theorem Cut.again {mN : NP → NP → NP} {mE : EP → EP → EP} {x x' : RdfState NP EP} {op : Op E Entity NP EP}
    (h : RdfState.Cut okN okE mN mE x x' op) (hm : ∀ e p, op ≠ .mergeNode e p) (hm' : ∀ t p, op ≠ .mergeEdge t p)
    (hm'' : ∀ src, op ≠ .merge src) : x'.step okN okE mN mE op = x.step okN okE mN mE op := by
  cases op with
  | insertNode e p =>
    rcases h with rfl | ⟨es, h, rfl⟩
    · simp only [RdfState.step, storeNode]
      by_cases hp : okN p = true
      · simp only [hp, if_true, RdfState.change, RdfState.learn]
        congr 2
        · funext s; simp
        · refine Graph.ext' (fun n => ?_) (fun _ => rfl)
          simp only [Graph.insertNode]; split <;> rfl
      · simp only [hp]
        exact change_learn x (fun _ h => h) none
    · exact change_learn x h.subset _
  | insertEdge t p =>
    rcases h with rfl | ⟨es, h, rfl⟩
    · simp only [RdfState.step, storeEdge]
      by_cases hp : okE p = true
      · simp only [hp, if_true, RdfState.change, RdfState.learn]
        congr 2
        · funext s; simp
        · refine Graph.ext' (fun _ => rfl) (fun n => ?_)
          simp only [Graph.insertEdge]; split <;> rfl
      · simp only [hp]
        exact change_learn x (fun _ h => h) none
    · exact change_learn x h.subset _
  | removeNode e =>
    rcases h with rfl | rfl
    · simp only [RdfState.step]
      unfold RdfState.remove
      cases hu : x.unknown [e] with
      | some s => simp only [hu]
      | none =>
        have : RdfState.unknown { x with graph := x.graph.removeNode e } [e] = none := by
          rw [← hu]; cases e <;> rfl
        simp only [this]
        congr 2
        refine Graph.ext' (fun n => ?_) (fun t => ?_)
        · simp only [Graph.removeNode]; split <;> rfl
        · simp only [Graph.removeNode]; split <;> rfl
    · rfl
  | removeEdge t =>
    rcases h with rfl | rfl
    · simp only [RdfState.step]
      unfold RdfState.remove
      cases hu : x.unknown (RdfState.parts t) with
      | some s => simp only [hu]
      | none =>
        have key : ∀ es, RdfState.unknown { x with graph := x.graph.removeEdge t } es = x.unknown es := by
          intro es
          induction es with
          | nil => rfl
          | cons e es ih => cases e <;> simp only [RdfState.unknown, ih]
        simp only [key, hu]
        congr 2
        refine Graph.ext' (fun n => rfl) (fun t => ?_)
        simp only [Graph.removeEdge]; split <;> rfl
    · rfl
  | mergeNode e p => exact absurd rfl (hm e p)
  | mergeEdge t p => exact absurd rfl (hm' t p)
  | merge src => exact absurd rfl (hm'' src)
  | extend src =>
    have key : ∀ (src' : Source E Entity NP EP) (es : List Entity), Source.CutOff src' src →
        (∀ e ∈ extendNames okN okE src', e ∈ extendNames okN okE src) → (∀ e ∈ es, e ∈ extendNames okN okE src) →
        ((x.step okN okE mN mE (.extend src')).1.learn es).step okN okE mN mE (.extend src) =
          x.step okN okE mN mE (.extend src) := by
      intro src' es h1 h2 h3
      rw [extend_step, extend_step, extend_step]
      refine Prod.ext ?_ rfl
      refine RdfState.mk.injEq .. ▸ ⟨?_, ?_⟩
      · have : ((x.learn (extendNames okN okE src')).learn es).learn (extendNames okN okE src) =
            x.learn (extendNames okN okE src) := by
          rw [learn_absorb _ h3, learn_absorb _ h2]
        have hk := congrArg RdfState.known this
        exact hk
      · exact extended_again okN okE h1 x.graph
    rcases h with rfl | ⟨src', es, h1, h2, h3, rfl⟩
    · have := key src [] ⟨List.prefix_refl _, List.prefix_refl _, .inl rfl⟩ (fun _ h => h) (fun _ h => by cases h)
      rw [RdfSled.learn_nil] at this
      exact this
    · have hdone : extendOutcome okN okE src' = .done := by
        rw [extend_step] at h3; exact h3
      obtain ⟨i1, i2⟩ := extendNames_cutOff okN okE h1 hdone h2
      exact key src' es h1 i1 i2

end

end Verif
