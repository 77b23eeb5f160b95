import Verif.Proof.StreamSet
import Verif.Proof.Represents
import Verif.Proof.SledProps
import Verif.Spec.World

/-! # Programs with many stores -/

set_option linter.unusedSectionVars false

namespace Verif

open Spec ConcreteId

variable {E Id NP EP : Type} [LinearOrder Id] [ConcreteId Id] [LawfulId Id] {c : Codecs NP EP}
  {mN : NP → NP → NP} {mE : EP → EP → EP}

namespace World

/-- what a variable holds is as it should be -/
inductive VarOk (uses : Nat → Nat → Prop) (B : Nat → Nat) (gens : Nat → Gen Id) :
    Option (Held Id NP EP) → Option (Place Id NP EP) → Prop
  | none : VarOk uses B gens none none
  | mem {k : Nat} {s : Mem Id NP EP} {G : Graph Id NP EP} (h : Mem.Ok (B k) { s with gen := gens k } G) :
      VarOk uses B gens (some (.mem k s)) (some (.own G))
  | sled {k b : Nat} (h : uses b k) : VarOk uses B gens (some (.sled k b)) (some (.on b))

structure DbOk (c : Codecs NP EP) (K : Nat → Prop) (C : Costs) (gens : Nat → Gen Id) (ulids : Gen Ulid) (d : Db)
    (G : Graph Id NP EP) : Prop where
  inv : d.Inv Id c
  graph : d.graph c = G
  gen : ∀ k, K k → ∀ i < C.1 k, ∀ t : Triple Id, d.idIn .SPO t ≠ some (toBeBytes (gens k i)).1
  ulid : ∀ i < C.2, ∀ t : Triple Id, d.idIn .SPO t ≠ some (toBeBytes (ulids i)).1

structure Ok (c : Codecs NP EP) (uses : Nat → Nat → Prop) (C : Costs) (W : World Id NP EP) (S : Spec.World Id NP EP) : Prop where
  apart : Apart uses C W.gens W.ulids
  dbs : ∀ b, DbOk c (uses b) C W.gens W.ulids (W.dbs b) (S.dbs b)
  vars : ∀ v, VarOk uses C.1 W.gens (W.vars v) (S.vars v)

variable {uses : Nat → Nat → Prop} {C D : Costs} {W : World Id NP EP} {S : Spec.World Id NP EP}

/-- both -/
def add (C D : Costs) : Costs := (fun k => C.1 k + D.1 k, C.2 + D.2)

/-- ids are drawn -/
theorem Ok.advance (h : Ok c uses (add C D) W S) {gens : Nat → Gen Id} {ulids : Gen Ulid}
    (hg : ∀ k, Gen.Adv (D.1 k) (W.gens k) (gens k)) (hu : Gen.Adv D.2 W.ulids ulids) :
    Ok c uses C { W with gens := gens, ulids := ulids } S where
  apart :=
    { gen := fun k => (hg k).distinct (h.apart.gen k)
      ulid := hu.distinct h.apart.ulid
      cross := fun b k k' hk hk' i hi j hj e => by
        obtain ⟨i', hi', e1⟩ := (hg k).get hi
        obtain ⟨j', hj', e2⟩ := (hg k').get hj
        exact h.apart.cross b k k' hk hk' i' hi' j' hj' (by rw [← e1, ← e2]; exact e)
      both := fun b k hk i hi j hj => by
        obtain ⟨i', hi', e1⟩ := (hg k).get hi
        obtain ⟨j', hj', e2⟩ := hu.get hj
        show (toBeBytes (gens k i)).1 ≠ (toBeBytes (ulids j)).1
        rw [e1, e2]
        exact h.apart.both b k hk i' hi' j' hj' }
  dbs b :=
    { inv := (h.dbs b).inv
      graph := (h.dbs b).graph
      gen := fun k hk i hi t => by
        obtain ⟨i', hi', e1⟩ := (hg k).get hi
        show _ ≠ some (toBeBytes (gens k i)).1
        rw [e1]
        exact (h.dbs b).gen k hk i' hi' t
      ulid := fun i hi t => by
        obtain ⟨i', hi', e1⟩ := hu.get hi
        show _ ≠ some (toBeBytes (ulids i)).1
        rw [e1]
        exact (h.dbs b).ulid i' hi' t }
  vars v := by
    show VarOk uses C.1 gens (W.vars v) (S.vars v)
    have := h.vars v
    generalize W.vars v = a at this ⊢
    generalize S.vars v = b at this ⊢
    cases this with
    | none => exact .none
    | mem h1 => exact .mem (h1.advance (hg _))
    | sled h1 => exact .sled h1

theorem Ok.setVar (h : Ok c uses C W S) (v : Nat) {a : Option (Held Id NP EP)} {p : Option (Place Id NP EP)}
    (hv : VarOk uses C.1 W.gens a p) : Ok c uses C (W.setVar v a) (S.setVar v p) where
  apart := h.apart
  dbs := h.dbs
  vars w := by
    show VarOk uses C.1 W.gens (Function.update W.vars v a w) (Function.update S.vars v p w)
    by_cases hw : w = v
    · subst hw; rw [Function.update_self, Function.update_self]; exact hv
    · rw [Function.update_of_ne hw, Function.update_of_ne hw]; exact h.vars w

/-- a new in-memory store, or a new state of one -/
theorem Ok.putMem {k n : Nat} (h : Ok c uses (add C (costs k n)) W S) (v : Nat) {s : Mem Id NP EP} {G : Graph Id NP EP}
    (hs : Mem.Ok (C.1 k) s G) (ha : Gen.Adv n (W.gens k) s.gen) :
    Ok c uses C (W.putMem v k s) (S.setVar v (some (.own G))) := by
  have h1 := h.advance (gens := Function.update W.gens k s.gen) (ulids := W.ulids) (fun k' => by
    by_cases e : k' = k
    · subst e; rw [Function.update_self]; exact ha.mono (by simp [costs])
    · rw [Function.update_of_ne e]; exact .refl _ _) (.refl _ _)
  refine h1.setVar v (.mem ?_)
  show Mem.Ok (C.1 k) { s with gen := Function.update W.gens k s.gen k } G
  rw [Function.update_self]
  exact hs

theorem Ok.setDb {W' : World Id NP EP} {b : Nat} (h : Ok c uses C W' S) {d : Db} {G : Graph Id NP EP}
    (hd : DbOk c (uses b) C W'.gens W'.ulids d G) :
    Ok c uses C { W' with dbs := Function.update W'.dbs b d } { S with dbs := Function.update S.dbs b G } where
  apart := h.apart
  vars := h.vars
  dbs b' := by
    show DbOk c (uses b') C W'.gens W'.ulids (Function.update W'.dbs b d b') (Function.update S.dbs b G b')
    by_cases e : b' = b
    · subst e; rw [Function.update_self, Function.update_self]; exact hd
    · rw [Function.update_of_ne e, Function.update_of_ne e]; exact h.dbs b'

/-- the ids that other generators are going to yield -/
def Others (uses : Nat → Nat → Prop) (C : Costs) (gens : Nat → Gen Id) (b k : Nat) (x : Bytes) : Prop :=
  ∃ k', k' ≠ k ∧ uses b k' ∧ ∃ i < C.1 k', x = (toBeBytes (gens k' i)).1

theorem toBe_inj {x y : Id} (h : (toBeBytes x).1 = (toBeBytes y).1) : x = y := by
  have := LawfulId.try_toBe x
  rw [h, LawfulId.try_toBe y] at this
  exact (Option.some.inj this).symm

theorem Ok.store {k n m : Nat} (h : Ok c uses (add C ((costs k n).1, m)) W S) {b : Nat} (hk : uses b k) :
    SledStore.Ok c (C.1 k + n) (C.2 + m) (Others uses C W.gens b k) { db := W.dbs b, gen := W.gens k, ulid := W.ulids } (S.dbs b) := by
  have e1 : (add C ((costs k n).1, m)).1 k = C.1 k + n := by simp [add, costs]
  have e2 : (add C ((costs k n).1, m)).2 = C.2 + m := rfl
  have e3 : ∀ k' i, i < C.1 k' → i < (add C ((costs k n).1, m)).1 k' := fun k' i hi => by simp only [add]; omega
  have hg := h.apart.gen k
  have hu := h.apart.ulid
  rw [e1] at hg
  rw [e2] at hu
  constructor
  · exact (h.dbs b).inv
  · exact (h.dbs b).graph
  · exact ⟨hg, hu, fun i hi j hj => h.apart.both b k hk i (by rw [e1]; exact hi) j hj⟩
  · exact fun i hi => (h.dbs b).gen k hk i (by rw [e1]; exact hi)
  · exact fun j hj => (h.dbs b).ulid j hj
  · rintro v ⟨k', -, hk', i, hi, rfl⟩
    exact (h.dbs b).gen k' hk' i (e3 _ _ hi)
  · rintro i hi ⟨k', hne, hk', j, hj, e⟩
    exact hne (h.apart.cross b k k' hk hk' i (by rw [e1]; exact hi) j (e3 _ _ hj) (toBe_inj e)).symm
  · rintro j hj ⟨k', hne, hk', i, hi, e⟩
    exact h.apart.both b k' hk' i (e3 _ _ hi) j hj e.symm

theorem mem_call (mN : NP → NP → NP) (mE : EP → EP → EP) (s : Mem Id NP EP) (op : Op E Id NP EP) :
    (Mem.call mN mE s op).1 = s.apply mN mE op ∧
      Res.ofLR (Mem.call mN mE s op).2 = match op.firstErr with | none => .done | some e => .source e := by
  cases op with
  | extend src =>
    refine ⟨rfl, ?_⟩
    show Res.ofLR (s.extend src).2 = match Source.firstErr src with | none => .done | some e => .source e
    rw [Mem.extend_eq]
    cases Source.firstErr src <;> rfl
  | merge src =>
    refine ⟨rfl, ?_⟩
    show Res.ofLR (s.merge mN mE src).2 = match Source.firstErr src with | none => .done | some e => .source e
    rw [Mem.merge_eq]
    cases Source.firstErr src <;> rfl
  | _ => exact ⟨rfl, rfl⟩

theorem add_zero' (C : Costs) : add C (fun _ => 0, 0) = C := rfl

theorem Ok.mono (h : Ok c uses (add C D) W S) : Ok c uses C W S :=
  h.advance (fun _ => .refl _ _) (.refl _ _)

theorem Ok.none_iff (h : Ok c uses C W S) (v : Nat) : W.vars v = none ↔ S.vars v = none := by
  have := h.vars v
  generalize W.vars v = a at this ⊢
  generalize S.vars v = b at this ⊢
  cases this <;> simp

/-- the result of a call on a sled store on which everything can be serialized -/
theorem step_result (ht : c.Total) (mN : NP → NP → NP) (mE : EP → EP → EP) (G : Graph Id NP EP) (op : Op E Id NP EP) :
    Res.ofLR (op.step c.okN c.okE mN mE G).2.result = match op.firstErr with | none => .done | some e => .source e := by
  have hN : ∀ p, c.okN p = true := ht.1
  have hE : ∀ p, c.okE p = true := ht.2
  cases op with
  | insertNode n p => simp only [Op.step, storeNode, hN, if_true]; rfl
  | insertEdge n p => simp only [Op.step, storeEdge, hE, if_true]; rfl
  | removeNode n => rfl
  | removeEdge n => rfl
  | mergeNode n p => simp only [Op.step, storeMergedNode_total hN]; rfl
  | mergeEdge n p => simp only [Op.step, storeMergedEdge_total hE]; rfl
  | extend src =>
    rw [Op.step, both_total (gN := fun G x => G.insertNode x.1 x.2) (gE := fun G x => G.insertEdge x.1 x.2)
      (fun G x => by simp [storeNode, hN]) (fun G x => by simp [storeEdge, hE])]
    show _ = match Source.firstErr src with | none => Res.done | some e => .source e
    cases Source.firstErr src <;> rfl
  | merge src =>
    rw [Op.step, both_total (fun G x => storeMergedNode_total hN mN G x.1 x.2) (fun G x => storeMergedEdge_total hE mE G x.1 x.2)]
    show _ = match Source.firstErr src with | none => Res.done | some e => .source e
    cases Source.firstErr src <;> rfl

theorem Ok.call (hc : c.RoundTrip) (ht : c.Total) {v : Nat} {op : Op E Id NP EP} (h : Ok c uses (add C (opCosts W v op)) W S) :
    Ok c uses C (W.call c mN mE v op).1 (S.step mN mE (.call v op)).1 ∧
      (W.call c mN mE v op).2 = (S.step mN mE (.call v op)).2 := by
  have hv := h.vars v
  unfold World.call Spec.World.step
  simp only
  cases hW : W.vars v with
  | none =>
    rw [(h.none_iff v).1 hW]
    exact ⟨h.mono, rfl⟩
  | some held =>
    rw [hW] at hv
    cases hS : S.vars v with
    | none => rw [hS] at hv; cases hv
    | some p =>
      rw [hS] at hv
      cases hv with
      | @mem k s G hs =>
        have e : opCosts W v op = costs k op.draws := by simp only [opCosts, hW]
        rw [e] at h hs
        have hs' : Mem.Ok (C.1 k + op.draws) { s with gen := W.gens k } G := hs.mono (by simp [add, costs])
        obtain ⟨e1, e2⟩ := mem_call mN mE { s with gen := W.gens k } op
        refine ⟨?_, e2⟩
        show Ok c uses C (W.putMem v k (Mem.call mN mE { s with gen := W.gens k } op).1) _
        rw [e1]
        exact h.putMem v (Mem.ok_apply mN mE _ _ _ op hs') (Mem.apply_adv mN mE { s with gen := W.gens k } op)
      | @sled k b hk =>
        have e : opCosts W v op = ((costs k op.genDraws).1, op.ulidDraws) := by simp only [opCosts, hW]
        rw [e] at h
        obtain ⟨g1, g2⟩ := SledStore.good_call hc mN mE op (h.store hk)
        have a1 := SledStore.call_gen c mN mE { db := W.dbs b, gen := W.gens k, ulid := W.ulids } op
        have a2 := SledStore.call_ulid c mN mE { db := W.dbs b, gen := W.gens k, ulid := W.ulids } op
        generalize hr : SledStore.call c mN mE { db := W.dbs b, gen := W.gens k, ulid := W.ulids } op = r at g1 g2 a1 a2 ⊢
        have h1 := h.advance (gens := Function.update W.gens k r.1.gen) (ulids := r.1.ulid) (fun k' => by
          by_cases e : k' = k
          · subst e; rw [Function.update_self]; exact a1.mono (by simp [costs])
          · rw [Function.update_of_ne e]; exact .refl _ _) a2
        rw [step_total (okN := c.okN) (okE := c.okE) ht.1 ht.2] at g1
        have h2 := h1.setDb (b := b) (d := r.1.db) (G := op.apply mN mE (S.dbs b)) ⟨g1.inv, g1.graph, ?_, g1.uUnused⟩
        · refine ⟨?_, ?_⟩
          · subst hr
            exact h2
          · subst hr
            exact (congrArg Res.ofLR g2).trans (step_result ht mN mE _ op)
        · intro k' hk' i hi t
          show _ ≠ some (toBeBytes (Function.update W.gens k r.1.gen k' i)).1
          by_cases e : k' = k
          · subst e; rw [Function.update_self]; exact g1.gUnused i hi t
          · rw [Function.update_of_ne e]
            exact g1.fUnused _ ⟨k', e, hk', i, hi, rfl⟩ t

/-- what a store shows to others -/
theorem Ok.source (h : Ok c uses C W S) {w : Nat} {x : Held Id NP EP} {q : Place Id NP EP} (hx : W.vars w = some x)
    (hq : S.vars w = some q) {α : Type} (f : {F : Type} → Source F Id NP EP → α) (P : α → Prop)
    (hP : ∀ (F : Type) (src : Source F Id NP EP), RepresentsSorted src (S.graph q) → src.edges.length = edgesOf c W w → P (f src)) :
    P (W.withSource c f x) := by
  have hv := h.vars w
  rw [hx, hq] at hv
  cases hv with
  | @mem k s G hs =>
    refine hP _ _ ?_ ?_
    · have := Mem.intoIterNodes_sorted hs.inv.toAgree
      rw [hs.graph] at this
      exact this
    · simp only [edgesOf, hx, Mem.into_eq, List.length_map, Mem.edgeCount_eq]
  | @sled k b hk =>
    have hd := h.dbs b
    refine hP _ _ ?_ ?_
    · have := Sled.shows hd.inv
      rw [hd.graph] at this
      have e : (Sled.intoIterNodes c (W.dbs b) .SPO : Source SErr Id NP EP) = Sled.iterNodes c (W.dbs b) .SPO :=
        Sled.intoIterNodes_eq c _ _
      rw [e]
      exact ⟨this.1, this.2 .SPO⟩
    · simp only [edgesOf, hx, Sled.intoIterNodes_eq]
      rfl

theorem call_none {v : Nat} (hS : S.vars v = none) (op : Op E Id NP EP) : S.step mN mE (.call v op) = (S, .noStore) := by
  simp only [Spec.World.step, hS]

theorem call_some {v : Nat} {p : Place Id NP EP} (hS : S.vars v = some p) (op : Op E Id NP EP) :
    S.step mN mE (.call v op) = (S.setGraph v (op.apply mN mE (S.graph p)) p,
      match op.firstErr with | none => .done | some e => .source e) := by
  simp only [Spec.World.step, hS]
  rfl

theorem feed_none {v w : Nat} {f : Graph Id NP EP → Graph Id NP EP → Graph Id NP EP} (hS : S.vars w = none) :
    (S.feed v w f : _ × Res E) = (S, .noStore) := by
  simp only [Spec.World.feed, hS]

/-- `extend` and `merge` of two stores -/
theorem Ok.feed (hc : c.RoundTrip) (ht : c.Total) {v w : Nat} {ext : Bool}
    (op : {F : Type} → Source F Id NP EP → Op F Id NP EP) (f : Graph Id NP EP → Graph Id NP EP → Graph Id NP EP)
    (hf : ∀ (F : Type) (src : Source F Id NP EP) G H, Represents src H → (op src).apply mN mE G = f G H)
    (he : ∀ (F : Type) (src : Source F Id NP EP) H, Represents src H → (op src).firstErr = none)
    (ho : ∀ (F : Type) (src : Source F Id NP EP), (op src).draws = src.edges.length ∧
      (op src).genDraws = (if ext then 0 else src.edges.length) ∧ (op src).ulidDraws = if ext then src.edges.length else 0)
    (h : Ok c uses (add C (feedCosts W v (edgesOf c W w) ext)) W S) :
    Ok c uses C (W.feed c mN mE v w op : _ × Res E).1 (S.feed v w f : _ × Res E).1 ∧
      (W.feed c mN mE v w op : _ × Res E).2 = (S.feed v w f).2 := by
  unfold World.feed
  cases hW : W.vars w with
  | none =>
    rw [feed_none ((h.none_iff w).1 hW)]
    exact ⟨h.mono, rfl⟩
  | some x =>
    cases hS : S.vars w with
    | none => rw [(h.none_iff w).2 hS] at hW; cases hW
    | some q =>
      by_cases hvw : v = w
      · simp only [if_pos hvw, Spec.World.feed, hS]
        exact ⟨h.mono, trivial⟩
      · simp only [if_neg hvw]
        refine h.source hW hS _ (fun r : World Id NP EP × Res E => Ok c uses C r.1 (S.feed v w f : _ × Res E).1 ∧ r.2 = (S.feed v w f).2) ?_
        intro F src hsrc hlen
        have hW' : (W.setVar w none).vars v = W.vars v := Function.update_of_ne hvw _ _
        have hS' : (S.setVar w none).vars v = S.vars v := Function.update_of_ne hvw _ _
        have ec : opCosts (W.setVar w none) v (op src) = feedCosts W v (edgesOf c W w) ext := by
          obtain ⟨o1, o2, o3⟩ := ho F src
          rw [hlen] at o1 o2 o3
          simp only [opCosts, feedCosts, hW', o1, o2, o3]
          cases W.vars v with
          | none => rfl
          | some y =>
            cases y with
            | mem k s => rfl
            | sled k b => cases ext <;> simp [costs]
        have h1 : Ok c uses (add C (opCosts (W.setVar w none) v (op src))) (W.setVar w none) (S.setVar w none) := by
          rw [ec]; exact h.setVar w .none
        obtain ⟨r1, r2⟩ := h1.call (mN := mN) (mE := mE) hc ht
        have es : (S.feed v w f : _ × Res E) = (((S.setVar w none).step mN mE (.call v (op src))).1,
            ((S.setVar w none).step mN mE (.call v (op src))).2.blur) := by
          simp only [Spec.World.feed, hS, if_neg hvw]
          cases hp : S.vars v with
          | none =>
            rw [call_none (by rw [hS', hp])]; rfl
          | some p =>
            rw [call_some (by rw [hS', hp])]
            have eg : (S.setVar w none).graph p = S.graph p := by cases p <;> rfl
            rw [eg, hf F src _ _ hsrc.represents, he F src _ hsrc.represents]
            rfl
        rw [es]
        exact ⟨r1, congrArg Res.blur r2⟩

theorem Ok.query {v r k : Nat} {q : Query Id} (hq : Spec.Query.Nodup q)
    (h : Ok c uses (add C (costs k (edgesOf c W v))) W S) :
    Ok c uses C (W.query c v q r k : _ × Res E).1 (S.step mN mE (.run v q r k : Cmd E Id NP EP)).1 ∧
      (W.query c v q r k : _ × Res E).2 = (S.step mN mE (.run v q r k)).2 := by
  have hv := h.vars v
  have hfr := h.apart.gen k
  have e1 : (add C (costs k (edgesOf c W v))).1 k = C.1 k + edgesOf c W v := by simp [add, costs]
  rw [e1] at hfr
  unfold World.query Spec.World.step
  simp only
  cases hW : W.vars v with
  | none =>
    rw [(h.none_iff v).1 hW]
    exact ⟨h.mono, rfl⟩
  | some held =>
    rw [hW] at hv
    cases hS : S.vars v with
    | none => rw [hS] at hv; cases hv
    | some p =>
      rw [hS] at hv
      cases hv with
      | @mem k' s G hs =>
        have e : edgesOf c W v = s.edgeCount := by simp only [edgesOf, hW]
        rw [e] at h hfr
        have hi : Mem.Inv s := ⟨⟨hs.inv.pos, hs.inv.osp⟩, hs.inv.inj, hs.inv.ref⟩
        have := Mem.run_from hi (C.1 k) hfr q hq
        have eg : s.graph = G := hs.graph
        rw [eg] at this
        exact ⟨h.putMem r this.1 this.2, rfl⟩
      | @sled k' b hk =>
        have hd := h.dbs b
        have e : edgesOf c W v = (W.dbs b).spo.entries.length := by
          simp only [edgesOf, hW, Sled.iterEdges, Sled.orderedEdges, List.length_map]
        rw [e] at h hfr
        obtain ⟨res, r1, r2⟩ := Sled.run_from hd.inv (C.1 k) hfr q hq
        simp only [r1]
        rw [hd.graph] at r2
        exact ⟨h.putMem r r2.1 r2.2, trivial⟩

theorem Ok.combine {v w r k : Nat} (n : Nat → Nat → Nat)
    (op : {F : Type} → Mem Id NP EP → Gen Id → Source F Id NP EP → Except (SetErr Unit F Unit) (Mem Id NP EP))
    (f : Graph Id NP EP → Graph Id NP EP → Graph Id NP EP)
    (hop : ∀ (F : Type) (src : Source F Id NP EP) (s : Mem Id NP EP) (g : Gen Id) H N, Mem.Inv s → RepresentsSorted src H →
      Fresh (N + n s.edgeCount src.edges.length) g → ∃ res, op s g src = .ok res ∧ Mem.Ok N res (f s.graph H) ∧
        Gen.Adv (n s.edgeCount src.edges.length) g res.gen)
    (h : Ok c uses (add C (costs k (n (edgesOf c W v) (edgesOf c W w)))) W S) :
    Ok c uses C (W.combine c v w r k op : _ × Res E).1 (S.combine v w r f : _ × Res E).1 ∧
      (W.combine c v w r k op : _ × Res E).2 = (S.combine v w r f).2 := by
  have hfr := h.apart.gen k
  have e1 : (add C (costs k (n (edgesOf c W v) (edgesOf c W w)))).1 k = C.1 k + n (edgesOf c W v) (edgesOf c W w) := by
    simp [add, costs]
  rw [e1] at hfr
  have hv := h.vars v
  unfold World.combine Spec.World.combine
  cases hW : W.vars v with
  | none =>
    rw [(h.none_iff v).1 hW]
    exact ⟨h.mono, rfl⟩
  | some held =>
    rw [hW] at hv
    cases hS : S.vars v with
    | none => rw [hS] at hv; cases hv
    | some p =>
      rw [hS] at hv
      cases hv with
      | @sled k' b hk => exact ⟨h.mono, rfl⟩
      | @mem k' s G hs =>
        cases hW2 : W.vars w with
        | none =>
          rw [(h.none_iff w).1 hW2]
          exact ⟨h.mono, rfl⟩
        | some x =>
          cases hS2 : S.vars w with
          | none => rw [(h.none_iff w).2 hS2] at hW2; cases hW2
          | some q =>
            by_cases hvw : v = w
            · simp only [if_pos hvw]
              exact ⟨h.mono, trivial⟩
            · simp only [if_neg hvw]
              have e : edgesOf c W v = s.edgeCount := by simp only [edgesOf, hW]
              refine h.source hW2 hS2 _ (fun x : World Id NP EP × Res E => Ok c uses C x.1
                (((S.setVar v none).setVar w none).setVar r (some (.own (f G (S.graph q))))) ∧ x.2 = .done) ?_
              intro F src hsrc hlen
              have hi : Mem.Inv s := ⟨⟨hs.inv.pos, hs.inv.osp⟩, hs.inv.inj, hs.inv.ref⟩
              rw [← hlen, e] at h hfr
              obtain ⟨res, r1, r2, r3⟩ := hop F src s (W.gens k) (S.graph q) (C.1 k) hi hsrc hfr
              simp only [r1]
              have eg : s.graph = G := hs.graph
              rw [eg] at r2
              exact ⟨((h.setVar v .none).setVar w .none).putMem r r2 r3, trivial⟩

theorem difference_eq {G H D : Graph Id NP EP} (h : Mem.DiffComputed G H D) : D = G.difference H := by
  refine Graph.ext' (fun n => h.nodes n) (fun t => Option.ext (fun p => ?_))
  rw [h.edges]
  simp only [Graph.difference]
  split
  · next hc => exact ⟨fun x => x.1, fun x => ⟨x, hc⟩⟩
  · next hc => exact ⟨fun x => absurd x.2 hc, fun x => by cases x⟩

theorem Ok.step (hc : c.RoundTrip) (ht : c.Total) {x : Cmd E Id NP EP} (hq : ∀ v q r k, x = .run v q r k → Spec.Query.Nodup q)
    (hu : ∀ v b k, x = .openSled v b k → uses b k) (h : Ok c uses (add C (cmdCosts c W x)) W S) :
    Ok c uses C (W.step c mN mE x).1 (S.step mN mE x).1 ∧ (W.step c mN mE x).2 = (S.step mN mE x).2 := by
  cases x with
  | newMem v k =>
    refine ⟨Ok.putMem (k := k) (n := 0) ?_ v (Mem.ok_new ?_) (.refl _ _), rfl⟩
    · have e : costs k 0 = (fun _ => 0, 0) := by simp [costs]
      rw [e]; exact h
    · exact h.apart.gen k
  | openSled v b k => exact ⟨h.setVar v (.sled (hu v b k rfl)), rfl⟩
  | drop v => exact ⟨h.setVar v .none, rfl⟩
  | call v op => exact h.call hc ht
  | extend v w =>
    exact Ok.feed (ext := true) hc ht .extend _ (fun _ src G H hr => hr.extend mN mE G) (fun _ src H hr => hr.firstErr)
      (fun _ src => ⟨rfl, rfl, rfl⟩) h
  | merge v w =>
    exact Ok.feed (ext := false) hc ht .merge _ (fun _ src G H hr => hr.merge mN mE G) (fun _ src H hr => hr.firstErr)
      (fun _ src => ⟨rfl, rfl, rfl⟩) h
  | run v q r k => exact Ok.query (hq v q r k rfl) h
  | union v w r k =>
    refine Ok.combine (fun a b => a + b) Mem.union _ (fun F src s g H N hs hr hg => ?_) h
    obtain ⟨res, r1, r2⟩ := Mem.union_spec hs.toAgree hr.represents N (g := g) (by rw [Nat.add_assoc]; exact hg)
    exact ⟨res, r1, r2, Mem.union_adv r1⟩
  | intersection v w r k =>
    refine Ok.combine (fun a _ => a) Mem.intersection _ (fun F src s g H N hs hr hg => ?_) h
    obtain ⟨res, r1, r2⟩ := Mem.intersection_spec hs.toAgree hr N (g := g) hg
    exact ⟨res, r1, r2, Mem.intersection_adv r1⟩
  | difference v w r k =>
    refine Ok.combine (fun a _ => a) Mem.difference _ (fun F src s g H N hs hr hg => ?_) h
    obtain ⟨res, D, r1, r2, r3⟩ := Mem.difference_spec hs.toAgree hr N (g := g) hg
    exact ⟨res, r1, by rw [← difference_eq r2]; exact r3, Mem.difference_adv r1⟩

theorem Ok.exec (hc : c.RoundTrip) (ht : c.Total) (l : List (Cmd E Id NP EP)) (hq : QueriesNodup l)
    (hu : ∀ b k, Uses l b k → uses b k) {W : World Id NP EP} {S : Spec.World Id NP EP}
    (h : Ok c uses (add C (progCosts c mN mE W l)) W S) :
    Ok c uses C (W.exec c mN mE l).1 (S.exec mN mE l).1 ∧ (W.exec c mN mE l).2 = (S.exec mN mE l).2 := by
  induction l generalizing W S with
  | nil => exact ⟨h, rfl⟩
  | cons x l ih =>
    have h' : Ok c uses (add (add C (progCosts c mN mE (W.step c mN mE x).1 l)) (cmdCosts c W x)) W S := by
      have e : add C (progCosts c mN mE W (x :: l)) = add (add C (progCosts c mN mE (W.step c mN mE x).1 l)) (cmdCosts c W x) := by
        simp only [add, progCosts, Nat.add_assoc]
      rw [← e]; exact h
    obtain ⟨h1, h2⟩ := h'.step (mN := mN) (mE := mE) hc ht (fun v q r k e => hq x (by simp) v q r k e)
      (fun v b k e => hu b k ⟨v, by rw [← e]; simp⟩)
    obtain ⟨h3, h4⟩ := ih (fun y hy => hq y (List.mem_cons_of_mem _ hy))
      (fun b k hk => hu b k (by obtain ⟨v, hv⟩ := hk; exact ⟨v, List.mem_cons_of_mem _ hv⟩)) h1
    exact ⟨h3, by simp only [World.exec, Spec.World.exec, h2, h4]⟩

theorem Ok.agrees (h : Ok c uses C W S) : Agrees c W S := by
  refine ⟨fun b => ?_, fun v => ?_⟩
  · have := Sled.shows (h.dbs b).inv
    rw [(h.dbs b).graph] at this
    exact this
  · have := h.vars v
    generalize W.vars v = a at this ⊢
    generalize S.vars v = p at this ⊢
    cases this with
    | none => trivial
    | mem hs =>
      have := Mem.shows hs.inv.toAgree
      rw [hs.graph] at this
      exact this
    | sled _ => rfl

theorem ok_start {gens : Nat → Gen Id} {ulids : Gen Ulid} (h : Apart uses C gens ulids) :
    Ok c uses C (World.start gens ulids : World Id NP EP) .start where
  apart := h
  vars _ := .none
  dbs b := ⟨Db.inv_empty c, rfl, fun k hk i hi t => by
      show BMap.get BMap.empty _ ≠ _
      rw [BMap.get_empty]; exact nofun, fun i hi t => by
      show BMap.get BMap.empty _ ≠ _
      rw [BMap.get_empty]; exact nofun⟩

end World

end Verif
