import Verif.Spec.NameRace
import Verif.Proof.RdfSledConc

/-! # Two calls that create the same name -/

set_option linter.unusedSectionVars false

namespace Verif

open Spec ConcreteId

variable {NP EP E α β : Type}

namespace Prog

variable {S : Type}

theorem pause_bind_left (k : Nat) (p : Prog S α) (K : α → Prog S β) (s : S) :
    ∃ k', (p.bind K).pause k' s = ((p.pause k s).1, (p.pause k s).2.bind K) := by
  induction k generalizing p s with
  | zero => exact ⟨0, rfl⟩
  | succ k ih =>
    cases p with
    | ret a => exact ⟨0, rfl⟩
    | call f q =>
      obtain ⟨k', h⟩ := ih (q s) (f s)
      exact ⟨k' + 1, h⟩

theorem pause_bind_right (k : Nat) (p : Prog S α) (K : α → Prog S β) (s : S) :
    ∃ k', (p.bind K).pause k' s = (K (p.run s).2).pause k (p.run s).1 := by
  induction p generalizing s with
  | ret a => exact ⟨k, rfl⟩
  | call f q ih =>
    obtain ⟨k', h⟩ := ih s (f s)
    exact ⟨k' + 1, h⟩

theorem calm_trans {x y z : S × List (List (Prog S α))} (h1 : CalmSteps x y) (h2 : CalmSteps y z) : CalmSteps x z := by
  induction h2 with
  | refl => exact h1
  | tail _ h ih => exact .tail ih h

theorem pause_steps (k : Nat) (p : Prog S α) (s : S) (pre post : List (List (Prog S α))) (q : List (Prog S α)) :
    CalmSteps (s, pre ++ (p :: q) :: post) ((p.pause k s).1, pre ++ ((p.pause k s).2 :: q) :: post) := by
  induction k generalizing p s with
  | zero => exact .refl _
  | succ k ih =>
    cases p with
    | ret a => exact .refl _
    | call f g => exact calm_trans (.tail (.refl _) (.call s pre post f g q)) (ih (g s) (f s))

theorem run_steps (p : Prog S α) (s : S) (pre post : List (List (Prog S α))) (q : List (Prog S α)) :
    CalmSteps (s, pre ++ (p :: q) :: post) ((p.run s).1, pre ++ q :: post) := by
  induction p generalizing s with
  | ret a => exact .tail (.refl _) (.ret s pre post a q)
  | call f g ih => exact calm_trans (.tail (.refl _) (.call s pre post f g q)) (ih s (f s))

end Prog

namespace RG

variable {S G A O T : Type} (R : RG S G A) {abs : G → T} {st : T → O → T}

/-- what a program has done before it pauses, nobody else being at work -/
theorem does_pause (k : Nat) {p : Prog S α} {a : A} {s : S} {g : G} {l : List O} (h : R.Does abs st false p a (s, g) l) (hi : R.inv s g)
    (ho : R.ok a g) : ∃ g' e l', l = e ++ l' ∧ R.inv (p.pause k s).1 g' ∧ abs g' = e.foldl st (abs g) ∧
      ∀ b, R.par a b → R.ok b g → R.ok b g' := by
  induction k generalizing p a s g l with
  | zero => exact ⟨g, [], l, rfl, hi, rfl, fun _ _ h => h⟩
  | succ k ih =>
    cases p with
    | ret r => exact ⟨g, [], l, rfl, hi, rfl, fun _ _ h => h⟩
    | call f q =>
      obtain ⟨a1, g1, e1, l1, ha, rfl, hab, hd⟩ := h s g (R.rely_refl _ _) hi ho
      obtain ⟨g2, e2, l2, rfl, h1, h2, h3⟩ := ih hd ha.2.1 ha.2.2.1
      refine ⟨g2, e1 ++ e2, l2, by simp, h1, by rw [h2, hab, List.foldl_append], fun b hb hg => ?_⟩
      exact h3 b ((R.par_le _ _ _ ha.1).1 hb) (ha.2.2.2.1 b hb hg).2

/-- what it has done when it returns -/
theorem does_run {p : Prog S α} {a : A} {s : S} {g : G} {l : List O} (h : R.Does abs st false p a (s, g) l) (hi : R.inv s g)
    (ho : R.ok a g) : ∃ g', R.inv (p.run s).1 g' ∧ abs g' = l.foldl st (abs g) := by
  induction p generalizing a s g l with
  | ret r =>
    rcases h with h | rfl
    · cases h
    · exact ⟨g, hi, rfl⟩
  | call f q ih =>
    obtain ⟨a1, g1, e1, l1, ha, rfl, hab, hd⟩ := h s g (R.rely_refl _ _) hi ho
    obtain ⟨g2, h1, h2⟩ := ih s hd ha.2.1 ha.2.2.1
    exact ⟨g2, h1, by rw [h2, hab, List.foldl_append]⟩

end RG

namespace RdfSled

variable {cl : Codec String} {cr : Codec Ulid} {c : Codecs NP EP} {mN : NP → NP → NP} {mE : EP → EP → EP}
  {C : List Ulid} {X A B : Type}

local notation "ix" => SledIndex.impl cl cr
local notation "st" => SledStore.impl (Id := Ulid) c mN mE

/-- Somewhere the program has found the name unknown and is about to create it; if it exists by then, the program fails, doing
nothing more. -/
def Trap (cl : Codec String) (cr : Codec Ulid) (w : Err → X) (s : String) (p : Prog RdfDb (Ids × Except X A)) (d : RdfDb) : Prop :=
  ∃ k, (SledIndex.impl cl cr).leftToRight (p.pause k d).1.names s = .ok none ∧
    ∀ d' u, (SledIndex.impl cl cr).leftToRight d'.names s = .ok (some u) →
      ∃ i v, (p.pause k d).2.run d' = (d', (i, .error (w (.nameIndex (.duplicateRight s u v)))))

theorem Trap.left {w : Err → X} {s : String} {p : Prog RdfDb (Ids × Except Err A)} {d : RdfDb} (h : Trap cl cr id s p d)
    {K : Ids × Except Err A → Prog RdfDb (Ids × Except X B)} (hK : ∀ i e, K (i, .error e) = .ret (i, .error (w e))) :
    Trap cl cr w s (p.bind K) d := by
  obtain ⟨k, h1, h2⟩ := h
  obtain ⟨k', e⟩ := Prog.pause_bind_left k p K d
  refine ⟨k', by rw [e]; exact h1, fun d' u hu => ?_⟩
  obtain ⟨i, v, h3⟩ := h2 d' u hu
  refine ⟨i, v, ?_⟩
  rw [e]
  dsimp only
  rw [Prog.run_bind', h3, hK]
  rfl

theorem Trap.right {w : Err → X} {s : String} {p : Prog RdfDb B} {d : RdfDb} {K : B → Prog RdfDb (Ids × Except X A)}
    (h : Trap cl cr w s (K (p.run d).2) (p.run d).1) : Trap cl cr w s (p.bind K) d := by
  obtain ⟨k, h1, h2⟩ := h
  obtain ⟨k', e⟩ := Prog.pause_bind_right k p K d
  exact ⟨k', by rw [e]; exact h1, fun d' u hu => by rw [e]; exact h2 d' u hu⟩

theorem Trap.andThen {s : String} {m : Task A} {f : A → Task B} {i : Ids} {d : RdfDb} (h : Trap cl cr id s (m i) d) :
    Trap cl cr id s (m.andThen f i) d := h.left (fun _ _ => rfl)

theorem setProg_duplicate (tl : cl.Total) (tr : cr.Total) {d : IndexDb} {s : String} {u : Ulid}
    (h : (ix).leftToRight d s = .ok (some u)) (v : Ulid) :
    (SledIndex.setProg cl cr s v).run d = (d, .error (.duplicateRight s u v)) := by
  obtain ⟨ks, hks⟩ := Option.isSome_iff_exists.1 (tl s)
  obtain ⟨kv, hkv⟩ := Option.isSome_iff_exists.1 (tr v)
  rw [SledIndex.set_run d hks hkv]
  have h' : SledIndex.lookup cl cr .serialization d.leftToRight s = (.ok (some u) : Except (SledIndexErr String Ulid) _) := h
  unfold SledIndex.lookup at h'
  simp only [hks] at h'
  cases hg : d.leftToRight.get ks with
  | none => rw [hg] at h'; cases h'
  | some b =>
    rw [hg] at h'
    dsimp only at h'
    rw [SledIndex.setTx_left d s v hg]
    cases hd : cr.de b with
    | none => rw [hd] at h'; cases h'
    | some r => rw [hd] at h'; cases h'; rfl

theorem trap_create (tl : cl.Total) (tr : cr.Total) {s : String} {d : RdfDb} (h : (ix).leftToRight d.names s = .ok none) (i : Ids) :
    Trap cl cr id s (lookupOrCreateEntity cl cr (.string s) i) d := by
  obtain ⟨ks, hks⟩ := Option.isSome_iff_exists.1 (tl s)
  have e : (lookupOrCreateEntity cl cr (.string s) i).pause 1 d =
      (d, ((onIndex (SledIndex.setProg cl cr s (Gen.fresh i.ulid).1)).andThen (fun _ => done (Gen.fresh i.ulid).1))
        { i with ulid := (Gen.fresh i.ulid).2 }) := by
    have h' : SledIndex.lookup cl cr .serialization d.names.leftToRight s = (.ok none : Except (SledIndexErr String Ulid) _) := h
    unfold lookupOrCreateEntity SledIndex.leftToRightProg
    simp only [hks]
    dsimp only [onIndex, Task.andThen, Prog.onNames, Prog.bind, Prog.pause, id]
    rw [h']
  refine ⟨1, by rw [e]; exact h, fun d' u hu => ?_⟩
  rw [e]
  refine ⟨{ i with ulid := (Gen.fresh i.ulid).2 }, (Gen.fresh i.ulid).1, ?_⟩
  dsimp only [Task.andThen]
  rw [Prog.run_bind', onIndex_run, setProg_duplicate tl tr hu]
  rfl

variable {n k : Nat} {r : Handle} {x : RdfState NP EP} {s : String}

theorem Is.lacks (h : Is cl cr c C n k r x) (hs : x.known s = false) : (ix).leftToRight (dbOf r).names s = .ok none := by
  obtain ⟨f, G, h⟩ := h
  have := h.names.1 s
  have e : f s = none := by
    have := h.agree.known s
    rw [hs] at this
    cases hf : f s with
    | none => rfl
    | some u => rw [hf] at this; cases this
  rw [e] at this
  exact this

section
variable (hl : cl.RoundTrips) (hr : cr.RoundTrips) (tl : cl.Total) (tr : cr.Total)
include hl hr tl tr

/-- a different entity is looked up or created -/
theorem create_other (h : Is cl cr c C n (k + 1) r x) {e : Entity} (he : Rdf.In C e) (hs : x.known s = false) (hne : e ≠ .string s) :
    ∃ r' u, (lookupOrCreateEntity cl cr e (idsOf r)).run (dbOf r) = (dbOf r', (idsOf r', .ok u)) ∧
      Is cl cr c C n k r' (x.learn [e]) ∧ (x.learn [e]).known s = false := by
  obtain ⟨f, G, h⟩ := h
  obtain ⟨r', f', u, e1, i1, -⟩ := Rdf.create_entity (SX := SErr) (SledIndex.lawful hl hr tl tr) h he
  refine ⟨r', u, ?_, ⟨f', G, i1⟩, ?_⟩
  · have := matches_lookupOrCreate (cl := cl) (cr := cr) e r
    dsimp only at this
    rw [this, e1]
  · simp [RdfState.learn, hs, Ne.symm hne]

theorem trap_triple (h : Is cl cr c C n (k + 3) r x) {t : Triple Entity} (ht : Rdf.InT C t) (hs : x.known s = false)
    (hm : .string s ∈ RdfState.parts t) : Trap cl cr id s (tryMap (lookupOrCreateEntity cl cr) t (idsOf r)) (dbOf r) := by
  unfold tryMap
  by_cases h1 : t.sub = .string s
  · rw [h1]
    exact (trap_create tl tr (h.lacks hs) _).andThen
  · obtain ⟨r1, u1, e1, i1, hs1⟩ := create_other hl hr tl tr h ht.1 hs h1
    refine Trap.right ?_
    rw [e1]
    dsimp only
    by_cases h2 : t.pred = .string s
    · rw [h2]
      exact (trap_create tl tr (i1.lacks hs1) _).andThen
    · obtain ⟨r2, u2, e2, i2, hs2⟩ := create_other hl hr tl tr i1 ht.2.1 hs1 h2
      refine Trap.right ?_
      rw [e2]
      dsimp only
      have h3 : t.obj = .string s := by
        simp only [RdfState.parts, List.mem_cons, List.not_mem_nil, or_false] at hm
        rcases hm with hm | hm | hm
        · exact absurd hm.symm h1
        · exact absurd hm.symm h2
        · exact hm.symm
      rw [h3]
      exact (trap_create tl tr (i2.lacks hs2) _).andThen

end

/-- What the function does to one item: it gets trapped if the name is in it, and takes it in otherwise. -/
def Takes (cl : Codec String) (cr : Codec Ulid) (c : Codecs NP EP) (C : List Ulid) (s : String) (m : Task Unit) (es : List Entity)
    (cn ck : Nat) : Prop :=
  ∀ (n k : Nat) (r : Handle) (x : RdfState NP EP), Is cl cr c C (n + cn) (k + ck) r x → x.known s = false →
    (.string s ∈ es → Trap cl cr id s (m (idsOf r)) (dbOf r)) ∧
    (.string s ∉ es → ∃ r' x', (m (idsOf r)).run (dbOf r) = (dbOf r', (idsOf r', .ok ())) ∧ Is cl cr c C n k r' x' ∧
      x'.known s = false)

theorem ok_of_tag {X : Type} {e : Except X Unit} (h : Rdf.tag (E := Unit) e = .ok ()) : e = .ok () := by
  cases e with
  | ok => rfl
  | error => cases h

/-- the item is taken in -/
theorem taken {m : Task Unit} {F : Handle → Handle × Except Err Unit} (hm : Matches m F) {es : List Entity} {H : Graph Entity NP EP}
    (hd : Rdf.Done (E := Unit) ix (fun n s G => SledStore.Ok c n 0 (fun _ => False) s G) C SErr.serialization n k ((F r).1, Rdf.tag (F r).2)
      (x.change es (some H))) (hs : x.known s = false) (hes : .string s ∉ es) :
    ∃ r' x', (m (idsOf r)).run (dbOf r) = (dbOf r', (idsOf r', .ok ())) ∧ Is cl cr c C n k r' x' ∧ x'.known s = false := by
  refine ⟨(F r).1, _, ?_, hd.1, ?_⟩
  · rw [hm r, ok_of_tag hd.2]
  · show (x.known s || decide (Entity.string s ∈ es)) = false
    rw [hs, decide_eq_false hes]; rfl

section
variable (hl : cl.RoundTrips) (hr : cr.RoundTrips) (tl : cl.Total) (tr : cr.Total) (hc : c.RoundTrip) (ht : c.Total)
include hl hr tl tr hc ht

theorem takes_insertNode {e : Entity} (he : Rdf.In C e) (p : NP) : Takes cl cr c C s (insertNode cl cr c e p) [e] 0 1 := by
  intro n k r x h hs
  refine ⟨fun hm => ?_, fun hm => ?_⟩
  · obtain rfl := List.mem_singleton.1 hm
    exact (trap_create tl tr (h.lacks hs) _).andThen
  · obtain ⟨f, G, h⟩ := h
    have := Rdf.done_insertNode (E := Unit) (SledIndex.lawful hl hr tl tr) (SledStore.law (m := 0) hc (fun a _ => a) (fun a _ => a)) h he p
    unfold storeNode at this
    rw [if_pos (show c.okN _ = true from ht.1 p)] at this
    exact taken (matches_insertNode e p) this hs hm

theorem takes_mergeNode {e : Entity} (he : Rdf.In C e) (p : NP) : Takes cl cr c C s (mergeNode cl cr c mN e p) [e] 0 1 := by
  intro n k r x h hs
  refine ⟨fun hm => ?_, fun hm => ?_⟩
  · obtain rfl := List.mem_singleton.1 hm
    exact (trap_create tl tr (h.lacks hs) _).andThen
  · obtain ⟨f, G, h⟩ := h
    have := Rdf.done_mergeNode (E := Unit) (SledIndex.lawful hl hr tl tr) (SledStore.law (m := 0) hc mN (fun a _ => a)) h he p
    unfold storeMergedNode storeNode at this
    rw [if_pos (show c.okN _ = true from ht.1 _)] at this
    exact taken (matches_mergeNode e p) this hs hm

theorem takes_insertEdge {t : Triple Entity} (he : Rdf.InT C t) (p : EP) :
    Takes cl cr c C s (insertEdge cl cr c t p) (RdfState.parts t) 1 3 := by
  intro n k r x h hs
  refine ⟨fun hm => ?_, fun hm => ?_⟩
  · exact (trap_triple hl hr tl tr h he hs hm).andThen
  · obtain ⟨f, G, h⟩ := h
    have := Rdf.done_insertEdge (E := Unit) (SledIndex.lawful hl hr tl tr) (SledStore.law (m := 0) hc (fun a _ => a) (fun a _ => a)) h he p
    unfold storeEdge at this
    rw [if_pos (show c.okE _ = true from ht.2 p)] at this
    exact taken (matches_insertEdge t p) this hs hm

theorem takes_mergeEdge {t : Triple Entity} (he : Rdf.InT C t) (p : EP) :
    Takes cl cr c C s (mergeEdge cl cr c mE t p) (RdfState.parts t) 1 3 := by
  intro n k r x h hs
  refine ⟨fun hm => ?_, fun hm => ?_⟩
  · exact (trap_triple hl hr tl tr h he hs hm).andThen
  · obtain ⟨f, G, h⟩ := h
    have := Rdf.done_mergeEdge (E := Unit) (SledIndex.lawful hl hr tl tr) (SledStore.law (m := 0) hc (fun a _ => a) mE) h he p
    unfold storeMergedEdge storeEdge at this
    rw [if_pos (show c.okE _ = true from ht.2 _)] at this
    exact taken (matches_mergeEdge t p) this hs hm

omit hl hr tl tr hc ht

theorem trap_absorb {γ : Type} {f : γ → Task Unit} {N : γ → List Entity} {cn ck : Nat}
    {j : Ids → Prog RdfDb (Ids × Except (LR Err E) Unit)} (l : List (Except E γ))
    (h : ∀ y, .ok y ∈ l → Takes cl cr c C s (f y) (N y) cn ck) (hs : x.known s = false)
    (hI : Is cl cr c C (n + cn * l.length) (k + ck * l.length) r x)
    (hm : (∃ y ∈ oks l, .string s ∈ N y) ∨ fails l = false ∧ ∀ r' x', Is cl cr c C n k r' x' → x'.known s = false →
      Trap cl cr .left s (j (idsOf r')) (dbOf r')) :
    Trap cl cr .left s (absorb f j l (idsOf r)) (dbOf r) := by
  induction l generalizing r x with
  | nil =>
    rcases hm with ⟨y, hy, -⟩ | ⟨-, hm⟩
    · cases hy
    · exact hm r x (by simpa using hI) hs
  | cons y l ih =>
    cases y with
    | error e =>
      rcases hm with ⟨y, hy, -⟩ | ⟨hm, -⟩
      · cases hy
      · cases hm
    | ok y =>
      rw [absorb]
      have hI' : Is cl cr c C (n + cn * l.length + cn) (k + ck * l.length + ck) r x := by
        simpa [Nat.mul_add, Nat.add_assoc] using hI
      obtain ⟨t1, t2⟩ := h y List.mem_cons_self _ _ r x hI' hs
      by_cases hy : .string s ∈ N y
      · exact (t1 hy).left (fun _ _ => rfl)
      · obtain ⟨r', x', e1, i1, hs1⟩ := t2 hy
        refine Trap.right ?_
        rw [e1]
        refine ih (fun z hz => h z (List.mem_cons_of_mem _ hz)) hs1 i1 ?_
        rcases hm with ⟨z, hz, hz'⟩ | hm
        · rcases List.mem_cons.1 hz with rfl | hz
          · exact absurd hz' hy
          · exact .inl ⟨z, hz, hz'⟩
        · exact .inr hm

theorem trap_single {m : Task Unit} {es : List Entity} {cn ck : Nat} (h : Takes cl cr c C s m es cn ck)
    (hI : Is cl cr c C (0 + cn) (0 + ck) r x) (hs : x.known s = false) (hm : .string s ∈ es) :
    Trap cl cr .left s (single (E := E) m (idsOf r)) (dbOf r) :=
  ((h _ _ _ _ hI hs).1 hm).left (fun _ _ => rfl)

theorem mem_names {es : List Entity} : s ∈ names es ↔ .string s ∈ es := by
  induction es with
  | nil => simp [names]
  | cons e es ih => cases e <;> simp [names, ih]

theorem learn_mem_after {es : List Entity} {o : Op E Entity NP EP} : .learn s ∈ RdfDeed.after es o ↔ .string s ∈ es := by
  simp [RdfDeed.after, mem_names]

include hl hr tl tr hc ht

/-- a call that makes the name known can be trapped -/
theorem trap_prog (op : Op E Entity NP EP) (hC : ∀ v ∈ ulids op.entities, v ∈ C)
    (hI : Is cl cr c C (0 + op.draws) (0 + op.creations) r x) (hs : x.known s = false) (hm : .learn s ∈ op.deeds) :
    Trap cl cr .left s (prog cl cr c mN mE op (idsOf r)) (dbOf r) := by
  cases op with
  | removeNode e => simp [Op.deeds] at hm
  | removeEdge t => simp [Op.deeds] at hm
  | insertNode e p =>
    exact trap_single (takes_insertNode hl hr tl tr hc ht (Rdf.in_of_ulids hC (by simp [Op.entities])) p) hI hs (learn_mem_after.1 hm)
  | mergeNode e p =>
    exact trap_single (takes_mergeNode hl hr tl tr hc ht (Rdf.in_of_ulids hC (by simp [Op.entities])) p) hI hs (learn_mem_after.1 hm)
  | insertEdge t p =>
    exact trap_single (takes_insertEdge hl hr tl tr hc ht (Rdf.inT_of_ulids hC (by simp [Op.entities])) p) hI hs (learn_mem_after.1 hm)
  | mergeEdge t p =>
    exact trap_single (takes_mergeEdge hl hr tl tr hc ht (Rdf.inT_of_ulids hC (by simp [Op.entities])) p) hI hs (learn_mem_after.1 hm)
  | extend src =>
    have hN : ∀ z, .ok z ∈ src.nodes → Takes cl cr c C s (insertNode cl cr c z.1 z.2) [z.1] 0 1 := fun z hz =>
      takes_insertNode hl hr tl tr hc ht (Rdf.in_of_ulids hC (List.mem_append_left _ (Rdf.mem_itemEntities hz (by simp)))) z.2
    have hE : ∀ z, .ok z ∈ src.edges → Takes cl cr c C s (insertEdge cl cr c z.1 z.2) (RdfState.parts z.1) 1 3 := fun z hz =>
      takes_insertEdge hl hr tl tr hc ht
        (Rdf.inT_of_ulids hC (fun e he => List.mem_append_right _ (Rdf.mem_itemEntities hz he))) z.2
    refine trap_absorb (n := 1 * src.edges.length) (k := 3 * src.edges.length) src.nodes hN hs
      (by simpa [Op.draws, Op.creations, Nat.add_comm] using hI) ?_
    simp only [Op.deeds, List.mem_append, List.mem_flatMap, learn_mem_after] at hm
    rcases hm with hm | hm
    · exact .inl hm
    · right
      split at hm
      · cases hm
      · rename_i hf
        refine ⟨by simpa using hf, fun r' x' i1 h1 => ?_⟩
        refine trap_absorb (n := 0) (k := 0) src.edges hE h1 (by simpa using i1) (.inl ?_)
        simpa only [List.mem_flatMap, learn_mem_after] using hm
  | merge src =>
    have hN : ∀ z, .ok z ∈ src.nodes → Takes cl cr c C s (mergeNode cl cr c mN z.1 z.2) [z.1] 0 1 := fun z hz =>
      takes_mergeNode hl hr tl tr hc ht (Rdf.in_of_ulids hC (List.mem_append_left _ (Rdf.mem_itemEntities hz (by simp)))) z.2
    have hE : ∀ z, .ok z ∈ src.edges → Takes cl cr c C s (mergeEdge cl cr c mE z.1 z.2) (RdfState.parts z.1) 1 3 := fun z hz =>
      takes_mergeEdge hl hr tl tr hc ht
        (Rdf.inT_of_ulids hC (fun e he => List.mem_append_right _ (Rdf.mem_itemEntities hz he))) z.2
    refine trap_absorb (n := 1 * src.edges.length) (k := 3 * src.edges.length) src.nodes hN hs
      (by simpa [Op.draws, Op.creations, Nat.add_comm] using hI) ?_
    simp only [Op.deeds, List.mem_append, List.mem_flatMap, learn_mem_after] at hm
    rcases hm with hm | hm
    · exact .inl hm
    · right
      split at hm
      · cases hm
      · rename_i hf
        refine ⟨by simpa using hf, fun r' x' i1 h1 => ?_⟩
        refine trap_absorb (n := 0) (k := 0) src.edges hE h1 (by simpa using i1) (.inl ?_)
        simpa only [List.mem_flatMap, learn_mem_after] using hm

end

end RdfSled

end Verif
