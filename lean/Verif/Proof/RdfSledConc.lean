import Verif.Spec.RdfSledConc
import Verif.Proof.ConcLin
import Verif.Proof.RdfSled
import Mathlib.Data.List.Nodup

/-! # Concurrent use of RDF stores on one sled database -/

set_option linter.unusedSectionVars false

namespace Verif

open Spec ConcreteId

variable {NP EP E α β : Type}

theorem Prog.bind_assoc {S γ : Type} (p : Prog S α) (f : α → Prog S β) (g : β → Prog S γ) :
    (p.bind f).bind g = p.bind (fun a => (f a).bind g) := by
  induction p with
  | ret a => rfl
  | call f k ih => simp only [Prog.bind, ih]

namespace RdfSled

/-! ## the rules -/

/-- what a call may do -/
structure Role where
  creates : String → Prop
  own : String → Prop
  writes : Triple Entity → Prop
  removes : Triple Entity → Prop

/-- and which ids it may still draw -/
structure Label where
  ulids : Ulid → Prop
  recs : Ulid → Prop
  role : Role

/-- the names, what is in the trees, and what it stands for -/
structure Ghost (NP EP : Type) where
  f : String → Option Ulid
  d : Db
  x : RdfState NP EP

section
variable (cl : Codec String) (cr : Codec Ulid) (c : Codecs NP EP) (C : List Ulid) (known : String → Bool)

structure Sound (s : RdfDb) (g : Ghost NP EP) : Prop where
  names : (SledIndex.impl cl cr).Shows s.names g.f
  data : g.d = s.data
  inv : g.d.Inv Ulid c
  agree : Spec.Agree g.f (g.d.graph c) g.x
  clean : ∀ v ∈ C, ∀ n, g.f n ≠ some v
  known : ∀ n, known n = true → (g.f n).isSome = true

/-- the id has no name, and does not occur in the graph -/
structure New (u : Ulid) (g : Ghost NP EP) : Prop where
  names : ∀ n, g.f n ≠ some u
  explicit : u ∉ C
  nodes : (g.d.graph c).nodes u = none
  edges : ∀ t : Triple Ulid, (t.sub = u ∨ t.pred = u ∨ t.obj = u) → (g.d.graph c).edges t = none

/-- entities keep their ids -/
def Grows (f f' : String → Option Ulid) : Prop := ∀ e u, Rdf.In C e → Ref f e u → Ref f' e u

structure Rely (a : Label) (g g' : Ghost NP EP) : Prop where
  grows : Grows C g.f g'.f
  own : ∀ s, a.role.own s → g.f s = none → g'.f s = none
  removes : ∀ te, a.role.removes te → Rdf.InT C te → ∀ tu, RefT g.f te tu → g.d.idIn .SPO tu = none →
    g'.d.idIn .SPO tu = none

structure Fit (a : Label) (g : Ghost NP EP) : Prop where
  ulids : ∀ u, a.ulids u → New c C u g
  recs : ∀ v, a.recs v → ∀ t : Triple Ulid, g.d.idIn .SPO t ≠ some (toBeBytes v).1

theorem Grows.refl {f : String → Option Ulid} : Grows C f f := fun _ _ _ h => h

variable {C} in
theorem Grows.trans {f f' f'' : String → Option Ulid} (h : Grows C f f') (h' : Grows C f' f'') : Grows C f f'' :=
  fun e u he hr => h' e u he (h e u he hr)

variable {C} in
theorem Grows.triple {f f' : String → Option Ulid} (h : Grows C f f') {te : Triple Entity} {tu : Triple Ulid}
    (ht : Rdf.InT C te) (hr : RefT f te tu) : RefT f' te tu :=
  ⟨h _ _ ht.1 hr.1, h _ _ ht.2.1 hr.2.1, h _ _ ht.2.2 hr.2.2⟩

def rules : RG RdfDb (Ghost NP EP) Label where
  inv := Sound cl cr c C known
  rely a x y := Rely C a x.2 y.2
  ok := Fit c C
  par a b := (∀ u, a.ulids u → ¬ b.ulids u) ∧ (∀ v, a.recs v → ¬ b.recs v) ∧ (∀ s, b.role.own s → ¬ a.role.creates s) ∧
    ∀ t, b.role.removes t → ¬ a.role.writes t
  seq a b := (∀ u, a.ulids u → ¬ b.ulids u) ∧ ∀ v, a.recs v → ¬ b.recs v
  le a b := (∀ u, a.ulids u → b.ulids u) ∧ (∀ v, a.recs v → b.recs v) ∧ a.role = b.role
  rely_refl _ _ := ⟨.refl C, fun _ _ h => h, fun _ _ _ _ _ h => h⟩
  rely_trans _ _ _ _ h h' := ⟨h.grows.trans h'.grows, fun s hs hn => h'.own s hs (h.own s hs hn),
    fun te ht hi tu hr hn => h'.removes te ht hi tu (h.grows.triple hi hr) (h.removes te ht hi tu hr hn)⟩
  le_trans _ _ _ h h' := ⟨fun u hu => h'.1 u (h.1 u hu), fun u hu => h'.2.1 u (h.2.1 u hu), h.2.2.trans h'.2.2⟩
  par_le a a' b h := by
    obtain ⟨h1, h2, h3⟩ := h
    refine ⟨fun ⟨p1, p2, p3, p4⟩ => ⟨fun u hu => p1 u (h1 u hu), fun v hv => p2 v (h2 v hv), ?_, ?_⟩,
      fun ⟨p1, p2, p3, p4⟩ => ⟨fun u hu hu' => p1 u hu (h1 u hu'), fun v hv hv' => p2 v hv (h2 v hv'), ?_, ?_⟩⟩
    all_goals rw [h3]; assumption
  seq_le a a' b h := fun ⟨p1, p2⟩ => ⟨fun u hu => p1 u (h.1 u hu), fun v hv => p2 v (h.2.1 v hv)⟩

end

variable {cl : Codec String} {cr : Codec Ulid} {c : Codecs NP EP} {mN : NP → NP → NP} {mE : EP → EP → EP}
  {C : List Ulid} {known : String → Bool} {b : Bool} {ρ : Role}

local notation "RR" => rules cl cr c C known

/-- the program does the deeds `l` -/
abbrev Acts (E : Type) (cl : Codec String) (cr : Codec Ulid) (c : Codecs NP EP) (mN : NP → NP → NP) (mE : EP → EP → EP)
    (C : List Ulid) (known : String → Bool) (b : Bool) (p : Prog RdfDb Unit) (a : Label) (x : RdfDb × Ghost NP EP)
    (l : List (RdfDeed E NP EP)) : Prop :=
  (rules cl cr c C known).Does Ghost.x (fun (x : RdfState NP EP) o => x.deed c.okN c.okE mN mE o) b p a x l

/-! ## single calls -/

theorem allowed_same {a : Label} {s : RdfDb} {g : Ghost NP EP} (hi : Sound cl cr c C known s g) (ho : Fit c C a g) :
    (RR).Allowed a s g s a g :=
  ⟨⟨fun _ h => h, fun _ h => h, rfl⟩, hi, ho, fun _ _ hb => ⟨(RR).rely_refl _ (s, g), hb⟩, fun _ _ hb => hb⟩

theorem ref_new {f : String → Option Ulid} {u : Ulid} {n : String} (hs : f n = none) (hC : u ∉ C) :
    Grows C f (fun a => if a = n then some u else f a) := by
  intro e v he hr
  cases hr with
  | @name a _ ha =>
    have e : a ≠ n := fun e => by rw [e, hs] at ha; cases ha
    exact .name (by simp only [e, if_false]; exact ha)
  | id hn =>
    refine .id (fun a ha => ?_)
    by_cases e : a = n
    · simp only [e, if_true, Option.some.injEq] at ha
      exact hC (ha ▸ he v rfl)
    · simp only [e, if_false] at ha; exact hn a ha

/-- a name is created -/
theorem allowed_learn {a : Label} {s : RdfDb} {g : Ghost NP EP} (hi : Sound cl cr c C known s g) (ho : Fit c C a g)
    {n : String} {u : Ulid} (hu : a.ulids u) (hn : g.f n = none) (hc : a.role.creates n) {i : IndexDb}
    (hx : (SledIndex.impl cl cr).Shows i (fun a => if a = n then some u else g.f a)) :
    (RR).Allowed a s g { s with names := i } { a with ulids := fun v => a.ulids v ∧ v ≠ u }
      { g with f := fun a => if a = n then some u else g.f a, x := g.x.learn [.string n] } := by
  have hw := ho.ulids u hu
  have other : ∀ v, v ≠ u → New c C v g →
      New c C v { g with f := fun a => if a = n then some u else g.f a, x := g.x.learn [.string n] } := by
    intro v hv h
    refine ⟨fun m hm => ?_, h.explicit, h.nodes, h.edges⟩
    by_cases e : m = n
    · simp only [e, if_true, Option.some.injEq] at hm; exact hv hm.symm
    · simp only [e, if_false] at hm; exact h.names m hm
  refine ⟨⟨fun _ h => h.1, fun _ h => h, rfl⟩, ?_, ⟨fun v hv => other v hv.2 (ho.ulids v hv.1), ho.recs⟩, ?_, ?_⟩
  · refine ⟨hx, hi.data, hi.inv, ?_, fun v hv m hm => ?_, fun m hm => ?_⟩
    · -- as in a store of its own
      have h1 : Rdf.Inv (SledIndex.impl cl cr) (fun (_ : Nat) (_ : Unit) G => G = g.d.graph c) [] 0 1
          { nameIndex := s.names, graph := (), ulid := fun _ => u } g.f (g.d.graph c) g.x :=
        ⟨hi.names, rfl, hi.agree, ⟨fun i hi j hj _ => by omega, fun j _ m => hw.names m, fun j _ => hw.nodes,
          fun j _ t ht => hw.edges t ht⟩, fun v hv => by cases hv⟩
      exact (h1.create hn hx).agree
    · by_cases e : m = n
      · simp only [e, if_true, Option.some.injEq] at hm; exact hw.explicit (hm ▸ hv)
      · simp only [e, if_false] at hm; exact hi.clean v hv m hm
    · dsimp only
      split
      · rfl
      · exact hi.known m hm
  · intro b hp hb
    refine ⟨⟨ref_new hn hw.explicit, fun m hm hf => ?_, fun te ht hI tu hr hf => hf⟩, ⟨fun v hv => other v ?_ (hb.ulids v hv), hb.recs⟩⟩
    · have : m ≠ n := fun e => hp.2.2.1 m hm (e ▸ hc)
      simp only [this, if_false]; exact hf
    · rintro rfl; exact hp.1 v hu hv
  · intro b hp hb
    refine ⟨fun v hv => other v ?_ (hb.ulids v hv), hb.recs⟩
    rintro rfl; exact hp.1 v hu hv

/-- the graph is changed -/
theorem allowed_data {a : Label} {s : RdfDb} {g : Ghost NP EP} (hi : Sound cl cr c C known s g) (ho : Fit c C a g)
    {d' : Db} {x' : RdfState NP EP} (w : Ulid → Prop) (hinv : d'.Inv Ulid c) (hag : Spec.Agree g.f (d'.graph c) x')
    (hn : ∀ u, (∀ m, g.f m ≠ some u) → u ∉ C → (g.d.graph c).nodes u = none → (d'.graph c).nodes u = none)
    (he : ∀ u, (∀ m, g.f m ≠ some u) → u ∉ C → ∀ t : Triple Ulid, (t.sub = u ∨ t.pred = u ∨ t.obj = u) →
      (g.d.graph c).edges t = none → (d'.graph c).edges t = none)
    (hr : ∀ (t : Triple Ulid) v, d'.idIn .SPO t = some (toBeBytes v).1 →
      (∃ t' : Triple Ulid, g.d.idIn .SPO t' = some (toBeBytes v).1) ∨ a.recs v ∧ w v)
    (hw : ∀ te, ¬ a.role.writes te → Rdf.InT C te → ∀ tu, RefT g.f te tu → g.d.idIn .SPO tu = none →
      d'.idIn .SPO tu = none) :
    (RR).Allowed a s g { s with data := d' } { a with recs := fun v => a.recs v ∧ ¬ w v }
      { g with d := d', x := x' } := by
  have new : ∀ u, New c C u g → New c C u { g with d := d', x := x' } := fun u h =>
    ⟨h.names, h.explicit, hn u h.names h.explicit h.nodes, fun t ht => he u h.names h.explicit t ht (h.edges t ht)⟩
  have recs : ∀ v, ¬ (a.recs v ∧ w v) → (∀ t : Triple Ulid, g.d.idIn .SPO t ≠ some (toBeBytes v).1) →
      ∀ t : Triple Ulid, d'.idIn .SPO t ≠ some (toBeBytes v).1 := fun v h1 h2 t ht => by
    rcases hr t v ht with ⟨t', h⟩ | h
    · exact h2 t' h
    · exact h1 h
  refine ⟨⟨fun _ h => h, fun _ h => h.1, rfl⟩, ⟨hi.names, rfl, hinv, hag, hi.clean, hi.known⟩,
    ⟨fun u hu => new u (ho.ulids u hu), fun v hv => recs v (fun h => hv.2 h.2) (ho.recs v hv.1)⟩, ?_, ?_⟩
  · intro b hp hb
    refine ⟨⟨.refl C, fun _ _ h => h, fun te ht hI tu hrt hf => hw te (hp.2.2.2 te ht) hI tu hrt hf⟩,
      ⟨fun u hu => new u (hb.ulids u hu), fun v hv => recs v (fun h => hp.2.1 v h.1 hv) (hb.recs v hv)⟩⟩
  · intro b hp hb
    exact ⟨fun u hu => new u (hb.ulids u hu), fun v hv => recs v (fun h => hp.2 v h.1 hv) (hb.recs v hv)⟩

theorem In.ne {f : String → Option Ulid} {e : Entity} {u v : Ulid} (he : Rdf.In C e) (hr : Ref f e v)
    (h1 : ∀ m, f m ≠ some u) (h2 : u ∉ C) : u ≠ v := by
  rintro rfl
  cases hr with
  | name h => exact h1 _ h
  | id h => exact h2 (he u rfl)

/-! ## names -/

theorem learn_known {x : RdfState NP EP} {es : List Entity} (h : ∀ s, Entity.string s ∈ es → x.known s = true) :
    x.learn es = x := by
  unfold RdfState.learn
  have : (fun s => x.known s || decide (Entity.string s ∈ es)) = x.known := by
    funext s
    by_cases hm : Entity.string s ∈ es
    · rw [h s hm]; rfl
    · simp [hm]
  rw [this]

/-- the id was found or created for the entity -/
def Got (f : String → Option Ulid) : Entity → Ulid → Prop
  | .string s, u => f s = some u
  | .ulid v, u => v = u

theorem Got.mono {f f' : String → Option Ulid} (h : Grows C f f') {e : Entity} {u : Ulid} (hg : Got f e u) : Got f' e u := by
  cases e with
  | ulid v => exact hg
  | string s =>
    cases h (.string s) u (fun v hv => by cases hv) (.name hg) with
    | name h => exact h

theorem Got.ref {s : RdfDb} {g : Ghost NP EP} (hi : Sound cl cr c C known s g) {e : Entity} (he : Rdf.In C e) {u : Ulid}
    (hg : Got g.f e u) : Ref g.f e u := by
  cases e with
  | ulid v =>
    have e : v = u := hg
    subst e
    exact .id (hi.clean v (he v rfl))
  | string s => exact .name hg

/-- the call has ids left to draw -/
structure Supply (k n : Nat) (i : Ids) (a : Label) : Prop where
  ulid : Fresh k i.ulid
  gen : Fresh n i.gen
  ulids : ∀ j < k, a.ulids (i.ulid j)
  recs : ∀ j < n, a.recs (i.gen j)

theorem Supply.fewer {k n k' n' : Nat} {i : Ids} {a : Label} (h : Supply k n i a) (hk : k' ≤ k) (hn : n' ≤ n) :
    Supply k' n' i a :=
  ⟨fun x hx y hy => h.ulid x (by omega) y (by omega), fun x hx y hy => h.gen x (by omega) y (by omega),
    fun j hj => h.ulids j (by omega), fun j hj => h.recs j (by omega)⟩

theorem Supply.ulidDrawn {k n : Nat} {i : Ids} {a : Label} (h : Supply (k + 1) n i a) :
    Supply k n { i with ulid := fun j => i.ulid (j + 1) } { a with ulids := fun v => a.ulids v ∧ v ≠ i.ulid 0 } := by
  refine ⟨fun x hx y hy e => ?_, h.gen, fun j hj => ⟨h.ulids (j + 1) (by omega), fun e => ?_⟩, h.recs⟩
  · have := h.ulid (x + 1) (by omega) (y + 1) (by omega) e; omega
  · have := h.ulid (j + 1) (by omega) 0 (by omega) e; omega

theorem Supply.genDrawn {k n : Nat} {i : Ids} {a : Label} (h : Supply k (n + 1) i a) :
    Supply k n { i with gen := fun j => i.gen (j + 1) } { a with recs := fun v => a.recs v ∧ ¬ v = i.gen 0 } := by
  refine ⟨h.ulid, fun x hx y hy e => ?_, h.ulids, fun j hj => ⟨h.recs (j + 1) (by omega), fun e => ?_⟩⟩
  · have := h.gen (x + 1) (by omega) (y + 1) (by omega) e; omega
  · have := h.gen (j + 1) (by omega) 0 (by omega) e; omega

/-- what a call goes on with after an error: nothing more -/
abbrev Stops (K : Ids × Except Err α → Prog RdfDb Unit) : Prop := ∀ i e, K (i, .error e) = .ret ()

theorem acts_stop {K : Ids × Except Err α → Prog RdfDb Unit} (hs : Stops K) (hb : b = true) {i : Ids} {e : Err} {a : Label}
    {x : RdfDb × Ghost NP EP} {l : List (RdfDeed E NP EP)} : Acts E cl cr c mN mE C known b (K (i, .error e)) a x l := by
  rw [hs]; exact .inl hb

/-- what is known about a name for the call to create it without fail -/
def Sure (known : String → Bool) (ρ : Role) (b : Bool) (s : String) : Prop := b = true ∨ ρ.own s ∨ known s = true

theorem setProg_fails (tl : cl.Total) (tr : cr.Total) {d : IndexDb}
    {f : String → Option Ulid} (h : (SledIndex.impl cl cr).Shows d f) {s : String} (hs : f s ≠ none) (u : Ulid) :
    ∃ e, (SledIndex.setProg cl cr s u).run d = (d, .error e) := by
  obtain ⟨ks, hks⟩ := Option.isSome_iff_exists.1 (tl s)
  obtain ⟨ku, hku⟩ := Option.isSome_iff_exists.1 (tr u)
  rw [SledIndex.set_run d hks hku]
  cases hg : d.leftToRight.get ks with
  | some v => rw [SledIndex.setTx_left d s u hg]; exact ⟨_, rfl⟩
  | none =>
    have := h.1 s
    rw [show (SledIndex.impl cl cr).leftToRight d s = .ok none from (SledIndex.lookup_none hks).2 hg] at this
    exact absurd (Except.ok.inj this).symm hs

theorem setProg_shape (tl : cl.Total) (tr : cr.Total) (s : String) (u : Ulid) :
    ∃ (F : IndexDb → IndexDb) (H : IndexDb → Except (SledIndexErr String Ulid) Unit),
      SledIndex.setProg cl cr s u = .call F (fun d => .ret (H d)) := by
  obtain ⟨ks, hks⟩ := Option.isSome_iff_exists.1 (tl s)
  obtain ⟨ku, hku⟩ := Option.isSome_iff_exists.1 (tr u)
  unfold SledIndex.setProg
  simp only [hks, hku]
  exact ⟨_, _, rfl⟩

/-- set -/
theorem acts_set (hl : cl.RoundTrips) (hr : cr.RoundTrips) (tl : cl.Total) (tr : cr.Total) {s : String} {k n : Nat} {i : Ids}
    {a : Label} {x : RdfDb × Ghost NP EP} (ha : a.role = ρ) (hS : Supply (k + 1) n i a) (hc : ρ.creates s)
    (hsure : b = true ∨ ρ.own s) (hx : x.2.f s = none)
    {K : Ids × Except Err Ulid → Prog RdfDb Unit} {l : List (RdfDeed E NP EP)} (hs : Stops K)
    (hk : ∀ i' a' x' u, a'.role = ρ → Supply k n i' a' → Grows C x.2.f x'.2.f → Got x'.2.f (.string s) u →
      Acts E cl cr c mN mE C known b (K (i', .ok u)) a' x' l) :
    Acts E cl cr c mN mE C known b ((((onIndex (SledIndex.setProg cl cr s (Gen.fresh i.ulid).1)).andThen
        (fun _ => done (Gen.fresh i.ulid).1)) { i with ulid := (Gen.fresh i.ulid).2 }).bind K) a x
      (.learn s :: l) := by
  obtain ⟨F, H, hF⟩ := setProg_shape (cl := cl) (cr := cr) tl tr s (Gen.fresh i.ulid).1
  have hrun : ∀ d, (SledIndex.setProg cl cr s (Gen.fresh i.ulid).1).run d = (F d, H d) := fun d => by rw [hF]; rfl
  rw [hF]
  intro d g hrely hinv hok
  have hset := fun hn => SledIndex.lawful hl hr tl tr d.names g.f s (i.ulid 0) hinv.names hn
    (hok.ulids _ (hS.ulids 0 (by omega))).names
  by_cases hn : g.f s = none
  · obtain ⟨i', h1, h2⟩ := hset hn
    have h1' : (F d.names, H d.names) = (i', Except.ok ()) := (hrun d.names).symm.trans h1
    obtain ⟨e1, e2⟩ := Prod.mk.inj h1'
    refine ⟨_, _, [.learn s], l, allowed_learn hinv hok (hS.ulids 0 (by omega)) hn (by rw [ha]; exact hc) (e1 ▸ h2), rfl, rfl, ?_⟩
    dsimp only [onIndex, Task.andThen, Prog.onNames, Prog.bind]
    rw [e2]
    dsimp only [Prog.bind, done]
    refine hk _ { a with ulids := fun v => a.ulids v ∧ v ≠ i.ulid 0 } _ _ ha hS.ulidDrawn ?_ ?_
    · exact hrely.grows.trans (ref_new hn (hok.ulids _ (hS.ulids 0 (by omega))).explicit)
    · simp [Got, Gen.fresh]
  · obtain ⟨e, he⟩ := setProg_fails tl tr hinv.names hn (Gen.fresh i.ulid).1
    rw [hrun] at he
    obtain ⟨e1, e2⟩ := Prod.mk.inj he
    refine ⟨a, g, [], _, ?_, rfl, rfl, ?_⟩
    · dsimp only
      rw [e1]
      exact allowed_same hinv hok
    · dsimp only [onIndex, Task.andThen, Prog.onNames, Prog.bind]
      rw [e2]
      dsimp only [Prog.bind, done]
      rcases hsure with hb | ho
      · exact acts_stop hs hb
      · exact absurd (hrely.own s (by rw [ha]; exact ho) hx) hn

theorem acts_create (hl : cl.RoundTrips) (hr : cr.RoundTrips) (tl : cl.Total) (tr : cr.Total) {e : Entity} (he : Rdf.In C e)
    {k n : Nat} {i : Ids} {a : Label} {x : RdfDb × Ghost NP EP} (ha : a.role = ρ) (hS : Supply (k + 1) n i a)
    (hc : ∀ s, e = .string s → ρ.creates s) (hsure : ∀ s, e = .string s → Sure known ρ b s)
    {K : Ids × Except Err Ulid → Prog RdfDb Unit} {l : List (RdfDeed E NP EP)} (hs : Stops K)
    (hk : ∀ i' a' x' u, a'.role = ρ → Supply k n i' a' → Grows C x.2.f x'.2.f → Got x'.2.f e u →
      Acts E cl cr c mN mE C known b (K (i', .ok u)) a' x' l) :
    Acts E cl cr c mN mE C known b ((lookupOrCreateEntity cl cr e i).bind K) a x ((names [e]).map .learn ++ l) := by
  cases e with
  | ulid u =>
    exact hk i a x u ha (hS.fewer (by omega) (by omega)) (.refl C) rfl
  | string s =>
    obtain ⟨ks, hks⟩ := Option.isSome_iff_exists.1 (tl s)
    have hlook : ∀ d : IndexDb, SledIndex.lookup cl cr .serialization d.leftToRight s =
      (SledIndex.impl cl cr).leftToRight d s := fun _ => rfl
    unfold lookupOrCreateEntity SledIndex.leftToRightProg
    simp only [hks]
    intro d g hrely hinv hok
    dsimp only [onIndex, Task.andThen, Prog.onNames, Prog.bind, id]
    rw [hlook, hinv.names.1 s]
    cases hn : g.f s with
    | some u =>
      refine ⟨a, g, [.learn s], l, allowed_same hinv hok, rfl, ?_, ?_⟩
      · exact (learn_known (fun m hm => by
          simp only [List.mem_singleton, Entity.string.injEq] at hm
          rw [hm, hinv.agree.known, hn]; rfl)).symm
      · exact hk i a _ u ha (hS.fewer (by omega) (by omega)) hrely.grows hn
    | none =>
      refine ⟨a, g, [], _, allowed_same hinv hok, rfl, rfl, ?_⟩
      dsimp only [Prog.bind]
      refine acts_set hl hr tl tr ha hS (hc s rfl) ?_ hn hs ?_
      · rcases hsure s rfl with h | h | h
        · exact .inl h
        · exact .inr h
        · have := hinv.known s h
          rw [hn] at this; cases this
      · exact fun i' a' x' u h1 h2 h3 h4 => hk i' a' x' u h1 h2 (hrely.grows.trans h3) h4

theorem names_cons (e : Entity) (l : List Entity) : Spec.names (e :: l) = Spec.names [e] ++ Spec.names l := by
  cases e <;> rfl

/-- the ids of the three entities -/
def GotT (f : String → Option Ulid) (te : Triple Entity) (tu : Triple Ulid) : Prop :=
  Got f te.sub tu.sub ∧ Got f te.pred tu.pred ∧ Got f te.obj tu.obj

theorem GotT.mono {f f' : String → Option Ulid} (h : Grows C f f') {te : Triple Entity} {tu : Triple Ulid}
    (hg : GotT f te tu) : GotT f' te tu := ⟨hg.1.mono h, hg.2.1.mono h, hg.2.2.mono h⟩

theorem GotT.ref {s : RdfDb} {g : Ghost NP EP} (hi : Sound cl cr c C known s g) {te : Triple Entity} (ht : Rdf.InT C te)
    {tu : Triple Ulid} (hg : GotT g.f te tu) : RefT g.f te tu :=
  ⟨hg.1.ref hi ht.1, hg.2.1.ref hi ht.2.1, hg.2.2.ref hi ht.2.2⟩

theorem stops_andThen {γ : Type} {f : α → Task γ} {K : Ids × Except Err γ → Prog RdfDb Unit} (hs : Stops K) :
    Stops (fun r : Ids × Except Err α => (match r.2 with
      | .error e => (.ret (r.1, .error e) : Prog RdfDb (Ids × Except Err γ))
      | .ok a => f a r.1).bind K) := fun i e => hs i e

theorem acts_createTriple (hl : cl.RoundTrips) (hr : cr.RoundTrips) (tl : cl.Total) (tr : cr.Total) {t : Triple Entity}
    (ht : Rdf.InT C t) {k n : Nat} {i : Ids} {a : Label} {x : RdfDb × Ghost NP EP} (ha : a.role = ρ)
    (hS : Supply (k + 3) n i a) (hc : ∀ s, .string s ∈ RdfState.parts t → ρ.creates s)
    (hsure : ∀ s, .string s ∈ RdfState.parts t → Sure known ρ b s)
    {K : Ids × Except Err (Triple Ulid) → Prog RdfDb Unit} {l : List (RdfDeed E NP EP)} (hs : Stops K)
    (hk : ∀ i' a' x' u, a'.role = ρ → Supply k n i' a' → GotT x'.2.f t u →
      Acts E cl cr c mN mE C known b (K (i', .ok u)) a' x' l) :
    Acts E cl cr c mN mE C known b ((tryMap (lookupOrCreateEntity cl cr) t i).bind K) a x
      ((names (RdfState.parts t)).map .learn ++ l) := by
  have e1 : names (RdfState.parts t) = names [t.sub] ++ (names [t.pred] ++ (names [t.obj] ++ [])) := by
    unfold RdfState.parts
    rw [names_cons, names_cons t.pred, List.append_nil]
  rw [e1]
  simp only [List.map_append, List.append_assoc, List.map_nil, List.nil_append]
  unfold tryMap Task.andThen
  rw [Prog.bind_assoc]
  have mem : ∀ e ∈ RdfState.parts t, (∀ s, e = .string s → ρ.creates s) ∧ ∀ s, e = .string s → Sure known ρ b s :=
    fun e he => ⟨fun s hs => hc s (hs ▸ he), fun s hs => hsure s (hs ▸ he)⟩
  obtain ⟨m1, n1⟩ := mem t.sub (by simp [RdfState.parts])
  obtain ⟨m2, n2⟩ := mem t.pred (by simp [RdfState.parts])
  obtain ⟨m3, n3⟩ := mem t.obj (by simp [RdfState.parts])
  refine acts_create hl hr tl tr ht.1 ha hS m1 n1 (fun i e => hs i e) ?_
  intro i1 a1 x1 u1 r1 S1 _ h1
  dsimp only
  rw [Prog.bind_assoc]
  refine acts_create hl hr tl tr ht.2.1 r1 S1 m2 n2 (fun i e => hs i e) ?_
  intro i2 a2 x2 u2 r2 S2 g2 h2
  dsimp only
  rw [Prog.bind_assoc]
  refine acts_create hl hr tl tr ht.2.2 r2 S2 m3 n3 (fun i e => hs i e) ?_
  intro i3 a3 x3 u3 r3 S3 g3 h3
  exact hk i3 a3 x3 ⟨u1, u2, u3⟩ r3 S3 ⟨h1.mono (g2.trans g3), h2.mono g3, h3⟩

/-! ## the graph -/

theorem known_of_ref {s : RdfDb} {g : Ghost NP EP} (hi : Sound cl cr c C known s g) {m : String} {u : Ulid}
    (h : Ref g.f (.string m) u) : g.x.known m = true := by
  rw [hi.agree.known]
  cases h with
  | name h => rw [h]; rfl

theorem learn_one {s : RdfDb} {g : Ghost NP EP} (hi : Sound cl cr c C known s g) {e : Entity} {u : Ulid} (hr : Ref g.f e u) :
    g.x.learn [e] = g.x := learn_known (fun m hm => by
  rw [List.mem_singleton] at hm
  exact known_of_ref hi (hm ▸ hr))

theorem learn_parts {s : RdfDb} {g : Ghost NP EP} (hi : Sound cl cr c C known s g) {t : Triple Entity} {u : Triple Ulid}
    (hr : RefT g.f t u) : g.x.learn (RdfState.parts t) = g.x := learn_known (fun m hm => by
  simp only [RdfState.parts, List.mem_cons, List.not_mem_nil, or_false] at hm
  rcases hm with hm | hm | hm
  · exact known_of_ref hi (hm ▸ hr.1)
  · exact known_of_ref hi (hm ▸ hr.2.1)
  · exact known_of_ref hi (hm ▸ hr.2.2))

/-- a node is stored -/
theorem allowed_node {a : Label} {s : RdfDb} {g : Ghost NP EP} (hi : Sound cl cr c C known s g) (ho : Fit c C a g)
    {e : Entity} {u : Ulid} (he : Rdf.In C e) (hr : Ref g.f e u) {p : NP} {v : Bytes} (hv : c.n.de v = some p) :
    (RR).Allowed a s g { s with data := { s.data with nodeProps := s.data.nodeProps.insert (toBeBytes u).1 v } }
      { a with recs := fun v => a.recs v ∧ ¬ False }
      { g with d := { s.data with nodeProps := s.data.nodeProps.insert (toBeBytes u).1 v },
               x := { g.x with graph := g.x.graph.insertNode e p } } := by
  have hinv := hi.inv
  rw [hi.data] at hinv
  obtain ⟨h1, h2⟩ := Db.insNode_inv hinv (n := u) hv
  have hag := hi.agree
  have hinj : Inj g.f := hi.names.inj
  refine allowed_data hi ho (fun _ => False) h1 ?_ ?_ ?_ ?_ ?_
  · rw [h2, ← hi.data]
    exact hag.setNode hinj hr (some p)
  · intro w hw1 hw2 hn
    rw [h2, ← hi.data]
    simp only [Graph.insertNode, In.ne he hr hw1 hw2, if_false]
    exact hn
  · intro w hw1 hw2 t ht hn
    rw [h2, ← hi.data]
    exact hn
  · intro t v ht
    refine .inl ⟨t, ?_⟩
    rw [hi.data]
    exact ht
  · intro te _ _ tu _ hn
    rw [hi.data] at hn
    exact hn

/-- an edge is stored -/
theorem allowed_edge {a : Label} {s : RdfDb} {g : Ghost NP EP} (hi : Sound cl cr c C known s g) (ho : Fit c C a g)
    {e : Triple Entity} {u : Triple Ulid} (he : Rdf.InT C e) (hr : RefT g.f e u) (hw : a.role.writes e) {p : EP} {j : Ulid}
    (hj : a.recs j) {m : Tree}
    (h1 : ({ s.data with edgeProps := m }.setEdge u (toBeBytes j).1).Inv Ulid c)
    (h2 : ({ s.data with edgeProps := m }.setEdge u (toBeBytes j).1).graph c = (s.data.graph c).insertEdge u p) :
    (RR).Allowed a s g { s with data := { s.data with edgeProps := m }.setEdge u (toBeBytes j).1 }
      { a with recs := fun v => a.recs v ∧ ¬ v = j }
      { g with d := { s.data with edgeProps := m }.setEdge u (toBeBytes j).1,
               x := { g.x with graph := g.x.graph.insertEdge e p } } := by
  have hag := hi.agree
  have hinj : Inj g.f := hi.names.inj
  refine allowed_data hi ho (fun v => v = j) h1 ?_ ?_ ?_ ?_ ?_
  · rw [h2, ← hi.data]
    exact hag.setEdge hinj hr (some p)
  · intro w hw1 hw2 hn
    rw [h2, ← hi.data]
    exact hn
  · intro w hw1 hw2 t ht hn
    rw [h2, ← hi.data]
    have : t ≠ u := by
      rintro rfl
      rcases ht with ht | ht | ht
      · exact In.ne he.1 hr.1 hw1 hw2 ht.symm
      · exact In.ne he.2.1 hr.2.1 hw1 hw2 ht.symm
      · exact In.ne he.2.2 hr.2.2 hw1 hw2 ht.symm
    simp only [Graph.insertEdge, this, if_false]
    exact hn
  · intro t v ht
    rw [Db.setEdge_idIn, Db.withProps_idIn] at ht
    split at ht
    · refine .inr ?_
      have e1 : toBeBytes j = toBeBytes v := Subtype.ext (Option.some.inj ht)
      have e2 : v = j := by
        have h1 := LawfulId.try_toBe (Id := Ulid) j
        rw [e1, LawfulId.try_toBe] at h1
        exact Option.some.inj h1
      subst e2
      exact ⟨hj, rfl⟩
    · exact .inl ⟨t, by rw [hi.data]; exact ht⟩
  · intro te hte hI tu hrt hn
    rw [Db.setEdge_idIn, Db.withProps_idIn, if_neg]
    · rw [hi.data] at hn; exact hn
    · rintro rfl
      exact hte (((RefT.eq_iff hinj hrt hr).2 rfl) ▸ hw)

/-- a transaction on the store -/
theorem graph_tx (f : Db → Except SErr Db) (i : Ids) (K : Ids × Except Err Unit → Prog RdfDb Unit) :
    (onGraph (transaction f) i).bind K = .call (fun s => { s with data := Sled.commit f s.data })
      (fun s => K (i, match Sled.txResult f s.data with | .ok a => .ok a | .error e => .error (.graph e))) := rfl

theorem acts_insertNode (hc : c.RoundTrip) (hb : b = true ∨ c.Total) {e : Entity} (he : Rdf.In C e) {u : Ulid} {p : NP}
    {k n : Nat} {i : Ids} {a : Label} {x : RdfDb × Ghost NP EP} (ha : a.role = ρ) (hS : Supply k n i a) (hx : Got x.2.f e u)
    {K : Ids × Except Err Unit → Prog RdfDb Unit} {l : List (RdfDeed E NP EP)} (hs : Stops K)
    (hk : ∀ i' a' x', a'.role = ρ → Supply k n i' a' → Acts E cl cr c mN mE C known b (K (i', .ok ())) a' x' l) :
    Acts E cl cr c mN mE C known b ((onGraph (Sled.insertNode c u p) i).bind K) a x (.op (.insertNode e p) :: l) := by
  unfold Sled.insertNode
  cases hp : c.n.ser p with
  | none =>
    rcases hb with hb | hb
    · exact acts_stop hs hb
    · have := hb.1 p; rw [hp] at this; cases this
  | some v =>
    intro s g hrely hinv hok
    have hr := (hx.mono hrely.grows).ref hinv he
    refine ⟨_, _, [.op (.insertNode e p)], l, allowed_node hinv hok he hr (hc.1 _ _ hp), rfl, ?_,
      hk i _ _ ha ⟨hS.ulid, hS.gen, hS.ulids, fun j hj => ⟨hS.recs j hj, not_false⟩⟩⟩
    have ok : c.okN p = true := by unfold Codecs.okN; rw [hp]; rfl
    simp only [List.foldl_cons, List.foldl_nil, RdfState.deed, RdfState.step, storeNode, ok, if_true, RdfState.change,
      learn_one hinv hr]

theorem acts_mergeNode (hc : c.RoundTrip) (hb : b = true ∨ c.Total) {e : Entity} (he : Rdf.In C e) {u : Ulid} {p : NP}
    {k n : Nat} {i : Ids} {a : Label} {x : RdfDb × Ghost NP EP} (ha : a.role = ρ) (hS : Supply k n i a) (hx : Got x.2.f e u)
    {K : Ids × Except Err Unit → Prog RdfDb Unit} {l : List (RdfDeed E NP EP)} (hs : Stops K)
    (hk : ∀ i' a' x', a'.role = ρ → Supply k n i' a' → Acts E cl cr c mN mE C known b (K (i', .ok ())) a' x' l) :
    Acts E cl cr c mN mE C known b ((onGraph (Sled.mergeNode c mN u p) i).bind K) a x (.op (.mergeNode e p) :: l) := by
  have hrun := fun d (h : Db.Inv Ulid c d) => Sled.mergeNode_run h mN u p
  obtain ⟨f, hf⟩ : ∃ f, Sled.mergeNode c mN u p = transaction f := ⟨_, rfl⟩
  rw [hf] at hrun ⊢
  rw [graph_tx]
  intro s g hrely hinv hok
  have hr := (hx.mono hrely.grows).ref hinv he
  have hd := hinv.inv
  rw [hinv.data] at hd
  have hg : g.x.graph.nodes e = (s.data.graph c).nodes u := by rw [← hinv.data]; exact hinv.agree.nodes e u hr
  rcases hrun s.data hd with ⟨h1, h2⟩ | ⟨v, h1, h2⟩
  · have e1 : Sled.commit f s.data = s.data := congrArg Prod.fst h2
    have e2 : Sled.txResult f s.data = .error .serialization := congrArg Prod.snd h2
    refine ⟨a, g, [.op (.mergeNode e p)], l, ?_, rfl, ?_, ?_⟩
    · dsimp only; rw [e1]; exact allowed_same hinv hok
    · simp only [List.foldl_cons, List.foldl_nil, RdfState.deed, RdfState.step, storeMergedNode, storeNode, hg, h1,
        Bool.false_eq_true, if_false, RdfState.change, learn_one hinv hr]
    · dsimp only
      rw [e2]
      rcases hb with hb | hb
      · exact acts_stop hs hb
      · rw [Codecs.okN, hb.1] at h1; cases h1
  · have e1 : Sled.commit f s.data = _ := congrArg Prod.fst h2
    have e2 : Sled.txResult f s.data = .ok () := congrArg Prod.snd h2
    dsimp only
    rw [e1, e2]
    refine ⟨_, _, [.op (.mergeNode e p)], l, allowed_node hinv hok he hr (hc.1 _ _ h1), rfl, ?_,
      hk i _ _ ha ⟨hS.ulid, hS.gen, hS.ulids, fun j hj => ⟨hS.recs j hj, not_false⟩⟩⟩
    have ok : c.okN (merged mN ((s.data.graph c).nodes u) p) = true := by unfold Codecs.okN; rw [h1]; rfl
    simp only [List.foldl_cons, List.foldl_nil, RdfState.deed, RdfState.step, storeMergedNode, storeNode, hg, ok, if_true,
      RdfState.change, learn_one hinv hr]

theorem acts_insertEdge (hc : c.RoundTrip) (hb : b = true ∨ c.Total) {e : Triple Entity} (he : Rdf.InT C e) {u : Triple Ulid}
    {p : EP} {k n : Nat} {i : Ids} {a : Label} {x : RdfDb × Ghost NP EP} (ha : a.role = ρ) (hS : Supply k (n + 1) i a)
    (hx : GotT x.2.f e u) (hw : ρ.writes e)
    {K : Ids × Except Err Unit → Prog RdfDb Unit} {l : List (RdfDeed E NP EP)} (hs : Stops K)
    (hk : ∀ i' a' x', a'.role = ρ → Supply k n i' a' → Acts E cl cr c mN mE C known b (K (i', .ok ())) a' x' l) :
    Acts E cl cr c mN mE C known b
      ((onGraph (Sled.insertEdge c (Gen.fresh i.gen).1 u p) { i with gen := (Gen.fresh i.gen).2 }).bind K) a x
      (.op (.insertEdge e p) :: l) := by
  unfold Sled.insertEdge
  cases hp : c.e.ser p with
  | none =>
    rcases hb with hb | hb
    · exact acts_stop hs hb
    · have := hb.2 p; rw [hp] at this; cases this
  | some v =>
    intro s g hrely hinv hok
    have hr := (hx.mono hrely.grows).ref hinv he
    have hd := hinv.inv
    rw [hinv.data] at hd
    have hj := hS.recs 0 (by omega)
    obtain ⟨h1, h2⟩ := Sled.insertEdge_inv (i := i.gen 0) (t := u) hd
      (fun t ht => absurd ht (by have := hok.recs _ hj t; rw [hinv.data] at this; exact this)) (hc.2 _ _ hp)
    refine ⟨_, _, [.op (.insertEdge e p)], l, allowed_edge hinv hok he hr (ha ▸ hw) hj h1 h2, rfl, ?_,
      hk _ _ _ ha hS.genDrawn⟩
    have ok : c.okE p = true := by unfold Codecs.okE; rw [hp]; rfl
    simp only [List.foldl_cons, List.foldl_nil, RdfState.deed, RdfState.step, storeEdge, ok, if_true, RdfState.change,
      learn_parts hinv hr]

theorem acts_mergeEdge (hc : c.RoundTrip) (hb : b = true ∨ c.Total) {e : Triple Entity} (he : Rdf.InT C e) {u : Triple Ulid}
    {p : EP} {k n : Nat} {i : Ids} {a : Label} {x : RdfDb × Ghost NP EP} (ha : a.role = ρ) (hS : Supply k (n + 1) i a)
    (hx : GotT x.2.f e u) (hw : ρ.writes e)
    {K : Ids × Except Err Unit → Prog RdfDb Unit} {l : List (RdfDeed E NP EP)} (hs : Stops K)
    (hk : ∀ i' a' x', a'.role = ρ → Supply k n i' a' → Acts E cl cr c mN mE C known b (K (i', .ok ())) a' x' l) :
    Acts E cl cr c mN mE C known b
      ((onGraph (Sled.mergeEdge c mE (Gen.fresh i.gen).1 u p) { i with gen := (Gen.fresh i.gen).2 }).bind K) a x
      (.op (.mergeEdge e p) :: l) := by
  have hrun := fun d (h : Db.Inv Ulid c d) => Sled.mergeEdge_run h mE (Gen.fresh i.gen).1 u p
  obtain ⟨f, hf⟩ : ∃ f, Sled.mergeEdge c mE (Gen.fresh i.gen).1 u p = transaction f := ⟨_, rfl⟩
  rw [hf] at hrun ⊢
  rw [graph_tx]
  intro s g hrely hinv hok
  have hr := (hx.mono hrely.grows).ref hinv he
  have hd := hinv.inv
  rw [hinv.data] at hd
  have hj := hS.recs 0 (by omega)
  have hg : g.x.graph.edges e = (s.data.graph c).edges u := by
    rw [← hinv.data]; exact hinv.agree.edges e u hr.1 hr.2.1 hr.2.2
  rcases hrun s.data hd with ⟨h1, h2⟩ | ⟨v, h1, h2⟩
  · have e1 : Sled.commit f s.data = s.data := congrArg Prod.fst h2
    have e2 : Sled.txResult f s.data = .error .serialization := congrArg Prod.snd h2
    refine ⟨a, g, [.op (.mergeEdge e p)], l, ?_, rfl, ?_, ?_⟩
    · dsimp only; rw [e1]; exact allowed_same hinv hok
    · simp only [List.foldl_cons, List.foldl_nil, RdfState.deed, RdfState.step, storeMergedEdge, storeEdge, hg, h1,
        Bool.false_eq_true, if_false, RdfState.change, learn_parts hinv hr]
    · dsimp only
      rw [e2]
      rcases hb with hb | hb
      · exact acts_stop hs hb
      · rw [Codecs.okE, hb.2] at h1; cases h1
  · have e1 : Sled.commit f s.data = _ := congrArg Prod.fst h2
    have e2 : Sled.txResult f s.data = .ok () := congrArg Prod.snd h2
    dsimp only
    rw [e1, e2]
    obtain ⟨h3, h4⟩ := Sled.mergeEdge_inv (i := i.gen 0) (t := u) hd
      (fun t ht => absurd ht (by have := hok.recs _ hj t; rw [hinv.data] at this; exact this)) (hc.2 _ _ h1)
    refine ⟨_, _, [.op (.mergeEdge e p)], l, allowed_edge hinv hok he hr (ha ▸ hw) hj h3 h4, rfl, ?_,
      hk _ _ _ ha hS.genDrawn⟩
    have ok : c.okE (merged mE ((s.data.graph c).edges u) p) = true := by unfold Codecs.okE; rw [h1]; rfl
    simp only [List.foldl_cons, List.foldl_nil, RdfState.deed, RdfState.step, storeMergedEdge, storeEdge, hg, ok, if_true,
      RdfState.change, learn_parts hinv hr]

/-! ## removing edges -/

theorem unknown_isSome {x : RdfState NP EP} {es : List Entity} {s : String} (hm : .string s ∈ es) (hs : x.known s = false) :
    (x.unknown es).isSome = true := by
  induction es with
  | nil => cases hm
  | cons e es ih =>
    rcases List.mem_cons.1 hm with rfl | hm'
    · simp [RdfState.unknown, hs]
    · cases e with
      | ulid v => exact ih hm'
      | string m =>
        unfold RdfState.unknown
        split
        · exact ih hm'
        · rfl

theorem unknown_none {x : RdfState NP EP} {es : List Entity} (h : ∀ s, .string s ∈ es → x.known s = true) :
    x.unknown es = none := by
  induction es with
  | nil => rfl
  | cons e es ih =>
    cases e with
    | ulid v => exact ih (fun s hs => h s (List.mem_cons_of_mem _ hs))
    | string m =>
      unfold RdfState.unknown
      rw [if_pos (h m List.mem_cons_self)]
      exact ih (fun s hs => h s (List.mem_cons_of_mem _ hs))

theorem acts_look (tl : cl.Total) {t : Triple Entity} {e : Entity} (he : e ∈ RdfState.parts t) {i : Ids} {a : Label}
    {x : RdfDb × Ghost NP EP} {K : Ids × Except Err Ulid → Prog RdfDb Unit} (hs : Stops K)
    (hk : ∀ x' u, Grows C x.2.f x'.2.f → Got x'.2.f e u →
      Acts E cl cr c mN mE C known b (K (i, .ok u)) a x' [.op (.removeEdge t)]) :
    Acts E cl cr c mN mE C known b ((lookupEntity cl cr e i).bind K) a x [.op (.removeEdge t)] := by
  cases e with
  | ulid u => exact hk x u (.refl C) rfl
  | string s =>
    obtain ⟨ks, hks⟩ := Option.isSome_iff_exists.1 (tl s)
    have hlook : ∀ d : IndexDb, SledIndex.lookup cl cr .serialization d.leftToRight s =
      (SledIndex.impl cl cr).leftToRight d s := fun _ => rfl
    unfold lookupEntity SledIndex.leftToRightProg
    simp only [hks]
    intro d g hrely hinv hok
    dsimp only [onIndex, Task.andThen, Prog.onNames, Prog.bind, id]
    rw [hlook, hinv.names.1 s]
    cases hn : g.f s with
    | some u =>
      exact ⟨a, g, [], _, allowed_same hinv hok, rfl, rfl, hk _ u hrely.grows hn⟩
    | none =>
      refine ⟨a, g, [.op (.removeEdge t)], [], allowed_same hinv hok, rfl, ?_, ?_⟩
      · have h1 : g.x.known s = false := by rw [hinv.agree.known, hn]; rfl
        obtain ⟨m, hm⟩ := Option.isSome_iff_exists.1 (unknown_isSome he h1)
        simp only [List.foldl_cons, List.foldl_nil, RdfState.deed, RdfState.step, RdfState.remove, hm]
      · dsimp only [Prog.bind]
        rw [hs]
        exact .inr rfl

/-- an edge is removed -/
theorem allowed_removed {a : Label} {s : RdfDb} {g : Ghost NP EP} (hi : Sound cl cr c C known s g) (ho : Fit c C a g)
    {e : Triple Entity} {u : Triple Ulid} (hr : RefT g.f e u) :
    (RR).Allowed a s g { s with data := Sled.removed s.data u } { a with recs := fun v => a.recs v ∧ ¬ False }
      { g with d := Sled.removed s.data u, x := { g.x with graph := g.x.graph.removeEdge e } } := by
  have hag := hi.agree
  have hinj : Inj g.f := hi.names.inj
  have hinv := hi.inv
  rw [hi.data] at hinv
  obtain ⟨h1, h2⟩ := Sled.removed_inv hinv u
  have hid : ∀ t : Triple Ulid, (Sled.removed s.data u).idIn .SPO t = if t = u then none else s.data.idIn .SPO t := fun t => by
    rw [Sled.removed, Db.unsetEdge_idIn, Db.withProps_idIn]
  refine allowed_data hi ho (fun _ => False) h1 ?_ ?_ ?_ ?_ ?_
  · rw [h2, ← hi.data]
    exact hag.setEdge hinj hr none
  · intro w _ _ hn
    rw [h2, ← hi.data]
    exact hn
  · intro w _ _ t _ hn
    rw [h2, ← hi.data]
    show (if t = u then none else _) = none
    rw [hn, ite_self]
  · intro t v ht
    rw [hid] at ht
    split at ht
    · cases ht
    · exact .inl ⟨t, by rw [hi.data]; exact ht⟩
  · intro te _ _ tu _ hn
    rw [hi.data] at hn
    rw [hid, hn, ite_self]

/-- the calls of `remove_edge` -/
theorem acts_removed {t : Triple Entity} (ht : Rdf.InT C t) {u : Triple Ulid} {i : Ids} {a : Label} {x : RdfDb × Ghost NP EP}
    (hx : GotT x.2.f t u) (hw : a.role.removes t) {K : Ids × Except Err Unit → Prog RdfDb Unit}
    (hk : K (i, .ok ()) = .ret ()) :
    Acts E cl cr c mN mE C known b ((onGraph (Sled.removeEdge u) i).bind K) a x [.op (.removeEdge t)] := by
  intro s g hrely hinv hok
  have hr := (hx.mono hrely.grows).ref hinv ht
  refine ⟨_, _, [.op (.removeEdge t)], [], allowed_removed hinv hok hr, rfl, ?_, ?_⟩
  · have : g.x.unknown (RdfState.parts t) = none := unknown_none (fun m hm => by
      have e := learn_parts hinv hr
      have e2 : (g.x.learn (RdfState.parts t)).known m = true := by simp [RdfState.learn, hm]
      rw [e] at e2; exact e2)
    simp only [List.foldl_cons, List.foldl_nil, RdfState.deed, RdfState.step, RdfState.remove, this]
  have hn0 : (Sled.removed s.data u).idIn .SPO u = none := by
    rw [Sled.removed, Db.unsetEdge_idIn, if_pos rfl]
  have hw1 : ({ a with recs := fun v => a.recs v ∧ ¬ False } : Label).role.removes t := hw
  generalize ({ a with recs := fun v => a.recs v ∧ ¬ False } : Label) = a1 at hw1
  intro s1 g1 hrely1 hinv1 hok1
  have hr1 := hrely1.grows.triple ht hr
  have n1 := hrely1.removes t hw1 ht u hr hn0
  have m1 : ∀ o, s1.data.idIn o u = none := fun o => by
    have h := hinv1.inv.toAgree.same o u
    rw [hinv1.data] at h n1
    rw [h]; exact n1
  have f1 : ({ s1.data with spo := s1.data.spo.erase (encodeSpo u).1 } : Db) = s1.data := by
    rw [BMap.erase_of_none s1.data.spo (k := (encodeSpo u).1) (m1 .SPO)]
  refine ⟨a1, g1, [], [], ?_, rfl, rfl, ?_⟩
  · dsimp only; rw [f1]; exact allowed_same hinv1 hok1
  dsimp only
  rw [f1]
  intro s2 g2 hrely2 hinv2 hok2
  have hr2 := hrely2.grows.triple ht hr1
  have n2 := hrely2.removes t hw1 ht u hr1 n1
  have m2 : ∀ o, s2.data.idIn o u = none := fun o => by
    have h := hinv2.inv.toAgree.same o u
    rw [hinv2.data] at h n2
    rw [h]; exact n2
  have f2 : ({ s2.data with pos := s2.data.pos.erase (encodePos u).1 } : Db) = s2.data := by
    rw [BMap.erase_of_none s2.data.pos (k := (encodePos u).1) (m2 .POS)]
  refine ⟨a1, g2, [], [], ?_, rfl, rfl, ?_⟩
  · dsimp only; rw [f2]; exact allowed_same hinv2 hok2
  dsimp only
  rw [f2]
  intro s3 g3 hrely3 hinv3 hok3
  have n3 := hrely3.removes t hw1 ht u hr2 n2
  have m3 : ∀ o, s3.data.idIn o u = none := fun o => by
    have h := hinv3.inv.toAgree.same o u
    rw [hinv3.data] at h n3
    rw [h]; exact n3
  have f3 : ({ s3.data with osp := s3.data.osp.erase (encodeOsp u).1 } : Db) = s3.data := by
    rw [BMap.erase_of_none s3.data.osp (k := (encodeOsp u).1) (m3 .OSP)]
  refine ⟨a1, g3, [], [], ?_, rfl, rfl, ?_⟩
  · dsimp only; rw [f3]; exact allowed_same hinv3 hok3
  have e : s1.data.spo.get (encodeSpo u).1 = none := m1 .SPO
  simp only [e]
  dsimp only [Prog.onData, Prog.bind]
  rw [hk]
  exact .inr rfl

theorem acts_removeEdge (tl : cl.Total) {t : Triple Entity} (ht : Rdf.InT C t) {i : Ids} {a : Label} {x : RdfDb × Ghost NP EP}
    (hw : a.role.removes t) {K : Ids × Except Err Unit → Prog RdfDb Unit} (hK : ∀ r, K r = .ret ()) :
    Acts E cl cr c mN mE C known b ((removeEdge cl cr t i).bind K) a x [.op (.removeEdge t)] := by
  have hs : Stops K := fun i e => hK _
  unfold removeEdge Task.andThen
  rw [Prog.bind_assoc]
  unfold tryMap Task.andThen
  rw [Prog.bind_assoc]
  refine acts_look tl (by simp [RdfState.parts]) (fun i e => hs i e) ?_
  intro x1 u1 _ h1
  dsimp only
  rw [Prog.bind_assoc]
  refine acts_look tl (by simp [RdfState.parts]) (fun i e => hs i e) ?_
  intro x2 u2 g2 h2
  dsimp only
  rw [Prog.bind_assoc]
  refine acts_look tl (by simp [RdfState.parts]) (fun i e => hs i e) ?_
  intro x3 u3 g3 h3
  exact acts_removed (u := ⟨u1, u2, u3⟩) ht ⟨h1.mono (g2.trans g3), h2.mono g3, h3⟩ hw (hK _)

/-! ## whole calls -/

section
variable (hl : cl.RoundTrips) (hr : cr.RoundTrips) (tl : cl.Total) (tr : cr.Total) (hc : c.RoundTrip) (hb : b = true ∨ c.Total)

/-- The task does `D` for the cost of `ck` names and `cn` records, whatever follows. -/
def Performs (E : Type) (cl : Codec String) (cr : Codec Ulid) (c : Codecs NP EP) (mN : NP → NP → NP) (mE : EP → EP → EP)
    (C : List Ulid) (known : String → Bool) (b : Bool) (ρ : Role) (m : Task Unit) (ck cn : Nat)
    (D : List (RdfDeed E NP EP)) : Prop :=
  ∀ {k n : Nat} {i : Ids} {a : Label} {x : RdfDb × Ghost NP EP}, a.role = ρ → Supply (k + ck) (n + cn) i a →
    ∀ {K : Ids × Except Err Unit → Prog RdfDb Unit} {l : List (RdfDeed E NP EP)}, Stops K →
    (∀ i' a' x', a'.role = ρ → Supply k n i' a' → Acts E cl cr c mN mE C known b (K (i', .ok ())) a' x' l) →
    Acts E cl cr c mN mE C known b ((m i).bind K) a x (D ++ l)

/-- the role allows to create the names -/
def CanCreate (known : String → Bool) (b : Bool) (ρ : Role) (es : List Entity) : Prop :=
  ∀ s, .string s ∈ es → ρ.creates s ∧ Sure known ρ b s

include hl hr tl tr hc hb

theorem performs_insertNode {e : Entity} (he : Rdf.In C e) (hρ : CanCreate known b ρ [e]) (p : NP) :
    Performs E cl cr c mN mE C known b ρ (insertNode cl cr c e p) 1 0 (RdfDeed.after [e] (.insertNode e p)) := by
  intro k n i a x ha hS K l hs hk
  unfold insertNode Task.andThen RdfDeed.after
  rw [Prog.bind_assoc, List.append_assoc]
  refine acts_create hl hr tl tr he ha hS (fun s h => (hρ s (by simp [h])).1) (fun s h => (hρ s (by simp [h])).2)
    (fun i e => hs i e) ?_
  intro i' a' x' u ha' hS' _ hg
  exact acts_insertNode hc hb he ha' hS' hg hs hk

theorem performs_mergeNode {e : Entity} (he : Rdf.In C e) (hρ : CanCreate known b ρ [e]) (p : NP) :
    Performs E cl cr c mN mE C known b ρ (mergeNode cl cr c mN e p) 1 0 (RdfDeed.after [e] (.mergeNode e p)) := by
  intro k n i a x ha hS K l hs hk
  unfold mergeNode Task.andThen RdfDeed.after
  rw [Prog.bind_assoc, List.append_assoc]
  refine acts_create hl hr tl tr he ha hS (fun s h => (hρ s (by simp [h])).1) (fun s h => (hρ s (by simp [h])).2)
    (fun i e => hs i e) ?_
  intro i' a' x' u ha' hS' _ hg
  exact acts_mergeNode hc hb he ha' hS' hg hs hk

theorem performs_insertEdge {t : Triple Entity} (he : Rdf.InT C t) (hρ : CanCreate known b ρ (RdfState.parts t))
    (hw : ρ.writes t) (p : EP) :
    Performs E cl cr c mN mE C known b ρ (insertEdge cl cr c t p) 3 1
      (RdfDeed.after (RdfState.parts t) (.insertEdge t p)) := by
  intro k n i a x ha hS K l hs hk
  unfold insertEdge Task.andThen RdfDeed.after
  rw [Prog.bind_assoc, List.append_assoc]
  refine acts_createTriple hl hr tl tr he ha hS (fun s h => (hρ s h).1) (fun s h => (hρ s h).2) (fun i e => hs i e) ?_
  intro i' a' x' u ha' hS' hg
  exact acts_insertEdge hc hb he ha' hS' hg hw hs hk

theorem performs_mergeEdge {t : Triple Entity} (he : Rdf.InT C t) (hρ : CanCreate known b ρ (RdfState.parts t))
    (hw : ρ.writes t) (p : EP) :
    Performs E cl cr c mN mE C known b ρ (mergeEdge cl cr c mE t p) 3 1
      (RdfDeed.after (RdfState.parts t) (.mergeEdge t p)) := by
  intro k n i a x ha hS K l hs hk
  unfold mergeEdge Task.andThen RdfDeed.after
  rw [Prog.bind_assoc, List.append_assoc]
  refine acts_createTriple hl hr tl tr he ha hS (fun s h => (hρ s h).1) (fun s h => (hρ s h).2) (fun i e => hs i e) ?_
  intro i' a' x' u ha' hS' hg
  exact acts_mergeEdge hc hb he ha' hS' hg hw hs hk

omit hl hr tl tr hc hb

theorem acts_ret {u : Unit} {a : Label} {x : RdfDb × Ghost NP EP} : Acts E cl cr c mN mE C known b (.ret u) a x [] := .inr rfl

theorem acts_single {m : Task Unit} {ck cn : Nat} {D : List (RdfDeed E NP EP)}
    (h : Performs E cl cr c mN mE C known b ρ m ck cn D) {i : Ids} {a : Label} {x : RdfDb × Ghost NP EP} (ha : a.role = ρ)
    (hS : Supply ck cn i a) :
    Acts E cl cr c mN mE C known b ((single (E := E) m i).bind (fun _ => .ret ())) a x D := by
  unfold single
  rw [Prog.bind_assoc]
  have := h (k := 0) (n := 0) (x := x) ha (by simpa using hS) (K := fun _ => .ret ())
    (l := []) (fun i e => rfl) (fun i' a' x' _ _ => .inr rfl)
  rw [List.append_nil] at this
  exact this

theorem acts_absorb {β : Type} {f : β → Task Unit} {ck cn : Nat} {D : β → List (RdfDeed E NP EP)}
    {j : Ids → Prog RdfDb (Ids × Except (LR Err E) Unit)} {k n : Nat} {r : List (RdfDeed E NP EP)}
    (hj : ∀ i a x, a.role = ρ → Supply k n i a → Acts E cl cr c mN mE C known b ((j i).bind (fun _ => .ret ())) a x r)
    (l : List (Except E β)) (h : ∀ y, .ok y ∈ l → Performs E cl cr c mN mE C known b ρ (f y) ck cn (D y))
    {i : Ids} {a : Label} {x : RdfDb × Ghost NP EP} (ha : a.role = ρ) (hS : Supply (k + ck * l.length) (n + cn * l.length) i a) :
    Acts E cl cr c mN mE C known b ((absorb f j l i).bind (fun _ => .ret ())) a x
      ((oks l).flatMap D ++ if fails l then [] else r) := by
  induction l generalizing i a x with
  | nil => exact hj i a x ha (by simpa using hS)
  | cons y l ih =>
    cases y with
    | error e => exact .inr rfl
    | ok y =>
      simp only [absorb, oks, fails, List.flatMap_cons, List.append_assoc]
      rw [Prog.bind_assoc]
      refine h y List.mem_cons_self (k := k + ck * l.length) (n := n + cn * l.length) ha ?_ (fun i e => rfl) ?_
      · simpa [Nat.mul_add, Nat.add_assoc] using hS
      · intro i' a' x' ha' hS'
        exact ih (fun z hz => h z (List.mem_cons_of_mem _ hz)) ha' hS'

include hl hr tl tr hc hb

theorem acts_prog {y : Call E NP EP} (hy : y.Simple) (hC : ∀ v ∈ ulids y.op.entities, v ∈ C)
    (h1 : ∀ s, y.Creates s → ρ.creates s ∧ Sure known ρ b s) (h2 : ∀ t, y.Writes t → ρ.writes t)
    (h3 : ∀ t, y.Removes t → ρ.removes t) {a : Label} {x : RdfDb × Ghost NP EP} (ha : a.role = ρ)
    (hS : Supply y.op.creations y.op.draws y.ids a) :
    Acts E cl cr c mN mE C known b (y.prog cl cr c mN mE) a x y.op.deeds := by
  obtain ⟨op, ids⟩ := y
  cases op with
  | removeNode e => exact hy.elim
  | removeEdge t =>
    unfold Call.prog RdfSled.prog single
    dsimp only
    rw [Prog.bind_assoc]
    exact acts_removeEdge tl (Rdf.inT_of_ulids hC (by simp [Op.entities])) (ha ▸ h3 t rfl) (fun r => rfl)
  | insertNode e p =>
    exact acts_single (performs_insertNode hl hr tl tr hc hb (Rdf.in_of_ulids hC (by simp [Op.entities])) (fun s h => h1 s h) p) ha hS
  | mergeNode e p =>
    exact acts_single (performs_mergeNode hl hr tl tr hc hb (Rdf.in_of_ulids hC (by simp [Op.entities])) (fun s h => h1 s h) p) ha hS
  | insertEdge t p =>
    exact acts_single (performs_insertEdge hl hr tl tr hc hb (Rdf.inT_of_ulids hC (by simp [Op.entities])) (fun s h => h1 s h)
      (h2 t rfl) p) ha hS
  | mergeEdge t p =>
    exact acts_single (performs_mergeEdge hl hr tl tr hc hb (Rdf.inT_of_ulids hC (by simp [Op.entities])) (fun s h => h1 s h)
      (h2 t rfl) p) ha hS
  | extend src =>
    have hN : ∀ z, .ok z ∈ src.nodes → Performs E cl cr c mN mE C known b ρ (insertNode cl cr c z.1 z.2) 1 0
        (RdfDeed.after [z.1] (.insertNode z.1 z.2)) := fun z hz =>
      performs_insertNode hl hr tl tr hc hb (Rdf.in_of_ulids hC (List.mem_append_left _ (Rdf.mem_itemEntities hz (by simp))))
        (fun s h => h1 s (List.mem_append_left _ (Rdf.mem_itemEntities hz h))) z.2
    have hE : ∀ z, .ok z ∈ src.edges → Performs E cl cr c mN mE C known b ρ (insertEdge cl cr c z.1 z.2) 3 1
        (RdfDeed.after (RdfState.parts z.1) (.insertEdge z.1 z.2)) := fun z hz =>
      performs_insertEdge hl hr tl tr hc hb
        (Rdf.inT_of_ulids hC (fun e he => List.mem_append_right _ (Rdf.mem_itemEntities hz he)))
        (fun s h => h1 s (List.mem_append_right _ (Rdf.mem_itemEntities hz h))) (h2 z.1 ⟨z.2, hz⟩) z.2
    have key := acts_absorb (k := 3 * src.edges.length) (n := 1 * src.edges.length)
      (j := absorb (fun x => insertEdge cl cr c x.1 x.2) (fun i => .ret (i, .ok ())) src.edges)
      (r := (oks src.edges).flatMap (fun x => RdfDeed.after (RdfState.parts x.1) (.insertEdge x.1 x.2)) ++
        if fails src.edges then [] else [])
      (fun i a x ha hS => acts_absorb (k := 0) (n := 0) (r := []) (fun _ _ _ _ _ => acts_ret) src.edges hE ha
        (by simpa using hS))
      src.nodes hN (i := ids) (x := x) ha (by simpa [Op.creations, Op.draws, Nat.add_comm] using hS)
    simpa [Op.deeds, Call.prog, RdfSled.prog, extend] using key
  | merge src =>
    have hN : ∀ z, .ok z ∈ src.nodes → Performs E cl cr c mN mE C known b ρ (mergeNode cl cr c mN z.1 z.2) 1 0
        (RdfDeed.after [z.1] (.mergeNode z.1 z.2)) := fun z hz =>
      performs_mergeNode hl hr tl tr hc hb (Rdf.in_of_ulids hC (List.mem_append_left _ (Rdf.mem_itemEntities hz (by simp))))
        (fun s h => h1 s (List.mem_append_left _ (Rdf.mem_itemEntities hz h))) z.2
    have hE : ∀ z, .ok z ∈ src.edges → Performs E cl cr c mN mE C known b ρ (mergeEdge cl cr c mE z.1 z.2) 3 1
        (RdfDeed.after (RdfState.parts z.1) (.mergeEdge z.1 z.2)) := fun z hz =>
      performs_mergeEdge hl hr tl tr hc hb
        (Rdf.inT_of_ulids hC (fun e he => List.mem_append_right _ (Rdf.mem_itemEntities hz he)))
        (fun s h => h1 s (List.mem_append_right _ (Rdf.mem_itemEntities hz h))) (h2 z.1 ⟨z.2, hz⟩) z.2
    have key := acts_absorb (k := 3 * src.edges.length) (n := 1 * src.edges.length)
      (j := absorb (fun x => mergeEdge cl cr c mE x.1 x.2) (fun i => .ret (i, .ok ())) src.edges)
      (r := (oks src.edges).flatMap (fun x => RdfDeed.after (RdfState.parts x.1) (.mergeEdge x.1 x.2)) ++
        if fails src.edges then [] else [])
      (fun i a x ha hS => acts_absorb (k := 0) (n := 0) (r := []) (fun _ _ _ _ _ => acts_ret) src.edges hE ha
        (by simpa using hS))
      src.nodes hN (i := ids) (x := x) ha (by simpa [Op.creations, Op.draws, Nat.add_comm] using hS)
    simpa [Op.deeds, Call.prog, RdfSled.prog, merge] using key

/-! ## all the threads -/

/-- what a thread does, all in all -/
def roleOf (b : Bool) (known : String → Bool) (th : List (Call E NP EP)) : Role where
  creates s := ∃ x ∈ th, x.Creates s
  own s := b = false ∧ (∃ x ∈ th, x.Creates s) ∧ known s = false
  writes t := ∃ x ∈ th, x.Writes t
  removes t := ∃ x ∈ th, x.Removes t

def labelOf (b : Bool) (known : String → Bool) (th : List (Call E NP EP)) (x : Call E NP EP) : Label where
  ulids u := u ∈ x.ulids
  recs v := v ∈ x.records
  role := roleOf b known th

def jobOf (cl : Codec String) (cr : Codec Ulid) (c : Codecs NP EP) (mN : NP → NP → NP) (mE : EP → EP → EP) (b : Bool)
    (known : String → Bool) (th : List (Call E NP EP)) (x : Call E NP EP) : RG.Job RdfDb Label Unit (RdfDeed E NP EP) :=
  (x.prog cl cr c mN mE, labelOf b known th x, x.op.deeds)

omit hl hr tl tr hc hb in
theorem nodup_range {g : Gen Ulid} {n : Nat} (h : ((List.range n).map g).Nodup) : Fresh n g := by
  intro i hi j hj e
  have := (List.nodup_map_iff_inj_on List.nodup_range).1 h i (List.mem_range.2 hi) j (List.mem_range.2 hj) e
  exact this

omit hl hr tl tr hc hb in
theorem fit_start {d0 : RdfDb} {f : String → Option Ulid} {x0 : RdfState NP EP} (h1 : (SledIndex.impl cl cr).Shows d0.names f)
    (h2 : d0.data.Inv Ulid c) {threads : List (List (Call E NP EP))} (hd : DistinctIds cl cr c C d0 threads)
    {th : List (Call E NP EP)} (hth : th ∈ threads) {x : Call E NP EP} (hx : x ∈ th) :
    Fit c C (labelOf b known th x) { f := f, d := d0.data, x := x0 } := by
  have hm : x ∈ threads.flatten := List.mem_flatten.2 ⟨th, hth, hx⟩
  obtain ⟨⟨lv, v1, v2⟩, he⟩ := Sled.shows h2
  obtain ⟨le, e1, e2⟩ := he .SPO
  refine ⟨fun u hu => ?_, fun v hv t ht => ?_⟩
  · have hu' : u ∈ threads.flatten.flatMap Call.ulids := List.mem_flatMap.2 ⟨x, hm, hu⟩
    refine ⟨fun s hs => ?_, hd.explicit u hu', ?_, fun t ht => ?_⟩
    · obtain ⟨o, o1, o2⟩ := h1.2 u
      rw [hd.names u hu'] at o1
      cases o1
      cases (o2 s).2 hs
    · rw [Option.eq_none_iff_forall_not_mem]
      intro p hp
      refine hd.nodes u hu' p ?_
      show _ ∈ (Sled.obs c d0.data).vertices
      rw [v1]
      exact List.mem_map.2 ⟨_, (v2.2 _ _).2 hp, rfl⟩
    · rw [Option.eq_none_iff_forall_not_mem]
      intro p hp
      have : .ok (t, p) ∈ Sled.iterEdges Ulid c d0.data .SPO := by
        show _ ∈ (Sled.obs c d0.data).edges .SPO
        rw [e1]
        exact List.mem_map.2 ⟨_, (e2.2 _ _).2 hp, rfl⟩
      obtain ⟨a1, a2, a3⟩ := hd.edges u hu' t p this
      rcases ht with ht | ht | ht
      · exact a1 ht
      · exact a2 ht
      · exact a3 ht
  · have hv' : v ∈ threads.flatten.flatMap Call.records := List.mem_flatMap.2 ⟨x, hm, hv⟩
    exact hd.unused v hv' _ (BMap.mem_entries.2 ht) rfl

/-- what the threads do, at the start -/
theorem jobs_start {d0 : RdfDb} {x0 : RdfState NP EP} (h0 : Leaves cl cr c C d0 x0)
    {threads : List (List (Call E NP EP))} (hf : Fair cl cr c C d0 threads) (hn : b = true ∨ NoNameRace x0.known threads) :
    ∃ g : Ghost NP EP, (rules cl cr c C x0.known).inv d0 g ∧
      (∀ q ∈ threads.map (fun th => th.map (jobOf cl cr c mN mE b x0.known th)), (rules cl cr c C x0.known).ThreadDoes Ghost.x
        (fun (x : RdfState NP EP) o => x.deed c.okN c.okE mN mE o) b (d0, g) q) ∧
      (threads.map (fun th => th.map (jobOf cl cr c mN mE b x0.known th))).Pairwise (rules cl cr c C x0.known).JobsApart ∧ g.x = x0 := by
  obtain ⟨f, i1, i2, i3, i4⟩ := h0
  have du := List.nodup_flatMap.1 hf.ids.ulids
  have dr := List.nodup_flatMap.1 hf.ids.records
  have pu := List.pairwise_flatten.1 du.2
  have pr := List.pairwise_flatten.1 dr.2
  refine ⟨{ f := f, d := d0.data, x := x0 }, ⟨i1, rfl, i2, i3, i4, fun n h => by rw [i3.known n] at h; exact h⟩, ?_, ?_, rfl⟩
  · intro q hq
    obtain ⟨th, hth, rfl⟩ := List.mem_map.1 hq
    have does : ∀ x ∈ th, ∀ y, (rules cl cr c C x0.known).Does Ghost.x
        (fun (x : RdfState NP EP) o => x.deed c.okN c.okE mN mE o) b (x.prog cl cr c mN mE) (labelOf b x0.known th x) y
        x.op.deeds := by
      intro x hx y
      have hm : x ∈ threads.flatten := List.mem_flatten.2 ⟨th, hth, hx⟩
      refine acts_prog (ρ := roleOf b x0.known th) hl hr tl tr hc hb (hf.simple th hth x hx) (hf.explicit th hth x hx)
        (fun s hs => ⟨⟨x, hx, hs⟩, ?_⟩) (fun t ht => ⟨x, hx, ht⟩) (fun t ht => ⟨x, hx, ht⟩) rfl ?_
      · cases b with
        | true => exact .inl rfl
        | false =>
          cases hk : x0.known s with
          | true => exact .inr (.inr hk)
          | false => exact .inr (.inl ⟨rfl, ⟨x, hx, hs⟩, hk⟩)
      · exact ⟨nodup_range (du.1 x hm), nodup_range (dr.1 x hm),
          fun j hj => List.mem_map.2 ⟨j, List.mem_range.2 hj, rfl⟩, fun j hj => List.mem_map.2 ⟨j, List.mem_range.2 hj, rfl⟩⟩
    have fits : ∀ x ∈ th, Fit c C (labelOf b x0.known th x) { f := f, d := d0.data, x := x0 } :=
      fun x hx => fit_start i1 i2 hf.ids hth hx
    have seq : th.Pairwise (fun x y => (rules cl cr c C x0.known).seq (labelOf b x0.known th x) (labelOf b x0.known th y)) := by
      refine ((pu.1 th hth).and (pr.1 th hth)).imp (fun {x y} h => ⟨fun u hu hu' => h.1 hu hu', fun u hu hu' => h.2 hu hu'⟩)
    have key : ∀ l : List (Call E NP EP), (∀ x ∈ l, x ∈ th) → l.Pairwise (fun x y => (rules cl cr c C x0.known).seq
        (labelOf b x0.known th x) (labelOf b x0.known th y)) →
        (rules cl cr c C x0.known).ThreadDoes Ghost.x (fun (x : RdfState NP EP) o => x.deed c.okN c.okE mN mE o) b
          (d0, { f := f, d := d0.data, x := x0 }) (l.map (jobOf cl cr c mN mE b x0.known th)) := by
      intro l hl hp
      cases l with
      | nil => trivial
      | cons x l =>
        refine ⟨does x (hl x (by simp)) _, ?_, ?_, ?_⟩
        · intro e he y
          obtain ⟨z, hz, rfl⟩ := List.mem_map.1 he
          exact does z (hl z (by simp [hz])) y
        · rw [← List.map_cons, List.pairwise_map]
          exact hp
        · intro e he
          rw [← List.map_cons] at he
          obtain ⟨z, hz, rfl⟩ := List.mem_map.1 he
          exact fits z (hl z hz)
    exact key th (fun _ h => h) seq
  · rw [List.pairwise_map]
    have hn' : threads.Pairwise (fun th th' => b = true ∨ ∀ x ∈ th, ∀ y ∈ th', ∀ s, x.Creates s → y.Creates s →
        x0.known s = true) := by
      rcases hn with rfl | hn
      · exact List.pairwise_of_forall (fun _ _ => .inl rfl)
      · exact hn.imp (fun h => .inr h)
    refine ((pu.2.and pr.2).and (hf.race.and hn')).imp (fun {th th'} h => ?_)
    obtain ⟨⟨h1, h2⟩, h3, h4⟩ := h
    intro e he e' he'
    obtain ⟨x, hx, rfl⟩ := List.mem_map.1 he
    obtain ⟨x', hx', rfl⟩ := List.mem_map.1 he'
    refine ⟨⟨fun u hu hu' => h1 x hx x' hx' hu hu', fun u hu hu' => h2 x hx x' hx' hu hu', ?_, ?_⟩,
      ⟨fun u hu hu' => h1 x hx x' hx' hu' hu, fun u hu hu' => h2 x hx x' hx' hu' hu, ?_, ?_⟩⟩
    · rintro s ⟨hb, ⟨y, hy, hys⟩, hk⟩ ⟨z, hz, hzs⟩
      rcases h4 with h4 | h4
      · rw [hb] at h4; cases h4
      · rw [h4 z hz y hy s hzs hys] at hk; cases hk
    · rintro t ⟨y, hy, hyt⟩ ⟨z, hz, hzt⟩
      exact (h3 z hz y hy t).2 hyt hzt
    · rintro s ⟨hb, ⟨y, hy, hys⟩, hk⟩ ⟨z, hz, hzs⟩
      rcases h4 with h4 | h4
      · rw [hb] at h4; cases h4
      · rw [h4 y hy z hz s hys hzs] at hk; cases hk
    · rintro t ⟨y, hy, hyt⟩ ⟨z, hz, hzt⟩
      exact (h3 y hy z hz t).1 hyt hzt

theorem runs_start {d0 : RdfDb} {x0 : RdfState NP EP} (h0 : Leaves cl cr c C d0 x0)
    {threads : List (List (Call E NP EP))} (hf : Fair cl cr c C d0 threads) (hn : b = true ∨ NoNameRace x0.known threads) :
    (rules cl cr c C x0.known).Runs Ghost.x (fun (x : RdfState NP EP) o => x.deed c.okN c.okE mN mE o) b x0
      (threads.map (List.flatMap (fun x => x.op.deeds))) (start cl cr c mN mE d0 threads) := by
  obtain ⟨g, h1, h2, h3, h4⟩ := jobs_start hl hr tl tr hc hb h0 hf hn
  refine ⟨g, [], threads.map (fun th => th.map (jobOf cl cr c mN mE b x0.known th)), ?_, h1, h2, h3, ?_, h4⟩
  · simp [start, jobOf, Function.comp_def]
  · have e : (threads.map (fun th => th.map (jobOf cl cr c mN mE b x0.known th))).map (List.flatMap (fun e => e.2.2)) =
        threads.map (List.flatMap (fun x => x.op.deeds)) := by
      simp [Function.comp_def, List.flatMap_map, jobOf]
    rw [e]
    exact .refl

omit hl hr tl tr hc hb in
theorem Sound.leaves {s : RdfDb} {g : Ghost NP EP} (h : Sound cl cr c C known s g) : Leaves cl cr c C s g.x :=
  ⟨g.f, h.names, h.data ▸ h.inv, h.data ▸ h.agree, h.clean⟩

omit hb

theorem leaves_moment {d0 d : RdfDb} {x0 : RdfState NP EP} (h0 : Leaves cl cr c C d0 x0)
    {threads : List (List (Call E NP EP))} (hf : Fair cl cr c C d0 threads) (hm : Moment cl cr c mN mE d0 threads d) :
    ∃ l, Shuffle true (threads.map (List.flatMap (fun x => x.op.deeds))) l ∧
      Leaves cl cr c C d (l.foldl (fun (x : RdfState NP EP) o => x.deed c.okN c.okE mN mE o) x0) := by
  obtain ⟨rest, hs⟩ := hm
  obtain ⟨g, l, h1, h2, h3⟩ := RG.Runs.part _ (RG.runs_steps _ (runs_start hl hr tl tr hc (.inl rfl) h0 hf (.inl rfl)) hs)
  exact ⟨l, h2, h3 ▸ h1.leaves⟩

theorem leaves_final {d0 d : RdfDb} {x0 : RdfState NP EP} (h0 : Leaves cl cr c C d0 x0) (ht : c.Total)
    {threads : List (List (Call E NP EP))} (hf : Fair cl cr c C d0 threads) (hn : NoNameRace x0.known threads)
    (hm : Final cl cr c mN mE d0 threads d) :
    ∃ l, Shuffle false (threads.map (List.flatMap (fun x => x.op.deeds))) l ∧
      Leaves cl cr c C d (l.foldl (fun (x : RdfState NP EP) o => x.deed c.okN c.okE mN mE o) x0) := by
  obtain ⟨rest, hs, he⟩ := hm
  obtain ⟨g, l, h1, h2, h3⟩ := RG.Runs.full _
    (RG.runs_calm _ (runs_start hl hr tl tr hc (.inr ht) h0 hf (.inr hn)) hs) he
  exact ⟨l, h2, h3 ▸ h1.leaves⟩

theorem Life.leaves {d : RdfDb} (h : Life cl cr c mN mE E C d) : ∃ x, Leaves cl cr c C d x := by
  induction h with
  | new =>
    refine ⟨RdfState.empty, _, SledIndex.shows_empty tl tr, Db.inv_empty c, ?_, fun _ _ _ e => by cases e⟩
    rw [Db.graph_empty c]
    exact ⟨fun _ => rfl, fun _ _ _ => rfl, fun _ _ _ _ _ => rfl, fun _ _ h => (by cases h), fun _ _ h => (by cases h)⟩
  | call h op hC hi hd ih =>
    obtain ⟨x, ih⟩ := ih
    obtain ⟨x', -, h2⟩ := crash_leaves hl hr tl tr hc (n := 0) (k := 0) op hC (ih.is (by simpa using hi)) hd
    exact ⟨x', h2⟩
  | threads h threads hf hm ih =>
    obtain ⟨x, ih⟩ := ih
    obtain ⟨l, -, h2⟩ := leaves_moment hl hr tl tr hc ih hf hm
    exact ⟨_, h2⟩

omit hl hr tl tr in
theorem Leaves.holds {d : RdfDb} {x : RdfState NP EP} (h : Leaves cl cr c C d x) (u g : Gen Ulid) :
    (openOn d u g).HoldsState (SledIndex.impl cl cr) (SledStore.impl c mN mE) x := by
  refine Is.holds hc (C := []) (n := 0) (k := 0) (Leaves.is ?_ ?_)
  · obtain ⟨f, h1, h2, h3, -⟩ := h
    exact ⟨f, h1, h2, h3, fun _ h => by cases h⟩
  · exact ⟨fun _ h => by omega, fun _ h => by omega, fun _ h => by omega, fun _ h => by omega,
      fun _ h => (by cases h), fun _ h => by omega, fun _ _ => ⟨fun _ h => by omega, fun _ h => by omega⟩⟩

end

end RdfSled

end Verif
