import Verif.Proof.Results
import Verif.Proof.NameRace
import Verif.Proof.RdfSledLoose

/-! # What concurrent calls on RDF stores return -/

set_option linter.unusedSectionVars false

namespace Verif

open Spec ConcreteId

namespace RdfSled.Outcome

variable {NP EP E α β γ : Type} {cl : Codec String} {cr : Codec Ulid} {c : Codecs NP EP} {mN : NP → NP → NP} {mE : EP → EP → EP}

/-- the names become more, each new one and its id being allowed by `W` -/
def Grow (W : String → Ulid → Prop) (f f' : Names) : Prop := Keeps f f' ∧ ∀ s u, f' s = some u → f s = some u ∨ W s u

variable {W V M : String → Ulid → Prop} {f f' f'' f0 : Names}

theorem Grow.refl (W : String → Ulid → Prop) (f : Names) : Grow W f f := ⟨fun _ _ h => h, fun _ _ h => .inl h⟩

theorem Grow.trans (h : Grow W f f') (h' : Grow W f' f'') : Grow W f f'' :=
  ⟨fun s u hs => h'.1 s u (h.1 s u hs), fun s u hs => (h'.2 s u hs).elim (h.2 s u) .inr⟩

theorem Grow.mono (h : Grow W f f') (hw : ∀ s u, W s u → V s u) : Grow V f f' := ⟨h.1, fun s u hs => (h.2 s u hs).imp id (hw s u)⟩

/-- While others add to the names as `W` allows, starting from `f`, the program adds as `V` allows, keeps the data well-formed, and
returns what `Q` allows, for the names at its last step. -/
def Ob (cl : Codec String) (cr : Codec Ulid) (c : Codecs NP EP) (W V : String → Ulid → Prop) :
    Prog RdfDb α → Names → (α → Names → Prop) → Prop
  | .ret a, f, Q => Q a f
  | .call F k, f, Q => ∀ d f', Grow W f f' → Sled.WellFormed Ulid c d.data → (SledIndex.impl cl cr).Shows d.names f' →
      Sled.WellFormed Ulid c (F d).data ∧
        ∃ f'', (SledIndex.impl cl cr).Shows (F d).names f'' ∧ Grow V f' f'' ∧ Ob cl cr c W V (k d) f'' Q

theorem Ob.mono {p : Prog RdfDb α} {Q Q' : α → Names → Prop} (h : Ob cl cr c W V p f Q) (hq : ∀ a f, Q a f → Q' a f) :
    Ob cl cr c W V p f Q' := by
  induction p generalizing f with
  | ret a => exact hq _ _ h
  | call F k ih =>
    intro d f' h1 h2 h3
    obtain ⟨i1, g, i2, i3, i4⟩ := h d f' h1 h2 h3
    exact ⟨i1, g, i2, i3, ih d i4⟩

theorem Ob.bind {p : Prog RdfDb α} {k : α → Prog RdfDb β} {Q : α → Names → Prop} {Q' : β → Names → Prop} (h : Ob cl cr c W V p f Q)
    (hk : ∀ a f, Q a f → Ob cl cr c W V (k a) f Q') : Ob cl cr c W V (p.bind k) f Q' := by
  induction p generalizing f with
  | ret a => exact hk _ _ h
  | call F k ih =>
    intro d f' h1 h2 h3
    obtain ⟨i1, g, i2, i3, i4⟩ := h d f' h1 h2 h3
    exact ⟨i1, g, i2, i3, ih d i4⟩

theorem ob_data {p : Prog Db α} {R : α → Prop} (h : Sled.Keeps Ulid c p R) :
    Ob cl cr c W V p.onData f (fun a f' => R a ∧ Grow W f f') := by
  induction p generalizing f with
  | ret a => exact ⟨h, .refl _ _⟩
  | call F k ih =>
    intro d f' h1 h2 h3
    obtain ⟨i1, -, i2⟩ := h d.data h2
    exact ⟨i1, f', h3, .refl _ _, (ih d.data i2).mono (fun a g hg => ⟨hg.1, h1.trans hg.2⟩)⟩

theorem ob_andThen {m : Task α} {g : α → Task β} {i : Ids} {Q : Ids × Except Err α → Names → Prop}
    {Q' : Ids × Except Err β → Names → Prop} (h : Ob cl cr c W V (m i) f Q)
    (ho : ∀ i a f, Q (i, .ok a) f → Ob cl cr c W V (g a i) f Q') (he : ∀ i x f, Q (i, .error x) f → Q' (i, .error x) f) :
    Ob cl cr c W V (m.andThen g i) f Q' :=
  h.bind (fun r f hr => by
    obtain ⟨i, r⟩ := r
    cases r with
    | ok a => exact ho i a f hr
    | error x => exact he i x f hr)

/-- The next `n` ids are different, in `A`, and name nothing; the names have only grown as `M` allows. -/
structure Sup (A : List Ulid) (M : String → Ulid → Prop) (f0 : Names) (n : Nat) (g : Gen Ulid) (f : Names) : Prop where
  fresh : Fresh n g
  mine : ∀ j < n, g j ∈ A
  free : ∀ j < n, ∀ s, f s ≠ some (g j)
  grow : Grow M f0 f

/-- what the surroundings of a call do and do not -/
structure Fits (A : List Ulid) (W V M : String → Ulid → Prop) (N : String → Prop) : Prop where
  other : ∀ s u, W s u → u ∉ A
  wm : ∀ s u, W s u → M s u
  own : ∀ s u, N s → u ∈ A → V s u
  vm : ∀ s u, V s u → M s u

variable {A : List Ulid} {N : String → Prop} {n : Nat} {g : Gen Ulid}

theorem Sup.rely (h : Sup A M f0 n g f) (hF : Fits A W V M N) (hg : Grow W f f') : Sup A M f0 n g f' :=
  ⟨h.fresh, h.mine, fun j hj s e => (hg.2 s _ e).elim (h.free j hj s) (fun hw => hF.other s _ hw (h.mine j hj)),
    h.grow.trans (hg.mono hF.wm)⟩

theorem Sup.le {m : Nat} (h : Sup A M f0 n g f) (hm : m ≤ n) : Sup A M f0 m g f :=
  ⟨fun i hi j hj => h.fresh i (by omega) j (by omega), fun j hj => h.mine j (by omega), fun j hj => h.free j (by omega), h.grow⟩

/-- a name gets the next id -/
theorem Sup.use (h : Sup A M f0 (n + 1) g f) (hF : Fits A W V M N) {s : String} (hs : N s) (hf : f s = none) :
    Sup A M f0 n (Gen.fresh g).2 (fun a => if a = s then some (Gen.fresh g).1 else f a) := by
  refine ⟨fun i hi j hj e => ?_, fun j hj => h.mine (j + 1) (by omega), fun j hj a e => ?_, ?_, ?_⟩
  · have := h.fresh (i + 1) (by omega) (j + 1) (by omega) e
    omega
  · split at e
    · have := h.fresh 0 (by omega) (j + 1) (by omega) (Option.some.inj e)
      omega
    · exact h.free (j + 1) (by omega) a e
  · intro a u ha
    have := h.grow.1 _ _ ha
    beta_reduce
    split
    · rename_i e
      subst e
      rw [hf] at this
      cases this
    · exact this
  · intro a u ha
    beta_reduce at ha
    split at ha
    · rename_i e
      subst e
      refine .inr (hF.vm _ _ (hF.own _ _ hs ?_))
      rw [← Option.some.inj ha]
      exact h.mine 0 (by omega)
    · exact h.grow.2 a u ha

theorem grow_use (hF : Fits A W V M N) {s : String} {u : Ulid} (hs : N s) (hu : u ∈ A) (hf : f s = none) :
    Grow V f (fun a => if a = s then some u else f a) := by
  refine ⟨fun a v ha => ?_, fun a v ha => ?_⟩
  · beta_reduce
    split
    · rename_i e
      subst e
      rw [hf] at ha
      cases ha
    · exact ha
  · beta_reduce at ha
    split at ha
    · rename_i e
      subst e
      refine .inr (hF.own _ _ hs ?_)
      rw [← Option.some.inj ha]
      exact hu
    · exact .inl ha

section
variable (hl : cl.RoundTrips) (hr : cr.RoundTrips) (tl : cl.Total) (tr : cr.Total)
include hl hr tl tr

/-- looking a name up -/
theorem ob_left (hF : Fits A W V M N) (s : String) {i : Ids} (h : Sup A M f0 n i.ulid f) :
    Ob cl cr c W V (onIndex (SledIndex.leftToRightProg cl cr s) i) f
      (fun r f' => r.1 = i ∧ r.2 = .ok (f' s) ∧ Sup A M f0 n i.ulid f') := by
  obtain ⟨ks, hks⟩ := Option.isSome_iff_exists.1 (tl s)
  unfold onIndex SledIndex.leftToRightProg
  rw [hks]
  intro d f' h1 h2 h3
  refine ⟨h2, f', h3, .refl _ _, ?_⟩
  have h4 : SledIndex.lookup cl cr .serialization d.names.leftToRight s = (.ok (f' s) : Except (SledIndexErr String Ulid) _) := h3.1 s
  show Ob cl cr c W V (.ret _) f' _
  rw [h4]
  exact ⟨rfl, rfl, h.rely hF h1⟩

/-- trying to name the next id -/
theorem ob_set (hF : Fits A W V M N) {s : String} (hs : N s) {i : Ids} (h : Sup A M f0 (n + 1) i.ulid f) (hf : f s = none) :
    Ob cl cr c W V (onIndex (SledIndex.setProg cl cr s (Gen.fresh i.ulid).1) { i with ulid := (Gen.fresh i.ulid).2 }) f
      (fun r f' => Sup A M f0 n r.1.ulid f' ∧ (r.2 = .ok () ∨
        ∃ u v, W s u ∧ f0 s = none ∧ v ∈ A ∧ r.2 = .error (.nameIndex (.duplicateRight s u v)))) := by
  obtain ⟨ks, hks⟩ := Option.isSome_iff_exists.1 (tl s)
  obtain ⟨kv, hkv⟩ := Option.isSome_iff_exists.1 (tr (Gen.fresh i.ulid).1)
  have h0 : f0 s = none := by
    cases e : f0 s with
    | none => rfl
    | some u => rw [h.grow.1 s u e] at hf; cases hf
  unfold onIndex
  obtain ⟨F, K, eP⟩ : ∃ (F : IndexDb → IndexDb) (K : IndexDb → Except (SledIndexErr String Ulid) Unit),
      SledIndex.setProg cl cr s (Gen.fresh i.ulid).1 = .call F (fun d => .ret (K d)) := by
    unfold SledIndex.setProg
    rw [hks]
    dsimp only
    rw [hkv]
    exact ⟨_, _, rfl⟩
  have run : ∀ d : IndexDb, (SledIndex.setProg cl cr s (Gen.fresh i.ulid).1).run d = (F d, K d) := fun d => by rw [eP]; rfl
  rw [eP]
  intro d f' h1 h2 h3
  have hS := h.rely hF h1
  dsimp only
  cases hv : f' s with
  | some v =>
    have hW : W s v := by
      rcases h1.2 s v hv with e | e
      · rw [hf] at e; cases e
      · exact e
    have e1 := setProg_duplicate (cl := cl) (cr := cr) tl tr (d := d.names) (s := s) (u := v) (by rw [h3.1 s, hv]) (Gen.fresh i.ulid).1
    rw [run, Prod.mk.injEq] at e1
    refine ⟨h2, f', ?_, .refl _ _, ?_⟩
    · rw [e1.1]; exact h3
    · show Ob cl cr c W V (.ret _) f' _
      rw [e1.2]
      refine ⟨?_, .inr ⟨v, _, hW, h0, h.mine 0 (by omega), rfl⟩⟩
      have h5 := hS
      exact ⟨fun a ha b hb e => by have := h5.fresh (a + 1) (by omega) (b + 1) (by omega) e; omega,
        fun j hj => h5.mine (j + 1) (by omega), fun j hj => h5.free (j + 1) (by omega), h5.grow⟩
  | none =>
    obtain ⟨d', e1, i1⟩ := SledIndex.lawful hl hr tl tr d.names f' s (Gen.fresh i.ulid).1 h3 hv (hS.free 0 (by omega))
    have e1 : (SledIndex.setProg cl cr s (Gen.fresh i.ulid).1).run d.names = (d', .ok ()) := e1
    rw [run, Prod.mk.injEq] at e1
    refine ⟨h2, _, ?_, grow_use hF hs (h.mine 0 (by omega)) hv, ?_⟩
    · rw [e1.1]; exact i1
    · show Ob cl cr c W V (.ret _) _ _
      rw [e1.2]
      exact ⟨hS.use hF hs hv, .inl rfl⟩

theorem ob_create (hF : Fits A W V M N) (e : Entity) (he : ∀ s, e = .string s → N s) {i : Ids} (h : Sup A M f0 (n + 1) i.ulid f) :
    Ob cl cr c W V (lookupOrCreateEntity cl cr e i) f (fun r f' => Sup A M f0 n r.1.ulid f' ∧ ((∃ u, r.2 = .ok u) ∨
      ∃ x, r.2 = .error x ∧ ∃ s u v, e = .string s ∧ W s u ∧ f0 s = none ∧ v ∈ A ∧ x = .nameIndex (.duplicateRight s u v))) := by
  cases e with
  | ulid u => exact ⟨h.le (by omega), .inl ⟨u, rfl⟩⟩
  | string s =>
    refine ob_andThen (ob_left hl hr tl tr hF s h) (fun j o g hg => ?_) (fun j x g hg => by cases hg.2.1)
    obtain ⟨rfl, ho, hS⟩ := hg
    cases ho
    cases hv : g s with
    | some u => exact ⟨hS.le (by omega), .inl ⟨u, rfl⟩⟩
    | none =>
      refine ob_andThen (ob_set hl hr tl tr hF (he s rfl) hS hv) (fun i a g hg => ?_) (fun i x g hg => ?_)
      · exact ⟨hg.1, .inl ⟨_, rfl⟩⟩
      · rcases hg with ⟨h1, h2 | ⟨u, v, h2, h3, h4, h5⟩⟩
        · cases h2
        · cases h5
          exact ⟨h1, .inr ⟨_, rfl, s, u, v, rfl, h2, h3, h4, rfl⟩⟩

theorem ob_find (hF : Fits A W V M N) (e : Entity) {i : Ids} (h : Sup A M f0 n i.ulid f) :
    Ob cl cr c W V (lookupEntity cl cr e i) f (fun r f' => Sup A M f0 n r.1.ulid f' ∧
      ((∃ u, r.2 = .ok u ∧ ∀ s, e = .string s → (f0 s).isSome ∨ ∃ u, M s u) ∨
        ∃ x, r.2 = .error x ∧ ∃ s, e = .string s ∧ f0 s = none ∧ x = .nameNotFound s)) := by
  cases e with
  | ulid u => exact ⟨h, .inl ⟨u, rfl, fun s e => by cases e⟩⟩
  | string s =>
    refine ob_andThen (ob_left hl hr tl tr hF s h) (fun j o g hg => ?_) (fun j x g hg => by cases hg.2.1)
    obtain ⟨rfl, ho, hS⟩ := hg
    cases ho
    cases hv : g s with
    | some u =>
      refine ⟨hS, .inl ⟨u, rfl, ?_⟩⟩
      rintro _ ⟨⟩
      rcases hS.grow.2 s u hv with e | e
      · exact .inl (by rw [e]; rfl)
      · exact .inr ⟨u, e⟩
    | none =>
      refine ⟨hS, .inr ⟨_, rfl, s, rfl, ?_, rfl⟩⟩
      cases e : f0 s with
      | none => rfl
      | some u => rw [hS.grow.1 s u e] at hv; cases hv

end

/-- what a function on entities does, given `a` ids -/
def Does (cl : Codec String) (cr : Codec Ulid) (c : Codecs NP EP) (W V M : String → Ulid → Prop) (A : List Ulid) (f0 : Names) (a : Nat)
    (m : Task α) (Y : Prop) (B : Err → Prop) : Prop :=
  ∀ n i f, Sup A M f0 (n + a) i.ulid f → Ob cl cr c W V (m i) f
    (fun r f' => Sup A M f0 n r.1.ulid f' ∧ ((∃ u, r.2 = .ok u ∧ Y) ∨ ∃ x, r.2 = .error x ∧ B x))

theorem does_tryMap {a : Nat} {m : Entity → Task Ulid} {t : Triple Entity} {Y : Entity → Prop} {B : Entity → Err → Prop}
    (h : ∀ e ∈ RdfState.parts t, Does cl cr c W V M A f0 a (m e) (Y e) (B e)) :
    Does cl cr c W V M A f0 (3 * a) (tryMap m t) (∀ e ∈ RdfState.parts t, Y e) (fun x => ∃ e ∈ RdfState.parts t, B e x) := by
  intro n i f hS
  unfold tryMap
  have err : ∀ {δ : Type} (e : Entity) (j : Ids) (x : Err) (g : Names) (k : Nat) {Y' : Prop}, n ≤ k → e ∈ RdfState.parts t →
      (Sup A M f0 k j.ulid g ∧ ((∃ u : Ulid, (.error x : Except Err Ulid) = .ok u ∧ Y') ∨
        ∃ z, (.error x : Except Err Ulid) = .error z ∧ B e z)) →
      Sup A M f0 n j.ulid g ∧ ((∃ u : δ, (.error x : Except Err δ) = .ok u ∧ ∀ e ∈ RdfState.parts t, Y e) ∨
        ∃ z, (.error x : Except Err δ) = .error z ∧ ∃ e ∈ RdfState.parts t, B e z) := by
    rintro δ e j x g k Y' hk he ⟨h1, ⟨u, h2, -⟩ | ⟨z, h2, h3⟩⟩
    · cases h2
    · cases h2
      exact ⟨h1.le hk, .inr ⟨x, rfl, e, he, h3⟩⟩
  refine ob_andThen (h t.sub (by simp [RdfState.parts]) (n + 2 * a) i f (by rw [show n + 2 * a + a = n + 3 * a by omega]; exact hS))
    (fun i1 u1 f1 h1 => ?_) (fun j x g hg => err t.sub j x g (n + 2 * a) (by omega) (by simp [RdfState.parts]) hg)
  refine ob_andThen (h t.pred (by simp [RdfState.parts]) (n + a) i1 f1 (by rw [show n + a + a = n + 2 * a by omega]; exact h1.1))
    (fun i2 u2 f2 h2 => ?_) (fun j x g hg => err t.pred j x g (n + a) (by omega) (by simp [RdfState.parts]) hg)
  refine ob_andThen (h t.obj (by simp [RdfState.parts]) n i2 f2 h2.1)
    (fun i3 u3 f3 h3 => ?_) (fun j x g hg => err t.obj j x g n (by omega) (by simp [RdfState.parts]) hg)
  have get : ∀ {Y' : Prop} {u : Ulid} {B' : Err → Prop},
      ((∃ u', (.ok u : Except Err Ulid) = .ok u' ∧ Y') ∨ ∃ z, (.ok u : Except Err Ulid) = .error z ∧ B' z) → Y' := by
    rintro Y' u B' (⟨_, _, h⟩ | ⟨_, h, _⟩)
    · exact h
    · cases h
  refine ⟨h3.1, .inl ⟨_, rfl, fun e he => ?_⟩⟩
  simp only [RdfState.parts, List.mem_cons, List.not_mem_nil, or_false] at he
  rcases he with rfl | rfl | rfl
  · exact get h1.2
  · exact get h2.2
  · exact get h3.2

theorem ob_graph (hF : Fits A W V M N) {p : Prog Db (Except SErr Unit)} {g : Except SErr Unit} (h : Sled.Keeps Ulid c p (fun r => r = g))
    {i : Ids} (hS : Sup A M f0 n i.ulid f) :
    Ob cl cr c W V (onGraph p i) f (fun r f' => Sup A M f0 n r.1.ulid f' ∧ r.2 = g.mapError .graph) := by
  refine (ob_data h).bind (fun r f' hr => ⟨hS.rely hF hr.2, ?_⟩)
  obtain ⟨rfl, -⟩ := hr
  cases r <;> rfl

/-- what taking in an item does -/
def Item (cl : Codec String) (cr : Codec Ulid) (c : Codecs NP EP) (W V M : String → Ulid → Prop) (A : List Ulid) (f0 : Names) (a : Nat)
    (m : Task Unit) (R : Except Err Unit → Prop) : Prop :=
  ∀ n i f, Sup A M f0 (n + a) i.ulid f → Ob cl cr c W V (m i) f (fun r f' => Sup A M f0 n r.1.ulid f' ∧ R r.2)

/-- the rivals of a call -/
def rivals (f0 : Names) (W : String → Ulid → Prop) (s : String) (u : Ulid) : Prop := (f0 s).isSome = false ∧ W s u

theorem item_puts (hF : Fits A W V M N) {a : Nat} {m : Task α} {k : α → Task Unit} {g : Except SErr Unit} {es : List Entity}
    {B : Err → Prop} {Y : Prop} (hm : Does cl cr c W V M A f0 a m Y B)
    (hB : ∀ x, B x → ∃ s u v, .string s ∈ es ∧ W s u ∧ f0 s = none ∧ v ∈ A ∧ x = .nameIndex (.duplicateRight s u v))
    (hk : ∀ u i, ∃ (p : Prog Db (Except SErr Unit)) (j : Ids), j.ulid = i.ulid ∧ k u i = onGraph p j ∧ Sled.Keeps Ulid c p (fun r => r = g)) :
    Item cl cr c W V M A f0 a (m.andThen k) (Puts (rivals f0 W) A es g) := by
  intro n i f hS
  refine ob_andThen (hm n i f hS) (fun i1 u f1 h1 => ?_) (fun i1 x f1 h1 => ⟨h1.1, .inr ?_⟩)
  · obtain ⟨p, j, hj, e, hp⟩ := hk u i1
    rw [e]
    exact (ob_graph hF hp (by rw [hj]; exact h1.1)).mono (fun r f' hr => ⟨hr.1, .inl hr.2⟩)
  · rcases h1.2 with ⟨u, h2, -⟩ | ⟨z, h2, h3⟩
    · cases h2
    · cases h2
      obtain ⟨s, u, v, a1, a2, a3, a4, a5⟩ := hB _ h3
      exact ⟨s, u, v, a1, ⟨by rw [a3]; rfl, a2⟩, a4, by rw [a5]⟩

theorem item_finds (hF : Fits A W V M N) {m : Task α} {k : α → Task Unit} {es : List Entity}
    {B : Err → Prop} {Y : Prop} (hm : Does cl cr c W V M A f0 0 m Y B)
    (hB : ∀ x, B x → ∃ s, .string s ∈ es ∧ f0 s = none ∧ x = .nameNotFound s)
    (hY : Y → ∀ s, .string s ∈ es → (f0 s).isSome ∨ ∃ u, M s u)
    (hk : ∀ u i, ∃ (p : Prog Db (Except SErr Unit)), k u i = onGraph p i ∧ Sled.Keeps Ulid c p (fun r => r = .ok ())) :
    Item cl cr c W V M A f0 0 (m.andThen k) (Finds (fun s => (f0 s).isSome) (fun s => ∃ u, M s u) es) := by
  intro n i f hS
  refine ob_andThen (hm n i f hS) (fun i1 u f1 h1 => ?_) (fun i1 x f1 h1 => ⟨h1.1, .inr ?_⟩)
  · obtain ⟨p, e, hp⟩ := hk u i1
    rw [e]
    refine (ob_graph hF hp h1.1).mono (fun r f' hr => ⟨hr.1, .inl ⟨hr.2, ?_⟩⟩)
    rcases h1.2 with ⟨_, _, h2⟩ | ⟨z, h2, h3⟩
    · exact hY h2
    · cases h2
  · rcases h1.2 with ⟨u, h2, -⟩ | ⟨z, h2, h3⟩
    · cases h2
    · cases h2
      obtain ⟨s, a1, a2, a3⟩ := hB _ h3
      exact ⟨s, a1, by beta_reduce; rw [a2]; rfl, by rw [a3]⟩

theorem ob_absorb {a : Nat} {m : γ → Task Unit} {R : γ → Except Err Unit → Prop} {b : Nat}
    {k : Ids → Prog RdfDb (Ids × Except (LR Err E) Unit)} {next : Except (LR Err E) Unit → Prop} (l : List (Except E γ))
    (hm : ∀ y, .ok y ∈ l → Item cl cr c W V M A f0 a (m y) (R y))
    (hk : ∀ i f, Sup A M f0 b i.ulid f → Ob cl cr c W V (k i) f (fun r _ => next r.2)) {i : Ids}
    (hS : Sup A M f0 (b + a * l.length) i.ulid f) :
    Ob cl cr c W V (absorb m k l i) f (fun r _ => Absorbs R next l r.2) := by
  induction l generalizing i f with
  | nil => exact hk i f hS
  | cons y l ih =>
    cases y with
    | error e => exact rfl
    | ok y =>
      rw [absorb]
      have hS' : Sup A M f0 (b + a * l.length + a) i.ulid f := by simpa [Nat.mul_add, Nat.add_assoc] using hS
      refine (hm y List.mem_cons_self _ i f hS').bind (fun r f' hr => ?_)
      obtain ⟨j, r⟩ := r
      cases r with
      | error x => exact .inl ⟨x, hr.2, rfl⟩
      | ok u => exact (ih (fun y hy => hm y (List.mem_cons_of_mem _ hy)) hr.1).mono (fun r _ hr' => .inr ⟨hr.2, hr'⟩)

section
variable (hl : cl.RoundTrips) (hr : cr.RoundTrips) (tl : cl.Total) (tr : cr.Total)
include hl hr tl tr

theorem does_create (hF : Fits A W V M N) (e : Entity) (he : ∀ s, e = .string s → N s) :
    Does cl cr c W V M A f0 1 (lookupOrCreateEntity cl cr e) True
      (fun x => ∃ s u v, e = .string s ∧ W s u ∧ f0 s = none ∧ v ∈ A ∧ x = .nameIndex (.duplicateRight s u v)) :=
  fun n i f hS => (ob_create hl hr tl tr hF e he hS).mono (fun r f' h => ⟨h.1, h.2.imp (fun ⟨u, hu⟩ => ⟨u, hu, trivial⟩) id⟩)

theorem does_find (hF : Fits A W V M N) (e : Entity) :
    Does cl cr c W V M A f0 0 (lookupEntity cl cr e) (∀ s, e = .string s → (f0 s).isSome ∨ ∃ u, M s u)
      (fun x => ∃ s, e = .string s ∧ f0 s = none ∧ x = .nameNotFound s) :=
  fun n i f hS => (ob_find hl hr tl tr hF e hS).mono (fun r f' h => ⟨h.1, h.2.imp (fun ⟨u, hu⟩ => ⟨u, hu⟩) id⟩)

variable (hc : c.RoundTrip) (hn : Mixes c.n mN) (he : Mixes c.e mE)

theorem item_insertNode (hF : Fits A W V M N) (e : Entity) (hN : ∀ s, .string s ∈ [e] → N s) (p : NP) :
    Item cl cr c W V M A f0 1 (insertNode cl cr c e p) (Puts (rivals f0 W) A [e] (saved c.n p)) :=
  item_puts hF (does_create hl hr tl tr hF e (fun s h => hN s (by simp [h])))
    (fun x ⟨s, u, v, a1, a⟩ => ⟨s, u, v, by simp [a1], a⟩)
    (fun u i => ⟨_, i, rfl, rfl, Sled.insertNode_saved u p⟩)

theorem item_insertEdge (hF : Fits A W V M N) (t : Triple Entity) (hN : ∀ s, .string s ∈ RdfState.parts t → N s) (p : EP) :
    Item cl cr c W V M A f0 3 (insertEdge cl cr c t p) (Puts (rivals f0 W) A (RdfState.parts t) (saved c.e p)) :=
  item_puts hF (does_tryMap (fun e h => does_create hl hr tl tr hF e (fun s hs => hN s (hs ▸ h))))
    (fun x ⟨e, h, s, u, v, a1, a⟩ => ⟨s, u, v, a1 ▸ h, a⟩)
    (fun u i => ⟨_, { i with gen := (Gen.fresh i.gen).2 }, rfl, rfl, Sled.insertEdge_saved _ u p⟩)

theorem item_removeNode (hF : Fits A W V M N) (e : Entity) :
    Item cl cr c W V M A f0 0 (removeNode cl cr e) (Finds (fun s => (f0 s).isSome) (fun s => ∃ u, M s u) [e]) :=
  item_finds hF (does_find hl hr tl tr hF e) (fun x ⟨s, a1, a⟩ => ⟨s, by simp [a1], a⟩)
    (fun h s hs => h s (List.mem_singleton.1 hs).symm)
    (fun u i => ⟨_, rfl, Sled.removeNode_keeps u⟩)

theorem item_removeEdge (hF : Fits A W V M N) (t : Triple Entity) :
    Item cl cr c W V M A f0 0 (removeEdge cl cr t) (Finds (fun s => (f0 s).isSome) (fun s => ∃ u, M s u) (RdfState.parts t)) :=
  item_finds hF (does_tryMap (a := 0) (fun e _ => does_find hl hr tl tr hF e)) (fun x ⟨e, h, s, a1, a⟩ => ⟨s, a1 ▸ h, a⟩)
    (fun h s hs => h _ hs s rfl) (fun u i => ⟨_, rfl, Sled.removeEdge_keeps u⟩)

include hc

theorem item_mergeNode (hn : Mixes c.n mN) (hF : Fits A W V M N) (e : Entity) (hN : ∀ s, .string s ∈ [e] → N s) (p : NP) :
    Item cl cr c W V M A f0 1 (mergeNode cl cr c mN e p) (Puts (rivals f0 W) A [e] (saved c.n p)) :=
  item_puts hF (does_create hl hr tl tr hF e (fun s h => hN s (by simp [h])))
    (fun x ⟨s, u, v, a1, a⟩ => ⟨s, u, v, by simp [a1], a⟩)
    (fun u i => ⟨_, i, rfl, rfl, Sled.mergeNode_saved hc hn u p⟩)

theorem item_mergeEdge (he : Mixes c.e mE) (hF : Fits A W V M N) (t : Triple Entity) (hN : ∀ s, .string s ∈ RdfState.parts t → N s)
    (p : EP) : Item cl cr c W V M A f0 3 (mergeEdge cl cr c mE t p) (Puts (rivals f0 W) A (RdfState.parts t) (saved c.e p)) :=
  item_puts hF (does_tryMap (fun e h => does_create hl hr tl tr hF e (fun s hs => hN s (hs ▸ h))))
    (fun x ⟨e, h, s, u, v, a1, a⟩ => ⟨s, u, v, a1 ▸ h, a⟩)
    (fun u i => ⟨_, { i with gen := (Gen.fresh i.gen).2 }, rfl, rfl, Sled.mergeEdge_saved hc he _ u p⟩)

theorem ob_single {a : Nat} {m : Task Unit} {R : Except Err Unit → Prop} (h : Item cl cr c W V M A f0 a m R) {i : Ids}
    (hS : Sup A M f0 (0 + a) i.ulid f) :
    Ob cl cr c W V (single (E := E) m i) f (fun r _ => ∃ r', R r' ∧ r.2 = Rdf.tag r') :=
  (h 0 i f hS).bind (fun r _ hr => ⟨r.2, hr.2, rfl⟩)

include hn he

theorem ob_call (x : Call E NP EP) (hF : Fits x.ulids W V M (fun s => x.Creates s)) (hS : Sup x.ulids M f0 x.op.creations x.ids.ulid f) :
    Ob cl cr c W V (x.result cl cr c mN mE) f
      (fun r _ => x.Gives c (fun s => (f0 s).isSome) (rivals f0 W) (fun s => ∃ u, M s u) r) := by
  obtain ⟨op, ids⟩ := x
  unfold Call.result
  suffices h : Ob cl cr c W V (prog cl cr c mN mE op ids) f
      (fun r _ => Call.Gives c (fun s => (f0 s).isSome) (rivals f0 W) (fun s => ∃ u, M s u) ⟨op, ids⟩ r.2) from
    h.bind (fun r _ hr => hr)
  have hS0 : Sup (Call.ulids ⟨op, ids⟩) M f0 (0 + op.creations) ids.ulid f := by rw [Nat.zero_add]; exact hS
  cases op with
  | insertNode e p => exact ob_single hl hr tl tr hc (item_insertNode hl hr tl tr hF e (fun s h => h) p) hS0
  | insertEdge t p => exact ob_single hl hr tl tr hc (item_insertEdge hl hr tl tr hF t (fun s h => h) p) hS0
  | mergeNode e p => exact ob_single hl hr tl tr hc (item_mergeNode hl hr tl tr hc hn hF e (fun s h => h) p) hS0
  | mergeEdge t p => exact ob_single hl hr tl tr hc (item_mergeEdge hl hr tl tr hc he hF t (fun s h => h) p) hS0
  | removeNode e => exact ob_single hl hr tl tr hc (item_removeNode hl hr tl tr hF e) hS0
  | removeEdge t => exact ob_single hl hr tl tr hc (item_removeEdge hl hr tl tr hF t) hS0
  | extend src =>
    have last : ∀ (i : Ids) (f : Names), Sup (Call.ulids ⟨.extend src, ids⟩) M f0 0 i.ulid f →
        Ob cl cr c W V (.ret (i, .ok ()) : Prog RdfDb (Ids × Except (LR Err E) Unit)) f (fun r _ => r.2 = .ok ()) := fun _ _ _ => rfl
    refine ob_absorb (b := 3 * src.edges.length) src.nodes (fun y hy => item_insertNode hl hr tl tr hF y.1 (fun s h => ?_) y.2)
      (fun i f hS => ob_absorb (b := 0) src.edges (fun y hy => item_insertEdge hl hr tl tr hF y.1 (fun s h => ?_) y.2)
        last (by simpa using hS)) (by rw [Nat.one_mul, Nat.add_comm]; exact hS)
    · exact List.mem_append_left _ (Rdf.mem_itemEntities hy h)
    · exact List.mem_append_right _ (Rdf.mem_itemEntities hy h)
  | merge src =>
    have last : ∀ (i : Ids) (f : Names), Sup (Call.ulids ⟨.merge src, ids⟩) M f0 0 i.ulid f →
        Ob cl cr c W V (.ret (i, .ok ()) : Prog RdfDb (Ids × Except (LR Err E) Unit)) f (fun r _ => r.2 = .ok ()) := fun _ _ _ => rfl
    refine ob_absorb (b := 3 * src.edges.length) src.nodes (fun y hy => item_mergeNode hl hr tl tr hc hn hF y.1 (fun s h => ?_) y.2)
      (fun i f hS => ob_absorb (b := 0) src.edges (fun y hy => item_mergeEdge hl hr tl tr hc he hF y.1 (fun s h => ?_) y.2)
        last (by simpa using hS)) (by rw [Nat.one_mul, Nat.add_comm]; exact hS)
    · exact List.mem_append_left _ (Rdf.mem_itemEntities hy h)
    · exact List.mem_append_right _ (Rdf.mem_itemEntities hy h)

end

/-! ## many threads -/

/-- the ids a call may give to names name nothing -/
def Ready (f : Names) (x : Call E NP EP) : Prop := ∀ u ∈ x.ulids, ∀ s, f s ≠ some u

/-- a call may give the name the id -/
def Call.May (x : Call E NP EP) (s : String) (u : Ulid) : Prop := x.Creates s ∧ u ∈ x.ulids

/-- some call may give the name the id -/
def Any (threads : List (List (Call E NP EP))) (s : String) (u : Ulid) : Prop := ∃ th ∈ threads, ∃ x ∈ th, Call.May x s u

/-- The threads as they are when the names are `f`: each has nothing more to do, or is in the middle of a call, the others having
added to the names since its last step; and those it has still to make are ready. -/
def At (cl : Codec String) (cr : Codec Ulid) (c : Codecs NP EP) (mN : NP → NP → NP) (mE : EP → EP → EP) (f0 : Names)
    (threads : List (List (Call E NP EP))) (f : Names) (k : Nat) (q : List (Prog RdfDb (Except (LR Err E) Unit))) : Prop :=
  q = [] ∨ ∃ th x later p fk, threads[k]? = some th ∧ x :: later <:+ th ∧ q = p :: later.map (Call.result cl cr c mN mE) ∧
    Grow (MadeElsewhere threads k) fk f ∧
    Ob cl cr c (MadeElsewhere threads k) (Call.May x) p fk
      (fun r _ => x.Gives c (fun s => (f0 s).isSome) (rivals f0 (MadeElsewhere threads k)) (fun s => ∃ u, Any threads s u) r) ∧
    ∀ y ∈ later, Ready f y

section
variable {threads : List (List (Call E NP EP))}

theorem fresh_of_nodup {x : Call E NP EP} (h : x.ulids.Nodup) : Fresh x.op.creations x.ids.ulid := by
  intro i hi j hj e
  unfold Call.ulids at h
  exact List.inj_on_of_nodup_map h (List.mem_range.2 hi) (List.mem_range.2 hj) e

theorem nodup_call (hd : (threads.flatten.flatMap Call.ulids).Nodup) {th : List (Call E NP EP)} (hth : th ∈ threads) {x : Call E NP EP}
    (hx : x ∈ th) : x.ulids.Nodup := (List.nodup_flatMap.1 hd).1 x (List.mem_flatten.2 ⟨th, hth, hx⟩)

theorem disjoint_other (hd : (threads.flatten.flatMap Call.ulids).Nodup) {i k : Nat} (hik : i ≠ k) {th th' : List (Call E NP EP)}
    (h1 : threads[i]? = some th) (h2 : threads[k]? = some th') {x y : Call E NP EP} (hx : x ∈ th) (hy : y ∈ th') {u : Ulid}
    (hu : u ∈ x.ulids) : u ∉ y.ulids := by
  have h3 := (List.pairwise_flatten.1 (List.nodup_flatMap.1 hd).2).2
  have key : ∀ {i k : Nat} {th th' : List (Call E NP EP)} {x y : Call E NP EP}, i < k → threads[i]? = some th → threads[k]? = some th' →
      x ∈ th → y ∈ th' → List.Disjoint x.ulids y.ulids := by
    intro i k th th' x y hlt h1 h2 hx hy
    obtain ⟨b1, e1⟩ := List.getElem?_eq_some_iff.1 h1
    obtain ⟨b2, e2⟩ := List.getElem?_eq_some_iff.1 h2
    exact List.pairwise_iff_getElem.1 h3 i k b1 b2 hlt x (e1 ▸ hx) y (e2 ▸ hy)
  rcases Nat.lt_or_gt_of_ne hik with h | h
  · exact fun hy' => key h h1 h2 hx hy hu hy'
  · exact fun hy' => key h h2 h1 hy hx hy' hu

theorem disjoint_later (hd : (threads.flatten.flatMap Call.ulids).Nodup) {th later : List (Call E NP EP)} (hth : th ∈ threads)
    {x y : Call E NP EP} (hs : x :: later <:+ th) (hy : y ∈ later) {u : Ulid} (hu : u ∈ x.ulids) : u ∉ y.ulids := by
  have h3 := (List.pairwise_flatten.1 (List.nodup_flatMap.1 hd).2).1 th hth
  exact fun h => (List.pairwise_cons.1 (h3.sublist hs.sublist)).1 y hy hu h

theorem Ready.grow {y : Call E NP EP} (h : Ready f y) (hg : Grow W f f') (hd : ∀ s u, W s u → u ∉ y.ulids) : Ready f' y :=
  fun u hu s e => (hg.2 s u e).elim (h u hu s) (fun hw => hd s u hw hu)

variable (hl : cl.RoundTrips) (hr : cr.RoundTrips) (tl : cl.Total) (tr : cr.Total) (hc : c.RoundTrip) (hn : Mixes c.n mN)
  (he : Mixes c.e mE) (hd : (threads.flatten.flatMap Call.ulids).Nodup)
include hl hr tl tr hc hn he hd

/-- a thread between two calls -/
theorem at_between {k : Nat} {th later : List (Call E NP EP)} (hth : threads[k]? = some th) (hs : later <:+ th) (hg : Grow (Any threads) f0 f)
    (hR : ∀ y ∈ later, Ready f y) : At cl cr c mN mE f0 threads f k (later.map (Call.result cl cr c mN mE)) := by
  cases later with
  | nil => exact .inl rfl
  | cons x later =>
    have hm : th ∈ threads := List.mem_of_getElem? hth
    have hx : x ∈ th := hs.subset List.mem_cons_self
    refine .inr ⟨th, x, later, _, f, hth, hs, rfl, .refl _ _, ?_, fun y hy => hR y (List.mem_cons_of_mem _ hy)⟩
    refine ob_call hl hr tl tr hc hn he x ⟨?_, ?_, fun s u h1 h2 => ⟨h1, h2⟩, fun s u h => ⟨th, hm, x, hx, h⟩⟩
      ⟨fresh_of_nodup (nodup_call hd hm hx), ?_, ?_, hg⟩
    · rintro s u ⟨j, th', hj, h1, y, hy, -, hu⟩
      exact disjoint_other hd hj h1 hth hy hx hu
    · rintro s u ⟨j, th', -, h1, y, hy, h⟩
      exact ⟨th', List.mem_of_getElem? h1, y, hy, h⟩
    · exact fun j hj => List.mem_map.2 ⟨j, List.mem_range.2 hj, rfl⟩
    · exact fun j hj => hR x List.mem_cons_self _ (List.mem_map.2 ⟨j, List.mem_range.2 hj, rfl⟩)

theorem at_steps {x y : RdfDb × List (List (Prog RdfDb (Except (LR Err E) Unit)))} (h : Steps x y)
    (h0 : ∃ f, Sled.WellFormed Ulid c x.1.data ∧ (SledIndex.impl cl cr).Shows x.1.names f ∧ Grow (Any threads) f0 f ∧
      ∀ k q, x.2[k]? = some q → At cl cr c mN mE f0 threads f k q) :
    ∃ f, Sled.WellFormed Ulid c y.1.data ∧ (SledIndex.impl cl cr).Shows y.1.names f ∧ Grow (Any threads) f0 f ∧
      ∀ k q, y.2[k]? = some q → At cl cr c mN mE f0 threads f k q := by
  induction h with
  | refl => exact h0
  | tail _ h2 ih =>
    obtain ⟨f, i1, i2, i3, i4⟩ := ih
    have pop : ∀ {pre post : List (List (Prog RdfDb (Except (LR Err E) Unit)))} {p : Prog RdfDb (Except (LR Err E) Unit)}
        {q : List (Prog RdfDb (Except (LR Err E) Unit))},
        (∀ k r, (pre ++ (p :: q) :: post)[k]? = some r → At cl cr c mN mE f0 threads f k r) →
        ∀ k r, (pre ++ q :: post)[k]? = some r → At cl cr c mN mE f0 threads f k r := by
      intro pre post p q h k r hr
      rw [getElem?_mid pre post q (p :: q)] at hr
      split at hr
      · rename_i e
        subst e
        cases hr
        have here : (pre ++ (p :: q) :: post)[pre.length]? = some (p :: q) := by
          rw [getElem?_mid pre post _ q, if_pos rfl]
        rcases h _ _ here with h | ⟨th, x, later, p', fk, a1, a2, a3, -, -, a6⟩
        · cases h
        · cases a3
          exact at_between hl hr tl tr hc hn he hd a1 ((List.suffix_cons x later).trans a2) i3 a6
      · exact h k r hr
    cases h2 with
    | call s pre post F K q =>
      have here : (pre ++ (.call F K :: q) :: post)[pre.length]? = some (.call F K :: q) := by
        rw [getElem?_mid pre post _ (K s :: q), if_pos rfl]
      rcases i4 _ _ here with h | ⟨th, x, later, p', fk, a1, a2, a3, a4, a5, a6⟩
      · cases h
      · cases a3
        have hm : th ∈ threads := List.mem_of_getElem? a1
        have hx : x ∈ th := a2.subset List.mem_cons_self
        obtain ⟨b1, f', b2, b3, b4⟩ := a5 s f a4 i1 i2
        refine ⟨f', b1, b2, i3.trans (b3.mono (fun s u h => ⟨th, hm, x, hx, h⟩)), fun k r hr' => ?_⟩
        dsimp only at hr'
        rw [getElem?_mid pre post (K s :: _) (.call F K :: later.map (Call.result cl cr c mN mE))] at hr'
        split at hr'
        · rename_i e
          subst e
          cases hr'
          refine .inr ⟨th, x, later, _, f', a1, a2, rfl, .refl _ _, b4, fun y hy => (a6 y hy).grow b3 ?_⟩
          exact fun s u hu => disjoint_later hd hm a2 hy hu.2
        · rename_i hk
          rcases i4 k r hr' with h | ⟨th', x', later', p', fk', c1, c2, c3, c4, c5, c6⟩
          · exact .inl h
          · refine .inr ⟨th', x', later', p', fk', c1, c2, c3, c4.trans (b3.mono ?_), c5, fun y hy => (c6 y hy).grow b3 ?_⟩
            · exact fun s u h => ⟨pre.length, th, fun e => hk e.symm, a1, x, hx, h⟩
            · exact fun s u hu => disjoint_other hd (fun e => hk e.symm) a1 c1 hx (c2.subset (List.mem_cons_of_mem _ hy)) hu.2
    | ret s pre post a q => exact ⟨f, i1, i2, i3, pop i4⟩
    | fail s pre post p q => exact ⟨f, i1, i2, i3, pop i4⟩

theorem results {d0 d : RdfDb} (hw : Sled.WellFormed Ulid c d0.data) (hf : (SledIndex.impl cl cr).Shows d0.names f0)
    (hu : ∀ u ∈ threads.flatten.flatMap Call.ulids, ∀ s, f0 s ≠ some u)
    {pre post : List (List (Prog RdfDb (Except (LR Err E) Unit)))} {r : Except (LR Err E) Unit}
    {q : List (Prog RdfDb (Except (LR Err E) Unit))}
    (h : Steps (d0, threads.map (List.map (Call.result cl cr c mN mE))) (d, pre ++ (.ret r :: q) :: post)) :
    ∃ th x later, threads[pre.length]? = some th ∧ x :: later <:+ th ∧ later.length = q.length ∧
      x.Gives c (fun s => (f0 s).isSome) (rivals f0 (MadeElsewhere threads pre.length)) (fun s => ∃ u, Any threads s u) r := by
  have h0 : ∀ k q, (threads.map (List.map (Call.result cl cr c mN mE)))[k]? = some q → At cl cr c mN mE f0 threads f0 k q := by
    intro k q hq
    rw [List.getElem?_map] at hq
    cases hth : threads[k]? with
    | none => rw [hth] at hq; cases hq
    | some th =>
      rw [hth] at hq
      cases hq
      refine at_between hl hr tl tr hc hn he hd hth (List.suffix_refl th) (.refl _ _) (fun y hy u hy' => hu u ?_)
      exact List.mem_flatMap.2 ⟨y, List.mem_flatten.2 ⟨th, List.mem_of_getElem? hth, hy⟩, hy'⟩
  obtain ⟨f, -, -, -, i4⟩ := at_steps (f0 := f0) hl hr tl tr hc hn he hd h ⟨f0, hw, hf, .refl _ _, h0⟩
  have here : (pre ++ (.ret r :: q) :: post)[pre.length]? = some (.ret r :: q) := by
    rw [getElem?_mid pre post _ q, if_pos rfl]
  rcases i4 _ _ here with h | ⟨th, x, later, p', fk, a1, a2, a3, -, a5, -⟩
  · cases h
  · cases a3
    exact ⟨th, x, later, a1, a2, by simp, a5⟩

end

/-! ## what the possible results come to -/

theorem Puts.alone {rival : String → Ulid → Prop} {mine : List Ulid} {es : List Entity} {g : Except SErr Unit} {r : Except Err Unit}
    (h : Puts rival mine es g r) (hn : ∀ s u, .string s ∈ es → ¬ rival s u) : r = g.mapError .graph := by
  rcases h with h | ⟨s, u, v, h1, h2, -⟩
  · exact h
  · exact absurd h2 (hn s u h1)

theorem absorbs_alone {item : α → Except Err Unit → Prop} {g : α → Except Err Unit} {next : Except (LR Err E) Unit → Prop}
    {o : Except (LR Err E) Unit} (l : List (Except E α)) (hi : ∀ y, .ok y ∈ l → ∀ r, item y r → r = g y) (hn : ∀ r, next r → r = o)
    {r : Except (LR Err E) Unit} (h : Absorbs item next l r) : r = absorbed g o l := by
  induction l with
  | nil => exact hn r h
  | cons y l ih =>
    cases y with
    | error e => exact h
    | ok y =>
      unfold absorbed
      rcases h with ⟨x, h1, rfl⟩ | ⟨h1, h2⟩
      · rw [← hi y List.mem_cons_self _ h1]
      · rw [← hi y List.mem_cons_self _ h1]
        exact ih (fun z hz => hi z (List.mem_cons_of_mem _ hz)) h2

theorem gives_alone {known : String → Bool} {rival : String → Ulid → Prop} {made : String → Prop} {x : Call E NP EP}
    {r : Except (LR Err E) Unit} (h : x.Gives c known rival made r) (hn : ∀ s u, x.Creates s → ¬ rival s u)
    (hk : ∀ s, .string s ∈ x.op.entities → known s = true ∨ x.Creates s) : r = x.expected c := by
  obtain ⟨op, ids⟩ := x
  have find : ∀ {es : List Entity}, (∀ s, .string s ∈ es → known s = true) →
      (∃ r', Finds known made es r' ∧ r = Rdf.tag r') → r = .ok () := by
    rintro es hk ⟨r', ⟨rfl, -⟩ | ⟨s, h1, h2, -⟩, rfl⟩
    · rfl
    · rw [hk s h1] at h2
      cases h2
  have put : ∀ {mine : List Ulid} {es : List Entity} {g : Except SErr Unit}, (∀ s u, .string s ∈ es → ¬ rival s u) →
      (∃ r', Puts rival mine es g r' ∧ r = Rdf.tag r') → r = Rdf.tag (g.mapError .graph) := by
    rintro mine es g hn ⟨r', h1, rfl⟩
    rw [Puts.alone h1 hn]
  cases op with
  | insertNode e p => exact put hn h
  | insertEdge t p => exact put hn h
  | mergeNode e p => exact put hn h
  | mergeEdge t p => exact put hn h
  | removeNode e => exact find (fun s hs => (hk s hs).resolve_right (fun h => h)) h
  | removeEdge t => exact find (fun s hs => (hk s hs).resolve_right (fun h => h)) h
  | extend src =>
    exact absorbs_alone src.nodes
      (fun y hy r hr => Puts.alone hr (fun s u h => hn s u (List.mem_append_left _ (Rdf.mem_itemEntities hy h))))
      (fun r hr => absorbs_alone src.edges
        (fun y hy r hr => Puts.alone hr (fun s u h => hn s u (List.mem_append_right _ (Rdf.mem_itemEntities hy h)))) (fun r hr => hr) hr) h
  | merge src =>
    exact absorbs_alone src.nodes
      (fun y hy r hr => Puts.alone hr (fun s u h => hn s u (List.mem_append_left _ (Rdf.mem_itemEntities hy h))))
      (fun r hr => absorbs_alone src.edges
        (fun y hy r hr => Puts.alone hr (fun s u h => hn s u (List.mem_append_right _ (Rdf.mem_itemEntities hy h)))) (fun r hr => hr) hr) h

theorem gives_unknown {known : String → Bool} {rival : String → Ulid → Prop} {made : String → Prop} {x : Call E NP EP}
    {r : Except (LR Err E) Unit} (h : x.Gives c known rival made r) {s : String} (hs : .string s ∈ x.op.entities)
    (hk : known s = false) (hm : ¬ made s) (hx : ¬ x.Creates s) :
    ∃ s', .string s' ∈ x.op.entities ∧ known s' = false ∧ r = .error (.left (.nameNotFound s')) := by
  obtain ⟨op, ids⟩ := x
  have find : ∀ {es : List Entity}, .string s ∈ es → (∃ r', Finds known made es r' ∧ r = Rdf.tag r') →
      ∃ s', .string s' ∈ es ∧ known s' = false ∧ r = .error (.left (.nameNotFound s')) := by
    rintro es hs ⟨r', ⟨rfl, h1⟩ | ⟨s', h1, h2, rfl⟩, rfl⟩
    · rcases h1 s hs with h | h
      · rw [hk] at h; cases h
      · exact absurd h hm
    · exact ⟨s', h1, h2, rfl⟩
  cases op with
  | removeNode e => exact find hs h
  | removeEdge t => exact find hs h
  | _ => exact absurd hs hx

theorem gives_made {known : String → Bool} {rival : String → Ulid → Prop} {made made' : String → Prop} {x : Call E NP EP}
    {r : Except (LR Err E) Unit} (h : x.Gives c known rival made r) (hm : ∀ s, made s → made' s) : x.Gives c known rival made' r := by
  obtain ⟨op, ids⟩ := x
  cases op with
  | removeNode e => exact h.imp (fun r' hr => ⟨hr.1.imp (fun h => ⟨h.1, fun s hs => (h.2 s hs).imp id (hm s)⟩) id, hr.2⟩)
  | removeEdge t => exact h.imp (fun r' hr => ⟨hr.1.imp (fun h => ⟨h.1, fun s hs => (h.2 s hs).imp id (hm s)⟩) id, hr.2⟩)
  | _ => exact h

end RdfSled.Outcome

end Verif
