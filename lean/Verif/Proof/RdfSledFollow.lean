import Verif.Spec.RdfSledLoose
import Verif.Proof.RdfSledConc
import Verif.Proof.RdfSledNames

/-! # The calls on the triple store which the RDF layer makes -/

set_option linter.unusedSectionVars false

namespace Verif

open Spec ConcreteId

namespace Prog

variable {S α β : Type}

/-- While `J` holds, which the program sees to, it returns something in `Q`. -/
def Gives (J : S → Prop) (Q : α → Prop) : Prog S α → Prop
  | .ret a => Q a
  | .call f k => ∀ s, J s → J (f s) ∧ (k s).Gives J Q

theorem Gives.bind {J : S → Prop} {Q : α → Prop} {R : β → Prop} {p : Prog S α} {g : α → Prog S β} (h : p.Gives J Q)
    (hg : ∀ a, Q a → (g a).Gives J R) : (p.bind g).Gives J R := by
  induction p with
  | ret a => exact hg a h
  | call f k ih => exact fun s hs => ⟨(h s hs).1, ih s (h s hs).2⟩

theorem Gives.mono {J : S → Prop} {Q R : α → Prop} {p : Prog S α} (h : p.Gives J Q) (hQ : ∀ a, Q a → R a) : p.Gives J R := by
  induction p with
  | ret a => exact hQ a h
  | call f k ih => exact fun s hs => ⟨(h s hs).1, ih s (h s hs).2⟩

end Prog

namespace RdfSled

variable {NP EP E α β : Type} {cl : Codec String} {cr : Codec Ulid} {c : Codecs NP EP} {mN : NP → NP → NP} {mE : EP → EP → EP}

abbrev Names := String → Option Ulid

theorem Keeps.refl (f : Names) : Keeps f f := fun _ _ h => h

theorem Keeps.trans {f g h : Names} (h1 : Keeps f g) (h2 : Keeps g h) : Keeps f h := fun s u hs => h2 s u (h1 s u hs)

theorem Keeps.none {f g : Names} (h : Keeps f g) {s : String} (hs : g s = none) : f s = none := by
  cases e : f s with
  | none => rfl
  | some u => rw [h s u e] at hs; cases hs

theorem idIn_mono {f f' : Names} (h : Keeps f f') {e : Entity} {u : Ulid} (he : idIn f e = some u) : idIn f' e = some u := by
  cases e with
  | string s => exact h s u he
  | ulid v => exact he

theorem tripleIn_eq {f : Names} {t : Triple Entity} {u : Triple Ulid} :
    tripleIn f t = some u ↔ idIn f t.sub = some u.sub ∧ idIn f t.pred = some u.pred ∧ idIn f t.obj = some u.obj := by
  unfold tripleIn
  cases idIn f t.sub <;> cases idIn f t.pred <;> cases idIn f t.obj <;> simp
  obtain ⟨a, b, c⟩ := u
  simp

theorem tripleIn_mono {f f' : Names} (h : Keeps f f') {t : Triple Entity} {u : Triple Ulid} (he : tripleIn f t = some u) :
    tripleIn f' t = some u := by
  rw [tripleIn_eq] at he ⊢
  exact ⟨idIn_mono h he.1, idIn_mono h he.2.1, idIn_mono h he.2.2⟩

theorem callIn_mono {f f' : Names} (h : Keeps f f') {y : Sled.Call E Entity NP EP} {z : Sled.Call E Ulid NP EP}
    (he : callIn f y = some z) : callIn f' y = some z := by
  cases y with
  | insertNode e p =>
    obtain ⟨u, h1, rfl⟩ := Option.map_eq_some_iff.1 he
    simp [callIn, idIn_mono h h1]
  | mergeNode e p =>
    obtain ⟨u, h1, rfl⟩ := Option.map_eq_some_iff.1 he
    simp [callIn, idIn_mono h h1]
  | removeNode e =>
    obtain ⟨u, h1, rfl⟩ := Option.map_eq_some_iff.1 he
    simp [callIn, idIn_mono h h1]
  | removeEdge t =>
    obtain ⟨u, h1, rfl⟩ := Option.map_eq_some_iff.1 he
    simp [callIn, tripleIn_mono h h1]
  | insertEdge i t p =>
    obtain ⟨v, h0, h2⟩ := Option.bind_eq_some_iff.1 he
    obtain ⟨u, h1, rfl⟩ := Option.map_eq_some_iff.1 h2
    simp [callIn, idIn_mono h h0, tripleIn_mono h h1]
  | mergeEdge i t p =>
    obtain ⟨v, h0, h2⟩ := Option.bind_eq_some_iff.1 he
    obtain ⟨u, h1, rfl⟩ := Option.map_eq_some_iff.1 h2
    simp [callIn, idIn_mono h h0, tripleIn_mono h h1]
  | _ => cases he

theorem pieceIn_mono {f f' : Names} (h : Keeps f f') {y : Sled.PieceCall E Entity NP EP} {z : Sled.PieceCall E Ulid NP EP}
    (he : pieceIn f y = some z) : pieceIn f' y = some z := by
  obtain ⟨u, h1, rfl⟩ := Option.map_eq_some_iff.1 he
  simp [pieceIn, callIn_mono h h1]

theorem Fails.mono {f f' f'' : Names} (h : Keeps f' f'') {th : List (PieceCall E NP EP)} {y : Sled.Call E Entity NP EP}
    (hf : Fails f f' th y) : Fails f f'' th y := by
  cases y with
  | insertNode e p => obtain ⟨s, v, h1, h2, h3, h4⟩ := hf; exact ⟨s, v, h1, h2, h _ _ h3, h4⟩
  | mergeNode e p => obtain ⟨s, v, h1, h2, h3, h4⟩ := hf; exact ⟨s, v, h1, h2, h _ _ h3, h4⟩
  | insertEdge i t p => obtain ⟨s, v, h1, h2, h3, h4⟩ := hf; exact ⟨s, v, h1, h2, h _ _ h3, h4⟩
  | mergeEdge i t p => obtain ⟨s, v, h1, h2, h3, h4⟩ := hf; exact ⟨s, v, h1, h2, h _ _ h3, h4⟩
  | _ => exact hf

/-- what a thread knows about the names, whatever others do to them: they draw ids in `O` -/
def Stable (O : Ulid → Prop) (K : Names → Prop) : Prop :=
  ∀ f f', K f → Keeps f f' → (∀ s u, f' s = some u → f s = some u ∨ O u) → K f'

/-- The program is to make the calls `l` on the triple store, and knows `K` about the names.  It gives ids to names as allowed by
`A`.  It stops only when it has made all calls, or for the reason `W`. -/
inductive Follows (cl : Codec String) (cr : Codec Ulid) (c : Codecs NP EP) (mN : NP → NP → NP) (mE : EP → EP → EP)
    (O : Ulid → Prop) (A : String → Ulid → Prop) (W : Names → Sled.PieceCall E Entity NP EP → Prop) (J : Db → Prop) :
    (Names → Prop) → List (Sled.PieceCall E Entity NP EP) → Prog RdfDb Unit → Prop
  | ret {K : Names → Prop} {l : List (Sled.PieceCall E Entity NP EP)}
      (h : ∀ f, K f → l = [] ∨ ∃ y l', l = y :: l' ∧ W f y) : Follows cl cr c mN mE O A W J K l (.ret ())
  | names {K : Names → Prop} {l : List (Sled.PieceCall E Entity NP EP)} {g : IndexDb → IndexDb} {k : RdfDb → Prog RdfDb Unit}
      (K' : RdfDb → Names → Prop) (hs : ∀ d, Stable O (K' d))
      (h : ∀ d f, (SledIndex.impl cl cr).Shows d.names f → K f → ∃ f', (SledIndex.impl cl cr).Shows (g d.names) f' ∧ Keeps f f' ∧
        (∀ s u, f' s = some u → f s = some u ∨ A s u) ∧ K' d f')
      (hk : ∀ d, Follows cl cr c mN mE O A W J (K' d) l (k d)) :
      Follows cl cr c mN mE O A W J K l (.call (fun d => { d with names := g d.names }) k)
  | data {K : Names → Prop} {l : List (Sled.PieceCall E Entity NP EP)} {α : Type} {p : Prog Db α} {k : α → Prog RdfDb Unit}
      {Q : α → Prop} (y : Sled.PieceCall E Entity NP EP) (z : Sled.PieceCall E Ulid NP EP)
      (h : ∀ f, K f → pieceIn f y = some z) (hp : z.prog c mN mE = p.bind (fun _ => .ret ())) (hg : p.Gives J Q)
      (hk : ∀ a, Q a → Follows cl cr c mN mE O A W J K l (k a)) :
      Follows cl cr c mN mE O A W J K (y :: l) (p.onData.bind k)

variable {O : Ulid → Prop} {A : String → Ulid → Prop} {W : Names → Sled.PieceCall E Entity NP EP → Prop} {J : Db → Prop}

theorem Follows.weaken {K K' : Names → Prop} {l : List (Sled.PieceCall E Entity NP EP)} {p : Prog RdfDb Unit}
    (h : Follows cl cr c mN mE O A W J K l p) (hK : ∀ f, K' f → K f) : Follows cl cr c mN mE O A W J K' l p := by
  induction h generalizing K' with
  | ret h => exact .ret (fun f hf => h f (hK f hf))
  | names K1 hs h hk _ => exact .names K1 hs (fun d f hd hf => h d f hd (hK f hf)) hk
  | data y z h hp hg hk ih => exact .data y z (fun f hf => h f (hK f hf)) hp hg (fun a ha => ih a ha hK)

/-- a call on the triple store -/
theorem follows_graph {K : Names → Prop} {l : List (Sled.PieceCall E Entity NP EP)} {p : Prog Db (Except SErr Unit)} {i : Ids}
    {k : Ids × Except Err Unit → Prog RdfDb Unit} {Q : Except SErr Unit → Prop} (y : Sled.PieceCall E Entity NP EP)
    (z : Sled.PieceCall E Ulid NP EP) (h : ∀ f, K f → pieceIn f y = some z) (hp : z.prog c mN mE = p.bind (fun _ => .ret ()))
    (hg : p.Gives J Q) (hok : Follows cl cr c mN mE O A W J K l (k (i, .ok ())))
    (herr : ∀ e, Q (.error e) → Follows cl cr c mN mE O A W J K l (k (i, .error (.graph e)))) :
    Follows cl cr c mN mE O A W J K (y :: l) ((onGraph p i).bind k) := by
  unfold onGraph
  rw [Prog.bind_assoc]
  refine .data y z h hp hg (fun a ha => ?_)
  cases a with
  | ok u => exact hok
  | error e => exact herr e ha

section
variable (hl : cl.RoundTrips) (hr : cr.RoundTrips) (tl : cl.Total) (tr : cr.Total)
include tl

/-- a look-up in the index -/
theorem follows_look {f0 : Names} {K : Names → Prop} (hK : Stable O K) (h0 : ∀ f, K f → Keeps f0 f)
    {l : List (Sled.PieceCall E Entity NP EP)} {s : String}
    {i : Ids} {k : Ids × Except Err (Option Ulid) → Prog RdfDb Unit}
    (hsome : ∀ u, Follows cl cr c mN mE O A W J (fun f => K f ∧ f s = some u) l (k (i, .ok (some u))))
    (hnone : Follows cl cr c mN mE O A W J (fun f => K f ∧ (∀ v, f s = some v → O v) ∧ f0 s = none) l (k (i, .ok none)))
    (herr : ∀ e, Follows cl cr c mN mE O A W J (fun _ => False) l (k (i, .error e))) :
    Follows cl cr c mN mE O A W J K l ((onIndex (SledIndex.leftToRightProg cl cr s) i).bind k) := by
  obtain ⟨ks, hks⟩ := Option.isSome_iff_exists.1 (tl s)
  unfold onIndex SledIndex.leftToRightProg
  simp only [hks, Prog.onNames, Prog.bind]
  refine .names (g := id) (fun d f => match SledIndex.lookup cl cr (SledIndexErr.serialization (L := String) (R := Ulid)) d.names.leftToRight s with
      | .error _ => False
      | .ok (some u) => K f ∧ f s = some u
      | .ok none => K f ∧ (∀ v, f s = some v → O v) ∧ f0 s = none) (fun d => ?_) (fun d f hd hf => ?_) (fun d => ?_)
  · intro f f' h1 h2 h3
    cases e : SledIndex.lookup cl cr (SledIndexErr.serialization (L := String) (R := Ulid)) d.names.leftToRight s with
    | error e' => rw [e] at h1; exact h1
    | ok o =>
      rw [e] at h1
      cases o with
      | some u => exact ⟨hK f f' h1.1 h2 h3, h2 _ _ h1.2⟩
      | none =>
        refine ⟨hK f f' h1.1 h2 h3, fun v hv => ?_, h1.2.2⟩
        rcases h3 s v hv with h | h
        · exact h1.2.1 v h
        · exact h
  · refine ⟨f, hd, Keeps.refl f, fun _ _ h => .inl h, ?_⟩
    have := hd.1 s
    rw [show (SledIndex.impl cl cr).leftToRight d.names s =
      SledIndex.lookup cl cr (SledIndexErr.serialization (L := String) (R := Ulid)) d.names.leftToRight s from rfl] at this
    rw [this]
    cases e : f s with
    | some u => exact ⟨hf, rfl⟩
    | none => exact ⟨hf, fun v hv => (by cases hv), (h0 f hf).none e⟩
  · cases e : SledIndex.lookup cl cr (SledIndexErr.serialization (L := String) (R := Ulid)) d.names.leftToRight s with
    | error e' => exact herr _
    | ok o =>
      cases o with
      | some u => exact hsome u
      | none => exact hnone

include hl hr tr

/-- a new name in the index -/
theorem follows_set {K K' : Names → Prop} (hK : Stable O K) (hK' : Stable O K') {s : String} {u : Ulid} (hA : A s u)
    (hKK : ∀ f, K f → f s = none → (∀ m, f m ≠ some u) → K' (fun m => if m = s then some u else f m))
    {l : List (Sled.PieceCall E Entity NP EP)} {i : Ids} {k : Ids × Except Err Unit → Prog RdfDb Unit}
    (hok : Follows cl cr c mN mE O A W J (fun f => K' f ∧ f s = some u) l (k (i, .ok ())))
    (herr : ∀ e, Follows cl cr c mN mE O A W J (fun f => K f ∧ ((∃ v, f s = some v) ∨ ∃ m, f m = some u)) l (k (i, .error e))) :
    Follows cl cr c mN mE O A W J K l ((onIndex (SledIndex.setProg cl cr s u) i).bind k) := by
  obtain ⟨F, H, hF⟩ := setProg_shape (cl := cl) (cr := cr) tl tr s u
  have hrun : ∀ d, (SledIndex.setProg cl cr s u).run d = (F d, H d) := fun d => by rw [hF]; rfl
  rw [hF]
  unfold onIndex
  simp only [Prog.onNames, Prog.bind]
  refine .names (g := F) (fun d f => match H d.names with
      | .ok () => K' f ∧ f s = some u
      | .error _ => K f ∧ ((∃ v, f s = some v) ∨ ∃ m, f m = some u)) (fun d => ?_) (fun d f hd hf => ?_) (fun d => ?_)
  · intro f f' h1 h2 h3
    cases e : H d.names with
    | ok o => rw [e] at h1; exact ⟨hK' f f' h1.1 h2 h3, h2 _ _ h1.2⟩
    | error e' =>
      rw [e] at h1
      refine ⟨hK f f' h1.1 h2 h3, ?_⟩
      rcases h1.2 with ⟨v, h⟩ | ⟨m, h⟩
      · exact .inl ⟨v, h2 _ _ h⟩
      · exact .inr ⟨m, h2 _ _ h⟩
  · by_cases h : f s = none ∧ ∀ m, f m ≠ some u
    · obtain ⟨i', h1, h2⟩ := SledIndex.lawful hl hr tl tr d.names f s u hd h.1 h.2
      obtain ⟨e1, e2⟩ := Prod.mk.inj ((hrun d.names).symm.trans h1)
      refine ⟨_, e1 ▸ h2, fun m v hm => ?_, fun m v hm => ?_, ?_⟩
      · have : m ≠ s := by rintro rfl; rw [h.1] at hm; cases hm
        simp only [this, if_false, hm]
      · by_cases hms : m = s
        · subst hms
          simp only [if_true, Option.some.injEq] at hm
          subst hm
          exact .inr hA
        · simp only [hms, if_false] at hm
          exact .inl hm
      · rw [e2]
        exact ⟨hKK f hf h.1 h.2, by simp⟩
    · have h' : (∃ v, f s = some v) ∨ ∃ m, f m = some u := by
        by_cases hs : f s = none
        · right
          by_contra hn
          exact h ⟨hs, fun m hm => hn ⟨m, hm⟩⟩
        · left
          exact Option.ne_none_iff_exists'.1 hs
      have key : (F d.names, H d.names).1 = d.names ∧ ∃ e, H d.names = .error e := by
        rw [← hrun]
        obtain ⟨ks, hks⟩ := Option.isSome_iff_exists.1 (tl s)
        obtain ⟨ku, hku⟩ := Option.isSome_iff_exists.1 (tr u)
        have hH : H d.names = ((SledIndex.setProg cl cr s u).run d.names).2 := by rw [hrun]
        rw [hH, SledIndex.set_run d.names hks hku]
        cases hg : d.names.leftToRight.get ks with
        | some v => rw [SledIndex.setTx_left d.names s u hg]; exact ⟨rfl, _, rfl⟩
        | none =>
          cases hg' : d.names.rightToLeft.get ku with
          | some v => rw [SledIndex.setTx_right d.names s u hg hg']; exact ⟨rfl, _, rfl⟩
          | none =>
            exfalso
            refine h ⟨?_, fun m hm => ?_⟩
            · have := hd.1 s
              rw [show (SledIndex.impl cl cr).leftToRight d.names s = .ok none from (SledIndex.lookup_none hks).2 hg] at this
              exact (Except.ok.inj this).symm
            · obtain ⟨o, h1, h2⟩ := hd.2 u
              rw [show (SledIndex.impl cl cr).rightToLeft d.names u = .ok none from (SledIndex.lookup_none hku).2 hg'] at h1
              cases h1
              cases (h2 m).2 hm
      obtain ⟨e1, e, e2⟩ := key
      refine ⟨f, ?_, Keeps.refl f, fun _ _ h => .inl h, ?_⟩
      · have e1' : F d.names = d.names := e1
        rw [e1']
        exact hd
      · rw [e2]
        exact ⟨hf, h'⟩
  · cases e : H d.names with
    | ok o => exact hok
    | error e' => exact herr _

end

/-! ## the functions of the RDF layer -/

/-- the ids a call may still give to names -/
structure Sup (b : Bool) (O U : Ulid → Prop) (n : Nat) (i : Ids) : Prop where
  allowed : ∀ j < n, U (i.ulid j)
  fresh : b = true ∨ (Fresh n i.ulid ∧ ∀ j < n, ¬ O (i.ulid j))

/-- `P`, and these ids name nothing yet -/
def Know (b : Bool) (P : Names → Prop) (i : Ids) (n : Nat) (f : Names) : Prop :=
  P f ∧ (b = true ∨ ∀ j < n, ∀ s, f s ≠ some (i.ulid j))

variable {b : Bool} {U : Ulid → Prop} {f0 : Names} {P : Names → Prop} {n : Nat} {i : Ids}

/-- what remains true as names are added, and what is true from the start -/
structure Grows' (f0 : Names) (P : Names → Prop) : Prop where
  mono : ∀ f f', P f → Keeps f f' → P f'
  start : ∀ f, P f → Keeps f0 f

theorem Grows'.and (h : Grows' f0 P) {e : Entity} {u : Ulid} : Grows' f0 (fun f => P f ∧ idIn f e = some u) :=
  ⟨fun f f' h1 h2 => ⟨h.mono f f' h1.1 h2, idIn_mono h2 h1.2⟩, fun f h1 => h.start f h1.1⟩

theorem Sup.fewer {m : Nat} (h : Sup b O U n i) (hm : m ≤ n) : Sup b O U m i := by
  refine ⟨fun j hj => h.allowed j (by omega), ?_⟩
  rcases h.fresh with h' | ⟨h1, h2⟩
  · exact .inl h'
  · exact .inr ⟨fun a ha b hb => h1 a (by omega) b (by omega), fun j hj => h2 j (by omega)⟩

theorem Sup.next (h : Sup b O U (n + 1) i) : Sup b O U n { i with ulid := (Gen.fresh i.ulid).2 } := by
  refine ⟨fun j hj => h.allowed (j + 1) (by omega), ?_⟩
  rcases h.fresh with h' | ⟨h1, h2⟩
  · exact .inl h'
  · exact .inr ⟨fun x hx y hy e => by have := h1 (x + 1) (by omega) (y + 1) (by omega) e; omega, fun j hj => h2 (j + 1) (by omega)⟩

theorem Know.fewer {m : Nat} {f : Names} (h : Know b P i n f) (hm : m ≤ n) : Know b P i m f :=
  ⟨h.1, h.2.imp id (fun h j hj => h j (by omega))⟩

theorem Know.stable (hP : Grows' f0 P) (hS : Sup b O U n i) : Stable O (Know b P i n) := by
  intro f f' h1 h2 h3
  refine ⟨hP.mono f f' h1.1 h2, ?_⟩
  rcases hS.fresh with h' | ⟨-, h'⟩
  · exact .inl h'
  · rcases h1.2 with h4 | h4
    · exact .inl h4
    · refine .inr (fun j hj s hs => ?_)
      rcases h3 s _ hs with h5 | h5
      · exact h4 j hj s h5
      · exact h' j hj h5

def Halts (k : Ids × Except Err α → Prog RdfDb Unit) : Prop := ∀ i e, k (i, .error e) = .ret ()

theorem halts_andThen {f : α → Task β} {k : Ids × Except Err β → Prog RdfDb Unit} (h : Halts k) :
    Halts (fun r : Ids × Except Err α => (match r.2 with | .error e => Prog.ret (r.1, Except.error e) | .ok a => f a r.1).bind k) :=
  fun i e => h i e

theorem Task.andThen_bind {m : Task α} {f : α → Task β} {k : Ids × Except Err β → Prog RdfDb Unit} :
    ((m.andThen f) i).bind k =
      (m i).bind (fun r => (match r.2 with | .error e => Prog.ret (r.1, Except.error e) | .ok a => f a r.1).bind k) :=
  Prog.bind_assoc _ _ _

section
variable (hl : cl.RoundTrips) (hr : cr.RoundTrips) (tl : cl.Total) (tr : cr.Total)
include hl hr tl tr

/-- `lookup_or_create_entity` -/
theorem follows_create (hb : b = true → ∀ f y, W f y) (hP : Grows' f0 P) (hS : Sup b O U (n + 1) i) {e : Entity}
    {y : Sled.PieceCall E Entity NP EP} {l : List (Sled.PieceCall E Entity NP EP)}
    (hA : ∀ s u, e = .string s → U u → A s u)
    (hW : ∀ f s v, e = .string s → f0 s = none → f s = some v → O v → W f y)
    {k : Ids × Except Err Ulid → Prog RdfDb Unit} (hk : Halts k)
    (h : ∀ i' u, Sup b O U n i' → i'.gen = i.gen →
      Follows cl cr c mN mE O A W J (Know b (fun f => P f ∧ idIn f e = some u) i' n) (y :: l) (k (i', .ok u))) :
    Follows cl cr c mN mE O A W J (Know b P i (n + 1)) (y :: l) ((lookupOrCreateEntity cl cr e i).bind k) := by
  cases e with
  | ulid u =>
    exact (h i u (hS.fewer (by omega)) rfl).weaken (fun f hf => ⟨⟨hf.1, rfl⟩, (hf.fewer (by omega : n ≤ n + 1)).2⟩)
  | string s =>
    unfold lookupOrCreateEntity
    rw [Task.andThen_bind]
    refine follows_look tl (f0 := f0) (Know.stable hP hS) (fun f hf => hP.start f hf.1) (fun u => ?_) ?_ (fun e => ?_)
    · exact (h i u (hS.fewer (by omega)) rfl).weaken (fun f hf => ⟨⟨hf.1.1, hf.2⟩, (hf.1.fewer (by omega : n ≤ n + 1)).2⟩)
    · dsimp only
      rw [Task.andThen_bind]
      have hst : Stable O (fun f => Know b P i (n + 1) f ∧ (∀ v, f s = some v → O v) ∧ f0 s = none) := by
        intro f f' h1 h2 h3
        refine ⟨Know.stable hP hS f f' h1.1 h2 h3, fun v hv => ?_, h1.2.2⟩
        rcases h3 s v hv with h4 | h4
        · exact h1.2.1 v h4
        · exact h4
      refine follows_set hl hr tl tr (K' := Know b P { i with ulid := (Gen.fresh i.ulid).2 } n) hst (Know.stable hP hS.next)
        (hA s _ rfl (hS.allowed 0 (by omega))) (fun f hf hn hu => ?_) ?_ (fun e => ?_)
      · refine ⟨hP.mono f _ hf.1.1 (fun m v hm => ?_), ?_⟩
        · have : m ≠ s := by rintro rfl; rw [hn] at hm; cases hm
          simp only [this, if_false, hm]
        · rcases hS.fresh with h' | ⟨h', -⟩
          · exact .inl h'
          · rcases hf.1.2 with h4 | h4
            · exact .inl h4
            · refine .inr (fun j hj m hm => ?_)
              by_cases hms : m = s
              · simp only [hms, if_true, Option.some.injEq] at hm
                have := h' 0 (by omega) (j + 1) (by omega) hm
                omega
              · simp only [hms, if_false] at hm
                exact h4 (j + 1) (by omega) m hm
      · exact (h _ _ hS.next rfl).weaken (fun f hf => ⟨⟨hf.1.1, hf.2⟩, hf.1.2⟩)
      · show Follows cl cr c mN mE O A W J _ _ (k (_, .error e))
        rw [hk]
        refine .ret (fun f hf => .inr ⟨y, l, rfl, ?_⟩)
        obtain ⟨⟨h1, h2, h3⟩, h4⟩ := hf
        rcases h1.2 with h5 | h5
        · exact hb h5 f y
        · rcases h4 with ⟨v, hv⟩ | ⟨m, hm⟩
          · exact hW f s v rfl h3 hv (h2 v hv)
          · exact absurd hm (h5 0 (by omega) m)
    · show Follows cl cr c mN mE O A W J _ _ (k (_, .error e))
      rw [hk]
      exact .ret (fun f hf => hf.elim)

omit hl hr tr in
/-- `lookup_entity` -/
theorem follows_lookup (hP : Grows' f0 P) (hS : Sup b O U n i) {e : Entity}
    {y : Sled.PieceCall E Entity NP EP} {l : List (Sled.PieceCall E Entity NP EP)}
    (hW : ∀ f s, e = .string s → f0 s = none → W f y)
    {k : Ids × Except Err Ulid → Prog RdfDb Unit} (hk : Halts k)
    (h : ∀ u, Follows cl cr c mN mE O A W J (Know b (fun f => P f ∧ idIn f e = some u) i n) (y :: l) (k (i, .ok u))) :
    Follows cl cr c mN mE O A W J (Know b P i n) (y :: l) ((lookupEntity cl cr e i).bind k) := by
  cases e with
  | ulid u => exact (h u).weaken (fun f hf => ⟨⟨hf.1, rfl⟩, hf.2⟩)
  | string s =>
    unfold lookupEntity
    rw [Task.andThen_bind]
    refine follows_look tl (f0 := f0) (Know.stable hP hS) (fun f hf => hP.start f hf.1) (fun u => ?_) ?_ (fun e => ?_)
    · exact (h u).weaken (fun f hf => ⟨⟨hf.1.1, hf.2⟩, hf.1.2⟩)
    · show Follows cl cr c mN mE O A W J _ _ (k (_, .error (.nameNotFound s)))
      rw [hk]
      exact .ret (fun f hf => .inr ⟨y, l, rfl, hW f s rfl hf.2.2⟩)
    · show Follows cl cr c mN mE O A W J _ _ (k (_, .error e))
      rw [hk]
      exact .ret (fun f hf => hf.elim)

/-- `try_map(lookup_or_create_entity)` -/
theorem follows_createTriple (hb : b = true → ∀ f y, W f y) (hP : Grows' f0 P) (hS : Sup b O U (n + 3) i) {t : Triple Entity}
    {y : Sled.PieceCall E Entity NP EP} {l : List (Sled.PieceCall E Entity NP EP)}
    (hA : ∀ s u, .string s ∈ RdfState.parts t → U u → A s u)
    (hW : ∀ f s v, .string s ∈ RdfState.parts t → f0 s = none → f s = some v → O v → W f y)
    {k : Ids × Except Err (Triple Ulid) → Prog RdfDb Unit} (hk : Halts k)
    (h : ∀ i' u, Sup b O U n i' → i'.gen = i.gen →
      Follows cl cr c mN mE O A W J (Know b (fun f => P f ∧ tripleIn f t = some u) i' n) (y :: l) (k (i', .ok u))) :
    Follows cl cr c mN mE O A W J (Know b P i (n + 3)) (y :: l) ((tryMap (lookupOrCreateEntity cl cr) t i).bind k) := by
  unfold tryMap
  rw [Task.andThen_bind]
  refine follows_create hl hr tl tr hb hP hS (fun s u e => hA s u (by simp [RdfState.parts, e]))
    (fun f s v e => hW f s v (by simp [RdfState.parts, e])) (halts_andThen hk) (fun i1 u1 hS1 e1 => ?_)
  dsimp only
  rw [Task.andThen_bind]
  refine follows_create hl hr tl tr hb hP.and hS1 (fun s u e => hA s u (by simp [RdfState.parts, e]))
    (fun f s v e => hW f s v (by simp [RdfState.parts, e])) (halts_andThen hk) (fun i2 u2 hS2 e2 => ?_)
  dsimp only
  rw [Task.andThen_bind]
  refine follows_create hl hr tl tr hb hP.and.and hS2 (fun s u e => hA s u (by simp [RdfState.parts, e]))
    (fun f s v e => hW f s v (by simp [RdfState.parts, e])) (halts_andThen hk) (fun i3 u3 hS3 e3 => ?_)
  exact (h i3 ⟨u1, u2, u3⟩ hS3 (e3.trans (e2.trans e1))).weaken
    (fun f hf => ⟨⟨hf.1.1.1.1, tripleIn_eq.2 ⟨hf.1.1.1.2, hf.1.1.2, hf.1.2⟩⟩, hf.2⟩)

omit hl hr tr in
/-- `try_map(lookup_entity)` -/
theorem follows_lookupTriple (hP : Grows' f0 P) (hS : Sup b O U n i) {t : Triple Entity}
    {y : Sled.PieceCall E Entity NP EP} {l : List (Sled.PieceCall E Entity NP EP)}
    (hW : ∀ f s, .string s ∈ RdfState.parts t → f0 s = none → W f y)
    {k : Ids × Except Err (Triple Ulid) → Prog RdfDb Unit} (hk : Halts k)
    (h : ∀ u, Follows cl cr c mN mE O A W J (Know b (fun f => P f ∧ tripleIn f t = some u) i n) (y :: l) (k (i, .ok u))) :
    Follows cl cr c mN mE O A W J (Know b P i n) (y :: l) ((tryMap (lookupEntity cl cr) t i).bind k) := by
  unfold tryMap
  rw [Task.andThen_bind]
  refine follows_lookup tl hP hS (fun f s e => hW f s (by simp [RdfState.parts, e])) (halts_andThen hk) (fun u1 => ?_)
  dsimp only
  rw [Task.andThen_bind]
  refine follows_lookup tl hP.and hS (fun f s e => hW f s (by simp [RdfState.parts, e])) (halts_andThen hk) (fun u2 => ?_)
  dsimp only
  rw [Task.andThen_bind]
  refine follows_lookup tl hP.and.and hS (fun f s e => hW f s (by simp [RdfState.parts, e])) (halts_andThen hk) (fun u3 => ?_)
  exact (h ⟨u1, u2, u3⟩).weaken
    (fun f hf => ⟨⟨hf.1.1.1.1, tripleIn_eq.2 ⟨hf.1.1.1.2, hf.1.1.2, hf.1.2⟩⟩, hf.2⟩)

end

end RdfSled

end Verif
