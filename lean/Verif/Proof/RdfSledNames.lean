import Verif.Spec.RdfSledConc
import Verif.Proof.RdfSled

/-! # Names only ever come in addition, whatever happens -/

namespace Verif

open Spec ConcreteId

namespace Prog

variable {S α β : Type}

/-- every call of the program leads from a state to one related to it -/
def Keeps (P : S → S → Prop) : Prog S α → Prop
  | .ret _ => True
  | .call f k => (∀ s, P s (f s)) ∧ ∀ s, (k s).Keeps P

theorem Keeps.bind {P : S → S → Prop} {p : Prog S α} {f : α → Prog S β} (h : p.Keeps P) (hf : ∀ a, (f a).Keeps P) :
    (p.bind f).Keeps P := by
  induction p with
  | ret a => exact hf a
  | call g k ih => exact ⟨h.1, fun s => ih s (h.2 s)⟩

theorem keeps_steps {P : S → S → Prop} (hr : ∀ s, P s s) (ht : ∀ a b c, P a b → P b c → P a c)
    {x y : S × List (List (Prog S α))} (h : ∀ q ∈ x.2, ∀ p ∈ q, p.Keeps P) (hs : Steps x y) :
    P x.1 y.1 ∧ ∀ q ∈ y.2, ∀ p ∈ q, p.Keeps P := by
  induction hs with
  | refl => exact ⟨hr _, h⟩
  | tail _ h2 ih =>
    obtain ⟨i1, i2⟩ := ih
    cases h2 with
    | call s pre post f k q =>
      have hc := i2 (.call f k :: q) (by simp) (.call f k) (by simp)
      refine ⟨ht _ _ _ i1 (hc.1 _), fun q' hq p hp => ?_⟩
      simp only [List.mem_append, List.mem_cons] at hq
      rcases hq with hq | rfl | hq
      · exact i2 q' (by simp [hq]) p hp
      · rcases List.mem_cons.1 hp with rfl | hp
        · exact hc.2 _
        · exact i2 (.call f k :: q) (by simp) p (by simp [hp])
      · exact i2 q' (by simp [hq]) p hp
    | ret s pre post a q =>
      refine ⟨i1, fun q' hq p hp => ?_⟩
      simp only [List.mem_append, List.mem_cons] at hq
      rcases hq with hq | rfl | hq
      · exact i2 q' (by simp [hq]) p hp
      · exact i2 (.ret a :: q') (by simp) p (by simp [hp])
      · exact i2 q' (by simp [hq]) p hp
    | fail s pre post p0 q =>
      refine ⟨i1, fun q' hq p hp => ?_⟩
      simp only [List.mem_append, List.mem_cons] at hq
      rcases hq with hq | rfl | hq
      · exact i2 q' (by simp [hq]) p hp
      · exact i2 (p0 :: q') (by simp) p (by simp [hp])
      · exact i2 q' (by simp [hq]) p hp

end Prog

namespace RdfSled

variable {NP EP E α β : Type} {cl : Codec String} {cr : Codec Ulid} {c : Codecs NP EP} {mN : NP → NP → NP} {mE : EP → EP → EP}

/-- all names keep their ids, and no two get the same -/
def MoreNames (cl : Codec String) (cr : Codec Ulid) (d d' : RdfDb) : Prop :=
  ∀ f, (SledIndex.impl cl cr).Shows d.names f →
    ∃ f', (SledIndex.impl cl cr).Shows d'.names f' ∧ ∀ s u, f s = some u → f' s = some u

theorem MoreNames.refl (d : RdfDb) : MoreNames cl cr d d := fun f h => ⟨f, h, fun _ _ h => h⟩

theorem MoreNames.trans {d d' d'' : RdfDb} (h : MoreNames cl cr d d') (h' : MoreNames cl cr d' d'') :
    MoreNames cl cr d d'' := by
  intro f hf
  obtain ⟨f', h1, h2⟩ := h f hf
  obtain ⟨f'', h3, h4⟩ := h' f' h1
  exact ⟨f'', h3, fun s u hs => h4 s u (h2 s u hs)⟩

/-- a task that keeps the names -/
def Mild (cl : Codec String) (cr : Codec Ulid) (m : Task α) : Prop := ∀ i, (m i).Keeps (MoreNames cl cr)

theorem Mild.andThen {m : Task α} {f : α → Task β} (h : Mild cl cr m) (hf : ∀ a, Mild cl cr (f a)) : Mild cl cr (m.andThen f) := by
  intro i
  refine (h i).bind (fun r => ?_)
  obtain ⟨j, r⟩ := r
  cases r with
  | error e => trivial
  | ok a => exact hf a j

theorem mild_done (a : α) : Mild cl cr (done a) := fun _ => trivial

theorem onData_keeps (p : Prog Db α) : (p.onData).Keeps (MoreNames cl cr) := by
  induction p with
  | ret a => trivial
  | call f k ih => exact ⟨fun d => MoreNames.refl (cl := cl) (cr := cr) d, fun d => ih d.data⟩

theorem mild_onGraph (p : Prog Db (Except SErr Unit)) : Mild cl cr (onGraph p) := fun _ =>
  (onData_keeps p).bind (fun _ => trivial)

theorem mild_leftToRight (s : String) : Mild cl cr (onIndex (SledIndex.leftToRightProg cl cr s)) := by
  intro i
  unfold onIndex SledIndex.leftToRightProg
  cases cl.ser s with
  | none => trivial
  | some b => exact ⟨fun d => MoreNames.refl d, fun _ => trivial⟩

section
variable (hl : cl.RoundTrips) (hr : cr.RoundTrips) (tl : cl.Total) (tr : cr.Total)
include hl hr tl tr

theorem set_more (s : String) (u : Ulid) (d : RdfDb) :
    MoreNames cl cr d { d with names := ((SledIndex.setProg cl cr s u).run d.names).1 } := by
  intro f hf
  obtain ⟨ks, hks⟩ := Option.isSome_iff_exists.1 (tl s)
  obtain ⟨ku, hku⟩ := Option.isSome_iff_exists.1 (tr u)
  by_cases h : f s = none ∧ ∀ m, f m ≠ some u
  · obtain ⟨i, h1, h2⟩ := SledIndex.lawful hl hr tl tr d.names f s u hf h.1 h.2
    have h1' : (SledIndex.setProg cl cr s u).run d.names = (i, .ok ()) := h1
    refine ⟨_, by dsimp only; rw [h1']; exact h2, fun m v hm => ?_⟩
    have : m ≠ s := by rintro rfl; rw [h.1] at hm; cases hm
    simp only [this, if_false, hm]
  · have e : ((SledIndex.setProg cl cr s u).run d.names).1 = d.names := by
      rw [SledIndex.set_run d.names hks hku]
      cases hg : d.names.leftToRight.get ks with
      | some v => rw [SledIndex.setTx_left d.names s u hg]
      | none =>
        cases hg' : d.names.rightToLeft.get ku with
        | some v => rw [SledIndex.setTx_right d.names s u hg hg']
        | none =>
          exfalso
          refine h ⟨?_, fun m hm => ?_⟩
          · have := hf.1 s
            rw [show (SledIndex.impl cl cr).leftToRight d.names s = .ok none from (SledIndex.lookup_none hks).2 hg] at this
            exact (Except.ok.inj this).symm
          · obtain ⟨o, h1, h2⟩ := hf.2 u
            rw [show (SledIndex.impl cl cr).rightToLeft d.names u = .ok none from (SledIndex.lookup_none hku).2 hg'] at h1
            cases h1
            cases (h2 m).2 hm
    dsimp only
    rw [e]
    exact ⟨f, hf, fun _ _ h => h⟩

theorem mild_set (s : String) (u : Ulid) : Mild cl cr (onIndex (SledIndex.setProg cl cr s u)) := by
  intro i
  obtain ⟨ks, hks⟩ := Option.isSome_iff_exists.1 (tl s)
  obtain ⟨ku, hku⟩ := Option.isSome_iff_exists.1 (tr u)
  have key := set_more hl hr tl tr s u
  unfold onIndex
  unfold SledIndex.setProg at key ⊢
  simp only [hks, hku] at key ⊢
  exact ⟨key, fun _ => trivial⟩

theorem mild_create (e : Entity) : Mild cl cr (lookupOrCreateEntity cl cr e) := by
  cases e with
  | ulid v => exact mild_done v
  | string s =>
    refine (mild_leftToRight s).andThen (fun o => ?_)
    cases o with
    | some v => exact mild_done v
    | none => exact fun i => ((mild_set hl hr tl tr s _).andThen (fun _ => mild_done _)) _

omit hl hr tl tr in
theorem mild_look (e : Entity) : Mild cl cr (lookupEntity cl cr e) := by
  cases e with
  | ulid v => exact mild_done v
  | string s =>
    refine (mild_leftToRight s).andThen (fun o => ?_)
    cases o with
    | some v => exact mild_done v
    | none => exact fun _ => trivial

omit hl hr tl tr in
theorem mild_tryMap {f : Entity → Task Ulid} (h : ∀ e, Mild cl cr (f e)) (t : Triple Entity) : Mild cl cr (tryMap f t) :=
  (h _).andThen (fun _ => (h _).andThen (fun _ => (h _).andThen (fun _ => mild_done _)))

omit hl hr tl tr in
theorem keeps_single {m : Task Unit} (h : Mild cl cr m) (i : Ids) : (single (E := E) m i).Keeps (MoreNames cl cr) :=
  (h i).bind (fun _ => trivial)

omit hl hr tl tr in
theorem keeps_absorb {f : α → Task Unit} (h : ∀ a, Mild cl cr (f a)) {k : Ids → Prog RdfDb (Ids × Except (LR Err E) Unit)}
    (hk : ∀ i, (k i).Keeps (MoreNames cl cr)) (l : List (Except E α)) (i : Ids) : (absorb f k l i).Keeps (MoreNames cl cr) := by
  induction l generalizing i with
  | nil => exact hk i
  | cons y l ih =>
    cases y with
    | error e => trivial
    | ok y =>
      refine (h y i).bind (fun r => ?_)
      obtain ⟨j, r⟩ := r
      cases r with
      | error e => trivial
      | ok u => exact ih j

theorem prog_keeps (op : Op E Entity NP EP) (i : Ids) : (prog cl cr c mN mE op i).Keeps (MoreNames cl cr) := by
  have iN : ∀ e p, Mild cl cr (insertNode cl cr c e p) := fun e p =>
    (mild_create hl hr tl tr e).andThen (fun _ => mild_onGraph _)
  have gN : ∀ e p, Mild cl cr (mergeNode cl cr c mN e p) := fun e p =>
    (mild_create hl hr tl tr e).andThen (fun _ => mild_onGraph _)
  have iE : ∀ t p, Mild cl cr (insertEdge cl cr c t p) := fun t p =>
    (mild_tryMap (mild_create hl hr tl tr) t).andThen (fun _ _ => mild_onGraph _ _)
  have gE : ∀ t p, Mild cl cr (mergeEdge cl cr c mE t p) := fun t p =>
    (mild_tryMap (mild_create hl hr tl tr) t).andThen (fun _ _ => mild_onGraph _ _)
  cases op with
  | insertNode e p => exact keeps_single (iN e p) i
  | insertEdge t p => exact keeps_single (iE t p) i
  | mergeNode e p => exact keeps_single (gN e p) i
  | mergeEdge t p => exact keeps_single (gE t p) i
  | removeNode e => exact keeps_single ((mild_look e).andThen (fun _ => mild_onGraph _)) i
  | removeEdge t => exact keeps_single ((mild_tryMap mild_look t).andThen (fun _ => mild_onGraph _)) i
  | extend src =>
    exact keeps_absorb (fun x => iN x.1 x.2)
      (k := absorb (fun x => insertEdge cl cr c x.1 x.2) (fun i => .ret (i, .ok ())) src.edges)
      (fun i => keeps_absorb (fun x => iE x.1 x.2) (k := fun i => .ret (i, .ok ())) (fun _ => trivial) src.edges i)
      src.nodes i
  | merge src =>
    exact keeps_absorb (fun x => gN x.1 x.2)
      (k := absorb (fun x => mergeEdge cl cr c mE x.1 x.2) (fun i => .ret (i, .ok ())) src.edges)
      (fun i => keeps_absorb (fun x => gE x.1 x.2) (k := fun i => .ret (i, .ok ())) (fun _ => trivial) src.edges i)
      src.nodes i

theorem names_moment {d0 d : RdfDb} {threads : List (List (Call E NP EP))} (hm : Moment cl cr c mN mE d0 threads d) :
    MoreNames cl cr d0 d := by
  obtain ⟨rest, hs⟩ := hm
  refine (Prog.keeps_steps MoreNames.refl (fun _ _ _ h h' => h.trans h') ?_ hs).1
  intro q hq p hp
  obtain ⟨th, -, rfl⟩ := List.mem_map.1 hq
  obtain ⟨x, -, rfl⟩ := List.mem_map.1 hp
  exact (prog_keeps hl hr tl tr x.op x.ids).bind (fun _ => trivial)

end

end RdfSled

end Verif
