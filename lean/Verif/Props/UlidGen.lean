import Verif.Proof.UlidGen
import Verif.Props.Mem
import Verif.Props.Sled

/-!
# C62: the ULID generator

The theorems about stores assume that their generator returns different ids.  Here this is proved for the generator that comes
with the library, whatever the clock does.
-/

namespace Verif.Props

open Verif Spec ConcreteId UlidGen

variable {NP EP E : Type} {env env' : Nat → Reading × Reading} {n n' : Nat}

/-! ## C62 The ULID generator never repeats an id -/

/-- The ids of the calls in which the random bits do not overflow increase, whatever the clock shows and whatever the other
calls do. -/
theorem C62_increasing {i j : Nat} (hi : ¬ Overflows env i) (hj : ¬ Overflows env j) (hij : i < j) : ids env i < ids env j :=
  increasing hi hj hij

/-- In a call in which they do, the id is made of what the clock shows and of random bits, and later ids do not depend on it. -/
theorem C62_overflowing {k : Nat} (h : Overflows env k) :
    timestamp (ids env k) = (env k).2.ms ∧ randomBits (ids env k) = (env k).2.random ∧
      state env (k + 1) = state env k := by
  rw [(fresh_overflow h).2]
  exact ⟨timestamp_ulid _, random_ulid _, (fresh_overflow h).1⟩

/-- The ids are distinct if and only if those made after an overflow happen to be. -/
theorem C62_distinct_iff :
    Fresh n (ids env) ↔ ∀ k < n, Overflows env k → ∀ j < n, j ≠ k → ids env j ≠ (env k).2.ulid := fresh_iff

/-- Without overflow they are distinct. -/
theorem C62_distinct_partial (h : ∀ k < n, ¬ Overflows env k) : Fresh n (ids env) := fresh_ids h

/-- In `n` calls the random bits cannot overflow unless one of the random numbers drawn is among the `n` largest of the
`2 ^ 80`. -/
theorem C62_overflow (h : ∀ k < n, (env k).1.random.val + n < 2 ^ 80) : ∀ k < n, ¬ Overflows env k := not_overflows h

/-- The ids of a generator that is used at later times are greater: those of different runs of a process are distinct. -/
theorem C62_later (h : ∀ k < n, ¬ Overflows env k) (h' : ∀ k < n', ¬ Overflows env' k) (hl : Later env n env' n')
    {i j : Nat} (hi : i < n) (hj : j < n') : ids env i < ids env' j := later_ids h h' hl hi hj

/-- Ids from `Ulid::new()` are the same only if made in the same millisecond with the same random bits. -/
theorem C62_new (r r' : Reading) : r.ulid = r'.ulid ↔ r.ms = r'.ms ∧ r.random = r'.random := by
  rw [ulid_inj, Reading.mk.injEq]

/-- In-memory stores with this generator hold what the history made of them. -/
theorem C62_mem (mN : NP → NP → NP) (mE : EP → EP → EP) (l : List (Op E Ulid NP EP))
    (h : ∀ k < draws l, ¬ Overflows env k) :
    Shows ((Mem.new (ids env) : Mem Ulid NP EP).applyAll mN mE l).obs (applyAll mN mE Graph.empty l) :=
  C06_history mN mE _ l (fresh_ids h)

/-- no `extend` in the history: `extend` of sled stores takes ids from `Ulid::new()` -/
def NoExtend (l : List (Op E Ulid NP EP)) : Prop := ∀ src, .extend src ∉ l

/-- So do sled stores, used in any number of runs of the process, each with a new generator, one after the other. -/
theorem C62_sled {c : Codecs NP EP} (hc : c.RoundTrip) (mN : NP → NP → NP) (mE : EP → EP → EP)
    (l : List ((Nat → Reading × Reading) × List (Op E Ulid NP EP))) (hx : ∀ r ∈ l, NoExtend r.2)
    (h : ∀ r ∈ l, ∀ k < genDraws r.2, ¬ Overflows r.1 k)
    (hl : l.Pairwise (fun r r' => Later r.1 (genDraws r.2) r'.1 (genDraws r'.2))) (u : Gen Ulid) :
    Shows (Sled.obs c (SledStore.runs c mN mE Db.empty (l.map (fun r => (ids r.1, u, r.2)))))
      (stepAll c.okN c.okE mN mE Graph.empty (l.flatMap Prod.snd)) := by
  have h0 : ∀ r ∈ l, ulidDraws r.2 = 0 := by
    intro r hr
    have : ∀ l : List (Op E Ulid NP EP), NoExtend l → ulidDraws l = 0 := by
      intro l
      induction l with
      | nil => intro _; rfl
      | cons o l ih =>
        intro hx
        have h1 := ih fun src hs => hx src (List.mem_cons_of_mem _ hs)
        have h2 : o.ulidDraws = 0 := by
          cases o <;> first | rfl | exact absurd List.mem_cons_self (hx _)
        simp only [ulidDraws, List.map_cons, List.sum_cons] at h1 ⊢
        omega
    exact this r.2 (hx r hr)
  have hd : ∀ r ∈ l, SledStore.drawn (ids r.1, u, r.2) = (List.range (genDraws r.2)).map (fun i => (toBeBytes (ids r.1 i)).1) := by
    intro r hr
    simp only [SledStore.drawn, h0 r hr, List.range_zero, List.map_nil, List.append_nil]
  have key := C35_runs (E := E) hc mN mE (l.map (fun r => (ids r.1, u, r.2))) (by
    rw [List.flatMap_map, List.nodup_flatMap]
    constructor
    · intro r hr
      rw [hd r hr]
      refine (List.nodup_range).map_on fun i hi j hj e => ?_
      exact fresh_ids (h r hr) i (List.mem_range.1 hi) j (List.mem_range.1 hj) (toBe_inj.1 e)
    · refine List.Pairwise.imp_of_mem (fun {r r'} hr hr' hl => ?_) hl
      simp only [Function.onFun, hd r hr, hd r' hr']
      intro b hb hb'
      obtain ⟨i, hi, rfl⟩ := List.mem_map.1 hb
      obtain ⟨j, hj, e⟩ := List.mem_map.1 hb'
      have := later_ids (h r hr) (h r' hr') hl (List.mem_range.1 hi) (List.mem_range.1 hj)
      rw [toBe_inj.1 e] at this
      omega)
  rwa [List.flatMap_map] at key

/-! ### what happens after an overflow -/

/-- the clock stands still, and the random bits drawn are all ones -/
def allOnes : Nat → Reading × Reading := fun _ => (⟨7, ⟨2 ^ 80 - 1, by decide⟩⟩, ⟨7, ⟨2 ^ 80 - 1, by decide⟩⟩)

/-- The generator can return an id twice: when the random bits overflow it falls back on `Ulid::new()`, which can return any of
the ids made in the same millisecond. -/
theorem C62_violated : ids allOnes 0 = ids allOnes 1 ∧ Overflows allOnes 1 := by
  unfold Overflows; decide +kernel

/-- An edge inserted then takes the properties of another away. -/
theorem C62_violated_store :
    ((Mem.new (ids allOnes) : Mem Ulid Nat Nat).applyAll Sample.mN Sample.mE
      ([.insertEdge ⟨1, 2, 3⟩ 10, .insertEdge ⟨4, 5, 6⟩ 20] : List (Op String Ulid Nat Nat))).iterEdges .SPO =
      [.ok (⟨1, 2, 3⟩, 20), .ok (⟨4, 5, 6⟩, 20)] := by decide +kernel

/-! ### examples -/

/-- a clock that stands still for two readings at a time and once goes back -/
def someClock (t : Nat) : Nat → Reading × Reading := fun k =>
  (⟨Fin.ofNat _ (t + if k = 5 then 0 else k / 2), Fin.ofNat _ (1000 * k)⟩, ⟨0, 0⟩)

example : (List.range 7).map (fun k => (ids (someClock 50) k).val - 50 * 2 ^ 80) =
    [0, 1, 2 ^ 80 + 2000, 2 ^ 80 + 2001, 2 * 2 ^ 80 + 4000, 2 * 2 ^ 80 + 4001, 3 * 2 ^ 80 + 6000] := by decide +kernel

theorem someClock_ok (t : Nat) {n : Nat} (hn : n ≤ 1000000) : ∀ k < n, ¬ Overflows (someClock t) k :=
  C62_overflow fun k hk => by
    have : (someClock t k).1.random.val = (1000 * k) % 2 ^ 80 := rfl
    rw [this, Nat.mod_eq_of_lt (by omega)]
    omega

example : ids (someClock 50) 4 < ids (someClock 50) 5 := C62_increasing (someClock_ok 50 (n := 6) (by decide) _ (by decide)) (someClock_ok 50 (n := 6) (by decide) _ (by decide)) (by decide)

/-- the last of the `2 ^ 80` random numbers, then a call that overflows, then time goes on -/
def someOverflow : Nat → Reading × Reading := fun k =>
  (⟨Fin.ofNat _ (if k < 2 then 7 else 8), Fin.ofNat _ (2 ^ 80 - 1)⟩, ⟨7, 5⟩)

theorem someOverflow_ok : ¬ Overflows someOverflow 0 ∧ Overflows someOverflow 1 ∧ ¬ Overflows someOverflow 2 := by
  unfold Overflows; decide +kernel

example : timestamp (ids someOverflow 1) = 7 ∧ randomBits (ids someOverflow 1) = 5 ∧ ids someOverflow 0 < ids someOverflow 2 :=
  ⟨(C62_overflowing someOverflow_ok.2.1).1, (C62_overflowing someOverflow_ok.2.1).2.1,
    C62_increasing someOverflow_ok.1 someOverflow_ok.2.2 (by decide)⟩

example : Fresh 3 (ids someOverflow) := by
  refine C62_distinct_iff.2 fun k hk ho j hj hjk => ?_
  match k, hk with
  | 0, _ => exact absurd ho someOverflow_ok.1
  | 1, _ =>
    match j, hj with
    | 0, _ => decide +kernel
    | 1, _ => exact absurd rfl hjk
    | 2, _ => decide +kernel
  | 2, _ => exact absurd ho someOverflow_ok.2.2

example : Fresh 1000000 (ids (someClock 50)) := C62_distinct_partial (someClock_ok 50 le_rfl)

def ulidHist : List (Op String Ulid Nat Nat) :=
  [.insertNode 1 10, .insertEdge ⟨1, 2, 3⟩ 20, .mergeEdge ⟨1, 2, 3⟩ 4, .insertEdge ⟨3, 2, 1⟩ 5, .removeEdge ⟨1, 2, 3⟩]

example : Shows ((Mem.new (ids (someClock 50)) : Mem Ulid Nat Nat).applyAll Sample.mN Sample.mE ulidHist).obs
    (applyAll Sample.mN Sample.mE Graph.empty ulidHist) := C62_mem _ _ _ (someClock_ok 50 (by decide))

theorem someClock_later : Later (someClock 50) 3 (someClock 90) 3 := by
  intro i hi j hj
  have h1 : (someClock 50 i).1.ms.val = (50 + if i = 5 then 0 else i / 2) % 2 ^ 48 := rfl
  have h2 : (someClock 90 j).1.ms.val = (90 + if j = 5 then 0 else j / 2) % 2 ^ 48 := rfl
  rw [Fin.lt_def, h1, h2]
  split <;> split <;> omega

example : ids (someClock 50) 2 < ids (someClock 90) 0 :=
  C62_later (someClock_ok 50 (by decide)) (someClock_ok 90 (by decide)) someClock_later (by decide) (by decide)

example (u : Gen Ulid) : Shows (Sled.obs Sample.uc (SledStore.runs Sample.uc Sample.mN Sample.mE Db.empty
      ([(someClock 50, ulidHist), (someClock 90, ulidHist)].map (fun r => (ids r.1, u, r.2)))))
    (stepAll Sample.uc.okN Sample.uc.okE Sample.mN Sample.mE Graph.empty (ulidHist ++ ulidHist)) := by
  have := C62_sled Sample.uc_rt Sample.mN Sample.mE [(someClock 50, ulidHist), (someClock 90, ulidHist)]
    (by simp [NoExtend, ulidHist]) (by
      intro r hr
      simp only [List.mem_cons, List.not_mem_nil, or_false] at hr
      rcases hr with rfl | rfl <;> exact someClock_ok _ (by decide))
    (.cons (by rintro r hr; rw [List.mem_singleton.1 hr]; exact someClock_later) (.cons (by simp) .nil)) u
  simpa using this

end Verif.Props
