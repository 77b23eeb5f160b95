import Verif.Proof.Reads
import Verif.Props.Sled
import Verif.Props.SledConc

/-!
# C71: queries and calls have to do with their own part of the database only

The contents of the database are arbitrary throughout: reached by the API or not, damaged or not, written by an older version or not.
-/

set_option linter.unusedSectionVars false
set_option maxRecDepth 100000

namespace Verif.Props

open Verif Spec ConcreteId

variable {Id NP EP E : Type} [LinearOrder Id] [ConcreteId Id] [LaidOutId Id]
variable {mN : NP → NP → NP} {mE : EP → EP → EP} {c : Codecs NP EP}

/-! ## Queries -/

/-- The result of a query, be it a store or an error, depends on the entries with the right beginning in one ordering and on the
records of these. -/
theorem C71_query (c : Codecs NP EP) (g : Gen Id) {q : Query Id} {d d' : Db} (h : Query.Alike q d d') :
    Sled.runQuery c d g q = Sled.runQuery c d' g q := by
  unfold Sled.runQuery
  rw [Sled.runQ_congr c g h]

/-- So damage elsewhere is not noticed: the query still selects from the graph the store showed before. -/
theorem C71_damage {n m n' : Nat} {s : SledStore Id} {G : Graph Id NP EP} (hc : c.RoundTrip)
    (hs : SledStore.Reach E c mN mE n m s) (hG : Shows (s.obs c) G) {g : Gen Id} (hg : Fresh (n' + s.edgeCount c) g)
    {q : Query Id} (hq : Spec.Query.Nodup q) {d : Db} (hd : Query.Alike q s.db d) :
    ∃ r, Sled.runQuery c d g q = .ok r ∧ Shows r.obs (select G q) := by
  rw [← C71_query c g hd]
  exact C14_sled hc hs hG hg hq

/-- the same for the in-memory store, with any contents -/
theorem C71_mem (g : Gen Id) {q : Query Id} {s s' : Mem Id NP EP} (h : Query.MemAlike q s s') : s.run g q = s'.run g q :=
  Mem.run_congr g h

/-! ## Calls -/

/-- A call on two databases alike in a zone the call is in: the same result; the zones stay alike at every moment, also if the
call is cut off by a crash or a storage error; and neither database changes anywhere else. -/
theorem C71_call {P : Zone Id} (hP : P.Whole) {x : Sled.Call E Id NP EP} (hx : P.Has x) {d d' : Db} (hd : P.Closed d) (h : P.Same d d') :
    ((x.full c mN mE).run d).2 = ((x.full c mN mE).run d').2 ∧
    List.Forall₂ (fun e e' => P.Same e e' ∧ P.Closed e ∧ P.Rest d e ∧ P.Rest d' e')
      ((x.full c mN mE).states d) ((x.full c mN mE).states d') ∧
    P.Same ((x.full c mN mE).run d).1 ((x.full c mN mE).run d').1 := by
  obtain ⟨h1, h2, h3⟩ := (Sled.twins_full c mN mE hP hx).run h hd
  exact ⟨h1, h3.imp (fun _ _ h => ⟨h.same, h.closed, h.rest, h.rest'⟩), h2.same⟩

/-- any number of calls, with all their results -/
theorem C71_calls {P : Zone Id} (hP : P.Whole) {l : List (Sled.Call E Id NP EP)} (hl : ∀ x ∈ l, P.Has x) {d d' : Db} (hd : P.Closed d)
    (h : P.Same d d') :
    (Sled.runCalls c mN mE d l).1 = (Sled.runCalls c mN mE d' l).1 ∧
    P.Same (Sled.runCalls c mN mE d l).2 (Sled.runCalls c mN mE d' l).2 ∧
    P.Rest d (Sled.runCalls c mN mE d l).2 ∧ P.Rest d' (Sled.runCalls c mN mE d' l).2 := by
  induction l generalizing d d' with
  | nil => exact ⟨rfl, h, fun _ _ _ => rfl, fun _ _ _ => rfl⟩
  | cons x l ih =>
    obtain ⟨h1, h2, -⟩ := (Sled.twins_full c mN mE hP (hl x List.mem_cons_self)).run h hd
    obtain ⟨i1, i2, i3, i4⟩ := ih (fun y hy => hl y (List.mem_cons_of_mem _ hy)) h2.closed h2.same
    refine ⟨?_, i2, fun T k hk => (h2.rest T k hk).trans (i3 T k hk), fun T k hk => (h2.rest' T k hk).trans (i4 T k hk)⟩
    show _ :: _ = _ :: _
    rw [h1, i1]

/-- `remove_node n` on any database: nothing changes but the entries of `n`, its edges, and their records. -/
theorem C71_removeNode (d : Db) (n : Id) : ∀ e ∈ (Sled.removeNode n).states d, (Zone.ofNode d n).Rest d e := by
  have h := ((Sled.twins_removeNode (Zone.ofNode_whole d n) rfl).run (Zone.Same.refl d) (Zone.ofNode_closed d n)).2.2
  intro e he
  obtain ⟨i, hi, rfl⟩ := List.getElem_of_mem he
  exact (List.Forall₂.get h hi hi).rest

/-! ## Threads -/

/-- Zones with different nodes, different edges and different records have no entry in common. -/
theorem C71_apart {P Q : Zone Id} (hP : P.Whole) (hQ : Q.Whole) (hn : ∀ n, P.nodes n → ¬ Q.nodes n) (he : ∀ t, P.edges t → ¬ Q.edges t)
    (hr : ∀ v, P.recs v → ¬ Q.recs v) : P.Apart Q := Zone.apart_of hP hQ hn he hr

/-- Threads, each in a zone of its own: when all have finished, every zone is as if its thread had run alone, and the rest is as
at the start. -/
theorem C71_threads {Z : Nat → Zone Id} (hP : ∀ i, (Z i).Whole) (hZ : ∀ i j, i ≠ j → (Z i).Apart (Z j)) {d0 d : Db}
    (hc : ∀ i, (Z i).Closed d0) {threads : List (List (Sled.Call E Id NP EP))}
    (hz : ∀ i th, threads[i]? = some th → ∀ x ∈ th, (Z i).Has x) (hd : Sled.Final c mN mE d0 threads d) :
    (∀ i th, threads[i]? = some th → (Z i).Same d (Sled.runCalls c mN mE d0 th).2) ∧
    ∀ T k, (∀ i, ¬ (Z i).Cell T k) → d.at T k = d0.at T k := by
  obtain ⟨rest, h1, h2⟩ := hd
  refine ⟨fun i th hi => ?_, fun T k hk => Sled.rest_steps c mN mE hP hc hZ hz hk h1.steps⟩
  obtain ⟨⟨e, q'⟩, i1, i2⟩ := (Sled.abreast c mN mE hP hc hz hi).calm hZ h1
  obtain ⟨q'', j1, j2⟩ := runAll_calm i2 rfl
  cases j1
  have hlen : i < rest.length := by
    have hl : ∀ {x y : Db × List (List (Prog Db Unit))}, CalmSteps x y → y.2.length = x.2.length := by
      intro x y h
      induction h with
      | refl => rfl
      | tail _ h2 ih => cases h2 <;> simpa using ih
    have := hl h1
    rw [show rest.length = _ from this]
    simpa [Sled.start] using (List.getElem?_eq_some_iff.1 hi).1
  have hq : rest[i]? = some [] := by
    rw [List.getElem?_eq_getElem hlen, h2 _ (List.getElem_mem hlen)]
  cases i1.mine [] hq
  have := i1.same
  rw [Sled.runAll_eq] at j2
  rw [← j2]
  exact this

/-- At every moment, storage errors included, each zone is as it could be if its thread ran alone; the rest is as at the start. -/
theorem C71_moment {Z : Nat → Zone Id} (hP : ∀ i, (Z i).Whole) (hZ : ∀ i j, i ≠ j → (Z i).Apart (Z j)) {d0 d : Db}
    (hc : ∀ i, (Z i).Closed d0) {threads : List (List (Sled.Call E Id NP EP))}
    (hz : ∀ i th, threads[i]? = some th → ∀ x ∈ th, (Z i).Has x) (hd : Sled.Moment c mN mE d0 threads d) :
    (∀ i th, threads[i]? = some th → ∃ e, Sled.Moment c mN mE d0 [th] e ∧ (Z i).Same d e) ∧
    ∀ T k, (∀ i, ¬ (Z i).Cell T k) → d.at T k = d0.at T k := by
  obtain ⟨rest, h1⟩ := hd
  refine ⟨fun i th hi => ?_, fun T k hk => Sled.rest_steps c mN mE hP hc hZ hz hk h1⟩
  obtain ⟨⟨e, q'⟩, i1, i2⟩ := (Sled.abreast c mN mE hP hc hz hi).steps hZ h1
  exact ⟨e, ⟨_, i2⟩, i1.same⟩

/-! ## Examples -/

namespace ReadsSample

/-- the database of the examples, damaged: a key that is none, an ordering lost, the nodes lost -/
def torn : Db :=
  { db0 with spo := db0.spo.insert [1, 2, 3] [9], pos := .empty, nodeProps := .empty }

theorem torn_spo {k : Bytes} (h : ∃ x : U64, be x <+: k) : db0.spo.get k = torn.spo.get k := by
  obtain ⟨x, hx⟩ := h
  have hk : k ≠ [1, 2, 3] := by
    rintro rfl
    have := hx.length_le
    rw [be_length] at this
    exact absurd this (by decide)
  show _ = (db0.spo.insert [1, 2, 3] [9]).get k
  rw [BMap.get_insert, if_neg hk]

theorem torn_alike : Query.Alike (.S [(2 : U64), 1]) db0 torn := by
  constructor
  · intro T k hk
    cases T with
    | spo => obtain ⟨x, -, h⟩ := hk; exact torn_spo ⟨x, h⟩
    | _ => exact hk.elim
  · intro T k v _ _ _
    rfl

/-- the zone of the second thread -/
def small : Zone U64 :=
  { nodes := fun n => n = 7, edges := fun t => t = ⟨1, 5, 7⟩, gone := fun _ => False, recs := fun v => v = be (300 : U64) }

def none : Zone U64 := { nodes := fun _ => False, edges := fun _ => False, gone := fun _ => False, recs := fun _ => False }

def zones : Nat → Zone U64
  | 0 => Zone.ofNode torn 2
  | 1 => small
  | _ => none

def two : List (List (Sled.Call String U64 Nat Nat)) :=
  [[.removeNode 2, .insertNode 2 5], [.insertNode 7 70, .insertEdge 300 ⟨1, 5, 7⟩ 4]]

theorem none_closed (d : Db) : none.Closed d := by
  rintro k v (⟨⟨t, h, -⟩ | ⟨n, h, -⟩, -⟩ | ⟨⟨t, h, -⟩ | ⟨n, h, -⟩, -⟩) <;> exact h

theorem whole : ∀ i, (zones i).Whole
  | 0 => Zone.ofNode_whole torn 2
  | 1 => fun _ h => h.elim
  | _ + 2 => fun _ h => h.elim

theorem fresh300 : ∀ v, (zones 0).recs v → v ≠ be (300 : U64) := by
  rintro v ⟨k, ⟨-, h⟩ | ⟨-, h⟩⟩
  · have h1 : ∀ e ∈ torn.spo.entries, e.2 ≠ be (300 : U64) := by decide +kernel
    exact h1 (k, v) (BMap.mem_entries.2 h)
  · have h1 : ∀ e ∈ torn.osp.entries, e.2 ≠ be (300 : U64) := by decide +kernel
    exact h1 (k, v) (BMap.mem_entries.2 h)

theorem none_apart (P : Zone U64) (hP : P.Whole) : P.Apart none ∧ none.Apart P :=
  ⟨C71_apart hP (fun _ h => h.elim) (fun _ _ h => h) (fun _ _ h => h) (fun _ _ h => h),
   C71_apart (fun _ h => h.elim) hP (fun _ h => h.elim) (fun _ h => h.elim) (fun _ h => h.elim)⟩

theorem apart01 : (zones 0).Apart small :=
  C71_apart (whole 0) (whole 1) (by rintro n h rfl; exact absurd (show (7 : U64) = 2 from h) (by decide))
    (by rintro t h rfl; rcases h with h | h <;> exact absurd h (by decide)) (fun v h h' => fresh300 v h h')

theorem apart : ∀ i j, i ≠ j → (zones i).Apart (zones j)
  | 0, 0, h => absurd rfl h
  | 0, 1, _ => apart01
  | 1, 0, _ => fun T k h h' => apart01 T k h' h
  | 1, 1, h => absurd rfl h
  | i, _ + 2, _ => (none_apart _ (whole i)).1
  | _ + 2, 0, _ => (none_apart _ (whole 0)).2
  | _ + 2, 1, _ => (none_apart _ (whole 1)).2

theorem closed : ∀ i, (zones i).Closed torn
  | 0 => Zone.ofNode_closed torn 2
  | 1 => by
    have hs : torn.spo.get (be (1 : U64) ++ be (5 : U64) ++ be (7 : U64)) = Option.none := by decide +kernel
    have ho : torn.osp.get (be (7 : U64) ++ be (1 : U64) ++ be (5 : U64)) = Option.none := by decide +kernel
    rintro k v (⟨⟨t, rfl, rfl⟩ | ⟨n, h, -⟩, h2⟩ | ⟨⟨t, rfl, rfl⟩ | ⟨n, h, -⟩, h2⟩)
    · rw [hs] at h2; cases h2
    · exact h.elim
    · rw [ho] at h2; cases h2
    · exact h.elim
  | _ + 2 => none_closed _

theorem has : ∀ i th, two[i]? = some th → ∀ x ∈ th, (zones i).Has x
  | 0, th, h => by
    cases h
    intro x hx
    simp only [List.mem_cons, List.not_mem_nil, or_false] at hx
    rcases hx with rfl | rfl <;> exact rfl
  | 1, th, h => by
    cases h
    intro x hx
    simp only [List.mem_cons, List.not_mem_nil, or_false] at hx
    rcases hx with rfl | rfl
    · exact rfl
    · exact ⟨rfl, rfl⟩
  | _ + 2, _, h => by cases h

/-- The scans of the removal are made before the second thread writes, the transaction after. -/
def order : List Nat := [0, 1, 1, 0, 1, 0, 0, 0, 1, 0, 1, 0]

theorem final : Sled.Final Sample.uc Sample.mN Sample.mE torn two
    (order.foldl turn (Sled.start Sample.uc Sample.mN Sample.mE torn two)).1 :=
  turns_final torn two order (by decide +kernel)

end ReadsSample

open ReadsSample

example : Sled.runQuery Sample.uc db0 (Sample.cg 9) (.S [2, 1]) = Sled.runQuery (NP := Nat) Sample.uc torn (Sample.cg 9) (.S [2, 1]) :=
  C71_query Sample.uc (Sample.cg 9) torn_alike

/-- which has three edges -/
example : ((Sled.runQuery (NP := Nat) Sample.uc torn (Sample.cg 9) (.S [2, 1])).toOption.map (fun r => r.iterEdges .SPO)) =
    some [.ok (⟨1, 5, 2⟩, 4), .ok (⟨2, 2, 2⟩, 3), .ok (⟨2, 5, 9⟩, 8)] := by decide +kernel

/-- while other queries do notice the damage -/
example : ((Sled.runQuery (NP := Nat) Sample.uc torn (Sample.cg 9) (.P [5])).toOption.map (fun r => r.iterEdges .SPO)) = some [] ∧
    ((Sled.runQuery (EP := Nat) Sample.uc torn (Sample.cg 9) (.NodeProps [1])).toOption.map (fun r => r.iterVertices)) = some [] := by
  constructor <;> decide +kernel

example : ∃ r, Sled.runQuery Sample.uc torn (Sample.cg 9) (.S [2, 1]) = .ok r ∧
    Shows r.obs (select (Sample.sstore.db.graph Sample.uc) (.S [2, 1])) :=
  C71_damage (n' := 0) Sample.uc_rt (Sample.sstore_reach 0 0 (by decide) (by decide))
    ((Sample.sstore_reach 0 0 (by decide) (by decide)).shows Sample.uc_rt) (Sample.cg_fresh _ _ (by decide +kernel))
    (by unfold Spec.Query.Nodup; decide) torn_alike

/-- a store whose OSP ordering and whose nodes were lost -/
example : Sample.store.run (Sample.cg 9) (.SP [(2, 2)]) =
    ({ Sample.store with osp := .empty, nodeProps := .empty } : Mem U64 Nat Nat).run (Sample.cg 9) (.SP [(2, 2)]) :=
  C71_mem (Sample.cg 9) ⟨fun _ h => h.elim, fun _ _ => rfl, fun _ _ _ _ => rfl⟩

example : (Zone.ofNode torn (2 : U64)).Same
    (order.foldl turn (Sled.start Sample.uc Sample.mN Sample.mE torn two)).1
    (Sled.runCalls Sample.uc Sample.mN Sample.mE torn (two.headD [])).2 :=
  (C71_threads whole apart closed has final).1 0 _ rfl

/-- What is left: the edge of the other thread, the key that is none, and no edge of node 2. -/
example : (order.foldl turn (Sled.start Sample.uc Sample.mN Sample.mE torn two)).1.spo.entries.map Prod.fst =
    [be (1 : U64) ++ be (5 : U64) ++ be (7 : U64), [1, 2, 3]] := by decide +kernel

example (l : List Nat) : ∃ e, Sled.Moment Sample.uc Sample.mN Sample.mE torn [two.getD 1 []] e ∧
    small.Same (l.foldl turn (Sled.start Sample.uc Sample.mN Sample.mE torn two)).1 e :=
  (C71_moment whole apart closed has ⟨_, (turns_calm _ l).steps⟩).1 1 _ rfl

/-- two calls on the damaged database and on the empty one: the edge is new on both -/
example : (Sled.runCalls Sample.uc Sample.mN Sample.mE torn (two.getD 1 [])).1 =
    (Sled.runCalls Sample.uc Sample.mN Sample.mE Db.empty (two.getD 1 [])).1 := by
  refine (C71_calls (P := small) (whole 1) (has 1 _ rfl) (closed 1) (fun T k hk => ?_)).1
  cases T with
  | nodes => obtain ⟨n, rfl, rfl⟩ := hk; decide +kernel
  | edges => cases hk; decide +kernel
  | spo =>
    rcases hk with ⟨t, rfl, rfl⟩ | ⟨n, h, -⟩
    · decide +kernel
    · exact h.elim
  | pos => obtain ⟨t, rfl, rfl⟩ := hk; decide +kernel
  | osp =>
    rcases hk with ⟨t, rfl, rfl⟩ | ⟨n, h, -⟩
    · decide +kernel
    · exact h.elim

example : ∀ e ∈ (Sled.removeNode (2 : U64)).states torn, e.spo.get [1, 2, 3] = some [9] := by
  intro e he
  refine ((C71_removeNode torn (2 : U64)) e he .spo [1, 2, 3] ?_).symm.trans (by decide +kernel)
  have hl : ∀ x : U64, ¬ be x <+: ([1, 2, 3] : Bytes) := fun x hx => by
    have := hx.length_le
    rw [be_length] at this
    exact absurd this (by decide)
  rintro (⟨t, -, h⟩ | ⟨n, -, h⟩)
  · exact hl t.sub (by rw [h, List.append_assoc]; exact List.prefix_append _ _)
  · exact hl n h

/-- That a zone has the records of its edges cannot be left out: with two edges under one id, removing one takes away the record of
the other. -/
example : ∃ (d : Db) (P : Zone U64), P.Whole ∧ P.Has (E := String) (NP := Nat) (EP := Nat) (.removeEdge ⟨1, 5, 2⟩) ∧
    ¬ P.Rest d ((Sled.removeEdge (⟨1, 5, 2⟩ : Triple U64)).run d).1 :=
  ⟨{ Db.empty with
      spo := (BMap.empty.insert (encodeSpo (⟨1, 5, 2⟩ : Triple U64)).1 [9]).insert (encodeSpo (⟨3, 5, 4⟩ : Triple U64)).1 [9]
      edgeProps := BMap.empty.insert [9] [0] },
    { nodes := fun _ => False, edges := fun t => t = ⟨1, 5, 2⟩, gone := fun _ => False, recs := fun _ => False },
    fun _ h => h.elim, rfl, fun h => by
      have := h .edges [9] (fun h => h)
      revert this
      decide +kernel⟩

end Verif.Props
