import Verif.Proof.Index
import Verif.Props.SledSample

/-! # C36, C37, C52, C53: the name indices -/

set_option maxRecDepth 100000

namespace Verif.Props

open Verif Spec

variable {L R : Type}

/-! ## C36 the index is a bijection -/

/-- After any `set` calls none of which failed, look-ups in a MemHashIndex find exactly the pairs given, in both directions;
no two of them share a name or an id; and one more `set` succeeds iff its name and its id are both new. -/
theorem C36_mem [DecidableEq L] [DecidableEq R] (l : List (L × R)) (h : MemIndex.impl.AllOk .new l) :
    MemIndex.impl.Lists (fun _ => True) (fun _ => True) (MemIndex.impl.sets .new l) l ∧ OneToOne l ∧
    ∀ a b, (MemIndex.impl.set (MemIndex.impl.sets .new l) a b).2 = .ok () ↔
      a ∉ l.map Prod.fst ∧ b ∉ l.map Prod.snd := by
  have hi := MemIndex.is_sets MemIndex.is_new l h
  rw [List.nil_append] at hi
  exact ⟨hi.lists, hi.oneToOne, fun a b => by
    rw [← hi.none_left, ← hi.none_right]; exact MemIndex.set_ok_iff _ a b⟩

/-- The same for a SledHashIndex on an empty database, over any number of restarts; `set` also fails for what cannot be
serialized. -/
theorem C36_sled {cl : Codec L} {cr : Codec R} (hl : cl.RoundTrips) (hr : cr.RoundTrips) (l : List (L × R))
    (h : (SledIndex.impl cl cr).AllOk .empty l) :
    (SledIndex.impl cl cr).Lists cl.Can cr.Can ((SledIndex.impl cl cr).sets .empty l) l ∧ OneToOne l ∧
    ∀ a b, ((SledIndex.impl cl cr).set ((SledIndex.impl cl cr).sets .empty l) a b).2 = .ok () ↔
      cl.Can a ∧ cr.Can b ∧ a ∉ l.map Prod.fst ∧ b ∉ l.map Prod.snd := by
  have hi := SledIndex.is_sets (cl := cl) (cr := cr) SledIndex.is_empty l h
  rw [List.nil_append] at hi
  refine ⟨hi.lists hl hr, hi.oneToOne hl hr, fun a b => ?_⟩
  rw [show ((SledIndex.impl cl cr).set ((SledIndex.impl cl cr).sets .empty l) a b).2 = .ok () ↔ _ from
    SledIndex.set_ok_iff _ a b]
  constructor
  · rintro ⟨ab, bb, h1, h2, h3, h4⟩
    exact ⟨by simp [Codec.Can, h1], by simp [Codec.Can, h2], (hi.none_left hl h1).1 h3, (hi.none_right hr h2).1 h4⟩
  · rintro ⟨h1, h2, h3, h4⟩
    obtain ⟨ab, h1⟩ := Option.isSome_iff_exists.1 h1
    obtain ⟨bb, h2⟩ := Option.isSome_iff_exists.1 h2
    exact ⟨ab, bb, h1, h2, (hi.none_left hl h1).2 h3, (hi.none_right hr h2).2 h4⟩

/-- three names -/
def Sample.pairs : List (Nat × Nat) := [(1, 10), (2, 20), (3, 7)]

example : MemIndex.impl.AllOk .new Sample.pairs ∧
    (SledIndex.impl Sample.unary Sample.byte).AllOk .empty Sample.pairs ∧
    Sample.unary.RoundTrips ∧ Sample.byte.RoundTrips :=
  ⟨⟨rfl, rfl, rfl, trivial⟩, ⟨by decide +kernel, by decide +kernel, by decide +kernel, trivial⟩, Sample.uc_rt.1,
    Sample.bc_rt.1⟩

/-- both indices satisfy the contract the RDF layer relies on -/
theorem C36_lawful_mem [DecidableEq L] [DecidableEq R] :
    (MemIndex.impl (L := L) (R := R)).Lawful ∧ (MemIndex.impl (L := L) (R := R)).Shows .new (fun _ => none) :=
  ⟨MemIndex.lawful, MemIndex.shows_new⟩

theorem C36_lawful_sled [DecidableEq L] {cl : Codec L} {cr : Codec R} (hl : cl.RoundTrips) (hr : cr.RoundTrips)
    (tl : cl.Total) (tr : cr.Total) :
    (SledIndex.impl cl cr).Lawful ∧ (SledIndex.impl cl cr).Shows .empty (fun _ => none) :=
  ⟨SledIndex.lawful hl hr tl tr, SledIndex.shows_empty tl tr⟩

example : Sample.unary.RoundTrips ∧ Sample.unary.Total := ⟨Sample.uc_rt.1, Sample.uc_total.1⟩

/-! ## C37 a failed set changes nothing -/

/-- SledHashIndex, whatever is in the trees. -/
theorem C37_sled (cl : Codec L) (cr : Codec R) (d : IndexDb) (l : L) (r : R) (e : SledIndexErr L R)
    (h : ((SledIndex.impl cl cr).set d l r).2 = .error e) : ((SledIndex.impl cl cr).set d l r).1 = d := by
  change ((SledIndex.setProg cl cr l r).run d).2 = _ at h
  change ((SledIndex.setProg cl cr l r).run d).1 = _
  cases h1 : cl.ser l with
  | none => rw [SledIndex.set_bad d (.inl h1)]
  | some lb =>
    cases h2 : cr.ser r with
    | none => rw [SledIndex.set_bad d (.inr h2)]
    | some rb =>
      rw [SledIndex.set_run d h1 h2] at h ⊢
      cases ht : SledIndex.setTx cl cr l r lb rb d with
      | ok d' => rw [ht] at h; cases h
      | error e => rfl

example : ((SledIndex.impl Sample.unary Sample.byte).set
    ((SledIndex.impl Sample.unary Sample.byte).sets .empty Sample.pairs) 4 20).2 = .error (.duplicateLeft 20 2 4) := by
  decide +kernel

/-- What a failed `set` does to a MemHashIndex: if the name is taken, nothing; if only the id is taken, the name denotes the id
from now on, although the id still has its old name. -/
theorem C37_mem_computed [DecidableEq L] [DecidableEq R] (s : MemIndex L R) (l : L) (r : R) :
    (∀ r', s.leftToRight l = some r' →
      MemIndex.impl.set s l r = (s, .error (.duplicateRight l r r'))) ∧
    (∀ l', s.leftToRight l = none → s.rightToLeft r = some l' →
      (MemIndex.impl.set s l r).2 = .error (.duplicateLeft r l l') ∧
      (∀ a, (MemIndex.impl.set s l r).1.leftToRight a = if a = l then some r else s.leftToRight a) ∧
      ∀ b, (MemIndex.impl.set s l r).1.rightToLeft b = s.rightToLeft b) := by
  constructor
  · intro r' h
    show s.set l r = _
    rw [MemIndex.set_eq, h]
  · intro l' h1 h2
    show (s.set l r).2 = _ ∧ (∀ a, (s.set l r).1.leftToRight a = _) ∧ ∀ b, (s.set l r).1.rightToLeft b = _
    rw [MemIndex.set_eq, h1, h2]
    exact ⟨rfl, fun _ => rfl, fun _ => rfl⟩

/-- MemHashIndex: a `set` that fails because the name is taken changes nothing.  Not so if only the id is taken. -/
theorem C37_mem_partial [DecidableEq L] [DecidableEq R] (s : MemIndex L R) (l : L) (r : R)
    (e : MemIndexErr L R) (h : (MemIndex.impl.set s l r).2 = .error e) (hl : s.leftToRight l ≠ none) :
    (MemIndex.impl.set s l r).1 = s := by
  obtain ⟨r', hr⟩ := Option.ne_none_iff_exists'.1 hl
  rw [(C37_mem_computed s l r).1 r' hr]

/-- MemHashIndex violates C37: after `set(1, 10)`, the failing `set(2, 10)` makes 2 denote 10, while 10 still reads back as 1. -/
theorem C37_mem_violated : ∃ (s : MemIndex Nat Nat) (e : MemIndexErr Nat Nat),
    s = MemIndex.impl.sets .new [(1, 10)] ∧ (MemIndex.impl.set s 2 10).2 = .error e ∧
    MemIndex.impl.leftToRight s 2 = .ok none ∧
    MemIndex.impl.leftToRight (MemIndex.impl.set s 2 10).1 2 = .ok (some 10) ∧
    MemIndex.impl.rightToLeft (MemIndex.impl.set s 2 10).1 10 = .ok (some 1) :=
  ⟨_, .duplicateLeft 10 2 1, rfl, rfl, rfl, rfl, rfl⟩

/-! ## C52 the two indices are interchangeable -/

/-- As long as no call fails, the two indices answer alike; and then one more `set` succeeds on both or fails on both, with
the same conflict.  Missing: the two values are reported in opposite order, and the indices differ after a failed `set`. -/
theorem C52_partial [DecidableEq L] [DecidableEq R] {cl : Codec L} {cr : Codec R} (hl : cl.RoundTrips)
    (hr : cr.RoundTrips) (tl : cl.Total) (tr : cr.Total) (l : List (L × R)) (h : MemIndex.impl.AllOk .new l) :
    (SledIndex.impl cl cr).AllOk .empty l ∧
    (∀ a, ∃ o, MemIndex.impl.leftToRight (MemIndex.impl.sets .new l) a = .ok o ∧
      (SledIndex.impl cl cr).leftToRight ((SledIndex.impl cl cr).sets .empty l) a = .ok o) ∧
    (∀ b, ∃ o, MemIndex.impl.rightToLeft (MemIndex.impl.sets .new l) b = .ok o ∧
      (SledIndex.impl cl cr).rightToLeft ((SledIndex.impl cl cr).sets .empty l) b = .ok o) ∧
    ∀ a b, (MemIndex.impl.set (MemIndex.impl.sets .new l) a b).2 = .ok () ∧
        ((SledIndex.impl cl cr).set ((SledIndex.impl cl cr).sets .empty l) a b).2 = .ok () ∨
      ∃ e e', (MemIndex.impl.set (MemIndex.impl.sets .new l) a b).2 = .error e ∧
        ((SledIndex.impl cl cr).set ((SledIndex.impl cl cr).sets .empty l) a b).2 = .error e' ∧
        e'.conflict = some e.conflict := by
  have step : ∀ (s : MemIndex L R) (d : IndexDb) (l0 : List (L × R)), s.Is l0 → SledIndex.Is cl cr d l0 → ∀ a b,
      (s.set a b).2 = .ok () ∧ ((SledIndex.setProg cl cr a b).run d).2 = .ok () ∨
      ∃ e e', (s.set a b).2 = .error e ∧ ((SledIndex.setProg cl cr a b).run d).2 = .error e' ∧
        e'.conflict = some e.conflict := by
    intro s d l0 hs hd a b
    obtain ⟨ab, h1⟩ := Option.isSome_iff_exists.1 (tl a)
    obtain ⟨bb, h2⟩ := Option.isSome_iff_exists.1 (tr b)
    rw [MemIndex.set_eq, SledIndex.set_run d h1 h2]
    cases hsa : s.leftToRight a with
    | some b' =>
      obtain ⟨bb', hb'⟩ := Option.isSome_iff_exists.1 (tr b')
      rw [SledIndex.setTx_left d a b ((hd.get_left hl h1).2 ⟨b', (hs.left a b').1 hsa, hb'⟩), hr _ _ hb']
      exact Or.inr ⟨_, _, rfl, rfl, rfl⟩
    | none =>
      have hga := (hd.none_left hl h1).2 ((hs.none_left a).1 hsa)
      cases hsb : s.rightToLeft b with
      | some a' =>
        obtain ⟨ab', ha'⟩ := Option.isSome_iff_exists.1 (tl a')
        rw [SledIndex.setTx_right d a b hga ((hd.get_right hr h2).2 ⟨a', (hs.right a' b).1 hsb, ha'⟩), hl _ _ ha']
        exact Or.inr ⟨_, _, rfl, rfl, rfl⟩
      | none =>
        rw [SledIndex.setTx_ok d a b hga ((hd.none_right hr h2).2 ((hs.none_right b).1 hsb))]
        exact Or.inl ⟨rfl, rfl⟩
  have all : ∀ (l : List (L × R)) (s : MemIndex L R) (d : IndexDb) (l0 : List (L × R)), s.Is l0 →
      SledIndex.Is cl cr d l0 → MemIndex.impl.AllOk s l → (SledIndex.impl cl cr).AllOk d l := by
    intro l
    induction l with
    | nil => intros; trivial
    | cons x l ih =>
      intro s d l0 hs hd ho
      have ho1 : (s.set x.1 x.2).2 = .ok () := ho.1
      rcases step s d l0 hs hd x.1 x.2 with ⟨-, h2⟩ | ⟨e, e', h1, -, -⟩
      · exact ⟨h2, ih _ _ _ (hs.set ho1) (hd.set h2) ho.2⟩
      · rw [h1] at ho1; cases ho1
  have hok := all l .new .empty [] MemIndex.is_new SledIndex.is_empty h
  have hs := MemIndex.is_sets MemIndex.is_new l h
  have hd := SledIndex.is_sets (cl := cl) (cr := cr) SledIndex.is_empty l hok
  have hsl := hs.lists
  have hdl := hd.lists hl hr
  refine ⟨hok, fun a => ?_, fun b => ?_, fun a b => step _ _ _ hs hd a b⟩
  · obtain ⟨o, ho⟩ := hsl.leftTotal a trivial
    obtain ⟨o', ho'⟩ := hdl.leftTotal a (tl a)
    refine ⟨o, ho, ho'.trans (congrArg _ ?_)⟩
    refine Option.ext (fun x => ?_)
    have e1 := hsl.left a x
    have e2 := hdl.left a x
    rw [ho, Except.ok.injEq] at e1
    rw [ho', Except.ok.injEq] at e2
    exact e2.trans e1.symm
  · obtain ⟨o, ho⟩ := hsl.rightTotal b trivial
    obtain ⟨o', ho'⟩ := hdl.rightTotal b (tr b)
    refine ⟨o, ho, ho'.trans (congrArg _ ?_)⟩
    refine Option.ext (fun x => ?_)
    have e1 := hsl.right x b
    have e2 := hdl.right x b
    rw [ho, Except.ok.injEq] at e1
    rw [ho', Except.ok.injEq] at e2
    exact e2.trans e1.symm

example : MemIndex.impl.AllOk .new Sample.pairs ∧ Sample.unary.RoundTrips ∧ Sample.unary.Total :=
  ⟨⟨rfl, rfl, rfl, trivial⟩, Sample.uc_rt.1, Sample.uc_total.1⟩

/-- C52 is violated: `set(1, 10)` and `set(1, 11)` report `DuplicateRight(1, 11, 10)` on one and `DuplicateRight(1, 10, 11)` on
the other; and after `set(1, 10)` and the failed `set(2, 10)`, `set(2, 11)` fails on a MemHashIndex and succeeds on a
SledHashIndex. -/
theorem C52_violated :
    (MemIndex.impl.set (MemIndex.impl.sets .new [((1 : Nat), (10 : Nat))]) 1 11).2 = .error (.duplicateRight 1 11 10) ∧
    ((SledIndex.impl Sample.unary Sample.unary).set ((SledIndex.impl Sample.unary Sample.unary).sets .empty [(1, 10)])
      1 11).2 = .error (.duplicateRight 1 10 11) ∧
    (MemIndex.impl.set (MemIndex.impl.sets .new [((1 : Nat), (10 : Nat)), (2, 10)]) 2 11).2 =
      .error (.duplicateRight 2 11 10) ∧
    ((SledIndex.impl Sample.unary Sample.unary).set
      ((SledIndex.impl Sample.unary Sample.unary).sets .empty [(1, 10), (2, 10)]) 2 11).2 = .ok () :=
  ⟨rfl, by decide +kernel, rfl, by decide +kernel⟩

/-! ## C53 concurrent use of a SledHashIndex -/

/-- Threads using SledHashIndexes on the same database, each making any `set` calls, in any interleaving and with any
storage errors: at every moment look-ups find the pairs present at the start and some of those given to `set`; no two of
these share a name or an id. -/
theorem C53_concurrent {cl : Codec L} {cr : Codec R} (hl : cl.RoundTrips) (hr : cr.RoundTrips) (l : List (L × R))
    (h : (SledIndex.impl cl cr).AllOk .empty l) (threads : List (List (L × R))) {d : IndexDb}
    {ps : List (List (Prog IndexDb (Except (SledIndexErr L R) Unit)))}
    (hs : Steps ((SledIndex.impl cl cr).sets .empty l,
      threads.map (fun q => q.map (fun x => SledIndex.setProg cl cr x.1 x.2))) (d, ps)) :
    ∃ l', (∀ x ∈ l', ∃ q ∈ threads, x ∈ q) ∧ OneToOne (l ++ l') ∧
      (SledIndex.impl cl cr).Lists cl.Can cr.Can d (l ++ l') := by
  have hi := SledIndex.is_sets (cl := cl) (cr := cr) SledIndex.is_empty l h
  rw [List.nil_append] at hi
  -- what is still to be executed
  let P : Prog IndexDb (Except (SledIndexErr L R) Unit) → Prop := fun p =>
    (∃ a, p = .ret a) ∨ ∃ q ∈ threads, ∃ x ∈ q, p = SledIndex.setProg cl cr x.1 x.2
  suffices hsuf : ∀ y : IndexDb × List (List (Prog IndexDb (Except (SledIndexErr L R) Unit))),
      Steps ((SledIndex.impl cl cr).sets .empty l,
        threads.map (fun q => q.map (fun x => SledIndex.setProg cl cr x.1 x.2))) y →
      (∃ l', (∀ x ∈ l', ∃ q ∈ threads, x ∈ q) ∧ SledIndex.Is cl cr y.1 (l ++ l')) ∧ ∀ q ∈ y.2, ∀ p ∈ q, P p by
    obtain ⟨⟨l', h1, h2⟩, -⟩ := hsuf _ hs
    exact ⟨l', h1, h2.oneToOne hl hr, h2.lists hl hr⟩
  intro y hy
  induction hy with
  | refl =>
    refine ⟨⟨[], by simp, by rw [List.append_nil]; exact hi⟩, ?_⟩
    intro q hq p hp
    obtain ⟨q', hq', rfl⟩ := List.mem_map.1 hq
    obtain ⟨x, hx, rfl⟩ := List.mem_map.1 hp
    exact Or.inr ⟨q', hq', x, hx, rfl⟩
  | tail _ hst ih =>
    cases hst with
    | ret s pre post a q =>
      refine ⟨ih.1, fun q' hq' p hp => ?_⟩
      simp only [List.mem_append, List.mem_cons] at hq'
      rcases hq' with hq' | rfl | hq'
      · exact ih.2 q' (by simp [hq']) p hp
      · exact ih.2 (.ret a :: q') (by simp) p (by simp [hp])
      · exact ih.2 q' (by simp [hq']) p hp
    | fail s pre post p0 q =>
      refine ⟨ih.1, fun q' hq' p hp => ?_⟩
      simp only [List.mem_append, List.mem_cons] at hq'
      rcases hq' with hq' | rfl | hq'
      · exact ih.2 q' (by simp [hq']) p hp
      · exact ih.2 (p0 :: q') (by simp) p (by simp [hp])
      · exact ih.2 q' (by simp [hq']) p hp
    | call s pre post f k q =>
      obtain ⟨⟨l', h1, h2⟩, h3⟩ := ih
      have hp : P (.call f k) := h3 (.call f k :: q) (by simp) _ (by simp)
      have hk : (∃ l'', (∀ x ∈ l'', ∃ q ∈ threads, x ∈ q) ∧ SledIndex.Is cl cr (f s) (l ++ l'')) ∧ P (k s) := by
        rcases hp with ⟨a, ha⟩ | ⟨q0, hq0, x, hx, ha⟩
        · cases ha
        · have hrun : (SledIndex.setProg cl cr x.1 x.2).run s = ((k s).run (f s)) := by rw [← ha]; rfl
          have hret : ∃ a, k s = .ret a := by
            unfold SledIndex.setProg at ha
            split at ha
            · cases ha
            · split at ha
              · cases ha
              · cases ha; exact ⟨_, rfl⟩
          obtain ⟨a, hret⟩ := hret
          rw [hret] at hrun
          refine ⟨?_, Or.inl ⟨a, hret⟩⟩
          cases hres : ((SledIndex.setProg cl cr x.1 x.2).run s).2 with
          | ok u =>
            have hset := h2.set (a := x.1) (b := x.2) hres
            rw [hrun] at hset
            refine ⟨x :: l', ?_, hset.congr (fun y => ?_)⟩
            · intro y hy
              rcases List.mem_cons.1 hy with rfl | hy
              · exact ⟨q0, hq0, hx⟩
              · exact h1 y hy
            · simp only [List.mem_cons, List.mem_append]; tauto
          | error e =>
            have := C37_sled cl cr s x.1 x.2 e hres
            change ((SledIndex.setProg cl cr x.1 x.2).run s).1 = s at this
            rw [hrun] at this
            have e' : f s = s := this
            exact ⟨l', h1, by rw [e']; exact h2⟩
      refine ⟨hk.1, fun q' hq' p hp => ?_⟩
      simp only [List.mem_append, List.mem_cons] at hq'
      rcases hq' with hq' | rfl | hq'
      · exact h3 q' (by simp [hq']) p hp
      · rcases List.mem_cons.1 hp with rfl | hp
        · exact hk.2
        · exact h3 (.call f k :: q) (by simp) p (by simp [hp])
      · exact h3 q' (by simp [hq']) p hp

/-- two threads giving the same name to different ids: the second one has taken its step, the first one comes too late -/
example : ∃ d ps, Steps ((SledIndex.impl Sample.unary Sample.unary).sets .empty [(5, 50)],
      [[(1, 10)], [(1, 11), (2, 10)]].map (fun q => q.map (fun x => SledIndex.setProg Sample.unary Sample.unary x.1 x.2)))
      (d, ps) ∧
    (SledIndex.impl Sample.unary Sample.unary).leftToRight d 1 = .ok (some 11) ∧
    (SledIndex.impl Sample.unary Sample.unary).rightToLeft d 10 = .ok none := by
  refine ⟨_, _, .tail (.tail (.refl _) (.call _ [[_]] [] _ _ [_])) (.call _ [] [[_, _]] _ _ []), ?_, ?_⟩ <;>
    decide +kernel

end Verif.Props
