import Verif.Props.SledRace
import Verif.Props.SledWell

/-!
# C31 once more: every race can be lost

`C31_violated` is one schedule of two calls on one database.  Here: whatever the database contains, and whatever else the threads do,
if one of them removes an edge that another one writes, then there is a schedule after which the orderings disagree.
-/

set_option maxRecDepth 100000

namespace Verif

open Spec ConcreteId Verif.Sled

/-- `d` is a possible database at a moment when no call is under way and none has failed with a storage error: the threads have completed
the first of their calls. -/
def Sled.Pause {Id NP EP E : Type} [LinearOrder Id] [ConcreteId Id] (c : Codecs NP EP) (mN : NP → NP → NP) (mE : EP → EP → EP) (d0 : Db)
    (threads : List (List (Sled.Call E Id NP EP))) (d : Db) : Prop :=
  ∃ made, List.Forall₂ (· <+: ·) made threads ∧ Sled.Final c mN mE d0 made d

/-- `merge` or `extend` whose argument fails to list its nodes, so that no edge is written -/
def Sled.Call.NodesFail {Id NP EP E : Type} : Sled.Call E Id NP EP → Prop
  | .extend _ src => fails src.nodes = true
  | .merge _ src => fails src.nodes = true
  | _ => False

namespace RaceExact

section
variable {S α : Type}

theorem trans {x y z : S × List (List (Prog S α))} (h1 : CalmSteps x y) (h2 : CalmSteps y z) : CalmSteps x z := by
  induction h2 with
  | refl => exact h1
  | tail _ h ih => exact .tail ih h

/-- two of the threads; `sw`: the second one comes first -/
def two {β : Type} (sw : Bool) (pre mid post : List β) (a b : β) : List β :=
  if sw then pre ++ b :: (mid ++ a :: post) else pre ++ a :: (mid ++ b :: post)

variable {sw : Bool} {pre mid post : List (List (Prog S α))}

theorem callA (s : S) (f : S → S) (k : S → Prog S α) (q b : List (Prog S α)) :
    CalmStep (s, two sw pre mid post (.call f k :: q) b) (f s, two sw pre mid post (k s :: q) b) := by
  cases sw
  · exact .call s pre (mid ++ b :: post) f k q
  · have := CalmStep.call s (pre ++ b :: mid) post f k q
    simpa [two] using this

theorem retA (s : S) (v : α) (q b : List (Prog S α)) :
    CalmStep (s, two sw pre mid post (.ret v :: q) b) (s, two sw pre mid post q b) := by
  cases sw
  · exact .ret s pre (mid ++ b :: post) v q
  · have := CalmStep.ret s (pre ++ b :: mid) post v q
    simpa [two] using this

theorem flip (a b : List (Prog S α)) : two sw pre mid post a b = two (!sw) pre mid post b a := by
  cases sw <;> rfl

/-- the first of the two runs the function it has begun -/
theorem runA (p : Prog S α) (s : S) (q b : List (Prog S α)) :
    CalmSteps (s, two sw pre mid post (p :: q) b) ((p.run s).1, two sw pre mid post q b) := by
  induction p generalizing s with
  | ret v => exact .tail (.refl _) (retA s v q b)
  | call f k ih => exact trans (.tail (.refl _) (callA s f k q b)) (ih s (f s))

theorem runB (p : Prog S α) (s : S) (a q : List (Prog S α)) :
    CalmSteps (s, two sw pre mid post a (p :: q)) ((p.run s).1, two sw pre mid post a q) := by
  rw [flip a, flip a]
  exact runA p s q a

end

variable {Id NP EP E : Type} [LinearOrder Id] [ConcreteId Id]
variable {c : Codecs NP EP} {mN : NP → NP → NP} {mE : EP → EP → EP}

theorem decodable_run {U : Triple Id → Prop} {o : EdgeOrder} {α : Type} {R : α → Prop} {p : Prog Db α} {t : Option (Triple Id)}
    {L : List (Ev Id)} (h : Enters c o U R p t L) {s : Db} (hs : Decodable c s) : Decodable c (p.run s).1 := by
  induction p generalizing t L s with
  | ret v => exact hs
  | call f k ih =>
    obtain ⟨h0, h | ⟨u, h1, h2, h3⟩ | ⟨e, L1, rfl, h2, h3, h4⟩⟩ := h s hs
    · exact ih s h.2 h0
    · exact ih s h3 h0
    · exact ih s h4 h0

variable [LaidOutId Id]

/-- the first of the two makes some calls -/
theorem callsA (hc : c.RoundTrip) (ht : c.Total) {sw : Bool} {pre mid post : List (List (Prog Db Unit))}
    (l : List (Call E Id NP EP)) (hl : ∀ x ∈ l, x.Scans) (q b : List (Prog Db Unit)) {s : Db} (hs : Decodable c s) :
    ∃ s', CalmSteps (s, two sw pre mid post (l.map (Call.prog c mN mE) ++ q) b) (s', two sw pre mid post q b) ∧ Decodable c s' := by
  induction l generalizing s with
  | nil => exact ⟨s, .refl _, hs⟩
  | cons x l ih =>
    have h := decodable_run (enters_call (o := .SPO) (U := fun _ => False) (mN := mN) (mE := mE) hc ht x (fun _ h => h.elim)
      (hl x (by simp))) hs
    obtain ⟨s', h1, h2⟩ := ih (fun y hy => hl y (List.mem_cons_of_mem _ hy)) h
    exact ⟨s', trans (runA (x.prog c mN mE) s _ b) h1, h2⟩

theorem callsB (hc : c.RoundTrip) (ht : c.Total) {sw : Bool} {pre mid post : List (List (Prog Db Unit))}
    (l : List (Call E Id NP EP)) (hl : ∀ x ∈ l, x.Scans) (a q : List (Prog Db Unit)) {s : Db} (hs : Decodable c s) :
    ∃ s', CalmSteps (s, two sw pre mid post a (l.map (Call.prog c mN mE) ++ q)) (s', two sw pre mid post a q) ∧ Decodable c s' := by
  rw [flip a, flip a]
  exact callsA hc ht l hl q a hs

/-- what a function does to an ordering when nobody else is around -/
theorem enters_run {o : EdgeOrder} {U : Triple Id → Prop} {α : Type} {R : α → Prop} {p : Prog Db α} {w : Option (Triple Id)}
    {L : List (Ev Id)} (h : Enters c o U R p w L) {s : Db} (hs : Decodable c s) {b : Triple Id → Option Bytes}
    (hb : ∀ u, U u → w ≠ some u → b u = s.idIn o u) {u : Triple Id} (hu : U u) : (p.run s).1.idIn o u = L.foldl Ev.on b u := by
  induction p generalizing w L s b with
  | ret v =>
    obtain ⟨-, rfl, rfl⟩ := h
    exact (hb u hu nofun).symm
  | call f k ih =>
    obtain ⟨h0, h | ⟨t, rfl, h2, h3⟩ | ⟨e, L1, rfl, h2, h3, h4⟩⟩ := h s hs
    · exact ih s h.2 h0 (fun u hu hw => (hb u hu hw).trans (h.1 u hu).symm)
    · exact ih s h3 h0 (fun u hu hw => (hb u hu nofun).trans (h2 u hu (fun e => hw (by rw [e]))).symm)
    · refine ih s h4 h0 (fun u hu _ => ?_)
      rw [h2 u hu]
      cases e with
      | put v t =>
        simp only [Ev.on]
        split
        · rfl
        · next hne => exact hb u hu (fun hw => nomatch h3 u hw)
      | del t =>
        simp only [Ev.on]
        split
        · rfl
        · next hne => exact hb u hu (fun hw => hne (by cases h3 u hw; rfl))

/-- a call that writes an edge, with nobody else around -/
theorem written (hc : c.RoundTrip) (ht : c.Total) {s : Db} (hs : Decodable c s) {y : Call E Id NP EP} {t : Triple Id} {v : Bytes}
    (hy : Ev.put v t ∈ y.events) : ∃ w, ((y.prog c mN mE).run s).1.idIn .SPO t = some w ∧ (w, t) ∈ y.writes := by
  have hsc : y.Scans ∧ y.Spares t ∧ ¬ y.Removes t := by
    cases y <;> simp_all [Call.events, Call.Scans, Call.Spares, Call.Removes]
  rw [enters_run (b := s.idIn .SPO) (enters_call (o := .SPO) (U := fun u => u = t) hc ht y (by rintro u rfl; exact hsc.2.1) hsc.1) hs
    (fun _ _ _ => rfl) rfl]
  obtain ⟨w, h1, h2⟩ := fold_put (b := s.idIn .SPO) (fun h => hsc.2.2 (removes_of_mem h)) hy
  exact ⟨w, h2, writes_of_mem h1⟩

omit [LinearOrder Id] [ConcreteId Id] [LaidOutId Id] in
theorem not_pairwise {β : Type} {R : β → β → Prop} {l : List β} (h : ¬ l.Pairwise R) :
    ∃ pre a mid b post, l = pre ++ a :: (mid ++ b :: post) ∧ ¬ R a b := by
  induction l with
  | nil => exact absurd .nil h
  | cons x l ih =>
    by_cases hx : ∀ y ∈ l, R x y
    · obtain ⟨pre, a, mid, b, post, rfl, hR⟩ := ih (fun hp => h (.cons hx hp))
      exact ⟨x :: pre, a, mid, b, post, rfl, hR⟩
    · simp only [not_forall] at hx
      obtain ⟨y, hy, hR⟩ := hx
      obtain ⟨mid, post, rfl⟩ := List.append_of_mem hy
      exact ⟨[], x, mid, y, post, rfl, hR⟩

omit [LinearOrder Id] [ConcreteId Id] [LaidOutId Id] in
theorem pairwise_prefix {β : Type} {R : List β → List β → Prop} (hR : ∀ a a' b b', a <+: a' → b <+: b' → R a' b' → R a b)
    {l m : List (List β)} (h : List.Forall₂ (· <+: ·) l m) (hm : m.Pairwise R) : l.Pairwise R := by
  induction h with
  | nil => exact .nil
  | cons h1 h2 ih =>
    obtain ⟨h3, h4⟩ := List.pairwise_cons.1 hm
    refine .cons (fun b hb => ?_) (ih h4)
    obtain ⟨b', hb', hp⟩ := forall₂_mem h2.flip hb
    exact hR _ _ _ _ h1 hp (h3 b' hb')

omit [LinearOrder Id] [ConcreteId Id] [LaidOutId Id] in
theorem map_two {β γ : Type} (f : β → γ) (sw : Bool) (pre mid post : List β) (a b : β) :
    (two sw pre mid post a b).map f = two sw (pre.map f) (mid.map f) (post.map f) (f a) (f b) := by
  cases sw <;> simp [two]

/-- the schedule begins: the two threads make the calls before those of interest, the others make none -/
theorem begin (hc : c.RoundTrip) (ht : c.Total) {d0 : Db} (hd : Decodable c d0) {sw : Bool}
    {pre mid post : List (List (Call E Id NP EP))} {A1 A2 B1 B2 : List (Call E Id NP EP)} {x y : Call E Id NP EP}
    (hA : ∀ x ∈ A1, x.Scans) (hB : ∀ x ∈ B1, x.Scans) {G : Db → Prop}
    (h : ∀ (K : List (Prog Db Unit) → List (Prog Db Unit) → List (List (Prog Db Unit))) d, Decodable c d →
      (∀ s f k q b, CalmStep (s, K (.call f k :: q) b) (f s, K (k s :: q) b)) →
      (∀ p s q b, CalmSteps (s, K (p :: q) b) ((p.run s).1, K q b)) → (∀ p s a q, CalmSteps (s, K a (p :: q)) ((p.run s).1, K a q)) →
      ∃ d', CalmSteps (d, K [x.prog c mN mE] [y.prog c mN mE]) (d', K [] []) ∧ G d') :
    ∃ d, Pause c mN mE d0 (two sw pre mid post (A1 ++ x :: A2) (B1 ++ y :: B2)) d ∧ G d := by
  let P : List (Call E Id NP EP) → List (Prog Db Unit) := List.map (Call.prog c mN mE)
  let no : List (List (Call E Id NP EP)) → List (List (Call E Id NP EP)) := List.map (fun _ => [])
  let K := two sw ((no pre).map P) ((no mid).map P) ((no post).map P)
  obtain ⟨d1, s1, h1⟩ := callsA (mN := mN) (mE := mE) (sw := sw) (pre := (no pre).map P) (mid := (no mid).map P) (post := (no post).map P)
    hc ht A1 hA [x.prog c mN mE] (P (B1 ++ [y])) hd
  obtain ⟨d2, s2, h2⟩ := callsB (mN := mN) (mE := mE) (sw := sw) (pre := (no pre).map P) (mid := (no mid).map P) (post := (no post).map P)
    hc ht B1 hB [x.prog c mN mE] [y.prog c mN mE] h1
  obtain ⟨d3, s3, hG⟩ := h K d2 h2 callA runA runB
  refine ⟨d3, ⟨two sw (no pre) (no mid) (no post) (A1 ++ [x]) (B1 ++ [y]), ?_, K [] [], ?_, ?_⟩, hG⟩
  · have hno : ∀ l : List (List (Call E Id NP EP)), List.Forall₂ (· <+: ·) (no l) l := by
      intro l
      induction l with
      | nil => exact .nil
      | cons a l ih => exact .cons (List.nil_prefix) ih
    have hA : A1 ++ [x] <+: A1 ++ x :: A2 := ⟨A2, by simp⟩
    have hB : B1 ++ [y] <+: B1 ++ y :: B2 := ⟨B2, by simp⟩
    cases sw
    · exact List.rel_append (hno pre) (.cons hA (List.rel_append (hno mid) (.cons hB (hno post))))
    · exact List.rel_append (hno pre) (.cons hB (List.rel_append (hno mid) (.cons hA (hno post))))
  · have e : Sled.start c mN mE d0 (two sw (no pre) (no mid) (no post) (A1 ++ [x]) (B1 ++ [y])) =
        (d0, K (P A1 ++ [x.prog c mN mE]) (P B1 ++ [y.prog c mN mE])) := by
      show (d0, _) = (d0, _)
      rw [map_two]
      show (d0, K (P (A1 ++ [x])) (P (B1 ++ [y]))) = _
      simp only [P, List.map_append, List.map_cons, List.map_nil]
    rw [e]
    have e2 : P (B1 ++ [y]) = P B1 ++ [y.prog c mN mE] := by simp [P]
    rw [e2] at s1
    exact trans (trans s1 s2) s3
  · have hno : ∀ (l : List (List (Call E Id NP EP))) th, th ∈ (no l).map P → th = [] := by
      intro l th h
      obtain ⟨a, ha, rfl⟩ := List.mem_map.1 h
      obtain ⟨b, -, rfl⟩ := List.mem_map.1 ha
      rfl
    intro th hth
    have : th ∈ (no pre).map P ∨ th = [] ∨ th ∈ (no mid).map P ∨ th ∈ (no post).map P := by
      revert hth
      show th ∈ two sw _ _ _ _ _ → _
      unfold two
      cases sw <;> simp only [Bool.false_eq_true, if_false, if_true, List.mem_append, List.mem_cons] <;> tauto
    rcases this with h | h | h | h
    · exact hno _ _ h
    · exact h
    · exact hno _ _ h
    · exact hno _ _ h

/-- the schedule for `remove_edge` -/
theorem lose (hc : c.RoundTrip) (ht : c.Total) {d0 : Db} (hd : Decodable c d0) {sw : Bool}
    {pre mid post : List (List (Call E Id NP EP))} {A1 A2 B1 B2 : List (Call E Id NP EP)} {y : Call E Id NP EP} {t : Triple Id} {v : Bytes}
    (hy : Ev.put v t ∈ y.events) (hA : ∀ x ∈ A1, x.Scans) (hB : ∀ x ∈ B1, x.Scans) :
    ∃ d, Pause c mN mE d0 (two sw pre mid post (A1 ++ .removeEdge t :: A2) (B1 ++ y :: B2)) d ∧
      d.idIn .SPO t ≠ none ∧ d.idIn .POS t = none ∧ d.idIn .OSP t = none := by
  refine begin hc ht hd hA hB (fun K d2 h2 callA runA runB => ?_)
  -- the transaction of `remove_edge`, and the removal from SPO that follows it
  let f1 : Db → Db := fun d => { d with
    spo := d.spo.erase (encodeSpo t).1
    pos := d.pos.erase (encodePos t).1
    osp := d.osp.erase (encodeOsp t).1
    edgeProps := match d.spo.get (encodeSpo t).1 with | some i => d.edgeProps.erase i | none => d.edgeProps }
  let f2 : Db → Db := fun d => { d with spo := d.spo.erase (encodeSpo t).1 }
  let rest : Db → Prog Db Unit := fun d1 =>
    .call (fun d => { d with pos := d.pos.erase (encodePos t).1 }) (fun _ =>
      .call (fun d => { d with osp := d.osp.erase (encodeOsp t).1 }) (fun _ =>
        Prog.bind (match d1.spo.get (encodeSpo t).1 with
          | some i => .call (fun d => { d with edgeProps := d.edgeProps.erase i }) (fun _ => .ret (.ok ()))
          | none => .ret (.ok ())) (fun (_ : Except SErr Unit) => .ret ())))
  have h3 : Decodable c (f2 (f1 d2)) := by
    refine h2.sub (fun k b h => h) (fun k b h => ?_)
    change (f1 d2).edgeProps.get k = some b at h
    simp only [f1] at h
    split at h
    · rw [BMap.get_erase] at h
      split at h
      · cases h
      · exact h
    · exact h
  have s3 : CalmSteps (d2, K [(Call.removeEdge t : Call E Id NP EP).prog c mN mE] [y.prog c mN mE])
      (f2 (f1 d2), K [rest (f1 d2)] [y.prog c mN mE]) :=
    trans (.tail (.refl _) (callA d2 f1 _ [] _)) (.tail (.refl _) (callA (f1 d2) f2 rest [] _))
  let d4 := ((y.prog c mN mE).run (f2 (f1 d2))).1
  have s4 : CalmSteps (f2 (f1 d2), K [rest (f1 d2)] [y.prog c mN mE]) (d4, K [rest (f1 d2)] []) := runB _ _ _ _
  have s5 : CalmSteps (d4, K [rest (f1 d2)] []) (((rest (f1 d2)).run d4).1, K [] []) := runA _ _ _ _
  have hr : (f1 d2).spo.get (encodeSpo t).1 = none := by simp [f1]
  have he : ((rest (f1 d2)).run d4).1 =
      { d4 with pos := d4.pos.erase (encodePos t).1, osp := d4.osp.erase (encodeOsp t).1 } := by
    simp only [rest, Prog.run, hr, Prog.bind]
  refine ⟨((rest (f1 d2)).run d4).1, trans s3 (trans s4 s5), ?_, ?_, ?_⟩
  · rw [he]
    obtain ⟨w, hw, -⟩ := written (mN := mN) (mE := mE) hc ht h3 hy
    have : d4.idIn .SPO t = some w := hw
    show d4.idIn .SPO t ≠ none
    rw [this]; exact nofun
  · rw [he]
    exact BMap.get_erase_self _ _
  · rw [he]
    exact BMap.get_erase_self _ _

/-- `extend` enters its nodes -/
theorem nodesA {K : List (Prog Db Unit) → List (Prog Db Unit) → List (List (Prog Db Unit))}
    (callA : ∀ s f k q b, CalmStep (s, K (.call f k :: q) b) (f s, K (k s :: q) b)) (hc : c.RoundTrip) (ht : c.Total) {α : Type}
    {k : Except (LR SErr E) Unit → Prog Db α} {g : α → Prog Db Unit} (l : List (Except E (Id × NP))) (hl : fails l = false)
    {s : Db} (hs : Decodable c s) (b : List (Prog Db Unit)) :
    ∃ s', CalmSteps (s, K [(extendNodes c k l).bind g] b) (s', K [(k (.ok ())).bind g] b) ∧ Decodable c s' := by
  induction l generalizing s with
  | nil => exact ⟨s, .refl _, hs⟩
  | cons x l ih =>
    cases x with
    | error e => cases hl
    | ok x =>
      obtain ⟨bs, hb⟩ := Option.isSome_iff_exists.1 (ht.1 x.2)
      obtain ⟨s', h1, h2⟩ := ih hl (hs.node (k := (toBeBytes x.1).1) hc hb)
      refine ⟨s', trans (.tail (.refl _) ?_) h1, h2⟩
      have : extendNodes c k (.ok x :: l) = .call (fun d => { d with nodeProps := d.nodeProps.insert (toBeBytes x.1).1 bs })
          (fun _ => extendNodes c k l) := by
        rw [extendNodes, hb]
      rw [this]
      exact callA s _ _ [] b

/-- one edge of `extend` -/
theorem extendEdges_ok (u : Gen Ulid) (x : Triple Id × EP) (l : List (Except E (Triple Id × EP))) {bs : Bytes}
    (hb : c.e.ser x.2 = some bs) : extendEdges c u (.ok x :: l) =
      .call (fun d => { d with edgeProps := d.edgeProps.insert (be (Gen.fresh u).1) bs }) (fun _ =>
        .call (fun d => { d with spo := d.spo.insert (encodeSpo x.1).1 (be (Gen.fresh u).1) }) (fun d1 =>
          .call (fun d => { d with pos := d.pos.insert (encodePos x.1).1 (be (Gen.fresh u).1) }) (fun _ =>
            .call (fun d => { d with osp := d.osp.insert (encodeOsp x.1).1 (be (Gen.fresh u).1) }) (fun _ =>
              match d1.spo.get (encodeSpo x.1).1 with
              | some o => .call (fun d => { d with edgeProps := d.edgeProps.erase o }) (fun _ => extendEdges c (Gen.fresh u).2 l)
              | none => extendEdges c (Gen.fresh u).2 l)))) := by
  rw [extendEdges, hb]; rfl

/-- `extend` enters its edges up to the last occurrence of `t` -/
theorem edgesA {K : List (Prog Db Unit) → List (Prog Db Unit) → List (List (Prog Db Unit))}
    (callA : ∀ s f k q b, CalmStep (s, K (.call f k :: q) b) (f s, K (k s :: q) b)) (hc : c.RoundTrip) (ht : c.Total)
    {g : Gen Ulid × Except (LR SErr E) Unit → Prog Db Unit} (u : Gen Ulid) (l : List (Except E (Triple Id × EP))) {t : Triple Id}
    (hl : ∃ v, (v, t) ∈ Call.drawnFor u l) {s : Db} (hs : Decodable c s) (b : List (Prog Db Unit)) :
    ∃ s' u' p l', CalmSteps (s, K [(extendEdges c u l).bind g] b) (s', K [(extendEdges c u' (.ok (t, p) :: l')).bind g] b) ∧
      Decodable c s' ∧ (be (Gen.fresh u').1, t) ∈ Call.drawnFor u l ∧ ∀ w, (w, t) ∉ Call.drawnFor (Gen.fresh u').2 l' := by
  induction l generalizing s u with
  | nil => obtain ⟨v, h⟩ := hl; cases h
  | cons x l ih =>
    cases x with
    | error e => obtain ⟨v, h⟩ := hl; cases h
    | ok x =>
      by_cases hlater : ∃ v, (v, t) ∈ Call.drawnFor (Gen.fresh u).2 l
      · obtain ⟨bs, hb⟩ := Option.isSome_iff_exists.1 (ht.2 x.2)
        have e1 : ∀ s, Decodable c s → ∃ s1, Decodable c s1 ∧ CalmSteps (s, K [(extendEdges c u (.ok x :: l)).bind g] b)
            (s1, K [(extendEdges c (Gen.fresh u).2 l).bind g] b) := by
          intro s hs
          rw [extendEdges_ok u x l hb]
          have h1 := hs.edge (k := be (Gen.fresh u).1) hc hb
          have last : ∀ (o : Option Bytes) s, Decodable c s → ∃ s1, Decodable c s1 ∧ CalmSteps (s, K [(match o with
              | some o => Prog.call (fun d : Db => { d with edgeProps := d.edgeProps.erase o }) (fun _ => extendEdges c (Gen.fresh u).2 l)
              | none => extendEdges c (Gen.fresh u).2 l).bind g] b) (s1, K [(extendEdges c (Gen.fresh u).2 l).bind g] b) := by
            intro o s hs
            cases o with
            | none => exact ⟨s, hs, .refl _⟩
            | some o => exact ⟨_, hs.erase o, .tail (.refl _) (callA s _ _ [] b)⟩
          obtain ⟨s1, i1, i2⟩ := last (s.spo.get (encodeSpo x.1).1) { s with
            edgeProps := s.edgeProps.insert (be (Gen.fresh u).1) bs
            spo := s.spo.insert (encodeSpo x.1).1 (be (Gen.fresh u).1)
            pos := s.pos.insert (encodePos x.1).1 (be (Gen.fresh u).1)
            osp := s.osp.insert (encodeOsp x.1).1 (be (Gen.fresh u).1) } h1
          refine ⟨s1, i1, ?_⟩
          refine trans (.tail (.refl _) (callA s _ _ [] b)) ?_
          refine trans (.tail (.refl _) (callA _ _ _ [] b)) ?_
          refine trans (.tail (.refl _) (callA _ _ _ [] b)) ?_
          refine trans (.tail (.refl _) (callA _ _ _ [] b)) ?_
          exact i2
        obtain ⟨s1, h1, h2⟩ := e1 s hs
        obtain ⟨s', u', p, l', i1, i2, i3, i4⟩ := ih (Gen.fresh u).2 hlater h1
        exact ⟨s', u', p, l', trans h2 i1, i2, List.mem_cons_of_mem _ i3, i4⟩
      · obtain ⟨v, h⟩ := hl
        rcases List.mem_cons.1 h with h | h
        · obtain ⟨t', p⟩ := x
          cases h
          exact ⟨s, u, p, l, .refl _, hs, List.mem_cons_self, fun w hw => hlater ⟨w, hw⟩⟩
        · exact absurd ⟨v, h⟩ hlater

/-- the schedule for `extend` -/
theorem loseX (hc : c.RoundTrip) (ht : c.Total) {d0 : Db} (hd : Decodable c d0) {sw : Bool}
    {pre mid post : List (List (Call E Id NP EP))} {A1 A2 B1 B2 : List (Call E Id NP EP)} {u : Gen Ulid} {src : Source E Id NP EP}
    {y : Call E Id NP EP} {t : Triple Id} {v w : Bytes} (hx : Ev.put w t ∈ (Call.extend u src : Call E Id NP EP).events)
    (hy : Ev.put v t ∈ y.events) (hA : ∀ x ∈ A1, x.Scans) (hB : ∀ x ∈ B1, x.Scans) :
    ∃ d, Pause c mN mE d0 (two sw pre mid post (A1 ++ .extend u src :: A2) (B1 ++ y :: B2)) d ∧
      ∃ a b, d.idIn .SPO t = some a ∧ (a, t) ∈ y.writes ∧ d.idIn .POS t = some b ∧ d.idIn .OSP t = some b ∧
        (b, t) ∈ (Call.extend u src : Call E Id NP EP).writes := by
  refine begin hc ht hd hA hB (fun K d2 h2 callA runA runB => ?_)
  have hnf : fails src.nodes = false := by
    simp only [Call.events] at hx
    split at hx
    · cases hx
    · simp_all
  obtain ⟨d3, s3, h3⟩ := nodesA callA hc ht (k := fun
    | .error e => .ret (u, .error e)
    | .ok () => extendEdges c u src.edges) (g := fun _ => .ret ()) src.nodes hnf h2 [y.prog c mN mE]
  obtain ⟨d4, u', p, l, s4, h4, hm, hno⟩ := edgesA callA hc ht (g := fun _ => .ret ()) u src.edges ⟨w, writes_of_mem hx⟩ h3 [y.prog c mN mE]
  obtain ⟨bs, hb⟩ := Option.isSome_iff_exists.1 (ht.2 p)
  rw [extendEdges_ok u' (t, p) l hb] at s4
  have h5 : Decodable c { d4 with edgeProps := d4.edgeProps.insert (be (Gen.fresh u').1) bs } := h4.edge hc hb
  have h6 : Decodable c { d4 with
      edgeProps := d4.edgeProps.insert (be (Gen.fresh u').1) bs, spo := d4.spo.insert (encodeSpo t).1 (be (Gen.fresh u').1) } := h5
  obtain ⟨a, ha, haw⟩ := written (mN := mN) (mE := mE) hc ht h6 hy
  let rest : Prog Db Unit :=
    .call (fun d => { d with pos := d.pos.insert (encodePos t).1 (be (Gen.fresh u').1) }) (fun _ =>
      .call (fun d => { d with osp := d.osp.insert (encodeOsp t).1 (be (Gen.fresh u').1) }) (fun _ =>
        (match d4.spo.get (encodeSpo t).1 with
          | some o => Prog.call (fun d : Db => { d with edgeProps := d.edgeProps.erase o }) (fun _ => extendEdges c (Gen.fresh u').2 l)
          | none => extendEdges c (Gen.fresh u').2 l).bind (fun _ => .ret ())))
  have s5 : CalmSteps (d3, K [(extendEdges c u src.edges).bind (fun _ => .ret ())] [y.prog c mN mE]) ({ d4 with
      edgeProps := d4.edgeProps.insert (be (Gen.fresh u').1) bs, spo := d4.spo.insert (encodeSpo t).1 (be (Gen.fresh u').1) },
      K [rest] [y.prog c mN mE]) := by
    refine trans s4 ?_
    refine trans (.tail (.refl _) (callA d4 _ _ [] _)) ?_
    exact .tail (.refl _) (callA _ _ _ [] _)
  have s6 := trans (trans s3 s5) (trans (runB (y.prog c mN mE) _ [rest] []) (runA rest _ [] []))
  refine ⟨_, s6, a, be (Gen.fresh u').1, ?_⟩
  have h7 := decodable_run (enters_call (o := .SPO) (U := fun _ => False) (mN := mN) (mE := mE) hc ht y (fun _ h => h.elim)
      (show y.Scans by cases y <;> simp_all [Call.events, Call.Scans])) h6
  generalize ((y.prog c mN mE).run _).1 = d7 at ha h7 ⊢
  have fin : ∀ (d : Db) o, Decodable c d →
      (((extendEdges c (Gen.fresh u').2 l).bind (fun _ => .ret () : _ → Prog Db Unit)).run d).1.idIn o t = d.idIn o t := by
    intro d o hd'
    have h := (enters_extendEdges (o := o) (U := fun u => u = t) hc ht (Gen.fresh u').2 l).bind (k := fun _ => .ret ())
      (R' := fun _ => True) (L' := []) (fun _ _ => Enters.done trivial)
    rw [enters_run (b := d.idIn o) h hd' (fun _ _ _ => rfl) rfl, List.append_nil]
    have : ∀ (L : List (Bytes × Triple Id)) (b : Triple Id → Option Bytes), (∀ w, (w, t) ∉ L) →
        (L.map (fun x => Ev.put x.1 x.2)).foldl Ev.on b t = b t := by
      intro L
      induction L with
      | nil => exact fun b _ => rfl
      | cons e L ih =>
        intro b h
        rw [List.map_cons, List.foldl_cons, ih _ (fun w hw => h w (List.mem_cons_of_mem _ hw))]
        simp only [Ev.on]
        rw [if_neg]
        rintro rfl
        exact h e.1 List.mem_cons_self
    exact this _ _ hno
  simp only [rest, Prog.run]
  split
  · next o _ =>
    simp only [Prog.bind, Prog.run]
    have h8 : Decodable c { d7 with edgeProps := d7.edgeProps.erase o } := h7.erase o
    refine ⟨(fin _ _ ?_).trans ?_, haw, (fin _ _ ?_).trans ?_, (fin _ _ ?_).trans ?_, hm⟩
    · exact h8
    · exact ha
    · exact h8
    · exact BMap.get_insert_self _ _ _
    · exact h8
    · exact BMap.get_insert_self _ _ _
  · refine ⟨(fin _ _ ?_).trans ?_, haw, (fin _ _ ?_).trans ?_, (fin _ _ ?_).trans ?_, hm⟩
    · exact h7
    · exact ha
    · exact h7
    · exact BMap.get_insert_self _ _ _
    · exact h7
    · exact BMap.get_insert_self _ _ _

omit [LinearOrder Id] [ConcreteId Id] [LaidOutId Id] in
theorem two_of {β : Type} {l : List β} {i j : Nat} (hij : i ≠ j) {a b : β} (hi : l[i]? = some a) (hj : l[j]? = some b) :
    ∃ sw pre mid post, l = two sw pre mid post a b := by
  have split2 : ∀ (l : List β) (i j : Nat) a b, i < j → l[i]? = some a → l[j]? = some b →
      ∃ pre mid post, l = pre ++ a :: (mid ++ b :: post) := by
    intro l
    induction l with
    | nil => intro i j a b _ h; simp at h
    | cons z l ih =>
      intro i j a b hlt h1 h2
      cases j with
      | zero => omega
      | succ j =>
        cases i with
        | zero =>
          simp only [List.getElem?_cons_zero, Option.some.injEq] at h1
          simp only [List.getElem?_cons_succ] at h2
          subst h1
          obtain ⟨mid, post, rfl⟩ := List.append_of_mem (List.mem_of_getElem? h2)
          exact ⟨[], mid, post, rfl⟩
        | succ i =>
          simp only [List.getElem?_cons_succ] at h1 h2
          obtain ⟨pre, mid, post, rfl⟩ := ih i j a b (by omega) h1 h2
          exact ⟨z :: pre, mid, post, rfl⟩
  rcases Nat.lt_or_gt_of_ne hij with h | h
  · obtain ⟨pre, mid, post, rfl⟩ := split2 l i j _ _ h hi hj
    exact ⟨false, pre, mid, post, rfl⟩
  · obtain ⟨pre, mid, post, rfl⟩ := split2 l j i _ _ h hj hi
    exact ⟨true, pre, mid, post, rfl⟩

theorem distinct_two {d0 : Db} {sw : Bool} {pre mid post : List (List (Call E Id NP EP))} {a b : List (Call E Id NP EP)}
    (hi : DistinctIds d0 (two sw pre mid post a b)) {x y : Call E Id NP EP} (hx : x ∈ a) (hy : y ∈ b) {v w : Bytes} {t u : Triple Id}
    (hv : (v, t) ∈ x.writes) (hw : (w, u) ∈ y.writes) : v ≠ w := by
  have key : ∀ {A B : List (Call E Id NP EP)} {x y : Call E Id NP EP} {v w : Bytes} {t u : Triple Id},
      DistinctIds d0 (pre ++ A :: (mid ++ B :: post)) → x ∈ A → y ∈ B → (v, t) ∈ x.writes → (w, u) ∈ y.writes → v ≠ w := by
    rintro A B x y v w t u ⟨h, -⟩ hx hy hv hw rfl
    simp only [allWrites, List.flatten_append, List.flatten_cons, List.flatMap_append, List.map_append] at h
    have h1 := (List.nodup_append.1 h).2.1
    exact (List.nodup_append.1 h1).2.2 v (List.mem_map.2 ⟨(v, t), List.mem_flatMap.2 ⟨x, hx, hv⟩, rfl⟩) v
      (List.mem_append_right _ (List.mem_append_left _ (List.mem_map.2 ⟨(v, u), List.mem_flatMap.2 ⟨y, hy, hw⟩, rfl⟩))) rfl
  cases sw
  · exact key hi hx hy hv hw
  · exact (key hi hy hx hw hv).symm

end RaceExact

namespace Props

open RaceExact

variable {Id NP EP E : Type} [LinearOrder Id] [ConcreteId Id] [LaidOutId Id]
variable {c : Codecs NP EP} {mN : NP → NP → NP} {mE : EP → EP → EP}

/-- Whatever the threads do, and whatever the database contains: if one thread removes an edge which another one writes, then after some
schedule, when no call is under way and none has failed, the edge is in SPO and in none of the other orderings. -/
theorem C31_every_race (hc : c.RoundTrip) (ht : c.Total) {d0 : Db} (hd : Decodable c d0) {threads : List (List (Call E Id NP EP))}
    (hs : ∀ th ∈ threads, ∀ x ∈ th, x.Scans) {i j : Nat} (hij : i ≠ j) {th th' : List (Call E Id NP EP)} (hi : threads[i]? = some th)
    (hj : threads[j]? = some th') {t : Triple Id} (hx : Call.removeEdge t ∈ th) {y : Call E Id NP EP} (hy : y ∈ th') {v : Bytes}
    (hv : Ev.put v t ∈ y.events) :
    ∃ d, Pause c mN mE d0 threads d ∧ d.idIn .SPO t ≠ none ∧ d.idIn .POS t = none ∧ d.idIn .OSP t = none := by
  obtain ⟨A1, A2, rfl⟩ := List.append_of_mem hx
  obtain ⟨B1, B2, rfl⟩ := List.append_of_mem hy
  have key := two_of hij hi hj
  obtain ⟨sw, pre, mid, post, rfl⟩ := key
  exact lose hc ht hd hv
    (fun x hx => hs _ (List.mem_of_getElem? hi) x (by simp [hx])) (fun x hx => hs _ (List.mem_of_getElem? hj) x (by simp [hx]))

/-- So the condition of `C31_consistent_partial` is exact: the orderings agree whenever no call is under way, in every schedule, if and only
if no thread removes an edge which another one writes. -/
theorem C31_exact (hc : c.RoundTrip) (ht : c.Total) {d0 : Db} (h0 : Consistent Id d0) (hd : Decodable c d0)
    {threads : List (List (Call E Id NP EP))} (hs : ∀ th ∈ threads, ∀ x ∈ th, x.Scans)
    (hx : ∀ th ∈ threads, ∀ x ∈ th, ¬ x.IsExtend ∧ ¬ x.NodesFail) :
    (∀ d, Pause c mN mE d0 threads d → Consistent Id d) ↔ NoRace threads := by
  constructor
  · intro h
    by_contra hr
    obtain ⟨pre, a, mid, b, post, rfl, hR⟩ := not_pairwise hr
    have ev : ∀ y ∈ a ++ b, ∀ t v, (v, t) ∈ y.writes → Ev.put v t ∈ y.events := by
      intro y hy t v hv
      have hy : ¬ y.IsExtend ∧ ¬ y.NodesFail := by
        rcases List.mem_append.1 hy with hy | hy
        · exact hx a (by simp) y hy
        · exact hx b (by simp) y hy
      cases y <;> simp_all [Call.writes, Call.events, Call.IsExtend, Call.NodesFail, be]
    have lost : ∀ d (t : Triple Id), Pause c mN mE d0 (pre ++ a :: (mid ++ b :: post)) d → d.idIn .SPO t ≠ none →
        d.idIn .POS t = none → False := by
      intro d t hq h1 h2
      have := (agree_of_consistent (h d hq)).same .POS t
      rw [h2] at this
      exact h1 this.symm
    have hsa : ∀ x ∈ a, x.Scans := hs a (by simp)
    have hsb : ∀ x ∈ b, x.Scans := hs b (by simp)
    simp only [not_forall, not_and_or, not_not] at hR
    obtain ⟨x, hxa, y, hyb, t, ⟨hrem, v, hv⟩ | ⟨hrem, v, hv⟩⟩ := hR
    · cases x <;> try exact hrem.elim
      cases hrem
      obtain ⟨A1, A2, rfl⟩ := List.append_of_mem hxa
      obtain ⟨B1, B2, rfl⟩ := List.append_of_mem hyb
      obtain ⟨d, hq, h1, h2, -⟩ := lose (mN := mN) (mE := mE) (sw := false) (pre := pre) (mid := mid) (post := post) (A1 := A1) (A2 := A2)
        (B1 := B1) (B2 := B2) hc ht hd (ev y (List.mem_append_right _ hyb) t v hv)
        (fun x hx => hsa x (List.mem_append_left _ hx)) (fun x hx => hsb x (List.mem_append_left _ hx))
      exact lost d t hq h1 h2
    · cases y <;> try exact hrem.elim
      cases hrem
      obtain ⟨A1, A2, rfl⟩ := List.append_of_mem hyb
      obtain ⟨B1, B2, rfl⟩ := List.append_of_mem hxa
      obtain ⟨d, hq, h1, h2, -⟩ := lose (mN := mN) (mE := mE) (sw := true) (pre := pre) (mid := mid) (post := post) (A1 := A1) (A2 := A2)
        (B1 := B1) (B2 := B2) hc ht hd (ev x (List.mem_append_left _ hxa) t v hv)
        (fun x hx => hsb x (List.mem_append_left _ hx)) (fun x hx => hsa x (List.mem_append_left _ hx))
      exact lost d t hq h1 h2
  · rintro hr d ⟨made, hm, rest, h, -⟩
    refine C31_consistent_partial h0 (pairwise_prefix ?_ hm hr) (fun th hth x h => ?_) ⟨_, h.steps⟩
    · exact fun a a' b b' ha hb h x hx y hy t => h x (ha.subset hx) y (hb.subset hy) t
    · obtain ⟨th', hth', hp⟩ := forall₂_mem hm.flip hth
      exact (hx th' hth' x (List.IsPrefix.subset hp h)).1

-- a merge writes the edge at last, among others; the other thread does something else before it removes the edge
example : ∃ d, Pause Sample.uc Sample.mN Sample.mE db0
    [[.insertNode 7 7, .removeEdge ⟨1, 5, 2⟩, .mergeNode 7 1], [], [.merge (Sample.cg 200) (onlyEdge 60 : Source String U64 Nat Nat)]] d ∧
    d.idIn .SPO (⟨1, 5, 2⟩ : Triple U64) ≠ none ∧ d.idIn .POS (⟨1, 5, 2⟩ : Triple U64) = none ∧
    d.idIn .OSP (⟨1, 5, 2⟩ : Triple U64) = none :=
  C31_every_race Sample.uc_rt Sample.uc_total db0_decodable (by simp [Call.Scans]) (i := 0) (j := 2) (by decide) rfl rfl
    (by simp) (List.mem_singleton.2 rfl) (by simp [Call.events, onlyEdge, fails, Call.drawnFor]; rfl)

-- both sides of `C31_exact` occur
example : ¬ ∀ d, Pause Sample.uc Sample.mN Sample.mE db0 race d → Consistent U64 d :=
  (C31_exact Sample.uc_rt Sample.uc_total (C30_start Sample.uc_rt (Sample.sstore_reach 0 0 (by decide) (by decide))) db0_decodable
    (by simp [race, Call.Scans]) (by simp [race, Call.IsExtend, Call.NodesFail])).not.2 (by simp [NoRace, race, Call.Removes, Call.writes])

example : ∀ d, Pause Sample.uc Sample.mN Sample.mE db0 calm d → Consistent U64 d :=
  (C31_exact Sample.uc_rt Sample.uc_total (C30_start Sample.uc_rt (Sample.sstore_reach 0 0 (by decide) (by decide))) db0_decodable
    (by simp [calm, Call.Scans]) (by simp [calm, Call.IsExtend, Call.NodesFail])).2 calm_noRace

/-! ## C51 -/

/-- Likewise for `extend`: if another thread writes an edge that one extends the store by, then after some schedule SPO has the id of the
one, and the other orderings have that of the other. -/
theorem C51_every_race (hc : c.RoundTrip) (ht : c.Total) {d0 : Db} (hd : Decodable c d0) {threads : List (List (Call E Id NP EP))}
    (hs : ∀ th ∈ threads, ∀ x ∈ th, x.Scans) (hid : DistinctIds d0 threads) {i j : Nat} (hij : i ≠ j) {th th' : List (Call E Id NP EP)}
    (hi : threads[i]? = some th) (hj : threads[j]? = some th') {t : Triple Id} {u : Gen Ulid} {src : Source E Id NP EP}
    (hx : Call.extend u src ∈ th) {w : Bytes} (hw : Ev.put w t ∈ (Call.extend u src : Call E Id NP EP).events)
    {y : Call E Id NP EP} (hy : y ∈ th') {v : Bytes} (hv : Ev.put v t ∈ y.events) :
    ∃ d, Pause c mN mE d0 threads d ∧ ∃ a b, a ≠ b ∧ d.idIn .SPO t = some a ∧ d.idIn .POS t = some b ∧ d.idIn .OSP t = some b := by
  obtain ⟨A1, A2, rfl⟩ := List.append_of_mem hx
  obtain ⟨B1, B2, rfl⟩ := List.append_of_mem hy
  obtain ⟨sw, pre, mid, post, rfl⟩ := two_of hij hi hj
  obtain ⟨d, hq, a, b, h1, h2, h3, h4, h5⟩ := loseX (mN := mN) (mE := mE) (sw := sw) (pre := pre) (mid := mid) (post := post) (A1 := A1)
    (A2 := A2) (B1 := B1) (B2 := B2) hc ht hd hw hv (fun x hx => hs _ (List.mem_of_getElem? hi) x (by simp [hx]))
    (fun x hx => hs _ (List.mem_of_getElem? hj) x (by simp [hx]))
  exact ⟨d, hq, a, b, (distinct_two hid hx hy h5 h2).symm, h1, h3, h4⟩

/-- No thread extends the store by an edge which another one writes. -/
def NoExtendRace (threads : List (List (Call E Id NP EP))) : Prop :=
  threads.Pairwise (fun th th' => ∀ x ∈ th, ∀ y ∈ th', ∀ t,
    (x.IsExtend → x.MayWrite t → ¬ y.MayWrite t) ∧ (y.IsExtend → y.MayWrite t → ¬ x.MayWrite t))

/-- All calls, `extend` included, as long as no node of an edge written by `extend` is removed: the orderings agree whenever no call is under
way, in every schedule, if and only if no thread writes an edge which another one removes, or extends the store by. -/
theorem C51_exact (hc : c.RoundTrip) (ht : c.Total) {d0 : Db} (h0 : Consistent Id d0) (hwf : WellFormed Id c d0)
    {threads : List (List (Call E Id NP EP))} (hs : ∀ th ∈ threads, ∀ x ∈ th, x.Scans) (hid : DistinctIds d0 threads)
    (hx : ∀ th ∈ threads, ∀ x ∈ th, ¬ x.NodesFail)
    (hn : ∀ th ∈ threads, ∀ x ∈ th, x.IsExtend → ∀ t, x.MayWrite t → ∀ th' ∈ threads, ∀ y ∈ th', y.Spares t) :
    (∀ d, Pause c mN mE d0 threads d → Consistent Id d) ↔ NoRace threads ∧ NoExtendRace threads := by
  have hd : Decodable c d0 := by
    refine ⟨fun k b h => ?_, fun k b h => ?_⟩
    · obtain ⟨-, p, hp⟩ := hwf.nodes k b h
      rw [hc.1 p b hp]; rfl
    · obtain ⟨p, hp⟩ := hwf.recs k b h
      rw [hc.2 p b hp]; rfl
  constructor
  · intro h
    have ev : ∀ th ∈ threads, ∀ y ∈ th, ∀ t v, (v, t) ∈ y.writes → Ev.put v t ∈ y.events := by
      intro th hth y hy t v hv
      have hy := hx th hth y hy
      cases y <;> simp_all [Call.writes, Call.events, Call.NodesFail, be]
    have getl : ∀ {l : List (List (Call E Id NP EP))} {pre a r}, l = pre ++ a :: r → l[pre.length]? = some a := by
      rintro _ pre a r rfl; simp
    refine ⟨?_, ?_⟩
    · by_contra hr
      obtain ⟨pre, a, mid, b, post, e, hR⟩ := not_pairwise hr
      have ea := getl e
      have eb : threads[(pre ++ a :: mid).length]? = some b := getl (r := post) (by rw [e]; simp)
      have hne : pre.length ≠ (pre ++ a :: mid).length := by simp
      have lost : ∀ d (t : Triple Id), Pause c mN mE d0 threads d → d.idIn .SPO t ≠ none →
        d.idIn .POS t = none → False := by
        intro d t hq h1 h2
        have := (agree_of_consistent (h d hq)).same .POS t
        rw [h2] at this
        exact h1 this.symm
      simp only [not_forall, not_and_or, not_not] at hR
      obtain ⟨x, hxa, y, hyb, t, ⟨hrem, v, hv⟩ | ⟨hrem, v, hv⟩⟩ := hR
      · cases x <;> try exact hrem.elim
        cases hrem
        obtain ⟨d, hq, h1, h2, -⟩ := C31_every_race hc ht hd hs hne ea eb hxa hyb (ev b (List.mem_of_getElem? eb) y hyb t v hv)
        exact lost d t hq h1 h2
      · cases y <;> try exact hrem.elim
        cases hrem
        obtain ⟨d, hq, h1, h2, -⟩ := C31_every_race hc ht hd hs hne.symm eb ea hyb hxa (ev a (List.mem_of_getElem? ea) x hxa t v hv)
        exact lost d t hq h1 h2
    · by_contra hr
      obtain ⟨pre, a, mid, b, post, e, hR⟩ := not_pairwise hr
      have ea := getl e
      have eb : threads[(pre ++ a :: mid).length]? = some b := getl (r := post) (by rw [e]; simp)
      have hne : pre.length ≠ (pre ++ a :: mid).length := by simp
      have lost : ∀ d (t : Triple Id) a b, Pause c mN mE d0 threads d → a ≠ b →
        d.idIn .SPO t = some a → d.idIn .POS t = some b → False := by
        intro d t a b hq hab h1 h2
        have := (agree_of_consistent (h d hq)).same .POS t
        rw [h2, h1] at this
        exact hab (Option.some.inj this).symm
      simp only [not_forall, not_and_or, not_not] at hR
      obtain ⟨x, hxa, y, hyb, t, ⟨he, ⟨w, hw⟩, v, hv⟩ | ⟨he, ⟨w, hw⟩, v, hv⟩⟩ := hR
      · cases x <;> try exact he.elim
        obtain ⟨d, hq, a', b', h1, h2, h3, -⟩ := C51_every_race hc ht hd hs hid hne ea eb hxa (ev a (List.mem_of_getElem? ea) _ hxa t w hw) hyb
          (ev b (List.mem_of_getElem? eb) y hyb t v hv)
        exact lost d t a' b' hq h1 h2 h3
      · cases y <;> try exact he.elim
        obtain ⟨d, hq, a', b', h1, h2, h3, -⟩ := C51_every_race hc ht hd hs hid hne.symm eb ea hyb
          (ev b (List.mem_of_getElem? eb) _ hyb t w hw) hxa (ev a (List.mem_of_getElem? ea) x hxa t v hv)
        exact lost d t a' b' hq h1 h2 h3
  · rintro ⟨hr, hxr⟩ d ⟨made, hm, hf⟩
    have up : ∀ th ∈ made, ∀ x ∈ th, ∃ th' ∈ threads, x ∈ th' := by
      intro th hth x hx
      obtain ⟨th', hth', hp⟩ := forall₂_mem hm.flip hth
      exact ⟨th', hth', List.IsPrefix.subset hp hx⟩
    have hr' : NoRace made := pairwise_prefix (fun a a' b b' ha hb h x hx y hy t => h x (ha.subset hx) y (hb.subset hy) t) hm hr
    have hxr' : NoExtendRace made := pairwise_prefix (fun a a' b b' ha hb h x hx y hy t => h x (ha.subset hx) y (hb.subset hy) t) hm hxr
    have hmom : Moment c mN mE d0 made d := by
      obtain ⟨rest, h, -⟩ := hf
      exact ⟨rest, h.steps⟩
    have hag := agree_of_consistent h0
    refine consistent_of_agree ⟨fun o k v hk => ?_, fun o t => ?_⟩
    · rcases key_cases (Id := Id) o k with h | ⟨h, -⟩
      · exact h
      · exact absurd ((C57_moments hc hwf hmom).keys o k v hk) h
    · by_cases hext : ∃ th ∈ made, ∃ x ∈ th, x.IsExtend ∧ x.MayWrite t
      · obtain ⟨mine, hmine, x, hxm, hxe, hxw⟩ := hext
        obtain ⟨pre, post, rfl⟩ := List.append_of_mem hmine
        have hsp : ∀ th ∈ pre ++ mine :: post, ∀ y ∈ th, y.Spares t := by
          intro th hth y hy
          obtain ⟨th1, hth1, hx1⟩ := up mine hmine x hxm
          obtain ⟨th2, hth2, hy2⟩ := up th hth y hy
          exact hn th1 hth1 x hx1 hxe t hxw th2 hth2 y hy2
        have hoth : ∀ th ∈ pre ++ post, ∀ y ∈ th, ¬ y.MayWrite t ∧ ¬ y.Removes t := by
          obtain ⟨-, hr2, hr3⟩ := List.pairwise_append.1 hr'
          obtain ⟨-, hx2, hx3⟩ := List.pairwise_append.1 hxr'
          intro th hth y hy
          rcases List.mem_append.1 hth with hth | hth
          · refine ⟨((hx3 th hth mine List.mem_cons_self) y hy x hxm t).2 hxe hxw, fun hrem => ?_⟩
            obtain ⟨v, hv⟩ := hxw
            exact ((hr3 th hth mine List.mem_cons_self) y hy x hxm t).1 hrem v hv
          · refine ⟨(((List.pairwise_cons.1 hx2).1 th hth) x hxm y hy t).1 hxe hxw, fun hrem => ?_⟩
            obtain ⟨v, hv⟩ := hxw
            exact (((List.pairwise_cons.1 hr2).1 th hth) x hxm y hy t).2 hrem v hv
        have hsc : ∀ th ∈ pre ++ mine :: post, ∀ x ∈ th, x.Scans := fun th hth x hx => by
          obtain ⟨th', hth', h⟩ := up th hth x hx
          exact hs th' hth' x h
        have key : ∀ (l : List (Ev Id)) (b b' : Triple Id → Option Bytes), b t = b' t → l.foldl Ev.on b t = l.foldl Ev.on b' t := by
          intro l
          induction l with
          | nil => exact fun b b' h => h
          | cons e l ih =>
            intro b b' h
            refine ih _ _ ?_
            cases e <;> simp [Ev.on, h]
        rw [C72_alone hc ht hd hsc hf hsp hoth o, C72_alone hc ht hd hsc hf hsp hoth .SPO]
        exact key _ _ _ (hag.same o t)
      · refine C31_edge_partial (fun o => hag.same o t) (fun th hth x hx he hw => hext ⟨th, hth, x, hx, he, hw⟩) (hr'.imp ?_) hmom o
        intro th th' h x hx y hy
        exact ⟨fun hrem ⟨v, hv⟩ => (h x hx y hy t).1 hrem v hv, fun hrem ⟨v, hv⟩ => (h x hx y hy t).2 hrem v hv⟩

-- `extRace`: two threads extend the store by the same edge
example : ∃ d, Pause Sample.uc Sample.mN Sample.mE db0 extRace d ∧ ∃ a b, a ≠ b ∧ d.idIn .SPO (⟨1, 5, 2⟩ : Triple U64) = some a ∧
    d.idIn .POS (⟨1, 5, 2⟩ : Triple U64) = some b ∧ d.idIn .OSP (⟨1, 5, 2⟩ : Triple U64) = some b :=
  C51_every_race Sample.uc_rt Sample.uc_total db0_decodable (by simp [extRace, Call.Scans]) ⟨by decide +kernel, by decide +kernel⟩
    (i := 0) (j := 1) (by decide) rfl rfl (List.mem_singleton.2 rfl)
    (by simp [Call.events, onlyEdge, fails, Call.drawnFor]; rfl) (List.mem_singleton.2 rfl)
    (by simp [Call.events, onlyEdge, fails, Call.drawnFor]; rfl)

-- both sides of `C51_exact` occur
example : ¬ ∀ d, Pause Sample.uc Sample.mN Sample.mE db0 extRace d → Consistent U64 d :=
  (C51_exact Sample.uc_rt Sample.uc_total (C30_start Sample.uc_rt (Sample.sstore_reach 0 0 (by decide) (by decide))) db0_well
    (by simp [extRace, Call.Scans]) ⟨by decide +kernel, by decide +kernel⟩ (by simp [extRace, Call.NodesFail, onlyEdge, fails])
    (by simp [extRace, Call.Spares, Call.Removes])).not.2
    (fun h => (List.pairwise_cons.1 h.2).1 _ List.mem_cons_self _ List.mem_cons_self _ List.mem_cons_self ⟨1, 5, 2⟩ |>.1 trivial
      ⟨_, List.mem_singleton.2 rfl⟩ ⟨_, List.mem_singleton.2 rfl⟩)

/-- one thread extends the store by an edge, which it has removed; others write and remove other edges, and remove a node -/
def extCalm : List (List (Call String U64 Nat Nat)) :=
  [[.removeEdge ⟨1, 5, 2⟩, .extend (Sample.ul 300) (onlyEdge 60), .mergeEdge 101 ⟨1, 5, 2⟩ 3], [.removeEdge ⟨2, 2, 2⟩, .removeNode 9],
   [.insertEdge 100 ⟨1, 1, 1⟩ 50], [.mergeEdge 102 ⟨1, 1, 1⟩ 50]]

example : ∀ d, Pause Sample.uc Sample.mN Sample.mE db0 extCalm d → Consistent U64 d :=
  (C51_exact Sample.uc_rt Sample.uc_total (C30_start Sample.uc_rt (Sample.sstore_reach 0 0 (by decide) (by decide))) db0_well
    (by simp [extCalm, Call.Scans]) ⟨by decide +kernel, by decide +kernel⟩ (by simp [extCalm, Call.NodesFail, onlyEdge, fails])
    (by simp [extCalm, Call.Spares, Call.Removes, Call.IsExtend, Call.MayWrite, Call.writes, onlyEdge, Call.drawnFor])).2
    ⟨by simp [NoRace, extCalm, Call.Removes, Call.writes, onlyEdge, Call.drawnFor],
     by simp [NoExtendRace, extCalm, Call.IsExtend, Call.MayWrite, Call.writes, onlyEdge, Call.drawnFor]⟩

end Props

end Verif
