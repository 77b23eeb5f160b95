import Verif.Proof.SledRecs

/-! # Interleaved calls as one sequence of operations -/

set_option linter.unusedSectionVars false

namespace Verif

open Spec ConcreteId

section

variable {S α O T : Type}

/-- what was done, and what is left to do -/
inductive Partly {α : Type} (b : Bool) (ls : List (List α)) : List α → List (List α) → Prop
  | refl : Partly b ls [] ls
  | take (pre post : List (List α)) (a : α) (l h : List α) :
      Partly b ls h (pre ++ (a :: l) :: post) → Partly b ls (h ++ [a]) (pre ++ l :: post)
  | drop (pre post : List (List α)) (a : α) (l h : List α) :
      b = true → Partly b ls h (pre ++ (a :: l) :: post) → Partly b ls h (pre ++ l :: post)

theorem Partly.shuffle {b : Bool} {ls rs : List (List O)} {h h' : List O} (hp : Partly b ls h rs) (hs : Shuffle b rs h') :
    Shuffle b ls (h ++ h') := by
  induction hp generalizing h' with
  | refl => exact hs
  | take pre post a l h _ ih => simpa using ih (.take pre post a l h' hs)
  | drop pre post a l h hb _ ih => exact ih (.drop pre post a l h' hb hs)

theorem Partly.takes {b : Bool} {ls pre post : List (List O)} {h e l : List O}
    (hp : Partly b ls h (pre ++ (e ++ l) :: post)) : Partly b ls (h ++ e) (pre ++ l :: post) := by
  induction e generalizing h with
  | nil => simpa using hp
  | cons a e ih => simpa using ih (.take pre post a (e ++ l) h hp)

theorem Partly.drops {ls pre post : List (List O)} {h e l : List O}
    (hp : Partly true ls h (pre ++ (e ++ l) :: post)) : Partly true ls h (pre ++ l :: post) := by
  induction e generalizing h with
  | nil => simpa using hp
  | cons a e ih => exact ih (.drop pre post a (e ++ l) h rfl hp)

theorem shuffle_none (rs : List (List O)) : Shuffle true rs [] := by
  suffices ∀ pre : List (List O), (∀ l ∈ pre, l = []) → Shuffle true (pre ++ rs) [] from this [] (by simp)
  induction rs with
  | nil => exact fun pre h => .nil _ (by simpa using h)
  | cons r rs ih =>
    intro pre hpre
    induction r with
    | nil =>
      have := ih (pre ++ [[]]) (by
        intro l hl
        rcases List.mem_append.1 hl with hl | hl
        · exact hpre l hl
        · simpa using hl)
      simpa using this
    | cons a r ih' => exact .drop pre rs a r [] rfl ih'

variable (inv : S → Prop) (abs : S → T) (st : T → O → T) (b : Bool)

/-- While the invariant holds, the program does the operations `l` one after the other, each in one of its calls. -/
def Emits : Prog S α → List O → Prop
  | .ret _, l => b = true ∨ l = []
  | .call f k, l => ∀ s, inv s → inv (f s) → ∃ e l', l = e ++ l' ∧ abs (f s) = e.foldl st (abs s) ∧ Emits (k s) l'

/-- The process has done the operations `h`. -/
def Lin (t0 : T) (ls : List (List O)) (x : S × List (List (Prog S α))) : Prop :=
  ∃ (h : List O) (ats : List (List (Prog S α × List O))), x.2 = ats.map (List.map Prod.fst) ∧
    (∀ q ∈ ats, ∀ e ∈ q, Emits inv abs st b e.1 e.2) ∧ Partly b ls h (ats.map (List.flatMap Prod.snd)) ∧
    abs x.1 = h.foldl st t0

variable {inv abs st b} {t0 : T} {ls : List (List O)}

theorem lin_pop {s : S} {pre post : List (List (Prog S α))} {p : Prog S α} {q : List (Prog S α)}
    (h : Lin inv abs st b t0 ls (s, pre ++ (p :: q) :: post)) (hb : b = true ∨ ∃ a, p = .ret a) :
    Lin inv abs st b t0 ls (s, pre ++ q :: post) := by
  obtain ⟨h, ats, h1, h2, h3, h4⟩ := h
  obtain ⟨l1, y, l2, rfl, rfl, hy, rfl⟩ := RG.map_split h1
  obtain ⟨⟨p', l⟩, q', rfl, he, rfl⟩ := List.map_eq_cons_iff.1 hy.symm
  dsimp only at he
  subst he
  refine ⟨h, l1 ++ q' :: l2, by simp, fun x hx => ?_, ?_, h4⟩
  · simp only [List.mem_append, List.mem_cons] at hx
    rcases hx with hx | rfl | hx
    · exact h2 x (by simp [hx])
    · exact fun e he => h2 ((p', l) :: x) (by simp) e (List.mem_cons_of_mem _ he)
    · exact h2 x (by simp [hx])
  · simp only [List.map_append, List.map_cons, List.flatMap_cons] at h3 ⊢
    have hl : b = true ∨ l = [] := by
      rcases hb with hb | ⟨a, rfl⟩
      · exact .inl hb
      · exact h2 ((.ret a, l) :: q') (by simp) _ List.mem_cons_self
    rcases hl with rfl | rfl
    · exact h3.drops
    · exact h3

theorem lin_call {s : S} {pre post : List (List (Prog S α))} {f : S → S} {k : S → Prog S α} {q : List (Prog S α)}
    (h : Lin inv abs st b t0 ls (s, pre ++ (.call f k :: q) :: post)) (hs : inv s) (hs' : inv (f s)) :
    Lin inv abs st b t0 ls (f s, pre ++ (k s :: q) :: post) := by
  obtain ⟨h, ats, h1, h2, h3, h4⟩ := h
  obtain ⟨l1, y, l2, rfl, rfl, hy, rfl⟩ := RG.map_split h1
  obtain ⟨⟨p', l⟩, q', rfl, he, rfl⟩ := List.map_eq_cons_iff.1 hy.symm
  dsimp only at he
  subst he
  obtain ⟨e, l', rfl, h5, h6⟩ := h2 ((.call f k, l) :: q') (by simp) _ List.mem_cons_self s hs hs'
  refine ⟨h ++ e, l1 ++ ((k s, l') :: q') :: l2, by simp, fun x hx => ?_, ?_, ?_⟩
  · simp only [List.mem_append, List.mem_cons] at hx
    rcases hx with hx | rfl | hx
    · exact h2 x (by simp [hx])
    · intro y hy
      rcases List.mem_cons.1 hy with rfl | hy
      · exact h6
      · exact h2 ((.call f k, e ++ l') :: q') (by simp) y (List.mem_cons_of_mem _ hy)
    · exact h2 x (by simp [hx])
  · simp only [List.map_append, List.map_cons, List.flatMap_cons, List.append_assoc] at h3 ⊢
    exact h3.takes
  · rw [h5, List.foldl_append]
    exact congrArg (fun t => e.foldl st t) h4

theorem CalmStep.step {x y : S × List (List (Prog S α))} (h : CalmStep x y) : Step x y := by
  cases h with
  | call s pre post f k q => exact .call s pre post f k q
  | ret s pre post a q => exact .ret s pre post a q

theorem CalmSteps.steps {x y : S × List (List (Prog S α))} (h : CalmSteps x y) : Steps x y := by
  induction h with
  | refl => exact .refl _
  | tail _ h2 ih => exact .tail ih h2.step

theorem lin_calm {x y : S × List (List (Prog S α))} (hi : ∀ y, Steps x y → inv y.1) (h : Lin inv abs st b t0 ls x)
    (hs : CalmSteps x y) : Lin inv abs st b t0 ls y := by
  induction hs with
  | refl => exact h
  | tail h1 h2 ih =>
    cases h2 with
    | call s pre post f k q => exact lin_call ih (hi _ h1.steps) (hi _ (h1.steps.tail (.call s pre post f k q)))
    | ret s pre post a q => exact lin_pop ih (.inr ⟨a, rfl⟩)

theorem lin_steps {x y : S × List (List (Prog S α))} (hi : ∀ y, Steps x y → inv y.1) (h : Lin inv abs st true t0 ls x)
    (hs : Steps x y) : Lin inv abs st true t0 ls y := by
  induction hs with
  | refl => exact h
  | tail h1 h2 ih =>
    cases h2 with
    | call s pre post f k q => exact lin_call ih (hi _ h1) (hi _ (h1.tail (.call s pre post f k q)))
    | ret s pre post a q => exact lin_pop ih (.inr ⟨a, rfl⟩)
    | fail s pre post p q => exact lin_pop ih (.inl rfl)

theorem Lin.start {x : S × List (List (Prog S α))} (ats : List (List (Prog S α × List O)))
    (h1 : x.2 = ats.map (List.map Prod.fst)) (h2 : ∀ q ∈ ats, ∀ e ∈ q, Emits inv abs st b e.1 e.2) :
    Lin inv abs st b (abs x.1) (ats.map (List.flatMap Prod.snd)) x :=
  ⟨[], ats, h1, h2, .refl, rfl⟩

theorem Lin.part {x : S × List (List (Prog S α))} (h : Lin inv abs st true t0 ls x) :
    ∃ l, Shuffle true ls l ∧ abs x.1 = l.foldl st t0 := by
  obtain ⟨l, ats, -, -, h3, h4⟩ := h
  exact ⟨l, by simpa using h3.shuffle (shuffle_none _), h4⟩

theorem Lin.full {x : S × List (List (Prog S α))} (h : Lin inv abs st b t0 ls x) (he : ∀ q ∈ x.2, q = []) :
    ∃ l, Shuffle b ls l ∧ abs x.1 = l.foldl st t0 := by
  obtain ⟨l, ats, h1, -, h3, h4⟩ := h
  refine ⟨l, ?_, h4⟩
  have := h3.shuffle (h' := []) (.nil _ ?_)
  · simpa using this
  · intro r hr
    obtain ⟨q, hq, rfl⟩ := List.mem_map.1 hr
    have := he (q.map Prod.fst) (by rw [h1]; exact List.mem_map_of_mem hq)
    rw [List.map_eq_nil_iff.1 this]
    rfl

end

/-! ## the calls of the sled store -/

variable {Id NP EP E : Type} [LinearOrder Id] [ConcreteId Id] [LawfulId Id]

namespace Sled

open Db

variable {c : Codecs NP EP} {mN : NP → NP → NP} {mE : EP → EP → EP} {b : Bool} {α : Type}

/-- the program does the operations `l` -/
abbrev Does (E : Type) (c : Codecs NP EP) (mN : NP → NP → NP) (mE : EP → EP → EP) (b : Bool) (p : Prog Db α)
    (l : List (Op E Id NP EP)) : Prop :=
  Emits (Inv Id c) (fun d => d.graph c) (fun G op => (op.step c.okN c.okE mN mE G).1) b p l

def txResult (f : Db → Except SErr Db) (d : Db) : Except SErr Unit :=
  match f d with
  | .ok _ => .ok ()
  | .error e => .error e

theorem tx_bind' (f : Db → Except SErr Db) (k : Except SErr Unit → Prog Db α) :
    (transaction f).bind k = .call (commit f) (fun d => k (txResult f d)) := rfl

/-- what a call goes on with after a serialization error -/
abbrev Stops (E Id : Type) [LinearOrder Id] [ConcreteId Id] (c : Codecs NP EP) (mN : NP → NP → NP) (mE : EP → EP → EP)
    (b : Bool) (k : Except SErr Unit → Prog Db α) : Prop :=
  b = true → ∀ e (l : List (Op E Id NP EP)), Does E c mN mE b (k (.error e)) l

theorem does_insertNode (hc : c.RoundTrip) (hb : b = true ∨ c.Total) {n : Id} {p : NP} {l : List (Op E Id NP EP)}
    {k : Except SErr Unit → Prog Db α} (hk : Does E c mN mE b (k (.ok ())) l) (hs : Stops E Id c mN mE b k) :
    Does E c mN mE b ((Sled.insertNode c n p).bind k) (.insertNode n p :: l) := by
  unfold Sled.insertNode
  cases hp : c.n.ser p with
  | none =>
    rcases hb with hb | hb
    · exact hs hb _ _
    · have := hb.1 p; rw [hp] at this; cases this
  | some v =>
    intro d hi _
    refine ⟨[.insertNode n p], l, rfl, ?_, hk⟩
    have ok : c.okN p = true := by unfold Codecs.okN; rw [hp]; rfl
    simp only [List.foldl_cons, List.foldl_nil, Op.step, storeNode, ok, if_true, one]
    rw [← (insNode_inv hi (n := n) (hc.1 _ _ hp)).2]

/-- an id may be written if the invariant holds afterwards -/
theorem free_of_inv {d : Db} {m : Tree} {t : Triple Id} {v : Bytes} (h : Inv Id c ({ d with edgeProps := m }.setEdge t v))
    (u : Triple Id) (hu : d.idIn .SPO u = some v) : u = t := by
  by_contra hne
  refine hne (h.inj u t v ?_ ?_)
  · rw [setEdge_idIn, withProps_idIn, if_neg hne, hu]
  · rw [setEdge_idIn, if_pos rfl]

theorem does_insertEdge (hc : c.RoundTrip) (hb : b = true ∨ c.Total) {i : Id} {t : Triple Id} {p : EP}
    {l : List (Op E Id NP EP)} {k : Except SErr Unit → Prog Db α} (hk : Does E c mN mE b (k (.ok ())) l)
    (hs : Stops E Id c mN mE b k) :
    Does E c mN mE b ((Sled.insertEdge c i t p).bind k) (.insertEdge t p :: l) := by
  unfold Sled.insertEdge
  cases hp : c.e.ser p with
  | none =>
    rcases hb with hb | hb
    · exact hs hb _ _
    · have := hb.2 p; rw [hp] at this; cases this
  | some v =>
    intro d hi hi'
    refine ⟨[.insertEdge t p], l, rfl, ?_, hk⟩
    have ok : c.okE p = true := by unfold Codecs.okE; rw [hp]; rfl
    simp only [List.foldl_cons, List.foldl_nil, Op.step, storeEdge, ok, if_true, one]
    rw [← (insertEdge_inv (i := i) (t := t) hi ?_ (hc.2 _ _ hp)).2]
    · rfl
    · exact free_of_inv (m := d.edgeProps.insert (toBeBytes i).1 v) hi'

theorem does_mergeNode (hc : c.RoundTrip) (hb : b = true ∨ c.Total) {n : Id} {p : NP} {l : List (Op E Id NP EP)}
    {k : Except SErr Unit → Prog Db α} (hk : Does E c mN mE b (k (.ok ())) l) (hs : Stops E Id c mN mE b k) :
    Does E c mN mE b ((Sled.mergeNode c mN n p).bind k) (.mergeNode n p :: l) := by
  have hr := fun d (h : Inv Id c d) => mergeNode_run h mN n p
  obtain ⟨f, hf⟩ : ∃ f, Sled.mergeNode c mN n p = transaction f := ⟨_, rfl⟩
  rw [hf] at hr ⊢
  rw [tx_bind']
  intro d hi _
  rcases hr d hi with ⟨h1, h2⟩ | ⟨v, h1, h2⟩
  · have e1 : commit f d = d := congrArg Prod.fst h2
    have e2 : txResult f d = .error .serialization :=
      congrArg Prod.snd h2
    refine ⟨[.mergeNode n p], l, rfl, ?_, ?_⟩
    · rw [e1]
      simp [Op.step, storeMergedNode, storeNode, h1, one]
    · dsimp only
      rw [e2]
      rcases hb with hb | hb
      · exact hs hb _ _
      · rw [Codecs.okN, hb.1] at h1; cases h1
  · have e1 : commit f d = _ := congrArg Prod.fst h2
    have e2 : txResult f d = .ok () :=
      congrArg Prod.snd h2
    refine ⟨[.mergeNode n p], l, rfl, ?_, by dsimp only; rw [e2]; exact hk⟩
    rw [e1]
    have ok : c.okN (merged mN ((d.graph c).nodes n) p) = true := by unfold Codecs.okN; rw [h1]; rfl
    simp only [List.foldl_cons, List.foldl_nil, Op.step, storeMergedNode, storeNode, ok, if_true, one]
    rw [← (insNode_inv hi (n := n) (hc.1 _ _ h1)).2]

theorem does_mergeEdge (hc : c.RoundTrip) (hb : b = true ∨ c.Total) {i : Id} {t : Triple Id} {p : EP}
    {l : List (Op E Id NP EP)} {k : Except SErr Unit → Prog Db α} (hk : Does E c mN mE b (k (.ok ())) l)
    (hs : Stops E Id c mN mE b k) :
    Does E c mN mE b ((Sled.mergeEdge c mE i t p).bind k) (.mergeEdge t p :: l) := by
  have hr := fun d (h : Inv Id c d) => mergeEdge_run h mE i t p
  obtain ⟨f, hf⟩ : ∃ f, Sled.mergeEdge c mE i t p = transaction f := ⟨_, rfl⟩
  rw [hf] at hr ⊢
  rw [tx_bind']
  intro d hi hi'
  rcases hr d hi with ⟨h1, h2⟩ | ⟨v, h1, h2⟩
  · have e1 : commit f d = d := congrArg Prod.fst h2
    have e2 : txResult f d = .error .serialization :=
      congrArg Prod.snd h2
    refine ⟨[.mergeEdge t p], l, rfl, ?_, ?_⟩
    · rw [e1]
      simp [Op.step, storeMergedEdge, storeEdge, h1, one]
    · dsimp only
      rw [e2]
      rcases hb with hb | hb
      · exact hs hb _ _
      · rw [Codecs.okE, hb.2] at h1; cases h1
  · have e1 : commit f d = _ := congrArg Prod.fst h2
    have e2 : txResult f d = .ok () :=
      congrArg Prod.snd h2
    refine ⟨[.mergeEdge t p], l, rfl, ?_, by dsimp only; rw [e2]; exact hk⟩
    rw [e1] at hi' ⊢
    have ok : c.okE (merged mE ((d.graph c).edges t) p) = true := by unfold Codecs.okE; rw [h1]; rfl
    simp only [List.foldl_cons, List.foldl_nil, Op.step, storeMergedEdge, storeEdge, ok, if_true, one]
    rw [← (mergeEdge_inv (i := i) (t := t) hi ?_ (hc.2 _ _ h1)).2]
    exact free_of_inv (m := mergedProps d t (toBeBytes i).1 v) hi'

/-- Deleting an entry of one ordering only: nothing changes if the orderings agree before and after. -/
theorem view_erase {o' : EdgeOrder} {d d' : Db} {t : Triple Id} (h : Inv Id c d) (h' : Inv Id c d')
    (ht : ∀ o, d'.tree o = if o = o' then (d.tree o).erase (encOf o t).1 else d.tree o) (he : d'.edgeProps = d.edgeProps)
    (hn : d'.nodeProps = d.nodeProps) : d'.graph c = d.graph (Id := Id) c := by
  have hid : ∀ u : Triple Id, d'.idIn .SPO u = d.idIn .SPO u := by
    intro u
    -- look at another ordering
    obtain ⟨o, ho⟩ : ∃ o : EdgeOrder, o ≠ o' := by
      cases o'
      · exact ⟨.POS, by decide⟩
      · exact ⟨.SPO, by decide⟩
      · exact ⟨.SPO, by decide⟩
    rw [← h'.same o u, ← h.same o u]
    unfold Db.idIn
    rw [ht, if_neg ho]
  refine Graph.ext' (fun m => ?_) (fun u => ?_)
  · simp only [graph, hn]
  · simp only [graph, view, hid, he]

theorem does_removeEdge {t : Triple Id} {l : List (Op E Id NP EP)} {k : Except SErr Unit → Prog Db α}
    (hk : Does E c mN mE b (k (.ok ())) l) : Does E c mN mE b ((Sled.removeEdge t).bind k) (.removeEdge t :: l) := by
  intro d hi hi'
  refine ⟨[.removeEdge t], l, rfl, (removed_inv hi t).2, ?_⟩
  intro d1 h1 h1'
  refine ⟨[], l, rfl, view_erase (o' := .SPO) (t := t) h1 h1' (fun o => by cases o <;> rfl) rfl rfl, ?_⟩
  intro d2 h2 h2'
  refine ⟨[], l, rfl, view_erase (o' := .POS) (t := t) h2 h2' (fun o => by cases o <;> rfl) rfl rfl, ?_⟩
  intro d3 h3 h3'
  refine ⟨[], l, rfl, view_erase (o' := .OSP) (t := t) h3 h3' (fun o => by cases o <;> rfl) rfl rfl, ?_⟩
  dsimp only
  cases d1.spo.get (encodeSpo t).1 with
  | none => exact hk
  | some i =>
    intro d4 h4 h4'
    refine ⟨[], l, rfl, Graph.ext' (fun m => rfl) (fun u => ?_), hk⟩
    show view c _ .SPO u = view c d4 .SPO u
    simp only [view, withProps_idIn]
    cases hu : d4.idIn .SPO u with
    | none => rfl
    | some v =>
      obtain ⟨w, p, hw, -⟩ := h4'.recs _ v (by rw [withProps_tree]; exact hu)
      have hw' : (d4.edgeProps.erase i).get v = some w := hw
      simp only [Option.bind_some]
      rw [hw']
      rw [BMap.get_erase] at hw'
      split at hw'
      · cases hw'
      · rw [hw']

theorem does_mergeEdges (hc : c.RoundTrip) (hb : b = true ∨ c.Total) {β : Type}
    {k : Gen Id × Except (LR SErr E) Unit → Prog Db β} {r : List (Op E Id NP EP)} (hk : ∀ x, Does E c mN mE b (k x) r)
    (hs : b = true → ∀ x (l : List (Op E Id NP EP)), Does E c mN mE b (k x) l)
    (l : List (Except E (Triple Id × EP))) (g : Gen Id) :
    Does E c mN mE b ((mergeEdges c mE g l).bind k) ((oks l).map (fun x => .mergeEdge x.1 x.2) ++ r) := by
  induction l generalizing g with
  | nil => exact hk _
  | cons y l ih =>
    cases y with
    | error e => exact hk _
    | ok y =>
      rw [mergeEdges]
      have assoc : ∀ f : Except SErr Unit → Prog Db (Gen Id × Except (LR SErr E) Unit),
          ((Sled.mergeEdge c mE (Gen.fresh g).1 y.1 y.2).bind f).bind k =
            (Sled.mergeEdge c mE (Gen.fresh g).1 y.1 y.2).bind (fun r => (f r).bind k) := fun f => rfl
      rw [assoc]
      exact does_mergeEdge hc hb (ih _) (fun hb e l => hs hb _ _)

theorem does_mergeNodes (hc : c.RoundTrip) (hb : b = true ∨ c.Total) {α β : Type}
    {j : Except (LR SErr E) Unit → Prog Db α} {k : α → Prog Db β} {r : List (Op E Id NP EP)}
    (hk : Does E c mN mE b ((j (.ok ())).bind k) r) (he : ∀ e, Does E c mN mE b ((j (.error e)).bind k) ([] : List (Op E Id NP EP)))
    (hs : b = true → ∀ e (l : List (Op E Id NP EP)), Does E c mN mE b ((j (.error e)).bind k) l)
    (l : List (Except E (Id × NP))) :
    Does E c mN mE b ((mergeNodes c mN j l).bind k)
      ((oks l).map (fun x => .mergeNode x.1 x.2) ++ if fails l then [] else r) := by
  induction l with
  | nil => exact hk
  | cons y l ih =>
    cases y with
    | error e => exact he _
    | ok y =>
      rw [mergeNodes]
      have assoc : ∀ f : Except SErr Unit → Prog Db α,
          ((Sled.mergeNode c mN y.1 y.2).bind f).bind k =
            (Sled.mergeNode c mN y.1 y.2).bind (fun r => (f r).bind k) := fun f => rfl
      rw [assoc]
      exact does_mergeNode hc hb ih (fun hb e l => hs hb _ _)

theorem does_ret (a : α) : Does E c mN mE b (.ret a : Prog Db α) ([] : List (Op E Id NP EP)) := .inr rfl
theorem does_any (hb : b = true) (a : α) (l : List (Op E Id NP EP)) : Does E c mN mE b (.ret a : Prog Db α) l := .inl hb

theorem does_prog (hc : c.RoundTrip) (hb : b = true ∨ c.Total) (x : Call E Id NP EP) (hx : x.Simple) :
    Does E c mN mE b (x.prog c mN mE) x.ops := by
  cases x with
  | insertNode n p => exact does_insertNode hc hb (does_ret _) (fun hb _ _ => does_any hb _ _)
  | insertEdge i t p => exact does_insertEdge hc hb (does_ret _) (fun hb _ _ => does_any hb _ _)
  | removeNode n => exact hx.elim
  | removeNodeScan n fwd bwd => exact hx.elim
  | removeEdge t => exact does_removeEdge (does_ret _)
  | mergeNode n p => exact does_mergeNode hc hb (does_ret _) (fun hb _ _ => does_any hb _ _)
  | mergeEdge i t p => exact does_mergeEdge hc hb (does_ret _) (fun hb _ _ => does_any hb _ _)
  | extend u src => exact hx.elim
  | merge g src =>
    refine does_mergeNodes hc hb ?_ (fun _ => does_ret _) (fun hb _ _ => does_any hb _ _) src.nodes
    have := does_mergeEdges (E := E) (mN := mN) (mE := mE) hc hb (k := fun _ => .ret ()) (fun _ => does_ret ())
      (fun hb _ _ => does_any hb _ _) src.edges g
    simpa using this

theorem simple_extend {x : Call E Id NP EP} (hx : x.Simple) : ¬ x.IsExtend := by
  cases x <;> simp_all [Call.Simple, Call.IsExtend]

theorem simple_scans {d0 : Db} {threads : List (List (Call E Id NP EP))} (h : ∀ th ∈ threads, ∀ x ∈ th, x.Simple) :
    ScansSeen d0 threads := fun th hth _ _ _ hx => (h th hth _ hx).elim

theorem lin_start (hc : c.RoundTrip) (hb : b = true ∨ c.Total) {threads : List (List (Call E Id NP EP))} {d0 : Db}
    (h : ∀ th ∈ threads, ∀ x ∈ th, x.Simple) :
    Lin (Inv Id c) (fun d => d.graph c) (fun G op => (op.step c.okN c.okE mN mE G).1) b (d0.graph c)
      (threads.map (List.flatMap Call.ops)) (start c mN mE d0 threads) := by
  have := Lin.start (inv := Inv Id c) (abs := fun d : Db => d.graph (Id := Id) c)
    (st := fun G (op : Op E Id NP EP) => (op.step c.okN c.okE mN mE G).1) (b := b) (x := start c mN mE d0 threads)
    (threads.map (fun th => th.map (fun x => (x.prog c mN mE, x.ops)))) (by simp [start, Function.comp_def]) ?_
  · simpa [Function.comp_def, List.flatMap_map, start] using this
  · intro q hq e he
    obtain ⟨th, hth, rfl⟩ := List.mem_map.1 hq
    obtain ⟨x, hx, rfl⟩ := List.mem_map.1 he
    exact does_prog hc hb x (h th hth x hx)

theorem lin_moment (hc : c.RoundTrip) {threads : List (List (Call E Id NP EP))} {d0 d : Db} (h0 : d0.Inv Id c)
    (h : ∀ th ∈ threads, ∀ x ∈ th, x.Simple) (hd : DistinctIds d0 threads) (hr : NoRace threads)
    (hm : Moment c mN mE d0 threads d) :
    ∃ l, Shuffle true (threads.map (List.flatMap Call.ops)) l ∧ d.Inv Id c ∧
      d.graph c = stepAll c.okN c.okE mN mE (d0.graph c) l := by
  have hi : ∀ {d : Db}, Moment c mN mE d0 threads d → d.Inv Id c := fun hm =>
    inv_moment hc h0 (fun th hth x hx => simple_extend (h th hth x hx)) hd (simple_scans h) hr hm
  have hm' := hm
  obtain ⟨rest, hs⟩ := hm
  obtain ⟨l, h1, h2⟩ := (lin_steps (fun y hy => hi ⟨y.2, hy⟩) (lin_start hc (.inl rfl) h) hs).part
  exact ⟨l, h1, hi hm', h2⟩

theorem lin_final (hc : c.RoundTrip) (ht : c.Total) {threads : List (List (Call E Id NP EP))} {d0 d : Db}
    (h0 : d0.Inv Id c) (h : ∀ th ∈ threads, ∀ x ∈ th, x.Simple) (hd : DistinctIds d0 threads) (hr : NoRace threads)
    (hm : Final c mN mE d0 threads d) :
    ∃ l, Shuffle false (threads.map (List.flatMap Call.ops)) l ∧ d.Inv Id c ∧
      d.graph c = stepAll c.okN c.okE mN mE (d0.graph c) l := by
  have hi : ∀ {d : Db}, Moment c mN mE d0 threads d → d.Inv Id c := fun hm =>
    inv_moment hc h0 (fun th hth x hx => simple_extend (h th hth x hx)) hd (simple_scans h) hr hm
  obtain ⟨rest, hs, he⟩ := hm
  obtain ⟨l, h1, h2⟩ := (lin_calm (fun y hy => hi ⟨y.2, hy⟩) (lin_start hc (.inr ht) h) hs).full he
  exact ⟨l, h1, hi ⟨rest, hs.steps⟩, h2⟩

end Sled

end Verif
