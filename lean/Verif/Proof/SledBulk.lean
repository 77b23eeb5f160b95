import Verif.Spec.SledBulk
import Verif.Proof.SledRemove
import Verif.Proof.SledAlone
import Verif.Proof.SledRace

/-! # Extends among concurrent calls -/

set_option linter.unusedSectionVars false

namespace Verif

open Spec ConcreteId

section

variable {Id NP EP E : Type} [LinearOrder Id]

open Classical in
/-- the graph without the edges in `X` -/
noncomputable def off (X : Triple Id → Prop) (G : Graph Id NP EP) : Graph Id NP EP :=
  { G with edges := fun t => if X t then none else G.edges t }

variable {X : Triple Id → Prop} {G H : Graph Id NP EP}

theorem off_eq (hn : ∀ n, G.nodes n = H.nodes n) (he : ∀ t, ¬ X t → G.edges t = H.edges t) : off X G = off X H := by
  refine Graph.ext' hn (fun t => ?_)
  simp only [off]
  split
  · rfl
  · exact he t (by assumption)

theorem off_edges {t : Triple Id} (h : ¬ X t) : (off X G).edges t = G.edges t := if_neg h

/-- anything but `extend` and `merge` -/
def Single : Op E Id NP EP → Prop
  | .extend _ | .merge _ => False
  | _ => True

variable {okN : NP → Bool} {okE : EP → Bool} {mN : NP → NP → NP} {mE : EP → EP → EP}

theorem step_congr {op : Op E Id NP EP} (h : Single op) (hn : ∀ n, G.nodes n = H.nodes n)
    (he : ∀ t, ¬ X t → G.edges t = H.edges t) :
    (∀ n, (op.step okN okE mN mE G).1.nodes n = (op.step okN okE mN mE H).1.nodes n) ∧
      ∀ t, ¬ X t → (op.step okN okE mN mE G).1.edges t = (op.step okN okE mN mE H).1.edges t := by
  cases op with
  | extend src => exact h.elim
  | merge src => exact h.elim
  | insertNode n p =>
    simp only [Op.step, storeNode]
    cases okN p
    · exact ⟨hn, he⟩
    · refine ⟨fun m => ?_, he⟩
      show (if m = n then some p else G.nodes m) = if m = n then some p else H.nodes m
      rw [hn]
  | insertEdge t p =>
    simp only [Op.step, storeEdge]
    cases okE p
    · exact ⟨hn, he⟩
    · refine ⟨hn, fun u hu => ?_⟩
      show (if u = t then some p else G.edges u) = if u = t then some p else H.edges u
      rw [he u hu]
  | removeNode n =>
    refine ⟨fun m => ?_, fun u hu => ?_⟩
    · show (if m = n then none else G.nodes m) = if m = n then none else H.nodes m
      rw [hn]
    · show (if u.sub = n ∨ u.obj = n then none else G.edges u) = if u.sub = n ∨ u.obj = n then none else H.edges u
      rw [he u hu]
  | removeEdge t =>
    refine ⟨hn, fun u hu => ?_⟩
    show (if u = t then none else G.edges u) = if u = t then none else H.edges u
    rw [he u hu]
  | mergeNode n p =>
    simp only [Op.step, storeMergedNode, storeNode, hn n]
    cases okN (merged mN (H.nodes n) p)
    · exact ⟨hn, he⟩
    · refine ⟨fun m => ?_, he⟩
      show (if m = n then _ else G.nodes m) = if m = n then _ else H.nodes m
      rw [hn]
  | mergeEdge t p =>
    simp only [Op.step, storeMergedEdge, storeEdge]
    by_cases ht : X t
    · have key : ∀ K : Graph Id NP EP, (∀ n, (one (E := E) K (if okE (merged mE (K.edges t) p) = true then
          some (K.insertEdge t (merged mE (K.edges t) p)) else none)).1.nodes n = K.nodes n) ∧
          ∀ u, ¬ X u → (one (E := E) K (if okE (merged mE (K.edges t) p) = true then
          some (K.insertEdge t (merged mE (K.edges t) p)) else none)).1.edges u = K.edges u := by
        intro K
        cases okE (merged mE (K.edges t) p)
        · exact ⟨fun _ => rfl, fun _ _ => rfl⟩
        · refine ⟨fun _ => rfl, fun u hu => if_neg ?_⟩
          rintro rfl
          exact hu ht
      exact ⟨fun n => ((key G).1 n).trans ((hn n).trans ((key H).1 n).symm),
        fun u hu => ((key G).2 u hu).trans ((he u hu).trans ((key H).2 u hu).symm)⟩
    · rw [he t ht]
      cases okE (merged mE (H.edges t) p)
      · exact ⟨hn, he⟩
      · refine ⟨hn, fun u hu => ?_⟩
        show (if u = t then _ else G.edges u) = if u = t then _ else H.edges u
        rw [he u hu]

theorem off_step {op : Op E Id NP EP} (h : Single op) :
    off X (op.step okN okE mN mE (off X G)).1 = off X (op.step okN okE mN mE G).1 :=
  have h' := step_congr (X := X) (G := off X G) (H := G) (okN := okN) (okE := okE) (mN := mN) (mE := mE) h (fun _ => rfl)
    (fun _ ht => off_edges ht)
  off_eq h'.1 h'.2

theorem off_stepAll (l : List (Op E Id NP EP)) (h : ∀ op ∈ l, Single op) (G : Graph Id NP EP) :
    l.foldl (fun G op => off X (op.step okN okE mN mE G).1) (off X G) = off X (stepAll okN okE mN mE G l) := by
  induction l generalizing G with
  | nil => rfl
  | cons op l ih =>
    rw [List.foldl_cons, off_step (h op List.mem_cons_self), ih (fun o ho => h o (List.mem_cons_of_mem _ ho))]
    rfl

end

variable {Id NP EP E : Type} [LinearOrder Id] [ConcreteId Id] [LawfulId Id]

namespace Sled

open Db

variable {c : Codecs NP EP} {mN : NP → NP → NP} {mE : EP → EP → EP} {b : Bool} {α β : Type}
  {X : Triple Id → Prop} {Own : Bytes → Triple Id → Prop}

/-- keys and records are in order; so are the orderings, but for the edges in `X` -/
structure InvX (c : Codecs NP EP) (Own : Bytes → Triple Id → Prop) (X : Triple Id → Prop) (d : Db) : Prop where
  neat : Neat c Own d
  same : ∀ t, ¬ X t → AgreeAt t d

/-- Nobody adds an edge which the call may rely on being absent. -/
def relyX (X : Triple Id → Prop) (a : Role Id) (x y : Db) : Prop :=
  ∀ t, ¬ X t → a.removes t → x.idIn .SPO t = none → y.idIn .SPO t = none

theorem relyX_trans (a : Role Id) (x y z : Db) (h : relyX X a x y) (h' : relyX X a y z) : relyX X a x z :=
  fun t ht hr hn => h' t ht hr (h t ht hr hn)

theorem relyX_refl (a : Role Id) (x : Db) : relyX X a x x := fun _ _ _ h => h

variable (E c mN mE b Own X) in
/-- the program does the operations, but for the edges in `X` -/
abbrev DoesX (a : Role Id) (p : Prog Db α) (x : Db) (l : List (Op E Id NP EP)) : Prop :=
  EmitsR (InvX c Own X) (fun d => off X (d.graph c)) (fun G op => off X (op.step c.okN c.okE mN mE G).1) b
    (relyX X) (agreeRG Id).par a p x l

/-- a call which adds no edge but those it may write -/
theorem guarX {a : Role Id} {d d' : Db} (h : ∀ t, ¬ X t → ¬ a.writes t → d.idIn .SPO t = none → d'.idIn .SPO t = none)
    (a' : Role Id) (hp : (agreeRG Id).par a a') : relyX X a' d d' :=
  fun t hX ht hn => h t hX (hp t ht) hn

/-- a call which does one operation -/
theorem doesX_one {a : Role Id} {f : Db → Db} {k : Db → Prog Db α} {x : Db} {op : Op E Id NP EP} {l : List (Op E Id NP EP)}
    (hop : Single op)
    (h : ∀ d, relyX X a x d → InvX c Own X d → InvX c Own X (f d) →
      (∀ t, ¬ X t → ¬ a.writes t → d.idIn .SPO t = none → (f d).idIn .SPO t = none) ∧
      off X ((f d).graph c) = off X (op.step c.okN c.okE mN mE (d.graph c)).1 ∧ DoesX E c mN mE b X Own a (k d) (f d) l) :
    DoesX E c mN mE b X Own a (.call f k) x (op :: l) := by
  intro d hr hi hi'
  obtain ⟨h1, h2, h3⟩ := h d hr hi hi'
  exact ⟨guarX h1, [op], l, rfl, h2.trans (off_step hop).symm, h3⟩

/-- a call which does nothing -/
theorem doesX_none {a : Role Id} {f : Db → Db} {k : Db → Prog Db α} {x : Db} {l : List (Op E Id NP EP)}
    (h : ∀ d, relyX X a x d → InvX c Own X d → InvX c Own X (f d) →
      (∀ t, ¬ X t → ¬ a.writes t → d.idIn .SPO t = none → (f d).idIn .SPO t = none) ∧
      off X ((f d).graph c) = off X (d.graph c) ∧ DoesX E c mN mE b X Own a (k d) (f d) l) :
    DoesX E c mN mE b X Own a (.call f k) x l := by
  intro d hr hi hi'
  obtain ⟨h1, h2, h3⟩ := h d hr hi hi'
  exact ⟨guarX h1, [], l, rfl, h2, h3⟩

/-- an edge that is left alone -/
theorem Only.edge {T : Triple Id → Prop} {N : Id → Prop} {d d' : Db} (h : Only Own T N d d') (hd : Neat c Own d) {u : Triple Id}
    (hu : ¬ T u) : (d'.graph c).edges u = (d.graph c).edges u := by
  show view c d' .SPO u = view c d .SPO u
  unfold view
  rw [h.ids .SPO u hu]
  cases hv : d.idIn .SPO u with
  | none => rfl
  | some v =>
    simp only [Option.bind_some]
    rw [h.recs v u hu (hd.refs _ _ _ hv)]

/-- a call that touches only edges in `X` -/
theorem doesX_skip {a : Role Id} {f : Db → Db} {k : Db → Prog Db α} {x : Db} {l : List (Op E Id NP EP)} {T : Triple Id → Prop}
    (hT : ∀ t, T t → X t) (h : ∀ d, Neat c Own d → Only Own T (fun _ => False) d (f d))
    (hk : ∀ d y, Neat c Own d → DoesX E c mN mE b X Own a (k d) y l) : DoesX E c mN mE b X Own a (.call f k) x l := by
  refine doesX_none (fun d _ hi _ => ?_)
  have ho := h d hi.neat
  refine ⟨fun t hX _ hn => ?_, off_eq (fun n => ?_) (fun t hX => ho.edge hi.neat (fun ht => hX (hT t ht))), hk d _ hi.neat⟩
  · rw [ho.ids .SPO t (fun ht => hX (hT t ht))]; exact hn
  · show (Option.bind _ _) = Option.bind _ _
    rw [ho.nodes n id]

variable (E c mN mE b Own X) in
/-- what a call goes on with after a serialization error -/
abbrev StopsX (a : Role Id) (k : Except SErr Unit → Prog Db α) : Prop :=
  b = true → ∀ e (l : List (Op E Id NP EP)) y, DoesX E c mN mE b X Own a (k (.error e)) y l

theorem insNode_graph {d : Db} {n : Id} {v : Bytes} {p : NP} (hb : c.n.de v = some p) :
    ({ d with nodeProps := d.nodeProps.insert (toBeBytes n).1 v } : Db).graph c = (d.graph (Id := Id) c).insertNode n p := by
  refine Graph.ext' (fun m => ?_) (fun u => rfl)
  simp only [graph, Graph.insertNode, BMap.get_insert, toBe_inj]
  split <;> simp [hb]

theorem doesX_insertNode (hc : c.RoundTrip) (hb : b = true ∨ c.Total) {a : Role Id} {n : Id} {p : NP} {l : List (Op E Id NP EP)}
    {k : Except SErr Unit → Prog Db α} (hk : ∀ y, DoesX E c mN mE b X Own a (k (.ok ())) y l)
    (hs : StopsX E c mN mE b X Own a k) (x : Db) :
    DoesX E c mN mE b X Own a ((Sled.insertNode c n p).bind k) x (.insertNode n p :: l) := by
  unfold Sled.insertNode
  cases hp : c.n.ser p with
  | none =>
    rcases hb with hb | hb
    · exact hs hb _ _ _
    · have := hb.1 p; rw [hp] at this; cases this
  | some v =>
    refine doesX_one trivial (fun d _ _ _ => ⟨fun _ _ _ h => h, ?_, hk _⟩)
    have ok : c.okN p = true := by unfold Codecs.okN; rw [hp]; rfl
    simp only [Op.step, storeNode, ok, if_true, one]
    rw [← insNode_graph (hc.1 _ _ hp)]

theorem doesX_mergeNode (hc : c.RoundTrip) (hb : b = true ∨ c.Total) {a : Role Id} {n : Id} {p : NP} {l : List (Op E Id NP EP)}
    {k : Except SErr Unit → Prog Db α} (hk : ∀ y, DoesX E c mN mE b X Own a (k (.ok ())) y l)
    (hs : StopsX E c mN mE b X Own a k) (x : Db) :
    DoesX E c mN mE b X Own a ((Sled.mergeNode c mN n p).bind k) x (.mergeNode n p :: l) := by
  have hr := fun d (h : NodesOk Id c d) => mergeNode_neat h mN n p
  obtain ⟨f, hf⟩ : ∃ f, Sled.mergeNode c mN n p = transaction f := ⟨_, rfl⟩
  rw [hf] at hr ⊢
  rw [tx_bind']
  refine doesX_one trivial (fun d _ hi _ => ?_)
  rcases hr d hi.neat.nodes with ⟨h1, h2⟩ | ⟨v, h1, h2⟩
  · have e1 : commit f d = d := congrArg Prod.fst h2
    have e2 : txResult f d = .error .serialization := congrArg Prod.snd h2
    rw [e1]
    refine ⟨fun _ _ _ h => h, ?_, ?_⟩
    · simp [Op.step, storeMergedNode, storeNode, h1, one]
    · rw [e2]
      rcases hb with hb | hb
      · exact hs hb _ _ _
      · rw [Codecs.okN, hb.1] at h1; cases h1
  · have e1 : commit f d = _ := congrArg Prod.fst h2
    have e2 : txResult f d = .ok () := congrArg Prod.snd h2
    rw [e1]
    refine ⟨fun _ _ _ h => h, ?_, by rw [e2]; exact hk _⟩
    have ok : c.okN (merged mN ((d.graph c).nodes n) p) = true := by unfold Codecs.okN; rw [h1]; rfl
    simp only [Op.step, storeMergedNode, storeNode, ok, if_true, one]
    rw [← insNode_graph (hc.1 _ _ h1)]

/-- writing an edge under an id drawn for it -/
theorem put_graph {d : Db} (h : Neat c Own d) {u : Triple Id} {i v : Bytes} {p : EP} (hb : c.e.de v = some p) {m : Tree}
    (hm : ∀ w x, Own w x → x ≠ u → m.get w = d.edgeProps.get w) (hi : m.get i = some v) :
    ({ d with edgeProps := m }.setEdge u i).graph c = (d.graph c).insertEdge u p := by
  refine Graph.ext' (fun _ => rfl) (fun t => ?_)
  show view c ({ d with edgeProps := m }.setEdge u i) .SPO t = if t = u then some p else view c d .SPO t
  unfold view
  rw [setEdge_idIn, withProps_idIn]
  split
  · show Option.bind (m.get i) c.e.de = some p
    rw [hi]; exact hb
  · rename_i ht
    cases hv : d.idIn .SPO t with
    | none => rfl
    | some w =>
      show Option.bind (m.get w) c.e.de = _
      rw [hm w t (h.refs _ _ _ hv) ht]
      rfl

theorem set_guar {a : Role Id} {d : Db} {m : Tree} {u : Triple Id} {i : Bytes} (hu : ¬ X u → a.writes u) (t : Triple Id) (hX : ¬ X t)
    (ht : ¬ a.writes t) (hn : d.idIn .SPO t = none) : ({ d with edgeProps := m }.setEdge u i).idIn .SPO t = none := by
  rw [setEdge_idIn, withProps_idIn, if_neg]
  · exact hn
  · rintro rfl
    exact ht (hu hX)

theorem doesX_insertEdge (hc : c.RoundTrip) (hb : b = true ∨ c.Total) (hown : ∀ v t u, Own v t → Own v u → t = u) {a : Role Id}
    {i : Id} {t : Triple Id} {p : EP} (ho : Own (toBeBytes i).1 t) (ha : ¬ X t → a.writes t)
    {l : List (Op E Id NP EP)} {k : Except SErr Unit → Prog Db α} (hk : ∀ y, DoesX E c mN mE b X Own a (k (.ok ())) y l)
    (hs : StopsX E c mN mE b X Own a k) (x : Db) :
    DoesX E c mN mE b X Own a ((Sled.insertEdge c i t p).bind k) x (.insertEdge t p :: l) := by
  unfold Sled.insertEdge
  cases hp : c.e.ser p with
  | none =>
    rcases hb with hb | hb
    · exact hs hb _ _ _
    · have := hb.2 p; rw [hp] at this; cases this
  | some v =>
    refine doesX_one trivial (fun d _ hi _ => ⟨set_guar ha, ?_, hk _⟩)
    have ok : c.okE p = true := by unfold Codecs.okE; rw [hp]; rfl
    simp only [Op.step, storeEdge, ok, if_true, one]
    rw [← put_graph (m := d.edgeProps.insert (toBeBytes i).1 v) hi.neat (hc.2 _ _ hp) (fun w y hw hy => ?_) (BMap.get_insert_self _ _ _)]
    · rfl
    · rw [BMap.get_insert, if_neg]
      rintro rfl
      exact hy (hown _ _ _ hw ho)

theorem mergedProps_self (d : Db) (t : Triple Id) (i v : Bytes) : (mergedProps d t i v).get i = some v := by
  unfold mergedProps
  split <;> exact BMap.get_insert_self _ _ _

theorem doesX_mergeEdge (hc : c.RoundTrip) (hb : b = true ∨ c.Total) (hown : ∀ v t u, Own v t → Own v u → t = u) {a : Role Id}
    {i : Id} {t : Triple Id} {p : EP} (ho : Own (toBeBytes i).1 t) (ha : ¬ X t → a.writes t)
    {l : List (Op E Id NP EP)} {k : Except SErr Unit → Prog Db α} (hk : ∀ y, DoesX E c mN mE b X Own a (k (.ok ())) y l)
    (hs : StopsX E c mN mE b X Own a k) (x : Db) :
    DoesX E c mN mE b X Own a ((Sled.mergeEdge c mE i t p).bind k) x (.mergeEdge t p :: l) := by
  have hr := fun d (h : Neat c Own d) => mergeEdge_neat h mE i t p
  obtain ⟨f, hf⟩ : ∃ f, Sled.mergeEdge c mE i t p = transaction f := ⟨_, rfl⟩
  rw [hf] at hr ⊢
  rw [tx_bind']
  refine doesX_one trivial (fun d _ hi _ => ?_)
  rcases hr d hi.neat with ⟨h1, h2⟩ | ⟨v, h1, h2⟩
  · have e1 : commit f d = d := congrArg Prod.fst h2
    have e2 : txResult f d = .error .serialization := congrArg Prod.snd h2
    rw [e1]
    refine ⟨fun _ _ _ h => h, ?_, ?_⟩
    · simp [Op.step, storeMergedEdge, storeEdge, h1, one]
    · rw [e2]
      rcases hb with hb | hb
      · exact hs hb _ _ _
      · rw [Codecs.okE, hb.2] at h1; cases h1
  · have e1 : commit f d = _ := congrArg Prod.fst h2
    have e2 : txResult f d = .ok () := congrArg Prod.snd h2
    rw [e1]
    refine ⟨set_guar ha, ?_, by rw [e2]; exact hk _⟩
    have ok : c.okE (merged mE ((d.graph c).edges t) p) = true := by unfold Codecs.okE; rw [h1]; rfl
    simp only [Op.step, storeMergedEdge, storeEdge, ok, if_true, one]
    rw [← put_graph hi.neat (hc.2 _ _ h1) (mergedProps_other hown hi.neat ho) (mergedProps_self _ _ _ _)]

theorem removed_graph (hown : ∀ v t u, Own v t → Own v u → t = u) {d : Db} (h : Neat c Own d) (t : Triple Id) :
    (removed d t).graph c = (d.graph c).removeEdge t := by
  refine Graph.ext' (fun _ => rfl) (fun u => ?_)
  show _ = if u = t then none else (d.graph c).edges u
  split
  · rename_i hu
    show view c (removed d t) .SPO u = none
    unfold view
    rw [removed, unsetEdge_idIn, if_pos hu]
    rfl
  · exact (neat_removed (N := fun _ => False) hown h t).2.edge h (by assumption)

theorem doesX_removeEdge (hown : ∀ v t u, Own v t → Own v u → t = u) {a : Role Id} {t : Triple Id} (ha : a.removes t)
    {l : List (Op E Id NP EP)} {k : Except SErr Unit → Prog Db α} (hk : ∀ y, DoesX E c mN mE b X Own a (k (.ok ())) y l) (x : Db) :
    DoesX E c mN mE b X Own a ((Sled.removeEdge t).bind k) x (.removeEdge t :: l) := by
  refine doesX_one trivial (fun d _ hi _ => ⟨?_, congrArg (off X) (removed_graph hown hi.neat t), ?_⟩)
  · intro u _ _ hn
    show (removed d t).idIn .SPO u = none
    rw [removed, unsetEdge_idIn, withProps_idIn, hn, ite_self]
  have h0 : (removed d t).idIn .SPO t = none := by rw [removed, unsetEdge_idIn, if_pos rfl]
  -- deleting an entry of one ordering: the edge is not there, or nobody looks
  have unset : ∀ {d1 d2 : Db} (o : EdgeOrder), relyX X a (removed d t) d1 → InvX c Own X d1 → d2.edgeProps = d1.edgeProps →
      d2.nodeProps = d1.nodeProps → (∀ o', d2.tree o' = if o' = o then (d1.tree o').erase (encOf o' t).1 else d1.tree o') →
      (∀ u, ¬ X u → ¬ a.writes u → d1.idIn .SPO u = none → d2.idIn .SPO u = none) ∧
      off X (d2.graph c) = off X (d1.graph (Id := Id) c) ∧ relyX X a (removed d t) d2 := by
    intro d1 d2 o hr hi he hn ht
    obtain ⟨h1, h2⟩ := neat_unset (N := fun _ => False) hi.neat o t he hn ht
    have absent : ∀ u : Triple Id, d1.idIn .SPO u = none → d2.idIn .SPO u = none := by
      intro u hu
      unfold Db.idIn at hu ⊢
      rw [ht]
      split
      · rw [BMap.get_erase, hu, ite_self]
      · exact hu
    refine ⟨fun u _ _ => absent u, off_eq (fun n => ?_) (fun u hu => ?_), relyX_trans _ _ _ _ hr (fun u _ _ => absent u)⟩
    · show Option.bind (d2.nodeProps.get _) _ = Option.bind (d1.nodeProps.get _) _
      rw [hn]
    · by_cases e : u = t
      · subst e
        have h3 := hr u hu ha h0
        have e1 : (d1.graph c).edges u = none := by
          show view c d1 .SPO u = none
          unfold view; rw [h3]; rfl
        have e2 : (d2.graph c).edges u = none := by
          show view c d2 .SPO u = none
          unfold view; rw [absent u h3]; rfl
        rw [e1, e2]
      · exact h2.edge hi.neat e
  refine doesX_none (fun d1 hr1 hi1 _ => ?_)
  obtain ⟨g1, g2, g3⟩ := unset (d2 := { d1 with spo := d1.spo.erase (encodeSpo t).1 }) .SPO hr1 hi1 rfl rfl (fun o => by cases o <;> rfl)
  refine ⟨g1, g2, doesX_none (fun d2 hr2 hi2 _ => ?_)⟩
  obtain ⟨g1, g2, g4⟩ := unset (d2 := { d2 with pos := d2.pos.erase (encodePos t).1 }) .POS (relyX_trans _ _ _ _ g3 hr2) hi2 rfl rfl
    (fun o => by cases o <;> rfl)
  refine ⟨g1, g2, doesX_none (fun d3 hr3 hi3 _ => ?_)⟩
  obtain ⟨g1, g2, g5⟩ := unset (d2 := { d3 with osp := d3.osp.erase (encodeOsp t).1 }) .OSP (relyX_trans _ _ _ _ g4 hr3) hi3 rfl rfl
    (fun o => by cases o <;> rfl)
  refine ⟨g1, g2, ?_⟩
  dsimp only
  cases h : d1.spo.get (encodeSpo t).1 with
  | none => exact hk _
  | some i =>
    refine doesX_none (fun d4 hr4 hi4 _ => ?_)
    have hX : X t := by
      by_contra hX
      have := hr1 t hX ha h0
      have h : d1.idIn .SPO t = some i := h
      rw [h] at this; cases this
    obtain ⟨h1, h2⟩ := neat_erase (N := fun _ => False) hown hi4.neat (hi1.neat.refs .SPO _ _ h)
    refine ⟨fun u _ _ hn => ?_, off_eq (fun n => rfl) (fun u hu => h2.edge hi4.neat (by rintro rfl; exact hu hX)), hk _⟩
    rw [withProps_idIn]; exact hn

/-! ## remove_node -/

theorem doesX_scan {a : Role Id} {n : Id} (o : EdgeOrder) {tree : Db → Tree} (htree : ∀ d, tree d = d.tree o)
    (cls : Triple Id → Id) (hb : ∀ t, Bound.contains (keyBounds1 n) (encOf o t) = true ↔ cls t = n)
    (ha : ∀ t, cls t = n → a.removes t) {k : List (Bytes × Bytes) → Prog Db α} {l : List (Op E Id NP EP)} {x0 : Db}
    (hk : ∀ x L, relyX X a x0 x → (∀ e ∈ L, ∃ t, e.1 = (encOf o t).1 ∧ cls t = n ∧ Own e.2 t) →
      (∀ t, ¬ X t → cls t = n → x.idIn .SPO t ≠ none → ∃ e ∈ L, e.1 = (encOf o t).1) → DoesX E c mN mE b X Own a (k L) x l) :
    ∀ (ss : List Nat) (cur : Option Bytes) (acc : List (Bytes × Bytes)) (x : Db), relyX X a x0 x →
      (∀ e ∈ acc, ∃ t, e.1 = (encOf o t).1 ∧ cls t = n ∧ Own e.2 t) →
      (∀ t, ¬ X t → cls t = n → x.idIn .SPO t ≠ none → ¬ After cur (encOf o t).1 → ∃ e ∈ acc, e.1 = (encOf o t).1) →
      DoesX E c mN mE b X Own a (scanPieces tree (keyBounds1 n) k ss cur acc) x l := by
  -- an entry of the range
  have entry : ∀ (s : Db), Neat c Own s → ∀ e ∈ (s.tree o).rangeArr (keyBounds1 n),
      ∃ t : Triple Id, e.1 = (encOf o t).1 ∧ cls t = n ∧ Own e.2 t := by
    intro s hi e he
    obtain ⟨t, ht⟩ := hi.keys o e.1 e.2 (rangeArr_sub he)
    have he' : ((encOf o t).1, e.2) ∈ (s.tree o).rangeArr (keyBounds1 n) := by rw [← ht]; exact he
    exact ⟨t, ht, (hb t).1 (mem_rangeArr.1 he').2, hi.refs o t e.2 (mem_rangeArr.1 he').1⟩
  -- an edge in question
  have there : ∀ (s : Db), InvX c Own X s → ∀ t, ¬ X t → cls t = n → s.idIn .SPO t ≠ none →
      ∃ v, ((encOf o t).1, v) ∈ (s.tree o).rangeArr (keyBounds1 n) := by
    intro s hi t hX ht hs
    rw [← hi.same t hX o] at hs
    obtain ⟨v, hv⟩ := Option.ne_none_iff_exists'.1 hs
    exact ⟨v, mem_rangeArr.2 ⟨hv, (hb t).2 ht⟩⟩
  intro ss
  induction ss with
  | nil =>
    intro cur acc x hx hg hc
    refine doesX_none (fun s hr hi _ => ⟨fun _ _ _ h => h, rfl, ?_⟩)
    refine hk s _ (relyX_trans _ _ _ _ hx hr) (fun e he => ?_) (fun t hX ht hs => ?_)
    · rcases List.mem_append.1 he with he | he
      · exact hg e he
      · rw [htree] at he
        exact entry s hi.neat e (mem_rest.1 he).1
    · have hs : s.idIn .SPO t ≠ none := hs
      by_cases haf : After cur (encOf o t).1
      · obtain ⟨v, hv⟩ := there s hi t hX ht hs
        exact ⟨_, List.mem_append_right _ (mem_rest.2 ⟨by rw [htree]; exact hv, haf⟩), rfl⟩
      · obtain ⟨e, he, h⟩ := hc t hX ht (fun h => hs (hr t hX (ha t ht) h)) haf
        exact ⟨e, List.mem_append_left _ he, h⟩
  | cons p ss ih =>
    intro cur acc x hx hg hc
    refine doesX_none (fun s hr hi _ => ⟨fun _ _ _ h => h, rfl, ?_⟩)
    refine ih _ _ s (relyX_trans _ _ _ _ hx hr) (fun e he => ?_) (fun t hX ht hs hn => ?_)
    · rcases List.mem_append.1 he with he | he
      · exact hg e he
      · have := List.mem_of_mem_take he
        rw [htree] at this
        exact entry s hi.neat e (mem_rest.1 this).1
    · have hs : s.idIn .SPO t ≠ none := hs
      by_cases haf : After cur (encOf o t).1
      · obtain ⟨v, hv⟩ := there s hi t hX ht hs
        rw [← htree] at hv
        exact ⟨_, List.mem_append_right _ (mem_take_of_cursor (rest_sorted (rangeArr_sorted _ _))
          (mem_rest.2 ⟨hv, haf⟩) haf hn), rfl⟩
      · obtain ⟨e, he, h⟩ := hc t hX ht (fun h => hs (hr t hX (ha t ht) h)) haf
        exact ⟨e, List.mem_append_left _ he, h⟩

theorem doesX_scanned (hown : ∀ v t u, Own v t → Own v u → t = u) {a : Role Id} {n : Id} {fwd bwd : List (Bytes × Bytes)} {x : Db}
    {k : Except SErr Unit → Prog Db α} {l : List (Op E Id NP EP)} (ha : ∀ t : Triple Id, t.sub = n ∨ t.obj = n → a.removes t)
    (hf : ∀ e ∈ fwd, ∃ t : Triple Id, e.1 = (encodeSpo t).1 ∧ t.sub = n ∧ Own e.2 t)
    (hb : ∀ e ∈ bwd, ∃ t : Triple Id, e.1 = (encodeOsp t).1 ∧ t.obj = n ∧ Own e.2 t)
    (hfc : ∀ t : Triple Id, ¬ X t → t.sub = n → x.idIn .SPO t ≠ none → ∃ e ∈ fwd, e.1 = (encodeSpo t).1)
    (hbc : ∀ t : Triple Id, ¬ X t → t.obj = n → x.idIn .SPO t ≠ none → ∃ e ∈ bwd, e.1 = (encodeOsp t).1)
    (hk : ∀ r y, DoesX E c mN mE b X Own a (k r) y l) :
    DoesX E c mN mE b X Own a ((removeNodeScanned n fwd bwd).bind k) x (.removeNode n :: l) := by
  obtain ⟨F, rfl⟩ := exists_map_of (fun x : Triple Id × Bytes => ((encodeSpo x.1).1, x.2)) (l := fwd) (fun e he => by
    obtain ⟨t, ht, -⟩ := hf e he
    exact ⟨(t, e.2), Prod.ext ht rfl⟩)
  obtain ⟨B, rfl⟩ := exists_map_of (fun x : Triple Id × Bytes => ((encodeOsp x.1).1, x.2)) (l := bwd) (fun e he => by
    obtain ⟨t, ht, -⟩ := hb e he
    exact ⟨(t, e.2), Prod.ext ht rfl⟩)
  rw [scanned_ok, tx_bind]
  have hF : ∀ y ∈ F ++ B, (y.1.sub = n ∨ y.1.obj = n) ∧ Own y.2 y.1 := by
    intro y hy
    rcases List.mem_append.1 hy with hy | hy
    · obtain ⟨t, h1, h2, h3⟩ := hf _ (List.mem_map_of_mem hy)
      rw [(encOf_inj .SPO).1 h1]; exact ⟨.inl h2, h3⟩
    · obtain ⟨t, h1, h2, h3⟩ := hb _ (List.mem_map_of_mem hy)
      rw [(encOf_inj .OSP).1 h1]; exact ⟨.inr h2, h3⟩
  refine doesX_one trivial (fun s hr hi _ => ⟨fun t _ _ hn => ?_, ?_, hk _ _⟩)
  · show (dropped n F B s).idIn .SPO t = none
    rw [dropped_idIn, hn, ite_self]
  · obtain ⟨-, h2⟩ := neat_dropped (T := fun t : Triple Id => t.sub = n ∨ t.obj = n) (n := n) hown hi.neat hF
    refine off_eq (fun m => ?_) (fun u hX => ?_)
    · show ((s.nodeProps.erase (toBeBytes n).1).get (toBeBytes m).1).bind c.n.de = if m = n then none else _
      rw [BMap.get_erase]
      by_cases e : m = n
      · rw [if_pos e, if_pos (by rw [e])]; rfl
      · rw [if_neg e, if_neg (fun h => e (toBe_inj.1 h))]; rfl
    · show ((dropped n F B s).graph c).edges u = if u.sub = n ∨ u.obj = n then none else (s.graph c).edges u
      split
      · rename_i e
        have hn : (dropped n F B s).idIn .SPO u = none := by
          rw [dropped_idIn]
          by_cases hu : s.idIn .SPO u = none
          · rw [hu, ite_self]
          · have hx : x.idIn .SPO u ≠ none := fun h => hu (hr u hX (ha u e) h)
            rw [if_pos]
            rw [List.map_append, List.mem_append]
            rcases e with e | e
            · obtain ⟨y, hy, h⟩ := hfc u hX e hx
              obtain ⟨z, hz, rfl⟩ := List.mem_map.1 hy
              rw [← (encOf_inj .SPO).1 h]
              exact .inl (List.mem_map_of_mem hz)
            · obtain ⟨y, hy, h⟩ := hbc u hX e hx
              obtain ⟨z, hz, rfl⟩ := List.mem_map.1 hy
              rw [← (encOf_inj .OSP).1 h]
              exact .inr (List.mem_map_of_mem hz)
        show view c _ .SPO u = none
        unfold view
        rw [hn]
        rfl
      · exact h2.edge hi.neat (by assumption)

theorem doesX_pieces (hown : ∀ v t u, Own v t → Own v u → t = u) {a : Role Id} {n : Id} (fs bs : List Nat)
    {k : Except SErr Unit → Prog Db α} {l : List (Op E Id NP EP)}
    (ha : ∀ t : Triple Id, t.sub = n ∨ t.obj = n → a.removes t) (hk : ∀ r y, DoesX E c mN mE b X Own a (k r) y l) (x : Db) :
    DoesX E c mN mE b X Own a ((removeNodePieces fs bs n).bind k) x (.removeNode n :: l) := by
  unfold removeNodePieces
  rw [scan_bind]
  refine doesX_scan .SPO (fun _ => rfl) (fun t => t.sub) (fun t => LawfulId.kb1_spo n t) (fun t ht => ha t (.inl ht))
    (x0 := x) (fun x1 fwd _ hf hfc => ?_) fs none [] x (relyX_refl _ _) (by simp) (fun t _ _ _ h => absurd trivial h)
  rw [scan_bind]
  refine doesX_scan .OSP (fun _ => rfl) (fun t => t.obj) (fun t => LawfulId.kb1_osp n t) (fun t ht => ha t (.inr ht))
    (x0 := x1) (fun x2 bwd h2 hb hbc => ?_) bs none [] x1 (relyX_refl _ _) (by simp) (fun t _ _ _ h => absurd trivial h)
  exact doesX_scanned hown ha hf hb (fun t hX ht h => hfc t hX ht (fun h' => h (h2 t hX (ha t (.inl ht)) h'))) hbc hk

theorem doesX_removeNode (hown : ∀ v t u, Own v t → Own v u → t = u) {a : Role Id} {n : Id}
    {k : Except SErr Unit → Prog Db α} {l : List (Op E Id NP EP)}
    (ha : ∀ t : Triple Id, t.sub = n ∨ t.obj = n → a.removes t) (hk : ∀ r y, DoesX E c mN mE b X Own a (k r) y l) (x : Db) :
    DoesX E c mN mE b X Own a ((removeNode n).bind k) x (.removeNode n :: l) := by
  rw [removeNode_eq]
  refine doesX_none (fun s hr hi _ => ⟨fun _ _ _ h => h, rfl, ?_⟩)
  obtain ⟨F, hF, hF'⟩ := rangeArr_enc (hi.neat.keys .SPO) (keyBounds1 n)
  have hF : s.spo.rangeArr (keyBounds1 n) = F.map (fun x => ((encodeSpo x.1).1, x.2)) := hF
  have hm : ∀ t v, (t, v) ∈ F ↔ s.idIn .SPO t = some v ∧ t.sub = n := fun t v =>
    (hF' t v).trans (and_congr Iff.rfl (LawfulId.kb1_spo n t))
  dsimp only
  rw [hF, forwardBatch_enc]
  dsimp only
  exact doesX_scan .OSP (tree := fun d => d.osp) (fun _ => rfl) (fun t => t.obj) (fun t => LawfulId.kb1_osp n t)
    (fun t ht => ha t (.inr ht)) (x0 := s)
    (k := fun bwd => (removeNodeScanned n (F.map (fun x => ((encodeSpo x.1).1, x.2))) bwd).bind k) (fun x2 bwd h2 hb hbc => by
      refine doesX_scanned hown ha (fun e he => ?_) hb (fun t hX ht h => ?_) hbc hk
      · obtain ⟨y, hy, rfl⟩ := List.mem_map.1 he
        have := (hm y.1 y.2).1 hy
        exact ⟨y.1, rfl, this.2, hi.neat.refs _ _ _ this.1⟩
      · have hs : s.idIn .SPO t ≠ none := fun h' => h (h2 t hX (ha t (.inl ht)) h')
        obtain ⟨v, hv⟩ := Option.ne_none_iff_exists'.1 hs
        exact ⟨_, List.mem_map_of_mem ((hm t v).2 ⟨hv, ht⟩), rfl⟩) [] none [] s (relyX_refl _ _) (by simp)
    (fun t _ _ _ h => absurd trivial h)

/-! ## bulk operations -/

theorem doesX_mergeEdges (hc : c.RoundTrip) (hb : b = true ∨ c.Total) (hown : ∀ v t u, Own v t → Own v u → t = u) {a : Role Id}
    {k : Gen Id × Except (LR SErr E) Unit → Prog Db β} {r : List (Op E Id NP EP)} (hk : ∀ x y, DoesX E c mN mE b X Own a (k x) y r)
    (hs : b = true → ∀ x (l : List (Op E Id NP EP)) y, DoesX E c mN mE b X Own a (k x) y l)
    (l : List (Except E (Triple Id × EP))) (g : Gen Id) (ho : ∀ y ∈ Call.drawnFor g l, Own y.1 y.2 ∧ a.writes y.2) (x : Db) :
    DoesX E c mN mE b X Own a ((mergeEdges c mE g l).bind k) x ((oks l).map (fun x => .mergeEdge x.1 x.2) ++ r) := by
  induction l generalizing g x with
  | nil => exact hk _ _
  | cons y l ih =>
    cases y with
    | error e => exact hk _ _
    | ok y =>
      rw [mergeEdges]
      have assoc : ∀ f : Except SErr Unit → Prog Db (Gen Id × Except (LR SErr E) Unit),
          ((Sled.mergeEdge c mE (Gen.fresh g).1 y.1 y.2).bind f).bind k =
            (Sled.mergeEdge c mE (Gen.fresh g).1 y.1 y.2).bind (fun r => (f r).bind k) := fun f => rfl
      rw [assoc]
      have h0 := ho _ List.mem_cons_self
      exact doesX_mergeEdge hc hb hown h0.1 (fun _ => h0.2) (ih _ (fun z hz => ho z (List.mem_cons_of_mem _ hz)))
        (fun hb e l y => hs hb _ _ _) x

theorem doesX_mergeNodes (hc : c.RoundTrip) (hb : b = true ∨ c.Total) {a : Role Id}
    {j : Except (LR SErr E) Unit → Prog Db α} {k : α → Prog Db β} {r : List (Op E Id NP EP)}
    (hk : ∀ y, DoesX E c mN mE b X Own a ((j (.ok ())).bind k) y r)
    (he : ∀ e y, DoesX E c mN mE b X Own a ((j (.error e)).bind k) y ([] : List (Op E Id NP EP)))
    (hs : b = true → ∀ e (l : List (Op E Id NP EP)) y, DoesX E c mN mE b X Own a ((j (.error e)).bind k) y l)
    (l : List (Except E (Id × NP))) (x : Db) :
    DoesX E c mN mE b X Own a ((mergeNodes c mN j l).bind k) x
      ((oks l).map (fun x => .mergeNode x.1 x.2) ++ if fails l then [] else r) := by
  induction l generalizing x with
  | nil => exact hk _
  | cons y l ih =>
    cases y with
    | error e => exact he _ _
    | ok y =>
      rw [mergeNodes]
      have assoc : ∀ f : Except SErr Unit → Prog Db α,
          ((Sled.mergeNode c mN y.1 y.2).bind f).bind k =
            (Sled.mergeNode c mN y.1 y.2).bind (fun r => (f r).bind k) := fun f => rfl
      rw [assoc]
      exact doesX_mergeNode hc hb ih (fun hb e l y => hs hb _ _ _) x

theorem doesX_extendNodes (hc : c.RoundTrip) (hb : b = true ∨ c.Total) {a : Role Id}
    {j : Except (LR SErr E) Unit → Prog Db α} {k : α → Prog Db β} {r : List (Op E Id NP EP)}
    (hk : ∀ y, DoesX E c mN mE b X Own a ((j (.ok ())).bind k) y r)
    (he : ∀ e y, DoesX E c mN mE b X Own a ((j (.error e)).bind k) y ([] : List (Op E Id NP EP)))
    (hs : b = true → ∀ e (l : List (Op E Id NP EP)) y, DoesX E c mN mE b X Own a ((j (.error e)).bind k) y l)
    (l : List (Except E (Id × NP))) (x : Db) :
    DoesX E c mN mE b X Own a ((extendNodes c j l).bind k) x
      ((oks l).map (fun x => .insertNode x.1 x.2) ++ if fails l then [] else r) := by
  induction l generalizing x with
  | nil => exact hk _
  | cons y l ih =>
    cases y with
    | error e => exact he _ _
    | ok y =>
      rw [extendNodes]
      cases hp : c.n.ser y.2 with
      | none =>
        rcases hb with hb | hb
        · exact hs hb _ _ _
        · have := hb.1 y.2; rw [hp] at this; cases this
      | some v =>
        refine doesX_one trivial (fun d _ _ _ => ⟨fun _ _ _ h => h, ?_, ih _⟩)
        have ok : c.okN y.2 = true := by unfold Codecs.okN; rw [hp]; rfl
        simp only [Op.step, storeNode, ok, if_true, one]
        rw [← insNode_graph (hc.1 _ _ hp)]

/-- an operation on an edge in `X` may be done at any moment -/
theorem doesX_now {a : Role Id} {p : Prog Db α} {t : Triple Id} (hX : X t) (q : EP) {f : Db → Db} {k : Db → Prog Db α} (hp : p = .call f k)
    {x : Db} {l : List (Op E Id NP EP)} (h : DoesX E c mN mE b X Own a p x l) :
    DoesX E c mN mE b X Own a p x (.insertEdge t q :: l) := by
  subst hp
  intro d hr hi hi'
  obtain ⟨h1, e, l', rfl, h2, h3⟩ := h d hr hi hi'
  refine ⟨h1, .insertEdge t q :: e, l', rfl, ?_, h3⟩
  have same : off X ((Op.insertEdge t q : Op E Id NP EP).step c.okN c.okE mN mE (off X (d.graph c))).1 = off X (d.graph c) := by
    rw [off_step (op := .insertEdge t q) trivial]
    simp only [Op.step, storeEdge]
    cases c.okE q
    · rfl
    · refine off_eq (fun _ => rfl) (fun u hu => if_neg ?_)
      rintro rfl
      exact hu hX
  rw [List.foldl_cons, same]
  exact h2

theorem doesX_extendEdges (hc : c.RoundTrip) (hb : b = true ∨ c.Total) (hown : ∀ v t u, Own v t → Own v u → t = u) {a : Role Id}
    {k : Gen Ulid × Except (LR SErr E) Unit → Prog Db β} {r : List (Op E Id NP EP)} (hk : ∀ x y, DoesX E c mN mE b X Own a (k x) y r)
    (hs : b = true → ∀ x (l : List (Op E Id NP EP)) y, DoesX E c mN mE b X Own a (k x) y l)
    (l : List (Except E (Triple Id × EP))) (g : Gen Ulid) (ho : ∀ y ∈ Call.drawnFor g l, Own y.1 y.2 ∧ X y.2) (x : Db) :
    DoesX E c mN mE b X Own a ((extendEdges c g l).bind k) x ((oks l).map (fun x => .insertEdge x.1 x.2) ++ r) := by
  induction l generalizing g x with
  | nil => exact hk _ _
  | cons y l ih =>
    cases y with
    | error e => exact hk _ _
    | ok y =>
      rw [extendEdges]
      cases hp : c.e.ser y.2 with
      | none =>
        rcases hb with hb | hb
        · exact hs hb _ _ _
        · have := hb.2 y.2; rw [hp] at this; cases this
      | some v =>
        obtain ⟨hi, hX⟩ := ho _ List.mem_cons_self
        have hT : ∀ t, t = y.1 → X t := by rintro t rfl; exact hX
        have ih := ih (Gen.fresh g).2 (fun z hz => ho z (List.mem_cons_of_mem _ hz))
        refine doesX_now hX y.2 rfl ?_
        refine doesX_skip hT (fun d hd => (neat_rec hown hd hi (hc.2 _ _ hp)).2) (fun _ x1 _ => ?_)
        refine doesX_skip hT (fun d hd => (neat_set
          (d' := { d with spo := d.spo.insert (encodeSpo y.1).1 (toBeBytes (Gen.fresh g).1).1 }) hd .SPO y.1 hi rfl rfl
          (fun o => by cases o <;> rfl)).2) (fun d1 x2 hd1 => ?_)
        refine doesX_skip hT (fun d hd => (neat_set
          (d' := { d with pos := d.pos.insert (encodePos y.1).1 (toBeBytes (Gen.fresh g).1).1 }) hd .POS y.1 hi rfl rfl
          (fun o => by cases o <;> rfl)).2) (fun _ x3 _ => ?_)
        refine doesX_skip hT (fun d hd => (neat_set
          (d' := { d with osp := d.osp.insert (encodeOsp y.1).1 (toBeBytes (Gen.fresh g).1).1 }) hd .OSP y.1 hi rfl rfl
          (fun o => by cases o <;> rfl)).2) (fun _ x4 _ => ?_)
        dsimp only
        cases h : d1.spo.get (encodeSpo y.1).1 with
        | none => exact ih _
        | some i =>
          exact doesX_skip hT (fun d hd => (neat_erase hown hd (hd1.refs .SPO _ _ h)).2) (fun _ x5 _ => ih _)

theorem drawnFor_touches {J : Type} [LinearOrder J] [ConcreteId J] (g : Gen J) (l : List (Except E (Triple Id × EP))) :
    ∀ y ∈ Call.drawnFor g l, ∃ p, .ok (y.2, p) ∈ l := by
  induction l generalizing g with
  | nil => intro y hy; cases hy
  | cons x l ih =>
    cases x with
    | error e => intro y hy; cases hy
    | ok x =>
      intro y hy
      rcases List.mem_cons.1 hy with rfl | hy
      · exact ⟨x.2, List.mem_cons_self⟩
      · obtain ⟨p, hp⟩ := ih _ y hy
        exact ⟨p, List.mem_cons_of_mem _ hp⟩

theorem doesX_prog (hc : c.RoundTrip) (hb : b = true ∨ c.Total) (hown : ∀ v t u, Own v t → Own v u → t = u) (x : Call E Id NP EP)
    (hx : ¬ x.IsScan) (ho : ∀ y ∈ x.writes, Own y.1 y.2) (hX : ∀ t, x.IsExtend → x.TouchesEdge t → X t) (y : Db) :
    DoesX E c mN mE b X Own (roleN x) (x.prog c mN mE) y x.items := by
  have ret : ∀ (a : Role Id) (u : Unit) y, DoesX E c mN mE b X Own a (.ret u : Prog Db Unit) y ([] : List (Op E Id NP EP)) :=
    fun _ _ _ => .inr rfl
  have any : ∀ (a : Role Id), b = true → ∀ (u : Unit) (l : List (Op E Id NP EP)) y, DoesX E c mN mE b X Own a (.ret u : Prog Db Unit) y l :=
    fun _ hb _ _ _ => .inl hb
  cases x with
  | insertNode n p => exact doesX_insertNode hc hb (fun y => ret _ _ y) (fun hb _ _ _ => any _ hb _ _ _) y
  | insertEdge i t p =>
    have h0 : ((toBeBytes i).1, t) ∈ (Call.insertEdge i t p : Call E Id NP EP).writes := List.mem_singleton.2 rfl
    exact doesX_insertEdge (a := roleN (.insertEdge i t p : Call E Id NP EP)) hc hb hown (ho _ h0) (fun _ => ⟨_, h0⟩)
      (fun y => ret _ _ y) (fun hb _ _ _ => any _ hb _ _ _) y
  | removeNode n =>
    exact doesX_removeNode (a := roleN (.removeNode n : Call E Id NP EP)) hown (fun t ht => Or.inr ⟨n, rfl, ht⟩)
      (fun _ _ => ret _ _ _) y
  | removeNodeScan n fwd bwd => exact absurd trivial hx
  | removeEdge t =>
    exact doesX_removeEdge (a := roleN (.removeEdge t : Call E Id NP EP)) hown (Or.inl rfl) (fun _ => ret _ _ _) y
  | mergeNode n p => exact doesX_mergeNode hc hb (fun y => ret _ _ y) (fun hb _ _ _ => any _ hb _ _ _) y
  | mergeEdge i t p =>
    have h0 : ((toBeBytes i).1, t) ∈ (Call.mergeEdge i t p : Call E Id NP EP).writes := List.mem_singleton.2 rfl
    exact doesX_mergeEdge (a := roleN (.mergeEdge i t p : Call E Id NP EP)) hc hb hown (ho _ h0) (fun _ => ⟨_, h0⟩)
      (fun y => ret _ _ y) (fun hb _ _ _ => any _ hb _ _ _) y
  | extend u src =>
    refine doesX_extendNodes (a := roleN (.extend u src : Call E Id NP EP)) hc hb (fun y => ?_) (fun e y => ret _ _ y)
      (fun hb e l y => any _ hb _ _ _) src.nodes y
    have := doesX_extendEdges (a := roleN (.extend u src : Call E Id NP EP)) (mN := mN) (mE := mE) hc hb hown
      (k := fun _ => .ret ()) (r := []) (fun _ y => ret _ _ y) (fun hb _ l y => any _ hb _ _ _) src.edges u
      (fun z hz => ⟨ho z hz, hX z.2 trivial (drawnFor_touches u src.edges z hz)⟩) y
    rwa [List.append_nil] at this
  | merge g src =>
    refine doesX_mergeNodes (a := roleN (.merge g src : Call E Id NP EP)) hc hb (fun y => ?_) (fun e y => ret _ _ y)
      (fun hb e l y => any _ hb _ _ _) src.nodes y
    have := doesX_mergeEdges (a := roleN (.merge g src : Call E Id NP EP)) (mN := mN) (mE := mE) hc hb hown
      (k := fun _ => .ret ()) (r := []) (fun _ y => ret _ _ y) (fun hb _ l y => any _ hb _ _ _) src.edges g
      (fun z hz => ⟨ho z hz, ⟨z.1, hz⟩⟩) y
    rwa [List.append_nil] at this

/-! ## scans in pieces: the other properties -/

/-- what all pieces of a scan have in common, while nobody touches `L` -/
theorem local_scan {loc : Db → Λ} {n : Id} (o : EdgeOrder) {tree : Db → Tree} (htree : ∀ d, tree d = d.tree o)
    (cls : Triple Id → Id) (hb : ∀ t, Bound.contains (keyBounds1 n) (encOf o t) = true ↔ cls t = n) {L : Λ} {Q : α → Λ → Prop}
    {T : Triple Id → Prop} (hT : ∀ d, loc d = L → ∀ t, T t → d.idIn o t ≠ none)
    {k : List (Bytes × Bytes) → Prog Db α}
    (hk : ∀ l, (∀ e ∈ l, ∃ t, e.1 = (encOf o t).1 ∧ cls t = n ∧ Own e.2 t) →
      (∀ t, T t → cls t = n → ∃ e ∈ l, e.1 = (encOf o t).1) → Local (Neat c Own) loc (k l) L Q) :
    ∀ (ss : List Nat) (cur : Option Bytes) (acc : List (Bytes × Bytes)),
      (∀ e ∈ acc, ∃ t, e.1 = (encOf o t).1 ∧ cls t = n ∧ Own e.2 t) →
      (∀ t, T t → cls t = n → ¬ After cur (encOf o t).1 → ∃ e ∈ acc, e.1 = (encOf o t).1) →
      Local (Neat c Own) loc (scanPieces tree (keyBounds1 n) k ss cur acc) L Q := by
  have entry : ∀ (s : Db), Neat c Own s → ∀ e ∈ (s.tree o).rangeArr (keyBounds1 n),
      ∃ t : Triple Id, e.1 = (encOf o t).1 ∧ cls t = n ∧ Own e.2 t := by
    intro s hi e he
    obtain ⟨t, ht⟩ := hi.keys o e.1 e.2 (rangeArr_sub he)
    have he' : ((encOf o t).1, e.2) ∈ (s.tree o).rangeArr (keyBounds1 n) := by rw [← ht]; exact he
    exact ⟨t, ht, (hb t).1 (mem_rangeArr.1 he').2, hi.refs o t e.2 (mem_rangeArr.1 he').1⟩
  have there : ∀ (s : Db), loc s = L → ∀ t, T t → cls t = n → ∃ v, ((encOf o t).1, v) ∈ (s.tree o).rangeArr (keyBounds1 n) := by
    intro s hs t h1 h2
    obtain ⟨v, hv⟩ := Option.ne_none_iff_exists'.1 (hT s hs t h1)
    exact ⟨v, mem_rangeArr.2 ⟨hv, (hb t).2 h2⟩⟩
  intro ss
  induction ss with
  | nil =>
    intro cur acc hg hc s hi hl
    refine ⟨hi, ?_⟩
    show Local _ _ _ (loc s) _
    rw [hl]
    refine hk _ (fun e he => ?_) (fun t h1 h2 => ?_)
    · rcases List.mem_append.1 he with he | he
      · exact hg e he
      · rw [htree] at he
        exact entry s hi e (mem_rest.1 he).1
    · by_cases haf : After cur (encOf o t).1
      · obtain ⟨v, hv⟩ := there s hl t h1 h2
        exact ⟨_, List.mem_append_right _ (mem_rest.2 ⟨by rw [htree]; exact hv, haf⟩), rfl⟩
      · obtain ⟨e, he, h⟩ := hc t h1 h2 haf
        exact ⟨e, List.mem_append_left _ he, h⟩
  | cons p ss ih =>
    intro cur acc hg hc s hi hl
    refine ⟨hi, ?_⟩
    show Local _ _ _ (loc s) _
    rw [hl]
    refine ih _ _ (fun e he => ?_) (fun t h1 h2 hn => ?_)
    · rcases List.mem_append.1 he with he | he
      · exact hg e he
      · have := List.mem_of_mem_take he
        rw [htree] at this
        exact entry s hi e (mem_rest.1 this).1
    · by_cases haf : After cur (encOf o t).1
      · obtain ⟨v, hv⟩ := there s hl t h1 h2
        rw [← htree] at hv
        exact ⟨_, List.mem_append_right _ (mem_take_of_cursor (rest_sorted (rangeArr_sorted _ _))
          (mem_rest.2 ⟨hv, haf⟩) haf hn), rfl⟩
      · obtain ⟨e, he, h⟩ := hc t h1 h2 haf
        exact ⟨e, List.mem_append_left _ he, h⟩

theorem own_pieces (hown : ∀ v t u, Own v t → Own v u → t = u) {n : Id} {t : Triple Id} (ht : t.sub = n ∨ t.obj = n) (fs bs : List Nat)
    {L : Part} {q : Option EP} {F F' : List Bytes} (hL : Settled c L q F') :
    OnEdge c Own t (removeNodePieces fs bs n) L none F := by
  have seen : ∀ o d, edgePart Own t d = L → ∀ u, (u = t ∧ L.1 .SPO ≠ none) → d.idIn o u ≠ none := by
    rintro o d hd u ⟨rfl, hs⟩
    have : d.idIn o u = L.1 o := congrFun (congrArg Prod.fst hd) o
    rw [this]
    rcases hL.val with ⟨h1, -⟩ | ⟨v, b, p, h1, -, -, -⟩
    · exact absurd (h1 .SPO) hs
    · rw [h1]; exact Option.some_ne_none v
  unfold removeNodePieces
  refine local_scan .SPO (fun _ => rfl) (fun t => t.sub) (fun t => LawfulId.kb1_spo n t) (seen .SPO) (fun fwd hf hfc => ?_)
    fs none [] (by simp) (fun t _ _ h => absurd trivial h)
  refine local_scan .OSP (fun _ => rfl) (fun t => t.obj) (fun t => LawfulId.kb1_osp n t) (seen .OSP) (fun bwd hb hbc => ?_)
    bs none [] (by simp) (fun t _ _ h => absurd trivial h)
  obtain ⟨Fw, rfl⟩ := exists_map_of (fun x : Triple Id × Bytes => ((encodeSpo x.1).1, x.2)) (l := fwd) (fun e he => by
    obtain ⟨t, ht, -⟩ := hf e he
    exact ⟨(t, e.2), Prod.ext ht rfl⟩)
  obtain ⟨Bw, rfl⟩ := exists_map_of (fun x : Triple Id × Bytes => ((encodeOsp x.1).1, x.2)) (l := bwd) (fun e he => by
    obtain ⟨t, ht, -⟩ := hb e he
    exact ⟨(t, e.2), Prod.ext ht rfl⟩)
  rw [removeNodeScanned_enc]
  intro d3 hd3 hl3
  refine ⟨(neat_dropped (T := fun u : Triple Id => u.sub = n ∨ u.obj = n) (n := n) (F := Fw) (B := Bw) hown hd3 (by
      rintro y hy
      rcases List.mem_append.1 hy with hy | hy
      · obtain ⟨t, h1, h2, h3⟩ := hf _ (List.mem_map_of_mem hy)
        rw [(encOf_inj .SPO).1 h1]; exact ⟨.inl h2, h3⟩
      · obtain ⟨t, h1, h2, h3⟩ := hb _ (List.mem_map_of_mem hy)
        rw [(encOf_inj .OSP).1 h1]; exact ⟨.inr h2, h3⟩)).1, settled_none (fun o => ?_)⟩
  show (dropped n Fw Bw d3).idIn o t = none
  rw [dropped_idIn]
  rcases hL.val with ⟨h1, -⟩ | ⟨v, b, p, h1, -, -, -⟩
  · have : d3.idIn o t = L.1 o := congrFun (congrArg Prod.fst hl3) o
    rw [this, h1, ite_self]
  · have hs : L.1 .SPO ≠ none := by rw [h1]; exact Option.some_ne_none v
    rw [if_pos]
    rw [List.map_append, List.mem_append]
    rcases ht with ht | ht
    · obtain ⟨e, he, h⟩ := hfc t ⟨rfl, hs⟩ ht
      obtain ⟨y, hy, rfl⟩ := List.mem_map.1 he
      rw [← (encOf_inj .SPO).1 h]
      exact .inl (List.mem_map_of_mem hy)
    · obtain ⟨e, he, h⟩ := hbc t ⟨rfl, hs⟩ ht
      obtain ⟨y, hy, rfl⟩ := List.mem_map.1 he
      rw [← (encOf_inj .OSP).1 h]
      exact .inr (List.mem_map_of_mem hy)

theorem within_scan {n : Id} (o : EdgeOrder) {tree : Db → Tree} (htree : ∀ d, tree d = d.tree o) {T : Triple Id → Prop} {N : Id → Prop}
    (cls : Triple Id → Id) (hb : ∀ t, Bound.contains (keyBounds1 n) (encOf o t) = true ↔ cls t = n) {R : α → Prop}
    {k : List (Bytes × Bytes) → Prog Db α}
    (hk : ∀ l, (∀ t v, ((encOf o t).1, v) ∈ l → cls t = n ∧ Own v t) → Within c Own T N (k l) R) :
    ∀ (ss : List Nat) (cur : Option Bytes) (acc : List (Bytes × Bytes)),
      (∀ t v, ((encOf o t).1, v) ∈ acc → cls t = n ∧ Own v t) →
      Within c Own T N (scanPieces tree (keyBounds1 n) k ss cur acc) R := by
  have entry : ∀ (s : Db), Neat c Own s → ∀ t v, ((encOf o t).1, v) ∈ (s.tree o).rangeArr (keyBounds1 n) → cls t = n ∧ Own v t :=
    fun s hi t v he => ⟨(hb t).1 (mem_rangeArr.1 he).2, hi.refs o t v (mem_rangeArr.1 he).1⟩
  intro ss
  induction ss with
  | nil =>
    intro cur acc hg s hi
    refine ⟨hi, .refl s, hk _ (fun t v he => ?_)⟩
    rcases List.mem_append.1 he with he | he
    · exact hg t v he
    · rw [htree] at he
      exact entry s hi t v (mem_rest.1 he).1
  | cons p ss ih =>
    intro cur acc hg s hi
    refine ⟨hi, .refl s, ih _ _ (fun t v he => ?_)⟩
    rcases List.mem_append.1 he with he | he
    · exact hg t v he
    · have := List.mem_of_mem_take he
      rw [htree] at this
      exact entry s hi t v (mem_rest.1 this).1

theorem within_pieces (hown : ∀ v t u, Own v t → Own v u → t = u) (n : Id) (fs bs : List Nat) :
    Within c Own (fun t => t.sub = n ∨ t.obj = n) (· = n) (removeNodePieces fs bs n) (fun _ => True) := by
  unfold removeNodePieces
  refine within_scan .SPO (fun _ => rfl) (fun t => t.sub) (fun t => LawfulId.kb1_spo n t) (fun fwd hf => ?_) fs none [] (by simp)
  refine within_scan .OSP (fun _ => rfl) (fun t => t.obj) (fun t => LawfulId.kb1_osp n t) (fun bwd hb => ?_) bs none [] (by simp)
  exact within_scanned hown hf hb

theorem safe1_pieces {t : Triple Id} {a : Role1} {n : Id} (fs bs : List Nat) {k : Except SErr Unit → Prog Db α}
    (hk : ∀ r x, (edgeRG t).Safe (k r) a x) (x : Db × Unit) :
    (edgeRG t).Safe ((removeNodePieces fs bs n).bind k) a x := by
  have scan : ∀ (tree : Db → Tree) (bd : Bound (TKey Id) × Bound (TKey Id)) (j : List (Bytes × Bytes) → Prog Db α),
      (∀ L x, (edgeRG t).Safe (j L) a x) → ∀ ss cur acc x, (edgeRG t).Safe (scanPieces tree bd j ss cur acc) a x := by
    intro tree bd j hj ss
    induction ss with
    | nil => exact fun cur acc x => safe1_call (fun d h => eff1_same h (fun _ => rfl)) (fun d x => hj _ _) x
    | cons s ss ih => exact fun cur acc x => safe1_call (fun d h => eff1_same h (fun _ => rfl)) (fun d x => ih _ _ _) x
  unfold removeNodePieces
  rw [scan_bind]
  refine scan _ _ _ (fun fwd x => ?_) _ _ _ _
  rw [scan_bind]
  exact scan _ _ _ (fun bwd x => safe1_removeNodeScanned hk x) _ _ _ _

theorem fit_pieces (hown : ∀ v t u, Own v t → Own v u → t = u) {a : Label Id} {n : Id} (ht : ∀ t, t.sub = n ∨ t.obj = n → a.touch t)
    (fs bs : List Nat) {k : Except SErr Unit → Prog Db β} (hk : ∀ r x, (fitRG c Own).Safe (k r) a x) (x : Db × (Bytes → Prop)) :
    (fitRG c Own).Safe ((removeNodePieces fs bs n).bind k) a x := by
  have scan : ∀ (o : EdgeOrder) (tree : Db → Tree), (∀ d, tree d = d.tree o) → ∀ (cls : Triple Id → Id),
      (∀ t, Bound.contains (keyBounds1 n) (encOf o t) = true ↔ cls t = n) → ∀ (j : List (Bytes × Bytes) → Prog Db β),
      (∀ l, (∀ t v, ((encOf o t).1, v) ∈ l → cls t = n ∧ Own v t) → ∀ x, (fitRG c Own).Safe (j l) a x) → ∀ ss cur acc,
      (∀ t v, ((encOf o t).1, v) ∈ acc → cls t = n ∧ Own v t) →
      ∀ x, (fitRG c Own).Safe (scanPieces tree (keyBounds1 n) j ss cur acc) a x := by
    intro o tree htree cls hb j hj ss
    have entry : ∀ (s : Db), Neat c Own s → ∀ t v, ((encOf o t).1, v) ∈ (s.tree o).rangeArr (keyBounds1 n) → cls t = n ∧ Own v t :=
      fun s hi t v he => ⟨(hb t).1 (mem_rangeArr.1 he).2, hi.refs o t v (mem_rangeArr.1 he).1⟩
    induction ss with
    | nil =>
      intro cur acc hg x d X _ hi hL
      refine ⟨a, X, fit_drop (N := fun _ => False) hL hi (fun _ _ _ h => h) (.refl d), hj _ (fun t v he => ?_) _⟩
      rcases List.mem_append.1 he with he | he
      · exact hg t v he
      · rw [htree] at he
        exact entry d hi.neat t v (mem_rest.1 he).1
    | cons p ss ih =>
      intro cur acc hg x d X _ hi hL
      refine ⟨a, X, fit_drop (N := fun _ => False) hL hi (fun _ _ _ h => h) (.refl d), ih _ _ (fun t v he => ?_) _⟩
      rcases List.mem_append.1 he with he | he
      · exact hg t v he
      · have := List.mem_of_mem_take he
        rw [htree] at this
        exact entry d hi.neat t v (mem_rest.1 this).1
  unfold removeNodePieces
  rw [scan_bind]
  refine scan .SPO _ (fun _ => rfl) (fun t => t.sub) (fun t => LawfulId.kb1_spo n t) _ (fun fwd hf x => ?_) _ _ _ (by simp) _
  rw [scan_bind]
  refine scan .OSP _ (fun _ => rfl) (fun t => t.obj) (fun t => LawfulId.kb1_osp n t) _ (fun bwd hb x => ?_) _ _ _ (by simp) _
  exact fit_scanned hown (fun t v h => ⟨ht t (.inl (hf t v h).1), (hf t v h).2⟩)
    (fun t v h => ⟨ht t (.inr (hb t v h).1), (hb t v h).2⟩) hk x

/-! ## the programs -/

/-- programs which do what their calls are to do -/
structure FineX (c : Codecs NP EP) (mN : NP → NP → NP) (mE : EP → EP → EP) (b : Bool) (Own : Bytes → Triple Id → Prop)
    (X : Triple Id → Prop) (e : Prog Db Unit × Call E Id NP EP) : Prop where
  within : Within c Own (fun t => e.2.TouchesEdge t) (fun n => e.2.TouchesNode n) e.1 (fun _ => True)
  agree : ∀ t, ¬ X t → ∀ a : Role1, (e.2.MayWrite t → a.writes) → (e.2.Removes t → a.removes) → ∀ y, (edgeRG t).Safe e.1 a y
  does : ∀ y, DoesX E c mN mE b X Own (roleN e.2) e.1 y e.2.items
  fit : (e.2.writes.map Prod.fst).Nodup → ∀ y, (fitRG c Own).Safe e.1 e.2.label y
  own : c.Total → ∀ t F L (G : Graph Id NP EP), Settled c L (G.edges t) (e.2.writes.map Prod.fst ++ F) →
    (e.2.writes.map Prod.fst ++ F).Nodup → OnEdge c Own t e.1 L ((applyAll mN mE G e.2.ops).edges t) F

theorem fineX_call (hc : c.RoundTrip) (hb : b = true ∨ c.Total) (hown : ∀ v t u, Own v t → Own v u → t = u) (x : Call E Id NP EP)
    (hx : ¬ x.IsScan) (ho : ∀ y ∈ x.writes, Own y.1 y.2) (hX : ∀ t, x.IsExtend → x.TouchesEdge t → X t) :
    FineX c mN mE b Own X (x.prog c mN mE, x) := by
  have hs : x.Scanned Own := by
    cases x with
    | removeNodeScan n f b => exact absurd trivial hx
    | _ => trivial
  refine ⟨within_prog hc hown mN mE x ho hs, fun t ht a hw hr y => safe1_prog c mN mE x hw hr (fun h1 h2 => ht (hX t h1 ?_)) y,
    doesX_prog hc hb hown x hx ho hX, fun hn => fit_prog hc hown mN mE x hn ho hs, fun htot t F L G hL hnd => own_call hc htot hown G x (fun h => hx h.1) hL hnd ho hs⟩
  obtain ⟨v, hv⟩ := h2
  cases x with
  | extend u src => exact drawnFor_touches u src.edges _ hv
  | _ => cases h1

theorem fineX_piece (hc : c.RoundTrip) (hb : b = true ∨ c.Total) (hown : ∀ v t u, Own v t → Own v u → t = u) (x : PieceCall E Id NP EP)
    (hx : ¬ x.1.IsScan) (ho : ∀ y ∈ x.1.writes, Own y.1 y.2) (hX : ∀ t, x.1.IsExtend → x.1.TouchesEdge t → X t) :
    FineX c mN mE b Own X (x.prog c mN mE, x.1) := by
  obtain ⟨x, fs, bs⟩ := x
  cases x with
  | removeNode n =>
    have hw : Within c Own (fun t => t.sub = n ∨ t.obj = n) (· = n) ((removeNodePieces fs bs n).bind (fun _ => .ret ()))
      (fun _ => True) := (within_pieces hown n fs bs).bind (fun _ _ => trivial)
    refine ⟨hw, fun t _ a _ _ y => safe1_pieces fs bs (fun _ _ => safe1_ret) y,
      fun y => doesX_pieces (a := roleN (.removeNode n : Call E Id NP EP)) hown fs bs (fun t ht => Or.inr ⟨n, rfl, ht⟩)
        (k := fun _ => .ret ()) (l := []) (fun _ _ => Or.inr rfl) y,
      fun _ => fit_pieces (a := (.removeNode n : Call E Id NP EP).label) hown (fun t h => h) fs bs (fun _ _ => fit_ret), fun htot t F L G hL hnd => ?_⟩
    by_cases ht : t.sub = n ∨ t.obj = n
    · have e : (applyAll mN mE G (Call.removeNode n : Call E Id NP EP).ops).edges t = none := if_pos ht
      rw [e]
      exact (own_pieces hown ht fs bs hL).bind (fun _ _ h => h)
    · rw [untouched_edges (.removeNode n) ht]
      exact (hw.edge ht).toLocal (fun _ _ => hL)
  | insertNode n p => exact fineX_call hc hb hown _ hx ho hX
  | insertEdge i t p => exact fineX_call hc hb hown _ hx ho hX
  | removeNodeScan n f b => exact absurd trivial hx
  | removeEdge t => exact fineX_call hc hb hown _ hx ho hX
  | mergeNode n p => exact fineX_call hc hb hown _ hx ho hX
  | mergeEdge i t p => exact fineX_call hc hb hown _ hx ho hX
  | extend u src => exact fineX_call hc hb hown _ hx ho hX
  | merge g src => exact fineX_call hc hb hown _ hx ho hX

variable {ths : Programs E Id NP EP} {d0 : Db}

theorem neat_programs (h0 : Neat c Own d0) (hf : ∀ th ∈ ths, ∀ e ∈ th, FineX c mN mE b Own X e)
    {y : Db × List (List (Prog Db Unit))} (hs : Steps (d0, ths.start) y) : Neat c Own y.1 := by
  have frame : ∀ {α : Type} {T : Triple Id → Prop} {N : Id → Prop} {R : α → Prop} (p : Prog Db α),
      Within c Own T N p R → Framed (Neat c Own) (fun _ => ()) p R := by
    intro α T N R p h
    induction p with
    | ret a => exact h
    | call f k ih => exact fun s hs => ⟨(h s hs).1, rfl, ih s (h s hs).2.2⟩
  exact (framed_steps (J := Neat c Own) (loc := fun _ => ()) hs h0 (by
    intro q hq p hp
    obtain ⟨th, hth, rfl⟩ := List.mem_map.1 hq
    obtain ⟨x, hx, rfl⟩ := List.mem_map.1 hp
    exact frame _ (hf th hth x hx).within)).1

theorem agreeAt_edge {t : Triple Id} (hX : ¬ X t) (h0 : AgreeAt t d0) (hf : ∀ th ∈ ths, ∀ e ∈ th, FineX c mN mE b Own X e)
    (hr : ths.calls.Pairwise (fun th th' => ∀ x ∈ th, ∀ y ∈ th',
      (x.Removes t → ∀ v, (v, t) ∉ y.writes) ∧ (y.Removes t → ∀ v, (v, t) ∉ x.writes)))
    {y : Db × List (List (Prog Db Unit))} (hs : Steps (d0, ths.start) y) : AgreeAt t y.1 := by
  let roleOf (th : List (Prog Db Unit × Call E Id NP EP)) : Role1 := ⟨∃ x ∈ th, x.2.MayWrite t, ∃ x ∈ th, x.2.Removes t⟩
  have h := (edgeRG t).good_steps (x := (d0, ths.start))
    ⟨(), ths.map (fun th => th.map (fun x => (x.1, roleOf th))), ?_, h0, ?_, ?_⟩ hs
  · obtain ⟨_, _, _, h, _⟩ := h
    exact h
  · simp [Programs.start, Function.comp_def]
  · intro q hq
    obtain ⟨th, hth, rfl⟩ := List.mem_map.1 hq
    have safe : ∀ x ∈ th, ∀ y, (edgeRG t).Safe x.1 (roleOf th) y := fun x hx y =>
      (hf th hth x hx).agree t hX (roleOf th) (fun h => ⟨x, hx, h⟩) (fun h => ⟨x, hx, h⟩) y
    generalize roleOf th = a at safe
    clear hq hth
    cases th with
    | nil => trivial
    | cons x th =>
      refine ⟨safe x (by simp) _, ?_, List.pairwise_of_forall (fun _ _ => trivial), fun _ _ => trivial⟩
      intro e he y
      obtain ⟨z, hz, rfl⟩ := List.mem_map.1 he
      exact safe z (List.mem_cons_of_mem _ hz) y
  · unfold Programs.calls at hr
    rw [List.pairwise_map] at hr ⊢
    refine hr.imp (fun {th th'} h => ?_)
    intro e he e' he'
    obtain ⟨x, -, rfl⟩ := List.mem_map.1 he
    obtain ⟨x', -, rfl⟩ := List.mem_map.1 he'
    exact ⟨fun ⟨y, hy, h1⟩ ⟨z, hz, v, h2⟩ => (h _ (List.mem_map_of_mem hz) _ (List.mem_map_of_mem hy)).2 h1 v h2,
      fun ⟨y, hy, h1⟩ ⟨z, hz, v, h2⟩ => (h _ (List.mem_map_of_mem hy) _ (List.mem_map_of_mem hz)).1 h1 v h2⟩

theorem agreeAt_programs {t : Triple Id} (hX : ¬ X t) (h0 : AgreeAt t d0) (hf : ∀ th ∈ ths, ∀ e ∈ th, FineX c mN mE b Own X e)
    (hr : NoRace ths.calls) {y : Db × List (List (Prog Db Unit))} (hs : Steps (d0, ths.start) y) : AgreeAt t y.1 :=
  agreeAt_edge hX h0 hf (hr.imp (fun {_ _} h x hx y hy => h x hx y hy t)) hs

theorem linX_programs (hf : ∀ th ∈ ths, ∀ e ∈ th, FineX c mN mE b Own X e)
    (hp : ths.Pairwise (fun th th' => ∀ e ∈ th, ∀ e' ∈ th', (agreeRG Id).par (roleN e.2) (roleN e'.2) ∧
      (agreeRG Id).par (roleN e'.2) (roleN e.2))) :
    LinR (InvX c Own X) (fun d => off X (d.graph c)) (fun G op => off X (op.step c.okN c.okE mN mE G).1) b
      (relyX X) (agreeRG Id).par (off X (d0.graph c)) (ths.calls.map (List.flatMap Call.items)) (d0, ths.start) := by
  refine ⟨[], ths.map (List.map (fun e => (e.1, roleN e.2, e.2.items))), by simp [Programs.start, Function.comp_def], ?_, ?_, ?_, rfl⟩
  · intro q hq
    obtain ⟨th, hth, rfl⟩ := List.mem_map.1 hq
    have hf := hf th hth
    cases th with
    | nil => trivial
    | cons x th =>
      refine ⟨(hf x List.mem_cons_self).does _, fun e he y => ?_⟩
      obtain ⟨z, hz, rfl⟩ := List.mem_map.1 he
      exact (hf z (List.mem_cons_of_mem _ hz)).does y
  · rw [List.pairwise_map]
    refine hp.imp (fun {th th'} h => ?_)
    intro e he e' he'
    obtain ⟨x, hx, rfl⟩ := List.mem_map.1 he
    obtain ⟨x', hx', rfl⟩ := List.mem_map.1 he'
    exact h x hx x' hx'
  · have : (ths.map (List.map (fun e => (e.1, roleN e.2, e.2.items)))).map (List.flatMap (fun e => e.2.2)) =
        ths.calls.map (List.flatMap Call.items) := by
      simp [Programs.calls, Function.comp_def, List.flatMap_map]
    rw [this]
    exact .refl

theorem items_single (x : Call E Id NP EP) (op : Op E Id NP EP) (h : op ∈ x.items) : Single op := by
  cases x with
  | extend u src =>
    simp only [Call.items, List.mem_append] at h
    rcases h with h | h
    · obtain ⟨y, -, rfl⟩ := List.mem_map.1 h; trivial
    · split at h
      · cases h
      · obtain ⟨y, -, rfl⟩ := List.mem_map.1 h; trivial
  | merge g src =>
    simp only [Call.items, Call.ops, List.mem_append] at h
    rcases h with h | h
    · obtain ⟨y, -, rfl⟩ := List.mem_map.1 h; trivial
    · split at h
      · cases h
      · obtain ⟨y, -, rfl⟩ := List.mem_map.1 h; trivial
  | _ => cases List.mem_singleton.1 h; trivial

theorem shuffle_sub {α : Type} {b : Bool} {ls : List (List α)} {h : List α} (hs : Shuffle b ls h) {a : α} (ha : a ∈ h) :
    ∃ l ∈ ls, a ∈ l := by
  induction hs with
  | nil ls h => cases ha
  | drop pre post x l h hp _ ih =>
    obtain ⟨k, hk, hm⟩ := ih ha
    rcases List.mem_append.1 hk with hk | hk
    · exact ⟨k, by simp [hk], hm⟩
    · rcases List.mem_cons.1 hk with rfl | hk
      · exact ⟨x :: k, by simp, List.mem_cons_of_mem _ hm⟩
      · exact ⟨k, by simp [hk], hm⟩
  | take pre post x l h _ ih =>
    rcases List.mem_cons.1 ha with rfl | ha
    · exact ⟨a :: l, by simp, by simp⟩
    · obtain ⟨k, hk, hm⟩ := ih ha
      rcases List.mem_append.1 hk with hk | hk
      · exact ⟨k, by simp [hk], hm⟩
      · rcases List.mem_cons.1 hk with rfl | hk
        · exact ⟨x :: k, by simp, List.mem_cons_of_mem _ hm⟩
        · exact ⟨k, by simp [hk], hm⟩

theorem items_shuffled {threads : List (List (Call E Id NP EP))} {l : List (Op E Id NP EP)}
    (h : Shuffle b (threads.map (List.flatMap Call.items)) l) : ∀ op ∈ l, Single op := by
  intro op hop
  obtain ⟨k, hk, hm⟩ := shuffle_sub h hop
  obtain ⟨th, -, rfl⟩ := List.mem_map.1 hk
  obtain ⟨x, -, hx⟩ := List.mem_flatMap.1 hm
  exact items_single x op hx

theorem off_lin {G H : Graph Id NP EP} {l : List (Op E Id NP EP)} (hl : ∀ op ∈ l, Single op)
    (h : off X H = l.foldl (fun G op => off X (op.step c.okN c.okE mN mE G).1) (off X G)) :
    (∀ n, H.nodes n = (stepAll c.okN c.okE mN mE G l).nodes n) ∧
      ∀ t, ¬ X t → H.edges t = (stepAll c.okN c.okE mN mE G l).edges t := by
  rw [off_stepAll l hl] at h
  refine ⟨fun n => congrFun (congrArg Graph.nodes h) n, fun t ht => ?_⟩
  have := congrFun (congrArg Graph.edges h) t
  rwa [off_edges ht, off_edges ht] at this

theorem bulk_moment (hN : Neat c Own d0) (hA : ∀ t, ¬ X t → AgreeAt t d0) (hf : ∀ th ∈ ths, ∀ e ∈ th, FineX c mN mE true Own X e)
    (hr : NoRace ths.calls) (hn : NoNodeRace ths.calls) {d : Db} {r : List (List (Prog Db Unit))} (hs : Steps (d0, ths.start) (d, r)) :
    InvX c Own X d ∧ ∃ l, Shuffle true (ths.calls.map (List.flatMap Call.items)) l ∧
      (∀ n, (d.graph c).nodes n = (stepAll c.okN c.okE mN mE (d0.graph c) l).nodes n) ∧
      ∀ t, ¬ X t → (d.graph c).edges t = (stepAll c.okN c.okE mN mE (d0.graph c) l).edges t := by
  have hp := par_programs hr hn
  have hi : ∀ y, Steps (d0, ths.start) y → InvX c Own X y.1 := fun y hy =>
    ⟨neat_programs hN hf hy, fun t ht => agreeAt_programs ht (hA t ht) hf hr hy⟩
  obtain ⟨l, h1, h2⟩ := (linR_steps relyX_trans relyX_refl hi (linX_programs hf hp) hs).part
  exact ⟨hi _ hs, l, h1, off_lin (items_shuffled h1) h2⟩

theorem bulk_final (hN : Neat c Own d0) (hA : ∀ t, ¬ X t → AgreeAt t d0) (hf : ∀ th ∈ ths, ∀ e ∈ th, FineX c mN mE b Own X e)
    (hr : NoRace ths.calls) (hn : NoNodeRace ths.calls) {d : Db} {r : List (List (Prog Db Unit))}
    (hs : CalmSteps (d0, ths.start) (d, r)) (he : ∀ th ∈ r, th = []) :
    InvX c Own X d ∧ ∃ l, Shuffle b (ths.calls.map (List.flatMap Call.items)) l ∧
      (∀ n, (d.graph c).nodes n = (stepAll c.okN c.okE mN mE (d0.graph c) l).nodes n) ∧
      ∀ t, ¬ X t → (d.graph c).edges t = (stepAll c.okN c.okE mN mE (d0.graph c) l).edges t := by
  have hp := par_programs hr hn
  have hi : ∀ y, Steps (d0, ths.start) y → InvX c Own X y.1 := fun y hy =>
    ⟨neat_programs hN hf hy, fun t ht => agreeAt_programs ht (hA t ht) hf hr hy⟩
  obtain ⟨l, h1, h2⟩ := (linR_calm relyX_trans relyX_refl hi (linX_programs hf hp) hs).full he
  exact ⟨hi _ hs.steps, l, h1, off_lin (items_shuffled h1) h2⟩

/-! ## an edge which only one thread touches -/

theorem items_apply (x : Call E Id NP EP) (G : Graph Id NP EP) : applyAll mN mE G x.items = applyAll mN mE G x.ops := by
  cases x with
  | extend u src =>
    have hN : ∀ (l : List (Id × NP)) (G : Graph Id NP EP),
        applyAll mN mE G (l.map (fun x => (.insertNode x.1 x.2 : Op E Id NP EP))) = l.foldl (fun G x => G.insertNode x.1 x.2) G :=
      fun l G => by unfold applyAll; rw [List.foldl_map]; rfl
    have hE : ∀ (l : List (Triple Id × EP)) (G : Graph Id NP EP),
        applyAll mN mE G (l.map (fun x => (.insertEdge x.1 x.2 : Op E Id NP EP))) = l.foldl (fun G x => G.insertEdge x.1 x.2) G :=
      fun l G => by unfold applyAll; rw [List.foldl_map]; rfl
    show _ = Op.apply mN mE G (.extend src : Op E Id NP EP)
    simp only [Call.items, Op.apply, applyAll_append, hN, edgePrefix_oks, Source.nodePrefix, okPrefix_oks]
    split
    · rfl
    · exact hE _ _
  | _ => rfl

theorem items_applyAll (th : List (Call E Id NP EP)) (G : Graph Id NP EP) :
    applyAll mN mE G (th.flatMap Call.items) = applyAll mN mE G (th.flatMap Call.ops) := by
  induction th generalizing G with
  | nil => rfl
  | cons x th ih => rw [List.flatMap_cons, List.flatMap_cons, applyAll_append, applyAll_append, items_apply, ih]

/-- the operation may change the edge -/
def OnIt (t : Triple Id) : Op E Id NP EP → Prop
  | .insertEdge u _ | .removeEdge u | .mergeEdge u _ => t = u
  | .removeNode n => t.sub = n ∨ t.obj = n
  | _ => False

theorem items_onIt {t : Triple Id} (x : Call E Id NP EP) (op : Op E Id NP EP) (h : op ∈ x.items) (ht : OnIt t op) : x.TouchesEdge t := by
  cases x with
  | extend u src =>
    simp only [Call.items, List.mem_append] at h
    rcases h with h | h
    · obtain ⟨y, -, rfl⟩ := List.mem_map.1 h; cases ht
    · split at h
      · cases h
      · obtain ⟨y, hy, rfl⟩ := List.mem_map.1 h
        have ht : t = y.1 := ht
        subst ht
        exact ⟨y.2, mem_oks hy⟩
  | merge g src =>
    simp only [Call.items, Call.ops, List.mem_append] at h
    rcases h with h | h
    · obtain ⟨y, -, rfl⟩ := List.mem_map.1 h; cases ht
    · split at h
      · cases h
      · obtain ⟨y, hy, rfl⟩ := List.mem_map.1 h
        have ht : t = y.1 := ht
        subst ht
        exact ⟨y.2, mem_oks hy⟩
  | _ => cases List.mem_singleton.1 h; exact ht

open Classical in
theorem apply_filter {t : Triple Id} (l : List (Op E Id NP EP)) (hl : ∀ op ∈ l, Single op) (G : Graph Id NP EP) :
    (applyAll mN mE G l).edges t = (applyAll mN mE G (l.filter (fun op => decide (OnIt t op)))).edges t := by
  induction l generalizing G with
  | nil => rfl
  | cons op l ih =>
    have ih := ih (fun o ho => hl o (List.mem_cons_of_mem _ ho))
    by_cases h : OnIt t op
    · rw [List.filter_cons_of_pos (by simpa using h)]
      exact ih _
    · rw [List.filter_cons_of_neg (by simpa using h)]
      have e : (op.apply mN mE G).edges t = G.edges t := by
        have h1 := hl op List.mem_cons_self
        cases op with
        | extend src => exact h1.elim
        | merge src => exact h1.elim
        | insertNode n p => rfl
        | mergeNode n p => rfl
        | insertEdge u p => exact if_neg h
        | removeEdge u => exact if_neg h
        | mergeEdge u p => exact if_neg h
        | removeNode n => exact if_neg h
      exact (applyAll_edges t l _ _ e).trans (ih G)

open Classical in
theorem apply_shuffle {t : Triple Id} {threads pre post : List (List (Call E Id NP EP))} {th : List (Call E Id NP EP)}
    (he : threads = pre ++ th :: post) (ho : ∀ th' ∈ pre ++ post, ∀ x ∈ th', ¬ x.TouchesEdge t) {l : List (Op E Id NP EP)}
    (hs : Shuffle false (threads.map (List.flatMap Call.items)) l) (G : Graph Id NP EP) :
    (applyAll mN mE G l).edges t = (applyAll mN mE G (th.flatMap Call.ops)).edges t := by
  rw [apply_filter l (items_shuffled hs), ← items_applyAll, apply_filter (th.flatMap Call.items) (fun op hop => by
    obtain ⟨x, -, hx⟩ := List.mem_flatMap.1 hop
    exact items_single x op hx)]
  rw [shuffle_filter hs (pre := pre.map (List.flatMap Call.items)) (post := post.map (List.flatMap Call.items))
    (mine := th.flatMap Call.items) (by rw [he]; simp) (fun k hk op hop => ?_)]
  rw [← List.map_append] at hk
  obtain ⟨th', hth', rfl⟩ := List.mem_map.1 hk
  obtain ⟨x, hx, hop⟩ := List.mem_flatMap.1 hop
  exact decide_eq_false (fun h => ho th' hth' x hx (items_onIt x op hop h))

/-- An edge that an extend writes is touched by one thread only. -/
theorem extended_alone {threads : List (List (Call E Id NP EP))} (ha : ExtendsAlone threads) {t : Triple Id} (ht : Extended threads t) :
    ∃ pre th post, threads = pre ++ th :: post ∧ ∀ th' ∈ pre ++ post, ∀ x ∈ th', ¬ x.TouchesEdge t := by
  obtain ⟨th, hth, x, hx, h1, h2⟩ := ht
  obtain ⟨pre, post, rfl⟩ := List.append_of_mem hth
  refine ⟨pre, th, post, rfl, fun th' hth' y hy h3 => ?_⟩
  unfold ExtendsAlone at ha
  rw [List.pairwise_append, List.pairwise_cons] at ha
  obtain ⟨-, ⟨a1, -⟩, a2⟩ := ha
  rcases List.mem_append.1 hth' with h | h
  · exact a2 th' h th List.mem_cons_self y hy x hx (.inr h1) t ⟨h3, h2⟩
  · exact a1 th' h x hx y hy (.inl h1) t ⟨h2, h3⟩

theorem own_programs (htot : c.Total) {t : Triple Id} {F : List Bytes} {L : Part} (G : Graph Id NP EP)
    (th : List (Prog Db Unit × Call E Id NP EP)) (hf : ∀ e ∈ th, FineX c mN mE b Own X e)
    (hL : Settled c L (G.edges t) (((th.map Prod.snd).flatMap Call.writes).map Prod.fst ++ F))
    (hnd : (((th.map Prod.snd).flatMap Call.writes).map Prod.fst ++ F).Nodup) :
    LocalAll (Neat c Own) (edgePart Own t) (th.map Prod.fst) L
      (fun L' => Settled c L' ((applyAll mN mE G ((th.map Prod.snd).flatMap Call.ops)).edges t) F) := by
  induction th generalizing L G with
  | nil => exact hL
  | cons x th ih =>
    rw [List.map_cons, List.flatMap_cons, List.map_append, List.append_assoc] at hL hnd
    refine ((hf x List.mem_cons_self).own htot t _ L G hL hnd).mono (fun _ L' hL' => ?_)
    have := ih (applyAll mN mE G x.2.ops) (fun y hy => hf y (List.mem_cons_of_mem _ hy)) hL' (List.nodup_append.1 hnd).2.1
    rw [List.map_cons, List.flatMap_cons, applyAll_append]
    exact this

theorem alone_from (htot : c.Total) (h0 : Neat c Own d0)
    (hf : ∀ th ∈ ths, ∀ e ∈ th, FineX c mN mE b Own X e) {t : Triple Id} {pre post : List (List (Call E Id NP EP))}
    {th : List (Call E Id NP EP)} (he : ths.calls = pre ++ th :: post) (ho : ∀ th' ∈ pre ++ post, ∀ x ∈ th', ¬ x.TouchesEdge t)
    {G : Graph Id NP EP} (hL : Settled c (edgePart Own t d0) (G.edges t) ((th.flatMap Call.writes).map Prod.fst))
    (hnd : ((th.flatMap Call.writes).map Prod.fst).Nodup)
    {d : Db} {r : List (List (Prog Db Unit))} (hs : CalmSteps (d0, ths.start) (d, r)) (hr : ∀ th ∈ r, th = []) :
    Settled c (edgePart Own t d) ((applyAll mN mE G (th.flatMap Call.ops)).edges t) [] := by
  have he' := he
  unfold Programs.calls at he'
  obtain ⟨P, Q', rfl, hP, hQ⟩ := List.map_eq_append_iff.1 he'
  obtain ⟨mine, Q, rfl, hm, hQ⟩ := List.map_eq_cons_iff.1 hQ
  have other : ∀ q ∈ P ++ Q, ∀ e ∈ q, ¬ e.2.TouchesEdge t := by
    intro q hq e he
    refine ho (q.map Prod.snd) ?_ e.2 (List.mem_map_of_mem he)
    rw [← hP, ← hQ, ← List.map_append]
    exact List.mem_map_of_mem hq
  have split : ∀ (j : Nat) q, (Programs.start (P ++ mine :: Q))[j]? = some q → ∃ th', (P ++ mine :: Q)[j]? = some th' ∧ q = th'.map Prod.fst := by
    intro j q hq
    unfold Programs.start at hq
    rw [List.getElem?_map] at hq
    cases e : (P ++ mine :: Q)[j]? with
    | none => rw [e] at hq; cases hq
    | some th => rw [e] at hq; cases hq; exact ⟨th, rfl, rfl⟩
  have hmine : (P ++ mine :: Q)[P.length]? = some mine := by simp
  obtain ⟨-, -, h3⟩ := local_steps (J := Neat c Own)
    (loc := edgePart Own t) (i := P.length)
    (Q := fun L' => Settled c L' ((applyAll mN mE G (th.flatMap Call.ops)).edges t) []) hs h0 (by
      intro j q hq hj p hp
      obtain ⟨th', hth', rfl⟩ := split j q hq
      obtain ⟨x, hx', rfl⟩ := List.mem_map.1 hp
      refine (hf th' (List.mem_of_getElem? hth') x hx').within.edge (other th' ?_ x hx')
      rcases Nat.lt_or_ge j P.length with h | h
      · rw [List.getElem?_append_left h] at hth'
        exact List.mem_append_left _ (List.mem_of_getElem? hth')
      · rw [List.getElem?_append_right h] at hth'
        obtain ⟨i, hi⟩ : ∃ i, j - P.length = i + 1 := ⟨j - P.length - 1, by omega⟩
        rw [hi, List.getElem?_cons_succ] at hth'
        exact List.mem_append_right _ (List.mem_of_getElem? hth')) (by
      intro q hq
      obtain ⟨th', hth', rfl⟩ := split P.length q hq
      rw [hmine] at hth'; cases hth'
      rw [← hm]
      refine own_programs htot G mine (hf mine (by simp)) ?_ ?_ <;> rwa [hm, List.append_nil])
  have hlen : r.length = (P ++ mine :: Q).length := by
    have : ∀ {x y : Db × List (List (Prog Db Unit))}, CalmSteps x y → y.2.length = x.2.length := by
      intro x y h
      induction h with
      | refl => rfl
      | tail _ h ih => cases h <;> simpa using ih
    exact (this hs).trans (List.length_map _)
  have hri : r[P.length]? = some [] := by
    have : P.length < r.length := by rw [hlen]; simp
    rw [List.getElem?_eq_getElem this, hr _ (List.getElem_mem this)]
  exact h3 [] hri

theorem alone_programs (htot : c.Total) (h0 : d0.Inv Id c) (hd : DistinctIds d0 ths.calls)
    (hf : ∀ th ∈ ths, ∀ e ∈ th, FineX c mN mE b (owner d0 (allWrites ths.calls)) X e) {t : Triple Id} {pre post : List (List (Call E Id NP EP))}
    {th : List (Call E Id NP EP)} (he : ths.calls = pre ++ th :: post) (ho : ∀ th' ∈ pre ++ post, ∀ x ∈ th', ¬ x.TouchesEdge t)
    {d : Db} {r : List (List (Prog Db Unit))} (hs : CalmSteps (d0, ths.start) (d, r)) (hr : ∀ th ∈ r, th = []) :
    Settled c (edgePart (owner d0 (allWrites ths.calls)) t d) ((applyAll mN mE (d0.graph c) (th.flatMap Call.ops)).edges t) [] := by
  have hsub := thread_writes (threads := ths.calls) (th := th) (by rw [he]; simp)
  exact alone_from htot (neat_start h0 hd) hf he ho (settled_start h0 hd t _ (fun v hv => hsub.subset hv)) (hsub.nodup hd.1) hs hr

theorem fit_programs (h0 : d0.Inv Id c) (hd : DistinctIds d0 ths.calls)
    (hf : ∀ th ∈ ths, ∀ e ∈ th, FineX c mN mE b (owner d0 (allWrites ths.calls)) X e) (ha : ExtendsAlone ths.calls)
    {y : Db × List (List (Prog Db Unit))} (hst : Steps (d0, ths.start) y) : ∃ X, Fit c (owner d0 (allWrites ths.calls)) y.1 X := by
  have h := (fitRG c (owner d0 (allWrites ths.calls))).good_steps (x := (d0, ths.start))
    ⟨fun v => ∃ t : Triple Id, d0.idIn .SPO t = some v,
      ths.map (fun th => th.map (fun x => (x.1, x.2.label))), ?_, ⟨neat_start h0 hd, ?_⟩, ?_, ?_⟩ hst
  · obtain ⟨X, _, _, h, _⟩ := h
    exact ⟨X, h⟩
  · simp [Programs.start, Function.comp_def]
  · intro o t v hv
    have hv : d0.idIn o t = some v := hv
    rw [h0.same] at hv
    obtain ⟨b, p, h1, -⟩ := h0.recs _ _ hv
    exact ⟨⟨t, hv⟩, b, h1⟩
  · have nd : ∀ th ∈ ths, th.Pairwise (fun x y => ∀ v ∈ x.2.writes.map Prod.fst, v ∉ y.2.writes.map Prod.fst) ∧
        ∀ x ∈ th, (x.2.writes.map Prod.fst).Nodup := by
      intro th hth
      have h1 := hd.1
      unfold allWrites at h1
      rw [List.map_flatMap, List.nodup_flatMap] at h1
      have hth' : th.map Prod.snd ∈ ths.calls := List.mem_map_of_mem hth
      refine ⟨?_, fun x hx => h1.1 x.2 (List.mem_flatten.2 ⟨_, hth', List.mem_map_of_mem hx⟩)⟩
      have h2 := (List.pairwise_flatten.1 h1.2).1 _ hth'
      rw [List.pairwise_map] at h2
      exact h2.imp (fun {a b} hab => fun v hv hv' => hab hv hv')
    intro q hq
    obtain ⟨th, hth, rfl⟩ := List.mem_map.1 hq
    have safe : ∀ x ∈ th, ∀ y, (fitRG c (owner d0 (allWrites ths.calls))).Safe x.1 x.2.label y := fun x hx y =>
      (hf th hth x hx).fit ((nd th hth).2 x hx) y
    have unused : ∀ x ∈ th, ∀ v ∈ x.2.label.ids, ¬ ∃ t : Triple Id, d0.idIn .SPO t = some v := by
      rintro x hx v hv ⟨t, ht⟩
      obtain ⟨y, hy, rfl⟩ := List.mem_map.1 hv
      obtain ⟨b, p, hb, -⟩ := h0.recs _ _ ht
      rw [hd.2 y (List.mem_flatMap.2 ⟨x.2, List.mem_flatten.2 ⟨_, List.mem_map_of_mem hth, List.mem_map_of_mem hx⟩, hy⟩)] at hb
      cases hb
    have np := (nd th hth).1
    clear hq hth
    cases th with
    | nil => trivial
    | cons x th =>
      refine ⟨safe x (by simp) _, ?_, ?_, ?_⟩
      · intro e he y
        obtain ⟨z, hz, rfl⟩ := List.mem_map.1 he
        exact safe z (List.mem_cons_of_mem _ hz) y
      · rw [← List.map_cons (f := fun x : Prog Db Unit × Call E Id NP EP => (x.1, x.2.label)), List.pairwise_map]
        exact np
      · intro e he
        rw [← List.map_cons (f := fun x : Prog Db Unit × Call E Id NP EP => (x.1, x.2.label))] at he
        obtain ⟨z, hz, rfl⟩ := List.mem_map.1 he
        exact unused z hz
  · rw [List.pairwise_map]
    have h1 := hd.1
    unfold allWrites at h1
    rw [List.map_flatMap, List.nodup_flatMap] at h1
    have h2 := (List.pairwise_flatten.1 h1.2).2
    unfold ExtendsAlone at ha
    unfold Programs.calls at ha h2
    rw [List.pairwise_map] at ha h2
    refine (h2.and ha).imp (fun {th th'} h => ?_)
    intro e he e' he'
    obtain ⟨x, hx, rfl⟩ := List.mem_map.1 he
    obtain ⟨x', hx', rfl⟩ := List.mem_map.1 he'
    have hal := h.2 x.2 (List.mem_map_of_mem hx) x'.2 (List.mem_map_of_mem hx')
    have h := h.1 x.2 (List.mem_map_of_mem hx) x'.2 (List.mem_map_of_mem hx')
    refine ⟨⟨fun v hv hv' => h hv hv', fun t => ⟨fun h1 h2 => ?_, fun h1 h2 => ?_⟩⟩,
      ⟨fun v hv hv' => h hv' hv, fun t => ⟨fun h1 h2 => ?_, fun h1 h2 => ?_⟩⟩⟩
    · exact hal (.inl h1.1) t ⟨h1.2, h2⟩
    · exact hal (.inr h1.1) t ⟨h2, h1.2⟩
    · exact hal (.inr h1.1) t ⟨h2, h1.2⟩
    · exact hal (.inl h1.1) t ⟨h1.2, h2⟩

/-- all threads have finished -/
theorem bulk_done (htot : c.Total) (h0 : d0.Inv Id c) (hd : DistinctIds d0 ths.calls)
    (hf : ∀ th ∈ ths, ∀ e ∈ th, FineX c mN mE false (owner d0 (allWrites ths.calls)) (Extended ths.calls) e)
    (ha : ExtendsAlone ths.calls) (hr : NoRace ths.calls) (hn : NoNodeRace ths.calls) {d : Db} {r : List (List (Prog Db Unit))}
    (hs : CalmSteps (d0, ths.start) (d, r)) (he : ∀ th ∈ r, th = []) :
    ∃ l, Shuffle false (ths.calls.map (List.flatMap Call.items)) l ∧ d.Inv Id c ∧
      d.graph c = stepAll c.okN c.okE mN mE (d0.graph c) l := by
  have hown := owner_fun h0 hd.1 hd.2
  obtain ⟨hi, l, h1, h2, h3⟩ := bulk_final (neat_start h0 hd) (fun t _ o => h0.same o t) hf hr hn hs he
  obtain ⟨X, fit⟩ := fit_programs h0 hd hf ha hs.steps
  have hX : ∀ t, Extended ths.calls t → Settled c (edgePart (owner d0 (allWrites ths.calls)) t d)
      ((stepAll c.okN c.okE mN mE (d0.graph c) l).edges t) [] := by
    intro t ht
    obtain ⟨pre, th, post, e, ho⟩ := extended_alone ha ht
    have total : stepAll c.okN c.okE mN mE (d0.graph c) l = applyAll mN mE (d0.graph c) l :=
      stepAll_total htot.1 htot.2 mN mE _ _
    rw [total, apply_shuffle e ho h1]
    exact alone_programs htot h0 hd hf e ho hs he
  have same : ∀ o (t : Triple Id), d.idIn o t = d.idIn .SPO t := by
    intro o t
    by_cases ht : Extended ths.calls t
    · rcases (hX t ht).val with ⟨h1, -⟩ | ⟨v, b, p, h1, -, -, -⟩
      · exact (h1 o).trans (h1 .SPO).symm
      · exact (h1 o).trans (h1 .SPO).symm
    · exact hi.same t ht o
  refine ⟨l, h1, ⟨⟨hi.neat.keys, same⟩, hi.neat.nodes, fit.recsOk .SPO,
    fun t u v h1 h2 => hown v t u (hi.neat.refs _ _ _ h1) (hi.neat.refs _ _ _ h2)⟩, Graph.ext' h2 (fun t => ?_)⟩
  by_cases ht : Extended ths.calls t
  · exact (hX t ht).view .SPO
  · exact h3 t ht

/-- at any moment -/
theorem bulk_calls_moment {cs : List (List (Call E Id NP EP))} (e : ths.calls = cs) (h0 : d0.Inv Id c) (hd : DistinctIds d0 cs)
    (hf : ∀ th ∈ ths, ∀ e ∈ th, FineX c mN mE true (owner d0 (allWrites cs)) (Extended cs) e) (hr : NoRace cs)
    (hn : NoNodeRace cs) {d : Db} {r : List (List (Prog Db Unit))} (hs : Steps (d0, ths.start) (d, r)) :
    ∃ l, Shuffle true (cs.map (List.flatMap Call.items)) l ∧
      (∀ n p, .ok (n, p) ∈ iterVertices Id c d ↔ (stepAll c.okN c.okE mN mE (d0.graph c) l).nodes n = some p) ∧
      ∀ o t p, ¬ Extended cs t →
        (.ok (t, p) ∈ iterEdges Id c d o ↔ (stepAll c.okN c.okE mN mE (d0.graph c) l).edges t = some p) := by
  subst e
  obtain ⟨hi, l, h1, h2, h3⟩ := bulk_moment (neat_start h0 hd) (fun t _ o => h0.same o t) hf hr hn hs
  refine ⟨l, h1, fun n p => ?_, fun o t p ht => ?_⟩
  · rw [mem_iterVertices hi.neat.nodes, h2]
  · rw [mem_iterEdges (hi.neat.keys o), ← h3 t ht]
    show d.view c o t = _ ↔ d.view c .SPO t = _
    unfold Db.view
    rw [hi.same t ht o]

/-- in the end -/
theorem bulk_calls_done {cs : List (List (Call E Id NP EP))} (e : ths.calls = cs) (htot : c.Total) (h0 : d0.Inv Id c)
    (hd : DistinctIds d0 cs) (hf : ∀ th ∈ ths, ∀ e ∈ th, FineX c mN mE false (owner d0 (allWrites cs)) (Extended cs) e)
    (ha : ExtendsAlone cs) (hr : NoRace cs) (hn : NoNodeRace cs) {d : Db} {r : List (List (Prog Db Unit))}
    (hs : CalmSteps (d0, ths.start) (d, r)) (he : ∀ th ∈ r, th = []) :
    ∃ l, Shuffle false (cs.map (List.flatMap Call.items)) l ∧
      Shows (Sled.obs c d) (stepAll c.okN c.okE mN mE (d0.graph c) l) := by
  subst e
  obtain ⟨l, h1, h2, h3⟩ := bulk_done htot h0 hd hf ha hr hn hs he
  exact ⟨l, h1, by rw [← h3]; exact Sled.shows h2⟩

theorem fineX_pieces (hc : c.RoundTrip) (hb : b = true ∨ c.Total) {threads : List (List (PieceCall E Id NP EP))} (h0 : d0.Inv Id c)
    (hd : DistinctIds d0 (calls threads)) (hx : ∀ th ∈ threads, ∀ x ∈ th, ¬ x.1.IsScan) :
    ∀ th ∈ threads.map (List.map (fun x => (x.prog c mN mE, x.1))), ∀ e ∈ th,
      FineX c mN mE b (owner d0 (allWrites (calls threads))) (Extended (calls threads)) e := by
  intro th hth e he
  obtain ⟨th, hth', rfl⟩ := List.mem_map.1 hth
  obtain ⟨x, hx', rfl⟩ := List.mem_map.1 he
  have hm : th.map Prod.fst ∈ calls threads := List.mem_map_of_mem hth'
  have hm' : x.1 ∈ th.map Prod.fst := List.mem_map_of_mem hx'
  exact fineX_piece hc hb (owner_fun h0 hd.1 hd.2) x (hx th hth' x hx') (writes_owned _ hm _ hm')
    (fun t h1 h2 => ⟨_, hm, _, hm', h1, h2⟩)

theorem fineX_calls (hc : c.RoundTrip) (hb : b = true ∨ c.Total) {threads : List (List (Call E Id NP EP))} (h0 : d0.Inv Id c)
    (hd : DistinctIds d0 threads) (hx : ∀ th ∈ threads, ∀ x ∈ th, ¬ x.IsScan) :
    ∀ th ∈ threads.map (List.map (fun x => (x.prog c mN mE, x))), ∀ e ∈ th,
      FineX c mN mE b (owner d0 (allWrites threads)) (Extended threads) e := by
  intro th hth e he
  obtain ⟨th, hm, rfl⟩ := List.mem_map.1 hth
  obtain ⟨x, hm', rfl⟩ := List.mem_map.1 he
  exact fineX_call hc hb (owner_fun h0 hd.1 hd.2) x (hx th hm x hm') (writes_owned _ hm _ hm')
    (fun t h1 h2 => ⟨_, hm, _, hm', h1, h2⟩)

end Sled

end Verif
