import Verif.Proof.MemEq

/-! # Every reachable in-memory store satisfies the invariant -/

set_option linter.unusedSectionVars false

namespace Verif

theorem Spec.RepresentsSorted.represents {E Id NP EP : Type} [LinearOrder Id] {src : Source E Id NP EP}
    {H : Spec.Graph Id NP EP} (h : Spec.RepresentsSorted src H) : Spec.Represents src H := by
  obtain ⟨⟨l, h1, h2⟩, l', h1', h2'⟩ := h
  exact ⟨⟨l, h1, Lists.nodup (fun _ => lt_irrefl _) h2, h2.2⟩, l', h1', Lists.nodup (edgeLT_irrefl .SPO) h2', h2'.2⟩

open Spec ConcreteId

/-- An invariant indexed by the number of items the loop may still handle. -/
theorem walk_inv {σ A B E : Type} {ltAB : A → B → Bool} {ltBA : B → A → Bool}
    {onL : σ → A → σ} {onR : σ → B → σ} {onB : σ → A → B → σ} (P : Nat → σ → Prop)
    (hL : ∀ k st a, P (k + 1) st → P k (onL st a)) (hR : ∀ k st b, P k st → P k (onR st b))
    (hB : ∀ k st a b, P (k + 1) st → P k (onB st a b)) (st : σ) (cur : Option A) (it : List (Except E A))
    (ocur : Option B) (oit : List (Except E B)) (w : WalkEnd σ A E)
    (hw : walk ltAB ltBA onL onR onB st cur it ocur oit = .ok w)
    (h : P (it.length + if cur.isSome then 1 else 0) st) :
    P (w.rest.length + if w.cur.isSome then 1 else 0) w.st := by
  fun_induction walk ltAB ltBA onL onR onB st cur it ocur oit with
  | case1 => cases hw
  | case2 st it oit l r hlt cur' it' hn ih =>
    refine ih hw ?_
    rw [nextItem_len hn]
    exact hL _ _ _ (by simpa using h)
  | case3 => cases hw
  | case4 st it oit l r hlt hgt cur' it' hn ih => exact ih hw (hR _ _ _ h)
  | case5 => cases hw
  | case6 => cases hw
  | case7 st it oit l r hlt hgt cur' it' hn ocur' oit' hn' ih =>
    refine ih hw ?_
    rw [nextItem_len hn]
    exact hB _ _ _ _ (by simpa using h)
  | case8 => cases hw; exact h

theorem drain_inv {σ A E : Type} {onL : σ → A → σ} (P : Nat → σ → Prop)
    (hL : ∀ k st a, P (k + 1) st → P k (onL st a)) (hmono : ∀ k st, P (k + 1) st → P k st)
    (st : σ) (cur : Option A) (it : List (Except E A))
    (st' : σ) (hw : drain onL st cur it = .ok st')
    (h : P (it.length + if cur.isSome then 1 else 0) st) : P 0 st' := by
  have down : ∀ k st, P k st → P 0 st := by
    intro k
    induction k with
    | zero => exact fun _ h => h
    | succ k ih => exact fun st h => ih st (hmono _ _ h)
  induction it generalizing st cur with
  | nil =>
    cases cur with
    | none => cases hw; exact down _ _ h
    | some l => cases hw; exact hL _ _ _ h
  | cons x it ih =>
    cases cur with
    | none => cases hw; exact down _ _ h
    | some l =>
      cases x with
      | error e => cases hw
      | ok a => exact ih _ _ hw (hL _ _ _ (by simpa using h))

namespace Mem

variable {Id NP EP E : Type} [LinearOrder Id] [ConcreteId Id] [LawfulId Id]

/-- invariant and budget, whatever the graph -/
def OkE (n : Nat) (s : Mem Id NP EP) : Prop := Inv s ∧ GenOk n s

theorem OkE.ok {n : Nat} {s : Mem Id NP EP} (h : OkE n s) : Ok n s s.graph := ⟨h.1, h.2, rfl⟩
theorem Ok.okE {n : Nat} {s : Mem Id NP EP} {G : Graph Id NP EP} (h : Ok n s G) : OkE n s := ⟨h.inv, h.gen⟩
theorem OkE.mono {n m : Nat} {s : Mem Id NP EP} (h : OkE n s) (hm : m ≤ n) : OkE m s := ⟨h.1, h.2.mono hm⟩

theorem okE_insertNode {n : Nat} {s : Mem Id NP EP} (h : OkE n s) (x : Id) (p : NP) :
    OkE n (s.insertNode x p) := (ok_insertNode n s _ x p h.ok).okE

theorem okE_insertEdge {n : Nat} {s : Mem Id NP EP} (h : OkE (n + 1) s) (x : Triple Id) (p : EP) :
    OkE n (s.insertEdge x p) := (ok_insertEdge n s _ x p h.ok).okE

theorem okE_new {n : Nat} {g : Gen Id} (h : Fresh n g) : OkE n (new g : Mem Id NP EP) := (ok_new h).okE

theorem okE_union {n : Nat} {s r : Mem Id NP EP} {g : Gen Id} {other : Source E Id NP EP}
    (hg : Fresh (n + s.edgeCount + other.edges.length) g) (hr : s.union g other = .ok r) : OkE n r := by
  rw [union_eq] at hr
  split at hr
  · cases hr
  · cases hr
    have h1 := fold_free (fun (r : Mem Id NP EP) (x : Id × NP) => r.insertNode x.1 x.2)
      (fun G x => G.insertNode x.1 x.2) (fun n s G a h => ok_insertNode n s G a.1 a.2 h)
      (ok_new (NP := NP) (EP := EP) hg) s.nodeProps.entries
    have h2 := fold_cost (fun (r : Mem Id NP EP) (x : Triple Id × EP) => r.insertEdge x.1 x.2)
      (fun G x => G.insertEdge x.1 x.2) (fun n s G a h => ok_insertEdge n s G a.1 a.2 h)
      (n := n + other.edges.length) (s.edgeList .SPO) (h1.mono (by rw [edgeCount_eq]; omega))
    have h3 := fold_free (fun (r : Mem Id NP EP) (x : Id × NP) => r.insertNode x.1 x.2)
      (fun G x => G.insertNode x.1 x.2) (fun n s G a h => ok_insertNode n s G a.1 a.2 h) h2
      (okPrefix other.nodes)
    have h4 := fold_cost (fun (r : Mem Id NP EP) (x : Triple Id × EP) => r.insertEdge x.1 x.2)
      (fun G x => G.insertEdge x.1 x.2) (fun n s G a h => ok_insertEdge n s G a.1 a.2 h)
      (n := n) (okPrefix other.edges) (h3.mono (by have := okPrefix_length other.edges; omega))
    exact h4.okE

theorem errLeft_length {α : Type} (l : List (Except Unit α)) : (errLeft (E := E) l).length = l.length := by
  simp [errLeft]

theorem okE_intersection {n : Nat} {s r : Mem Id NP EP} {g : Gen Id} {other : Source E Id NP EP}
    (hg : Fresh (n + s.edgeCount) g) (hr : s.intersection g other = .ok r) : OkE n r := by
  unfold intersection at hr
  simp only at hr
  split at hr
  · cases hr
  rename_i c1 i1 hn1
  split at hr
  · cases hr
  rename_i c2 i2 hn2
  split at hr
  · cases hr
  rename_i w hw
  split at hr
  · cases hr
  rename_i c3 i3 hn3
  split at hr
  · cases hr
  rename_i c4 i4 hn4
  split at hr
  · cases hr
  rename_i w' hw'
  cases hr
  have h1 := walk_inv (fun _ st => OkE (n + s.edgeCount) st) (fun _ _ _ h => h) (fun _ _ _ h => h)
    (fun _ _ _ _ h => okE_insertNode h _ _) _ _ _ _ _ _ hw (okE_new hg)
  have h2 := walk_inv (fun k st => OkE (n + k) st) (fun k _ _ h => h.mono (by omega)) (fun _ _ _ h => h)
    (fun k st a b h => okE_insertEdge h _ _) _ _ _ _ _ _ hw' (by
      rw [nextItem_len hn3, errLeft_length, into_eq, List.length_map, ← edgeCount_eq]; exact h1)
  exact h2.mono (by omega)

theorem okE_difference {n : Nat} {s r : Mem Id NP EP} {g : Gen Id} {other : Source E Id NP EP}
    (hg : Fresh (n + s.edgeCount) g) (hr : s.difference g other = .ok r) : OkE n r := by
  unfold difference at hr
  simp only at hr
  split at hr
  · cases hr
  rename_i c1 i1 hn1
  split at hr
  · cases hr
  rename_i c2 i2 hn2
  split at hr
  · cases hr
  rename_i w hw
  split at hr
  · cases hr
  rename_i s1 hs1
  split at hr
  · cases hr
  rename_i c3 i3 hn3
  split at hr
  · cases hr
  rename_i c4 i4 hn4
  split at hr
  · cases hr
  rename_i w' hw'
  have h1 := walk_inv (fun _ (st : Mem Id NP EP × HSet Id) => OkE (n + s.edgeCount) st.1)
    (onL := fun st l => (st.1.insertNode l.1 l.2, st.2)) (onR := fun st r => (st.1, st.2.insert r.1))
    (onB := fun st _ r => (st.1, st.2.insert r.1))
    (fun _ _ _ h => okE_insertNode h _ _) (fun _ _ _ h => h)
    (fun _ _ _ _ h => h) (new g, []) c1 i1 c2 i2 w hw (okE_new hg)
  have h2 := drain_inv (fun _ (st : Mem Id NP EP) => OkE (n + s.edgeCount) st)
    (fun _ _ _ h => okE_insertNode h _ _) (fun _ _ h => h) _ _ _ _ hs1 h1
  have h3 := walk_inv (fun k st => OkE (n + k) st) (fun k st a h => by
      split
      · exact okE_insertEdge h _ _
      · exact h.mono (by omega)) (fun _ _ _ h => h)
    (fun k st a b h => h.mono (by omega)) _ _ _ _ _ _ hw' (by
      rw [nextItem_len hn3, errLeft_length, into_eq, List.length_map, ← edgeCount_eq]; exact h2)
  exact drain_inv (fun k st => OkE (n + k) st) (fun k st a h => okE_insertEdge h _ _)
    (fun k st h => h.mono (by omega)) _ _ _ _ hr h3

/-! ## agreement of the orderings, without any assumption on the generators -/

theorem agree_new (g : Gen Id) : Agree (new g : Mem Id NP EP) := (inv_new g).toAgree

theorem agree_insertNode {s : Mem Id NP EP} (h : Agree s) (x : Id) (p : NP) : Agree (s.insertNode x p) := by
  rw [insertNode_eq]; exact ⟨h.pos, h.osp⟩

theorem agree_foldl {α : Type} {f : Mem Id NP EP → α → Mem Id NP EP} (hf : ∀ s a, Agree s → Agree (f s a))
    (l : List α) {s : Mem Id NP EP} (h : Agree s) : Agree (l.foldl f s) := by
  induction l generalizing s with
  | nil => exact h
  | cons a l ih => exact ih (hf _ _ h)

theorem agree_run (s : Mem Id NP EP) (g : Gen Id) (q : Query Id) : Agree (s.run g q) := by
  have hr : ∀ (r : Mem Id NP EP) (dec : TKey Id → Triple Id) (l : List (TKey Id × Id)), Agree r →
      Agree (s.addRange dec r l) := by
    intro r dec l h
    unfold addRange
    refine agree_foldl (fun r e h => ?_) l h
    split
    · exact insertEdge_agree h _ _
    · exact h
  cases q <;> simp only [run] <;> refine agree_foldl (fun r x h => ?_) _ (agree_new g)
  case NodeProps =>
    split
    · exact ⟨h.pos, h.osp⟩
    · exact h
  case SPO =>
    split
    · split
      · exact insertEdge_agree h _ _
      · exact h
    · exact h
  all_goals exact hr _ _ _ h

theorem agree_union {s r : Mem Id NP EP} {g : Gen Id} {other : Source E Id NP EP}
    (hr : s.union g other = .ok r) : Agree r := by
  rw [union_eq] at hr
  split at hr
  · cases hr
  · cases hr
    exact agree_foldl (fun _ _ h => insertEdge_agree h _ _) _ (agree_foldl (fun _ _ h => agree_insertNode h _ _) _
      (agree_foldl (fun _ _ h => insertEdge_agree h _ _) _ (agree_foldl (fun _ _ h => agree_insertNode h _ _) _
        (agree_new g))))

theorem agree_intersection {s r : Mem Id NP EP} {g : Gen Id} {other : Source E Id NP EP}
    (hr : s.intersection g other = .ok r) : Agree r := by
  unfold intersection at hr
  simp only at hr
  split at hr
  · cases hr
  split at hr
  · cases hr
  split at hr
  · cases hr
  rename_i w hw
  split at hr
  · cases hr
  split at hr
  · cases hr
  split at hr
  · cases hr
  rename_i w' hw'
  cases hr
  have h1 := walk_inv (fun _ st => Agree st) (fun _ _ _ h => h) (fun _ _ _ h => h)
    (fun _ _ _ _ h => agree_insertNode h _ _) _ _ _ _ _ _ hw (agree_new g)
  exact walk_inv (fun k st => Agree st) (fun k _ _ h => h) (fun _ _ _ h => h)
    (fun k st a b h => insertEdge_agree h _ _) _ _ _ _ _ _ hw' h1

theorem agree_difference {s r : Mem Id NP EP} {g : Gen Id} {other : Source E Id NP EP}
    (hr : s.difference g other = .ok r) : Agree r := by
  unfold difference at hr
  simp only at hr
  split at hr
  · cases hr
  rename_i c1 i1 hn1
  split at hr
  · cases hr
  rename_i c2 i2 hn2
  split at hr
  · cases hr
  rename_i w hw
  split at hr
  · cases hr
  rename_i s1 hs1
  split at hr
  · cases hr
  split at hr
  · cases hr
  split at hr
  · cases hr
  rename_i w' hw'
  have h1 := walk_inv (fun _ (st : Mem Id NP EP × HSet Id) => Agree st.1)
    (onL := fun st l => (st.1.insertNode l.1 l.2, st.2)) (onR := fun st r => (st.1, st.2.insert r.1))
    (onB := fun st _ r => (st.1, st.2.insert r.1))
    (fun _ _ _ h => agree_insertNode h _ _) (fun _ _ _ h => h)
    (fun _ _ _ _ h => h) (new g, []) c1 i1 c2 i2 w hw (agree_new g)
  have h2 := drain_inv (fun _ (st : Mem Id NP EP) => Agree st)
    (fun _ _ _ h => agree_insertNode h _ _) (fun _ _ h => h) _ _ _ _ hs1 h1
  have h3 := walk_inv (fun k st => Agree st) (fun k st a h => by
      split
      · exact insertEdge_agree h _ _
      · exact h) (fun _ _ _ h => h)
    (fun k st a b h => h) _ _ _ _ _ _ hw' h2
  exact drain_inv (fun k st => Agree st) (fun k st a h => insertEdge_agree h _ _)
    (fun k st h => h) _ _ _ _ hr h3

theorem Built.agree {mN : NP → NP → NP} {mE : EP → EP → EP} {s : Mem Id NP EP} (h : Built E mN mE s) :
    Agree s := by
  induction h with
  | new g => exact agree_new g
  | op o h ih => exact apply_agree mN mE ih o
  | run h g q ih => exact agree_run _ g q
  | union h hr ih => exact agree_union hr
  | intersection h hr ih => exact agree_intersection hr
  | difference h hr ih => exact agree_difference hr

theorem Reach.built {mN : NP → NP → NP} {mE : EP → EP → EP} {n : Nat} {s : Mem Id NP EP}
    (h : Reach E mN mE n s) : Built E mN mE s := by
  induction h with
  | new hg => exact .new _
  | op o h ih => exact .op o ih
  | run h hg hq ih => exact .run ih _ _
  | union h hg hr ih => exact .union ih hr
  | intersection h hg hr ih => exact .intersection ih hr
  | difference h hg hr ih => exact .difference ih hr

theorem Built.graph_of_shows {mN : NP → NP → NP} {mE : EP → EP → EP} {s : Mem Id NP EP}
    {G : Graph Id NP EP} (h : Built E mN mE s) (hs : Shows s.obs G) : s.graph = G :=
  shows_unique (shows h.agree) hs

theorem Reach.okE {mN : NP → NP → NP} {mE : EP → EP → EP} {n : Nat} {s : Mem Id NP EP}
    (h : Reach E mN mE n s) : OkE n s := by
  induction h with
  | new hg => exact okE_new hg
  | op o h ih => exact (ok_apply mN mE _ _ _ o ih.ok).okE
  | run h hg hq ih => exact (run_spec ih.1 _ hg _ hq).okE
  | union h hg hr ih => exact okE_union hg hr
  | intersection h hg hr ih => exact okE_intersection hg hr
  | difference h hg hr ih => exact okE_difference hg hr

theorem Reach.ok {mN : NP → NP → NP} {mE : EP → EP → EP} {n : Nat} {s : Mem Id NP EP}
    (h : Reach E mN mE n s) : Ok n s s.graph := h.okE.ok

theorem Reach.inv {mN : NP → NP → NP} {mE : EP → EP → EP} {n : Nat} {s : Mem Id NP EP}
    (h : Reach E mN mE n s) : Inv s := h.okE.1

/-- what a reachable store shows is its graph -/
theorem Reach.graph_of_shows {mN : NP → NP → NP} {mE : EP → EP → EP} {n : Nat} {s : Mem Id NP EP}
    {G : Graph Id NP EP} (h : Reach E mN mE n s) (hs : Shows s.obs G) : s.graph = G :=
  shows_unique (shows h.inv.toAgree) hs

theorem Reach.ok_of_shows {mN : NP → NP → NP} {mE : EP → EP → EP} {n : Nat} {s : Mem Id NP EP}
    {G : Graph Id NP EP} (h : Reach E mN mE n s) (hs : Shows s.obs G) : Ok n s G :=
  h.graph_of_shows hs ▸ h.ok

theorem Ok.shows {n : Nat} {s : Mem Id NP EP} {G : Graph Id NP EP} (h : Ok n s G) : Shows s.obs G :=
  h.graph ▸ Mem.shows h.inv.toAgree

theorem iterEdges_mem {s : Mem Id NP EP} (h : Agree s) (o : EdgeOrder) (t : Triple Id) (p : EP) :
    .ok (t, p) ∈ s.iterEdges o ↔ s.graph.edges t = some p := by
  rw [iterEdges_eq]; simp [(edgeList_lists h o).2]

theorem extend_ok {n : Nat} {s : Mem Id NP EP} {G H : Graph Id NP EP} {src : Source E Id NP EP}
    (h : Ok (n + src.edges.length) s G) (hr : Represents src H) :
    (s.extend src).2 = .ok () ∧ Ok n (s.extend src).1 (G.overlay H) := by
  have hk : Ok n (s.extend src).1 _ := ok_apply (fun a _ => a) (fun a _ => a) n s G (.extend src) h
  obtain ⟨⟨ln, hln, hnn, hmn⟩, ⟨le, hle, hne, hme⟩⟩ := hr
  constructor
  · rw [extend_eq, Source.firstErr, hln, hle, firstErr_map_ok, firstErr_map_ok]; rfl
  · refine hk.congr ?_
    simp only [Op.apply, Source.edgePrefix, Source.nodePrefix, hln, hle, firstErr_map_ok,
      okPrefix_map_ok]
    rw [foldl_insertNode hnn, foldl_insertEdge hne]
    refine Graph.ext' (fun m => ?_) (fun t => ?_)
    · simp [Graph.overlay, alGet_eq_of_lists hnn hmn]
    · simp [Graph.overlay, alGet_eq_of_lists hne hme]

/-- what iteration shows is determined by the graph -/
theorem obs_ext {a b : Mem Id NP EP} (ha : Agree a) (hb : Agree b) (h : a.graph = b.graph) : a.obs = b.obs := by
  have hn : a.nodeProps = b.nodeProps := by
    apply BMap.ext_get; intro k; exact congrFun (congrArg Graph.nodes h) k
  have he : a.iterEdges = b.iterEdges := by
    funext o
    rw [iterEdges_eq, iterEdges_eq]
    congr 1
    exact Lists.unique (edgeLT_irrefl o) (fun _ _ _ => edgeLT_trans o) (edgeList_lists ha o)
      (h ▸ edgeList_lists hb o)
  simp only [obs, iterVertices_eq, hn, he]

end Mem

end Verif
