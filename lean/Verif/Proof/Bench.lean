import Verif.Spec.Bench
import Verif.Proof.Conformance
import Verif.Proof.ConformanceLaw
import Verif.Proof.Query

/-! # The benchmarks run on lawful back-ends -/

namespace Verif.Bench

open Spec Conformance

variable {S X Q QX S' X' Q' QX' NP EP : Type}

theorem nodesOnly_insert (p : NP) (x : Ulid) (l : List Ulid) :
    (nodesOnly p l : Graph Ulid NP EP).insertNode x p = nodesOnly p (l ++ [x]) := by
  refine Graph.ext' (fun y => ?_) (fun _ => rfl)
  simp only [Graph.insertNode, nodesOnly, List.mem_append, List.mem_singleton]
  grind

theorem edgesOnly_insert (p : Triple Ulid → EP) (t : Triple Ulid) (l : List (Triple Ulid)) :
    (edgesOnly p l : Graph Ulid NP EP).insertEdge t (p t) = edgesOnly p (l ++ [t]) := by
  refine Graph.ext' (fun _ => rfl) (fun y => ?_)
  simp only [Graph.insertEdge, edgesOnly, List.mem_append, List.mem_singleton]
  grind

theorem nodesOnly_foldl (p : NP) (l k : List Ulid) :
    (k.map fun id => (id, p)).foldl (fun G x => G.insertNode x.1 x.2) (nodesOnly p l : Graph Ulid NP EP) = nodesOnly p (l ++ k) := by
  induction k generalizing l with
  | nil => simp
  | cons x k ih => rw [List.map_cons, List.foldl_cons, nodesOnly_insert, ih, List.append_assoc, List.singleton_append]

theorem edgesOnly_foldl (p : EP) (l k : List (Triple Ulid)) :
    (k.map fun t => (t, p)).foldl (fun G x => G.insertEdge x.1 x.2) (edgesOnly (fun _ => p) l : Graph Ulid NP EP) =
      edgesOnly (fun _ => p) (l ++ k) := by
  induction k generalizing l with
  | nil => simp
  | cons x k ih =>
    rw [List.map_cons, List.foldl_cons, edgesOnly_insert (fun _ => p) x, ih, List.append_assoc, List.singleton_append]

theorem nodesOnly_nil (p : NP) : (nodesOnly p [] : Graph Ulid NP EP) = Graph.empty :=
  Graph.ext' (fun _ => rfl) (fun _ => rfl)

theorem edgesOnly_nil (p : Triple Ulid → EP) : (edgesOnly p [] : Graph Ulid NP EP) = Graph.empty :=
  Graph.ext' (fun _ => rfl) (fun _ => rfl)

section
variable {mem : Backend S X Q QX NP EP} {sled : Backend S' X' Q' QX' NP EP} {mN : NP → NP → NP} {mE : EP → EP → EP}
  {bad : X} {qbad : QX} {bad' : X'} {qbad' : QX'}
  {Ok : Nat → Nat → S → Graph Ulid NP EP → Prop} {QOk : Nat → Q → Graph Ulid NP EP → Prop}
  {Ok' : Nat → Nat → S' → Graph Ulid NP EP → Prop} {QOk' : Nat → Q' → Graph Ulid NP EP → Prop}
  (law : Law mem mN mE bad qbad Ok QOk) (law' : Law sled mN mE bad' qbad' Ok' QOk') {n m n' m' : Nat} {s : S} {s' : S'}
include law law'

theorem preloadNodes_ok (p : NP) (ids l : List Ulid) (h : Ok n m s (nodesOnly p l)) (h' : Ok' n' m' s' (nodesOnly p l)) :
    Passes (preloadNodes mem sled p ids (s, s')) fun x => Ok n m x.1 (nodesOnly p (l ++ ids)) ∧ Ok' n' m' x.2 (nodesOnly p (l ++ ids)) := by
  unfold preloadNodes
  induction ids generalizing l s s' with
  | nil => exact ⟨(s, s'), rfl, by simpa using h, by simpa using h'⟩
  | cons x ids ih =>
    refine Passes.bind (P := fun r => Ok n m r.1 (nodesOnly p (l ++ [x])) ∧ Ok' n' m' r.2 (nodesOnly p (l ++ [x]))) ?_ fun r hr => ?_
    · refine (law.insertNode h x p).bind fun a ha => (law'.insertNode h' x p).bind fun b hb => ⟨(a, b), rfl, ?_⟩
      rw [nodesOnly_insert] at ha hb
      exact ⟨ha, hb⟩
    · have := ih _ hr.1 hr.2
      rw [List.append_assoc, List.singleton_append] at this
      exact this

theorem preloadEdges_ok (p : Triple Ulid → EP) (ids l : List (Triple Ulid)) (h : Ok (n + ids.length) m s (edgesOnly p l))
    (h' : Ok' (n' + ids.length) m' s' (edgesOnly p l)) :
    Passes (preloadEdges mem sled p ids (s, s')) fun x => Ok n m x.1 (edgesOnly p (l ++ ids)) ∧ Ok' n' m' x.2 (edgesOnly p (l ++ ids)) := by
  unfold preloadEdges
  induction ids generalizing l s s' with
  | nil => exact ⟨(s, s'), rfl, by simpa using h, by simpa using h'⟩
  | cons x ids ih =>
    refine Passes.bind (P := fun r => Ok (n + ids.length) m r.1 (edgesOnly p (l ++ [x])) ∧
      Ok' (n' + ids.length) m' r.2 (edgesOnly p (l ++ [x]))) ?_ fun r hr => ?_
    · refine (law.insertEdge (n := n + ids.length) h x (p x)).bind fun a ha =>
        (law'.insertEdge (n := n' + ids.length) h' x (p x)).bind fun b hb => ⟨(a, b), rfl, ?_⟩
      rw [edgesOnly_insert] at ha hb
      exact ⟨ha, hb⟩
    · have := ih _ hr.1 hr.2
      rw [List.append_assoc, List.singleton_append] at this
      exact this

theorem insertNode_ok (p : NP) (ids ids1 ids2 : List Ulid) (h : Ok n m s Graph.empty) (h' : Ok' n' m' s' Graph.empty) :
    Passes (insertNode mem sled p ids ids1 ids2 (s, s')) fun x =>
      Ok n m x.1 (nodesOnly p (ids ++ ids1)) ∧ Ok' n' m' x.2 (nodesOnly p (ids ++ ids2)) := by
  refine (preloadNodes_ok law law' p ids [] (by rw [nodesOnly_nil]; exact h) (by rw [nodesOnly_nil]; exact h')).bind fun x hx => ?_
  refine (law.insertNodes hx.1 _).bind fun a ha => (law'.insertNodes hx.2 _).bind fun b hb => ⟨(a, b), rfl, ?_⟩
  rw [nodesOnly_foldl] at ha hb
  exact ⟨ha, hb⟩

theorem insertEdge_ok (p : EP) (ids ids1 ids2 : List (Triple Ulid)) (h : Ok (n + ids1.length + ids.length) m s Graph.empty)
    (h' : Ok' (n' + ids2.length + ids.length) m' s' Graph.empty) :
    Passes (insertEdge mem sled p ids ids1 ids2 (s, s')) fun x =>
      Ok n m x.1 (edgesOnly (fun _ => p) (ids ++ ids1)) ∧ Ok' n' m' x.2 (edgesOnly (fun _ => p) (ids ++ ids2)) := by
  refine (preloadEdges_ok law law' (fun _ => p) ids [] (by rw [edgesOnly_nil]; exact h) (by rw [edgesOnly_nil]; exact h')).bind
    fun x hx => ?_
  refine (law.insertEdges _ (by rw [List.length_map]; exact hx.1)).bind fun a ha =>
    (law'.insertEdges _ (by rw [List.length_map]; exact hx.2)).bind fun b hb => ⟨(a, b), rfl, ?_⟩
  rw [edgesOnly_foldl] at ha hb
  exact ⟨ha, hb⟩

end

section
variable {b : Backend S X Q QX NP EP} {mN : NP → NP → NP} {mE : EP → EP → EP} {bad : X} {qbad : QX}
  {Ok : Nat → Nat → S → Graph Ulid NP EP → Prop} {QOk : Nat → Q → Graph Ulid NP EP → Prop} {n m : Nat} {s : S}

theorem mapM_ok {α β : Type} {f : α → Test β} {R : β → Prop} {l : List α} (h : ∀ a ∈ l, Passes (f a) R) :
    Passes (l.mapM f) fun rs => rs.length = l.length ∧ ∀ r ∈ rs, R r := by
  induction l with
  | nil => exact ⟨[], rfl, rfl, by simp⟩
  | cons a l ih =>
    rw [List.mapM_cons]
    refine (h a (List.mem_cons_self ..)).bind fun r hr => (ih fun a ha => h a (List.mem_cons_of_mem _ ha)).bind fun rs hrs =>
      ⟨_, rfl, by simp [hrs.1], ?_⟩
    rintro x (_ | ⟨_, hx⟩)
    · exact hr
    · exact hrs.2 x hx

/-- a query, whatever the number of iterations -/
theorem runs_ok (law : Law b mN mE bad qbad Ok QOk) {G : Graph Ulid NP EP} (h : Ok n m s G) {q : Query Ulid} (hq : Query.Nodup q)
    {gens : List (Gen Ulid)} {L : List (Triple Ulid)} (hL : ∀ t, (G.edges t).isSome → t ∈ L) (hg : ∀ g ∈ gens, Fresh L.length g) :
    ∀ g ∈ gens, Passes (expect (b.run s g q)) fun r => QOk 0 r (select G q) := by
  intro g hgm
  have hlen : (b.st.iterEdges s .SPO).length ≤ L.length := by
    obtain ⟨l, h1, h2⟩ := ((law.store m).shows h).2 .SPO
    have h1 : b.st.iterEdges s .SPO = l.map .ok := h1
    rw [h1, List.length_map, ← List.length_map (f := Prod.fst)]
    refine (List.Nodup.subperm ?_ ?_).length_le
    · rw [List.Nodup, List.pairwise_map]
      exact h2.1.imp fun h e => by
        rw [e] at h
        exact absurd h (edgeLT_irrefl _ _)
    · intro t ht
      obtain ⟨x, hx, rfl⟩ := List.mem_map.1 ht
      exact hL _ (by rw [(h2.2 x.1 x.2).1 hx]; rfl)
  obtain ⟨res, e, hres⟩ := law.run m n 0 s G g q h hq (fun i hi j hj => hg g hgm i (by omega) j (by omega))
  rw [e]
  exact ⟨res, rfl, hres⟩

end

section
variable {mem : Backend S X Q QX NP EP} {sled : Backend S' X' Q' QX' NP EP} {mN : NP → NP → NP} {mE : EP → EP → EP}
  {bad : X} {qbad : QX} {bad' : X'} {qbad' : QX'}
  {Ok : Nat → Nat → S → Graph Ulid NP EP → Prop} {QOk : Nat → Q → Graph Ulid NP EP → Prop}
  {Ok' : Nat → Nat → S' → Graph Ulid NP EP → Prop} {QOk' : Nat → Q' → Graph Ulid NP EP → Prop}
  (law : Law mem mN mE bad qbad Ok QOk) (law' : Law sled mN mE bad' qbad' Ok' QOk') {n m n' m' : Nat} {s : S} {s' : S'}
include law law'

theorem queryNode_ok (p : NP) {shuffle : List Ulid → List Ulid} (hs : ∀ l, (shuffle l).Perm l) (ids : List Ulid)
    (gens1 gens2 : List (Gen Ulid)) (h : Ok n m s Graph.empty) (h' : Ok' n' m' s' Graph.empty) :
    Passes (queryNode mem sled p shuffle ids gens1 gens2 (s, s')) fun x =>
      (x.1.length = gens1.length ∧ ∀ r ∈ x.1, QOk 0 r (nodesOnly p ((shuffle ids).take 1000))) ∧
      (x.2.length = gens2.length ∧ ∀ r ∈ x.2, QOk' 0 r (nodesOnly p ((shuffle ids).take 1000))) := by
  refine (preloadNodes_ok law law' p ids [] (by rw [nodesOnly_nil]; exact h) (by rw [nodesOnly_nil]; exact h')).bind fun x hx => ?_
  have e : select (nodesOnly p ([] ++ ids) : Graph Ulid NP EP) (.NodeProps (HSet.collect ((shuffle ids).take 1000))) =
      nodesOnly p ((shuffle ids).take 1000) := by
    refine Graph.ext' (fun y => ?_) (fun _ => rfl)
    simp only [select, nodesOnly, HSet.mem_collect, List.nil_append]
    by_cases hy : y ∈ (shuffle ids).take 1000
    · rw [if_pos hy, if_pos hy, if_pos ((hs ids).mem_iff.1 (List.mem_of_mem_take hy))]
    · rw [if_neg hy, if_neg hy]
  have hq : Query.Nodup (.NodeProps (HSet.collect ((shuffle ids).take 1000))) := (HSet.nodup_collect _).map fun _ _ h => by simpa using h
  refine (mapM_ok (R := fun r => QOk 0 r (nodesOnly p ((shuffle ids).take 1000))) fun g hg => ?_).bind fun a ha => ?_
  · refine Passes.bind (P := (· = _)) ⟨_, rfl, rfl⟩ fun q hq' => ?_
    subst hq'
    have := runs_ok law hx.1 hq (gens := [g]) (L := []) (fun t h => by cases h) (fun _ _ i hi => by cases hi) g (List.mem_singleton.2 rfl)
    rwa [e] at this
  refine (mapM_ok (R := fun r => QOk' 0 r (nodesOnly p ((shuffle ids).take 1000))) fun g hg => ?_).bind fun b hb => ?_
  · refine Passes.bind (P := (· = _)) ⟨_, rfl, rfl⟩ fun q hq' => ?_
    subst hq'
    have := runs_ok law' hx.2 hq (gens := [g]) (L := []) (fun t h => by cases h) (fun _ _ i hi => by cases hi) g (List.mem_singleton.2 rfl)
    rwa [e] at this
  exact ⟨(a, b), rfl, ha, hb⟩

end

theorem queryEdge_ok {mem : Backend S X Q QX NP Ulid} {sled : Backend S' X' Q' QX' NP Ulid} {mN : NP → NP → NP} {mE : Ulid → Ulid → Ulid}
    {bad : X} {qbad : QX} {bad' : X'} {qbad' : QX'}
    {Ok : Nat → Nat → S → Graph Ulid NP Ulid → Prop} {QOk : Nat → Q → Graph Ulid NP Ulid → Prop}
    {Ok' : Nat → Nat → S' → Graph Ulid NP Ulid → Prop} {QOk' : Nat → Q' → Graph Ulid NP Ulid → Prop}
    (law : Law mem mN mE bad qbad Ok QOk) (law' : Law sled mN mE bad' qbad' Ok' QOk') {n m n' m' : Nat} {s : S} {s' : S'}
    {shuffle : List (Triple Ulid) → List (Triple Ulid)} (hs : ∀ l, (shuffle l).Perm l) (ids : List (Triple Ulid))
    (gens1 gens2 : List (Gen Ulid)) (h : Ok (n + ids.length) m s Graph.empty) (h' : Ok' (n' + ids.length) m' s' Graph.empty)
    (hg1 : ∀ g ∈ gens1, Fresh ids.length g) (hg2 : ∀ g ∈ gens2, Fresh ids.length g) :
    Passes (queryEdge mem sled shuffle ids gens1 gens2 (s, s')) fun x =>
      (x.1.length = gens1.length ∧ ∀ r ∈ x.1, QOk 0 r (edgesOnly Triple.pred ((shuffle ids).take 1000))) ∧
      (x.2.length = gens2.length ∧ ∀ r ∈ x.2, QOk' 0 r (edgesOnly Triple.pred ((shuffle ids).take 1000))) := by
  refine (preloadEdges_ok law law' Triple.pred ids [] (by rw [edgesOnly_nil]; exact h) (by rw [edgesOnly_nil]; exact h')).bind
    fun x hx => ?_
  have e : select (edgesOnly Triple.pred ([] ++ ids) : Graph Ulid NP Ulid) (Query.ofTriples ((shuffle ids).take 1000)) =
      edgesOnly Triple.pred ((shuffle ids).take 1000) := by
    refine Graph.ext' (fun _ => rfl) (fun t => ?_)
    simp only [Query.ofTriples, select, edgesOnly, HSet.mem_collect, List.nil_append]
    have : ((t.sub, t.pred, t.obj) ∈ ((shuffle ids).take 1000).map fun t => (t.sub, t.pred, t.obj)) ↔ t ∈ (shuffle ids).take 1000 := by
      rw [List.mem_map]
      constructor
      · rintro ⟨u, hu, he⟩
        have : u = t := by cases u; cases t; simpa using he
        exact this ▸ hu
      · exact fun h => ⟨t, h, rfl⟩
    by_cases ht : t ∈ (shuffle ids).take 1000
    · rw [if_pos (this.2 ht), if_pos ht, if_pos ((hs ids).mem_iff.1 (List.mem_of_mem_take ht))]
    · rw [if_neg (fun h => ht (this.1 h)), if_neg ht]
  have hq : Query.Nodup (Query.ofTriples ((shuffle ids).take 1000)) := (HSet.nodup_collect _).map fun _ _ h => by simpa [Prod.ext_iff] using h
  have hL : ∀ t, ((edgesOnly Triple.pred ([] ++ ids) : Graph Ulid NP Ulid).edges t).isSome → t ∈ ids := by
    intro t ht
    simp only [edgesOnly, List.nil_append] at ht
    by_contra hn
    rw [if_neg hn] at ht; cases ht
  refine (mapM_ok (R := fun r => QOk 0 r (edgesOnly Triple.pred ((shuffle ids).take 1000))) fun g hg => ?_).bind fun a ha => ?_
  · rw [← e]; exact runs_ok law hx.1 hq hL hg1 g hg
  refine (mapM_ok (R := fun r => QOk' 0 r (edgesOnly Triple.pred ((shuffle ids).take 1000))) fun g hg => ?_).bind fun b hb => ?_
  · rw [← e]; exact runs_ok law' hx.2 hq hL hg2 g hg
  exact ⟨(a, b), rfl, ha, hb⟩

end Verif.Bench
