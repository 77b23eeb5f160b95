import Verif.Proof.RdfSledFollow
import Verif.Proof.SledWell

/-! # The calls on the triple store which each function of the RDF layer makes -/

set_option linter.unusedSectionVars false

namespace Verif

open Spec ConcreteId

namespace RdfSled

variable {NP EP E α β : Type} {cl : Codec String} {cr : Codec Ulid} {c : Codecs NP EP} {mN : NP → NP → NP} {mE : EP → EP → EP}
variable {O : Ulid → Prop} {A : String → Ulid → Prop} {W : Names → Sled.PieceCall E Entity NP EP → Prop} {J : Db → Prop}
variable {b : Bool} {U : Ulid → Prop} {f0 : Names} {P : Names → Prop} {n : Nat} {i : Ids}

/-! ## the functions of the triple store -/

theorem gives_of_framed {J : Db → Prop} {loc : Db → Unit} {R : α → Prop} {p : Prog Db α} (h : Framed J loc p R) :
    p.Gives J R := by
  induction p with
  | ret a => exact h
  | call f k ih => exact fun s hs => ⟨(h s hs).1, ih s (h s hs).2.2⟩

theorem gives_keeps {R : Except SErr Unit → Prop} {p : Prog Db (Except SErr Unit)} (h : Sled.Keeps Ulid c p R) :
    p.Gives (Sled.WellFormed Ulid c) (fun a => b = true ∨ R a) :=
  (gives_of_framed h).mono (fun _ h => .inr h)

theorem item_ok (ht : c.Total) {a : Except SErr Unit} (h : Sled.ItemResult c a) : a = .ok () := by
  rcases h with h | ⟨-, ⟨p, h⟩ | ⟨p, h⟩⟩
  · exact h
  · have := ht.1 p; rw [h] at this; cases this
  · have := ht.2 p; rw [h] at this; cases this

theorem gives_item (ht : b = true ∨ c.Total) {p : Prog Db (Except SErr Unit)} (h : Sled.Keeps Ulid c p (Sled.ItemResult c)) :
    p.Gives (Sled.WellFormed Ulid c) (fun a => b = true ∨ a = .ok ()) :=
  (gives_keeps h).mono (fun _ ha => ha.elim .inl (fun ha => ht.imp id (fun ht => item_ok ht ha)))

theorem keeps_scan {tree : Db → Tree} {m : Nat} {bd : Bound (ByteArr m) × Bound (ByteArr m)} {R : α → Prop}
    {k : List (Bytes × Bytes) → Prog Db α} (h : ∀ l, Sled.Keeps Ulid c (k l) R) (ss : List Nat) (cur : Option Bytes)
    (acc : List (Bytes × Bytes)) : Sled.Keeps Ulid c (Sled.scanPieces tree bd k ss cur acc) R := by
  induction ss generalizing cur acc with
  | nil => exact Sled.keeps_call (fun d hd => hd) (fun d _ => h _)
  | cons s ss ih => exact Sled.keeps_call (fun d hd => hd) (fun d _ => ih _ _)

theorem removeNodePieces_keeps (fs bs : List Nat) (u : Ulid) : Sled.Keeps Ulid c (Sled.removeNodePieces fs bs u) (fun _ => True) :=
  keeps_scan (fun _ => keeps_scan (fun _ => (Sled.removeNodeScanned_keeps u _ _).mono (fun _ _ => trivial)) _ _ _) _ _ _

/-! ## one item -/

/-- The function makes the call `y`, and draws ids: `ck` for names, and as said by `sh` for edge properties. -/
def Does (cl : Codec String) (cr : Codec Ulid) (c : Codecs NP EP) (mN : NP → NP → NP) (mE : EP → EP → EP)
    (b : Bool) (O : Ulid → Prop) (A : String → Ulid → Prop) (U : Ulid → Prop) (W : Names → Sled.PieceCall E Entity NP EP → Prop)
    (J : Db → Prop) (f0 : Names) (m : Task Unit) (ck : Nat) (sh : Gen Ulid → Gen Ulid)
    (y : Gen Ulid → Sled.PieceCall E Entity NP EP) : Prop :=
  ∀ (P : Names → Prop) (n : Nat) (i : Ids) (k : Ids × Except Err Unit → Prog RdfDb Unit) (l : List (Sled.PieceCall E Entity NP EP)),
    Grows' f0 P → Sup b O U (n + ck) i → Halts k →
    (∀ i', Sup b O U n i' → i'.gen = sh i.gen → Follows cl cr c mN mE O A W J (Know b P i' n) l (k (i', .ok ()))) →
    Follows cl cr c mN mE O A W J (Know b P i (n + ck)) (y i.gen :: l) ((m i).bind k)

section
variable (hl : cl.RoundTrips) (hr : cr.RoundTrips) (tl : cl.Total) (tr : cr.Total)
include hl hr tl tr

omit hl hr tl tr in
theorem follows_stop (hb : b = true → ∀ f y, W f y) (hbt : b = true) (K : Names → Prop) (l : List (Sled.PieceCall E Entity NP EP)) :
    Follows cl cr c mN mE O A W J K l (.ret ()) := by
  refine .ret (fun f _ => ?_)
  cases l with
  | nil => exact .inl rfl
  | cons y l => exact .inr ⟨y, l, rfl, hb hbt f y⟩

theorem does_node (hb : b = true → ∀ f y, W f y) {e : Entity} {p : Ulid → Prog Db (Except SErr Unit)}
    {y : Sled.PieceCall E Entity NP EP} (z : Ulid → Sled.PieceCall E Ulid NP EP)
    (hA : ∀ s u, e = .string s → U u → A s u)
    (hW : ∀ f s v, e = .string s → f0 s = none → f s = some v → O v → W f y)
    (hy : ∀ f u, idIn f e = some u → pieceIn f y = some (z u)) (hz : ∀ u, (z u).prog c mN mE = (p u).bind (fun _ => .ret ()))
    (hg : ∀ u, (p u).Gives J (fun a => b = true ∨ a = .ok ())) :
    Does cl cr c mN mE b O A U W J f0 ((lookupOrCreateEntity cl cr e).andThen (fun id => onGraph (p id))) 1 id (fun _ => y) := by
  intro P n i k l hP hS hk h
  rw [Task.andThen_bind]
  refine follows_create hl hr tl tr hb hP hS hA hW (halts_andThen hk) (fun i' u hS' e' => ?_)
  refine follows_graph y (z u) (fun f hf => hy f u hf.1.2) (hz u) (hg u) ?_ (fun e he => ?_)
  · exact (h i' hS' e').weaken (fun f hf => ⟨hf.1.1, hf.2⟩)
  · rw [hk]
    rcases he with he | he
    · exact follows_stop hb he _ _
    · cases he

theorem does_edge (hb : b = true → ∀ f y, W f y) {t : Triple Entity} {p : Ulid → Triple Ulid → Prog Db (Except SErr Unit)}
    {y : Ulid → Sled.PieceCall E Entity NP EP} (z : Ulid → Triple Ulid → Sled.PieceCall E Ulid NP EP)
    (hA : ∀ s u, .string s ∈ RdfState.parts t → U u → A s u)
    (hW : ∀ f s v w, .string s ∈ RdfState.parts t → f0 s = none → f s = some v → O v → W f (y w))
    (hy : ∀ f w u, tripleIn f t = some u → pieceIn f (y w) = some (z w u))
    (hz : ∀ w u, (z w u).prog c mN mE = (p w u).bind (fun _ => .ret ()))
    (hg : ∀ w u, (p w u).Gives J (fun a => b = true ∨ a = .ok ())) :
    Does cl cr c mN mE b O A U W J f0 ((tryMap (lookupOrCreateEntity cl cr) t).andThen (fun t i =>
      onGraph (p (Gen.fresh i.gen).1 t) { i with gen := (Gen.fresh i.gen).2 })) 3 (fun g => (Gen.fresh g).2)
      (fun g => y (Gen.fresh g).1) := by
  intro P n i k l hP hS hk h
  rw [Task.andThen_bind]
  refine follows_createTriple hl hr tl tr hb hP hS hA (fun f s v => hW f s v _) (fun i e => hk i e) (fun i' u hS' e' => ?_)
  dsimp only
  rw [e']
  refine follows_graph (y _) (z _ u) (fun f hf => hy f _ u hf.1.2) (hz _ u) (hg _ u) ?_ (fun e he => ?_)
  · exact (h { i' with gen := (Gen.fresh i.gen).2 } ⟨hS'.1, hS'.2⟩ rfl).weaken (fun f hf => ⟨hf.1.1, hf.2⟩)
  · rw [hk]
    rcases he with he | he
    · exact follows_stop hb he _ _
    · cases he

/-! ## many items -/

omit hl hr tl tr

/-- calls for one item after the other -/
def collect (sh : Gen Ulid → Gen Ulid) (y : α → Gen Ulid → Sled.PieceCall E Entity NP EP) :
    Gen Ulid → List α → List (Sled.PieceCall E Entity NP EP)
  | _, [] => []
  | g, a :: l => y a g :: collect sh y (sh g) l

theorem follows_absorb {f : α → Task Unit} {ck : Nat} {sh : Gen Ulid → Gen Ulid} {y : α → Gen Ulid → Sled.PieceCall E Entity NP EP}
    {K : Ids → Prog RdfDb (Ids × Except (LR Err E) Unit)} {kk : Ids × Except (LR Err E) Unit → Prog RdfDb Unit}
    (hk : ∀ i e, kk (i, .error e) = .ret ()) (hP : Grows' f0 P) (xs : List (Except E α))
    (hd : ∀ a, .ok a ∈ xs → Does cl cr c mN mE b O A U W J f0 (f a) ck sh (y a)) {l : List (Sled.PieceCall E Entity NP EP)}
    {n : Nat} {i : Ids} (hS : Sup b O U (n + ck * xs.length) i)
    (h : fails xs = false → ∀ i', Sup b O U n i' → i'.gen = sh^[xs.length] i.gen →
      Follows cl cr c mN mE O A W J (Know b P i' n) l ((K i').bind kk)) :
    Follows cl cr c mN mE O A W J (Know b P i (n + ck * xs.length)) (collect sh y i.gen (oks xs) ++ if fails xs then [] else l)
      ((absorb f K xs i).bind kk) := by
  induction xs generalizing i with
  | nil => exact h rfl i hS rfl
  | cons x xs ih =>
    cases x with
    | error e =>
      show Follows cl cr c mN mE O A W J _ _ (kk _)
      rw [hk]
      exact .ret (fun _ _ => .inl rfl)
    | ok a =>
      unfold absorb
      rw [Prog.bind_assoc]
      have e1 : n + ck * (Except.ok a :: xs : List (Except E α)).length = (n + ck * xs.length) + ck := by
        simp only [List.length_cons, Nat.mul_add]; omega
      rw [e1] at hS ⊢
      refine hd a (by simp) P _ i _ _ hP hS (fun i e => hk i _) (fun i' hS' e' => ?_)
      have := ih (fun a ha => hd a (List.mem_cons_of_mem _ ha)) hS' (fun hf i'' hS'' e'' => h hf i'' hS'' (by rw [e'', e']; rfl))
      rw [e'] at this
      exact this

theorem collect_const {y : α → Sled.PieceCall E Entity NP EP} (g : Gen Ulid) (l : List α) :
    collect id (fun a _ => y a) g l = l.map y := by
  induction l with
  | nil => rfl
  | cons a l ih => simp only [collect, List.map_cons, id, ih]

theorem collect_edges {mk : Entity → Triple Entity → EP → Sled.Call E Entity NP EP} (ps : List Nat × List Nat) (g : Gen Ulid)
    (l : List (Triple Entity × EP)) :
    collect (fun g => (Gen.fresh g).2) (fun x g => (mk (.ulid (Gen.fresh g).1) x.1 x.2, ps)) g l =
      (edgeCalls mk g l).map (fun y => (y, ps)) := by
  induction l generalizing g with
  | nil => rfl
  | cons a l ih => simp only [collect, edgeCalls, List.map_cons, ih]

end

/-! ## one call -/

/-- the ids others may give to names -/
def Others (b : Bool) (th : List (PieceCall E NP EP)) (u : Ulid) : Prop := b = true ∨ u ∉ mine th

/-- the names a call may create -/
def Allowed (x : PieceCall E NP EP) (s : String) (u : Ulid) : Prop := x.1.Creates s ∧ u ∈ x.1.ulids

/-- why a call may stop -/
def Why (b : Bool) (f0 : Names) (th : List (PieceCall E NP EP)) (f : Names) (y : Sled.PieceCall E Entity NP EP) : Prop :=
  b = true ∨ Fails f0 f th y.1

theorem mem_itemEntities {g : α → List Entity} {xs : List (Except E α)} {a : α} (ha : .ok a ∈ xs) {e : Entity} (he : e ∈ g a) :
    e ∈ itemEntities g xs := by
  unfold itemEntities
  exact List.mem_flatMap.2 ⟨_, ha, he⟩

theorem prog_follows (hl : cl.RoundTrips) (hr : cr.RoundTrips) (tl : cl.Total) (tr : cr.Total) (hc : c.RoundTrip)
    (ht : b = true ∨ c.Total) {th : List (PieceCall E NP EP)} {x : PieceCall E NP EP} (hx : x ∈ th)
    (hn : b = true ∨ x.1.ulids.Nodup) (f0 : Names) :
    Follows cl cr c mN mE (Others b th) (Allowed x) (Why b f0 th) (Sled.WellFormed Ulid c) (Know b (Keeps f0) x.1.ids x.1.op.creations)
      x.wants (x.prog cl cr c mN mE) := by
  have hb : b = true → ∀ f y, Why b f0 th f y := fun h f y => .inl h
  have hP : Grows' f0 (Keeps f0) := ⟨fun f f' h1 h2 => h1.trans h2, fun f h => h⟩
  have hS : Sup b (Others b th) (· ∈ x.1.ulids) x.1.op.creations x.1.ids := by
    have hm : ∀ j < x.1.op.creations, x.1.ids.ulid j ∈ x.1.ulids := fun j hj => List.mem_map_of_mem (List.mem_range.2 hj)
    refine ⟨hm, ?_⟩
    cases b with
    | true => exact .inl rfl
    | false =>
      rcases hn with hn | hn
      · cases hn
      · refine .inr ⟨fun j hj k hk e => ?_, fun j hj h => ?_⟩
        · exact List.inj_on_of_nodup_map hn (List.mem_range.2 hj) (List.mem_range.2 hk) e
        · rcases h with h | h
          · cases h
          · exact h (List.mem_flatMap.2 ⟨x, hx, hm j hj⟩)
  have hO : ∀ v, Others b th v → b = true ∨ v ∉ mine th := fun _ h => h
  obtain ⟨⟨op, ids⟩, ps⟩ := x
  cases op with
  | insertNode e p =>
    show Follows _ _ _ _ _ _ _ _ _ _ _ ((single (insertNode cl cr c e p) ids).bind _)
    unfold single
    rw [Prog.bind_assoc]
    refine does_node hl hr tl tr hb (y := (.insertNode e p, ps)) (fun u => (.insertNode u p, ps)) (fun s u h hu => ⟨?_, hu⟩)
      (fun f s v h1 h2 h3 h4 => h4.imp id (fun h4 => ⟨s, v, h1, h2, h3, h4⟩)) (fun f u h => ?_) (fun u => rfl)
      (fun u => gives_item ht (Sled.insertNode_keeps u p)) _ 0 ids _ [] hP hS (fun i e => rfl) (fun i' _ _ => .ret (fun _ _ => .inl rfl))
    · simp [pieceIn, callIn, h]
    · simp [Call.Creates, Op.entities, h]
  | mergeNode e p =>
    show Follows _ _ _ _ _ _ _ _ _ _ _ ((single (mergeNode cl cr c mN e p) ids).bind _)
    unfold single
    rw [Prog.bind_assoc]
    refine does_node hl hr tl tr hb (y := (.mergeNode e p, ps)) (fun u => (.mergeNode u p, ps)) (fun s u h hu => ⟨?_, hu⟩)
      (fun f s v h1 h2 h3 h4 => h4.imp id (fun h4 => ⟨s, v, h1, h2, h3, h4⟩)) (fun f u h => ?_) (fun u => rfl)
      (fun u => gives_item ht (Sled.mergeNode_keeps hc mN u p)) _ 0 ids _ [] hP hS (fun i e => rfl)
      (fun i' _ _ => .ret (fun _ _ => .inl rfl))
    · simp [pieceIn, callIn, h]
    · simp [Call.Creates, Op.entities, h]
  | insertEdge t p =>
    show Follows _ _ _ _ _ _ _ _ _ _ _ ((single (insertEdge cl cr c t p) ids).bind _)
    unfold single
    rw [Prog.bind_assoc]
    refine does_edge hl hr tl tr hb (p := fun w u => Sled.insertEdge c w u p) (y := fun w => (.insertEdge (.ulid w) t p, ps))
      (fun w u => (.insertEdge w u p, ps)) (fun s u h hu => ⟨?_, hu⟩)
      (fun f s v w h1 h2 h3 h4 => h4.imp id (fun h4 => ⟨s, v, h1, h2, h3, h4⟩)) (fun f w u h => ?_) (fun w u => rfl)
      (fun w u => gives_item ht (Sled.insertEdge_keeps w u p)) _ 0 ids _ [] hP hS (fun i e => rfl)
      (fun i' _ _ => .ret (fun _ _ => .inl rfl))
    · simp [pieceIn, callIn, h, idIn]
    · simpa [Call.Creates, Op.entities] using h
  | mergeEdge t p =>
    show Follows _ _ _ _ _ _ _ _ _ _ _ ((single (mergeEdge cl cr c mE t p) ids).bind _)
    unfold single
    rw [Prog.bind_assoc]
    refine does_edge hl hr tl tr hb (p := fun w u => Sled.mergeEdge c mE w u p) (y := fun w => (.mergeEdge (.ulid w) t p, ps))
      (fun w u => (.mergeEdge w u p, ps)) (fun s u h hu => ⟨?_, hu⟩)
      (fun f s v w h1 h2 h3 h4 => h4.imp id (fun h4 => ⟨s, v, h1, h2, h3, h4⟩)) (fun f w u h => ?_) (fun w u => rfl)
      (fun w u => gives_item ht (Sled.mergeEdge_keeps hc mE w u p)) _ 0 ids _ [] hP hS (fun i e => rfl)
      (fun i' _ _ => .ret (fun _ _ => .inl rfl))
    · simp [pieceIn, callIn, h, idIn]
    · simpa [Call.Creates, Op.entities] using h
  | removeNode e =>
    show Follows _ _ _ _ _ _ _ _ _ _ _ ((single (removeNodePieces cl cr ps.1 ps.2 e) ids).bind _)
    unfold single
    rw [Prog.bind_assoc]
    unfold removeNodePieces
    rw [Task.andThen_bind]
    refine follows_lookup tl hP hS (y := (.removeNode e, ps)) (l := []) (fun f s h1 h2 => .inr ⟨s, h1, h2⟩) (fun i e => rfl) (fun u => ?_)
    refine follows_graph _ (.removeNode u, ps) (fun f hf => ?_) rfl (gives_keeps (b := b) (removeNodePieces_keeps ps.1 ps.2 u))
      (.ret (fun _ _ => .inl rfl)) (fun _ _ => .ret (fun _ _ => .inl rfl))
    simp [pieceIn, callIn, hf.1.2]
  | removeEdge t =>
    show Follows _ _ _ _ _ _ _ _ _ _ _ ((single (removeEdge cl cr t) ids).bind _)
    unfold single
    rw [Prog.bind_assoc]
    unfold removeEdge
    rw [Task.andThen_bind]
    refine follows_lookupTriple tl hP hS (y := (.removeEdge t, ps)) (l := []) (fun f s h1 h2 => .inr ⟨s, h1, h2⟩) (fun i e => rfl) (fun u => ?_)
    refine follows_graph _ (.removeEdge u, ps) (fun f hf => ?_) rfl (gives_keeps (b := b) (Sled.removeEdge_keeps u))
      (.ret (fun _ _ => .inl rfl)) (fun _ _ => .ret (fun _ _ => .inl rfl))
    simp [pieceIn, callIn, hf.1.2]
  | extend src =>
    show Follows _ _ _ _ _ _ _ _ _ _ _ ((extend cl cr c src ids).bind _)
    unfold extend
    have e0 : PieceCall.wants (⟨⟨.extend src, ids⟩, ps⟩ : PieceCall E NP EP) =
        collect id (fun x _ => (.insertNode x.1 x.2, ps)) ids.gen (oks src.nodes) ++ if fails src.nodes then [] else
          collect (fun g => (Gen.fresh g).2) (fun x g => (.insertEdge (.ulid (Gen.fresh g).1) x.1 x.2, ps)) ids.gen (oks src.edges) := by
      rw [collect_const, collect_edges]
      unfold PieceCall.wants Call.wants
      dsimp only
      rw [List.map_append, List.map_map]
      split <;> rfl
    rw [e0]
    have e1 : Op.creations (.extend src : Op E Entity NP EP) = 3 * src.edges.length + 1 * src.nodes.length := by
      simp only [Op.creations]; omega
    dsimp only at hS ⊢
    rw [e1] at hS ⊢
    refine follows_absorb (E := E) (fun _ _ => rfl) hP src.nodes (fun a ha => ?_) hS (fun _ i' hS' e' => ?_)
    · refine does_node hl hr tl tr hb (fun u => (.insertNode u a.2, ps)) (fun s u h hu => ⟨?_, hu⟩)
        (fun f s v h1 h2 h3 h4 => h4.imp id (fun h4 => ⟨s, v, h1, h2, h3, h4⟩)) (fun f u h => ?_) (fun u => rfl)
        (fun u => gives_item ht (Sled.insertNode_keeps u a.2))
      · simp only [Call.Creates, Op.entities]
        exact List.mem_append_left _ (mem_itemEntities ha (by simp [h]))
      · simp [pieceIn, callIn, h]
    · have hS0 : Sup b (Others b th) (· ∈ (⟨.extend src, ids⟩ : Call E NP EP).ulids) (0 + 3 * src.edges.length) i' := by
        rw [Nat.zero_add]; exact hS'
      have := follows_absorb (E := E) (cl := cl) (cr := cr) (c := c) (mN := mN) (mE := mE) (O := Others b th)
        (A := Allowed (⟨⟨.extend src, ids⟩, ps⟩ : PieceCall E NP EP)) (W := Why b f0 th) (J := Sled.WellFormed Ulid c)
        (kk := fun _ => .ret ()) (K := fun i => .ret (i, .ok ())) (f := fun x => insertEdge cl cr c x.1 x.2)
        (sh := fun g => (Gen.fresh g).2) (y := fun x g => (.insertEdge (.ulid (Gen.fresh g).1) x.1 x.2, ps)) (l := [])
        (fun _ _ => rfl) hP src.edges (fun a ha => ?_) hS0 (fun _ i'' _ _ => .ret (fun _ _ => .inl rfl))
      · rw [Nat.zero_add, show (if fails src.edges then [] else []) = ([] : List (Sled.PieceCall E Entity NP EP)) by split <;> rfl,
          List.append_nil] at this
        have eg : i'.gen = ids.gen := by
          rw [e', show (id : Gen Ulid → Gen Ulid)^[src.nodes.length] = id from Function.iterate_id _]; rfl
        rw [eg] at this
        exact this
      · refine does_edge hl hr tl tr hb (p := fun w u => Sled.insertEdge c w u a.2)
          (y := fun w => (.insertEdge (.ulid w) a.1 a.2, ps)) (fun w u => (.insertEdge w u a.2, ps)) (fun s u h hu => ⟨?_, hu⟩)
          (fun f s v w h1 h2 h3 h4 => h4.imp id (fun h4 => ⟨s, v, h1, h2, h3, h4⟩)) (fun f w u h => ?_) (fun w u => rfl)
          (fun w u => gives_item ht (Sled.insertEdge_keeps w u a.2))
        · simp only [Call.Creates, Op.entities]
          exact List.mem_append_right _ (mem_itemEntities ha h)
        · simp [pieceIn, callIn, h, idIn]
  | merge src =>
    show Follows _ _ _ _ _ _ _ _ _ _ _ ((merge cl cr c mN mE src ids).bind _)
    unfold merge
    have e0 : PieceCall.wants (⟨⟨.merge src, ids⟩, ps⟩ : PieceCall E NP EP) =
        collect id (fun x _ => (.mergeNode x.1 x.2, ps)) ids.gen (oks src.nodes) ++ if fails src.nodes then [] else
          collect (fun g => (Gen.fresh g).2) (fun x g => (.mergeEdge (.ulid (Gen.fresh g).1) x.1 x.2, ps)) ids.gen (oks src.edges) := by
      rw [collect_const, collect_edges]
      unfold PieceCall.wants Call.wants
      dsimp only
      rw [List.map_append, List.map_map]
      split <;> rfl
    rw [e0]
    have e1 : Op.creations (.merge src : Op E Entity NP EP) = 3 * src.edges.length + 1 * src.nodes.length := by
      simp only [Op.creations]; omega
    dsimp only at hS ⊢
    rw [e1] at hS ⊢
    refine follows_absorb (E := E) (fun _ _ => rfl) hP src.nodes (fun a ha => ?_) hS (fun _ i' hS' e' => ?_)
    · refine does_node hl hr tl tr hb (fun u => (.mergeNode u a.2, ps)) (fun s u h hu => ⟨?_, hu⟩)
        (fun f s v h1 h2 h3 h4 => h4.imp id (fun h4 => ⟨s, v, h1, h2, h3, h4⟩)) (fun f u h => ?_) (fun u => rfl)
        (fun u => gives_item ht (Sled.mergeNode_keeps hc mN u a.2))
      · simp only [Call.Creates, Op.entities]
        exact List.mem_append_left _ (mem_itemEntities ha (by simp [h]))
      · simp [pieceIn, callIn, h]
    · have hS0 : Sup b (Others b th) (· ∈ (⟨.merge src, ids⟩ : Call E NP EP).ulids) (0 + 3 * src.edges.length) i' := by
        rw [Nat.zero_add]; exact hS'
      have := follows_absorb (E := E) (cl := cl) (cr := cr) (c := c) (mN := mN) (mE := mE) (O := Others b th)
        (A := Allowed (⟨⟨.merge src, ids⟩, ps⟩ : PieceCall E NP EP)) (W := Why b f0 th) (J := Sled.WellFormed Ulid c)
        (kk := fun _ => .ret ()) (K := fun i => .ret (i, .ok ())) (f := fun x => mergeEdge cl cr c mE x.1 x.2)
        (sh := fun g => (Gen.fresh g).2) (y := fun x g => (.mergeEdge (.ulid (Gen.fresh g).1) x.1 x.2, ps)) (l := [])
        (fun _ _ => rfl) hP src.edges (fun a ha => ?_) hS0 (fun _ i'' _ _ => .ret (fun _ _ => .inl rfl))
      · rw [Nat.zero_add, show (if fails src.edges then [] else []) = ([] : List (Sled.PieceCall E Entity NP EP)) by split <;> rfl,
          List.append_nil] at this
        have eg : i'.gen = ids.gen := by
          rw [e', show (id : Gen Ulid → Gen Ulid)^[src.nodes.length] = id from Function.iterate_id _]; rfl
        rw [eg] at this
        exact this
      · refine does_edge hl hr tl tr hb (p := fun w u => Sled.mergeEdge c mE w u a.2)
          (y := fun w => (.mergeEdge (.ulid w) a.1 a.2, ps)) (fun w u => (.mergeEdge w u a.2, ps)) (fun s u h hu => ⟨?_, hu⟩)
          (fun f s v w h1 h2 h3 h4 => h4.imp id (fun h4 => ⟨s, v, h1, h2, h3, h4⟩)) (fun f w u h => ?_) (fun w u => rfl)
          (fun w u => gives_item ht (Sled.mergeEdge_keeps hc mE w u a.2))
        · simp only [Call.Creates, Op.entities]
          exact List.mem_append_right _ (mem_itemEntities ha h)
        · simp [pieceIn, callIn, h, idIn]

end RdfSled

end Verif
