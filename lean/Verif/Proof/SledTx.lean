import Verif.Spec.SledTx
import Verif.Proof.BMap

/-!
# Transactions run by sled as it likes are single steps
-/

namespace Verif

open Spec ConcreteId

/-- the trees are independent of one another, and all there is -/
class LawfulTrees (S : Type) {T : Type} [DecidableEq T] [Trees S T] : Prop where
  look_put : ∀ (s : S) (t t' : T) (k k' : Bytes) (v : Option Bytes),
    Trees.look (Trees.put s t k v) t' k' = if t' = t ∧ k' = k then v else Trees.look s t' k'
  ext : ∀ s s' : S, (∀ (t : T) (k : Bytes), Trees.look s t k = Trees.look s' t k) → s = s'

set_option linter.unusedSectionVars false

namespace Tx

variable {S T X α β : Type} [DecidableEq T] [Trees S T]

namespace Overlay

theorem valid_of_get {o : Overlay T} {s s' : S} {t : T} {k : Bytes} (hv : (o.get s t k).2.Valid s') : o.Valid s' := by
  intro t' k' v hr
  refine hv t' k' v ?_
  unfold get
  cases hw : o.writes t k with
  | some v => exact hr
  | none =>
    cases hr2 : o.reads t k with
    | some v => exact hr
    | none =>
      have hne : ¬ (t' = t ∧ k' = k) := by
        rintro ⟨rfl, rfl⟩; rw [hr2] at hr; cases hr
      simpa [upd, hne] using hr

theorem get_spec {o : Overlay T} {s s' s1 : S} {t : T} {k : Bytes} (hv : (o.get s t k).2.Valid s') (hc : o.Commits s' s1) :
    (o.get s t k).1 = Trees.look s1 t k ∧ (o.get s t k).2.writes = o.writes := by
  have hv0 := valid_of_get hv
  unfold get at hv ⊢
  have h1 := hc t k
  cases hw : o.writes t k with
  | some v => rw [hw] at hv h1; exact ⟨h1.symm, rfl⟩
  | none =>
    rw [hw] at hv h1
    cases hr : o.reads t k with
    | some v => rw [hr] at hv; exact ⟨(h1.trans (hv t k v hr)).symm, rfl⟩
    | none =>
      rw [hr] at hv
      exact ⟨(h1.trans (hv t k (Trees.look s t k) (by simp [upd]))).symm, rfl⟩

/-- in a state in which nothing has changed, reading keeps the overlay valid -/
theorem get_valid {o : Overlay T} {s : S} {t : T} {k : Bytes} (hv : o.Valid s) : (o.get s t k).2.Valid s := by
  unfold get
  cases hw : o.writes t k with
  | some v => exact hv
  | none =>
    cases hr : o.reads t k with
    | some v => exact hv
    | none =>
      intro t' k' v h
      by_cases e : t' = t ∧ k' = k
      · obtain ⟨rfl, rfl⟩ := e
        simpa [upd] using h
      · exact hv t' k' v (by simpa [upd, e] using h)

theorem write_commits [LawfulTrees S] {o : Overlay T} {s s1 : S} {t : T} {k : Bytes} {v : Option Bytes} (hc : o.Commits s s1) :
    Commits { o with writes := upd o.writes t k v } s (Trees.put s1 t k v) := by
  intro t' k'
  rw [LawfulTrees.look_put]
  by_cases e : t' = t ∧ k' = k
  · simp [upd, e]
  · simp only [upd, if_neg e]
    exact hc t' k'

theorem new_valid (s : S) : (new : Overlay T).Valid s := fun _ _ _ h => nomatch h

theorem new_commits (s : S) : (new : Overlay T).Commits s s := fun _ _ => rfl

theorem commits_unique [LawfulTrees S] {o : Overlay T} {s s1 s2 : S} (h1 : o.Commits s s1) (h2 : o.Commits s s2) : s1 = s2 :=
  LawfulTrees.ext (T := T) _ _ (fun t k => (h1 t k).trans (h2 t k).symm)

end Overlay

/-- What a thread in a transaction has done so far is a part of running the closure at once, in any state in which what it has
read still holds. -/
def Good (th : Thread S T X α) : Prop :=
  ∀ y, th.1 = some y → ∃ f k q, th.2 = .call f k :: q ∧ Performs y.body y.back f k ∧
    ∀ s : S, y.over.Valid s → ∃ s1, y.over.Commits s s1 ∧ y.body.atomic s = y.now.atomic s1

theorem good_none (q : List (Prog S α)) : Good ((none, q) : Thread S T X α) := fun _ h => nomatch h

/-- the threads without their transactions -/
def coarse (x : S × List (Thread S T X α)) : S × List (List (Prog S α)) := (x.1, x.2.map Prod.snd)

theorem coarse_mk (s : S) (pre post : List (Thread S T X α)) (y : Option (Busy S T X α)) (q : List (Prog S α)) :
    coarse (s, pre ++ (y, q) :: post) = (s, pre.map Prod.snd ++ q :: post.map Prod.snd) := by
  simp [coarse]

theorem good_split {pre post : List (Thread S T X α)} {th th' : Thread S T X α} (h : ∀ x ∈ pre ++ th :: post, Good x) (h' : Good th') :
    Good th ∧ ∀ x ∈ pre ++ th' :: post, Good x := by
  refine ⟨h th (by simp), fun x hx => ?_⟩
  rcases List.mem_append.1 hx with hx | hx
  · exact h x (by simp [hx])
  · rcases List.mem_cons.1 hx with rfl | hx
    · exact h'
    · exact h x (by simp [hx])

/-- a step in a transaction changes nothing, or is the step that the transaction stands for -/
theorem txStep_coarse [LawfulTrees S] {closures : Tx T X → Prop} {x y : S × List (Thread S T X α)} (h : TxStep closures x y)
    (hx : ∀ th ∈ x.2, Good th) : (∀ th ∈ y.2, Good th) ∧ (coarse y = coarse x ∨ CalmStep (coarse x) (coarse y)) := by
  cases h with
  | begin s pre post f k q b back hb h =>
    refine ⟨(good_split hx ?_).2, .inl (by simp [coarse])⟩
    rintro y ⟨⟩
    exact ⟨f, k, q, rfl, h, fun s _ => ⟨s, Overlay.new_commits s, rfl⟩⟩
  | get s pre post q b back t k next o =>
    refine ⟨(good_split hx ?_).2, .inl (by simp [coarse])⟩
    rintro y ⟨⟩
    obtain ⟨f, k', q', e, hp, hs⟩ := (good_split hx (good_none [])).1 _ rfl
    refine ⟨f, k', q', e, hp, fun s' hv => ?_⟩
    have hv0 := Overlay.valid_of_get hv
    obtain ⟨s1, hc, ea⟩ := hs s' hv0
    obtain ⟨e1, e2⟩ := Overlay.get_spec hv hc
    refine ⟨s1, ?_, ?_⟩
    · intro t' k''; rw [e2]; exact hc t' k''
    · rw [ea, e1]; rfl
  | write s pre post q b back t k v next o =>
    refine ⟨(good_split hx ?_).2, .inl (by simp [coarse])⟩
    rintro y ⟨⟩
    obtain ⟨f, k', q', e, hp, hs⟩ := (good_split hx (good_none [])).1 _ rfl
    refine ⟨f, k', q', e, hp, fun s' hv => ?_⟩
    have hv : (o.get s t k).2.Valid s' := hv
    have hv0 := Overlay.valid_of_get hv
    obtain ⟨s1, hc, ea⟩ := hs s' hv0
    obtain ⟨e1, e2⟩ := Overlay.get_spec hv hc
    refine ⟨Trees.put s1 t k v, ?_, ?_⟩
    · have := Overlay.write_commits (t := t) (k := k) (v := v) hc
      intro t' k''
      show _ = match Overlay.upd (o.get s t k).2.writes t k v t' k'' with | some v => v | none => _
      rw [e2]
      exact this t' k''
    · show b.atomic s' = (next (o.get s t k).1).atomic _
      rw [ea, e1]; rfl
  | again s pre post q y => exact ⟨(good_split hx (good_none _)).2, .inl (by simp [coarse])⟩
  | commit s s' pre post p q b back o hv hc =>
    refine ⟨(good_split hx (good_none _)).2, .inr ?_⟩
    obtain ⟨f, k, q', e, hp, hs⟩ := (good_split hx (good_none [])).1 _ rfl
    obtain ⟨s1, hc1, ea⟩ := hs s hv
    cases e
    have h := hp s
    rw [ea] at h
    obtain rfl := Overlay.commits_unique hc hc1
    obtain ⟨h1, h2⟩ := h
    have h2 : k s = back (.ok ()) := h2
    rw [coarse_mk, coarse_mk, ← h1, ← h2]
    exact .call ..
  | abort s pre post p q b back e o hv =>
    refine ⟨(good_split hx (good_none _)).2, .inr ?_⟩
    obtain ⟨f, k, q', e', hp, hs⟩ := (good_split hx (good_none [])).1 _ rfl
    obtain ⟨s1, _, ea⟩ := hs s hv
    cases e'
    have h := hp s
    rw [ea] at h
    obtain ⟨h1, h2⟩ := h
    have h2 : k s = back (.error e) := h2
    rw [coarse_mk, coarse_mk, ← h2]
    have := CalmStep.call s (pre.map Prod.snd) (post.map Prod.snd) f k q
    rwa [h1] at this

theorem calmStep_step {x y : S × List (List (Prog S α))} (h : CalmStep x y) : Step x y := by
  cases h with
  | call => exact .call ..
  | ret => exact .ret ..

theorem fine_step [LawfulTrees S] {closures : Tx T X → Prop} {calm : Bool} {x y : S × List (Thread S T X α)}
    (h : Fine closures calm x y) (hx : ∀ th ∈ x.2, Good th) :
    (∀ th ∈ y.2, Good th) ∧ (coarse y = coarse x ∨ CalmStep (coarse x) (coarse y) ∨ calm = false ∧ Step (coarse x) (coarse y)) := by
  cases h with
  | plain s pre post f k q h =>
    refine ⟨(good_split hx (good_none _)).2, .inr (.inl ?_)⟩
    rw [coarse_mk, coarse_mk]; exact .call ..
  | ret s pre post a q =>
    refine ⟨(good_split hx (good_none _)).2, .inr (.inl ?_)⟩
    rw [coarse_mk, coarse_mk]; exact .ret ..
  | fail s pre post y p q h =>
    refine ⟨(good_split hx (good_none _)).2, .inr (.inr ⟨h, ?_⟩)⟩
    rw [coarse_mk, coarse_mk]; exact .fail ..
  | tx _ _ h =>
    obtain ⟨hz, e | e⟩ := txStep_coarse h hx
    · exact ⟨hz, .inl e⟩
    · exact ⟨hz, .inr (.inl e)⟩

theorem fine_course [LawfulTrees S] {closures : Tx T X → Prop} {part : Bool} {y : Nat → S × List (Thread S T X α)} {N : Nat}
    (h : Course closures part y N) (h0 : ∀ th ∈ (y 0).2, Good th) :
    (∀ k ≤ N, ∀ th ∈ (y k).2, Good th) ∧ ∃ (x : Nat → S × List (List (Prog S α))) (M : Nat) (φ : Nat → Nat), Spec.Course part x M ∧
      φ 0 = 0 ∧ φ N = M ∧ (∀ k < N, φ k ≤ φ (k + 1) ∧ φ (k + 1) ≤ φ k + 1) ∧
      ∀ k ≤ N, φ k ≤ M ∧ x (φ k) = coarse (y k) := by
  induction N with
  | zero =>
    refine ⟨fun k hk => by cases Nat.le_zero.1 hk; exact h0, fun _ => coarse (y 0), 0, fun _ => 0, fun k hk => by omega, rfl, rfl,
      fun k hk => by omega, fun k hk => ?_⟩
    cases Nat.le_zero.1 hk
    exact ⟨Nat.le_refl _, rfl⟩
  | succ N ih =>
    obtain ⟨hg, x, M, φ, hC, e0, eM, hφ, hx⟩ := ih (fun k hk => h k (by omega))
    obtain ⟨hz, hs⟩ := fine_step (h N (by omega)) (hg N (by omega))
    refine ⟨fun k hk => ?_, ?_⟩
    · rcases Nat.lt_or_ge N k with hlt | hle
      · obtain rfl : k = N + 1 := by omega
        exact hz
      · exact hg k hle
    have eN := (hx N (by omega)).2
    rw [eM] at eN
    have step : coarse (y (N + 1)) = coarse (y N) ∨
        (if part then Step (coarse (y N)) (coarse (y (N + 1))) else CalmStep (coarse (y N)) (coarse (y (N + 1)))) := by
      cases part with
      | true =>
        rcases hs with e | e | ⟨_, e⟩
        · exact .inl e
        · exact .inr (calmStep_step e)
        · exact .inr e
      | false =>
        rcases hs with e | e | ⟨e, _⟩
        · exact .inl e
        · exact .inr e
        · cases e
    rcases step with e | e
    · refine ⟨x, M, fun k => if k ≤ N then φ k else M, hC, by simp [e0], by simp, fun k hk => ?_, fun k hk => ?_⟩
      · beta_reduce
        rw [if_pos (show k ≤ N by omega)]
        split
        · exact hφ k (by omega)
        · obtain rfl : k = N := by omega
          omega
      · beta_reduce
        split
        · exact hx k (by assumption)
        · obtain rfl : k = N + 1 := by omega
          exact ⟨Nat.le_refl _, eN.trans e.symm⟩
    · refine ⟨fun j => if j ≤ M then x j else coarse (y (N + 1)), M + 1, fun k => if k ≤ N then φ k else M + 1, fun k hk => ?_, by simp [e0],
        by simp, fun k hk => ?_, fun k hk => ?_⟩
      · beta_reduce
        rw [if_pos (show k ≤ M by omega)]
        rcases Nat.lt_or_ge k M with hlt | hge
        · rw [if_pos (show k + 1 ≤ M by omega)]
          exact hC k hlt
        · obtain rfl : k = M := by omega
          rw [if_neg (show ¬ k + 1 ≤ k by omega), eN]
          exact e
      · beta_reduce
        rw [if_pos (show k ≤ N by omega)]
        split
        · exact hφ k (by omega)
        · obtain rfl : k = N := by omega
          omega
      · beta_reduce
        split
        · have := hx k (by assumption)
          rw [if_pos this.1]
          exact ⟨by omega, this.2⟩
        · obtain rfl : k = N + 1 := by omega
          exact ⟨Nat.le_refl _, if_neg (by omega)⟩

theorem allValid_step {closures : Tx T X → Prop} {calm : Bool} {x y : S × List (Thread S T X α)} (h : Fine closures calm x y)
    (e : y.1 = x.1) (hx : AllValid x) : AllValid y := by
  have other : ∀ (s : S) (pre post : List (Thread S T X α)) (th th' : Thread S T X α), AllValid (s, pre ++ th :: post) →
      (∀ y, th'.1 = some y → y.over.Valid s) → AllValid (s, pre ++ th' :: post) := by
    intro s pre post th th' h h' x hx
    rcases List.mem_append.1 hx with hx | hx
    · exact h x (by simp [hx])
    · rcases List.mem_cons.1 hx with rfl | hx
      · exact h'
      · exact h x (by simp [hx])
  have none' : ∀ (s : S) (q : List (Prog S α)) (y : Busy S T X α), ((none, q) : Thread S T X α).1 = some y → y.over.Valid s :=
    fun _ _ _ h => nomatch h
  cases h with
  | plain s pre post f k q h =>
    have e : f s = s := e
    rw [e]; exact other _ _ _ _ _ hx (none' _ _)
  | ret s pre post a q => exact other _ _ _ _ _ hx (none' _ _)
  | fail s pre post y p q h => exact other _ _ _ _ _ hx (none' _ _)
  | tx _ _ h =>
    cases h with
    | begin s pre post f k q b back hb h =>
      refine other _ _ _ _ _ hx ?_
      rintro y ⟨⟩
      exact Overlay.new_valid s
    | get s pre post q b back t k next o =>
      refine other _ _ _ _ _ hx ?_
      rintro y ⟨⟩
      exact Overlay.get_valid (hx (some ⟨b, back, .get t k next, o⟩, q) (by simp) _ rfl)
    | write s pre post q b back t k v next o =>
      refine other _ _ _ _ _ hx ?_
      rintro y ⟨⟩
      exact Overlay.get_valid (t := t) (k := k) (hx (some ⟨b, back, .write t k v next, o⟩, q) (by simp) _ rfl)
    | again s pre post q y => exact other _ _ _ _ _ hx (none' _ _)
    | commit s s' pre post p q b back o hv hc =>
      have e : s' = s := e
      rw [e]; exact other _ _ _ _ _ hx (none' _ _)
    | abort s pre post p q b back e o hv => exact other _ _ _ _ _ hx (none' _ _)

theorem fine_coarse [LawfulTrees S] {closures : Tx T X → Prop} {x y : S × List (Thread S T X α)} (h : FineSteps closures false x y)
    (hx : ∀ th ∈ x.2, Good th) : (∀ th ∈ y.2, Good th) ∧ Steps (coarse x) (coarse y) := by
  induction h with
  | refl => exact ⟨hx, .refl _⟩
  | tail _ h ih =>
    obtain ⟨hy, st⟩ := ih
    cases h with
    | plain s pre post f k q h =>
      refine ⟨(good_split hy (good_none _)).2, .tail st ?_⟩
      rw [coarse_mk, coarse_mk]; exact .call ..
    | ret s pre post a q =>
      refine ⟨(good_split hy (good_none _)).2, .tail st ?_⟩
      rw [coarse_mk, coarse_mk]; exact .ret ..
    | fail s pre post y p q h =>
      refine ⟨(good_split hy (good_none _)).2, .tail st ?_⟩
      rw [coarse_mk, coarse_mk]; exact .fail ..
    | tx _ _ h =>
      obtain ⟨hz, e | e⟩ := txStep_coarse h hy
      · exact ⟨hz, e ▸ st⟩
      · exact ⟨hz, .tail st (calmStep_step e)⟩

theorem fine_coarse_calm [LawfulTrees S] {closures : Tx T X → Prop} {x y : S × List (Thread S T X α)}
    (h : FineSteps closures true x y) (hx : ∀ th ∈ x.2, Good th) : (∀ th ∈ y.2, Good th) ∧ CalmSteps (coarse x) (coarse y) := by
  induction h with
  | refl => exact ⟨hx, .refl _⟩
  | tail _ h ih =>
    obtain ⟨hy, st⟩ := ih
    cases h with
    | plain s pre post f k q h =>
      refine ⟨(good_split hy (good_none _)).2, .tail st ?_⟩
      rw [coarse_mk, coarse_mk]; exact .call ..
    | ret s pre post a q =>
      refine ⟨(good_split hy (good_none _)).2, .tail st ?_⟩
      rw [coarse_mk, coarse_mk]; exact .ret ..
    | fail s pre post y p q h => cases h
    | tx _ _ h =>
      obtain ⟨hz, e | e⟩ := txStep_coarse h hy
      · exact ⟨hz, e ▸ st⟩
      · exact ⟨hz, .tail st e⟩

/-! ## the other direction -/

theorem FineSteps.trans {closures : Tx T X → Prop} {calm : Bool} {x y z : S × List (Thread S T X α)}
    (h : FineSteps closures calm x y) (h' : FineSteps closures calm y z) : FineSteps closures calm x z := by
  induction h' with
  | refl => exact h
  | tail _ s ih => exact .tail ih s

theorem fineOne {closures : Tx T X → Prop} {calm : Bool} {x y : S × List (Thread S T X α)} (h : Fine closures calm x y) :
    FineSteps closures calm x y := .tail (.refl _) h

/-- the rest of a closure, run while nobody disturbs it -/
theorem undisturbed [LawfulTrees S] {closures : Tx T X → Prop} {calm : Bool} (s : S) (pre post : List (Thread S T X α)) (p : Prog S α)
    (q : List (Prog S α)) (b : Tx T X) (back : Except X Unit → Prog S α) (now : Tx T X) (o : Overlay T) (s1 : S)
    (hv : o.Valid s) (hc : o.Commits s s1) :
    FineSteps closures calm (s, pre ++ (some ⟨b, back, now, o⟩, p :: q) :: post)
      (match now.atomic s1 with
        | .ok s' => (s', pre ++ (none, back (.ok ()) :: q) :: post)
        | .error e => (s, pre ++ (none, back (.error e) :: q) :: post)) := by
  induction now generalizing o s1 with
  | done => exact fineOne (.tx _ _ (.commit s s1 pre post p q b back o hv hc))
  | abort e => exact fineOne (.tx _ _ (.abort s pre post p q b back e o hv))
  | get t k next ih =>
    have hv' := Overlay.get_valid (t := t) (k := k) hv
    obtain ⟨e1, e2⟩ := Overlay.get_spec hv' hc
    have := ih (o.get s t k).1 (o.get s t k).2 s1 hv' (fun t' k' => by rw [e2]; exact hc t' k')
    refine (fineOne (.tx _ _ (.get s pre post (p :: q) b back t k next o))).trans ?_
    rw [e1] at this ⊢
    exact this
  | write t k v next ih =>
    have hv' := Overlay.get_valid (t := t) (k := k) hv
    obtain ⟨e1, e2⟩ := Overlay.get_spec hv' hc
    have := ih (o.write s t k v).1 (o.write s t k v).2 (Trees.put s1 t k v) hv' (by
      have := Overlay.write_commits (t := t) (k := k) (v := v) hc
      intro t' k''
      show _ = match Overlay.upd (o.get s t k).2.writes t k v t' k'' with | some v => v | none => _
      rw [e2]
      exact this t' k'')
    refine (fineOne (.tx _ _ (.write s pre post (p :: q) b back t k v next o))).trans ?_
    have e1' : (o.write s t k v).1 = Trees.look s1 t k := e1
    rw [e1'] at this ⊢
    exact this

/-- a step which is a transaction can be made in this way -/
theorem performed [LawfulTrees S] {closures : Tx T X → Prop} {calm : Bool} {b : Tx T X} (hb : closures b)
    {back : Except X Unit → Prog S α} {f : S → S} {k : S → Prog S α} (h : Performs b back f k) (s : S)
    (pre post : List (Thread S T X α)) (q : List (Prog S α)) :
    FineSteps closures calm (s, pre ++ (none, .call f k :: q) :: post) (f s, pre ++ (none, k s :: q) :: post) := by
  refine (fineOne (.tx _ _ (.begin s pre post f k q b back hb h))).trans ?_
  have h1 := undisturbed (closures := closures) (calm := calm) s pre post (.call f k) q b back b .new s (Overlay.new_valid s)
    (Overlay.new_commits s)
  have h2 := h s
  cases e : b.atomic s with
  | ok s' =>
    rw [e] at h1 h2
    obtain ⟨e1, e2⟩ := h2
    rwa [e1, e2]
  | error x =>
    rw [e] at h1 h2
    obtain ⟨e1, e2⟩ := h2
    rwa [e1, e2]

theorem map_idle_split {progs : List (List (Prog S α))} (pre post : List (List (Prog S α))) (q : List (Prog S α))
    (h : progs = pre ++ q :: post) :
    progs.map (idle (T := T) (X := X)) = pre.map idle ++ (none, q) :: post.map idle := by
  rw [h]; simp [idle]

theorem coarse_fine_step [LawfulTrees S] {closures : Tx T X → Prop} {x y : S × List (List (Prog S α))} {calm : Bool}
    (h : CalmStep x y ∨ calm = false ∧ Step x y) (hx : ∀ th ∈ x.2, ∀ p ∈ th, p.MadeOf closures) :
    (∀ th ∈ y.2, ∀ p ∈ th, p.MadeOf closures) ∧ FineSteps closures calm (x.1, x.2.map idle) (y.1, y.2.map idle) := by
  have other : ∀ (pre post : List (List (Prog S α))) (q q' : List (Prog S α)),
      (∀ th ∈ pre ++ q :: post, ∀ p ∈ th, p.MadeOf closures) → (∀ p ∈ q', p.MadeOf closures) →
      ∀ th ∈ pre ++ q' :: post, ∀ p ∈ th, p.MadeOf closures := by
    intro pre post q q' h h' th hth
    rcases List.mem_append.1 hth with hth | hth
    · exact h th (by simp [hth])
    · rcases List.mem_cons.1 hth with rfl | hth
      · exact h'
      · exact h th (by simp [hth])
  have call : ∀ (s : S) (pre post : List (List (Prog S α))) (f : S → S) (k : S → Prog S α) (q : List (Prog S α)),
      (∀ th ∈ pre ++ (.call f k :: q) :: post, ∀ p ∈ th, p.MadeOf closures) →
      (∀ th ∈ pre ++ (k s :: q) :: post, ∀ p ∈ th, p.MadeOf closures) ∧
      FineSteps closures calm (s, (pre ++ (.call f k :: q) :: post).map idle) (f s, (pre ++ (k s :: q) :: post).map idle) := by
    intro s pre post f k q h
    obtain ⟨h1, h2⟩ := h (.call f k :: q) (by simp) (.call f k) (by simp)
    refine ⟨other _ _ _ _ h ?_, ?_⟩
    · intro p hp
      rcases List.mem_cons.1 hp with rfl | hp
      · exact h2 s
      · exact h (.call f k :: q) (by simp) p (by simp [hp])
    · rw [map_idle_split pre post _ rfl, map_idle_split pre post _ rfl]
      rcases h1 with h1 | ⟨b, back, hb, h1⟩
      · exact fineOne (.plain _ _ _ _ _ _ h1)
      · exact performed hb h1 ..
  have drop : ∀ (pre post : List (List (Prog S α))) (p : Prog S α) (q : List (Prog S α)),
      (∀ th ∈ pre ++ (p :: q) :: post, ∀ p ∈ th, p.MadeOf closures) →
      ∀ th ∈ pre ++ q :: post, ∀ p ∈ th, p.MadeOf closures := by
    intro pre post p q h
    exact other _ _ _ _ h (fun p' hp => h (p :: q) (by simp) p' (by simp [hp]))
  have ret : ∀ (s : S) (pre post : List (List (Prog S α))) (a : α) (q : List (Prog S α)),
      FineSteps closures calm (s, (pre ++ (.ret a :: q) :: post).map idle) (s, (pre ++ q :: post).map idle) := by
    intro s pre post a q
    rw [map_idle_split pre post _ rfl, map_idle_split pre post _ rfl]
    exact fineOne (.ret ..)
  rcases h with h | ⟨rfl, h⟩
  · cases h with
    | call s pre post f k q => exact call s pre post f k q hx
    | ret s pre post a q => exact ⟨drop _ _ _ _ hx, ret ..⟩
  · cases h with
    | call s pre post f k q => exact call s pre post f k q hx
    | ret s pre post a q => exact ⟨drop _ _ _ _ hx, ret ..⟩
    | fail s pre post p q =>
      refine ⟨drop _ _ _ _ hx, ?_⟩
      rw [map_idle_split pre post _ rfl, map_idle_split pre post _ rfl]
      exact fineOne (.fail _ _ _ _ _ _ rfl)

theorem coarse_fine [LawfulTrees S] {closures : Tx T X → Prop} {x y : S × List (List (Prog S α))} (h : Steps x y)
    (hx : ∀ th ∈ x.2, ∀ p ∈ th, p.MadeOf closures) :
    (∀ th ∈ y.2, ∀ p ∈ th, p.MadeOf closures) ∧ FineSteps closures false (x.1, x.2.map idle) (y.1, y.2.map idle) := by
  induction h with
  | refl => exact ⟨hx, .refl _⟩
  | tail _ h ih =>
    obtain ⟨hy, st⟩ := ih
    obtain ⟨hz, st'⟩ := coarse_fine_step (.inr ⟨rfl, h⟩) hy
    exact ⟨hz, st.trans st'⟩

theorem coarse_fine_calm [LawfulTrees S] {closures : Tx T X → Prop} {x y : S × List (List (Prog S α))} (h : CalmSteps x y)
    (hx : ∀ th ∈ x.2, ∀ p ∈ th, p.MadeOf closures) :
    (∀ th ∈ y.2, ∀ p ∈ th, p.MadeOf closures) ∧ FineSteps closures true (x.1, x.2.map idle) (y.1, y.2.map idle) := by
  induction h with
  | refl => exact ⟨hx, .refl _⟩
  | tail _ h ih =>
    obtain ⟨hy, st⟩ := ih
    obtain ⟨hz, st'⟩ := coarse_fine_step (.inl h) hy
    exact ⟨hz, st.trans st'⟩

theorem coarse_idle (s : S) (threads : List (List (Prog S α))) :
    coarse (T := T) (X := X) (s, threads.map idle) = (s, threads) := by
  simp [coarse, idle, Function.comp_def]

theorem good_idle (threads : List (List (Prog S α))) : ∀ th ∈ threads.map (idle (T := T) (X := X)), Good th := by
  intro th h
  obtain ⟨q, _, rfl⟩ := List.mem_map.1 h
  exact good_none q

theorem moment_iff [LawfulTrees S] {closures : Tx T X → Prop} {s s' : S} {threads : List (List (Prog S α))}
    (hm : ∀ th ∈ threads, ∀ p ∈ th, p.MadeOf closures) : Moment closures s threads s' ↔ ∃ rest, Steps (s, threads) (s', rest) := by
  constructor
  · rintro ⟨rest, h⟩
    have := (fine_coarse h (good_idle threads)).2
    rw [coarse_idle] at this
    exact ⟨_, this⟩
  · rintro ⟨rest, h⟩
    exact ⟨_, (coarse_fine h hm).2⟩

theorem final_iff [LawfulTrees S] {closures : Tx T X → Prop} {s s' : S} {threads : List (List (Prog S α))}
    (hm : ∀ th ∈ threads, ∀ p ∈ th, p.MadeOf closures) :
    Final closures s threads s' ↔ ∃ rest, CalmSteps (s, threads) (s', rest) ∧ ∀ th ∈ rest, th = [] := by
  constructor
  · rintro ⟨rest, h, he⟩
    have := (fine_coarse_calm h (good_idle threads)).2
    rw [coarse_idle] at this
    refine ⟨_, this, fun th hth => ?_⟩
    obtain ⟨y, hy, rfl⟩ := List.mem_map.1 hth
    rw [he y hy]; rfl
  · rintro ⟨rest, h, he⟩
    refine ⟨_, (coarse_fine_calm h hm).2, fun th hth => ?_⟩
    obtain ⟨y, hy, rfl⟩ := List.mem_map.1 hth
    rw [he y hy]

end Tx

end Verif
