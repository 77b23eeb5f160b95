import Verif.Proof.MemSet

/-! # `try_eq`, `==` and `Debug` -/

set_option linter.unusedSectionVars false

namespace Verif

open Spec ConcreteId

/-! ## try_eq -/

section
variable {α L R : Type} [BEq α]

theorem tryEqLoop_ok (xs ys : List α) :
    tryEqLoop (L := L) (R := R) (xs.map .ok) (ys.map .ok) =
      .ok (if xs == ys then none else some false) := by
  induction xs generalizing ys with
  | nil => cases ys <;> simp [tryEqLoop]
  | cons a xs ih =>
    cases ys with
    | nil => simp [tryEqLoop]
    | cons b ys =>
      simp only [List.map_cons, tryEqLoop, ih, List.cons_beq_cons]
      by_cases h : (a == b) = true <;> simp [h]

theorem tryEqLoop_left (xs : List (Except L α)) (ys : List (Except R α)) (e : L) :
    tryEqLoop xs ys = .error (.left e) ↔
      ∃ c d : List α, (c.map .ok ++ [.error e]) <+: xs ∧ d.map .ok <+: ys ∧ (c == d) = true ∧ d.length < ys.length := by
  induction xs generalizing ys with
  | nil =>
    cases ys <;> simp [tryEqLoop]
  | cons x xs ih =>
    cases ys with
    | nil => simp [tryEqLoop]
    | cons y ys =>
      simp only [tryEqLoop]
      cases x with
      | error e' =>
        simp only [Except.error.injEq, LR.left.injEq]
        constructor
        · rintro rfl; exact ⟨[], [], by simp⟩
        · rintro ⟨c, d, h1, h2, h3, h4⟩
          cases c with
          | nil => simp at h1; exact h1.symm
          | cons a c => simp at h1
      | ok a =>
        cases y with
        | error e' =>
          simp only [Except.error.injEq, reduceCtorEq, false_iff, not_exists]
          rintro c d ⟨h1, h2, h3, h4⟩
          cases c with
          | nil => simp at h1
          | cons a c =>
            cases d with
            | nil => simp at h3
            | cons b d => simp at h2
        | ok b =>
          simp only []
          cases hab : a == b with
          | false =>
            simp only [Bool.not_false, if_true, reduceCtorEq, false_iff, not_exists]
            rintro c d ⟨h1, h2, h3, h4⟩
            cases c with
            | nil => simp at h1
            | cons a c =>
              cases d with
              | nil => simp at h3
              | cons b d =>
                simp at h1 h2 h3
                obtain ⟨rfl, -⟩ := h1
                obtain ⟨rfl, -⟩ := h2
                rw [hab] at h3
                simp at h3
          | true =>
            simp only [Bool.not_true, Bool.false_eq_true, if_false]
            rw [ih]
            constructor
            · rintro ⟨c, d, h1, h2, h3, h4⟩
              exact ⟨a :: c, b :: d, by simpa using h1, by simpa using h2, by simp [hab, h3], by simpa using h4⟩
            · rintro ⟨c, d, h1, h2, h3, h4⟩
              cases c with
              | nil => simp at h1
              | cons a c =>
                cases d with
                | nil => simp at h3
                | cons b d =>
                  simp at h1 h2 h3 h4
                  exact ⟨c, d, h1.2, h2.2, by simp [h3], h4⟩

theorem tryEqLoop_right (xs : List (Except L α)) (ys : List (Except R α)) (e : R) :
    tryEqLoop xs ys = .error (.right e) ↔
      ∃ (c d : List α) (a : α), (c ++ [a]).map .ok <+: xs ∧ (d.map .ok ++ [.error e]) <+: ys ∧ (c == d) = true := by
  induction xs generalizing ys with
  | nil =>
    cases ys <;> simp [tryEqLoop]
  | cons x xs ih =>
    cases ys with
    | nil => simp [tryEqLoop]
    | cons y ys =>
      simp only [tryEqLoop]
      cases x with
      | error e' =>
        simp only [Except.error.injEq, reduceCtorEq, false_iff, not_exists]
        rintro c d a ⟨h1, h2, h3⟩
        cases c with
        | nil => simp at h1
        | cons d c => simp at h1
      | ok a =>
        cases y with
        | error e' =>
          simp only [Except.error.injEq, LR.right.injEq]
          constructor
          · rintro rfl; exact ⟨[], [], a, by simp⟩
          · rintro ⟨c, d, x, h1, h2, h3⟩
            cases d with
            | nil => simp at h2; exact h2.symm
            | cons a c => simp at h2
        | ok b =>
          simp only []
          cases hab : a == b with
          | false =>
            simp only [Bool.not_false, if_true, reduceCtorEq, false_iff, not_exists]
            rintro c d x ⟨h1, h2, h3⟩
            cases d with
            | nil => simp at h2
            | cons b d =>
              cases c with
              | nil => simp at h3
              | cons a c =>
                simp at h1 h2 h3
                obtain ⟨rfl, -⟩ := h1
                obtain ⟨rfl, -⟩ := h2
                rw [hab] at h3
                simp at h3
          | true =>
            simp only [Bool.not_true, Bool.false_eq_true, if_false]
            rw [ih]
            constructor
            · rintro ⟨c, d, x, h1, h2, h3⟩
              exact ⟨a :: c, b :: d, x, by simpa using h1, by simpa using h2, by simp [hab, h3]⟩
            · rintro ⟨c, d, x, h1, h2, h3⟩
              cases d with
              | nil => simp at h2
              | cons b d =>
                cases c with
                | nil => simp at h3
                | cons a c =>
                  simp at h1 h2 h3
                  exact ⟨c, d, x, by simpa using h1.2, h2.2, by simp [h3]⟩

theorem tryEqLoop_none (xs : List (Except L α)) (ys : List (Except R α)) :
    tryEqLoop xs ys = .ok none ↔ ∃ c d : List α, xs = c.map .ok ∧ ys = d.map .ok ∧ (c == d) = true := by
  induction xs generalizing ys with
  | nil =>
    cases ys with
    | nil => simp [tryEqLoop]
    | cons y ys =>
      simp only [tryEqLoop, Except.ok.injEq, reduceCtorEq, false_iff, not_exists]
      rintro c d ⟨h1, h2, h3⟩
      cases c with
      | nil => cases d <;> simp at h2 h3
      | cons _ _ => simp at h1
  | cons x xs ih =>
    cases ys with
    | nil =>
      simp only [tryEqLoop, Except.ok.injEq, reduceCtorEq, false_iff, not_exists]
      rintro c d ⟨h1, h2, h3⟩
      cases d with
      | nil => cases c <;> simp at h1 h3
      | cons _ _ => simp at h2
    | cons y ys =>
      simp only [tryEqLoop]
      cases x with
      | error e =>
        simp only [reduceCtorEq, false_iff, not_exists]
        rintro c d ⟨h1, h2, h3⟩
        cases c <;> simp at h1
      | ok a =>
        cases y with
        | error e =>
          simp only [reduceCtorEq, false_iff, not_exists]
          rintro c d ⟨h1, h2, h3⟩
          cases d <;> simp at h2
        | ok b =>
          simp only []
          cases hab : a == b with
          | false =>
            simp only [Bool.not_false, if_true, Except.ok.injEq, reduceCtorEq, false_iff, not_exists]
            rintro c d ⟨h1, h2, h3⟩
            cases c with
            | nil => simp at h1
            | cons a c =>
              cases d with
              | nil => simp at h3
              | cons b d =>
                simp at h1 h2 h3
                obtain ⟨rfl, -⟩ := h1
                obtain ⟨rfl, -⟩ := h2
                rw [hab] at h3
                simp at h3
          | true =>
            simp only [Bool.not_true, Bool.false_eq_true, if_false]
            rw [ih]
            constructor
            · rintro ⟨c, d, rfl, rfl, h3⟩
              exact ⟨a :: c, b :: d, by simp, by simp, by simp [hab, h3]⟩
            · rintro ⟨c, d, h1, h2, h3⟩
              cases c with
              | nil => simp at h1
              | cons a c =>
                cases d with
                | nil => simp at h3
                | cons b d =>
                  simp at h1 h2 h3
                  exact ⟨c, d, h1.2, h2.2, by simp [h3]⟩

theorem tryEq_left {Id NP EP : Type} [DecidableEq Id] [BEq NP] [BEq EP] (a : Source L Id NP EP) (b : Source R Id NP EP) (e : L) :
    tryEq a b = .error (.left e) ↔ tryEqLoop a.nodes b.nodes = .error (.left e) ∨
      (tryEqLoop a.nodes b.nodes = .ok none ∧ tryEqLoop a.edges b.edges = .error (.left e)) := by
  unfold tryEq
  cases h : tryEqLoop a.nodes b.nodes with
  | error x => simp
  | ok o =>
    cases o with
    | some r => simp
    | none =>
      cases h' : tryEqLoop a.edges b.edges with
      | error x => simp
      | ok o => cases o <;> simp

theorem tryEq_right {Id NP EP : Type} [DecidableEq Id] [BEq NP] [BEq EP] (a : Source L Id NP EP) (b : Source R Id NP EP) (e : R) :
    tryEq a b = .error (.right e) ↔ tryEqLoop a.nodes b.nodes = .error (.right e) ∨
      (tryEqLoop a.nodes b.nodes = .ok none ∧ tryEqLoop a.edges b.edges = .error (.right e)) := by
  unfold tryEq
  cases h : tryEqLoop a.nodes b.nodes with
  | error x => simp
  | ok o =>
    cases o with
    | some r => simp
    | none =>
      cases h' : tryEqLoop a.edges b.edges with
      | error x => simp
      | ok o => cases o <;> simp

theorem tryEq_lists {Id NP EP : Type} [DecidableEq Id] [BEq NP] [BEq EP] {a : Source L Id NP EP}
    {b : Source R Id NP EP} {an bn : List (Id × NP)} {ae be : List (Triple Id × EP)} (h1 : a.nodes = an.map .ok)
    (h2 : a.edges = ae.map .ok) (h3 : b.nodes = bn.map .ok) (h4 : b.edges = be.map .ok) :
    tryEq a b = .ok (an == bn && ae == be) := by
  unfold tryEq
  rw [h1, h2, h3, h4, tryEqLoop_ok, tryEqLoop_ok]
  cases an == bn <;> cases ae == be <;> rfl

end

theorem tryEq_spec {L R Id NP EP : Type} [LinearOrder Id] [BEq NP] [LawfulBEq NP] [BEq EP] [LawfulBEq EP]
    {a : Source L Id NP EP} {b : Source R Id NP EP} {G H : Graph Id NP EP}
    (ha : RepresentsSorted a G) (hb : RepresentsSorted b H) :
    (tryEq a b = .ok true ↔ G = H) ∧ (tryEq a b = .ok false ↔ G ≠ H) := by
  obtain ⟨⟨an, han, han'⟩, ⟨ae, hae, hae'⟩⟩ := ha
  obtain ⟨⟨bn, hbn, hbn'⟩, ⟨be, hbe, hbe'⟩⟩ := hb
  have e1 : an = bn ↔ G.nodes = H.nodes :=
    ⟨fun e => by subst e; exact Lists.map_eq han' hbn',
     fun e => Lists.unique lt_irrefl (fun _ _ _ => lt_trans) han' (e ▸ hbn')⟩
  have e2 : ae = be ↔ G.edges = H.edges :=
    ⟨fun e => by subst e; exact Lists.map_eq hae' hbe',
     fun e => Lists.unique (edgeLT_irrefl _) (fun _ _ _ => edgeLT_trans _) hae' (e ▸ hbe')⟩
  have e3 : G = H ↔ an = bn ∧ ae = be := by
    rw [e1, e2]; cases G; cases H; simp
  rw [tryEq_lists han hae hbn hbe, Ne, e3, ← Bool.and_eq_true_iff.trans (and_congr beq_iff_eq beq_iff_eq)]
  cases (an == bn && ae == be) <;> simp

variable {Id NP EP : Type} [LinearOrder Id] [ConcreteId Id] [LawfulId Id]

/-! ## == -/

theorem zip_eq_iff_prefix {α : Type} (l m : List α) :
    (∀ x ∈ l.zip m, x.1 = x.2) ↔ l <+: m ∨ m <+: l := by
  induction l generalizing m with
  | nil => simp
  | cons a l ih =>
    cases m with
    | nil => simp
    | cons b m =>
      simp only [List.zip_cons_cons, List.mem_cons, forall_eq_or_imp, ih, List.cons_prefix_cons]
      constructor
      · rintro ⟨rfl, h⟩; simpa using h
      · rintro (⟨rfl, h⟩ | ⟨rfl, h⟩) <;> simp [h]

namespace Mem

theorem eqLoop_iff [BEq EP] (a b : Mem Id NP EP) (cache : HSet (Id × Id))
    (hc : ∀ i j, (i, j) ∈ cache → (a.edgeProps.get i == b.edgeProps.get j) = true)
    (l : List ((TKey Id × Id) × (TKey Id × Id))) :
    eqLoop a b cache l = true ↔ ∀ x ∈ l, x.1.1 = x.2.1 ∧ (a.edgeProps.get x.1.2).isSome ∧
      (a.edgeProps.get x.1.2 == b.edgeProps.get x.2.2) = true := by
  induction l generalizing cache with
  | nil => simp [eqLoop]
  | cons z l ih =>
    obtain ⟨x, y⟩ := z
    simp only [eqLoop, List.mem_cons, forall_eq_or_imp]
    by_cases hk : x.1 = y.1
    · rw [if_neg (by simp [hk])]
      unfold eqEdgePropById
      cases hp : a.edgeProps.get x.2 with
      | none => simp
      | some p =>
        cases hq : b.edgeProps.get y.2 with
        | none => simp
        | some q =>
          simp only [Option.isNone_some, Bool.or_self, Bool.false_eq_true, if_false,
            Option.isSome_some, true_and]
          by_cases hcc : cache.contains (x.2, y.2) = true
          · simp only [hcc, if_true]
            have := hc _ _ (List.contains_iff_mem.1 hcc)
            rw [hp, hq] at this
            rw [ih _ hc]
            simp only [hk, this, true_and]
          · simp only [hcc, Bool.false_eq_true, if_false]
            cases hpq : some p == some q with
            | true =>
              simp only [if_true]
              rw [ih]
              · simp [hk]
              · intro i j hij
                unfold HSet.insert at hij
                split at hij
                · exact hc i j hij
                · rcases List.mem_append.1 hij with h | h
                  · exact hc i j h
                  · simp only [List.mem_cons, List.mem_nil_iff, or_false, Prod.mk.injEq] at h
                    rw [h.1, h.2, hp, hq, hpq]
            | false => simp
    · simp [hk]

theorem entries_eq {s : Mem Id NP EP} (h : Inv s) :
    s.spo.entries.map (fun e => (e.1, s.edgeProps.get e.2)) =
      (s.edgeList .SPO).map (fun x => (encodeSpo x.1, some x.2)) := by
  unfold edgeList orderedEdges
  have : ∀ e ∈ s.spo.entries, (s.edgeProps.get e.2).isSome := by
    rintro ⟨k, i⟩ he
    rw [h.ref]
    exact ⟨decodeSpo k, by rw [idOf, LawfulId.encSpo_dec]; exact BMap.mem_entries.1 he⟩
  generalize s.spo.entries = l at this
  induction l with
  | nil => rfl
  | cons e l ih =>
    obtain ⟨p, hp⟩ := Option.isSome_iff_exists.1 (this e (by simp))
    simp only [List.map_cons, hp, List.filterMap_cons, Option.map_some]
    rw [ih (fun x hx => this x (List.mem_cons_of_mem _ hx)), LawfulId.encSpo_dec]

theorem eq_iff_zip [BEq NP] [BEq EP] {a b : Mem Id NP EP} (ha : Inv a) (hb : Inv b) :
    a.eq b = true ↔ (a.nodeProps.entries == b.nodeProps.entries) = true ∧
      ∀ x ∈ (a.edgeList .SPO).zip (b.edgeList .SPO), (x.1 == x.2) = true := by
  unfold eq
  have key : eqLoop a b [] (a.spo.entries.zip b.spo.entries) = true ↔
      ∀ x ∈ (a.edgeList .SPO).zip (b.edgeList .SPO), (x.1 == x.2) = true := by
    rw [eqLoop_iff a b [] (by simp)]
    have hz : (a.spo.entries.zip b.spo.entries).map
        (fun x => ((x.1.1, a.edgeProps.get x.1.2), (x.2.1, b.edgeProps.get x.2.2))) =
        ((a.edgeList .SPO).zip (b.edgeList .SPO)).map
          (fun x => ((encodeSpo x.1.1, some x.1.2), (encodeSpo x.2.1, some x.2.2))) := by
      have e1 := entries_eq ha
      have e2 := entries_eq hb
      have := congrArg₂ List.zip e1 e2
      rw [List.zip_map, List.zip_map] at this
      exact this
    constructor
    · intro h x hx
      have : ((encodeSpo x.1.1, some x.1.2), (encodeSpo x.2.1, some x.2.2)) ∈
          (a.spo.entries.zip b.spo.entries).map
            (fun x => ((x.1.1, a.edgeProps.get x.1.2), (x.2.1, b.edgeProps.get x.2.2))) := by
        rw [hz]; exact List.mem_map.2 ⟨x, hx, rfl⟩
      obtain ⟨y, hy, e⟩ := List.mem_map.1 this
      simp only [Prod.mk.injEq] at e
      obtain ⟨⟨e1, e2⟩, e3, e4⟩ := e
      obtain ⟨h1, h2, h3⟩ := h y hy
      rw [e2, e4] at h3
      have e : x.1.1 = x.2.1 := by rw [← encSpo_inj, ← e1, ← e3, h1]
      exact Bool.and_eq_true_iff.2 ⟨beq_iff_eq.2 e, h3⟩
    · intro h y hy
      have : ((y.1.1, a.edgeProps.get y.1.2), (y.2.1, b.edgeProps.get y.2.2)) ∈
          ((a.edgeList .SPO).zip (b.edgeList .SPO)).map
          (fun x => ((encodeSpo x.1.1, some x.1.2), (encodeSpo x.2.1, some x.2.2))) := by
        rw [← hz]; exact List.mem_map.2 ⟨y, hy, rfl⟩
      obtain ⟨x, hx, e⟩ := List.mem_map.1 this
      simp only [Prod.mk.injEq] at e
      obtain ⟨⟨e1, e2⟩, e3, e4⟩ := e
      have hh := Bool.and_eq_true_iff.1 (h x hx)
      have h1 : x.1.1 = x.2.1 := beq_iff_eq.1 hh.1
      refine ⟨?_, ?_, ?_⟩
      · rw [← e1, ← e3, h1]
      · rw [← e2]; rfl
      · rw [← e2, ← e4]; exact hh.2
  cases a.nodeProps.entries == b.nodeProps.entries with
  | true => simp only [Bool.not_true, Bool.false_eq_true, if_false, key, true_and]
  | false => simp

theorem eq_iff [BEq NP] [LawfulBEq NP] [BEq EP] [LawfulBEq EP] {a b : Mem Id NP EP} (ha : Inv a) (hb : Inv b) :
    a.eq b = true ↔ a.nodeProps.entries = b.nodeProps.entries ∧
      (a.edgeList .SPO <+: b.edgeList .SPO ∨ b.edgeList .SPO <+: a.edgeList .SPO) := by
  rw [eq_iff_zip ha hb, beq_iff_eq, ← zip_eq_iff_prefix]
  simp only [beq_iff_eq]

/-! ## Debug -/

theorem foldl_insert_get {K V α : Type} [LinearOrder K] (κ : α → K) (ν : α → V) (l : List α) (m : BMap K V)
    (hinj : l.Pairwise (fun a b => κ a ≠ κ b)) (k : K) :
    (l.foldl (fun m e => m.insert (κ e) (ν e)) m).get k =
      match l.find? (fun e => decide (κ e = k)) with
      | some e => some (ν e)
      | none => m.get k := by
  induction l generalizing m with
  | nil => rfl
  | cons a l ih =>
    rw [List.pairwise_cons] at hinj
    rw [List.foldl_cons, ih _ hinj.2, List.find?_cons]
    by_cases h : κ a = k
    · have : l.find? (fun e => decide (κ e = k)) = none := by
        rw [List.find?_eq_none]
        intro x hx
        simp only [decide_eq_true_eq]
        exact fun e => hinj.1 x hx (h.trans e.symm)
      simp [this, h, BMap.get_insert]
    · simp only [h, decide_false]
      cases l.find? (fun e => decide (κ e = k)) with
      | some e => rfl
      | none => simp [BMap.get_insert, Ne.symm h]

theorem find?_pair {α K V : Type} [DecidableEq K] {l : List α} {κ : α → K} {ν : α → V}
    (hinj : l.Pairwise (fun a b => κ a ≠ κ b)) (k : K) (v : V) :
    (l.find? (fun e => decide (κ e = k))).map ν = some v ↔ ∃ e ∈ l, κ e = k ∧ ν e = v := by
  induction l with
  | nil => simp
  | cons a l ih =>
    rw [List.pairwise_cons] at hinj
    rw [List.find?_cons]
    by_cases h : κ a = k
    · simp only [h, decide_true, Option.map_some, Option.some.injEq, List.mem_cons, exists_eq_or_imp, true_and]
      constructor
      · exact .inl
      · rintro (h' | ⟨e, he, h1, h2⟩)
        · exact h'
        · exact absurd (h.trans h1.symm) (hinj.1 e he)
    · simp [h, ih hinj.2]

theorem foldl_insert_get_iff {K V α : Type} [LinearOrder K] (κ : α → K) (ν : α → V) (l : List α)
    (hinj : l.Pairwise (fun a b => κ a ≠ κ b)) (k : K) (v : V) :
    (l.foldl (fun m e => m.insert (κ e) (ν e)) BMap.empty).get k = some v ↔
      ∃ e ∈ l, κ e = k ∧ ν e = v := by
  rw [foldl_insert_get κ ν l _ hinj, ← find?_pair hinj]
  cases l.find? (fun e => decide (κ e = k)) with
  | some e => simp
  | none => simp [BMap.empty, BMap.get, alGet]

theorem edgeHashes_get (F : DebugFmt Id NP EP) {s : Mem Id NP EP} (h : Inv s) {t : Triple Id} {i : Id}
    (hi : s.idOf t = some i) : (s.edgeHashes F).get i = some (F.hash (encodeSpo t)) := by
  unfold edgeHashes
  rw [foldl_insert_get_iff (fun e : TKey Id × Id => e.2) (fun e => F.hash e.1)]
  · exact ⟨(encodeSpo t, i), BMap.mem_entries.2 hi, rfl, rfl⟩
  · refine List.Pairwise.imp_of_mem (R := fun a b => a.1 < b.1) ?_ s.spo.sorted
    rintro ⟨k, x⟩ ⟨k', y⟩ hk hk' hlt (e : x = y)
    subst e
    have h1 : s.idOf (decodeSpo k) = some x := by
      rw [idOf, LawfulId.encSpo_dec]; exact BMap.mem_entries.1 hk
    have h2 : s.idOf (decodeSpo k') = some x := by
      rw [idOf, LawfulId.encSpo_dec]; exact BMap.mem_entries.1 hk'
    have := h.inj _ _ _ h1 h2
    have : k = k' := by rw [← LawfulId.encSpo_dec (Id := Id) k, this, LawfulId.encSpo_dec]
    exact ne_of_lt hlt this

theorem hashToEdgeData_get (F : DebugFmt Id NP EP) {s : Mem Id NP EP} (h : Inv s)
    (hh : ∀ t u, (s.graph.edges t).isSome → (s.graph.edges u).isSome →
      F.hash (encodeSpo t) = F.hash (encodeSpo u) → t = u) (k : WithBot Nat) (p : EP) :
    (s.hashToEdgeData F).get k = some p ↔
      ∃ t, (some (F.hash (encodeSpo t)) : Option Nat) = k ∧ s.graph.edges t = some p := by
  unfold hashToEdgeData
  have getid : ∀ e ∈ s.edgeProps.entries, ∃ t, s.idOf t = some e.1 ∧ s.graph.edges t = some e.2 := by
    rintro ⟨i, q⟩ he
    have hq := BMap.mem_entries.1 he
    obtain ⟨t, ht⟩ := (h.ref i).1 (by rw [hq]; rfl)
    exact ⟨t, ht, by simp [graph, ht, hq]⟩
  rw [foldl_insert_get_iff (K := WithBot Nat) (fun e : Id × EP => ((s.edgeHashes F).get e.1 : Option Nat))
    (fun e => e.2)]
  · constructor
    · rintro ⟨e, he, h1, h2⟩
      obtain ⟨t, ht, ht'⟩ := getid e he
      rw [edgeHashes_get F h ht] at h1
      exact ⟨t, h1, by rw [ht', h2]⟩
    · rintro ⟨t, h1, h2⟩
      simp only [graph, Option.bind_eq_some_iff] at h2
      obtain ⟨i, hi, hp⟩ := h2
      exact ⟨(i, p), BMap.mem_entries.2 hp, (edgeHashes_get F h hi).trans h1, rfl⟩
  · refine List.Pairwise.imp_of_mem (R := fun a b => a.1 < b.1) ?_ s.edgeProps.sorted
    rintro a b ha hb hlt e
    obtain ⟨t, ht, ht'⟩ := getid a ha
    obtain ⟨u, hu, hu'⟩ := getid b hb
    rw [edgeHashes_get F h ht, edgeHashes_get F h hu] at e
    have := hh t u (by rw [ht']; rfl) (by rw [hu']; rfl) (Option.some.inj e)
    subst this
    rw [ht] at hu
    exact ne_of_lt hlt (Option.some.inj hu)

theorem debugEdges_eq (F : DebugFmt Id NP EP) {s : Mem Id NP EP} (h : Inv s) (o : EdgeOrder) :
    debugEdges F (s.edgeHashes F) (s.orderedEdges o) =
      (s.edgeList o).map (fun x => "  (" ++ F.showId x.1.sub ++ ", " ++ F.showId x.1.pred ++ ", " ++
        F.showId x.1.obj ++ ") -> " ++ (F.hex (F.hash (encodeSpo x.1)) ++ "\n")) := by
  unfold debugEdges edgeList
  have : ∀ e ∈ s.orderedEdges o, s.idOf e.1 = some e.2 := fun e he => (mem_orderedEdges h.toAgree o _ _).1 he
  generalize s.orderedEdges o = l at this
  induction l with
  | nil => rfl
  | cons e l ih =>
    have he := this e (by simp)
    obtain ⟨q, hq, -⟩ := idOf_props h he
    simp only [List.map_cons, List.filterMap_cons, hq, Option.map_some, edgeHashes_get F h he]
    rw [ih (fun x hx => this x (List.mem_cons_of_mem _ hx))]

theorem debug_eq (F : DebugFmt Id NP EP) {a b : Mem Id NP EP} (ha : Inv a) (hb : Inv b)
    (hg : a.graph = b.graph)
    (hh : ∀ t u, (a.graph.edges t).isSome → (a.graph.edges u).isSome →
      F.hash (encodeSpo t) = F.hash (encodeSpo u) → t = u) : a.debug F = b.debug F := by
  have e1 : a.nodeProps = b.nodeProps := by
    apply BMap.ext_get; intro k; exact congrFun (congrArg Graph.nodes hg) k
  have e2 : a.hashToEdgeData F = b.hashToEdgeData F := by
    apply BMap.ext_get; intro k
    ext p
    rw [hashToEdgeData_get F ha hh, hashToEdgeData_get F hb (hg ▸ hh), hg]
  have e3 : ∀ o, a.edgeList o = b.edgeList o := fun o =>
    Lists.unique (edgeLT_irrefl _) (fun _ _ _ => edgeLT_trans _) (edgeList_lists ha.toAgree o)
      (hg ▸ edgeList_lists hb.toAgree o)
  have e4 := fun o => (debugEdges_eq F ha o).trans (e3 o ▸ (debugEdges_eq F hb o).symm)
  have e5 := e4 .SPO
  have e6 := e4 .POS
  have e7 := e4 .OSP
  simp only [orderedEdges] at e5 e6 e7
  unfold debug
  simp only
  rw [e1, e2, e5, e6, e7]

end Mem

end Verif
