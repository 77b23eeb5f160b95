import Verif.Proof.Simulate
import Verif.Proof.SledReading
import Verif.Proof.SledRemove
import Verif.Spec.SledFeed

/-! # Copying from a store that is in use -/

set_option linter.unusedSectionVars false

namespace Verif

open Spec ConcreteId

namespace Sled

/-! ## traversals in pieces -/

section

variable {T : Nat → Tree} {m : Nat} {cur : Option Bytes} {l : List (Nat × Bytes × Bytes)}

theorem Scan.earlier {b : Bound Bytes × Bound Bytes} (h : Scan T b m cur l) {m' : Nat} (hm : m' ≤ m) : Scan T b m' cur l := by
  cases h with
  | done h =>
    refine .done (fun k hk hb => ?_)
    obtain ⟨m1, h1, h2⟩ := h k hk hb
    exact ⟨m1, hm.trans h1, h2⟩
  | next h1 hk hb hv h rest =>
    refine .next (hm.trans h1) hk hb hv (fun k' a b c => ?_) rest
    obtain ⟨m2, e1, e2, e3⟩ := h k' a b c
    exact ⟨m2, hm.trans e1, e2, e3⟩

theorem scan_piece (p : List (Bytes × Bytes)) : ∀ (cur : Option Bytes), p.Pairwise (fun a b => a.1 < b.1) →
    (∀ e ∈ p, After cur e.1 ∧ (T m).get e.1 = some e.2) →
    (∀ k v, After cur k → (T m).get k = some v → (k, v) ∈ p ∨ After (cursor cur p) k) →
    Scan T (.unbounded, .unbounded) m (cursor cur p) l → Scan T (.unbounded, .unbounded) m cur (p.map (fun e => (m, e)) ++ l) := by
  induction p with
  | nil => exact fun cur _ _ _ h => h
  | cons e p ih =>
    intro cur hp h1 h2 h
    obtain ⟨k, v⟩ := e
    obtain ⟨hlt, hp'⟩ := List.pairwise_cons.1 hp
    obtain ⟨ha, hv⟩ := h1 _ List.mem_cons_self
    have ec : cursor cur ((k, v) :: p) = cursor (some k) p := by
      cases p with
      | nil => rfl
      | cons e p => simp [cursor, List.getLast?_cons_cons, List.getLast?_eq_some_getLast]
    have hge : ∀ k', After (cursor (some k) p) k' → k < k' := by
      intro k' hk'
      cases hl : p.getLast? with
      | none => simpa [cursor, hl, After] using hk'
      | some e =>
        have : e.1 < k' := by simpa [cursor, hl, After] using hk'
        exact lt_trans (hlt e (List.mem_of_getLast? hl)) this
    rw [ec] at h h2
    refine .next le_rfl ha (contains_all _) hv (fun k' hk' hlt' _ => ⟨m, le_rfl, le_rfl, ?_⟩) (ih (some k) hp' (fun e he => ?_) ?_ h)
    · by_contra hne
      obtain ⟨v', hv'⟩ := Option.ne_none_iff_exists'.1 hne
      rcases h2 k' v' hk' hv' with h | h
      · rcases List.mem_cons.1 h with h | h
        · cases h
          exact lt_irrefl _ hlt'
        · exact lt_irrefl _ (lt_trans hlt' (hlt _ h))
      · exact lt_irrefl _ (lt_trans hlt' (hge _ h))
    · exact ⟨hlt _ he, (h1 e (List.mem_cons_of_mem _ he)).2⟩
    · intro k' v' hk' hv'
      rcases h2 k' v' (ha.trans hk') hv' with h | h
      · rcases List.mem_cons.1 h with h | h
        · cases h
          exact absurd hk' (lt_irrefl _)
        · exact .inl h
      · exact .inr h

theorem scan_take (n : Nat) (h : Scan T (.unbounded, .unbounded) m (cursor cur ((rest cur (T m).entries).take n)) l) :
    Scan T (.unbounded, .unbounded) m cur (((rest cur (T m).entries).take n).map (fun e => (m, e)) ++ l) := by
  have hs : (T m).entries.Pairwise (fun a b => a.1 < b.1) := by
    have := (T m).range_sorted (.unbounded, .unbounded)
    rwa [range_all] at this
  refine scan_piece _ cur ((rest_sorted hs).take) (fun e he => ?_) (fun k v hk hv => ?_) h
  · obtain ⟨h1, h2⟩ := mem_rest.1 (List.mem_of_mem_take he)
    exact ⟨h2, BMap.mem_entries.1 h1⟩
  · by_contra hne
    obtain ⟨h1, h2⟩ := not_or.1 hne
    exact h1 (mem_take_of_cursor (rest_sorted hs) (mem_rest.2 ⟨BMap.mem_entries.2 hv, hk⟩) hk h2)

theorem scan_rest : Scan T (.unbounded, .unbounded) m cur ((rest cur (T m).entries).map (fun e => (m, e))) := by
  have hs : (T m).entries.Pairwise (fun a b => a.1 < b.1) := by
    have := (T m).range_sorted (.unbounded, .unbounded)
    rwa [range_all] at this
  have := scan_piece (T := T) (m := m) (l := []) (rest cur (T m).entries) cur (rest_sorted hs) (fun e he => ?_) (fun k v hk hv => ?_) ?_
  · simpa using this
  · obtain ⟨h1, h2⟩ := mem_rest.1 he
    exact ⟨h2, BMap.mem_entries.1 h1⟩
  · exact .inl (mem_rest.2 ⟨BMap.mem_entries.2 hv, hk⟩)
  · refine .done (fun k hk _ => ⟨m, le_rfl, ?_⟩)
    by_contra hne
    obtain ⟨v, hv⟩ := Option.ne_none_iff_exists'.1 hne
    have hc : After cur k := by
      cases hl : (rest cur (T m).entries).getLast? with
      | none => simpa [cursor, hl] using hk
      | some e =>
        have h1 : e.1 < k := by simpa [cursor, hl, After] using hk
        exact (mem_rest.1 (List.mem_of_getLast? hl)).2.trans h1
    have hm : (k, v) ∈ rest cur (T m).entries := mem_rest.2 ⟨BMap.mem_entries.2 hv, hc⟩
    have := mem_take_of_cursor (cur := cur) (s := 0) (rest_sorted (cur := cur) hs) hm hc
    cases hl : (rest cur (T m).entries).getLast? with
    | none =>
      rw [List.getLast?_eq_none_iff.1 hl] at hm
      cases hm
    | some e =>
      have h1 : e.1 < k := by simpa [cursor, hl, After] using hk
      have hne : rest cur (T m).entries ≠ [] := fun e0 => by rw [e0] at hm; cases hm
      obtain ⟨pre, hpre⟩ : ∃ pre, rest cur (T m).entries = pre ++ [e] := by
        refine ⟨(rest cur (T m).entries).dropLast, ?_⟩
        rw [List.getLast?_eq_some_getLast hne] at hl
        cases hl
        exact (List.dropLast_append_getLast hne).symm
      have hp := rest_sorted (cur := cur) hs
      rw [hpre] at hm hp
      rcases List.mem_append.1 hm with hm | hm
      · exact lt_irrefl _ (lt_trans h1 ((List.pairwise_append.1 hp).2.2 _ hm e (by simp)))
      · rw [List.mem_singleton] at hm
        subst hm
        exact lt_irrefl _ h1

end

/-! ## what the loops do -/

variable {E S γ Id NP EP : Type} [LinearOrder Id] [ConcreteId Id]

theorem intoEdgeItem_eq (c : Codecs NP EP) (d : Db) (e : Bytes × Bytes) : intoEdgeItem Id c d e = edgeItem Id c d .SPO e := by
  unfold intoEdgeItem edgeItem getData deser decoder
  cases decodeEntry (Id := Id) decodeSpo e with
  | error => rfl
  | ok x =>
    obtain ⟨t, v⟩ := x
    dsimp only
    cases d.edgeProps.get v with
    | none => rfl
    | some b => cases h : c.e.de b <;> simp [h]

/-- the result is noResult -/
abbrev noResult {α : Type} (p : Prog Db α) : Prog Db Unit := p.bind (fun _ => .ret ())

/-- `extend` and `merge` do one item after the other. -/
structure ByItem (W : Loops γ Id NP EP) : Prop where
  nodes : ∀ g i ns es, noResult (W g ⟨i :: ns, es⟩) = (W g ⟨[i], []⟩).bind (onward (fun g' => noResult (W g' ⟨ns, es⟩)))
  edges : ∀ g j es, noResult (W g ⟨[], j :: es⟩) = (W g ⟨[], [j]⟩).bind (onward (fun g' => noResult (W g' ⟨[], es⟩)))
  none : ∀ g, noResult (W g ⟨[], []⟩) = .ret ()

theorem byItem_extend (c : Codecs NP EP) : ByItem (Sled.extend c (Id := Id) (E := SErr)) where
  nodes g i ns es := by
    cases i with
    | error e => rfl
    | ok x =>
      unfold noResult Sled.extend
      rw [extendNodes, extendNodes]
      cases c.n.ser x.2 with
      | none => rfl
      | some b => rfl
  edges g j es := by
    cases j with
    | error e => rfl
    | ok x =>
      unfold noResult Sled.extend
      simp only [extendNodes]
      rw [extendEdges, extendEdges]
      cases c.e.ser x.2 with
      | none => rfl
      | some b =>
        dsimp only [Prog.bind]
        congr 1; funext _; congr 1; funext d1; congr 1; funext _; congr 1; funext _
        cases d1.spo.get (encodeSpo x.1).1 <;> rfl
  none g := rfl

theorem bind_assoc' {S α β δ : Type} (p : Prog S α) (f : α → Prog S β) (h : β → Prog S δ) :
    (p.bind f).bind h = p.bind (fun a => (f a).bind h) := by
  induction p with
  | ret a => rfl
  | call g k ih =>
    show Prog.call g _ = Prog.call g _
    congr 1
    funext s
    exact ih s

theorem byItem_merge (c : Codecs NP EP) (mN : NP → NP → NP) (mE : EP → EP → EP) :
    ByItem (Sled.merge c mN mE (Id := Id) (E := SErr)) where
  nodes g i ns es := by
    cases i with
    | error e => rfl
    | ok x =>
      unfold noResult Sled.merge
      rw [mergeNodes, mergeNodes, bind_assoc', bind_assoc']
      congr 1
      funext r
      cases r <;> rfl
  edges g j es := by
    cases j with
    | error e => rfl
    | ok x =>
      unfold noResult Sled.merge
      simp only [mergeNodes]
      rw [mergeEdges, mergeEdges, bind_assoc', bind_assoc']
      congr 1
      funext r
      cases r <;> rfl
  none g := rfl

/-! ## configurations -/

variable (L : Link S) (c : Codecs NP EP)

/-- where an iterator is: at its end, or after a key, with the sizes of the pieces to come -/
abbrev Place' := Option (List Nat × Option Bytes)

/-- what a thread is doing -/
inductive Conf (L : Link S) (Id NP EP : Type) [LinearOrder Id] [ConcreteId Id] : Type 1 where
  | dst (P : Prog Db Unit)
  | src (P : Prog Db Unit) (h : ∀ f s, L.dst (L.onSrc f s) = L.dst s)
  | nodes (γ : Type) (W : Loops γ Id NP EP) (hW : ByItem W) (es ns : List Nat) (cur : Option Bytes) (g : γ)
  | inN (γ : Type) (W : Loops γ Id NP EP) (hW : ByItem W) (es : List Nat) (st : Place') (ahead : List (Bytes × Bytes)) (f : Db → Db)
      (κ : Db → Prog Db (γ × Except (LR SErr SErr) Unit))
  | edges (γ : Type) (W : Loops γ Id NP EP) (hW : ByItem W) (es : List Nat) (cur : Option Bytes) (g : γ)
  | look (γ : Type) (W : Loops γ Id NP EP) (hW : ByItem W) (st : Place') (e : Bytes × Bytes) (ahead : List (Bytes × Bytes)) (g : γ)
  | inE (γ : Type) (W : Loops γ Id NP EP) (hW : ByItem W) (st : Place') (ahead : List (Bytes × Bytes)) (f : Db → Db)
      (κ : Db → Prog Db (γ × Except (LR SErr SErr) Unit))

/-- the rest of the edge loop -/
def contE (W : Loops γ Id NP EP) : Place' → γ → Prog S Unit
  | none => fun _ => .ret ()
  | some (es, cur) => feedEdges L c W (fun _ => .ret ()) es cur

/-- the rest of the loops -/
def contN (W : Loops γ Id NP EP) (es : List Nat) : Place' → γ → Prog S Unit
  | none => contE L c W (some (es, none))
  | some (ns, cur) => feedNodes L c W (contE L c W (some (es, none))) ns cur

def Conf.prog : Conf L Id NP EP → Prog S Unit
  | .dst P => lift L.dst L.onDst P
  | .src P _ => lift L.src L.onSrc P
  | .nodes _ W _ es ns cur g => contN L c W es (some (ns, cur)) g
  | .inN _ W _ es st ahead f κ => (lift L.dst L.onDst (.call f κ)).bind (onward (handNodes L c W (contN L c W es st) ahead))
  | .edges _ W _ es cur g => contE L c W (some (es, cur)) g
  | .look _ W _ st e ahead g => handEdges L c W (contE L c W st) (e :: ahead) g
  | .inE _ W _ st ahead f κ => (lift L.dst L.onDst (.call f κ)).bind (onward (handEdges L c W (contE L c W st) ahead))

variable (D : Nat → Db)

/-- what an iterator may still get from the moment `k` on -/
def Ahead (T : Nat → Tree) (k : Nat) : Place' → List (Nat × Bytes × Bytes) → Prop
  | none, l => l = []
  | some (_, cur), l => Scan T (.unbounded, .unbounded) k cur l

def AheadN (k : Nat) (st : Place') (ahead : List (Bytes × Bytes)) (is : List (Except SErr (Id × NP))) : Prop :=
  ∃ l, Ahead (fun m => (D m).nodeProps) k st l ∧ is = ahead.map (vertexItem Id c) ++ l.map (fun e => vertexItem Id c e.2)

def AheadE (k : Nat) (st : Place') (ahead : List (Bytes × Bytes)) (js : List (Except SErr (Triple Id × EP))) : Prop :=
  ∃ l1 l2 : List Seen, l1.map (fun x => (x.key, x.id)) = ahead ∧ (∀ x ∈ l1, k ≤ x.look) ∧
    Ahead (fun m => (D m).spo) k st (l2.map (fun x => (x.scan, x.key, x.id))) ∧ (∀ x ∈ l2, x.scan ≤ x.look) ∧
    js = (l1 ++ l2).map (fun e => edgeItem Id c (D e.look) .SPO (e.key, e.id))

/-- what the configurations amount to -/
def Conf.Amounts (k : Nat) : Conf L Id NP EP → Option (Prog Db Unit) → Prop
  | .dst P, o => o = some P
  | .src _ _, o => o = none
  | .nodes _ W _ es ns cur g, o => ∃ is js, AheadN c D k (some (ns, cur)) [] is ∧ AheadE c D k (some (es, none)) [] js ∧
      o = some (noResult (W g ⟨is, js⟩))
  | .inN _ W _ es st ahead f κ, o => ∃ is js, AheadN c D k st ahead is ∧ AheadE c D k (some (es, none)) [] js ∧
      o = some ((Prog.call f κ).bind (onward (fun g => noResult (W g ⟨is, js⟩))))
  | .edges _ W _ es cur g, o => ∃ js, AheadE c D k (some (es, cur)) [] js ∧ o = some (noResult (W g ⟨[], js⟩))
  | .look _ W _ st e ahead g, o => ∃ js, AheadE c D k st (e :: ahead) js ∧ o = some (noResult (W g ⟨[], js⟩))
  | .inE _ W _ st ahead f κ, o => ∃ js, AheadE c D k st ahead js ∧
      o = some ((Prog.call f κ).bind (onward (fun g => noResult (W g ⟨[], js⟩))))

/-- inside the body of a loop -/
def inside (call : (Db → Db) → (Db → Prog Db (γ × Except (LR SErr SErr) Unit)) → Conf L Id NP EP) (K : γ → Conf L Id NP EP) :
    Prog Db (γ × Except (LR SErr SErr) Unit) → Conf L Id NP EP
  | .call f κ => call f κ
  | .ret (g, .ok ()) => K g
  | .ret (_, .error _) => .dst (.ret ())

def handE (W : Loops γ Id NP EP) (hW : ByItem W) (st : Place') : List (Bytes × Bytes) → γ → Conf L Id NP EP
  | [], g =>
    match st with
    | none => .dst (.ret ())
    | some (es, cur) => .edges γ W hW es cur g
  | e :: ahead, g => .look γ W hW st e ahead g

def handN (W : Loops γ Id NP EP) (hW : ByItem W) (es : List Nat) (st : Place') : List (Bytes × Bytes) → γ → Conf L Id NP EP
  | [], g =>
    match st with
    | none => .edges γ W hW es none g
    | some (ns, cur) => .nodes γ W hW es ns cur g
  | e :: ahead, g => inside L (.inN γ W hW es st ahead) (handN W hW es st ahead) (W g ⟨[vertexItem Id c e], []⟩)

variable {L c D}

theorem prog_inside {call : (Db → Db) → (Db → Prog Db (γ × Except (LR SErr SErr) Unit)) → Conf L Id NP EP} {K : γ → Conf L Id NP EP}
    {H : γ → Prog S Unit} (h1 : ∀ f κ, (call f κ).prog L c = (lift L.dst L.onDst (.call f κ)).bind (onward H))
    (h2 : ∀ g, (K g).prog L c = H g) (P : Prog Db (γ × Except (LR SErr SErr) Unit)) :
    (inside L call K P).prog L c = (lift L.dst L.onDst P).bind (onward H) := by
  match P with
  | .call f κ => exact h1 f κ
  | .ret (g, .ok ()) => exact h2 g
  | .ret (_, .error _) => rfl

theorem prog_handE (W : Loops γ Id NP EP) (hW : ByItem W) (st : Place') (ahead : List (Bytes × Bytes)) (g : γ) :
    (handE L W hW st ahead g).prog L c = handEdges L c W (contE L c W st) ahead g := by
  cases ahead with
  | nil =>
    match st with
    | none => rfl
    | some (es, cur) => rfl
  | cons e ahead => rfl

theorem prog_handN (W : Loops γ Id NP EP) (hW : ByItem W) (es : List Nat) (st : Place') (ahead : List (Bytes × Bytes)) (g : γ) :
    (handN L c W hW es st ahead g).prog L c = handNodes L c W (contN L c W es st) ahead g := by
  induction ahead generalizing g with
  | nil =>
    match st with
    | none => rfl
    | some (ns, cur) => rfl
  | cons e ahead ih => exact prog_inside (fun _ _ => rfl) ih _

/-! ## what is still to come -/

theorem Ahead.earlier {T : Nat → Tree} {k k' : Nat} {st : Place'} {l : List (Nat × Bytes × Bytes)} (h : Ahead T k st l) (hk : k' ≤ k) :
    Ahead T k' st l := by
  match st, h with
  | none, h => exact h
  | some _, h => exact Scan.earlier h hk

theorem AheadN.earlier {k k' : Nat} {st : Place'} {ahead : List (Bytes × Bytes)} {is : List (Except SErr (Id × NP))}
    (h : AheadN c D k st ahead is) (hk : k' ≤ k) : AheadN c D k' st ahead is := by
  obtain ⟨l, h1, h2⟩ := h
  exact ⟨l, h1.earlier hk, h2⟩

theorem AheadE.earlier {k k' : Nat} {st : Place'} {ahead : List (Bytes × Bytes)} {js : List (Except SErr (Triple Id × EP))}
    (h : AheadE c D k st ahead js) (hk : k' ≤ k) : AheadE c D k' st ahead js := by
  obtain ⟨l1, l2, h1, h2, h3, h4, h5⟩ := h
  exact ⟨l1, l2, h1, fun x hx => hk.trans (h2 x hx), h3.earlier hk, h4, h5⟩

theorem todo_any (T : Nat → Tree) (k : Nat) (st : Place') : ∃ l : List (Bytes × Bytes), Ahead T k st (l.map (fun e => (k, e))) := by
  match st with
  | none => exact ⟨[], rfl⟩
  | some (_, cur) => exact ⟨_, scan_rest⟩

theorem todoN_any (k : Nat) (st : Place') (ahead : List (Bytes × Bytes)) :
    ∃ is : List (Except SErr (Id × NP)), AheadN c D k st ahead is := by
  obtain ⟨l, h⟩ := todo_any (fun m => (D m).nodeProps) k st
  exact ⟨_, _, h, rfl⟩

theorem todoE_any (k : Nat) (st : Place') (ahead : List (Bytes × Bytes)) :
    ∃ js : List (Except SErr (Triple Id × EP)), AheadE c D k st ahead js := by
  obtain ⟨l, h⟩ := todo_any (fun m => (D m).spo) k st
  refine ⟨_, ahead.map (fun e => ⟨k, k, e.1, e.2⟩), l.map (fun e => ⟨k, k, e.1, e.2⟩), ?_, ?_, ?_, ?_, rfl⟩
  · simp [Function.comp_def]
  · intro x hx
    obtain ⟨e, -, rfl⟩ := List.mem_map.1 hx
    exact le_rfl
  · simpa [Function.comp_def] using h
  · intro x hx
    obtain ⟨e, -, rfl⟩ := List.mem_map.1 hx
    exact le_rfl

theorem amounts_handE {k : Nat} (W : Loops γ Id NP EP) (hW : ByItem W) (st : Place') (ahead : List (Bytes × Bytes)) (g : γ)
    {o : Option (Prog Db Unit)} (h : (handE L W hW st ahead g).Amounts L c D k o) :
    ∃ js, AheadE c D k st ahead js ∧ o = some (noResult (W g ⟨[], js⟩)) := by
  cases ahead with
  | nil =>
    match st, h with
    | none, h => exact ⟨[], ⟨[], [], rfl, by simp, rfl, by simp, rfl⟩, by rw [hW.none]; exact h⟩
    | some (es, cur), h => exact h
  | cons e ahead => exact h

theorem amounts_inE {k : Nat} (W : Loops γ Id NP EP) (hW : ByItem W) (st : Place') (ahead : List (Bytes × Bytes))
    (P : Prog Db (γ × Except (LR SErr SErr) Unit)) {o : Option (Prog Db Unit)}
    (h : (inside L (.inE γ W hW st ahead) (handE L W hW st ahead) P).Amounts L c D k o) :
    ∃ js, AheadE c D k st ahead js ∧ o = some (P.bind (onward (fun g => noResult (W g ⟨[], js⟩)))) := by
  match P, h with
  | .call f κ, h => exact h
  | .ret (g, .ok ()), h => exact amounts_handE W hW st ahead g h
  | .ret (_, .error _), h =>
    obtain ⟨js, hj⟩ := todoE_any (Id := Id) (c := c) (D := D) k st ahead
    exact ⟨js, hj, h⟩

theorem amounts_inN' {k : Nat} (W : Loops γ Id NP EP) (hW : ByItem W) (es : List Nat) (st : Place') (ahead : List (Bytes × Bytes))
    (ih : ∀ (g : γ) {o : Option (Prog Db Unit)}, (handN L c W hW es st ahead g).Amounts L c D k o →
      ∃ is js, AheadN c D k st ahead is ∧ AheadE c D k (some (es, none)) [] js ∧ o = some (noResult (W g ⟨is, js⟩)))
    (P : Prog Db (γ × Except (LR SErr SErr) Unit)) {o : Option (Prog Db Unit)}
    (h : (inside L (.inN γ W hW es st ahead) (handN L c W hW es st ahead) P).Amounts L c D k o) :
    ∃ is js, AheadN c D k st ahead is ∧ AheadE c D k (some (es, none)) [] js ∧
      o = some (P.bind (onward (fun g => noResult (W g ⟨is, js⟩)))) := by
  match P, h with
  | .call f κ, h => exact h
  | .ret (g, .ok ()), h => exact ih g h
  | .ret (_, .error _), h =>
    obtain ⟨is, hi⟩ := todoN_any (Id := Id) (c := c) (D := D) k st ahead
    obtain ⟨js, hj⟩ := todoE_any (Id := Id) (c := c) (D := D) k (some (es, none)) []
    exact ⟨is, js, hi, hj, h⟩

theorem amounts_handN {k : Nat} (W : Loops γ Id NP EP) (hW : ByItem W) (es : List Nat) (st : Place') (ahead : List (Bytes × Bytes))
    (g : γ) {o : Option (Prog Db Unit)} (h : (handN L c W hW es st ahead g).Amounts L c D k o) :
    ∃ is js, AheadN c D k st ahead is ∧ AheadE c D k (some (es, none)) [] js ∧ o = some (noResult (W g ⟨is, js⟩)) := by
  induction ahead generalizing g o with
  | nil =>
    match st, h with
    | none, h =>
      obtain ⟨js, hj, h⟩ := h
      exact ⟨[], js, ⟨[], rfl, rfl⟩, hj, h⟩
    | some (ns, cur), h => exact h
  | cons e ahead ih =>
    obtain ⟨is, js, ⟨l, h1, h2⟩, h3, h4⟩ := amounts_inN' W hW es st ahead ih _ h
    refine ⟨_ :: is, js, ⟨l, h1, by rw [h2]; rfl⟩, h3, ?_⟩
    rw [hW.nodes]
    exact h4

theorem amounts_inN {k : Nat} (W : Loops γ Id NP EP) (hW : ByItem W) (es : List Nat) (st : Place') (ahead : List (Bytes × Bytes))
    (P : Prog Db (γ × Except (LR SErr SErr) Unit)) {o : Option (Prog Db Unit)}
    (h : (inside L (.inN γ W hW es st ahead) (handN L c W hW es st ahead) P).Amounts L c D k o) :
    ∃ is js, AheadN c D k st ahead is ∧ AheadE c D k (some (es, none)) [] js ∧
      o = some (P.bind (onward (fun g => noResult (W g ⟨is, js⟩)))) :=
  amounts_inN' W hW es st ahead (fun g _ => amounts_handN W hW es st ahead g) P h

/-- reading a piece of the nodes -/
theorem AheadN.read {k : Nat} {cur : Option Bytes} {ns : List Nat} {st : Place'} {p : List (Bytes × Bytes)}
    {is : List (Except SErr (Id × NP))} (h : AheadN c D (k + 1) st p is)
    (hp : ∀ l, Ahead (fun m => (D m).nodeProps) (k + 1) st l →
      Scan (fun m => (D m).nodeProps) (.unbounded, .unbounded) k cur (p.map (fun e => (k, e)) ++ l)) :
    AheadN c D k (some (ns, cur)) [] is := by
  obtain ⟨l, h1, h2⟩ := h
  refine ⟨_, hp l h1, ?_⟩
  rw [h2]
  simp [Function.comp_def]

/-- reading a piece of the edges -/
theorem AheadE.read {k : Nat} {cur : Option Bytes} {ns : List Nat} {st : Place'} {p : List (Bytes × Bytes)}
    {js : List (Except SErr (Triple Id × EP))} (h : AheadE c D (k + 1) st p js)
    (hp : ∀ l, Ahead (fun m => (D m).spo) (k + 1) st l →
      Scan (fun m => (D m).spo) (.unbounded, .unbounded) k cur (p.map (fun e => (k, e)) ++ l)) :
    AheadE c D k (some (ns, cur)) [] js := by
  obtain ⟨l1, l2, h1, h2, h3, h4, h5⟩ := h
  refine ⟨[], l1.map (fun x => { x with scan := k }) ++ l2, rfl, by simp, ?_, ?_, ?_⟩
  · have := hp _ h3
    rw [← h1] at this
    show Scan _ _ _ _ _
    simpa [Function.comp_def] using this
  · intro x hx
    rcases List.mem_append.1 hx with hx | hx
    · obtain ⟨y, hy, rfl⟩ := List.mem_map.1 hx
      exact (Nat.le_succ k).trans (h2 y hy)
    · exact h4 x hx
  · rw [h5]
    simp [Function.comp_def]

/-- a piece, or the rest -/
theorem todo_take {T : Nat → Tree} {k : Nat} {cur : Option Bytes} (n : Nat) (ns : List Nat) {l : List (Nat × Bytes × Bytes)}
    (h : Ahead T (k + 1) (some (ns, cursor cur ((rest cur (T k).entries).take n))) l) :
    Scan T (.unbounded, .unbounded) k cur (((rest cur (T k).entries).take n).map (fun e => (k, e)) ++ l) :=
  scan_take n (Scan.earlier h (Nat.le_succ k))

theorem todo_rest {T : Nat → Tree} {k : Nat} {cur : Option Bytes} {l : List (Nat × Bytes × Bytes)} (h : Ahead T (k + 1) none l) :
    Scan T (.unbounded, .unbounded) k cur ((rest cur (T k).entries).map (fun e => (k, e)) ++ l) := by
  obtain rfl : l = [] := h
  rw [List.append_nil]
  exact scan_rest

/-! ## the simulation -/

theorem Conf.mono {k : Nat} {cf : Conf L Id NP EP} {o : Option (Prog Db Unit)} (h : cf.Amounts L c D (k + 1) o) : cf.Amounts L c D k o := by
    have e : k ≤ k + 1 := Nat.le_succ k
    cases cf with
    | dst P => exact h
    | src P hP => exact h
    | nodes γ W hW es ns cur g =>
      obtain ⟨is, js, h1, h2, h3⟩ := h
      exact ⟨is, js, h1.earlier e, h2.earlier e, h3⟩
    | inN γ W hW es st ahead f κ =>
      obtain ⟨is, js, h1, h2, h3⟩ := h
      exact ⟨is, js, h1.earlier e, h2.earlier e, h3⟩
    | edges γ W hW es cur g =>
      obtain ⟨js, h1, h3⟩ := h
      exact ⟨js, h1.earlier e, h3⟩
    | look γ W hW st x ahead g =>
      obtain ⟨js, h1, h3⟩ := h
      exact ⟨js, h1.earlier e, h3⟩
    | inE γ W hW st ahead f κ =>
      obtain ⟨js, h1, h3⟩ := h
      exact ⟨js, h1.earlier e, h3⟩

theorem Conf.any (k : Nat) (cf : Conf L Id NP EP) : ∃ o, cf.Amounts L c D k o := by
    cases cf with
    | dst P => exact ⟨_, rfl⟩
    | src P hP => exact ⟨_, rfl⟩
    | nodes γ W hW es ns cur g =>
      obtain ⟨is, hi⟩ := todoN_any (Id := Id) (c := c) (D := D) k (some (ns, cur)) []
      obtain ⟨js, hj⟩ := todoE_any (Id := Id) (c := c) (D := D) k (some (es, none)) []
      exact ⟨_, is, js, hi, hj, rfl⟩
    | inN γ W hW es st ahead f κ =>
      obtain ⟨is, hi⟩ := todoN_any (Id := Id) (c := c) (D := D) k st ahead
      obtain ⟨js, hj⟩ := todoE_any (Id := Id) (c := c) (D := D) k (some (es, none)) []
      exact ⟨_, is, js, hi, hj, rfl⟩
    | edges γ W hW es cur g =>
      obtain ⟨js, hj⟩ := todoE_any (Id := Id) (c := c) (D := D) k (some (es, cur)) []
      exact ⟨_, js, hj, rfl⟩
    | look γ W hW st x ahead g =>
      obtain ⟨js, hj⟩ := todoE_any (Id := Id) (c := c) (D := D) k st (x :: ahead)
      exact ⟨_, js, hj, rfl⟩
    | inE γ W hW st ahead f κ =>
      obtain ⟨js, hj⟩ := todoE_any (Id := Id) (c := c) (D := D) k st ahead
      exact ⟨_, js, hj, rfl⟩

theorem Conf.ret (k : Nat) {cf : Conf L Id NP EP} {a : Unit} (h : cf.prog L c = .ret a) :
    cf.Amounts L c D k none ∨ cf.Amounts L c D k (some (.ret a)) := by
    cases cf with
    | dst P =>
      cases P with
      | ret b => exact .inr rfl
      | call => cases h
    | src P hP => exact .inl rfl
    | nodes γ W hW es ns cur g => cases ns <;> cases h
    | inN γ W hW es st ahead f κ => cases h
    | edges γ W hW es cur g => cases es <;> cases h
    | look γ W hW st x ahead g => cases h
    | inE γ W hW st ahead f κ => cases h

theorem Conf.step {k : Nat} {X : Nat → S} (hL : ∀ f s, L.dst (L.onDst f s) = f (L.dst s)) (hDk : D k = L.src (X k))
    {cf : Conf L Id NP EP} {f : S → S} {κ : S → Prog S Unit} (h : cf.prog L c = .call f κ) :
    ∃ cf' : Conf L Id NP EP, cf'.prog L c = κ (X k) ∧ ∀ o', cf'.Amounts L c D (k + 1) o' → ∃ o, cf.Amounts L c D k o ∧
      ((o = o' ∧ L.dst (f (X k)) = L.dst (X k)) ∨
        ∃ f' κ', o = some (.call f' κ') ∧ o' = some (κ' (L.dst (X k))) ∧ L.dst (f (X k)) = f' (L.dst (X k))) := by
    cases cf with
    | dst P =>
      cases P with
      | ret b => cases h
      | call f' κ' =>
        cases h
        exact ⟨.dst (κ' (L.dst (X k))), rfl, fun o' ho => ⟨_, rfl, .inr ⟨f', κ', rfl, ho, hL _ _⟩⟩⟩
    | src P hP =>
      cases P with
      | ret b => cases h
      | call f' κ' =>
        cases h
        exact ⟨.src (κ' (L.src (X k))) hP, rfl, fun o' ho => ⟨_, rfl, .inl ⟨ho.symm, hP _ _⟩⟩⟩
    | nodes γ W hW es ns cur g =>
      cases ns with
      | nil =>
        cases h
        refine ⟨handN L c W hW es none (rest cur (L.src (X k)).nodeProps.entries) g, prog_handN .., fun o' ho => ?_⟩
        obtain ⟨is, js, h1, h2, rfl⟩ := amounts_handN W hW es _ _ g ho
        rw [← hDk] at h1
        exact ⟨_, ⟨is, js, h1.read (fun l hl => todo_rest (T := fun m => (D m).nodeProps) hl), h2.earlier (Nat.le_succ k), rfl⟩, .inl ⟨rfl, rfl⟩⟩
      | cons n ns =>
        cases h
        refine ⟨handN L c W hW es (some (ns, cursor cur ((rest cur (L.src (X k)).nodeProps.entries).take n)))
          ((rest cur (L.src (X k)).nodeProps.entries).take n) g, prog_handN .., fun o' ho => ?_⟩
        obtain ⟨is, js, h1, h2, rfl⟩ := amounts_handN W hW es _ _ g ho
        rw [← hDk] at h1
        exact ⟨_, ⟨is, js, h1.read (fun l hl => todo_take (T := fun m => (D m).nodeProps) n ns hl), h2.earlier (Nat.le_succ k), rfl⟩,
          .inl ⟨rfl, rfl⟩⟩
    | inN γ W hW es st ahead f' κ' =>
      cases h
      refine ⟨inside L (.inN γ W hW es st ahead) (handN L c W hW es st ahead) (κ' (L.dst (X k))),
        prog_inside (fun _ _ => rfl) (prog_handN W hW es st ahead) _, fun o' ho => ?_⟩
      obtain ⟨is, js, h1, h2, rfl⟩ := amounts_inN W hW es st ahead _ ho
      exact ⟨_, ⟨is, js, h1.earlier (Nat.le_succ k), h2.earlier (Nat.le_succ k), rfl⟩, .inr ⟨_, _, rfl, rfl, hL _ _⟩⟩
    | edges γ W hW es cur g =>
      cases es with
      | nil =>
        cases h
        refine ⟨handE L W hW none (rest cur (L.src (X k)).spo.entries) g, prog_handE .., fun o' ho => ?_⟩
        obtain ⟨js, h1, rfl⟩ := amounts_handE W hW _ _ g ho
        rw [← hDk] at h1
        exact ⟨_, ⟨js, h1.read (fun l hl => todo_rest (T := fun m => (D m).spo) hl), rfl⟩, .inl ⟨rfl, rfl⟩⟩
      | cons n es =>
        cases h
        refine ⟨handE L W hW (some (es, cursor cur ((rest cur (L.src (X k)).spo.entries).take n)))
          ((rest cur (L.src (X k)).spo.entries).take n) g, prog_handE .., fun o' ho => ?_⟩
        obtain ⟨js, h1, rfl⟩ := amounts_handE W hW _ _ g ho
        rw [← hDk] at h1
        exact ⟨_, ⟨js, h1.read (fun l hl => todo_take (T := fun m => (D m).spo) n es hl), rfl⟩, .inl ⟨rfl, rfl⟩⟩
    | look γ W hW st x ahead g =>
      cases h
      refine ⟨inside L (.inE γ W hW st ahead) (handE L W hW st ahead) (W g ⟨[], [intoEdgeItem Id c (L.src (X k)) x]⟩),
        prog_inside (fun _ _ => rfl) (prog_handE W hW st ahead) _, fun o' ho => ?_⟩
      obtain ⟨js, h1, rfl⟩ := amounts_inE W hW st ahead _ ho
      obtain ⟨l1, l2, e1, e2, e3, e4, e5⟩ := h1.earlier (Nat.le_succ k)
      refine ⟨_, ⟨intoEdgeItem Id c (L.src (X k)) x :: js, ⟨⟨k, k, x.1, x.2⟩ :: l1, l2, ?_, ?_, e3, e4, ?_⟩, rfl⟩, .inl ⟨?_, rfl⟩⟩
      · rw [List.map_cons, e1]
      · intro y hy
        rcases List.mem_cons.1 hy with rfl | hy
        · exact le_rfl
        · exact e2 y hy
      · rw [e5, intoEdgeItem_eq, ← hDk]
        rfl
      · rw [hW.edges]
    | inE γ W hW st ahead f' κ' =>
      cases h
      refine ⟨inside L (.inE γ W hW st ahead) (handE L W hW st ahead) (κ' (L.dst (X k))),
        prog_inside (fun _ _ => rfl) (prog_handE W hW st ahead) _, fun o' ho => ?_⟩
      obtain ⟨js, h1, rfl⟩ := amounts_inE W hW st ahead _ ho
      exact ⟨_, ⟨js, h1.earlier (Nat.le_succ k), rfl⟩, .inr ⟨_, _, rfl, rfl, hL _ _⟩⟩

/-- the same for configurations with their labels; each call sees the source until it returns -/
theorem simulates (X : Nat → S) (stop : Nat × Nat → Nat) (hL : ∀ f s, L.dst (L.onDst f s) = f (L.dst s)) :
    Simulates (fun z : (Nat × Nat) × Conf L Id NP EP => z.2.prog L c) Prod.fst stop L.dst X
      (fun k z o => z.2.Amounts L c (fun m => L.src (X (min m (stop z.1)))) k o) where
  mono _ _ _ _ h := Conf.mono h
  any k z _ := Conf.any k z.2
  ret k _ _ _ h := Conf.ret k h
  step k z f κ hk h := by
    obtain ⟨cf', h1, h2⟩ := Conf.step (D := fun m => L.src (X (min m (stop z.1)))) (k := k) (X := X) hL
      (by beta_reduce; rw [Nat.min_eq_left (show k ≤ stop z.1 from hk.le)]) h
    exact ⟨(z.1, cf'), rfl, h1, h2⟩

/-! ## from acts to calls -/

variable {mN : NP → NP → NP} {mE : EP → EP → EP}

theorem Scan.shift {T : Nat → Tree} {b : Bound Bytes × Bound Bytes} {m : Nat} {cur : Option Bytes} {l : List (Nat × Bytes × Bytes)}
    (h : Scan T b m cur l) {a : Nat} (ha : a ≤ m) :
    Scan (fun j => T (a + j)) b (m - a) cur (l.map (fun e => (e.1 - a, e.2))) := by
  induction h with
  | done h =>
    refine .done (fun k hk hb => ?_)
    obtain ⟨m1, h1, h2⟩ := h k hk hb
    exact ⟨m1 - a, by omega, by rw [Nat.add_sub_cancel' (by omega)]; exact h2⟩
  | @next m m' cur k v l h1 hk hb hv h rest ih =>
    refine .next (m' := m' - a) (by omega) hk hb (by beta_reduce; rw [Nat.add_sub_cancel' (by omega)]; exact hv) (fun k' e1 e2 e3 => ?_)
      (ih (by omega))
    obtain ⟨m2, g1, g2, g3⟩ := h k' e1 e2 e3
    exact ⟨m2 - a, by omega, by omega, by rw [Nat.add_sub_cancel' (by omega)]; exact g3⟩

theorem told_of {a : Nat} {es ns : List Nat} {is : List (Except SErr (Id × NP))} {js : List (Except SErr (Triple Id × EP))}
    (h1 : AheadN c D a (some (ns, none)) [] is) (h2 : AheadE c D a (some (es, none)) [] js) : Told c (fun m => D (a + m)) ⟨is, js⟩ := by
  obtain ⟨l, h3, rfl⟩ := h1
  obtain ⟨l1, l2, h4, -, h5, h6, rfl⟩ := h2
  obtain rfl : l1 = [] := List.map_eq_nil_iff.1 h4
  have h5 : Scan _ _ _ _ _ := h5
  have h7 : ∀ x ∈ l2, a ≤ x.scan := fun x hx => (h5.mem _ (List.mem_map_of_mem hx)).1
  refine ⟨l.map (fun e => (e.1 - a, e.2)), l2.map (fun x => ⟨x.scan - a, x.look - a, x.key, x.id⟩), ?_, ⟨?_, ?_⟩, ?_⟩
  · have := Scan.shift (a := a) h3 le_rfl
    rwa [Nat.sub_self] at this
  · have := Scan.shift (a := a) h5 le_rfl
    rw [Nat.sub_self, List.map_map] at this
    rw [List.map_map]
    exact this
  · intro x hx
    obtain ⟨y, hy, rfl⟩ := List.mem_map.1 hx
    have := h6 y hy
    show y.scan - a ≤ y.look - a
    omega
  · congr 1
    · simp [Function.comp_def]
    · rw [List.nil_append, List.map_map]
      refine List.map_congr_left (fun x hx => ?_)
      have e1 := h7 x hx
      have e2 := h6 x hx
      show _ = edgeItem Id c (D (a + (x.look - a))) .SPO (x.key, x.id)
      rw [Nat.add_sub_cancel' (by omega)]

open Classical in
/-- the configuration of an act -/
noncomputable def confOf (L : Link S) (c : Codecs NP EP) (mN : NP → NP → NP) (mE : EP → EP → EP) : Act E Id NP EP → Conf L Id NP EP
  | .dst x => .dst (x.prog c mN mE)
  | .src x => if h : ∀ f s, L.dst (L.onSrc f s) = L.dst s then .src (x.prog c mN mE) h else .dst (.ret ())
  | .extend u ns es => .nodes _ (Sled.extend c) (byItem_extend c) es ns none u
  | .merge g ns es => .nodes _ (Sled.merge c mN mE) (byItem_merge c mN mE) es ns none g

theorem confOf_prog (a : Act E Id NP EP) (hs : a.IsSrc → ∀ f s, L.dst (L.onSrc f s) = L.dst s) :
    (confOf L c mN mE a).prog L c = a.prog L c mN mE := by
  cases a with
  | src x => rw [confOf, dif_pos (hs trivial)]; rfl
  | _ => rfl

theorem confOf_amounts (a : Act E Id NP EP) (hs : a.IsSrc → ∀ f s, L.dst (L.onSrc f s) = L.dst s) {k : Nat} {o : Option (Prog Db Unit)}
    (ho : (confOf L c mN mE a).Amounts L c D k o) : ∃ x, a.Is c (fun m => D (k + m)) x ∧ o = x.map (Call.prog c mN mE) := by
  cases a with
  | dst x => exact ⟨some x, rfl, ho⟩
  | src x =>
    rw [confOf, dif_pos (hs trivial)] at ho
    exact ⟨none, rfl, ho⟩
  | extend u ns es =>
    obtain ⟨is, js, h1, h2, rfl⟩ := ho
    exact ⟨some (.extend u ⟨is, js⟩), ⟨_, told_of h1 h2, rfl⟩, rfl⟩
  | merge g ns es =>
    obtain ⟨is, js, h1, h2, rfl⟩ := ho
    exact ⟨some (.merge g ⟨is, js⟩), ⟨_, told_of h1 h2, rfl⟩, rfl⟩

/-- the elements of lists that correspond -/
theorem forall₂_index {α : Type*} {β δ : Type} {R : α → β → Prop} {f : δ → β} {P : Nat → α → δ → Prop} {as : List α} {bs : List β}
    (h : List.Forall₂ R as bs) (hP : ∀ (i : Nat) a b, as[i]? = some a → R a b → ∃ y, P i a y ∧ b = f y) :
    ∃ ys : List δ, bs = ys.map f ∧ ys.length = as.length ∧ ∀ (i : Nat) a y, as[i]? = some a → ys[i]? = some y → P i a y := by
  induction h generalizing P with
  | nil => exact ⟨[], rfl, rfl, by simp⟩
  | @cons a b as bs h1 _ ih =>
    obtain ⟨y, h2, rfl⟩ := hP 0 a b rfl h1
    obtain ⟨ys, rfl, h4, h5⟩ := ih (P := fun i => P (i + 1)) (fun i a' b' e1 e2 => hP (i + 1) a' b' e1 e2)
    refine ⟨y :: ys, rfl, by simp [h4], fun i a' y' e1 e2 => ?_⟩
    cases i with
    | zero =>
      cases e1; cases e2
      exact h2
    | succ i => exact h5 i a' y' e1 e2

/-- The database written to goes the way it goes when the calls are told in advance what they read. -/
theorem feeds {part : Bool} {x : Nat → S × List (List (Prog S Unit))} {N : Nat} {acts : List (List (Act E Id NP EP))}
    (hL : ∀ f s, L.dst (L.onDst f s) = f (L.dst s))
    (hs : ∀ th ∈ acts, ∀ a ∈ th, a.IsSrc → ∀ f s, L.dst (L.onSrc f s) = L.dst s) (hx : Spec.Course part x N)
    (h0 : (x 0).2 = acts.map (List.map (Act.prog L c mN mE))) :
    ∃ threads rest, Amount L c x N acts threads ∧
      Through part c mN mE threads (fun k => L.dst (x k).1) N rest ∧ ((∀ th ∈ (x N).2, th = []) → ∀ th ∈ rest, th = []) := by
  obtain ⟨start, stop, clock, hstop, times⟩ := clock_of hx
  have sim := simulates (L := L) (c := c) (Id := Id) (fun k => (x k).1) stop hL
  let cs : List (List ((Nat × Nat) × Conf L Id NP EP)) :=
    acts.mapIdx (fun i th => th.mapIdx (fun j a => ((i, th.length - j), confOf L c mN mE a)))
  have hcs : ∀ (i : Nat) ct, cs[i]? = some ct → ∃ th, acts[i]? = some th ∧
      ct = th.mapIdx (fun j a => ((i, th.length - j), confOf L c mN mE a)) := by
    intro i ct h
    rw [List.getElem?_mapIdx] at h
    obtain ⟨th, h1, h2⟩ := Option.map_eq_some_iff.1 h
    exact ⟨th, h1, h2.symm⟩
  have hct : ∀ (i : Nat) (th : List (Act E Id NP EP)) (j : Nat) z,
      (th.mapIdx (fun j a => ((i, th.length - j), confOf L c mN mE a)))[j]? = some z →
      ∃ a, th[j]? = some a ∧ z = ((i, th.length - j), confOf L c mN mE a) := by
    intro i th j z h
    rw [List.getElem?_mapIdx] at h
    obtain ⟨a, h1, h2⟩ := Option.map_eq_some_iff.1 h
    exact ⟨a, h1, h2.symm⟩
  have hl : Numbered Prod.fst cs := by
    intro i ct j z h1 h2
    obtain ⟨th, -, rfl⟩ := hcs i ct h1
    obtain ⟨a, -, rfl⟩ := hct i th j z h2
    simp
  have hc : (x 0).2 = cs.map (List.map (fun z => z.2.prog L c)) := by
    rw [h0]
    refine List.ext_getElem? (fun i => ?_)
    rw [List.getElem?_map, List.getElem?_map, List.getElem?_mapIdx]
    cases e : acts[i]? with
    | none => rfl
    | some th =>
      have hth := List.mem_of_getElem? e
      simp only [Option.map_some, Option.some.injEq]
      refine List.ext_getElem? (fun j => ?_)
      rw [List.getElem?_map, List.getElem?_map, List.getElem?_mapIdx]
      cases e' : th[j]? with
      | none => rfl
      | some a =>
        simp only [Option.map_some, Option.some.injEq]
        exact (confOf_prog a (hs th hth a (List.mem_of_getElem? e'))).symm
  obtain ⟨os, y, h3, h4, h5, h6, h7⟩ := sim.course clock (fun _ _ => rfl) hx hl hc
  obtain ⟨ys, rfl, h8, h9⟩ := forall₂_index (f := List.map (Option.map (Call.prog c mN mE)))
    (P := fun i ct o => ∃ th, acts[i]? = some th ∧ o.length = th.length ∧ ∀ (j : Nat) a z, th[j]? = some a → o[j]? = some z →
      ∃ b e, While x N i (th.length - j) b e ∧ a.Is c (fun m => L.src (x (min (b + m) e)).1) z) h3
    (fun i ct o hi hR => by
      obtain ⟨th, e1, rfl⟩ := hcs i ct hi
      have hth := List.mem_of_getElem? e1
      obtain ⟨ys, rfl, g1, g2⟩ := forall₂_index (f := Option.map (Call.prog c mN mE))
        (P := fun j _ z => ∀ a, th[j]? = some a →
          ∃ b e, While x N i (th.length - j) b e ∧ a.Is c (fun m => L.src (x (min (b + m) e)).1) z) hR
        (fun j z o hj hz => by
          obtain ⟨a, e2, rfl⟩ := hct i th j z hj
          obtain ⟨w, h10, h11⟩ := confOf_amounts a (hs th hth a (List.mem_of_getElem? e2)) hz
          refine ⟨w, fun a' e3 => ?_, h11⟩
          rw [e2] at e3
          cases e3
          refine ⟨_, _, ⟨clock.le (i, th.length - j), hstop _, fun k hk l hq => times i _ k l hk hq⟩, h10⟩)
      rw [List.length_mapIdx] at g1
      refine ⟨ys, ⟨th, e1, g1, fun j a z e2 e3 => ?_⟩, rfl⟩
      refine g2 j ((i, th.length - j), confOf L c mN mE a) z ?_ e3 a e2
      rw [List.getElem?_mapIdx, e2]
      rfl)
  refine ⟨ys.map List.reduceOption, (y N).2, ⟨ys, rfl, by rw [h8, List.length_mapIdx], fun i th o e1 e2 => ?_⟩,
    ⟨y, ?_, h5, rfl, h6⟩, h7⟩
  · obtain ⟨th', e3, e4, e5⟩ := h9 i _ o (by rw [List.getElem?_mapIdx, e1]; rfl) e2
    rw [e1] at e3
    cases e3
    exact ⟨e4, e5⟩
  · rw [h4, List.map_map, Sled.start, List.map_map]
    congr 1
    refine List.map_congr_left (fun o _ => ?_)
    exact List.reduceOption_map

/-! ## the database read -/

/-- The program leaves it alone. -/
def Spares (L : Link S) {α : Type} : Prog S α → Prop
  | .ret _ => True
  | .call f k => (∀ s, L.src (f s) = L.src s) ∧ ∀ s, Spares L (k s)

theorem Spares.bind {α β : Type} {p : Prog S α} (h : Spares L p) {f : α → Prog S β} (hf : ∀ a, Spares L (f a)) : Spares L (p.bind f) := by
  induction p with
  | ret a => exact hf a
  | call g k ih => exact ⟨h.1, fun s => ih s (h.2 s)⟩

theorem spares_lift (hq : ∀ f s, L.src (L.onDst f s) = L.src s) {α : Type} (p : Prog Db α) : Spares L (lift L.dst L.onDst p) := by
  induction p with
  | ret a => trivial
  | call f k ih => exact ⟨hq f, fun s => ih _⟩

theorem spares_onward {k : γ → Prog S Unit} (h : ∀ g, Spares L (k g)) (r : γ × Except (LR SErr SErr) Unit) : Spares L (onward k r) := by
  match r with
  | (g, .ok ()) => exact h g
  | (_, .error _) => trivial

theorem spares_handN (hq : ∀ f s, L.src (L.onDst f s) = L.src s) (W : Loops γ Id NP EP) {k : γ → Prog S Unit} (h : ∀ g, Spares L (k g))
    (l : List (Bytes × Bytes)) (g : γ) : Spares L (handNodes L c W k l g) := by
  induction l generalizing g with
  | nil => exact h g
  | cons e l ih => exact (spares_lift hq _).bind (spares_onward ih)

theorem spares_handE (hq : ∀ f s, L.src (L.onDst f s) = L.src s) (W : Loops γ Id NP EP) {k : γ → Prog S Unit} (h : ∀ g, Spares L (k g))
    (l : List (Bytes × Bytes)) (g : γ) : Spares L (handEdges L c W k l g) := by
  induction l generalizing g with
  | nil => exact h g
  | cons e l ih => exact ⟨fun _ => rfl, fun _ => (spares_lift hq _).bind (spares_onward ih)⟩

theorem spares_feedE (hq : ∀ f s, L.src (L.onDst f s) = L.src s) (W : Loops γ Id NP EP) {k : γ → Prog S Unit} (h : ∀ g, Spares L (k g))
    (es : List Nat) (cur : Option Bytes) (g : γ) : Spares L (feedEdges L c W k es cur g) := by
  induction es generalizing cur g with
  | nil => exact ⟨fun _ => rfl, fun _ => spares_handE hq W h _ _⟩
  | cons n es ih => exact ⟨fun _ => rfl, fun _ => spares_handE hq W (ih _) _ _⟩

theorem spares_feedN (hq : ∀ f s, L.src (L.onDst f s) = L.src s) (W : Loops γ Id NP EP) {k : γ → Prog S Unit} (h : ∀ g, Spares L (k g))
    (ns : List Nat) (cur : Option Bytes) (g : γ) : Spares L (feedNodes L c W k ns cur g) := by
  induction ns generalizing cur g with
  | nil => exact ⟨fun _ => rfl, fun _ => spares_handN hq W h _ _⟩
  | cons n ns ih => exact ⟨fun _ => rfl, fun _ => spares_handN hq W (ih _) _ _⟩

/-- what a thread does to the database read: a call, or nothing -/
inductive SrcConf (L : Link S) where
  | call (P : Prog Db Unit)
  | other (p : Prog S Unit) (h : Spares L p)

def SrcConf.prog : SrcConf L → Prog S Unit
  | .call P => lift L.src L.onSrc P
  | .other p _ => p

def SrcConf.Amounts : SrcConf L → Option (Prog Db Unit) → Prop
  | .call P, o => o = some P
  | .other _ _, o => o = none

theorem src_simulates (X : Nat → S) (stop : Nat × Nat → Nat) (hL : ∀ f s, L.src (L.onSrc f s) = f (L.src s)) :
    Simulates (fun z : (Nat × Nat) × SrcConf L => z.2.prog) Prod.fst stop L.src X (fun _ z => z.2.Amounts) where
  mono _ _ _ _ h := h
  any _ z _ := by
    obtain ⟨i, cf⟩ := z
    cases cf <;> exact ⟨_, rfl⟩
  ret _ z a _ h := by
    obtain ⟨i, cf⟩ := z
    cases cf with
    | call P =>
      cases P with
      | ret b => exact .inr rfl
      | call => cases h
    | other p hp => exact .inl rfl
  step k z f κ _ h := by
    obtain ⟨i, cf⟩ := z
    cases cf with
    | call P =>
      cases P with
      | ret b => cases h
      | call f' κ' =>
        cases h
        exact ⟨(i, .call (κ' (L.src (X k)))), rfl, rfl, fun o' ho => ⟨_, rfl, .inr ⟨f', κ', rfl, ho, hL _ _⟩⟩⟩
    | other p hp =>
      cases h
      exact ⟨(i, .other (κ (X k)) (hp.2 _)), rfl, rfl, fun o' ho => ⟨_, rfl, .inl ⟨ho.symm, hp.1 _⟩⟩⟩

open Classical in
/-- what an act does to the database read -/
noncomputable def srcConf (L : Link S) (c : Codecs NP EP) (mN : NP → NP → NP) (mE : EP → EP → EP) : Act E Id NP EP → SrcConf L
  | .src x => .call (x.prog c mN mE)
  | a => if h : Spares L (a.prog L c mN mE) then .other _ h else .call (.ret ())

theorem spares_act (hq : ∀ f s, L.src (L.onDst f s) = L.src s) (a : Act E Id NP EP) (ha : ¬ a.IsSrc) : Spares L (a.prog L c mN mE) := by
  cases a with
  | src x => exact absurd trivial ha
  | dst x => exact spares_lift hq _
  | extend u ns es => exact spares_feedN hq _ (spares_feedE (k := fun _ => .ret ()) hq _ (fun _ => trivial) es none) ns none u
  | merge g ns es => exact spares_feedN hq _ (spares_feedE (k := fun _ => .ret ()) hq _ (fun _ => trivial) es none) ns none g

theorem srcConf_is (hq : ∀ f s, L.src (L.onDst f s) = L.src s) (a : Act E Id NP EP) :
    (srcConf L c mN mE a).prog = a.prog L c mN mE ∧ ∀ o, (srcConf L c mN mE a).Amounts o → o = a.onSrc.map (Call.prog c mN mE) := by
  cases a with
  | src x => exact ⟨rfl, fun o ho => ho⟩
  | dst x =>
    have h := spares_act (c := c) (mN := mN) (mE := mE) hq (.dst x : Act E Id NP EP) id
    rw [srcConf, dif_pos h]
    swap
    · rintro _ ⟨⟩
    exact ⟨rfl, fun o ho => ho⟩
  | extend u ns es =>
    have h := spares_act (c := c) (mN := mN) (mE := mE) hq (.extend u ns es : Act E Id NP EP) id
    rw [srcConf, dif_pos h]
    swap
    · rintro _ ⟨⟩
    exact ⟨rfl, fun o ho => ho⟩
  | merge g ns es =>
    have h := spares_act (c := c) (mN := mN) (mE := mE) hq (.merge g ns es : Act E Id NP EP) id
    rw [srcConf, dif_pos h]
    swap
    · rintro _ ⟨⟩
    exact ⟨rfl, fun o ho => ho⟩

/-- The database read goes the way the calls on it make it go. -/
theorem srcs {part : Bool} {x : Nat → S × List (List (Prog S Unit))} {N : Nat} {acts : List (List (Act E Id NP EP))}
    (hL : ∀ f s, L.src (L.onSrc f s) = f (L.src s)) (hq : ∀ f s, L.src (L.onDst f s) = L.src s) (hx : Spec.Course part x N)
    (h0 : (x 0).2 = acts.map (List.map (Act.prog L c mN mE))) :
    ∃ rest, Through part c mN mE (acts.map (List.filterMap Act.onSrc)) (fun k => L.src (x k).1) N rest ∧
      ((∀ th ∈ (x N).2, th = []) → ∀ th ∈ rest, th = []) := by
  obtain ⟨start, stop, clock, -, -⟩ := clock_of hx
  let cs : List (List ((Nat × Nat) × SrcConf L)) := acts.mapIdx (fun i th => th.mapIdx (fun j a => ((i, th.length - j), srcConf L c mN mE a)))
  have hl : Numbered Prod.fst cs := by
    intro i ct j z h1 h2
    rw [List.getElem?_mapIdx] at h1
    obtain ⟨th, -, rfl⟩ := Option.map_eq_some_iff.1 h1
    rw [List.getElem?_mapIdx] at h2
    obtain ⟨a, -, rfl⟩ := Option.map_eq_some_iff.1 h2
    simp
  have hc : (x 0).2 = cs.map (List.map (fun z => z.2.prog)) := by
    rw [h0]
    refine List.ext_getElem? (fun i => ?_)
    rw [List.getElem?_map, List.getElem?_map, List.getElem?_mapIdx]
    cases e : acts[i]? with
    | none => rfl
    | some th =>
      simp only [Option.map_some, Option.some.injEq]
      refine List.ext_getElem? (fun j => ?_)
      rw [List.getElem?_map, List.getElem?_map, List.getElem?_mapIdx]
      cases e' : th[j]? with
      | none => rfl
      | some a =>
        simp only [Option.map_some, Option.some.injEq]
        exact (srcConf_is hq a).1.symm
  obtain ⟨os, y, h3, h4, h5, h6, h7⟩ := (src_simulates (fun k => (x k).1) stop hL).course clock (fun _ _ => rfl) hx hl hc
  refine ⟨(y N).2, ⟨y, ?_, h5, rfl, h6⟩, h7⟩
  obtain ⟨ys, rfl, h8, h9⟩ := forall₂_index (f := List.map (Option.map (Call.prog c mN mE)))
    (P := fun i _ o => ∀ th, acts[i]? = some th → o = th.map Act.onSrc) h3
    (fun i ct o hi hR => by
      rw [List.getElem?_mapIdx] at hi
      obtain ⟨th, e1, rfl⟩ := Option.map_eq_some_iff.1 hi
      obtain ⟨ys, rfl, g1, g2⟩ := forall₂_index (f := Option.map (Call.prog c mN mE))
        (P := fun j _ z => ∀ a, th[j]? = some a → z = a.onSrc) hR
        (fun j z o hj hz => by
          rw [List.getElem?_mapIdx] at hj
          obtain ⟨a, e2, rfl⟩ := Option.map_eq_some_iff.1 hj
          exact ⟨a.onSrc, fun a' e3 => by rw [e2] at e3; cases e3; rfl, (srcConf_is hq a).2 _ hz⟩)
      refine ⟨ys, fun th' e2 => ?_, rfl⟩
      rw [e1] at e2
      cases e2
      rw [List.length_mapIdx] at g1
      refine List.ext_getElem? (fun j => ?_)
      rw [List.getElem?_map]
      cases e3 : th[j]? with
      | none =>
        rw [List.getElem?_eq_none_iff] at e3
        rw [List.getElem?_eq_none_iff.2 (by omega)]
        rfl
      | some a =>
        have hj : j < ys.length := by
          have := (List.getElem?_eq_some_iff.1 e3).1
          omega
        rw [List.getElem?_eq_getElem hj]
        refine congrArg some (g2 j ((i, th.length - j), srcConf L c mN mE a) _ ?_ (List.getElem?_eq_getElem hj) a e3)
        rw [List.getElem?_mapIdx, e3]
        rfl)
  have e : ys = acts.map (List.map Act.onSrc) := by
    rw [List.length_mapIdx] at h8
    refine List.ext_getElem? (fun i => ?_)
    rw [List.getElem?_map]
    cases e3 : acts[i]? with
    | none =>
      rw [List.getElem?_eq_none_iff] at e3
      rw [List.getElem?_eq_none_iff.2 (by omega)]
      rfl
    | some th =>
      have hj : i < ys.length := by
        have := (List.getElem?_eq_some_iff.1 e3).1
        omega
      rw [List.getElem?_eq_getElem hj]
      refine congrArg some (h9 i (th.mapIdx (fun j a => ((i, th.length - j), srcConf L c mN mE a))) _ ?_ (List.getElem?_eq_getElem hj) th e3)
      rw [List.getElem?_mapIdx, e3]
      rfl
  rw [h4, e, Sled.start, List.map_map, List.map_map, List.map_map]
  congr 1
  refine List.map_congr_left (fun th _ => ?_)
  show ((th.map Act.onSrc).map (Option.map (Call.prog c mN mE))).reduceOption = (th.filterMap Act.onSrc).map (Call.prog c mN mE)
  rw [List.reduceOption_map]
  congr 1
  unfold List.reduceOption
  rw [List.filterMap_map]
  rfl

/-! ## the ways databases go -/

section

variable {part : Bool} {threads : List (List (Call E Id NP EP))} {D : Nat → Db} {N : Nat} {rest : List (List (Prog Db Unit))}

theorem Through.moments (h : Through part c mN mE threads D N rest) : Moments c mN mE (D 0) threads (fun m => D (min m N)) := by
  obtain ⟨y, h0, h1, h2, h3⟩ := h
  refine ⟨fun m => y (min m N), by beta_reduce; rw [Nat.zero_min, h0]; exact .refl _, fun m => ?_, fun m => (h1 _ (Nat.min_le_right m N)).symm⟩
  beta_reduce
  rcases Nat.lt_or_ge m N with hm | hm
  · rw [Nat.min_eq_left hm, Nat.min_eq_left hm.le]
    rcases h3 m hm with h | h
    · rw [h]; exact .refl _
    · refine .tail (.refl _) ?_
      cases part with
      | true => exact h
      | false =>
        have h : CalmStep (y m) (y (m + 1)) := h
        cases hy : y m; cases hy' : y (m + 1)
        rw [hy, hy'] at h
        cases h with
        | call => exact .call _ _ _ _ _ _
        | ret => exact .ret _ _ _ _ _
  · rw [Nat.min_eq_right hm, Nat.min_eq_right (Nat.le_succ_of_le hm)]
    exact .refl _

theorem Through.moment (h : Through part c mN mE threads D N rest) {k : Nat} (hk : k ≤ N) : Moment c mN mE (D 0) threads (D k) := by
  obtain ⟨X, h1, h2, h3⟩ := h.moments
  have key : ∀ k, Steps (start c mN mE (D 0) threads) (X k) := by
    have trans : ∀ {a b d : Db × List (List (Prog Db Unit))}, Steps a b → Steps b d → Steps a d := by
      intro a b d hab hbd
      induction hbd with
      | refl => exact hab
      | tail _ h ih => exact .tail ih h
    intro k
    induction k with
    | zero => exact h1
    | succ k ih => exact trans ih (h2 k)
  refine ⟨(X k).2, ?_⟩
  have := h3 k
  beta_reduce at this
  rw [Nat.min_eq_left hk] at this
  rw [this]
  exact key k

theorem Through.final (h : Through false c mN mE threads D N rest) (he : ∀ th ∈ rest, th = []) : Final c mN mE (D 0) threads (D N) := by
  obtain ⟨y, h0, h1, rfl, h3⟩ := h
  refine ⟨(y N).2, ?_, he⟩
  have key : ∀ k ≤ N, CalmSteps (start c mN mE (D 0) threads) (y k) := by
    intro k
    induction k with
    | zero => intro _; rw [h0]; exact .refl _
    | succ k ih =>
      intro hk
      rcases h3 k hk with h | h
      · rw [h]; exact ih (by omega)
      · exact .tail (ih (by omega)) h
  rw [← h1 N le_rfl]
  exact key N le_rfl

end

end Sled

end Verif
