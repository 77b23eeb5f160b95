import Verif.Proof.StoreEq
import Verif.Props.Sled
import Verif.Props.Set

/-! # C63: equality of stores, for property types with any `==` (`PartialEq`, perhaps not reflexive) -/

set_option maxRecDepth 100000

namespace Verif.Props

open Verif Spec ConcreteId

variable {Id NP EP E : Type} [LinearOrder Id] [ConcreteId Id] [LawfulId Id] [BEq NP] [BEq EP]
variable {mN : NP → NP → NP} {mE : EP → EP → EP}

/-! ## try_eq -/

/-- For two stores of any kind: the same nodes and edges, with properties that are `==`. -/
theorem C63_tryEq {L R : Type} {a : Source L Id NP EP} {b : Source R Id NP EP} {G H : Graph Id NP EP}
    (ha : RepresentsSorted a G) (hb : RepresentsSorted b H) :
    (tryEq a b = .ok true ↔ G.Same H) ∧ (tryEq a b = .ok false ↔ ¬ G.Same H) := tryEq_same ha hb

/-- For two in-memory stores. -/
theorem C63_mem {a b : Mem Id NP EP} {G H : Graph Id NP EP} (hG : Shows a.obs G) (hH : Shows b.obs H) :
    (tryEq (a.iterNodes .SPO) (b.iterNodes .SPO) = .ok true ↔ G.Same H) ∧
    (tryEq (a.iterNodes .SPO) (b.iterNodes .SPO) = .ok false ↔ ¬ G.Same H) :=
  tryEq_same ⟨hG.1, hG.2 .SPO⟩ ⟨hH.1, hH.2 .SPO⟩

/-- For an in-memory store and a sled store. -/
theorem C63_mem_sled {c : Codecs NP EP} {a : Mem Id NP EP} {d : Db} {G H : Graph Id NP EP} (hG : Shows a.obs G)
    (hH : Shows (Sled.obs c d) H) :
    (tryEq (a.iterNodes .SPO) (Sled.iterNodes c d .SPO) = .ok true ↔ G.Same H) ∧
    (tryEq (a.iterNodes .SPO) (Sled.iterNodes c d .SPO) = .ok false ↔ ¬ G.Same H) := by
  obtain ⟨-, -, -, -, h1, h2⟩ := C23_sled (Id := Id) c d .SPO
  exact tryEq_same ⟨hG.1, hG.2 .SPO⟩ ⟨h1 ▸ hH.1, h2 ▸ hH.2 .SPO⟩

/-- For two sled stores, even with different codecs. -/
theorem C63_sled {c c' : Codecs NP EP} {d d' : Db} {G H : Graph Id NP EP} (hG : Shows (Sled.obs c d) G)
    (hH : Shows (Sled.obs c' d') H) :
    (tryEq (Sled.iterNodes (Id := Id) c d .SPO) (Sled.iterNodes c' d' .SPO) = .ok true ↔ G.Same H) ∧
    (tryEq (Sled.iterNodes (Id := Id) c d .SPO) (Sled.iterNodes c' d' .SPO) = .ok false ↔ ¬ G.Same H) := by
  obtain ⟨-, -, -, -, h1, h2⟩ := C23_sled (Id := Id) c d .SPO
  obtain ⟨-, -, -, -, h3, h4⟩ := C23_sled (Id := Id) c' d' .SPO
  exact tryEq_same ⟨h1 ▸ hG.1, h2 ▸ hG.2 .SPO⟩ ⟨h3 ▸ hH.1, h4 ▸ hH.2 .SPO⟩

/-- A store is `try_eq` to itself exactly if its properties are `==` to themselves. -/
theorem C63_refl {L : Type} {a : Source L Id NP EP} {G : Graph Id NP EP} (ha : RepresentsSorted a G) :
    tryEq a a = .ok true ↔ G.Reflexive := by
  rw [(C63_tryEq ha ha).1]
  have key : ∀ {κ ν : Type} [BEq ν] (f : κ → Option ν), SameValues f f ↔ ∀ k p, f k = some p → (p == p) = true := by
    intro κ ν _ f
    constructor
    · intro h k p hp
      rcases h k with ⟨h1, -⟩ | ⟨p', q', h1, h2, h3⟩
      · rw [hp] at h1; cases h1
      · rw [hp] at h1 h2; cases h1; cases h2; exact h3
    · intro h k
      cases hk : f k with
      | none => exact .inl ⟨rfl, rfl⟩
      | some p => exact .inr ⟨p, p, rfl, rfl, h k p hk⟩
  exact and_congr (key _) (key _)

/-- `try_eq` is symmetric if `==` of the properties is, for any sources. -/
theorem C63_symm {L R : Type} (hN : ∀ p q : NP, (p == q) = true → (q == p) = true)
    (hE : ∀ p q : EP, (p == q) = true → (q == p) = true) {a : Source L Id NP EP} {b : Source R Id NP EP}
    (h : tryEq a b = .ok true) : tryEq b a = .ok true := by
  obtain ⟨an, ae, bn, be, h1, h2, h3, h4, h5, h6⟩ := (tryEq_true a b).1 h
  exact (tryEq_true b a).2 ⟨bn, be, an, ae, h3, h4, h1, h2, list_beq_symm (pair_symm hN) h5, list_beq_symm (pair_symm hE) h6⟩

/-- `try_eq` is transitive if `==` of the properties is, for any sources. -/
theorem C63_trans {L M R : Type} (hN : ∀ p q r : NP, (p == q) = true → (q == r) = true → (p == r) = true)
    (hE : ∀ p q r : EP, (p == q) = true → (q == r) = true → (p == r) = true) {a : Source L Id NP EP} {b : Source M Id NP EP}
    {k : Source R Id NP EP} (h : tryEq a b = .ok true) (h' : tryEq b k = .ok true) : tryEq a k = .ok true := by
  obtain ⟨an, ae, bn, be, h1, h2, h3, h4, h5, h6⟩ := (tryEq_true a b).1 h
  obtain ⟨bn', be', kn, ke, h1', h2', h3', h4', h5', h6'⟩ := (tryEq_true b k).1 h'
  have inj : ∀ {α : Type} {x y : List α}, x.map (Except.ok (ε := M)) = y.map .ok → x = y :=
    fun h => List.map_injective_iff.2 (fun _ _ h => by cases h; rfl) h
  obtain rfl := inj (h3.symm.trans h1')
  obtain rfl := inj (h4.symm.trans h2')
  exact (tryEq_true a k).2 ⟨an, ae, kn, ke, h1, h2, h3', h4', list_beq_trans (pair_trans hN) h5 h5',
    list_beq_trans (pair_trans hE) h6 h6'⟩

/-- When an error of the left store is reported. -/
theorem C63_left_error {L R : Type} (a : Source L Id NP EP) (b : Source R Id NP EP) (e : L) : tryEq a b = .error (.left e) ↔
      (∃ c d : List (Id × NP), (c.map .ok ++ [.error e]) <+: a.nodes ∧ d.map .ok <+: b.nodes ∧ (c == d) = true ∧
        d.length < b.nodes.length) ∨
      ((∃ c d : List (Id × NP), a.nodes = c.map .ok ∧ b.nodes = d.map .ok ∧ (c == d) = true) ∧
        ∃ c d : List (Triple Id × EP), (c.map .ok ++ [.error e]) <+: a.edges ∧ d.map .ok <+: b.edges ∧ (c == d) = true ∧
          d.length < b.edges.length) := by
  rw [tryEq_left, tryEqLoop_left, tryEqLoop_none, tryEqLoop_left]

/-- When an error of the right store is reported. -/
theorem C63_right_error {L R : Type} (a : Source L Id NP EP) (b : Source R Id NP EP) (e : R) : tryEq a b = .error (.right e) ↔
      (∃ (c d : List (Id × NP)) (x : Id × NP), (c ++ [x]).map .ok <+: a.nodes ∧ (d.map .ok ++ [.error e]) <+: b.nodes ∧
        (c == d) = true) ∨
      ((∃ c d : List (Id × NP), a.nodes = c.map .ok ∧ b.nodes = d.map .ok ∧ (c == d) = true) ∧
        ∃ (c d : List (Triple Id × EP)) (x : Triple Id × EP), (c ++ [x]).map .ok <+: a.edges ∧
          (d.map .ok ++ [.error e]) <+: b.edges ∧ (c == d) = true) := by
  rw [tryEq_right, tryEqLoop_right, tryEqLoop_none, tryEqLoop_right]

/-! ## == on MemTripleStore -/

/-- What `==` decides: as many nodes, the same with `==` properties, and the same edges with `==` properties up to the end of the
shorter list. -/
theorem C63_eq {n m : Nat} {a b : Mem Id NP EP} (ha : Mem.Reach E mN mE n a) (hb : Mem.Reach E mN mE m b)
    {an bn : List (Id × NP)} {ae be : List (Triple Id × EP)} (h1 : a.iterVertices = an.map .ok)
    (h2 : a.iterEdges .SPO = ae.map .ok) (h3 : b.iterVertices = bn.map .ok) (h4 : b.iterEdges .SPO = be.map .ok) :
    a.eq b = true ↔ an.length = bn.length ∧ AgreeUpToEnd an bn ∧ AgreeUpToEnd ae be := by
  have inj : ∀ {α : Type} {x y : List α}, x.map (Except.ok (ε := Unit)) = y.map .ok → x = y :=
    fun h => List.map_injective_iff.2 (fun _ _ h => by cases h; rfl) h
  rw [Mem.iterVertices_eq] at h1 h3
  rw [Mem.iterEdges_eq] at h2 h4
  rw [Mem.eq_iff_zip ha.inv hb.inv, inj h1, inj h2, inj h3, inj h4, zip_agree, list_beq_agree, and_assoc]

/-- A store is `==` to itself exactly if its properties are. -/
theorem C63_eq_refl {n : Nat} {a : Mem Id NP EP} {G : Graph Id NP EP} (ha : Mem.Reach E mN mE n a) (hG : Shows a.obs G) :
    a.eq a = true ↔ G.Reflexive := by
  obtain ⟨⟨l, h1, h1'⟩, hE⟩ := hG
  obtain ⟨k, h2, h2'⟩ := hE .SPO
  rw [C63_eq ha ha h1 h2 h1 h2, eq_self, true_and]
  have key : ∀ {κ ν : Type} [BEq ν] {lt : κ → κ → Prop} {f : κ → Option ν} {l : List (κ × ν)}, Lists lt f l →
      (AgreeUpToEnd l l ↔ ∀ k p, f k = some p → (p == p) = true) := by
    intro κ ν _ lt f l h
    constructor
    · intro hl k p hp
      obtain ⟨i, hi⟩ := List.mem_iff_getElem?.1 ((h.2 _ _).2 hp)
      exact (hl i _ _ hi hi).2
    · intro hf i x y hx hy
      rw [hx] at hy
      cases hy
      exact ⟨rfl, hf x.1 x.2 ((h.2 _ _).1 (List.mem_of_getElem? hx))⟩
  exact and_congr (key h1') (key h2')

/-- `==` is symmetric if `==` of the properties is. -/
theorem C63_eq_symm {n m : Nat} (hN : ∀ p q : NP, (p == q) = true → (q == p) = true)
    (hE : ∀ p q : EP, (p == q) = true → (q == p) = true) {a b : Mem Id NP EP} (ha : Mem.Reach E mN mE n a)
    (hb : Mem.Reach E mN mE m b) (h : a.eq b = true) : b.eq a = true := by
  rw [Mem.eq_iff_zip ha.inv hb.inv, zip_agree] at h
  rw [Mem.eq_iff_zip hb.inv ha.inv, zip_agree]
  exact ⟨list_beq_symm (pair_symm hN) h.1, agree_symm hE h.2⟩

/-- `==` is transitive, if `==` of the properties is, over a store in the middle that does not have fewer edges than both others.
Missing for the full property: this condition, without which it is false (`C63_eq_trans_violated`). -/
theorem C63_eq_trans_partial {n m k : Nat} (hN : ∀ p q r : NP, (p == q) = true → (q == r) = true → (p == r) = true)
    (hE : ∀ p q r : EP, (p == q) = true → (q == r) = true → (p == r) = true) {a b d : Mem Id NP EP} (ha : Mem.Reach E mN mE n a)
    (hb : Mem.Reach E mN mE m b) (hd : Mem.Reach E mN mE k d)
    (hlen : (a.iterEdges .SPO).length ≤ (b.iterEdges .SPO).length ∨ (d.iterEdges .SPO).length ≤ (b.iterEdges .SPO).length)
    (h : a.eq b = true) (h' : b.eq d = true) : a.eq d = true := by
  rw [Mem.eq_iff_zip ha.inv hb.inv, zip_agree] at h
  rw [Mem.eq_iff_zip hb.inv hd.inv, zip_agree] at h'
  rw [Mem.eq_iff_zip ha.inv hd.inv, zip_agree]
  refine ⟨list_beq_trans (pair_trans hN) h.1 h'.1, fun i x y hx hy => ?_⟩
  simp only [Mem.iterEdges_eq, List.length_map] at hlen
  have h1 := (List.getElem?_eq_some_iff.1 hx).1
  have h2 := (List.getElem?_eq_some_iff.1 hy).1
  obtain ⟨z, hz⟩ : ∃ z, (b.edgeList .SPO)[i]? = some z := ⟨_, List.getElem?_eq_getElem (by omega)⟩
  obtain ⟨e1, e2⟩ := h.2 i x z hx hz
  obtain ⟨e3, e4⟩ := h'.2 i z y hz hy
  exact ⟨e1.trans e3, hE _ _ _ e2 e4⟩

/-! ### examples -/

/-- numbers with a `NaN` -/
inductive Num where
  | nan
  | val (n : Nat)
deriving DecidableEq

def Num.eq : Num → Num → Bool
  | .val a, .val b => decide (a = b)
  | _, _ => false

instance : BEq Num := ⟨Num.eq⟩

theorem num_symm (p q : Num) (h : (p == q) = true) : (q == p) = true := by
  cases p <;> cases q <;> simp_all [BEq.beq, Num.eq]

theorem num_trans (p q r : Num) (h : (p == q) = true) (h' : (q == r) = true) : (p == r) = true := by
  cases p <;> cases q <;> cases r <;> simp_all [BEq.beq, Num.eq]

def keepN : Num → Num → Num := fun _ b => b

/-- a node 1 with the given number, an edge with 7 -/
def numStore (g : Gen U64) (p : Num) : Mem U64 Num Num := ((Mem.new g).insertNode 1 p).insertEdge ⟨1, 5, 2⟩ (.val 7)

theorem numStore_reach (k : Nat) (p : Num) : Mem.Reach Unit keepN keepN 0 (numStore (Sample.cg k) p) :=
  .op (.insertEdge ⟨1, 5, 2⟩ (Num.val 7)) (.op (.insertNode 1 p) (.new (Sample.cg_fresh 1 _ (by decide))))

/-- The property is false: `==` is not transitive, although equality of the properties is.  The PartialEq trait demands it. -/
theorem C63_eq_trans_violated : ∃ a b d : Mem U64 Nat Nat,
    Mem.Reach Unit Sample.mN Sample.mE 0 a ∧ Mem.Reach Unit Sample.mN Sample.mE 0 b ∧ Mem.Reach Unit Sample.mN Sample.mE 0 d ∧
      a.eq b = true ∧ b.eq d = true ∧ a.eq d = false :=
  ⟨_, _, _, .op (.insertEdge ⟨1, 2, 3⟩ 7) (.new (Sample.cg_fresh 1 0 (by omega))), .new (Sample.cg_fresh 0 0 (by omega)),
    .op (.insertEdge ⟨1, 2, 3⟩ 8) (.new (Sample.cg_fresh 1 0 (by omega))), by rfl, by rfl, by rfl⟩

example : (numStore (Sample.cg 0) (.val 3)).eq (numStore (Sample.cg 9) (.val 3)) = true :=
  C63_eq_symm (a := numStore (Sample.cg 9) (.val 3)) num_symm num_symm (numStore_reach 9 _) (numStore_reach 0 _) (by rfl)

example : (numStore (Sample.cg 0) (.val 3)).eq (numStore (Sample.cg 20) (.val 3)) = true :=
  C63_eq_trans_partial (b := numStore (Sample.cg 9) (.val 3)) num_trans num_trans (numStore_reach 0 _) (numStore_reach 9 _)
    (numStore_reach 20 _) (.inl (by decide +kernel)) (by rfl) (by rfl)

/-- a `NaN` in a node: the store differs from itself -/
example : ¬ (numStore (Sample.cg 0) .nan).graph.Reflexive := by
  rw [← C63_eq_refl (numStore_reach 0 .nan) (Mem.shows (numStore_reach 0 .nan).inv.toAgree)]
  decide +kernel

example : tryEq ((numStore (Sample.cg 0) .nan).iterNodes .SPO) ((numStore (Sample.cg 0) .nan).iterNodes .SPO) = .ok false :=
  (C63_mem (Mem.shows (numStore_reach 0 .nan).inv.toAgree) (Mem.shows (numStore_reach 0 .nan).inv.toAgree)).2.2 (fun h => by
    rcases h.1 1 with ⟨h1, -⟩ | ⟨p, q, h1, -, h3⟩
    · rw [show (numStore (Sample.cg 0) .nan).graph.nodes 1 = some .nan by rfl] at h1; cases h1
    · rw [show (numStore (Sample.cg 0) .nan).graph.nodes 1 = some .nan by rfl] at h1; cases h1; cases h3)

example : (numStore (Sample.cg 0) (.val 3)).graph.Same (numStore (Sample.cg 9) (.val 3)).graph :=
  (C63_mem (Mem.shows (numStore_reach 0 _).inv.toAgree) (Mem.shows (numStore_reach 9 _).inv.toAgree)).1.1 (by rfl)

example : tryEq (Sample.storeU.iterNodes .SPO) (Sled.iterNodes Sample.uc Sample.sstore.db .SPO) = .ok false :=
  (C63_mem_sled (Mem.shows (Sample.storeU_reach 0 (by decide)).inv.toAgree)
    ((Sample.sstore_reach 0 0 (by decide) (by decide)).shows Sample.uc_rt)).2.2
    (by
      rw [← (C63_mem_sled (Mem.shows (Sample.storeU_reach 0 (by decide)).inv.toAgree)
        ((Sample.sstore_reach 0 0 (by decide) (by decide)).shows Sample.uc_rt)).1]
      decide +kernel)

example : (Sample.sstore.db.graph Sample.uc).Same (Sample.sstore.db.graph (Id := U64) Sample.uc) :=
  (C63_sled ((Sample.sstore_reach 0 0 (by decide) (by decide)).shows Sample.uc_rt)
    ((Sample.sstore_reach 0 0 (by decide) (by decide)).shows Sample.uc_rt)).1.1 (by decide +kernel)

example : tryEq Sample.goodSrc Sample.goodSrc = .ok true := (C63_refl Sample.goodSrc_sorted).2 ⟨by simp, by simp⟩

example : tryEq Sample.goodSrcU Sample.goodSrc = .ok true :=
  C63_symm (fun _ _ h => beq_iff_eq.2 (beq_iff_eq.1 h).symm) (fun _ _ h => beq_iff_eq.2 (beq_iff_eq.1 h).symm) ((C63_tryEq Sample.goodSrc_sorted Sample.goodSrcU_sorted).1.2
    ((C63_tryEq Sample.goodSrc_sorted Sample.goodSrc_sorted).1.1 (by rfl)))

example : tryEq Sample.goodSrc Sample.goodSrc = .ok true :=
  C63_trans (b := Sample.goodSrcU) (fun _ _ _ h h' => beq_iff_eq.2 ((beq_iff_eq.1 h).trans (beq_iff_eq.1 h')))
    (fun _ _ _ h h' => beq_iff_eq.2 ((beq_iff_eq.1 h).trans (beq_iff_eq.1 h'))) (by rfl) (by rfl)

/-- a `NaN` before the error hides it -/
example : ¬ tryEq (Id := U64) (L := String) (R := Unit) (EP := Num) ⟨[.ok (1, Num.nan), .error "disk"], []⟩ ⟨[.ok (1, .nan), .ok (2, .nan)], []⟩ =
    .error (.left "disk") := by
  rw [C63_left_error]
  rintro (⟨c, d, h1, h2, h3, -⟩ | ⟨⟨c, d, h, -⟩, -⟩)
  · rcases c with _ | ⟨⟨i, p⟩, c⟩
    · simp at h1
    · rcases d with _ | ⟨⟨j, q⟩, d⟩
      · simp at h3
      · simp at h1 h2
        obtain ⟨⟨rfl, rfl⟩, -⟩ := h1
        obtain ⟨⟨rfl, rfl⟩, -⟩ := h2
        rw [List.cons_beq_cons, Bool.and_eq_true, pair_beq] at h3
        exact absurd h3.1.2 (by decide)
  · rcases c with _ | ⟨_, _ | ⟨_, c⟩⟩ <;> simp at h

example : tryEq (Id := U64) (L := Unit) (R := String) (EP := Num) ⟨[.ok (1, Num.val 2), .ok (2, .nan)], []⟩ ⟨[.ok (1, .val 2), .error "disk"], []⟩ =
    .error (.right "disk") :=
  (C63_right_error _ _ _).2 (.inl ⟨[(1, .val 2)], [(1, .val 2)], (2, .nan), by simp, by simp, by rfl⟩)

end Verif.Props
