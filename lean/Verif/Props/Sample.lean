import Verif.Proof.MemReach

/-! # Concrete stores used by the examples -/

namespace Verif.Props.Sample

open Verif Spec

/-- a counter starting at `k` -/
def cg (k : Nat) : Gen U64 := fun n => Fin.ofNat _ (k + n)

theorem cg_fresh (n k : Nat) (h : n ≤ 1000) : Fresh n (cg k) := by
  intro i hi j hj e
  have := congrArg Fin.val e
  simp only [cg, Fin.ofNat, Nat.reducePow] at this
  omega

/-- merge functions of the example property types -/
def mN : Nat → Nat → Nat := fun a b => a + b
def mE : Nat → Nat → Nat := fun a b => a * 10 + b

/-- two nodes, three edges (one of them orphaned, one a self-loop) -/
def hist : List (Op String U64 Nat Nat) :=
  [.insertNode 1 10, .insertNode 2 20, .insertEdge ⟨1, 5, 2⟩ 7, .insertEdge ⟨2, 5, 9⟩ 8, .insertEdge ⟨2, 2, 2⟩ 3,
   .mergeEdge ⟨1, 5, 2⟩ 1]

/-- a source that fails after one edge -/
def badSrc : Source String U64 Nat Nat :=
  { nodes := [.ok (3, 30)], edges := [.ok (⟨3, 3, 3⟩, 5), .error "disk", .ok (⟨4, 4, 4⟩, 6)] }

/-- an error-free source in SPO order -/
def goodSrc : Source String U64 Nat Nat :=
  { nodes := [.ok (2, 21), .ok (3, 30)], edges := [.ok (⟨1, 5, 2⟩, 4), .ok (⟨3, 3, 3⟩, 5)] }

def goodGraph : Graph U64 Nat Nat :=
  { nodes := fun n => if n = 2 then some 21 else if n = 3 then some 30 else none
    edges := fun t => if t = ⟨1, 5, 2⟩ then some 4 else if t = ⟨3, 3, 3⟩ then some 5 else none }

theorem goodSrc_sorted : RepresentsSorted goodSrc goodGraph := by
  refine ⟨⟨[(2, 21), (3, 30)], rfl, by simp, fun n p => ?_⟩,
    ⟨[(⟨1, 5, 2⟩, 4), (⟨3, 3, 3⟩, 5)], rfl, by simp [edgeLT, lex3], fun t p => ?_⟩⟩
  · simp only [goodGraph, List.mem_cons, Prod.mk.injEq, List.not_mem_nil, or_false]
    by_cases h : n = 2
    · subst h; simp [eq_comm]
    · simp only [h, if_false, false_and, false_or]
      by_cases h' : n = 3
      · subst h'; simp [eq_comm]
      · simp [h']
  · simp only [goodGraph, List.mem_cons, Prod.mk.injEq, List.not_mem_nil, or_false]
    by_cases h : t = ⟨1, 5, 2⟩
    · subst h; simp [eq_comm]
    · simp only [h, if_false, false_and, false_or]
      by_cases h' : t = ⟨3, 3, 3⟩
      · subst h'; simp [eq_comm]
      · simp [h']

/-- a store built by a history -/
def store : Mem U64 Nat Nat := (Mem.new (cg 0)).applyAll mN mE hist

theorem reach_applyAll {Id NP EP E : Type} [LinearOrder Id] [ConcreteId Id] {mN : NP → NP → NP} {mE : EP → EP → EP}
    {n : Nat} {s : Mem Id NP EP} (h : List (Op E Id NP EP)) (hs : Mem.Reach E mN mE (n + draws h) s) :
    Mem.Reach E mN mE n (s.applyAll mN mE h) := by
  induction h generalizing s with
  | nil => exact hs
  | cons o h ih =>
    refine ih (s := s.apply mN mE o) (.op o ?_)
    have e : n + draws h + o.draws = n + draws (o :: h) := by simp only [draws, List.map_cons, List.sum_cons]; omega
    rw [e]; exact hs

theorem store_reach (n : Nat) (h : n ≤ 900) : Mem.Reach String mN mE n store :=
  reach_applyAll hist (.new (cg_fresh _ _ (by
    have : draws hist = 4 := by rfl
    omega)))

/-- the same with sources that cannot fail -/
def storeU : Mem U64 Nat Nat := ((Mem.new (cg 0)).insertNode 1 10).insertEdge ⟨1, 5, 2⟩ 7

theorem storeU_reach (n : Nat) (h : n ≤ 900) : Mem.Reach Unit mN mE n storeU :=
  .op (.insertEdge ⟨1, 5, 2⟩ 7) (.op (.insertNode 1 10) (.new (cg_fresh _ _ (by simp only [Op.draws]; omega))))

def goodSrcU : Source Unit U64 Nat Nat :=
  { nodes := [.ok (2, 21), .ok (3, 30)], edges := [.ok (⟨1, 5, 2⟩, 4), .ok (⟨3, 3, 3⟩, 5)] }

theorem goodSrcU_sorted : RepresentsSorted goodSrcU goodGraph := by
  obtain ⟨⟨l, h1, h2⟩, l', h1', h2'⟩ := goodSrc_sorted
  have inj : ∀ {α : Type} {x y : List α}, x.map (Except.ok (ε := String)) = y.map .ok → x = y :=
    fun h => List.map_injective_iff.2 (fun _ _ h => by cases h; rfl) h
  have e1 : l = [(2, 21), (3, 30)] := inj h1.symm
  have e2 : l' = [(⟨1, 5, 2⟩, 4), (⟨3, 3, 3⟩, 5)] := inj h1'.symm
  exact ⟨⟨l, by rw [e1]; rfl, h2⟩, l', by rw [e2]; rfl, h2'⟩

def storeU2 : Mem U64 Nat Nat := ((Mem.new (cg 3)).insertNode 1 11).insertEdge ⟨8, 5, 2⟩ 9

theorem storeU2_reach (n : Nat) (h : n ≤ 900) : Mem.Reach Unit mN mE n storeU2 :=
  .op (.insertEdge ⟨8, 5, 2⟩ 9) (.op (.insertNode 1 11) (.new (cg_fresh _ _ (by simp only [Op.draws]; omega))))

/-- the graph of `store`, built in another order with other ids -/
def hist' : List (Op String U64 Nat Nat) :=
  [.insertEdge ⟨2, 2, 2⟩ 3, .insertNode 2 20, .insertEdge ⟨2, 5, 9⟩ 8, .insertNode 1 11, .insertEdge ⟨1, 5, 2⟩ 71,
   .insertNode 1 10]

def store' : Mem U64 Nat Nat := (Mem.new (cg 100)).applyAll mN mE hist'

theorem store'_reach (n : Nat) (h : n ≤ 900) : Mem.Reach String mN mE n store' :=
  reach_applyAll hist' (.new (cg_fresh _ _ (by
    have : draws hist' = 3 := by rfl
    omega)))

/-- `difference` samples -/
def diffHist : List (Op String U64 Nat Nat) :=
  [.insertNode 1 10, .insertNode 2 20, .insertEdge ⟨1, 5, 1⟩ 6, .insertEdge ⟨1, 5, 2⟩ 7]

def diffStore : Mem U64 Nat Nat := (Mem.new (cg 0)).applyAll mN mE diffHist

theorem diffStore_reach (n : Nat) (h : n ≤ 900) : Mem.Reach String mN mE n diffStore :=
  reach_applyAll diffHist (.new (cg_fresh _ _ (by
    have : draws diffHist = 2 := by rfl
    omega)))

def diffGraph : Graph U64 Nat Nat :=
  { nodes := fun n => if n = 1 then some 10 else if n = 2 then some 20 else none
    edges := fun t => if t = ⟨1, 5, 1⟩ then some 6 else if t = ⟨1, 5, 2⟩ then some 7 else none }

theorem diffStore_graph : diffStore.graph = diffGraph := by
  have := (Mem.ok_applyAll mN mE 0 _ _ diffHist
    ((Mem.ok_new (NP := Nat) (EP := Nat) (cg_fresh 2 0 (by decide))).mono (by decide))).graph
  rw [diffStore, this]
  refine Graph.ext' (fun n => ?_) (fun t => ?_)
  · simp only [applyAll, diffHist, List.foldl, Op.apply, Graph.insertNode, Graph.insertEdge, Graph.empty, diffGraph]
    by_cases h : n = 1
    · subst h; rfl
    · simp [h]
  · simp only [applyAll, diffHist, List.foldl, Op.apply, Graph.insertNode, Graph.insertEdge, Graph.empty, diffGraph]
    by_cases h : t = ⟨1, 5, 1⟩
    · subst h; rfl
    · simp [h]

def diffSrc : Source String U64 Nat Nat := { nodes := [.ok (2, 0)], edges := [.ok (⟨4, 4, 4⟩, 0)] }

theorem diffSrc_sorted : RepresentsSorted diffSrc
    { nodes := fun n => if n = 2 then some 0 else none, edges := fun t => if t = ⟨4, 4, 4⟩ then some 0 else none } := by
  refine ⟨⟨[(2, 0)], rfl, by simp, fun n p => ?_⟩, ⟨[(⟨4, 4, 4⟩, 0)], rfl, by simp, fun t p => ?_⟩⟩
  · by_cases h : n = 2
    · subst h; simp [eq_comm]
    · simp [h]
  · by_cases h : t = ⟨4, 4, 4⟩
    · subst h; simp [eq_comm]
    · simp [h]

/-- formatting functions for the Debug examples; the hash reads the key as a number -/
def fmt : DebugFmt U64 Nat Nat where
  showId x := toString x.val
  showN := toString
  showE := toString
  hash k := let t := ConcreteId.decodeSpo (Id := U64) k; (t.sub.val * 2 ^ 64 + t.pred.val) * 2 ^ 64 + t.obj.val
  hex := toString

theorem fmt_hash_inj (t u : Triple U64)
    (h : fmt.hash (ConcreteId.encodeSpo t) = fmt.hash (ConcreteId.encodeSpo u)) : t = u := by
  simp only [fmt, LawfulId.decSpo_enc] at h
  obtain ⟨⟨a, ha⟩, ⟨b, hb⟩, ⟨c, hc⟩⟩ := t
  obtain ⟨⟨a', ha'⟩, ⟨b', hb'⟩, ⟨c', hc'⟩⟩ := u
  simp only at h
  have : a = a' ∧ b = b' ∧ c = c' := by omega
  obtain ⟨rfl, rfl, rfl⟩ := this
  rfl

end Verif.Props.Sample
