import Verif.Proof.SledReach
import Verif.Proof.SledRead
import Verif.Props.Sample

/-! # Concrete sled stores used by the examples -/

set_option maxRecDepth 100000

namespace Verif.Props.Sample

open Verif Spec ConcreteId

/-- a serialization format that can write every number -/
def unary : Codec Nat := { ser := fun n => some (List.replicate n 0), de := fun b => some b.length }

def uc : Codecs Nat Nat := { n := unary, e := unary }

theorem uc_rt : uc.RoundTrip := by
  constructor <;> · intro p b h; cases h; simp [uc, unary]

theorem uc_total : uc.Total := ⟨fun _ => rfl, fun _ => rfl⟩

/-- a serialization format that can write only numbers below 256, and read only single bytes -/
def byte : Codec Nat :=
  { ser := fun n => if n < 256 then some [Fin.ofNat 256 n] else none
    de := fun b => match b with | [x] => some x.val | _ => none }

def bc : Codecs Nat Nat := { n := byte, e := byte }

theorem bc_rt : bc.RoundTrip := by
  constructor <;>
  · intro p b h
    simp only [bc, byte] at h ⊢
    split at h
    · rename_i hp
      cases h
      simp only [Option.some.injEq, Fin.ofNat]
      exact Nat.mod_eq_of_lt hp
    · cases h

/-- what `Ulid::new()` returns: increasing from `k` -/
def ul (k : Nat) : Gen Ulid := fun n => Fin.ofNat _ (2 ^ 100 + k + n)

theorem ul_fresh (n k : Nat) (h : n ≤ 1000) : Fresh n (ul k) := by
  intro i hi j hj e
  have := congrArg Fin.val e
  simp only [ul, Fin.ofNat, Nat.reducePow] at this
  omega

/-- the ids of a U64 generator are 8 bytes long, ULIDs 16 -/
theorem freshIds (n m : Nat) {g : Gen U64} {u : Gen Ulid} (hg : Fresh n g) (hu : Fresh m u) : FreshIds n m g u := by
  refine ⟨hg, hu, fun i _ j _ e => ?_⟩
  have h1 := (toBeBytes (g i)).2
  have h2 := (toBeBytes (u j)).2
  rw [e, h2] at h1
  exact absurd h1 (by decide)

theorem cu_fresh (n m k l : Nat) (hn : n ≤ 1000) (hm : m ≤ 1000) : FreshIds n m (cg k) (ul l) :=
  freshIds n m (cg_fresh n k hn) (ul_fresh m l hm)

/-- a history with an overwrite, both kinds of bulk operation, and a failing source -/
def shist : List (Op String U64 Nat Nat) := hist ++ [.insertEdge ⟨1, 5, 2⟩ 9, .extend goodSrc, .merge badSrc, .removeNode 3]

def sstore : SledStore U64 := (SledStore.new Db.empty (cg 0) (ul 0)).applyAll uc mN mE shist

theorem shist_draws : genDraws shist = 8 ∧ ulidDraws shist = 2 := by decide

theorem sstore_reach (n m : Nat) (hn : n ≤ 900) (hm : m ≤ 900) : SledStore.Reach String uc mN mE n m sstore := by
  refine SledStore.reach_applyAll shist (.new (cu_fresh _ _ _ _ ?_ ?_))
  · rw [shist_draws.1]; omega
  · rw [shist_draws.2]; omega

end Verif.Props.Sample
