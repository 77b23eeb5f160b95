import Verif.Props.SledSample
import Verif.Proof.Rdf

/-! # Concrete RDF stores used by the examples -/

namespace Verif.Props.Sample

open Verif Spec ConcreteId

/-! ## codecs for a sled name index -/

def charBytes (c : Char) : Bytes :=
  [Fin.ofNat 256 (c.toNat / 65536), Fin.ofNat 256 (c.toNat / 256), Fin.ofNat 256 c.toNat]

def charsOf : Bytes → Option (List Char)
  | [] => some []
  | a :: b :: c :: l => (charsOf l).map (Char.ofNat (a.val * 65536 + b.val * 256 + c.val) :: ·)
  | _ => none

/-- names, three bytes for each character -/
def names : Codec String :=
  { ser := fun s => some (s.toList.flatMap charBytes), de := fun b => (charsOf b).map String.ofList }

theorem char_lt (c : Char) : c.toNat < 2 ^ 24 := by
  have := c.valid
  have h : c.toNat = c.val.toNat := rfl
  rcases this with h1 | ⟨-, h1⟩
  · rw [h]
    have : c.val.toNat < 0xd800 := h1
    omega
  · rw [h]
    have : c.val.toNat < 0x110000 := h1
    omega

theorem charsOf_bytes (l : List Char) : charsOf (l.flatMap charBytes) = some l := by
  induction l with
  | nil => rfl
  | cons c l ih =>
    have hc := char_lt c
    have e : Fin.val (Fin.ofNat 256 (c.toNat / 65536)) * 65536 + Fin.val (Fin.ofNat 256 (c.toNat / 256)) * 256 +
        Fin.val (Fin.ofNat 256 c.toNat) = c.toNat := by
      simp only [Fin.ofNat]
      omega
    rw [List.flatMap_cons]
    show charsOf (_ :: _ :: _ :: l.flatMap charBytes) = _
    rw [charsOf, ih, e, Char.ofNat_toNat]
    rfl

theorem names_rt : names.RoundTrips := by
  intro p b h
  cases h
  show (charsOf (p.toList.flatMap charBytes)).map String.ofList = some p
  rw [charsOf_bytes, Option.map_some, String.ofList_toList]

theorem names_total : names.Total := fun _ => rfl

/-- ids, as 16 bytes -/
def ids : Codec Ulid := { ser := fun u => some (toBeBytes u).1, de := fun b => tryFromBeBytes b }

theorem ids_rt : ids.RoundTrips := by
  intro p b h
  cases h
  exact LawfulId.try_toBe p

theorem ids_total : ids.Total := fun _ => rfl

/-! ## stores -/

/-- ids for the edges of the store -/
def eg (k : Nat) : Gen Ulid := fun n => Fin.ofNat _ (2 ^ 90 + k + n)

theorem eg_fresh (n k : Nat) (h : n ≤ 1000) : Fresh n (eg k) := by
  intro i hi j hj e
  have := congrArg Fin.val e
  simp only [eg, Fin.ofNat, Nat.reducePow] at this
  omega

/-- explicitly given ULIDs, names, and all kinds of calls, some of them failing -/
def rhist : List (Op String Entity Nat Nat) :=
  [.insertNode (.string "alice") 10, .mergeNode (.string "bob") 20, .removeNode (.string "carol"),
   .insertEdge ⟨.string "alice", .string "knows", .string "bob"⟩ 7, .insertNode (.ulid 5) 50,
   .insertEdge ⟨.ulid 5, .string "likes", .ulid 6⟩ 8, .removeEdge ⟨.string "alice", .string "likes", .string "bob"⟩,
   .merge { nodes := [.ok (.string "bob", 1)], edges := [.ok (⟨.string "bob", .string "is", .string "bob"⟩, 3), .error "disk"] }]

theorem rhist_counts : creations rhist = 16 ∧ draws rhist = 4 ∧ explicitUlids rhist = [5, 5, 6] := by decide +kernel

theorem ul_clean (n k : Nat) (h : n + k ≤ 1000) : ∀ v ∈ [(5 : Ulid), 5, 6], ∀ j < n, ul k j ≠ v := by
  intro v hv j hj e
  have := congrArg Fin.val e
  simp only [ul, Fin.ofNat, Nat.reducePow] at this
  simp only [List.mem_cons, List.not_mem_nil, or_false] at hv
  rcases hv with rfl | rfl | rfl
  · rw [show (Fin.val (5 : Ulid)) = 5 from rfl] at this; omega
  · rw [show (Fin.val (5 : Ulid)) = 5 from rfl] at this; omega
  · rw [show (Fin.val (6 : Ulid)) = 6 from rfl] at this; omega

end Verif.Props.Sample
