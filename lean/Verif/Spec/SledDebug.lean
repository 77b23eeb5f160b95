import Verif.Model.SledDebug
import Verif.Spec.SledApi

/-! # The text `Debug` writes for a sled store -/

namespace Verif.Spec

open ConcreteId

variable {Id : Type} [LinearOrder Id] [ConcreteId Id]

/-- The text for the nodes `ns`, an unreferenced record if there is one (`leaked`), the records `recs` with the hashes of their edges, and
the edges `es`. -/
def sledText (F : SledFmt Id) (ns : List Id) (leaked : Option Bytes) (recs : List (Nat × Bytes)) (es : EdgeOrder → List (Triple Id)) :
    List String :=
  let edge (t : Triple Id) : String :=
    "  (" ++ F.showId t.sub ++ ", " ++ F.showId t.pred ++ ", " ++ F.showId t.obj ++ ") -> " ++
      (F.hex (F.hash (encodeSpo t).1) ++ "\n")
  ["SledTripleStore:\n", " Node Properties:\n"] ++ ns.map (fun n => "  " ++ F.showId n ++ " -> " ++ F.showUnit ++ "\n") ++
  [" Edge Properties:\n"] ++ leaked.toList.map (fun b => "  _ -> " ++ F.showBytes b ++ "\n") ++
  recs.map (fun x => "  " ++ F.hex x.1 ++ " -> " ++ F.showBytes x.2 ++ "\n") ++
  [" Edges (SPO):\n"] ++ (es .SPO).map edge ++ [" Edges (POS):\n"] ++ (es .POS).map edge ++ [" Edges (OSP):\n"] ++ (es .OSP).map edge

/-- no entry of the SPO ordering has the value `v` -/
def Unreferenced (d : Db) (v : Bytes) : Prop := ∀ e ∈ d.spo.entries, e.2 ≠ v

end Verif.Spec
