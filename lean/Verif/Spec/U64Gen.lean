import Verif.Model.U64Gen

/-! # What callers of a counter id generator see -/

namespace Verif.U64Gen

/-- Which handles belong to the first generator: itself and everything cloned from it, directly or not. -/
def family : List Bool → List Act → List Bool
  | f, [] => f
  | f, .new _ :: as => family (f ++ [false]) as
  | f, .clone h :: as =>
    match f[h]? with
    | some b => family (f ++ [b]) as
    | none => family f as
  | f, .fresh _ :: as => family f as

/-- The ids drawn from the first generator and its clones, in the order of the draws. -/
def familyDraws (v : U64) (acts : List Act) : List U64 :=
  ((run (init v) acts).2.filter (fun d => (family [true] acts)[d.1]? == some true)).map Prod.snd

end Verif.U64Gen
