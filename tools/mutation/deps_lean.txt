import Verif
import Lean
open Lean

def isVerif (env : Environment) (n : Name) : Bool :=
  match env.getModuleIdxFor? n with
  | some i => (env.header.moduleNames[i.toNat]!).getRoot == `Verif
  | none => false

partial def go (env : Environment) (n : Name) : StateM NameSet Unit := do
  if (← get).contains n then return
  modify (·.insert n)
  match env.find? n with
  | none => return
  | some ci =>
    let us := ci.type.getUsedConstants ++ (match ci.value? (allowOpaque := true) with | some v => v.getUsedConstants | none => #[])
    for u in us do
      if isVerif env u then go env u

run_cmd do
  let env ← getEnv
  let mut out : Array String := #[]
  for (n, ci) in env.constants.toList do
    if isVerif env n && (n.toString.startsWith "Verif.Props.C") && (match ci with | .thmInfo _ => true | _ => false) then
      let (_, s) := (go env n).run {}
      let l := s.toList.filter (fun m => !m.isInternal)
      out := out.push (n.toString ++ "\t" ++ " ".intercalate (l.map toString))
  IO.FS.writeFile "/tmp/deps.tsv" ("\n".intercalate out.toList)
