import Verif
import Lean
open Lean
def isOurs (env : Environment) (n : Name) : Bool :=
  match env.getModuleIdxFor? n with
  | some i => (`Verif).isPrefixOf (env.header.moduleNames[i.toNat]!)
  | none => false
def direct (env : Environment) (c : ConstantInfo) : List Name :=
  let used := c.type.getUsedConstants ++ (match c.value? (allowOpaque := true) with | some v => v.getUsedConstants | none => #[])
  used.toList.filter (isOurs env)
def isProp (s : String) : Bool :=
  let c := s.toList
  c.length > 3 && c[0]! == 'C' && c[1]!.isDigit && c[2]!.isDigit && c[3]! == '_'
run_cmd do
  let env ← getEnv
  for (n, c) in env.constants.map₁.toList do
    if isOurs env n then
      let last := match n with | .str _ s => s | _ => ""
      let p := match c with | .thmInfo _ => isProp last | _ => false
      IO.println s!"{if p then "PROP" else "AUX"} {n} :: {" ".intercalate ((direct env c).map toString)}"
