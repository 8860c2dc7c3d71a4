import Lean
import Verif
/-! Prints, for every property theorem, the declarations of this project it depends on. Run with `lake env lean ../tools/deps.lean`. -/
open Lean
partial def collect (env : Environment) (todo : List Name) (seen : NameSet) : NameSet :=
  match todo with
  | [] => seen
  | n :: rest =>
    if seen.contains n || !(`Esl).isPrefixOf n then collect env rest seen
    else match env.find? n with
      | none => collect env rest seen
      | some c =>
        let used := c.type.getUsedConstants.toList ++ (match c.value? (allowOpaque := true) with | some v => v.getUsedConstants.toList | none => [])
        collect env (used ++ rest) (seen.insert n)
def isProp (n : Name) : Bool :=
  let s := n.getString!
  s.startsWith "C" && ((s.drop 1).takeWhile Char.isDigit).toString.length ≥ 2 && s.contains '_'
run_cmd do
  let env ← getEnv
  for (n, c) in env.constants.map₁.toList do
    if (`Esl).isPrefixOf n && !n.isInternal && (match n with | .str _ _ => true | _ => false) && isProp n then
      if let .thmInfo _ := c then
        let ds := (collect env [n] {}).toList
        logInfo m!"DEP {n} {String.intercalate " " (ds.map toString)}"
