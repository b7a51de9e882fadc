import Lean
import Verif
/-! Prints, for every property theorem, the declarations of this project that it depends on: one line each, separated by spaces. -/
open Lean
def ours (n : Name) : Bool := n.getRoot == `Verif
partial def reach (env : Environment) (todo : List Name) (seen : NameSet) : NameSet := Id.run do
  let mut seen := seen
  let mut todo := todo
  while !todo.isEmpty do
    match todo with
    | [] => break
    | n :: t =>
      todo := t
      if seen.contains n then continue
      seen := seen.insert n
      match env.find? n with
      | none => pure ()
      | some c =>
        let mut used := c.type.getUsedConstants
        if let some v := c.value? (allowOpaque := true) then used := used ++ v.getUsedConstants
        if let .thmInfo t := c then used := used ++ t.all.toArray
        for m in used do
          if ours m && !seen.contains m then todo := m :: todo
  return seen
run_cmd do
  let env ← getEnv
  let names := env.constants.fold (init := #[]) fun a n c => if c matches .thmInfo _ then (if (`Verif.Props).isPrefixOf n && (n.getString!.startsWith "C") && ((n.getString!.toList.drop 1).headD 'x').isDigit then a.push n else a) else a
  for n in names do
    let s := reach env [n] {}
    let s := s.toList.filter fun m => !m.isInternal
    IO.println (" ".intercalate ((n :: s).map toString))
