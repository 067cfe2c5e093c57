#!/bin/sh
# Lists the axioms of every claim theorem in AXIOMS.txt.  Run in lean/: sh ../tools/axioms.sh
lake env lean --stdin <<'END'
import Lean
import Verif
open Lean Elab Command
run_cmd do
  let env ← getEnv
  let mut lines := #[]
  for (n, ci) in env.constants.map₁.toList do
    if (`AdBlock).isPrefixOf n then
      let last := n.componentsRev.head!.toString
      if last.length > 4 && last.front == 'C' && (last.toList.drop 1 |>.take 2).all Char.isDigit then
        if (match ci with | .thmInfo _ => true | _ => false) then
          let ax ← liftCoreM (collectAxioms n)
          lines := lines.push s!"{n}\t{" ".intercalate (ax.toList.map toString)}\n"
  IO.FS.writeFile "../AXIOMS.txt" (String.join (lines.qsort (· < ·)).toList)
END
