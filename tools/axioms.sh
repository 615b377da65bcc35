#!/bin/sh
# Regenerates ../AXIOMS.md: the axioms every property theorem depends on, as reported by Lean.
cd "$(dirname "$0")/../lean" || exit 1
t=$(mktemp /tmp/axiomsXXXX.lean)
cat > "$t" <<'L'
import Verif
open Lean
run_cmd do
  let env ← getEnv
  let mut rows : Array (String × String) := #[]
  for (n, ci) in env.constants.map₁.toList do
    if (`Verif).isPrefixOf n then
      if let .str _ s := n then
        if s.startsWith "C" && s.length > 4 && (s.toList[1]!).isDigit then
          if let .thmInfo _ := ci then
            let ax ← collectAxioms n
            let k := ", ".intercalate ((ax.toList.map toString).mergeSort)
            rows := rows.push (toString n, if k == "" then "none" else k)
  let short (s : String) : String := ((s.splitOn ".").getLast!)
  let sorted := rows.qsort (fun a b => short a.1 < short b.1)
  let mut out := "# Axioms of the property theorems\n\nGenerated by `tools/axioms.sh` (`Lean.collectAxioms`).\n\n| theorem | axioms |\n|---|---|\n"
  for (n, k) in sorted do out := out ++ s!"| `{n}` | {k} |\n"
  IO.FS.writeFile "../AXIOMS.md" out
L
lake env lean "$t"; rm -f "$t"
