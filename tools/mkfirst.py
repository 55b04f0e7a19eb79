#!/usr/bin/env python3
"""Writes lean/Verif/FirstTable.lean: the kinds of tokens each parser function can begin with (least fixed point).

The table is checked against the rules in Proofs/Reads.lean, so nothing depends on this script being right."""
import subprocess, tempfile, os
here = os.path.dirname(os.path.abspath(__file__))
lean = os.path.join(here, "..", "lean")
src = """import Verif.Proofs.First
open Verif
def norm (l : List (Option TK)) : List (Option TK) := l.foldl (fun acc k => if acc.contains k then acc else acc ++ [k]) []
def stepT (t : List (NT × List (Option TK))) : List (NT × List (Option TK)) :=
  NT.all.map fun nt => (nt, norm ((rules nt).first fun n => (t.lookup n).getD []))
def table : List (NT × List (Option TK)) := (List.range 30).foldl (fun t _ => stepT t) []
def strip (s : String) : String := (s.splitOn ".").getLast!
def nm (k : Option TK) : String := match k with | none => "none" | some k => "some ." ++ strip (reprStr k)
def main : IO Unit := do
  unless stepT table == table do throw (IO.userError "no fixed point")
  for (nt, ks) in table do
    IO.println s!"  | .{if strip (reprStr nt) == "module" then "«module»" else strip (reprStr nt)} => [{", ".intercalate (ks.map nm)}]"
#eval main
"""
with tempfile.TemporaryDirectory() as d:
    f = os.path.join(d, "t.lean")
    open(f, "w").write(src)
    out = subprocess.run(["lake", "env", "lean", f], cwd=lean, capture_output=True, text=True)
    if out.returncode: raise SystemExit(out.stdout + out.stderr)
body = out.stdout.rstrip("\n")
open(os.path.join(lean, "Verif", "FirstTable.lean"), "w").write(f"""import Verif.NT
/-!
# What each parser function can begin with

Written by `tools/mkfirst.py`; checked against the rules in `Proofs/Reads.lean`.
-/

namespace Verif

/-- The kinds of tokens a parser function can begin with (`none` for numbers). -/
def NT.first : NT → List (Option TK)
{body}

end Verif
""")
