#!/usr/bin/env python3
"""Writes MANIFEST.json and lean/Verif/Audit.lean from the table below."""
import json, os, re
ROOT = os.path.dirname(os.path.dirname(os.path.abspath(__file__)))
CLAIMS = {}
def claim(pid, status, theorems, note):
    CLAIMS[pid] = dict(property=pid, status=status,
                       theorems=["Verif.Props." + t for t in theorems.split()], note=note)
exec(open(os.path.join(ROOT, "tools", "claims.py")).read())
json.dump({"claims": [CLAIMS[k] for k in sorted(CLAIMS)]},
          open(os.path.join(ROOT, "MANIFEST.json"), "w"), indent=1)
# every module under Props/
mods = sorted(f[:-5] for f in os.listdir(os.path.join(ROOT, "lean/Verif/Props")) if f.endswith(".lean"))
with open(os.path.join(ROOT, "lean/Verif/Audit.lean"), "w") as f:
    for m in mods: f.write(f"import Verif.Props.{m}\n")
    f.write("import Lean.Elab.Command\nimport Lean.Util.CollectAxioms\n")
    f.write("/-\nGenerated by tools/manifest.py: the axioms of every theorem named in MANIFEST.json.\n-/\n")
    f.write("""open Lean Elab Command in
/-- Fails unless the theorem depends on no other axioms than the three standard ones. -/
elab "#check_axioms " id:ident : command => do
  let n ← liftCoreM (realizeGlobalConstNoOverloadWithInfo id)
  for a in ← collectAxioms n do
    unless a == ``propext || a == ``Classical.choice || a == ``Quot.sound do
      throwError "{n} depends on {a}"

""")
    for k in sorted(CLAIMS):
        for t in CLAIMS[k]["theorems"]:
            f.write(f"#check_axioms {t}\n")
