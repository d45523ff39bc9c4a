#!/usr/bin/env python3
"""Writes AXIOMS.md: the axioms every property theorem depends on, as collected by Lean.  Needs a finished `lake build`."""
import os
import re
import shutil
import subprocess

ROOT = os.path.dirname(os.path.dirname(os.path.abspath(__file__)))
shutil.copy(ROOT + "/tools/axioms.lean.txt", "/tmp/axioms.lean")
subprocess.run(["lake", "env", "lean", "/tmp/axioms.lean"], cwd=ROOT + "/lean", check=True)
rows = []
for line in open("/tmp/axioms.txt").read().splitlines():
    name, ax = line.split(" : ", 1) if " : " in line else (line.rstrip(" :"), "")
    short = name.split(".")[-1]
    rows.append((int(re.match(r"C(\d+)", short).group(1)), name, ax.strip()))
rows.sort()
with open(ROOT + "/AXIOMS.md", "w") as f:
    f.write("# Axioms of the property theorems\n\nGenerated by `tools/axioms.py` (`Lean.collectAxioms`). Every other declaration of the library is "
            "subject to the same three axioms;\n`vcheck` replays all of them in the kernel.\n\n| theorem | axioms |\n|---|---|\n")
    for _, name, ax in rows:
        f.write("| `%s` | %s |\n" % (name, ", ".join("`%s`" % a for a in ax.split()) or "none"))
print(len(rows), "theorems")
