#!/usr/bin/env python3
"""Writes AXIOMS.md: what Lean says (#print axioms) about every theorem of MANIFEST.json.  Needs a built project (lake build in lean/)."""
import json, os, re, subprocess, sys, tempfile
HERE = os.path.dirname(os.path.abspath(__file__)); ROOT = os.path.dirname(HERE)
claims = json.load(open(os.path.join(ROOT, "MANIFEST.json")))["claims"]
names = [t for c in claims for t in c["theorems"]]
with tempfile.NamedTemporaryFile("w", suffix=".lean", delete=False) as f:
    f.write("import Verif\n" + "".join("#print axioms %s\n" % n for n in dict.fromkeys(names)))
out = subprocess.run(["lake", "env", "lean", f.name], cwd=os.path.join(ROOT, "lean"), capture_output=True, text=True).stdout
out = re.sub(r"\s*\n\s+", " ", out)
ax = {}
for m in re.finditer(r"'([^\s]+)' (depends on axioms: \[([^\]]*)\]|does not depend on any axioms)", out):
    ax[m.group(1)] = sorted(x.strip() for x in (m.group(3) or "").split(",") if x.strip())
missing = [n for n in names if n not in ax]
allowed = {"propext", "Classical.choice", "Quot.sound"}
bad = [n for n in names if not set(ax.get(n, [])) <= allowed]
with open(os.path.join(ROOT, "AXIOMS.md"), "w") as g:
    g.write("# Axioms of every theorem of the manifest\n\nMade by `tools/gen_axioms.py` from `#print axioms`.  These three are axioms of Lean itself; none is declared here.\n\n| property | theorem | axioms |\n|---|---|---|\n")
    for c in claims:
        for t in c["theorems"]: g.write("| %s | `%s` | %s |\n" % (c["property"], t, ", ".join(ax.get(t, ["?"])) or "none"))
print(len(ax), "theorems;", "missing:", missing, "bad:", bad)
sys.exit(1 if missing or bad else 0)
