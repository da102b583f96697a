#!/usr/bin/env python3
"""Writes MANIFEST.json.  One entry per property: status, theorem names (namespace Yasl), note."""
import json, os, re
HERE = os.path.dirname(os.path.abspath(__file__))
props = [json.loads(l)["id"] for l in open(os.path.join(HERE, "..", "properties.jsonl"))]
C = {}
def c(pid, status, theorems, note):
    C[pid] = dict(property=pid, status=status, theorems=["Yasl." + t for t in theorems.split()], note=note)
exec(open(os.path.join(HERE, "claims.py")).read())
src = ""
for root, _, fs in os.walk(os.path.join(HERE, "..", "lean", "Verif")):
    for f in fs:
        if f.endswith(".lean"): src += open(os.path.join(root, f)).read()
names = set(re.findall(r"^(?:private |protected )?theorem ([A-Za-z0-9_'.]+)", src, re.M))
for x in C.values():
    for t in x["theorems"]:
        if t[5:] not in names: print("MISSING", x["property"], t)
used = {t[5:] for x in C.values() for t in x["theorems"]}
for n in sorted(names):
    if re.match(r"C\d\d+_", n) and n not in used: print("UNLISTED", n)
for q in props:
    if q not in C: print("no claim for", q)
json.dump({"claims": [C[q] for q in props if q in C]}, open(os.path.join(HERE, "..", "MANIFEST.json"), "w"), indent=1)
print(len(C), "claims")
