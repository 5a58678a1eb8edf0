#!/usr/bin/env python3
"""Writes /verif/MANIFEST.json from the table below and checks every theorem name occurs in lean/Verif."""
import json, re, glob, sys
C = []
def claim(p, status, theorems, note=""):
    C.append({"property": p, "status": status, "theorems": theorems, "note": note})
exec(open('/verif/tools/claims.py').read())
names = set()
for f in glob.glob('/verif/lean/Verif/**/*.lean', recursive=True):
    for m in re.finditer(r'^(?:private |protected )?theorem ([^\s:({\[]+)', open(f).read(), re.M):
        names.add(m.group(1))
bad = [t for c in C for t in c["theorems"] if t.split('.')[-1] not in {n.split('.')[-1] for n in names}]
if bad:
    print("missing theorems:", bad); sys.exit(1)
props = [json.loads(l)["id"] for l in open('/verif/properties.jsonl')]
have = {c["property"] for c in C}
print("no claim yet:", [p for p in props if p not in have])
for c in C:
    c["theorems"] = [t if t.startswith("Cardano.") else "Cardano.Props." + t for t in c["theorems"]]
C.sort(key=lambda c: int(c["property"][1:]))
json.dump({"claims": C}, open('/verif/MANIFEST.json', 'w'), indent=1)
