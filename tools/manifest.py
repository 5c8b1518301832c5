#!/usr/bin/env python3
"""Writes /verif/MANIFEST.json; ENTRIES is edited as the model grows."""
import json, os, re, sys
E = []
def c(p, status, thms, note=""):
    E.append({"property": p, "status": status, "theorems": thms.split(), "note": note})
exec(open(os.path.join(os.path.dirname(__file__), "claims.py")).read())
E.sort(key=lambda e: int(e["property"][1:]))
root = os.path.join(os.path.dirname(__file__), "..")
src = ""
for d, _, fs in os.walk(os.path.join(root, "lean", "Verif")):
    for f in fs:
        if f.endswith(".lean"):
            src += open(os.path.join(d, f)).read()
names = set(re.findall(r"^(?:theorem|lemma) (\S+)", src, re.M))
bad = [t for e in E for t in e["theorems"] if t.split(".")[-1] not in names]
if bad: print("MISSING", bad)
used = {t.split(".")[-1] for e in E for t in e["theorems"]}
extra = sorted(n for n in names if re.match(r"C\d+_", n) and n not in used)
if extra: print("UNLISTED", extra)
json.dump({"claims": E}, open(os.path.join(root, "MANIFEST.json"), "w"), indent=1)
print(len(E), "claims")
