"""Writes MANIFEST.json. Usage: python3 tools/gen_manifest.py"""
import json
import os
import re

HERE = os.path.dirname(os.path.abspath(__file__))
ROOT = os.path.dirname(HERE)

# property -> (status, [theorem names without the namespace FF], note)
CLAIMS = json.load(open(os.path.join(HERE, "claims.json")))

props = [json.loads(l)["id"] for l in open(os.path.join(ROOT, "properties.jsonl"))]
names = set()
for dirpath, _, files in os.walk(os.path.join(ROOT, "lean", "Verif")):
    for f in files:
        for line in open(os.path.join(dirpath, f)):
            m = re.match(r"theorem (\S+)", line)
            if m:
                names.add(m.group(1))

out = []
for p in props:
    if p not in CLAIMS:
        continue
    status, thms, note = CLAIMS[p]
    for t in thms:
        assert t in names, (p, t)
    out.append({"property": p, "status": status, "theorems": ["FF." + t for t in thms], "note": note})
json.dump({"claims": out}, open(os.path.join(ROOT, "MANIFEST.json"), "w"), indent=1)
used = {t for _, ts, _ in CLAIMS.values() for t in ts}
print(len(out), "claims; missing:", [p for p in props if p not in CLAIMS])
print("C-theorems not listed:", sorted(n for n in names if re.match(r"C\d\d", n) and n not in used))
