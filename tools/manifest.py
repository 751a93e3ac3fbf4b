#!/usr/bin/env python3
"""Writes MANIFEST.json and lean/Verif/Audit.lean from the table below."""
import json, os, re
root = os.path.dirname(os.path.dirname(os.path.abspath(__file__)))
claims = []
def c(pid, status, theorems, note=""):
    claims.append({"property": pid, "status": status,
                   "theorems": ["Verif.Prop." + t for t in theorems.split()], "note": note})
exec(open(os.path.join(root, "tools", "claims.py")).read())
ids = [json.loads(l)["id"] for l in open(os.path.join(root, "properties.jsonl"))]
have = [x["property"] for x in claims]
assert len(set(have)) == len(have)
for i in ids:
    if i not in have: print("no claim for", i)
json.dump({"claims": sorted(claims, key=lambda x: x["property"])},
          open(os.path.join(root, "MANIFEST.json"), "w"), indent=1, ensure_ascii=False)
names = [t for x in claims for t in x["theorems"]]
src = ""
d = os.path.join(root, "lean", "Verif", "Prop")
mods = sorted(f[:-5] for f in os.listdir(d) if f.endswith(".lean"))
text = "".join(open(os.path.join(d, m + ".lean")).read() for m in mods)
thms = re.findall(r"^theorem (C\d\d_\w+)", text, re.M)
for t in thms:
    if "Verif.Prop." + t not in names: print("theorem not in manifest:", t)
for n in names:
    if n.replace("Verif.Prop.", "") not in thms: print("unknown theorem:", n)
with open(os.path.join(root, "lean", "Verif", "Audit.lean"), "w") as f:
    for m in mods: f.write(f"import Verif.Prop.{m}\n")
    f.write("/-!\n# Axioms of every property theorem (generated by tools/manifest.py)\n-/\n")
    for n in names: f.write(f"#print axioms {n}\n")
