#!/usr/bin/env python3
"""Regenerates MANIFEST.json and lean/Verif/Audit.lean from the theorem names in lean/Verif/Props/*.lean.

A theorem named Cnn or Cnn_... belongs to property Cnn.  Status and note of each property are in tools/status.json
({"C01": ["proved", "note"], ...})."""
import json, re, glob, os
root = os.path.dirname(os.path.dirname(os.path.abspath(__file__)))
status = json.load(open(f"{root}/tools/status.json"))
thms = {}
files = sorted(glob.glob(f"{root}/lean/Verif/Props/*.lean"))
for f in files:
    ns = "Ack.Props"
    for line in open(f):
        m = re.match(r"theorem ((C\d\d\d?)(_\S+)?)(\s|$)", line)
        if m:
            thms.setdefault(m.group(2), []).append(f"{ns}.{m.group(1)}")
claims = []
for line in open(f"{root}/properties.jsonl"):
    p = json.loads(line)["id"]
    if p not in status and p not in thms:
        continue
    st, note = status.get(p, ["partial", "in progress"])
    claims.append({"property": p, "status": st, "theorems": thms.get(p, []), "note": note})
json.dump({"claims": claims}, open(f"{root}/MANIFEST.json", "w"), indent=1)
with open(f"{root}/lean/Verif/Audit.lean", "w") as o:
    for f in files:
        o.write(f"import Verif.Props.{os.path.basename(f)[:-5]}\n")
    o.write("/-! Axioms of every property theorem (generated by tools/manifest.py). -/\n")
    for p in sorted(thms):
        for t in thms[p]:
            o.write(f"#print axioms {t}\n")
for p in sorted(thms):
    if p not in status: print("no status for", p)
for p in status:
    if status[p][0] != "not_applicable" and p not in thms: print("no theorems for", p)
