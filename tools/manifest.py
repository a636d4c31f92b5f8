#!/usr/bin/env python3
"""Regenerates MANIFEST.json from the theorem names in lean/Verif/Props*.lean and the notes in tools/notes.json."""
import glob, json, os, re

root = os.path.dirname(os.path.dirname(os.path.abspath(__file__)))
notes = json.load(open(os.path.join(root, "tools", "notes.json")))
ids = [json.loads(l)["id"] for l in open(os.path.join(root, "properties.jsonl")) if l.strip()]
found = {i: [] for i in ids}
for f in sorted(glob.glob(os.path.join(root, "lean", "Verif", "Props*.lean"))):
    for m in re.finditer(r"^theorem ((C\d\d)_\w+)", open(f).read(), re.M):
        found[m.group(2)].append("Verif." + m.group(1))
claims = []
for i in ids:
    n = notes.get(i, {})
    status = n.get("status", "partial")
    claims.append({"property": i, "status": status, "theorems": found[i] + n.get("also", []), "note": n.get("note", "not done yet")})
json.dump({"claims": claims}, open(os.path.join(root, "MANIFEST.json"), "w"), indent=1)
for c in claims:
    print(c["property"], c["status"], len(c["theorems"]))
