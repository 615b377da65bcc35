#!/usr/bin/env python3
"""Collect the theorems named Cnn_* from lean/Verif/Props and write MANIFEST.json."""
import json, re, glob, os
root = os.path.dirname(os.path.dirname(os.path.abspath(__file__)))
props = [json.loads(l) for l in open(f"{root}/properties.jsonl")]
notes = json.load(open(f"{root}/tools/notes.json"))
found = {}
for f in sorted(glob.glob(f"{root}/lean/Verif/Props/*.lean")):
    for m in re.finditer(r"^theorem (C\d{2,3}_\w+)", open(f).read(), re.M):
        found.setdefault(m.group(1).split('_')[0], []).append("Verif." + m.group(1))
claims = []
for p in props:
    n = notes.get(p["id"], {})
    ths = found.get(p["id"], [])
    if not ths and n.get("status") != "not_applicable":
        print("no theorem for", p["id"]); continue
    claims.append({"property": p["id"], "status": n.get("status", "proved"), "theorems": ths, "note": n.get("note", "")})
json.dump({"claims": claims}, open(f"{root}/MANIFEST.json", "w"), indent=1, ensure_ascii=False)
print(len(claims), "claims", sum(len(c["theorems"]) for c in claims), "theorems")
ids = {p["id"] for p in props}
print("theorems without property:", [t for k, v in found.items() if k not in ids for t in v])
