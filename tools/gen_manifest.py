#!/usr/bin/env python3
"""Writes MANIFEST.json: one claim per property, listing every theorem Verif.Props.Cxx_* of the Props modules.
Status and note come from the table below; a property with no theorem is left out."""
import json, os, re, glob
root = os.path.join(os.path.dirname(os.path.abspath(__file__)), "..")
names = {}
for f in sorted(glob.glob(root + "/lean/Verif/Props/*.lean")):
    for m in re.finditer(r"^theorem ((C\d\d)_\S+)", open(f).read(), re.M):
        names.setdefault(m.group(2), []).append("Verif.Props." + m.group(1))
NOTE = json.load(open(root + "/tools/claims.json"))
claims = []
for l in open(root + "/properties.jsonl"):
    i = json.loads(l)["id"]
    if i not in names:
        print("no theorem yet:", i); continue
    n = NOTE.get(i, {"status": "proved", "note": ""})
    partial = any(t.endswith("_partial") for t in names[i])
    if partial and n["status"] == "proved": print("status?", i)
    claims.append({"property": i, "status": n["status"], "theorems": names[i], "note": n["note"]})
json.dump({"claims": claims}, open(root + "/MANIFEST.json", "w"), indent=1, ensure_ascii=False)
print(len(claims), "claims,", sum(len(c["theorems"]) for c in claims), "theorems")
