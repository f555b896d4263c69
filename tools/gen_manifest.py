#!/usr/bin/env python3
"""Write MANIFEST.json: the theorems of a property are those whose name starts with its id."""
import glob, json, os, re

ROOT = os.path.dirname(os.path.dirname(os.path.abspath(__file__)))
NOTES = json.load(open(os.path.join(ROOT, "tools", "notes.json")))
ids = [json.loads(l)["id"] for l in open(os.path.join(ROOT, "properties.jsonl")) if l.strip()]
found = {i: [] for i in ids}
for path in sorted(glob.glob(os.path.join(ROOT, "lean/Verif/Props/*.lean"))):
    for m in re.finditer(r"^(?:private )?theorem (C\d\d+)(_\w+'?)", open(path).read(), re.M):
        if m.group(1) in found:
            found[m.group(1)].append("Docx." + m.group(1) + m.group(2))
claims = []
for i in ids:
    n = NOTES.get(i, {})
    if not found[i]:
        status = n.get("status", "partial")
        claims.append({"property": i, "status": status, "theorems": [], "note": n.get("note", "not proved yet")})
    else:
        status = "partial" if any("_partial" in t for t in found[i]) else "proved"
        claims.append({"property": i, "status": n.get("status", status), "theorems": found[i], "note": n.get("note", "")})
json.dump({"claims": claims}, open(os.path.join(ROOT, "MANIFEST.json"), "w"), indent=1, ensure_ascii=False)
print(sum(1 for c in claims if c["theorems"]), "of", len(claims), "properties have theorems;",
      sum(len(c["theorems"]) for c in claims), "theorems")
