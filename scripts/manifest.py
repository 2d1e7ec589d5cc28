#!/usr/bin/env python3
"""Regenerate MANIFEST.json: collects the theorems C??_* of lean/Verif/Props and the notes below."""
import collections, glob, json, os, re

root = os.path.dirname(os.path.dirname(os.path.abspath(__file__)))
PARTIAL = json.load(open(os.path.join(root, "scripts", "partial.json")))
thms = collections.defaultdict(list)
for path in sorted(glob.glob(os.path.join(root, "lean/Verif/Props/*.lean"))):
    for m in re.finditer(r"^theorem ((C\d\d+)_\w+)", open(path).read(), re.M):
        thms[m.group(2)].append("Urlstd.Props." + m.group(1))
claims = []
for line in open(os.path.join(root, "properties.jsonl")):
    pid = json.loads(line)["id"]
    if not thms[pid]:
        continue
    note = PARTIAL.get(pid, {}).get("note", "")
    status = PARTIAL.get(pid, {}).get("status", "proved")
    claims.append({"property": pid, "status": status, "theorems": thms[pid], "note": note})
json.dump({"claims": claims}, open(os.path.join(root, "MANIFEST.json"), "w"), indent=1, ensure_ascii=False)
print(len(claims), "claims;", sum(len(c["theorems"]) for c in claims), "theorems")
