#!/usr/bin/env python3
"""seedlog.py MUTANTS.json OUT.jsonl: add the results of seed.py to seeded/LOG.jsonl and keep the mutants in seeded/."""
import json, pathlib, sys
root = pathlib.Path(__file__).resolve().parent.parent
log = root / "seeded/LOG.jsonl"
titles = {p["id"]: p["title"] for p in map(json.loads, (root / "properties.jsonl").read_text().splitlines())}
muts = {m["id"]: m for m in json.load(open(sys.argv[1]))}
have = [json.loads(l) for l in log.read_text().splitlines() if l.strip()]
byid = {h["id"]: h for h in have}
for l in open(sys.argv[2]):
    r = json.loads(l)
    m = muts[r["id"]]
    if "failed" not in r:
        print("skipped", r["id"], str(r.get("error"))[:100])
        continue
    claim = "; ".join(f"{c} ({titles[c]})" if c in titles else c for c in m["claim"].split(", "))
    byid[r["id"]] = {
        "id": r["id"], "definition": f'{m["definition"]} ({m["file"]})', "edit": m["edit"],
        "before": m.get("old") or [e[0] for e in m["edits"]], "after": m.get("new") or ([e[1] for e in m["edits"]] if "edits" in m else ""),
        "claim": claim, "witness": m.get("witness", "") if r.get("witness") == "ok" else "",
        "theorems_failed": r["failed"], "expected_but_still_proved": r["survived_targets"],
        "theorems_tightened": byid.get(r["id"], {}).get("theorems_tightened", []) or m.get("tightened", []),
    }
log.write_text("".join(json.dumps(v, ensure_ascii=False) + "\n" for _, v in sorted(byid.items())))
print(len(byid), "entries;", sum(bool(v["expected_but_still_proved"]) for v in byid.values()), "with survivors")
