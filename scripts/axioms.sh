#!/bin/sh
# Print the axioms of every theorem named in MANIFEST.json (run after `lake build`).
root=$(cd "$(dirname "$0")/.." && pwd)
tmp=$(mktemp --suffix=.lean)
python3 - "$root" > "$tmp" <<'P'
import json, sys
print("import Verif")
for c in json.load(open(sys.argv[1] + "/MANIFEST.json"))["claims"]:
    for t in c["theorems"]:
        print("#print axioms", t)
P
cd "$root/lean" && lake env lean "$tmp"
rm -f "$tmp"
