#!/usr/bin/env python3
"""addpartial.py ID STATUS NOTE: record the status of a property in partial.json."""
import json, pathlib, sys
p = pathlib.Path(__file__).with_name("partial.json")
d = json.loads(p.read_text())
d[sys.argv[1]] = {"status": sys.argv[2], "note": sys.argv[3]}
p.write_text(json.dumps(d, indent=1, ensure_ascii=False) + "\n")
