#!/usr/bin/env python3
"""Write the axioms of every theorem in the manifest into DESIGN.md (run after `lake build`)."""
import pathlib, re, subprocess
root = pathlib.Path(__file__).resolve().parent.parent
out = subprocess.run(["sh", str(root / "scripts/axioms.sh")], capture_output=True, text=True).stdout
groups = {}
for m in re.finditer(r"'([^']+)' (?:depends on axioms: \[([^\]]*)\]|does not depend on any axioms)", out):
    groups.setdefault(" ".join((m.group(2) or "none").split()), []).append(m.group(1).replace("Urlstd.Props.", ""))
text = ""
for k, v in sorted(groups.items(), key=lambda x: -len(x[1])):
    text += f"* {k} ({len(v)}): " + ", ".join(f"`{t}`" for t in v) + "\n"
p = root / "DESIGN.md"
t = p.read_text()
a = t.index("<!-- axioms:")
a = t.index("\n", a) + 1
b = t.index("<!-- end -->", a)
p.write_text(t[:a] + text + t[b:])
print({k: len(v) for k, v in groups.items()})
