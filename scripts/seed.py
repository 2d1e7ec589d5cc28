#!/usr/bin/env python3
"""Run wrong programs against the theorems, in a scratch copy outside /verif.

usage: seed.py MUTANTS.json OUT.jsonl [id...]

With SEED_FAST=1 in the environment only the modules of the target theorems are built, and only their theorems are checked.

A mutant is {"id", "file", "old", "new", "definition", "edit", "claim", "targets", "witness"}. The edit is made in the
scratch copy and the project is built. Every theorem whose proof no longer goes through gets its proof replaced
by `sorry` (in the scratch copy only) and the build goes on, so that at the end `#print axioms` tells exactly which
property theorems depend on a broken proof. `witness` is a Lean text checked against the edited model; it shows that
a target theorem's statement has become false, not just its proof.
"""
import json, os, pathlib, re, shutil, subprocess, sys, time

SRC = pathlib.Path("/tmp/w/seed/src/lean")  # a built checkout of the last commit
DST = pathlib.Path("/tmp/w/seed/lean")
TOP = re.compile(r"^(@\[[^\]]*\]\s*)?((private|protected|noncomputable|local|scoped)\s+)*"
                 r"(theorem|lemma|def|example|instance|structure|inductive|abbrev|namespace|end|open|section|variable|"
                 r"set_option|import|mutual|macro|attribute|deriving|/-|--|#)")
DECL = re.compile(r"^(?:@\[[^\]]*\]\s*)?(?:(?:private|protected|noncomputable|local|scoped)\s+)*"
                  r"(theorem|lemma|def|example|instance|structure|inductive|abbrev)\s*(\S+)?")

def sh(cmd, timeout=3600):
    try:
        p = subprocess.run(cmd, cwd=DST, shell=True, capture_output=True, text=True, timeout=timeout)
        return p.returncode, p.stdout + p.stderr
    except subprocess.TimeoutExpired:
        return 124, "TIMEOUT"

def fresh():
    if DST.exists():
        shutil.rmtree(DST)
    DST.parent.mkdir(parents=True, exist_ok=True)
    subprocess.run(["cp", "-a", str(SRC), str(DST)], check=True)

def blocks(lines):
    """start line of every top-level item"""
    return [i for i, l in enumerate(lines) if l and not l[0].isspace() and TOP.match(l)]

def sorry_out(path, line):
    """replace the proof of the declaration around `line`; returns its name"""
    lines = path.read_text().split("\n")
    starts = blocks(lines)
    i = max([s for s in starts if s < line], default=None)
    if i is None:
        return None
    j = min([s for s in starts if s > i], default=len(lines))
    m = DECL.match(lines[i])
    if not m:
        return None
    kind, name = m.group(1), m.group(2) or ""
    text = "\n".join(lines[i:j])
    if kind == "example":
        lines[i:j] = ["example : True := trivial"] + [""] * (j - i - 1)
        path.write_text("\n".join(lines))
        return "example"
    if kind not in ("theorem", "lemma", "instance"):
        return None
    depth, k, cut = 0, 0, None
    while k < len(text):
        c = text[k]
        if c == '"':  # skip a string literal
            k += 1
            while k < len(text) and text[k] != '"':
                k += 2 if text[k] == "\\" else 1
            k += 1
            continue
        if c in "([{⟨":
            depth += 1
        elif c in ")]}⟩":
            depth -= 1
        elif text.startswith(":=", k) and depth == 0:
            line_start = text.rfind("\n", 0, k) + 1
            seg = text[line_start:k]
            if not re.search(r"\blet\b[^;]*$", seg):
                cut = k
                break
        elif c == "\n" and depth == 0 and re.match(r"\n\s+\| ", text[k:]) and "match " not in text[:k]:
            cut = k
            break
        elif text.startswith(" where", k) and depth == 0:
            cut = k
            break
        k += 1
    if cut is None:
        return None
    new = text[:cut].rstrip() + " := sorry"
    pad = text.count("\n") - new.count("\n")
    if text == new + "\n" * pad:
        return None
    lines[i:j] = (new + "\n" * pad).split("\n")
    path.write_text("\n".join(lines))
    return name

def by_module(props):
    """the property theorems by module, for when the modules cannot be imported together"""
    out = {}
    for path in sorted((SRC / "Verif/Props").glob("*.lean")):
        text = path.read_text()
        out["Verif.Props." + path.stem] = [t for t in props if re.search(r"theorem " + t.split(".")[-1] + r"\b", text)]
    return out

def run(m, props):
    t0 = time.time()
    fresh()
    f = DST / m["file"]
    s = f.read_text()
    edits = m.get("edits") or [[m["old"], m["new"]]]
    for old, new in edits:
        if s.count(old) != 1:
            return {"id": m["id"], "error": f"edit matches {s.count(old)} times"}
        s = s.replace(old, new)
    f.write_text(s)
    out = {"id": m["id"]}
    if m.get("witness"):
        rc, o = sh("lake build Verif.Validator Verif.Spec.Example Verif.Spec.Setter Verif.Spec.Reference Verif.Spec.Params "
                   "Verif.Spec.Idna Verif.Spec.Origin Verif.Spec.Validity Verif.Spec.History Verif.Spec.Machine")
        w = DST / "Witness.lean"
        w.write_text("import Verif.Validator\nimport Verif.Spec.Example\nimport Verif.Spec.Setter\nimport Verif.Spec.Reference\n"
                     "import Verif.Spec.Params\nimport Verif.Spec.Host\nimport Verif.Spec.Url\nimport Verif.Spec.Text\n"
                     "import Verif.Spec.Origin\nimport Verif.Spec.Validity\nimport Verif.Spec.Machine\n"
                     "namespace Urlstd\nopen Spec\ndef Res.val {α : Type} (r : Res α) : Option α := match r.res with | .ok a => some a | .error _ => none\n" + m["witness"] + "\nend Urlstd\n")
        rc, o = sh("lake env lean Witness.lean", 600)
        out["witness"] = "ok" if rc == 0 else o[:1500]
        w.unlink()
    broken = []
    mods = by_module(props)
    if os.environ.get("SEED_FAST"):
        mods = {k: ts for k, ts in mods.items() if any(t.split(".")[-1] in m.get("targets", []) for t in ts)}
        out["modules"] = sorted(mods)
    for it in range(60):
        rc, o = sh("lake build " + (" ".join(mods) if "modules" in out else ""))
        if rc == 0:
            break
        errs = re.findall(r"error: (Verif/\S+?\.lean):(\d+):\d+", o)
        todo = {}
        for p, l in errs:
            todo.setdefault(p, set()).add(int(l))
        if not todo and "code 137" in o:
            # a concrete case ran out of memory (a `decide` that has become false): drop the concrete cases of that module
            n = 0
            for mod in re.findall(r"^- (Verif\.\S+)", o, re.M):
                path = DST / (mod.replace(".", "/") + ".lean")
                lines = path.read_text().split("\n")
                for i in reversed(blocks(lines)):
                    j = min([b for b in blocks(lines) if b > i], default=len(lines))
                    text = "\n".join(lines[i:j])
                    if "decide +kernel" in text and sorry_out(path, i + 1):
                        n += 1
                broken.append(mod[6:] + ":examples")
            if n:
                continue
        if not todo:
            out["error"] = o[-1500:]
            break
        stuck = True
        for p, ls in todo.items():
            done = set()
            for l in sorted(ls, reverse=True):
                path = DST / p
                lines = path.read_text().split("\n")
                b = max([s for s in blocks(lines) if s < l], default=-1)
                if b in done:
                    continue
                done.add(b)
                n = sorry_out(path, l)
                if n:
                    stuck = False
                    broken.append(p[6:-5] + ":" + n)
        if stuck:
            out["error"] = "cannot continue: " + o[-1500:]
            break
    out["broken_proofs"] = broken
    chk = DST / "Ax.lean"
    o = ""
    for mod, ts in ([("Verif", props)] if "error" not in out and "modules" not in out else mods.items()):
        chk.write_text(f"import {mod}\n" + "\n".join(f"#print axioms {t}" for t in ts))
        o += sh("lake env lean Ax.lean", 900)[1]
    failed, cur = [], None
    for mm in re.finditer(r"'([\w.«»]+)' depends on axioms: \[([^\]]*)\]", o):
        if "sorryAx" in mm.group(2):
            failed.append(mm.group(1).replace("Urlstd.Props.", ""))
    out["failed"] = failed
    out["killed_targets"] = [t for t in m.get("targets", []) if t in failed]
    out["survived_targets"] = [t for t in m.get("targets", []) if t not in failed]
    out["seconds"] = round(time.time() - t0)
    return out

def main():
    muts = json.load(open(sys.argv[1]))
    outp = pathlib.Path(sys.argv[2])
    only = sys.argv[3:]
    done = set()
    if outp.exists():
        done = {json.loads(l)["id"] for l in outp.read_text().splitlines() if l.strip()}
    man = json.load(open("/verif/MANIFEST.json"))
    props = sorted({t for c in man["claims"] for t in c["theorems"]})
    for m in muts:
        if only and m["id"] not in only:
            continue
        if not only and m["id"] in done:
            continue
        try:
            r = run(m, props)
        except Exception as ex:
            r = {"id": m["id"], "error": repr(ex)}
        with open(outp, "a") as fh:
            fh.write(json.dumps(r, ensure_ascii=False) + "\n")

main()
