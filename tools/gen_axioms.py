#!/usr/bin/env python3
"""Writes the axioms each theorem of MANIFEST.json depends on into DESIGN.md (run after lake build)."""
import json, os, re, subprocess, tempfile
here = os.path.dirname(os.path.abspath(__file__))
root = os.path.join(here, "..")
names = []
for c in json.load(open(os.path.join(root, "MANIFEST.json")))["claims"]:
    for t in c["theorems"]:
        if t not in names:
            names.append(t)
with tempfile.NamedTemporaryFile("w", suffix=".lean", delete=False) as f:
    f.write("import Verif\n" + "".join(f"#print axioms {n}\n" for n in names))
out = subprocess.run(["lake", "env", "lean", f.name], cwd=os.path.join(root, "lean"),
                     capture_output=True, text=True).stdout.replace("\n ", " ")
os.unlink(f.name)
groups = {}
seen = set()
for m in re.finditer(r"'(\S+)' (does not depend on any axioms|depends on axioms: \[([^\]]*)\])", out):
    ax = tuple(sorted(x.strip() for x in (m.group(3) or "").split(",") if x.strip()))
    groups.setdefault(ax, []).append(m.group(1))
    seen.add(m.group(1))
missing = [n for n in names if n not in seen]
assert not missing, missing[:20]
text = ""
for ax, ns in sorted(groups.items()):
    text += "* " + (", ".join(f"`{a}`" for a in ax) or "none") + ": " + \
        ", ".join(f"`{n}`" for n in sorted(ns)) + "\n"
p = os.path.join(root, "DESIGN.md")
s = open(p).read()
s = re.sub(r"<!-- axioms -->.*<!-- end axioms -->", lambda _: "<!-- axioms -->\n" + text + "<!-- end axioms -->", s, flags=re.S)
open(p, "w").write(s)
print({k: len(v) for k, v in groups.items()})
