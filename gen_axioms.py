#!/usr/bin/env python3
"""Writes AXIOMS.md: the axioms each property theorem depends on (run after `lake build`)."""
import json, os, re, subprocess, tempfile

here = os.path.dirname(os.path.abspath(__file__))
claims = json.load(open(os.path.join(here, "MANIFEST.json")))["claims"]
names = [t for c in claims for t in c["theorems"]]
with tempfile.NamedTemporaryFile("w", suffix=".lean", delete=False) as f:
    f.write("import Verif\n" + "".join(f"#print axioms {n}\n" for n in names))
out = subprocess.run(["lake", "env", "lean", f.name], cwd=os.path.join(here, "lean"), capture_output=True, text=True).stdout
out = re.sub(r"\n\s+", " ", out)
found = {}
for line in out.splitlines():
    m = re.match(r"'(\S+)' depends on axioms: \[(.*)\]", line)
    if m:
        found[m.group(1)] = m.group(2)
    m = re.match(r"'(\S+)' does not depend on any axioms", line)
    if m:
        found[m.group(1)] = "none"
with open(os.path.join(here, "AXIOMS.md"), "w") as g:
    g.write("# Axioms per theorem\n\nOutput of `#print axioms` for every theorem named in MANIFEST.json (written by gen_axioms.py).\n\n")
    g.write("| theorem | axioms |\n|---|---|\n")
    for n in names:
        g.write(f"| `{n.replace('Dart.Props.', '')}` | {found.get(n, '?')} |\n")
print(len(names), "theorems;", sorted(set(found.values())), "missing:", [n for n in names if n not in found])
