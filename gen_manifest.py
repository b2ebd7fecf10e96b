#!/usr/bin/env python3
"""Write MANIFEST.json from claims.txt-style table below and the theorem names in lean/Verif/Props."""
import json, re, pathlib
root = pathlib.Path(__file__).parent
notes = json.loads((root / "claims.json").read_text())
thms = {}
for f in sorted((root / "lean/Verif/Props").glob("*.lean")):
    ns = "Dart.Props."
    for name in re.findall(r"^theorem\s+(C\d\d_\S+)", f.read_text(), re.M):
        thms.setdefault(name[:3], []).append(ns + name)
claims = []
for line in (root / "properties.jsonl").read_text().splitlines():
    pid = json.loads(line)["id"]
    n = notes.get(pid)
    if n is None or (pid not in thms and n["status"] != "not_applicable"):
        continue
    claims.append({"property": pid, "status": n["status"], "theorems": thms.get(pid, []), "note": n["note"]})
(root / "MANIFEST.json").write_text(json.dumps({"claims": claims}, indent=1, ensure_ascii=False) + "\n")
print(len(claims), "claims")
