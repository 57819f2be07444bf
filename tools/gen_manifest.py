#!/usr/bin/env python3
"""Writes MANIFEST.json: collects the theorems named C<nn>_... from lean/Verif/Props and adds status and note."""
import json, pathlib, re
base = pathlib.Path(__file__).resolve().parent.parent
thms = {}
for f in sorted((base / "lean/Verif/Props").glob("*.lean")):
    for m in re.finditer(r"^theorem\s+(C\d\d+)_(\S+)", f.read_text(), re.M):
        thms.setdefault(m.group(1), []).append(f"Crm.{m.group(1)}_{m.group(2)}")
notes = json.loads((base / "tools/notes.json").read_text())
ids = [json.loads(l)["id"] for l in (base / "properties.jsonl").read_text().splitlines()]
claims = []
for i in ids:
    if i in thms:
        st, note = notes.get(i, ["proved", ""])
        claims.append(dict(property=i, status=st, theorems=thms[i], note=note))
(base / "MANIFEST.json").write_text(json.dumps({"claims": claims}, indent=1) + "\n")
print(len(claims), "claims;", "missing:", [i for i in ids if i not in thms], "unknown:", [i for i in thms if i not in ids])
