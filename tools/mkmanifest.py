#!/usr/bin/env python3
"""Regenerates /verif/MANIFEST.json: theorems named Cnn_* in lean/Verif/Props, statuses and notes from below."""
import json, re, pathlib
root = pathlib.Path(__file__).resolve().parent.parent
thms = {}
for f in sorted((root / "lean/Verif/Props").glob("*.lean")):
    ns = []
    for line in f.read_text().splitlines():
        m = re.match(r"namespace (\S+)", line)
        if m: ns.append(m.group(1))
        m = re.match(r"end (\S+)", line)
        if m and ns and ns[-1] == m.group(1): ns.pop()
        m = re.match(r"(?:private )?theorem (C(\d\d)_\w+)", line)
        if m: thms.setdefault("C" + m.group(2), []).append(".".join(ns + [m.group(1)]))
notes = json.loads((root / "tools/notes.json").read_text())
props = [json.loads(l)["id"] for l in (root / "properties.jsonl").read_text().splitlines() if l.strip()]
claims = []
for p in props:
    n = notes.get(p, {})
    t = thms.get(p, [])
    if not t and n.get("status") != "not_applicable":
        continue
    claims.append(dict(property=p, status=n.get("status", "proved"), theorems=t, note=n.get("note", "")))
(root / "MANIFEST.json").write_text(json.dumps(dict(claims=claims), indent=1, ensure_ascii=False) + "\n")
print(len(claims), "claims;", "missing:", [p for p in props if p not in [c["property"] for c in claims]])
