#!/usr/bin/env python3
"""Write MANIFEST.json: theorem names are collected from lean/Verif/**/Props*.lean by id prefix."""
import json, re, pathlib
root = pathlib.Path(__file__).resolve().parent.parent
notes = json.loads((root / "tools" / "notes.json").read_text())
ths = {}
for f in sorted((root / "lean" / "Verif").rglob("*.lean")):
    src = f.read_text()
    ns = []
    for line in src.splitlines():
        m = re.match(r"namespace (\S+)", line)
        if m: ns.append(m.group(1))
        m = re.match(r"end (\S+)", line)
        if m and ns and ns[-1] == m.group(1): ns.pop()
        m = re.match(r"theorem (C\d\d+)_(\S+)", line)
        if m:
            ths.setdefault(m.group(1), []).append(".".join(ns + [m.group(1) + "_" + m.group(2)]))
claims = []
for line in (root / "properties.jsonl").read_text().splitlines():
    pid = json.loads(line)["id"]
    t = ths.get(pid, [])
    n = notes.get(pid, "")
    if not t:
        st = "not_applicable" if n.startswith("NA:") else None
        if st is None: continue
    elif any(x.endswith("_partial") or x.endswith("_fails") for x in t):
        st = "partial"
    else:
        st = "proved"
    claims.append({"property": pid, "status": st, "theorems": t, "note": n})
(root / "MANIFEST.json").write_text(json.dumps({"claims": claims}, indent=1) + "\n")
print(len(claims), "claims;", sum(len(c["theorems"]) for c in claims), "theorems;",
      [c["property"] for c in claims if c["status"] == "partial"])
