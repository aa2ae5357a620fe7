#!/usr/bin/env python3
"""Writes MANIFEST.json: collects the theorems named C<nn>_... from lean/Verif/Props."""
import json, re, pathlib
root = pathlib.Path(__file__).resolve().parent.parent
notes = json.loads((root / "tools" / "manifest_notes.json").read_text())
thms = {}
for f in sorted((root / "lean" / "Verif" / "Props").glob("**/*.lean")):
    ns = []
    for line in f.read_text().splitlines():
        m = re.match(r"namespace\s+(\S+)", line)
        if m: ns.append(m.group(1))
        m = re.match(r"end\s+(\S+)", line)
        if m and ns and ns[-1] == m.group(1): ns.pop()
        m = re.match(r"(?:protected\s+)?theorem\s+((C\d\d+)_\S*)", line)
        if m:
            thms.setdefault(m.group(2), []).append(".".join(ns + [m.group(1)]))
claims = []
for line in (root / "properties.jsonl").read_text().splitlines():
    pid = json.loads(line)["id"]
    n = notes.get(pid, {})
    ts = thms.get(pid, [])
    if not ts: continue
    claims.append({"property": pid, "status": n.get("status", "partial"), "theorems": ts,
                   "note": n.get("note", "")})
(root / "MANIFEST.json").write_text(json.dumps({"claims": claims}, indent=1) + "\n")
print(len(claims), sum(len(c["theorems"]) for c in claims))
