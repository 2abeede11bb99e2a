#!/usr/bin/env python3
"""Build MANIFEST.json from the theorem names Cnn_* in lean/Verif/Props and the notes below."""
import re, json, glob, os
root = os.path.join(os.path.dirname(__file__), "..")
props = [json.loads(l)["id"] for l in open(os.path.join(root, "properties.jsonl"))]
notes = json.load(open(os.path.join(root, "tools", "notes.json")))
th = {}
for f in sorted(glob.glob(os.path.join(root, "lean/Verif/Props/*.lean"))):
    src = open(f).read()
    ns = []
    for line in src.split("\n"):
        m = re.match(r"namespace (\S+)", line)
        if m: ns.append(m.group(1))
        m = re.match(r"end (\S+)", line)
        if m and ns and ns[-1] == m.group(1): ns.pop()
        m = re.match(r"(?:private )?theorem ((C\d\d+)(?:_\w*)?)(?!\w)", line)
        if m: th.setdefault(m.group(2), []).append(".".join(ns + [m.group(1)]))
claims = []
for p in props:
    names = th.get(p, [])
    n = notes.get(p, {})
    if not names: continue
    status = n.get("status") or ("partial" if any(x.endswith("_partial") for x in names) else "proved")
    claims.append({"property": p, "status": status, "theorems": names, "note": n.get("note", "")})
json.dump({"claims": claims}, open(os.path.join(root, "MANIFEST.json"), "w"), indent=1)
print(len(claims), "claims", sum(len(c["theorems"]) for c in claims), "theorems")
