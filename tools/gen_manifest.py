#!/usr/bin/env python3
"""Collect the property theorems of lean/Verif/Props into MANIFEST.json.

Theorem names start with the property id (`C17_...`).  A property is `partial` when one of its
theorems ends in `_partial` or shows a violation, `proved` otherwise; `tools/notes.json` adds notes
and may override the status.
"""
import glob, json, os, re

root = os.path.dirname(os.path.dirname(os.path.abspath(__file__)))
props = [json.loads(l)["id"] for l in open(f"{root}/properties.jsonl") if l.strip()]
notes = json.load(open(f"{root}/tools/notes.json"))
thms = {}
for f in sorted(glob.glob(f"{root}/lean/Verif/Props/*.lean")):
    space = []
    for line in open(f):
        words = line.split()
        if words[:1] == ["namespace"]:
            space.append(words[1])
        elif words[:1] == ["end"] and len(words) > 1 and space and words[1] == space[-1]:
            space.pop()
        m = re.match(r"theorem ((C\d+)_\w+)", line)
        if m:
            thms.setdefault(m.group(2), []).append(".".join(space + [m.group(1)]))
claims = []
for p in props:
    n = notes.get(p, {})
    if isinstance(n, str):
        n = {"note": n}
    ts = thms.get(p, [])
    if ts:
        part = any(t.endswith("_partial") or "violated" in t for t in ts)
        status = n.get("status", "partial" if part else "proved")
        claims.append({"property": p, "status": status, "theorems": ts, "note": n.get("note", "")})
    elif n.get("status") == "not_applicable":
        claims.append({"property": p, "status": "not_applicable", "theorems": [], "note": n.get("note", "")})
json.dump({"claims": claims}, open(f"{root}/MANIFEST.json", "w"), indent=1, ensure_ascii=False)
print(len(claims), "claims;", "missing:", " ".join(p for p in props if p not in {c["property"] for c in claims}))
mods = sorted(f[len(root) + 6:-5].replace("/", ".") for f in glob.glob(f"{root}/lean/Verif/**/*.lean", recursive=True))
open(f"{root}/lean/Verif.lean", "w").write("".join(f"import {m}\n" for m in mods))
