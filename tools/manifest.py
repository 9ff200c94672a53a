#!/usr/bin/env python3
"""Regenerate MANIFEST.json from the theorem names in lean/Verif/**/Theorems*.lean.
A theorem named Cxx_... belongs to property Cxx. Status and notes come from tools/status.json."""
import re, json, glob, os
root = os.path.dirname(os.path.dirname(os.path.abspath(__file__)))
props = [json.loads(l)["id"] for l in open(f"{root}/properties.jsonl") if l.strip()]
status = json.load(open(f"{root}/tools/status.json"))
th = {}
for f in sorted(glob.glob(f"{root}/lean/Verif/**/Theorems*.lean", recursive=True)):
    ns = []
    for line in open(f):
        m = re.match(r"namespace (\S+)", line)
        if m: ns.append(m[1])
        m = re.match(r"end (\S+)", line)
        if m and ns and ns[-1] == m[1]: ns.pop()
        m = re.match(r"theorem ((C\d+)_\S+)", line)
        if m:
            th.setdefault(m[2], []).append(".".join(ns + [m[1]]))
claims = []
for p in props:
    if p not in th: continue
    s = status.get(p, {})
    st = s.get("status") or "proved"
    claims.append({"property": p, "status": st, "theorems": th[p], "note": s.get("note", "")})
json.dump({"claims": claims}, open(f"{root}/MANIFEST.json", "w"), indent=1)
print(len(claims), "claims", sum(len(c["theorems"]) for c in claims), "theorems; missing:", [p for p in props if p not in th])
for p in th:
    if p not in props: print("NO PROPERTY", p)
