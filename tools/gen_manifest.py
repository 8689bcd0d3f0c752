#!/usr/bin/env python3
"""Regenerate MANIFEST.json from the theorem names in lean/Verif and tools/notes.json."""
import glob, json, os, re

root = os.path.dirname(os.path.dirname(os.path.abspath(__file__)))
notes = json.load(open(os.path.join(root, "tools", "notes.json")))
ids = [json.loads(l)["id"] for l in open(os.path.join(root, "properties.jsonl")) if l.strip()]
thms = {i: [] for i in ids}
for f in sorted(glob.glob(os.path.join(root, "lean", "Verif", "**", "*.lean"), recursive=True)):
    ns = []
    for line in open(f):
        m = re.match(r"namespace (\S+)", line)
        if m:
            ns.append(m.group(1))
        m = re.match(r"end (\S+)", line)
        if m and ns and ns[-1] == m.group(1):
            ns.pop()
        m = re.match(r"theorem ((C\d\d+)_\w+)", line)
        if m and m.group(2) in thms:
            thms[m.group(2)].append(".".join(ns + [m.group(1)]))
claims = []
for i in ids:
    t = thms[i]
    if not t:
        status = "not_applicable"
    elif any(x.endswith("_partial") or x.endswith("_violated") for x in t):
        status = "partial"
    else:
        status = "proved"
    n = notes.get(i, {})
    if isinstance(n, str):
        n = {"note": n}
    claims.append({"property": i, "status": n.get("status", status), "theorems": t,
                   "note": n.get("note", "not modelled yet" if not t else "")})
json.dump({"claims": claims}, open(os.path.join(root, "MANIFEST.json"), "w"), indent=1)
for c in claims:
    print(c["property"], c["status"], len(c["theorems"]))
