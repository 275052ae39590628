#!/usr/bin/env python3
"""Regenerates /verif/MANIFEST.json from the property theorems in lean/Verif/Props and notes.json."""
import glob, json, os, re
root = os.path.dirname(os.path.dirname(os.path.abspath(__file__)))
props = [json.loads(l) for l in open(f"{root}/properties.jsonl") if l.strip()]
notes = json.load(open(f"{root}/tools/notes.json"))
thms = {}
for f in sorted(glob.glob(f"{root}/lean/Verif/Props/*.lean")):
    for m in re.finditer(r"^theorem (C(\d\d)_\w+)", open(f).read(), re.M):
        thms.setdefault("C" + m.group(2), []).append("Vers." + m.group(1))
claims = []
for p in props:
    i = p["id"]
    t = thms.get(i, [])
    n = notes.get(i, {})
    status = n.get("status") or ("partial" if any(x.endswith("_partial") for x in t) else "proved")
    if not t:
        status = "not_applicable" if n.get("status") == "not_applicable" else None
    if status is None:
        continue
    claims.append({"property": i, "status": status, "theorems": t, "note": n.get("note", "")})
json.dump({"claims": claims}, open(f"{root}/MANIFEST.json", "w"), indent=1)
print({s: sum(c["status"] == s for c in claims) for s in ("proved", "partial", "not_applicable")})
