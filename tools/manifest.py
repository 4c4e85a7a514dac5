#!/usr/bin/env python3
"""Write MANIFEST.json from the theorem names in lean/Verif/Props and tools/notes.json."""
import glob, json, os, re
root = os.path.dirname(os.path.dirname(os.path.abspath(__file__)))
props = [json.loads(l)["id"] for l in open(root + "/properties.jsonl")]
notes = json.load(open(root + "/tools/notes.json"))
thms = {}
for f in sorted(glob.glob(root + "/lean/Verif/Props/*.lean")):
    ns = []
    for line in open(f):
        m = re.match(r"namespace (\S+)", line)
        if m:
            ns.append(m.group(1))
        m = re.match(r"theorem (C\d{2,3})(_\w+['?]?)", line)
        if m:
            thms.setdefault(m.group(1), []).append(".".join(ns) + "." + m.group(1) + m.group(2))
claims = []
for p in props:
    t = thms.get(p, [])
    if not t:
        print("no theorems:", p)
        continue
    partial = any(n.endswith("_partial") for n in t)
    claims.append({"property": p, "status": "partial" if partial else "proved",
                   "theorems": t, "note": notes.get(p, "")})
json.dump({"claims": claims}, open(root + "/MANIFEST.json", "w"), indent=1, ensure_ascii=False)
