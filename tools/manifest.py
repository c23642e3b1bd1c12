#!/usr/bin/env python3
"""Regenerate MANIFEST.json from tools/status.json and the theorem names Cnn_* found in lean/Verif/Props."""
import re, json, glob, os
root = os.path.dirname(os.path.dirname(os.path.abspath(__file__)))
thms = {}
for f in sorted(glob.glob(root + "/lean/Verif/Props/*.lean")):
    s = open(f).read()
    for m in re.finditer(r"^theorem (C(\d\d+)_[A-Za-z0-9_'.]+)", s, re.M):
        thms.setdefault("C" + m.group(2), []).append("FastBer.Props." + m.group(1))
status = json.load(open(root + "/tools/status.json"))
claims = []
for line in open(root + "/properties.jsonl"):
    pid = json.loads(line)["id"]
    st = status.get(pid, {"status": "partial", "note": "not yet modelled"})
    claims.append({"property": pid, "status": st["status"], "theorems": thms.get(pid, []), "note": st["note"]})
json.dump({"claims": claims}, open(root + "/MANIFEST.json", "w"), indent=1)
for c in claims:
    print(c["property"], c["status"], len(c["theorems"]))
