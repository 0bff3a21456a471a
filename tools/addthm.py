#!/usr/bin/env python3
"""Add theorems to an existing claim: addthm.py ID THEOREM[,THEOREM...]  ("Flame." is prefixed)"""
import json, os, sys
path = os.path.join(os.path.dirname(os.path.abspath(__file__)), "..", "MANIFEST.json")
m = json.load(open(path))
(c,) = [c for c in m["claims"] if c["property"] == sys.argv[1]]
for t in sys.argv[2].split(","):
    t = t if t.startswith("Flame.") else "Flame." + t
    if t not in c["theorems"]:
        c["theorems"].append(t)
json.dump(m, open(path, "w"), indent=1, ensure_ascii=False)
