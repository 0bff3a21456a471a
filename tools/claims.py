#!/usr/bin/env python3
"""Maintain MANIFEST.json: claims.py ID STATUS THEOREM[,THEOREM...] NOTE"""
import json, sys, os
path = os.path.join(os.path.dirname(os.path.abspath(__file__)), "..", "MANIFEST.json")
data = {"claims": []}
if os.path.exists(path):
    data = json.load(open(path))
pid, status, thms, note = sys.argv[1:5]
claims = {c["property"]: c for c in data["claims"]}
claims[pid] = {"property": pid, "status": status, "theorems": [t if t.startswith("Flame.") else "Flame." + t for t in thms.split(",") if t], "note": note}
data["claims"] = [claims[k] for k in sorted(claims)]
with open(path, "w") as f:
    json.dump(data, f, indent=1, ensure_ascii=False)
    f.write("\n")
