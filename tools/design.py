#!/usr/bin/env python3
"""Rewrite the outcome table of DESIGN.md (between the two markers) from properties.jsonl and MANIFEST.json."""
import json, os
root = os.path.dirname(os.path.dirname(os.path.abspath(__file__)))
titles = {d["id"]: d["title"] for d in map(json.loads, open(root + "/properties.jsonl"))}
rows = ["| id | title | status | theorems | outcome |", "|----|-------|--------|----------|---------|"]
for c in json.load(open(root + "/MANIFEST.json"))["claims"]:
    rows.append("| %s | %s | %s | %s | %s |" % (c["property"], titles.get(c["property"], "?"), c["status"],
        ", ".join("`%s`" % t.replace("Flame.", "") for t in c["theorems"]), c["note"]))
a, b = "<!-- outcome table -->\n", "<!-- end of outcome table -->\n"
s = open(root + "/DESIGN.md").read()
i, j = s.index(a) + len(a), s.index(b)
open(root + "/DESIGN.md", "w").write(s[:i] + "\n".join(rows) + "\n" + s[j:])
