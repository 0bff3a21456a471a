#!/usr/bin/env python3
"""Append a property: addprop.py ID TITLE STATEMENT QUANTIFIER WHY ANCHOR[;ANCHOR...]"""
import json, sys, os
path = os.path.join(os.path.dirname(os.path.abspath(__file__)), "..", "properties.jsonl")
i, t, s, q, w, a = sys.argv[1:7]
ids = [json.loads(l)["id"] for l in open(path)]
assert i not in ids, i
with open(path, "a") as f:
    f.write(json.dumps({"id": i, "title": t, "statement": s, "quantifier": q, "why_tests_cant": w, "anchors": [x.strip() for x in a.split(";")]}) + "\n")
