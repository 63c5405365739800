#!/usr/bin/env python3
"""Append results of tools/mutate.py to seeded/LOG.jsonl.

usage: log_mutations.py results.jsonl [tightened.json]
tightened.json: {"<claim>": ["theorem", ...]} for surviving mutants that led to changes."""
import json, os, sys
root = os.path.join(os.path.dirname(os.path.abspath(__file__)), "..")
tight = json.load(open(sys.argv[2])) if len(sys.argv) > 2 else {}
with open(os.path.join(root, "seeded", "LOG.jsonl"), "a") as f:
    for l in open(sys.argv[1]):
        r = json.loads(l)
        f.write(json.dumps({
            "definition": r["definition"], "file": "lean/Verif/" + r["file"],
            "edit": {"old": r["old"], "new": r["new"]}, "claim": r["claim"],
            "survived": r["survived"], "theorems_failed": r["failed"],
            "theorems_tightened": tight.get(r["claim"], [])}) + "\n")
