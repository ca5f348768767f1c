#!/usr/bin/env python3
"""usage: seedlog.py OUT.jsonl [TIGHTENED.json]: append the results of tools/seed.py to seeded/LOG.jsonl.
TIGHTENED.json maps a seed's name to the theorems tightened because of it."""
import json, sys
tight = json.load(open(sys.argv[2])) if len(sys.argv) > 2 else {}
with open("/verif/seeded/LOG.jsonl", "a") as o:
    for l in open(sys.argv[1]):
        d = json.loads(l)
        if "failed_properties" not in d: continue
        o.write(json.dumps({"name": d["name"], "definition": d["definition"], "edit": d["edit"], "claim": d["claim"],
          "failed": [x for x in d["failed_properties"] if x.startswith("C")],
          "failed_first": [x for x in d["failed"] if x != "example"],
          "examples_failed": d["failed"].count("example"),
          "tightened": tight.get(d["name"], [])}) + "\n")
