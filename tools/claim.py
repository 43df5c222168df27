#!/usr/bin/env python3
"""Insert or replace one claim in MANIFEST.json: claim.py C01 proved thm1,thm2 "note"."""
import json, os, sys
path = os.path.join(os.path.dirname(__file__), "..", "MANIFEST.json")
man = json.load(open(path)) if os.path.exists(path) else {"claims": []}
pid, status, thms, note = sys.argv[1:5]
claims = {c["property"]: c for c in man["claims"]}
claims[pid] = {"property": pid, "status": status,
               "theorems": [t for t in thms.split(",") if t], "note": note}
man["claims"] = [claims[k] for k in sorted(claims)]
json.dump(man, open(path, "w"), indent=1)
open(path, "a").write("\n")
