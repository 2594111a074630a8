#!/usr/bin/env python3
"""Set one claim in MANIFEST.json: claim.py C07 proved thm1,thm2 "note"."""
import json, sys, pathlib
p = pathlib.Path(__file__).resolve().parent.parent / "MANIFEST.json"
m = json.loads(p.read_text())
pid, status, thms, note = sys.argv[1:5]
c = {"property": pid, "status": status,
     "theorems": [("" if t.startswith("GPX.") else "GPX.Props.") + t for t in thms.split(",") if t],
     "note": note}
m["claims"] = sorted([x for x in m["claims"] if x["property"] != pid] + [c], key=lambda x: int(x["property"][1:]))
p.write_text(json.dumps(m, indent=1, ensure_ascii=False) + "\n")
