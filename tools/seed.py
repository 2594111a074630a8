#!/usr/bin/env python3
"""Run a batch of seeded mutations and append the outcomes to seeded/LOG.jsonl.

seed.py BATCH.json; BATCH is a list of objects {file, old, new, definition, edit, claim, tightened?, targets?};
with targets (module names) only these are built at first, and everything if they all still build."""
import json, sys, pathlib, io, contextlib
sys.path.insert(0, str(pathlib.Path(__file__).resolve().parent))
import mutate
log = pathlib.Path(__file__).resolve().parent.parent / "seeded" / "LOG.jsonl"
for m in json.load(open(sys.argv[1])):
    mutate.sync()
    with contextlib.redirect_stdout(io.StringIO()) as o:
        rc, names = mutate.run(m["file"], m["old"], m["new"], m.get("targets", ()))
        if not rc and m.get("targets"): rc, names = mutate.run(m["file"], m["old"], m["new"])
    rec = {"definition": m["definition"], "edit": m["edit"], "claim": m["claim"],
           "failed": [n.split("/", 1)[1] for n in names] if rc else [],
           "tightened": m.get("tightened", [])}
    bad = any("/Model/" in n for n in names)  # the edited program itself does not type-check
    if bad: print("INVALID", end=" ")
    print(rc, rec["definition"], rec["failed"] or (o.getvalue()[-600:] if rc else "!!! STILL PROVES"), flush=True)
    if rc and names and not bad and not m.get("dry"):
        with log.open("a") as f: f.write(json.dumps(rec, ensure_ascii=False) + "\n")
