#!/usr/bin/env python3
"""Append mutation results (mutate.py output) to seeded/LOG.jsonl.
usage: mklog.py out.jsonl [tightened.json]   tightened: {"id": ["theorem", ...]} """
import json, sys, os
tight = json.load(open(sys.argv[2])) if len(sys.argv) > 2 else {}
log = "/verif/seeded/LOG.jsonl"
done = {(json.loads(l)["id"], json.loads(l).get("round", 1)) for l in open(log)} if os.path.exists(log) else set()
with open(log, "a") as f:
    for l in open(sys.argv[1]):
        d = json.loads(l)
        rnd = d.get("round", 1)
        if (d["id"], rnd) in done: continue
        failed = [x for x in d.get("failed", []) if not x.startswith("example@")]
        out = {"id": d["id"], "round": rnd, "definition": d["definition"], "file": d["file"], "edit": d["edit"],
               "claim_broken": d["claim"],
               "proofs_that_failed": failed,
               "theorems_failed": d.get("claims_failed", []),
               "theorems_tightened": tight.get(d["id"], d.get("tightened", []))}
        if d.get("problem"): out["note"] = d["problem"][:200]
        if not failed and not d.get("problem"): out["note"] = d.get("note", "survived")
        f.write(json.dumps(out, ensure_ascii=False) + "\n")
