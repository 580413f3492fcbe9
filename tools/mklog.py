"""Append results of tools/mutate.py to seeded/LOG.jsonl (usage: mklog.py results.jsonl)."""
import json, sys, os
path = "/verif/seeded/LOG.jsonl"
done = set()
if os.path.exists(path):
    done = {json.loads(l)["id"] for l in open(path)}
with open(path, "a") as f:
    for l in open(sys.argv[1]):
        d = json.loads(l)
        if d["id"] in done:
            continue
        f.write(json.dumps({
            "id": d["id"], "definition": d["definition"], "file": d["file"],
            "edit": "replace `%s` by `%s`" % (d["old"], d["new"]),
            "claim_broken": d["claim"], "theorems_failed": d["errors"],
            "modules_failed": d.get("failed_modules", []),
            "theorems_tightened": d.get("tightened", []),
            "note": "lake stops at the first failing module; the property theorems that import it are not rebuilt",
        }) + "\n")
