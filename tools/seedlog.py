"""Append the results of a seeded-bug round (output of the mutation runner) to seeded/LOG.jsonl.

usage: seedlog.py out.jsonl [notes.json]    notes: {"<row number from 0>": {"tightened": [...], "note": "..."}}

`failed` lists the declarations reported as errors.  Most are helper lemmas: the property theorems of
the modules in `not_reached` import the failed module and were therefore not checked at all, so the
entry shows that the proof breaks, not which property theorem became false.
"""
import json, sys, os
notes = json.load(open(sys.argv[2])) if len(sys.argv) > 2 else {}
log = os.path.join(os.path.dirname(__file__), '..', 'seeded', 'LOG.jsonl')
with open(log, 'a') as f:
    for i, l in enumerate(open(sys.argv[1])):
        r = json.loads(l)
        n = notes.get(str(i), {})
        e = {"definition": r["definition"], "edit": r["edit"], "claim": n.get("claim", r["claim"]),
             "outcome": n.get("outcome", "build failed" if r["rc"] else "survived"),
             "failed": r["errors"], "not_reached": r["unbuilt"],
             "tightened": n.get("tightened", [])}
        if "note" in n: e["note"] = n["note"]
        f.write(json.dumps(e) + '\n')
