"""usage: seedlog.py SPEC.json RESULTS_DIR: one line of seeded/LOG.jsonl per mutation that is not there yet"""
import json, os, sys

log = os.path.join(os.path.dirname(os.path.dirname(os.path.abspath(__file__))), "seeded", "LOG.jsonl")
have = {json.loads(line)["name"] for line in open(log)}
added = 0
with open(log, "a") as out:
    for m in json.load(open(sys.argv[1])):
        path = os.path.join(sys.argv[2], m["name"] + ".json")
        if m["name"] in have or not os.path.exists(path):
            continue
        failed = [x.removeprefix("Verif.") for x in json.load(open(path))["failed"]]
        out.write(json.dumps({
            "name": m["name"], "definition": m["defn"], "file": m["file"],
            "edit": {"from": m["old"], "to": m["new"]}, "claim": m["claim"],
            "failed": failed, "refuted": m.get("refuted", []), "tightened": m.get("tightened", []), "note": m.get("note", ""),
        }, ensure_ascii=False) + "\n")
        added += 1
print(added, "added")
