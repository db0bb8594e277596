"""Appends properties to properties.jsonl: reads JSON lists [id, title, statement, quantifier, why_tests_cant, anchors] from stdin, one per line."""
import json, sys
keys = ["id", "title", "statement", "quantifier", "why_tests_cant", "anchors"]
path = __file__.rsplit("/", 2)[0] + "/properties.jsonl"
have = {json.loads(l)["id"] for l in open(path) if l.strip()}
with open(path, "a") as f:
    for line in sys.stdin:
        if not line.strip():
            continue
        row = dict(zip(keys, json.loads(line)))
        assert len(row) == 6 and row["id"] not in have, row
        have.add(row["id"])
        f.write(json.dumps(row) + "\n")
