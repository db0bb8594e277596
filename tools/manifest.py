"""Writes MANIFEST.json: collects the property theorems (named C01_..., in lean/Verif/Props) per property."""
import glob, json, re, os
root = os.path.dirname(os.path.dirname(os.path.abspath(__file__)))
found = {}
for path in sorted(glob.glob(root + "/lean/Verif/Props/*.lean")):
    for m in re.finditer(r"^theorem (C\d\d+)(_\w+)", open(path).read(), re.M):
        found.setdefault(m.group(1), []).append("Verif." + m.group(1) + m.group(2))
notes = json.load(open(root + "/tools/notes.json"))
claims = []
for line in open(root + "/properties.jsonl"):
    pid = json.loads(line)["id"]
    ts = found.get(pid, [])
    note = notes.get(pid, "")
    status = "proved" if ts else "partial"
    if note.startswith("PARTIAL: "):
        status, note = "partial", note[9:]
    if not ts and not note:
        note = "not yet proved"
    claims.append({"property": pid, "status": status, "theorems": ts, "note": note})
json.dump({"claims": claims}, open(root + "/MANIFEST.json", "w"), indent=1)
print(sum(c["status"] == "proved" for c in claims), "proved of", len(claims))
