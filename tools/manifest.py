#!/usr/bin/env python3
"""Writes MANIFEST.json from the theorem names in lean/Verif/Props and the notes below."""
import json, os, re
root = os.path.dirname(os.path.dirname(os.path.abspath(__file__)))
notes = json.load(open(os.path.join(root, "tools", "notes.json")))
found = {}
props = os.path.join(root, "lean", "Verif", "Props")
for f in sorted(os.listdir(props)):
    for m in re.finditer(r"^theorem (C(\d\d+)_\w+)", open(os.path.join(props, f)).read(), re.M):
        found.setdefault("C" + m.group(2), []).append("Verif." + m.group(1))
claims = []
for l in open(os.path.join(root, "properties.jsonl")):
    pid = json.loads(l)["id"]
    if pid in notes:
        st, note = notes[pid]
        claims.append({"property": pid, "status": st, "theorems": found.get(pid, []), "note": note})
        if st != "not_applicable" and not found.get(pid): print("no theorem for", pid)
    elif pid in found: print("no note for", pid)
json.dump({"claims": claims}, open(os.path.join(root, "MANIFEST.json"), "w"), indent=1, ensure_ascii=False)
print(len(claims), "claims")
