#!/usr/bin/env python3
"""Regenerate MANIFEST.json: every `theorem Cnn_...` in lean/Verif/Props is listed under property Cnn."""
import json, re, glob, os
root = os.path.join(os.path.dirname(os.path.abspath(__file__)), "..")
props = [json.loads(l)["id"] for l in open(os.path.join(root, "properties.jsonl"))]
thms = {p: [] for p in props}
for f in sorted(glob.glob(os.path.join(root, "lean/Verif/Props/*.lean"))):
    ns = []
    for line in open(f):
        m = re.match(r"namespace (\S+)", line)
        if m: ns.append(m.group(1))
        m = re.match(r"end (\S+)", line)
        if m and ns and ns[-1] == m.group(1): ns.pop()
        m = re.match(r"theorem (C\d\d+)(_\w+)", line)
        if m: thms[m.group(1)].append(".".join(ns + [m.group(1) + m.group(2)]))
notes_path = os.path.join(root, "tools/manifest_notes.json")
notes = json.load(open(notes_path)) if os.path.exists(notes_path) else {}
claims = []
for p in props:
    if not thms[p]:
        continue
    st, note = notes.get(p, ["proved", ""])
    if any(t.endswith("_partial") for t in thms[p]): st = "partial"
    claims.append({"property": p, "status": st, "theorems": thms[p], "note": note})
open(os.path.join(root, "MANIFEST.json"), "w").write(
    '{"claims": [\n' + ",\n".join(json.dumps(c) for c in claims) + "\n]}\n")
print(len(claims), "claims;", [p for p in props if not thms[p]], "without theorems")
