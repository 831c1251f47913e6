#!/usr/bin/env python3
"""Regenerate MANIFEST.json from the theorem names in lean/Verif/*/Props*.lean and tools/notes.json."""
import glob, json, os, re
root = os.path.dirname(os.path.dirname(os.path.abspath(__file__)))
notes = json.load(open(os.path.join(root, "tools", "notes.json")))
thms = {}
for f in sorted(glob.glob(os.path.join(root, "lean/Verif/**/Props*.lean"), recursive=True)):
    ns = []
    for line in open(f):
        m = re.match(r"namespace (\S+)", line)
        if m: ns.append(m.group(1))
        m = re.match(r"end (\S+)", line)
        if m and ns and ns[-1] == m.group(1): ns.pop()
        m = re.match(r"theorem (C\d\d+)_(\S+)", line)
        if m:
            thms.setdefault(m.group(1), []).append(".".join(ns + [m.group(1) + "_" + m.group(2)]))
claims = []
for line in open(os.path.join(root, "properties.jsonl")):
    pid = json.loads(line)["id"]
    n = notes.get(pid, {})
    ts = thms.get(pid, [])
    if not ts and n.get("status") != "not_applicable":
        continue
    status = n.get("status") or ("partial" if any(t.endswith("_partial") for t in ts) else "proved")
    claims.append({"property": pid, "status": status, "theorems": ts, "note": n.get("note", "")})
with open(os.path.join(root, "MANIFEST.json"), "w") as o:
    o.write('{"claims": [\n' + ",\n".join("  " + json.dumps(c, ensure_ascii=False) for c in claims) + "\n]}\n")
print({s: sum(c["status"] == s for c in claims) for s in ("proved", "partial", "not_applicable")}, sum(len(c["theorems"]) for c in claims))
