#!/usr/bin/env python3
"""Builds MANIFEST.json from the property theorems (names `Cnn_...`) in lean/Verif."""
import json, os, re, glob
root = os.path.join(os.path.dirname(os.path.abspath(__file__)), "..")
notes = json.load(open(os.path.join(root, "tools", "notes.json")))
claims = {}
for f in sorted(glob.glob(os.path.join(root, "lean/Verif/**/*.lean"), recursive=True)):
    ns = []
    for line in open(f):
        m = re.match(r"namespace (\S+)", line)
        if m: ns.append(m.group(1))
        m = re.match(r"end (\S+)", line)
        if m and ns and ns[-1] == m.group(1): ns.pop()
        m = re.match(r"theorem (C(\d+)_[\w']+)", line)
        if m:
            claims.setdefault("C" + m.group(2), []).append(".".join(ns + [m.group(1)]))
out = []
for l in open(os.path.join(root, "properties.jsonl")):
    pid = json.loads(l)["id"]
    th = claims.get(pid, [])
    n = notes.get(pid, {})
    if not th:
        if n.get("status") == "not_applicable":
            out.append(dict(property=pid, status="not_applicable", theorems=[], note=n["note"]))
        else:
            print("no theorem yet for", pid)
        continue
    part = any("violates" in t or t.endswith("_partial") for t in th)
    status = n.get("status", "partial" if part else "proved")
    out.append(dict(property=pid, status=status, theorems=th, note=n.get("note", "")))
json.dump({"claims": out}, open(os.path.join(root, "MANIFEST.json"), "w"), indent=1)
print(len(out), "claims,", sum(len(c["theorems"]) for c in out), "theorems")
