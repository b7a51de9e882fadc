#!/usr/bin/env python3
"""Regenerate lean/Verif.lean (imports) and MANIFEST.json.

The theorems of a property Cnn are all theorems named Cnn_* in lean/Verif/Props.  Status and note come from
tools/status.json: {"C01": ["proved", "note"], ...}."""
import json, os, re
root = os.path.dirname(os.path.dirname(os.path.abspath(__file__)))
lean = os.path.join(root, "lean")
mods = []
for d, _, fs in os.walk(os.path.join(lean, "Verif")):
    for f in fs:
        if f.endswith(".lean"):
            mods.append(os.path.relpath(os.path.join(d, f), lean)[:-5].replace("/", "."))
open(os.path.join(lean, "Verif.lean"), "w").write("".join(f"import {m}\n" for m in sorted(mods)))
thms = {}
for m in sorted(mods):
    if m.startswith("Verif.Props."):
        src = open(os.path.join(lean, m.replace(".", "/") + ".lean")).read()
        for n in re.findall(r"^theorem (C\d+_[\w']+)", src, re.M):
            thms.setdefault(n.split("_")[0], []).append("Verif.Props." + n)
status = json.load(open(os.path.join(root, "tools/status.json")))
claims, warn = [], []
for line in open(os.path.join(root, "properties.jsonl")):
    pid = json.loads(line)["id"]
    if pid in thms or pid in status:
        st, note = status.get(pid, ["?", ""])
        if st == "?":
            warn.append(pid)
        claims.append({"property": pid, "status": st, "theorems": thms.get(pid, []), "note": note})
    else:
        warn.append(pid + " (nothing)")
json.dump({"claims": claims}, open(os.path.join(root, "MANIFEST.json"), "w"), indent=1, ensure_ascii=False)
print(len(mods), "modules;", sum(map(len, thms.values())), "theorems; no status:", " ".join(warn))
