#!/usr/bin/env python3
"""Write the table of axioms per theorem into DESIGN.md section 6 (after `lake build`)."""
import json, os, re, subprocess, textwrap
root = os.path.abspath(os.path.join(os.path.dirname(os.path.abspath(__file__)), ".."))
names = []
for c in json.load(open(root + "/MANIFEST.json"))["claims"]:
    names += [t for t in c["theorems"] if t not in names]
src = "/tmp/axioms.lean"
with open(src, "w") as f:
    f.write("import Verif\n" + "".join(f"#print axioms {n}\n" for n in names))
out = subprocess.run(["lake", "env", "lean", src], cwd=root + "/lean", capture_output=True, text=True).stdout
out = re.sub(r"\n\s+", " ", out)
groups = {}
for line in out.splitlines():
    m = re.match(r"'([^']+)' depends on axioms: \[(.*)\]", line)
    n = re.match(r"'([^']+)' does not depend on any axioms", line)
    if m:
        groups.setdefault(tuple(sorted(a.strip() for a in m.group(2).split(","))), []).append(m.group(1))
    elif n:
        groups.setdefault((), []).append(n.group(1))
    else:
        raise SystemExit("unexpected: " + line)
assert sum(map(len, groups.values())) == len(names)
text = "Generated by `tools/gen_axioms.py` from `#print axioms`; names are in the namespace `Verif.Props`.\n"
for g in sorted(groups, key=lambda g: (len(g), g)):
    ns = sorted(n.rsplit("Props.", 1)[-1] for n in groups[g])
    text += "\n* **" + (", ".join(f"`{a}`" for a in g) or "no axioms") + f"** ({len(ns)} theorems): \n"
    text += textwrap.fill(", ".join(ns), 118, initial_indent="  ", subsequent_indent="  ", break_long_words=False, break_on_hyphens=False) + "\n"
p = root + "/DESIGN.md"
s = open(p).read()
i = s.index("## 6. Axioms per theorem")
j = s.find("\n## 7.", i)
s = s[:i] + "## 6. Axioms per theorem\n\n" + text + (s[j:] if j >= 0 else "")
open(p, "w").write(s)
print({g: len(v) for g, v in groups.items()})
