#!/usr/bin/env python3
"""Mutation testing of the model, in a scratch copy outside /verif.

usage: mutate.py SPEC.json   where SPEC is a list of
  {"file": "Model/Uuid.lean", "definition": "...", "old": "...", "new": "...", "claim": "...", "breaks": "C01"}
Each edit is applied alone; modules are rebuilt; every declaration that fails gets its proof replaced by sorry, and
the property theorems that then depend on sorryAx are the ones that failed.  Appends one line to seeded/LOG.jsonl."""
import json, os, re, subprocess, sys
V, S = "/verif/lean", "/tmp/scratch/lean"
os.makedirs("/tmp/scratch", exist_ok=True)
B = "/tmp/scratch/base"
subprocess.run(["rm", "-rf", B], check=True)
subprocess.run(["cp", "-a", V, B], check=True)
def sync():
    subprocess.run(["rm", "-rf", S], check=True)
    subprocess.run(["cp", "-a", B, S], check=True)
def depth0(block):
    d = 0
    i = 0
    while i < len(block):
        c = block[i]
        if c == "'" and i + 2 < len(block) and block[i + 2] == "'":
            i += 3
            continue
        if c in "([{⟨": d += 1
        elif c in ")]}⟩": d -= 1
        elif d == 0 and block.startswith(":=", i) and not re.search(r"\blet\s+\S+(\s*:[^\n]*)?\s*$", block[:i]): return i
        i += 1
    return -1
def sorry_decl(path, line, this_round):
    """replace the proof of the declaration around the line by sorry; returns its name"""
    ls = open(path).read().split("\n")
    k = line - 1
    start = re.compile(r"^(@\[[^\]]*\] *)?(private |protected )?(theorem|lemma|example|instance|def|abbrev)\b")
    while k >= 0 and not start.match(ls[k]): k -= 1
    if k < 0: return None
    e = k + 1
    while e < len(ls) and (ls[e] == "" or ls[e][0] in " \t·|"): e += 1
    block = "\n".join(ls[k:e])
    m = re.match(r".*?(theorem|lemma|example|instance|def|abbrev)\s*(\S*)", block)
    kind, name = m.group(1), m.group(2)
    if kind in ("def", "abbrev", "instance"): return ("!" + name)
    if kind == "example":
        new = "example : True := trivial" + "\n" * block.count("\n")
        name = "example@" + os.path.basename(path) + ":" + str(k + 1)
    else:
        i = depth0(block)
        j = block.find("\n  |")
        if i < 0 or 0 <= j < i: i = j
        if i < 0: return "!" + name
        if "sorry" in block: return ("!" + name) if name not in this_round else None
        new = block[:i] + ":= by sorry" + "\n" * (block.count("\n") + 1 - block[:i].count("\n"))
    ls[k:e] = new.split("\n")
    open(path, "w").write("\n".join(ls))
    return name
def props():
    out = []
    for d, _, fs in os.walk(S + "/Verif/Props"):
        for f in sorted(fs):
            if f.endswith(".lean") and "import Verif.Props." + f[:-5] + "\n" in open(S + "/Verif.lean").read() + "\n":
                src = open(os.path.join(d, f)).read()
                out += [("Verif.Props." + f[:-5], "Verif.Props." + n) for n in re.findall(r"^theorem (C\d+_[\w']+)", src, re.M)]
    return out
def run(spec):
    sync()
    p = os.path.join(S, "Verif", spec["file"])
    src = open(p).read()
    assert src.count(spec["old"]) >= 1, ("old text not found", spec)
    cnt = spec.get("nth", 0)
    pos = -1
    for _ in range(cnt + 1): pos = src.index(spec["old"], pos + 1)
    open(p, "w").write(src[:pos] + spec["new"] + src[pos + len(spec["old"]):])
    failed, fatal = [], None
    for it in range(40):
        r = subprocess.run(["lake", "build"], cwd=S, capture_output=True, text=True)
        out = r.stdout + r.stderr
        errs = re.findall(r"^error: (?:\./)?(Verif/[\w/]+\.lean):(\d+):\d+:", out, re.M)
        if not errs:
            if r.returncode: fatal = out[-800:]
            break
        done = set()
        for f, l in sorted({(f, int(l)) for f, l in errs}, key=lambda x: (x[0], -x[1])):
            n = sorry_decl(os.path.join(S, f), l, done)
            if n and n not in done:
                done.add(n); failed.append(n)
        if any(x.startswith("!") for x in done) or not done:
            fatal = "cannot patch: " + ",".join(done) + out[-600:]; break
    dep = []
    if not fatal:
        ps = props()
        t = "".join(f"import {m}\n" for m in sorted({m for m, _ in ps})) + "".join(f"#print axioms {n}\n" for _, n in ps)
        open(S + "/Q.lean", "w").write(t)
        r = subprocess.run(["lake", "env", "lean", "Q.lean"], cwd=S, capture_output=True, text=True)
        o = re.sub(r"\n\s+", " ", r.stdout)
        dep = [m.group(1) for m in re.finditer(r"'(\S+)' depends on axioms: \[([^\]]*)\]", o) if "sorryAx" in m.group(2)]
    rec = {"definition": spec["definition"], "file": "lean/Verif/" + spec["file"], "edit": f"{spec['old']}  ==>  {spec['new']}",
           "claim": spec["claim"], "breaks": spec["breaks"], "lemmas_failed": failed, "theorems_failed": [d.split(".")[-1] for d in dep],
           "theorems_tightened": spec.get("tightened", []), "caught": any(b in d for d in dep for b in spec["breaks"].replace(",", " ").split())}
    if fatal: rec["note"] = fatal
    if spec.get("note"): rec["note"] = spec["note"]
    print(json.dumps(rec, ensure_ascii=False)[:1500])
    if not spec.get("dry"):
        open("/verif/seeded/LOG.jsonl", "a").write(json.dumps(rec, ensure_ascii=False) + "\n")
for s in json.load(open(sys.argv[1])): run(s)
