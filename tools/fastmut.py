#!/usr/bin/env python3
"""Mutation testing of the model in one build per edit, in a scratch copy outside /verif.

usage: fastmut.py SPEC.json     (the same specs as for mutate.py; with "dry": nothing is logged)
Each edit is applied alone and everything is rebuilt once.  The declarations with errors are the lemmas that failed; the property
theorems that depend on one of them, according to deps.txt, are the theorems that failed.  (Those with errors in modules that could
not be built because of earlier errors are not seen, so these lists may be too short, but never too long.)"""
import json, os, re, subprocess, sys
V, R = "/verif/lean", "/tmp/fast" + (sys.argv[2] if len(sys.argv) > 2 else "")
S, B = R + "/lean", R + "/base"
os.makedirs(R, exist_ok=True)
subprocess.run(["rm", "-rf", B], check=True)
subprocess.run(["cp", "-a", V, B], check=True)
out = subprocess.run(["lake", "env", "lean", "/verif/tools/deps.txt"], cwd=B, capture_output=True, text=True).stdout
DEPS = {}
for l in out.splitlines():
    w = l.split(" ")
    DEPS[w[0]] = set(w[1:])
assert len(DEPS) > 400, out[:500]
def sync():
    subprocess.run(["rm", "-rf", S], check=True)
    subprocess.run(["cp", "-a", B, S], check=True)
START = re.compile(r"^(?:@\[[^\]]*\] *)?(?:private |protected |noncomputable )*(theorem|lemma|example|instance|def|abbrev|structure|inductive)\b\s*(\S*)")
def decl(path, line):
    ls = open(path).read().split("\n")
    k = line - 1
    while k >= 0 and not START.match(ls[k]): k -= 1
    if k < 0: return ("?", "?")
    kind, name = START.match(ls[k]).groups()
    ns = []
    for l in ls[:k]:
        m = re.match(r"^(?:noncomputable )?(namespace|section|mutual|end)\b\s*(\S*)", l)
        if m:
            if m.group(1) == "end":
                if ns: ns.pop()
            else: ns.append(m.group(2) if m.group(1) == "namespace" else "")
    return kind, ".".join([x for x in ns if x] + [name])
def run(spec):
    sync()
    p = os.path.join(S, "Verif", spec["file"])
    src = open(p).read()
    if spec["old"] not in src:
        print("NOTFOUND", json.dumps(spec)[:300], flush=True); return
    pos = -1
    for _ in range(spec.get("nth", 0) + 1): pos = src.index(spec["old"], pos + 1)
    open(p, "w").write(src[:pos] + spec["new"] + src[pos + len(spec["old"]):])
    failed, errs, again = [], [], True
    while again:
        try:
            r = subprocess.run(["timeout", "2400", "lake", "build"], cwd=S, capture_output=True, text=True)
        except Exception as e:
            print("EXC", e, flush=True); return
        o = r.stdout + r.stderr
        now = sorted({(f, int(l)) for f, l in re.findall(r"^error: (?:\./)?(Verif/[\w/]+\.lean):(\d+):\d+:", o, re.M)})
        if any(f.startswith("Verif/Model") or f.startswith("Verif/Base") for f, _ in now):
            print("ILLTYPED", spec["file"], spec["definition"], spec["old"][:60], "==>", spec["new"][:60], now[:2], flush=True); return
        again, drop = False, {}
        for f, l in now:
            kind, n = decl(os.path.join(S, f), l)
            if kind == "example":
                n = "example@%s:%d" % (os.path.basename(f), l)
                drop.setdefault(f, set()).add(l)
            if n not in failed: failed.append(n)
        errs += now
        # examples that failed are dropped and the proofs of theorems that failed are left out (in this scratch copy), so that what imports their module is built
        for f in {g for g, _ in now}:
            q = os.path.join(S, f)
            t = open(q).read().split("\n")
            for l in {l for g, l in now if g == f}:
                k = l - 1
                while k >= 0 and not START.match(t[k]): k -= 1
                if k < 0: continue
                j = k + 1
                while j < len(t) and not re.match(r"^(/-|end\b|section|namespace|open\b|variable)", t[j]) and not START.match(t[j]): j += 1
                if START.match(t[k]).group(1) == "example":
                    for i in range(k, j): t[i] = ""
                    t[k] = "example : True := trivial"
                    again = True
                elif START.match(t[k]).group(1) in ("theorem", "lemma"):
                    for i in range(k, j):
                        m = re.search(r" := by$| :=$", t[i])
                        if m:
                            t[i] = t[i][:m.start()] + " := " + "so" + "rry"
                            for x in range(i + 1, j): t[x] = ""
                            again = True
                            break
            open(q, "w").write("\n".join(t))
    dep = sorted(t for t, d in DEPS.items() if any(n in d for n in failed))
    rec = {"definition": spec["definition"], "file": "lean/Verif/" + spec["file"], "edit": f"{spec['old']}  ==>  {spec['new']}",
           "claim": spec["claim"], "breaks": spec["breaks"], "lemmas_failed": [n.split(".")[-1] if "@" not in n else n for n in failed],
           "theorems_failed": [d.split(".")[-1] for d in dep], "theorems_tightened": spec.get("tightened", []),
           "caught": any(b in d for d in dep for b in spec["breaks"].replace(",", " ").split()) or (spec["breaks"] == "auto" and bool(dep))}
    if not errs and r.returncode: rec["note"] = "build: " + o[-300:]
    if spec.get("note"): rec["note"] = spec["note"]
    print(json.dumps(rec, ensure_ascii=False)[:1500], flush=True)
    if not spec.get("dry"):
        open("/verif/seeded/LOG.jsonl", "a").write(json.dumps(rec, ensure_ascii=False) + "\n")
for s in json.load(open(sys.argv[1])): run(s)
