#!/usr/bin/env python3
"""Set the status and note of properties: setstatus.py C17 partial 'note' [C18 proved '' ...]."""
import sys, json
p = __file__.rsplit("/", 1)[0] + "/status.json"
d = json.load(open(p))
a = sys.argv[1:]
for i in range(0, len(a), 3):
    assert a[i + 1] in ("proved", "partial", "not_applicable")
    d[a[i]] = [a[i + 1], a[i + 2]]
json.dump(d, open(p, "w"), indent=1, ensure_ascii=False)
