#!/usr/bin/env python3
"""Add a discrepancy to DESIGN.md section 5: defect.py 'C11' 'text'."""
import sys, textwrap
p = __file__.rsplit("/", 2)[0] + "/DESIGN.md"
s = open(p).read()
item = textwrap.fill(f"* **{sys.argv[1]}** {sys.argv[2]}", 118, subsequent_indent="  ", break_long_words=False, break_on_hyphens=False)
i = s.index("\n## 6. Axioms")
s = s[:i].rstrip("\n") + "\n" + item + "\n" + s[i:]
open(p, "w").write(s)
