#!/usr/bin/env python3
"""Rewrites the last section of DESIGN.md: the axioms each claimed theorem depends on."""
import json, re, subprocess, os

ROOT = os.path.dirname(os.path.dirname(os.path.abspath(__file__)))
names = [t for c in json.load(open(os.path.join(ROOT, "MANIFEST.json")))["claims"] for t in c["theorems"]]
src = "import Verif\n" + "".join(f"#print axioms {n}\n" for n in names)
out = subprocess.run(["lake", "env", "lean", "--stdin"], input=src, capture_output=True, text=True,
                     cwd=os.path.join(ROOT, "lean")).stdout
groups = {}
for m in re.finditer(r"'([^']+)' (does not depend on any axioms|depends on axioms: \[([^\]]*)\])", out):
    ax = tuple(x.strip() for x in (m.group(3) or "").split(",") if x.strip())
    groups.setdefault(ax, []).append(m.group(1).removeprefix("Verif."))
assert sum(map(len, groups.values())) == len(names), out
text = "## Axioms of the claimed theorems\n\nWritten by `tools/gen_axioms.py` from `#print axioms`.\n"
for ax, ns in sorted(groups.items(), key=lambda g: (len(g[0]), g[0])):
    text += "\n* " + (", ".join(f"`{a}`" for a in ax) or "no axioms") + ": " + ", ".join(sorted(ns)) + ".\n"
path = os.path.join(ROOT, "DESIGN.md")
s = open(path).read()
i = s.find("## Axioms of the claimed theorems")
open(path, "w").write((s if i < 0 else s[:i]).rstrip() + "\n\n" + text)
