#!/usr/bin/env python3
"""Writes AXIOMS.md: the axioms every theorem named in MANIFEST.json depends on, as reported by Lean."""
import json, os, re, subprocess, tempfile

root = os.path.dirname(os.path.dirname(os.path.abspath(__file__)))
claims = json.load(open(os.path.join(root, "MANIFEST.json")))["claims"]
names = [t for c in claims for t in c["theorems"]]
full = {}
for d, _, files in os.walk(os.path.join(root, "lean", "Verif")):
    for f in files:
        text = open(os.path.join(d, f)).read()
        ns = re.findall(r"^namespace (\S+)", text, re.M)
        for t in re.findall(r"^theorem (C\d\d_\w+)", text, re.M):
            full[t] = ns[0] + "." + t if ns else t
src = "import Verif\n" + "".join(f"#print axioms {full.get(t, t)}\n" for t in names)
with tempfile.TemporaryDirectory() as tmp:
    p = os.path.join(tmp, "Axioms.lean")
    open(p, "w").write(src)
    out = subprocess.run(["lake", "env", "lean", p], cwd=os.path.join(root, "lean"), capture_output=True, text=True).stdout
out = re.sub(r"\s+", " ", out)
found = {}
for m in re.finditer(r"'(\S+?)' (does not depend on any axioms|depends on axioms: \[([^\]]*)\])", out):
    found[m.group(1).split(".")[-1]] = m.group(3) or "none"
with open(os.path.join(root, "AXIOMS.md"), "w") as f:
    f.write("# Axioms of every theorem in MANIFEST.json\n\nMade by `tools/gen_axioms.py` from `#print axioms`.\n\n"
            "| property | theorem | axioms |\n|---|---|---|\n")
    for c in claims:
        for t in c["theorems"]:
            f.write(f"| {c['property']} | `{t}` | {found.get(t.split('.')[-1], 'MISSING')} |\n")
print(len(names), "theorems;", sorted(set(found.values())), "missing:", [t for t in names if t.split(".")[-1] not in found])
