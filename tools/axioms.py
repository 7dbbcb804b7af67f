#!/usr/bin/env python3
"""Writes AXIOMS.md: the axioms each theorem of MANIFEST.json depends on, as printed by Lean (`#print axioms`)."""
import json, re, subprocess, collections
m = json.load(open("/verif/MANIFEST.json"))
names = []
for c in m["claims"]:
    for t in c["theorems"]:
        if t not in names: names.append(t)
src = "import Verif\n" + "".join(f"#print axioms {n}\n" for n in names)
open("/tmp/axioms_check.lean", "w").write(src)
out = subprocess.run(["lake", "env", "lean", "/tmp/axioms_check.lean"], cwd="/verif/lean", capture_output=True, text=True).stdout
out = re.sub(r"\n\s+", " ", out)
dep = {}
for l in out.splitlines():
    a = re.match(r"'(.*)' depends on axioms: \[(.*)\]", l)
    b = re.match(r"'(.*)' does not depend on any axioms", l)
    if a: dep[a.group(1)] = a.group(2)
    elif b: dep[b.group(1)] = "none"
missing = [n for n in names if n not in dep]
allowed = {"propext", "Classical.choice", "Quot.sound"}
bad = {n: d for n, d in dep.items() if d != "none" and not set(d.split(", ")) <= allowed}
with open("/verif/AXIOMS.md", "w") as f:
    f.write("# Axioms of each theorem named in MANIFEST.json\n\nGenerated by `tools/axioms.py` from `#print axioms`. "
            "`std` is Lean's three standard axioms: propext, Classical.choice, Quot.sound.\n\n")
    for c in m["claims"]:
        for t in c["theorems"]:
            d = dep.get(t, "?")
            if set(d.split(", ")) == allowed: d = "std"
            f.write(f"* {c['property']} `{t}`: {d}\n")
print(len(names), "theorems; missing", missing, "other axioms", bad, collections.Counter(dep.values()))
