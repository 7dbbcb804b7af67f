#!/usr/bin/env python3
"""Writes MANIFEST.json; checks that every theorem named exists under lean/Verif."""
import json, re, glob, os
root = os.path.dirname(os.path.dirname(os.path.abspath(__file__)))
C = []
def c(prop, status, theorems, note=""):
    C.append(dict(property=prop, status=status, theorems=theorems.split(), note=note))
exec(open(os.path.join(root, "tools", "claims.py")).read())
names = set()
for f in glob.glob(root + "/lean/Verif/**/*.lean", recursive=True):
    ns = []
    for line in open(f):
        m = re.match(r"namespace (\S+)", line)
        if m: ns.append(m.group(1))
        m = re.match(r"end (\S+)", line)
        if m and ns and ns[-1] == m.group(1): ns.pop()
        m = re.match(r"(?:private )?(?:protected )?theorem (\S+)", line)
        if m: names.add(".".join(ns + [m.group(1)]))
for x in C:
    for t in x["theorems"]:
        assert t in names, t
    if not x["theorems"]: assert x["status"] == "not_applicable"
ids = [json.loads(l)["id"] for l in open(root + "/properties.jsonl")]
print("not covered:", [i for i in ids if i not in [x["property"] for x in C]])
json.dump({"claims": C}, open(root + "/MANIFEST.json", "w"), indent=1)
