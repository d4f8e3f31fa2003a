#!/usr/bin/env python3
"""Writes MANIFEST.json and lean/Verif.lean from the sources.

A claim is M(property, status, note); its theorems are all theorems of Verif/Props whose
name starts with the property id, so the list is always complete and exact."""
import json, os, re, glob
root = os.path.join(os.path.dirname(os.path.abspath(__file__)), "..")
lean = os.path.join(root, "lean")
thms = {}
for f in sorted(glob.glob(lean + "/Verif/Props/*.lean")):
    ns = []
    for line in open(f):
        m = re.match(r"namespace\s+(\S+)", line)
        if m: ns.append(m.group(1))
        m = re.match(r"end\s+(\S+)", line)
        if m and ns and ns[-1] == m.group(1): ns.pop()
        m = re.match(r"theorem\s+(C\d\d\d?)_?(\S*)", line)
        if m:
            name = m.group(1) + ("_" + m.group(2) if m.group(2) else "")
            thms.setdefault(m.group(1), []).append(".".join(ns + [name]))
claims = []
def M(prop, status, note=""):
    t = thms.get(prop, [])
    assert t or status == "not_applicable", prop
    claims.append(dict(property=prop, status=status, theorems=t, note=note))
exec(open(os.path.join(root, "tools", "claims.py")).read())
claims.sort(key=lambda c: int(c["property"][1:]))
missing = sorted(set(thms) - {c["property"] for c in claims})
assert not missing, missing
with open(os.path.join(root, "MANIFEST.json"), "w") as f:
    json.dump(dict(claims=claims), f, indent=1); f.write("\n")
mods = sorted(os.path.relpath(f, lean)[:-5].replace("/", ".")
              for f in glob.glob(lean + "/Verif/**/*.lean", recursive=True))
with open(lean + "/Verif.lean", "w") as f:
    f.write("".join("import %s\n" % m for m in mods))
print(len(claims), "claims,", sum(len(v) for v in thms.values()), "theorems,", len(mods), "modules")
