#!/usr/bin/env python3
"""Writes MANIFEST.json from the table below, checking theorem names exist in the sources."""
import json, os, re, glob
here = os.path.dirname(os.path.abspath(__file__))
C = []
def c(prop, status, theorems, note=""):
    C.append(dict(property=prop, status=status, theorems=theorems, note=note))
exec(open(os.path.join(here, "claims.py")).read())
names = set()
for f in glob.glob(os.path.join(here, "../lean/Verif/**/*.lean"), recursive=True):
    for m in re.finditer(r"^(?:protected |private )?theorem\s+([^\s:({\[]+)", open(f).read(), re.M):
        names.add(m.group(1))
bad = [t for x in C for t in x["theorems"] if t.removeprefix("Babel.") not in names]
if bad:
    print("UNKNOWN THEOREMS", bad)
listed = {t.removeprefix("Babel.") for x in C for t in x["theorems"]}
unl = sorted(n for n in names if re.match(r"C\d\d", n) and n not in listed)
if unl:
    print("UNLISTED", unl)
json.dump({"claims": C}, open(os.path.join(here, "../MANIFEST.json"), "w"), indent=1)
print(len(C), "claims", len(listed), "theorems")
