#!/usr/bin/env python3
"""Regenerates the per-property table of DESIGN.md (between the markers) from properties.jsonl and MANIFEST.json,
and AXIOMS.md from the output of `#print axioms` (give the file as the first argument)."""
import json, os, re, sys
here = os.path.dirname(os.path.dirname(os.path.abspath(__file__)))
from design_methods import METHODS
props = [json.loads(l) for l in open(f"{here}/properties.jsonl")]
man = {c["property"]: c for c in json.load(open(f"{here}/MANIFEST.json"))["claims"]}
rows = ["| id | property | model | how it is proved | status | theorems (namespace `Hyperreal.Props`) |", "|---|---|---|---|---|---|"]
for p in props:
    c = man[p["id"]]
    model, how = METHODS[p["id"]]
    ths = ", ".join(f"`{t.replace('Hyperreal.Props.', '')}`" for t in c["theorems"])
    status = c["status"] + (f" — {c['note']}" if c["note"] else "")
    rows.append(f"| {p['id']} | {p['title']} | {model} | {how} | {status} | {ths} |")
d = open(f"{here}/DESIGN.md").read()
d = re.sub(r"(<!-- table -->\n).*(<!-- /table -->)", lambda m: m.group(1) + "\n".join(rows) + "\n" + m.group(2), d, flags=re.S)
open(f"{here}/DESIGN.md", "w").write(d)
if len(sys.argv) > 1:
    out = ["# Axioms of every theorem named in MANIFEST.json", "",
           "Output of `#print axioms`, one line per theorem. No theorem depends on any other axiom.", ""]
    for l in open(sys.argv[1]):
        l = l.strip()
        if l: out.append("* `" + l.split(" ")[0] + "` " + " ".join(l.split(" ")[1:]))
    open(f"{here}/AXIOMS.md", "w").write("\n".join(out) + "\n")
