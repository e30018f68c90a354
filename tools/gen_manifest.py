#!/usr/bin/env python3
"""Writes ../MANIFEST.json from the theorem names in lean/Verif/Props (prefix Cnn_) and the notes below,
and ../lean/Verif.lean from the files present.  Edit the tables here, then run."""
import json, os, re, glob
root = os.path.join(os.path.dirname(os.path.abspath(__file__)), "..")
ids = [json.loads(l)["id"] for l in open(os.path.join(root, "properties.jsonl"))]
thms = {}
for f in sorted(glob.glob(os.path.join(root, "lean/Verif/Props/*.lean"))):
    ns = []
    for line in open(f):
        m = re.match(r"namespace (\S+)", line)
        if m: ns.append(m.group(1))
        m = re.match(r"end (\S+)", line)
        if m and ns and ns[-1] == m.group(1): ns.pop()
        m = re.match(r"(?:private )?theorem (C\d\d\d?_\S+)", line)
        if m: thms.setdefault(m.group(1).split("_")[0], []).append(".".join(ns + [m.group(1)]))
notes = json.load(open(os.path.join(root, "tools/notes.json")))
claims = []
for i in ids:
    n = notes.get(i, {})
    if i in thms:
        claims.append(dict(property=i, status=n.get("status", "proved"), theorems=thms[i], note=n.get("note", "")))
    else:
        claims.append(dict(property=i, status="not_applicable" if n.get("status") == "not_applicable" else "partial", theorems=[],
                           note=n.get("note", "not yet proved; model in progress")))
json.dump(dict(claims=claims), open(os.path.join(root, "MANIFEST.json"), "w"), indent=1, ensure_ascii=False)
ax = "".join(f"import Verif.Props." + os.path.basename(f)[:-5] + "\n" for f in sorted(glob.glob(os.path.join(root, "lean/Verif/Props/*.lean"))))
ax += "\n/-!\n# Axioms of every property theorem (generated by tools/gen_manifest.py)\n-/\n\n"
ax += "".join(f"#print axioms {t}\n" for i in ids for t in thms.get(i, []))
open(os.path.join(root, "lean/Verif/Axioms.lean"), "w").write(ax)
mods = []
for d in ["Model", "Spec", "Lemmas", "Props"]:
    mods += sorted(f"Verif.{d}." + os.path.basename(f)[:-5] for f in glob.glob(os.path.join(root, f"lean/Verif/{d}/*.lean")))
mods.append("Verif.Axioms")
open(os.path.join(root, "lean/Verif.lean"), "w").write("".join(f"import {m}\n" for m in mods))
print(len(claims), sum(map(len, thms.values())))
