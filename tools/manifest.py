#!/usr/bin/env python3
"""Regenerates MANIFEST.json and lean/Verif.lean from the theorem names in lean/Verif/Props."""
import glob, json, os, re
root = os.path.dirname(os.path.dirname(os.path.abspath(__file__)))
ids = [json.loads(l)["id"] for l in open(f"{root}/properties.jsonl") if l.strip()]
notes = json.load(open(f"{root}/tools/notes.json"))
th = {i: [] for i in ids}
for f in sorted(glob.glob(f"{root}/lean/Verif/Props/*.lean")):
    ns = []
    for line in open(f):
        m = re.match(r"namespace (\S+)", line)
        if m: ns.append(m[1])
        m = re.match(r"end (\S+)", line)
        if m and ns and ns[-1] == m[1]: ns.pop()
        m = re.match(r"(?:private )?theorem ((C\d\d+)_\S+)", line)
        if m and m[2] in th: th[m[2]].append(".".join(ns + [m[1]]))
claims = []
for i in ids:
    st, note = notes.get(i, ["partial", "not yet modelled"])
    if not th[i] and st == "proved": st = "partial"
    claims.append({"property": i, "status": st, "theorems": th[i], "note": note})
json.dump({"claims": claims}, open(f"{root}/MANIFEST.json", "w"), indent=1)
mods = sorted(os.path.relpath(p, f"{root}/lean")[:-5].replace("/", ".")
              for p in glob.glob(f"{root}/lean/Verif/**/*.lean", recursive=True))
open(f"{root}/lean/Verif.lean", "w").write("".join(f"import {m}\n" for m in mods))
for i in ids: print(i, notes.get(i, ["-"])[0], len(th[i]))
