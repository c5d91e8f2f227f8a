#!/usr/bin/env python3
"""Mutation tests of the theorems.

usage: mutate.py MUTANTS.json   (in a scratch copy /tmp/scratch/lean of /verif/lean, already built)

Each mutant is {"file", "def", "old", "new", "edit", "claim", "breaks": ["C01"]}.  The edit is applied to the scratch copy, the modules with
the theorems of the properties it breaks are rebuilt (everything, with the environment variable ALL), the theorems with errors and the
property theorems depending on them are found, and one line is appended to /verif/seeded/LOG.jsonl.
"""
import json, os, re, subprocess, sys

SCR = "/tmp/scratch/lean"
LOG = "/verif/seeded/LOG.jsonl"
DEPS = r'''
import Verif
import Lean
open Lean
partial def depClosure (env : Environment) (n : Name) (seen : NameSet) : NameSet := Id.run do
  if seen.contains n || !(`Verif).isPrefixOf n then return seen
  let mut s := seen.insert n
  match env.find? n with
  | none => return s
  | some c =>
    for m in c.getUsedConstantsAsSet.toList do
      s := depClosure env m s
    return s
run_cmd do
  let env ← getEnv
  for (n, c) in env.constants.map₁.toList do
    if (`Verif.Props).isPrefixOf n && !n.isInternal then
      if let .thmInfo _ := c then
        let s := depClosure env n {}
        IO.println (s!"{n} " ++ " ".intercalate (s.toList.map toString))
'''

def sh(cmd, **k):
    return subprocess.run(cmd, shell=True, cwd=SCR, capture_output=True, text=True, **k)

def deps():
    open("/tmp/deps_gen.txt.lean", "w").write(DEPS)
    r = sh("lake env lean /tmp/deps_gen.txt.lean")
    d = {}
    for l in r.stdout.splitlines():
        w = l.split()
        if w and w[0].startswith("Verif.Props.C"):
            d[w[0].split(".")[-1]] = set(x.split(".")[-1] for x in w[1:])
    return d

def enclosing(path, line):
    ls = open(os.path.join(SCR, path)).read().split("\n")
    for i in range(min(line, len(ls)) - 1, -1, -1):
        m = re.match(r"(?:private |protected |noncomputable )*(theorem|lemma|def|structure|instance|example|abbrev)\b\s*(\S*)", ls[i])
        if m:
            return m.group(1), (m.group(2).split(".")[-1] if m.group(1) != "example" else f"example@{os.path.basename(path)}:{i+1}")
    return "?", "?"

TOP = re.compile(r"(/--|/-!|@\[|(private |protected |noncomputable )*(theorem|lemma|def|structure|instance|example|abbrev|inductive)\b|section|end\b|namespace|open |variable|set_option|omit|universe|macro|local )")

def strip_proof(path, line, saved):
    """replace the proof of the declaration around `line` by sorry (scratch copy only), so that later files are built too"""
    full = os.path.join(SCR, path)
    src = open(full).read()
    saved.setdefault(full, src)
    ls = src.split("\n")
    i = min(line, len(ls)) - 1
    while i >= 0 and not re.match(r"(?:private |protected |noncomputable )*(theorem|lemma|example)\b", ls[i]):
        i -= 1
    if i < 0: return
    j = i + 1
    while j < len(ls) and not TOP.match(ls[j]):
        j += 1
    blk = "\n".join(ls[i:j])
    depth, k = 0, 0
    while k < len(blk):
        c = blk[k]
        if c in "([{⟨": depth += 1
        elif c in ")]}⟩": depth -= 1
        elif depth == 0 and blk.startswith(":=", k): break
        k += 1
    open(full, "w").write("\n".join(ls[:i] + [blk[:k] + ":= sorry", ""] + ls[j:]))

def modules(breaks):
    """the modules with theorems of these properties"""
    if os.environ.get("ALL"): return ""
    d = os.path.join(SCR, "Verif/Props")
    ms = [f[:-5] for f in sorted(os.listdir(d)) if f.endswith(".lean")
          and any(re.search(r"^theorem %s_" % b, open(os.path.join(d, f)).read(), re.M) for b in breaks)]
    return " ".join("Verif.Props." + m for m in ms)

def main():
    muts = json.load(open(sys.argv[1]))
    D = deps()
    assert D, "no dependency table"
    for m in muts:
        p = os.path.join(SCR, m["file"])
        src = open(p).read()
        n = src.count(m["old"])
        if n != m.get("count", 1):
            print("SKIP", m["def"], "matches", n, flush=True); continue
        open(p, "w").write(src.replace(m["old"], m["new"]))
        try:
            build = f"lake build {modules(m['breaks'])} 2>&1"
            r = sh(build, timeout=3000)
            out = r.stdout
            errs = set(re.findall(r"error: (Verif/\S+?\.lean):(\d+):\d+", out))
            thms, defs = set(), set()
            for f, l in errs:
                k, nm = enclosing(f, int(l))
                if f == m["file"] or f.startswith("Verif/Model") or k in ("def", "structure", "instance", "abbrev") and "/Model/" in f:
                    defs.add(nm)
                else:
                    thms.add(nm)
            saved = {}
            for _ in range(5):
                fp = [t for t, s in D.items() if t in thms or s & thms]
                if not errs or all(any(t.split("_")[0] == b for t in fp) for b in m["breaks"]): break
                for f, l in sorted(errs, key=lambda e: -int(e[1])):
                    if "/Model/" not in f: strip_proof(f, int(l), saved)
                out = sh(build, timeout=3000).stdout
                errs = set(re.findall(r"error: (Verif/\S+?\.lean):(\d+):\d+", out))
                for f, l in errs:
                    k, nm = enclosing(f, int(l))
                    if "/Model/" not in f: thms.add(nm)
            for full, old in saved.items(): open(full, "w").write(old)
            failed_props = sorted(t for t, s in D.items() if t in thms or s & thms)
            if defs and not thms:
                print("INVALID", m["def"], m["edit"], defs, flush=True); continue
            hit = sorted({t for t in failed_props if t.split("_")[0] in m["breaks"]})
            rec = {"definition": f'{m["file"]}: {m["def"]}', "edit": m["edit"], "claim_broken": m["claim"], "breaks": m["breaks"],
                   "theorems_failed": sorted(thms), "property_theorems_failed": hit, "other_property_theorems_failed": len(failed_props) - len(hit),
                   "theorems_tightened": m.get("tightened", [])}
            missing = [b for b in m["breaks"] if not any(t.split("_")[0] == b for t in hit)]
            rec["verdict"] = "caught" if not missing else ("survived" if not thms else "not caught for " + ",".join(missing))
            with open(LOG, "a") as f:
                f.write(json.dumps(rec) + "\n")
            print(rec["verdict"], m["def"], "|", m["edit"], "|", sorted(thms)[:6], hit[:6], flush=True)
        finally:
            open(p, "w").write(src)
    r = sh("lake build 2>&1 | tail -1")
    print("restored:", r.stdout.strip())

main()
