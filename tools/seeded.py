#!/usr/bin/env python3
"""Seed wrong definitions into a scratch copy of the Lean project and record which theorems fail.

usage: seeded.py MUTANTS.json SCRATCH_DIR

Every mutant is {"file", "old", "new", "claim"[, "definition"]}; `old` has to occur exactly once in
the file (or "nth" selects an occurrence).  One line per mutant is appended to seeded/LOG.jsonl.
The modules that state theorems of the claim are built first; only if they build, everything is.
A module that fails keeps everything importing it from being built, so `failed` lists the theorems
with errors in the modules that were reached.  A build that fails without an error in a theorem (Lean was
killed for memory, for example) is printed as UNCLEAR and not logged.
"""
import json, os, re, shutil, subprocess, sys

root = os.path.dirname(os.path.dirname(os.path.abspath(__file__)))
muts = json.load(open(sys.argv[1]))
scratch = sys.argv[2]
log = f"{root}/seeded/LOG.jsonl"
done = set()
if os.path.exists(log):
    for l in open(log):
        if l.strip():
            d = json.loads(l)
            done.add((d["file"], d["edit"], bool(d["tightened"])))
if not os.path.exists(scratch):
    shutil.copytree(f"{root}/lean", scratch, symlinks=True)
decl = re.compile(r"^(?:@\[[^\]]*\]\s*)?(?:private |protected |noncomputable )*(theorem|lemma|def|example|structure|inductive|instance|abbrev)\s*([^\s:({\[]*)")


def owner(path, line):
    lines = open(path).read().split("\n")
    for i in range(min(line, len(lines)) - 1, -1, -1):
        m = decl.match(lines[i])
        if m:
            return m.group(2) or f"example (line {i + 1})"
    return "?"


def stating(claims):
    mods = []
    for f in sorted(os.listdir(f"{scratch}/Verif/Props")):
        if f.endswith(".lean") and any(re.search(rf"^theorem {c}_", open(f"{scratch}/Verif/Props/{f}").read(), re.M) for c in claims):
            mods.append(f"Verif.Props.{f[:-5]}")
    return mods


for m in muts:
    path = f"{scratch}/{m['file']}"
    src = open(path).read()
    edit = f"{m['old']}  ==>  {m['new']}"
    if (m["file"], edit, bool(m.get("tightened"))) in done:
        continue
    n = src.count(m["old"])
    if n == 0 or (n > 1 and "nth" not in m):
        print("SKIP", n, m["file"], m["old"][:60])
        continue
    if "nth" in m:
        pos = -1
        for _ in range(m["nth"]):
            pos = src.index(m["old"], pos + 1)
    else:
        pos = src.index(m["old"])
    definition = m.get("definition")
    if not definition:
        definition = owner(path, src[:pos].count("\n") + 1)
    open(path, "w").write(src[:pos] + m["new"] + src[pos + len(m["old"]):])
    try:
        targets = stating(re.findall(r"C\d+", m["claim"]))
        r = None
        if targets:
            r = subprocess.run(["lake", "build"] + targets, cwd=scratch, capture_output=True, text=True, timeout=20000)
        if r is None or r.returncode == 0:
            r = subprocess.run(["lake", "build"], cwd=scratch, capture_output=True, text=True, timeout=20000)
        out = r.stdout + r.stderr
        failed, modules = [], []
        for e in re.finditer(r"^error: (Verif/[\w/]+\.lean):(\d+):\d+", out, re.M):
            name = owner(f"{scratch}/{e.group(1)}", int(e.group(2)))
            if e.group(1) not in modules:
                modules.append(e.group(1))
            if name not in failed:
                failed.append(name)
    finally:
        open(path, "w").write(src)
    if r.returncode and not failed:
        # Lean was killed, or lake failed for another reason: this says nothing about the theorems
        print("UNCLEAR", m["claim"], definition, out[-300:].replace("\n", " | "), flush=True)
        continue
    entry = {"file": m["file"], "definition": definition, "edit": edit, "claim": m["claim"],
             "detected": r.returncode != 0, "failed": failed[:20], "modules": modules, "tightened": m.get("tightened", [])}
    open(log, "a").write(json.dumps(entry, ensure_ascii=False) + "\n")
    print("CAUGHT" if r.returncode else "SURVIVED", m["claim"], definition, failed[:6], flush=True)
