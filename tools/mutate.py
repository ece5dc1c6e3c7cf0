#!/usr/bin/env python3
"""Make small wrong programs out of the model's definitions, one or more per definition, and record whether some theorem fails.

usage: mutate.py SCRATCH_DIR SEED [PER_DEFINITION [FILE ...]]

The scratch copy has to be built already (SCRATCH_DIR/.lake/build); its build output is restored after every mutant.  A mutant
that Lean rejects inside of the mutated module is dropped.  The build is stopped at the first failing module.  One line per mutant
is appended to seeded/LOG.jsonl, with the definition's comment as the claim.
"""
import json, os, random, re, shutil, signal, subprocess, sys, time

root = os.path.dirname(os.path.dirname(os.path.abspath(__file__)))
scratch, seed = sys.argv[1], int(sys.argv[2])
per = int(sys.argv[3]) if len(sys.argv) > 3 else 1
files = sys.argv[4:] or sorted(os.listdir(f"{scratch}/Verif/Model"))
log = f"{root}/seeded/LOG.jsonl"
rnd = random.Random(seed)
decl = re.compile(r"^(?:@\[[^\]]*\]\s*)?(?:private |protected |noncomputable )*(theorem|lemma|def|example|structure|inductive|instance|abbrev)\s*([^\s:({\[]*)")


def owner(path, line):
    lines = open(path).read().split("\n")
    for i in range(min(line, len(lines)) - 1, -1, -1):
        m = decl.match(lines[i])
        if m:
            return m.group(2) or f"example (line {i + 1})"
    return "?"


def logged():
    out = []
    for l in open(log):
        if l.strip():
            out.append(json.loads(l))
    return out


OPS = [
    (r"\bif (?![^\n]*\bis\b)((?:(?!\bthen\b|\blet\b|:)[^\n])+?) then\b", lambda m: f"if ¬({m.group(1)}) then"),
    (r'"([^"\n\\]+)"ₛ', lambda m: '"' + m.group(1)[:-1] + ("Z" if m.group(1)[-1] != "Z" else "Y") + '"ₛ'),
    (r'"([^"\n\\]+)"ₛ', lambda m: '""ₛ'),
    (r"&&", lambda m: "||"),
    (r"\|\|", lambda m: "&&"),
    (r" ∧ ", lambda m: " ∨ "),
    (r" ∨ ", lambda m: " ∧ "),
    (r"\btrue\b", lambda m: "false"),
    (r"\bfalse\b", lambda m: "true"),
    (r"!(?=[\w(])", lambda m: ""),
    (r" ≠ ", lambda m: " = "),
    (r" < ", lambda m: " ≤ "),
    (r" ≤ ", lambda m: " < "),
    (r"(?<![\w.])(\d+)(?![\w.])", lambda m: str(int(m.group(1)) + 1)),
    (r" \+ ", lambda m: " - "),
    (r"\.reverse\b", lambda m: ""),
    (r"\.filter [^\n|]*?(?=\)|\n|\.)", lambda m: ""),
    (r"(\w[\w.]*) \+\+ (\w[\w.]*)", lambda m: f"{m.group(2)} ++ {m.group(1)}"),
    (r" \+\+ \w[\w.]*(?=[\s)])", lambda m: ""),
    (r"\[([^\[\],\n]+), ([^\[\],\n]+)(?=[,\]])", lambda m: f"[{m.group(2)}, {m.group(1)}"),
    (r", ([^\[\](),\n]+)\]", lambda m: "]"),
    (r":= (\w+\.)(name|description|columns|reference|unique|notNull|primaryKeySet|uniqueSet|group|target|comment)\b", lambda m: ":= default"),
    (r"\.onUpdate\b", lambda m: ".defaultValue"),
    (r"\.name\b", lambda m: ".description"),
    (r"\.description\b", lambda m: ".name"),
    (r"\bsome (\w+)\b(?! =>)", lambda m: "none"),
]


def definitions(src):
    """(name, start, end, comment) of every def."""
    out = []
    for m in re.finditer(r"^(?:def|partial def) (\S+)", src, re.M):
        end = re.search(r"\n\n|\n(?=/--|def |theorem |structure |inductive |end )", src[m.end():])
        e = m.end() + (end.start() if end else len(src) - m.end())
        before = src[:m.start()]
        doc = ""
        k = before.rfind("/--")
        if k >= 0 and before[k:].strip().endswith("-/"):
            doc = re.sub(r"\s+", " ", before[k + 3:].strip()[:-2]).strip()
        out.append((m.group(1), m.start(), e, doc))
    return out


def candidates(src, start, end):
    text = src[start:end]
    # skip the type: mutate after the first `:=` or newline-bar
    k = re.search(r":=|\n *\|", text)
    off = k.end() if k else 0
    out = []
    for pat, f in OPS:
        for m in re.finditer(pat, text[off:]):
            new = f(m)
            if new != m.group(0):
                out.append((start + off + m.start(), start + off + m.end(), new))
    return out


done = logged()
count = {}
seen = set()
for d in done:
    count[(d["file"], d["definition"])] = count.get((d["file"], d["definition"]), 0) + 1
    seen.add((d["file"], d["edit"]))
pristine = f"{scratch}.build"
if not os.path.exists(pristine):
    shutil.copytree(f"{scratch}/.lake/build", pristine, symlinks=True)


def restore():
    subprocess.run(["rsync", "-a", "--delete", pristine + "/", f"{scratch}/.lake/build/"], check=True) if shutil.which("rsync") else sync()


def sync():
    """Restore the files that differ in size or time."""
    for base, _, names in os.walk(pristine):
        rel = os.path.relpath(base, pristine)
        dst = f"{scratch}/.lake/build/{rel}"
        os.makedirs(dst, exist_ok=True)
        keep = set(names)
        for n in os.listdir(dst):
            if n not in keep and os.path.isfile(f"{dst}/{n}"):
                os.remove(f"{dst}/{n}")
        for n in names:
            a, b = f"{base}/{n}", f"{dst}/{n}"
            sa = os.stat(a)
            if os.path.exists(b):
                sb = os.stat(b)
                if sa.st_size == sb.st_size and int(sa.st_mtime) == int(sb.st_mtime):
                    continue
            shutil.copy2(a, b)


work = []
for f in files:
    rel = f"Verif/Model/{f}"
    src = open(f"{scratch}/{rel}").read()
    for name, s, e, doc in definitions(src):
        for k in range(max(0, per - count.get((rel, name), 0))):
            work.append((rel, name, doc))
rnd.shuffle(work)
print(len(work), "mutants planned", flush=True)
for rel, name, doc in work:
    path = f"{scratch}/{rel}"
    src = open(path).read()
    s, e = [(s, e) for n, s, e, _ in definitions(src) if n == name][0]
    cands = candidates(src, s, e)
    rnd.shuffle(cands)
    for a, b, new in cands[:8]:
        ls = src.rfind("\n", 0, a) + 1
        le = src.find("\n", b)
        le = len(src) if le < 0 else le
        mutated = src[:a] + new + src[b:]
        edit = f"{src[ls:le].strip()}  ==>  {(src[ls:a] + new + src[b:le]).strip()}"
        if (rel, edit) in seen:
            continue
        open(path, "w").write(mutated)
        t0 = time.time()
        try:
            r = subprocess.run(["lake", "env", "lean", rel], cwd=scratch, capture_output=True, text=True, timeout=300)
            if r.returncode:
                continue
            p = subprocess.Popen(["lake", "build"], cwd=scratch, stdout=subprocess.PIPE, stderr=subprocess.STDOUT, text=True, start_new_session=True)
            failed, modules, hit = [], [], False
            for line in p.stdout:
                m = re.match(r"^error: (Verif/[\w/]+\.lean):(\d+):\d+", line)
                if m:
                    hit = True
                    if m.group(1) not in modules:
                        modules.append(m.group(1))
                    n = owner(f"{scratch}/{m.group(1)}", int(m.group(2)))
                    if n not in failed:
                        failed.append(n)
                elif hit and re.match(r"^error: Lean exited|^✔|^✖|^Some required|^⚠", line):
                    break
            if hit and p.poll() is None:
                os.killpg(p.pid, signal.SIGKILL)
            rc = p.wait()
            if rc != 0 and not hit:  # the build was killed
                continue
            detected = hit
        finally:
            open(path, "w").write(src)
            restore()
        seen.add((rel, edit))
        entry = {"file": rel, "definition": name, "edit": edit, "claim": doc[:200], "detected": detected, "failed": failed[:20],
                 "modules": modules, "tightened": []}
        open(log, "a").write(json.dumps(entry, ensure_ascii=False) + "\n")
        print("CAUGHT" if detected else "SURVIVED", rel, name, "|", edit[:200], "|", failed[:4], int(time.time() - t0), flush=True)
        break
