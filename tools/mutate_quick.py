#!/usr/bin/env python3
"""Seeded-bug test of the theorems, quick version: one build per mutant.

usage: mutate_quick.py muts.json deps.txt
Like mutate.py, but the scratch copy is built once and not repaired. The theorems whose proofs fail are
recorded as lemmas_failed; theorems_failed are the property theorems that depend on one of them, according
to deps.txt (one line `property: lemmas it depends on` per property theorem, taken from the unedited
environment). Modules behind a failed module are not built, so further theorems may fail as well; with MUT_FAST set,
the build is stopped shortly after the first failure on which a property theorem depends."""
import glob, json, os, re, shutil, signal, subprocess, sys, threading, time
SRC = os.environ.get("MUT_SRC", "/verif/lean")
DST = os.environ.get("MUT_DIR", "/tmp/mut/quick")
DECL = re.compile(r"^(?:@\[[^\]]*\]\s*)?(?:private\s+|protected\s+|noncomputable\s+)*(theorem|example|def|abbrev|instance|structure)\b\s*([\w.'?!₀-₉]*)")
deps = {}
for l in open(sys.argv[2]):
    p, _, r = l.strip().partition(": ")
    for x in r.split() + [p]: deps.setdefault(x, set()).add(p)

def decl_at(path, line):
    L = open(path).read().split("\n")
    i = min(line, len(L)) - 1
    while i > 0 and not DECL.match(L[i]): i -= 1
    m = DECL.match(L[i])
    ns = []
    for x in L[:i]:
        a = re.match(r"^namespace (\S+)", x); b = re.match(r"^end (\S+)", x)
        if a: ns.append(a.group(1))
        elif b and ns and ns[-1] == b.group(1): ns.pop()
    if not m: return ("?", "?")
    if m.group(1) == "example": return ("example", f"example@{os.path.basename(path)}:{i+1}")
    return (m.group(1), ".".join(ns + [m.group(2)]))

def build():
    p = subprocess.Popen(["lake", "build"], cwd=DST, stdout=subprocess.PIPE, stderr=subprocess.STDOUT, text=True, start_new_session=True)
    out, stopped = [], []
    def stop():
        stopped.append(1)
        os.killpg(p.pid, signal.SIGKILL)
    timer = None
    for l in p.stdout:
        out.append(l)
        m = re.match(r"^error: (Verif/\S+\.lean):(\d+):\d+: ", l)
        if m and timer is None and os.environ.get("MUT_FAST") and deps.get(decl_at(f"{DST}/{m.group(1)}", int(m.group(2)))[1]):
            timer = threading.Timer(15, stop); timer.start()
    p.wait()
    if timer: timer.cancel()
    return "".join(out), p.returncode

def run(m):
    if os.path.exists(DST): shutil.rmtree(DST)
    subprocess.run(["cp", "-a", SRC, DST], check=True)
    p = f"{DST}/Verif/{m['file']}"
    s = open(p).read()
    n = s.count(m["old"])
    if n < 1: return {"error": "pattern not found"}
    if n > 1 and not m.get("all"): return {"error": f"pattern occurs {n} times"}
    open(p, "w").write(s.replace(m["old"], m["new"]))
    out, code = build()
    errs = re.findall(r"^error: (Verif/\S+\.lean):(\d+):\d+: (.*)", out, re.M)
    if code == 0: return {"failed": [], "props": []}
    failed, props = [], set()
    for f, l, msg in errs:
        k, nm = decl_at(f"{DST}/{f}", int(l))
        if k in ("def", "abbrev", "structure", "instance"): return {"error": f"edit does not compile: {f}:{l} {msg}"}
        if nm not in failed: failed.append(nm)
        props |= deps.get(nm, set())
    if not failed: return {"error": out[-800:]}
    return {"failed": failed, "props": sorted(props)}

for m in json.load(open(sys.argv[1])):
    r = run(m)
    if "error" in r:
        print("ERROR", m["definition"], "|", m["new"][:60], "|", r["error"], flush=True); continue
    rec = {"definition": m["definition"], "edit": m.get("edit") or f"`{m['old']}` -> `{m['new']}`", "claim": m["claim"],
           "theorems_failed": r["props"], "lemmas_failed": [x.removeprefix("Vers.") for x in r["failed"]], "theorems_tightened": m.get("tightened", [])}
    ok = bool(r["props"]) or any(x.startswith("example") for x in r["failed"])
    if ok and m.get("log", True):
        open("/verif/seeded/LOG.jsonl", "a").write(json.dumps(rec, ensure_ascii=False) + "\n")
    print("killed  " if ok else ("SURVIVED" if not r["failed"] else "LEMMA   "), m["definition"], "|", rec["edit"][:90].replace("\n", " "), "|", len(r["props"]), r["props"][:3], r["failed"][:3], flush=True)
