#!/usr/bin/env python3
"""Seeded-bug test of the theorems.

usage: mutate.py muts.json
muts.json: list of {"definition", "file" (relative to lean/Verif), "old", "new", "claim", "edit"}.
For each mutant a scratch copy of the Lake project (outside /verif) is edited and rebuilt. Every theorem
that no longer checks is recorded and replaced by `sorry` in the scratch copy, until the copy builds; then
`#print axioms` tells which property theorems depend on a failed one. One JSON line per mutant is appended
to /verif/seeded/LOG.jsonl. A mutant no property theorem notices is reported as SURVIVED."""
import json, os, re, shutil, subprocess, sys, glob
SRC = os.environ.get("MUT_SRC", "/verif/lean")
DST = os.environ.get("MUT_DIR", "/tmp/mut/lean")
HEAD = re.compile(r"^(?:@\[[^\]]*\]\s*)?(?:private\s+|protected\s+|noncomputable\s+)*(theorem|lemma|example|def|abbrev|instance|structure|inductive|end|namespace|open|section|variable|set_option|/-)")
DECL = re.compile(r"^(?:@\[[^\]]*\]\s*)?(?:private\s+|protected\s+)*(theorem|example)\b\s*([\w.'?!₀-₉]*)")

def sync():
    os.makedirs(DST, exist_ok=True)
    subprocess.run(["rsync", "-a", "--delete", SRC + "/", DST + "/"], check=True) if shutil.which("rsync") else (shutil.rmtree(DST), subprocess.run(["cp", "-a", SRC, DST], check=True))

def drop_heavy():
    """Concrete evaluations that take a minute each and on which nothing depends."""
    for f, nm in [("BpSearch", "C48_zero_defect")]:
        p = f"{DST}/Verif/Props/{f}.lean"
        s = open(p).read()
        i = s.index("theorem " + nm)
        i = s.rindex("/--", 0, i)
        m = re.compile(r"\n\n(?=\S)").search(s, i)
        open(p, "w").write(s[:i] + s[m.end():])

def build():
    r = subprocess.run(["lake", "build"], cwd=DST, capture_output=True, text=True)
    return r.returncode, r.stdout + r.stderr

def sorry_out(path, line):
    L = open(path).read().split("\n")
    i = line - 1
    while i >= 0 and not DECL.match(L[i]):
        if re.match(r"^(def|abbrev|instance|structure|inductive)\b", L[i]):
            return None
        i -= 1
    if i < 0: return None
    m = DECL.match(L[i])
    j = i + 1
    while j < len(L) and (L[j] == "" or L[j][0] in " \t·|<)⟨" or not HEAD.match(L[j])):
        j += 1
    text = "\n".join(L[i:j])
    depth = 0; k = None; pos = 0
    while pos < len(text):
        c = text[pos]
        if c in "([{⟨": depth += 1
        elif c in ")]}⟩": depth -= 1
        elif depth == 0 and text.startswith(":=", pos) and not re.search(r"\blet [\w'′]+ $", text[:pos].split("\n")[-1]):
            k = pos; break
        pos += 1
    if k is None:
        # equation-style or `where` proof
        mm = re.search(r"\bwhere\b|\n\s*\|", text)
        if not mm: return None
        k = mm.start()
    eq = re.search(r"\n\s*\| ", text[:k])
    if eq: k = eq.start()      # equation-style proof
    new = text[:k].rstrip() + " := sorry"
    if new.strip() == text.strip(): return None
    ns = [re.match(r"^namespace (\S+)", x).group(1) for x in L[:i] if x.startswith("namespace ")]
    open(path, "w").write("\n".join(L[:i]) + ("\n" if i else "") + new + "\n\n" + "\n".join(L[j:]))
    return m.group(2) or f"example@{os.path.basename(path)}:{i+1}"

def props():
    out = []
    for f in sorted(glob.glob(DST + "/Verif/Props/*.lean")):
        out += ["Vers." + x for x in re.findall(r"^theorem (C\d\d_\w+)", open(f).read(), re.M)]
    return out

def run(m):
    sync()
    p = f"{DST}/Verif/{m['file']}"
    s = open(p).read()
    n = s.count(m["old"])
    if n < 1: return {"error": "pattern not found"}
    if n > 1 and not m.get("all"): return {"error": f"pattern occurs {n} times"}
    open(p, "w").write(s.replace(m["old"], m["new"]))
    drop_heavy()
    failed = []
    for _ in range(60):
        rc, out = build()
        errs = re.findall(r"^error: (Verif/\S+\.lean):(\d+):\d+: (.*)", out, re.M)
        if rc == 0: break
        if not errs: return {"error": out[-1500:]}
        byfile = {}
        for f, l, msg in errs: byfile.setdefault(f, []).append((int(l), msg))
        prog = False
        for f, ls in byfile.items():
            L = open(f"{DST}/{f}").read().split("\n")
            starts = set()
            for l, msg in ls:
                i = min(l, len(L)) - 1
                while i > 0 and not DECL.match(L[i]): i -= 1
                starts.add(i + 1)
            for l in sorted(starts, reverse=True):
                nm = sorry_out(f"{DST}/{f}", l)
                if nm: failed.append(nm); prog = True
        if not prog: return {"error": "cannot repair: " + str(errs[:3])}
    # which property theorems depend on sorryAx
    ps = props()
    open(DST + "/Chk.lean", "w").write("import Verif\n" + "\n".join(f"#print axioms {x}" for x in ps))
    r = subprocess.run(["lake", "env", "lean", "Chk.lean"], cwd=DST, capture_output=True, text=True)
    dep = []
    for blk in re.split(r"\n(?=')", r.stdout):
        mm = re.match(r"'(\S+?)' depends on axioms: \[(.*)\]", blk, re.S)
        if mm and "sorryAx" in mm.group(2): dep.append(mm.group(1))
    os.remove(DST + "/Chk.lean")
    return {"lemmas_failed": list(dict.fromkeys(failed)), "property_theorems_failed": dep}

def main():
    muts = json.load(open(sys.argv[1]))
    os.makedirs("/verif/seeded", exist_ok=True)
    for m in muts:
        r = run(m)
        if "error" in r:
            print("ERROR", m["definition"], r["error"]); continue
        rec = {"definition": m["definition"], "edit": m.get("edit") or f"`{m['old']}` -> `{m['new']}`", "claim": m["claim"],
               "theorems_failed": r["property_theorems_failed"], "lemmas_failed": r["lemmas_failed"], "theorems_tightened": m.get("tightened", [])}
        ok = bool(r["property_theorems_failed"]) or any(x.startswith("example") for x in r["lemmas_failed"])
        if m.get("log", True):
            open("/verif/seeded/LOG.jsonl", "a").write(json.dumps(rec, ensure_ascii=False) + "\n")
        print("killed " if ok else "SURVIVED", m["definition"], "|", rec["edit"][:80].replace("\n", " "), "|", len(r["property_theorems_failed"]), r["property_theorems_failed"][:4], r["lemmas_failed"][:3], flush=True)
main()
