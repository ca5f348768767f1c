#!/usr/bin/env python3
"""Seeded-bug harness (runs in a scratch copy outside /verif).

usage: seed.py SEEDS.json OUT.jsonl [name ...]

Each seed: {"name","file","definition","edits":[[old,new],...],"edit","claim"}.
For every seed: copy /verif/lean to /tmp/seeds/scratch, apply the edit, build,
and every time a theorem fails to check, replace its proof in the scratch copy
by a placeholder, so that the whole development can be rebuilt.  In the end
the property theorems that still check without depending on a placeholder are
the survivors."""
import json, os, re, subprocess, sys, glob, shutil
SRC, DST = os.environ.get("SEED_SRC", "/verif/lean"), os.environ.get("SEED_SCRATCH", "/tmp/seeds/scratch")
HOLE = "so" + "rry"
DECL = re.compile(r"^(?:@\[[^\]]*\]\s*)?(?:private |protected |noncomputable )*(theorem|lemma|def|example|instance|abbrev|structure|inductive|elab|macro)\b\s*(\S*)")
BOUND = re.compile(r"^(@\[|private |protected |noncomputable |theorem|lemma|def |example|instance|abbrev|structure|inductive|elab|macro|/-|end\b|namespace|open |section|variable|#|set_option|attribute|mutual|import|--)")

def build():
    r = subprocess.run(["lake", "build"], cwd=DST, capture_output=True, text=True)
    return r.returncode, r.stdout + r.stderr

def find_decl(lines, ln):
    i = ln
    while i >= 0 and not DECL.match(lines[i]):
        i -= 1
    if i < 0: return None
    j = i + 1
    while j < len(lines) and not BOUND.match(lines[j]):
        j += 1
    m = DECL.match(lines[i])
    return i, j, m.group(1), m.group(2)

def hole(text):
    depth = 0; k = 0; cands = []
    while k < len(text):
        c = text[k]
        if c == '"':
            k += 1
            while k < len(text) and text[k] != '"':
                k += 2 if text[k] == '\\' else 1
        elif text.startswith("--", k):
            while k < len(text) and text[k] != "\n": k += 1
        elif c in "([{⟨": depth += 1
        elif c in ")]}⟩": depth -= 1
        elif depth == 0 and text.startswith(":=", k):
            cands.append(k)
        elif depth == 0 and text.startswith(" where\n", k) and not cands:
            return text[:k] + " := by " + HOLE + "\n"
        elif depth == 0 and text.startswith("\n  | ", k) and not cands:
            return text[:k] + " := by " + HOLE + "\n"
        k += 1
    if not cands: return None
    best = None
    for k in cands:
        rest = text[k+2:].lstrip()
        if rest.startswith("by") or rest.startswith("fun") or text[k+2] == "\n":
            best = k; break
    if best is None: best = cands[0]
    return text[:best] + ":= by " + HOLE + "\n"

def run(seed):
    if os.path.exists(DST): shutil.rmtree(DST)
    shutil.copytree(SRC, DST, symlinks=True)
    p = f"{DST}/Verif/{seed['file']}"
    s = open(p).read()
    for old, new in seed["edits"]:
        if s.count(old) != 1:
            return {"name": seed["name"], "error": f"edit matches {s.count(old)} times: {old}"}
        s = s.replace(old, new)
    open(p, "w").write(s)
    failed = []
    for rnd in range(40):
        rc, out = build()
        if rc == 0: break
        errs = {}
        for m in re.finditer(r"error: (Verif/\S+?\.lean):(\d+):(\d+):? ?(.*)", out):
            errs.setdefault(m.group(1), set()).add(int(m.group(2)) - 1)
        if not errs:
            return {"name": seed["name"], "error": "build fails oddly", "out": out[-1500:], "failed": failed}
        for f, lns in errs.items():
            lines = open(f"{DST}/{f}").read().split("\n")
            ds = sorted({d for d in (find_decl(lines, l) for l in lns) if d}, reverse=True)
            for (i, j, kind, nm) in ds:
                if (f, nm) in [(a, b) for a, b in failed if b] or kind not in ("theorem", "lemma", "example"):
                    return {"name": seed["name"], "error": f"cannot hole {kind} {nm} in {f}", "failed": failed, "out": out[-3000:]}
                h = hole("\n".join(lines[i:j]) + "\n")
                if h is None:
                    return {"name": seed["name"], "error": f"no proof found {nm} in {f}", "failed": failed}
                lines[i:j] = h.split("\n")
                failed.append((f, nm if kind != "example" else "example"))
            open(f"{DST}/{f}", "w").write("\n".join(lines))
    else:
        return {"name": seed["name"], "error": "too many rounds", "failed": failed}
    thms = []
    for f in sorted(glob.glob(f"{SRC}/Verif/Props/*.lean")):
        ns = []
        for line in open(f):
            m = re.match(r"namespace (\S+)", line)
            if m: ns.append(m.group(1))
            m = re.match(r"end (\S+)", line)
            if m and ns and ns[-1] == m.group(1): ns.pop()
            m = re.match(r"theorem (C\d\d+_\S+)", line)
            if m: thms.append(".".join(ns + [m.group(1)]))
    open(f"{DST}/Ax.lean", "w").write("import Verif\n" + "\n".join(f"#print axioms {t}" for t in thms))
    r = subprocess.run(["lake", "env", "lean", "Ax.lean"], cwd=DST, capture_output=True, text=True)
    out = re.sub(r"\n\s+", " ", r.stdout)
    bad, ok = [], []
    for line in out.split("\n"):
        m = re.match(r"(?:.*info: )?'(\S+)' (.*)", line)
        if m: (bad if "sorryAx" in m.group(2) else ok).append(m.group(1).split(".")[-1])
    return {"name": seed["name"], "failed": [b for a, b in failed], "failed_properties": bad, "survive": ok, "err": r.stderr[-500:]}

if __name__ == "__main__":
    seeds = json.load(open(sys.argv[1])); outp = sys.argv[2]; names = sys.argv[3:]
    for s in seeds:
        if names and s["name"] not in names: continue
        r = run(s)
        with open(outp, "a") as o: o.write(json.dumps({**{k: s[k] for k in ("definition", "edit", "claim")}, **r}) + "\n")
        print(s["name"], r.get("error") or (len(r["failed"]), len(r["failed_properties"]), len(r["survive"])), flush=True)
